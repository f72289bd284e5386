import Verif.Json.DocText
import Verif.Json.StrConv

/-!
# Text forms through `serde_json`

`impl_strconv_via_json!` (`protocol/serialization-types/src/macros.rs:13-55`) line by line: `StrConv.fromStr` and `StrConv.toStr`
with the quoted strings that `serde_json` writes and reads in between.
-/

namespace MinaRs.Json.StrConv

open Text (Text)

/-- `TryFrom<&str>` and `FromStr` (`macros.rs:15-29`): the text is quoted and the quoted text read as the JSON type. -/
def fromStrText (F : Floats) (E : Env) (t : Named) (s : String) : Except JErr t.Val :=
  match parse F (print F (.str s)) with
  | none => .error .err
  | some j =>
    match t.leaf.de E j with
    | .error e => .error e
    | .ok v => .ok (t.from v)

/-- `TryFrom<$ty> for String` and `Display` (`macros.rs:31-53`): the value is written as its JSON type and the text read as a
string. -/
def toStrText (F : Floats) (E : Env) (t : Named) (v : t.Val) : Except JErr String :=
  match t.leaf.ser E (t.into v) with
  | .error e => .error e
  | .ok j =>
    match parse F (print F j) with
    | some (.str s) => .ok s
    | _ => .error .err

end MinaRs.Json.StrConv
