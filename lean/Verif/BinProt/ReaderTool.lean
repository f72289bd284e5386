import Verif.BinProt.LooseProps
import Verif.Json.TextProps

/-!
# The layout reader tool

Model of `apps/bin-prot-layout-reader/src/main.rs`.  Not modelled: the reading of the layout document (see `Loose.lean`
for the layouts), the files themselves, the way a value is printed.
-/

namespace MinaRs.BinProt.ReaderTool

open MinaRs MinaRs.BinProt

/-- How a run of the tool ends (`apps/bin-prot-layout-reader/src/main.rs:61-90`). -/
inductive Outcome where
  /-- the value is printed -/
  | prints (v : Value)
  /-- an error is reported -/
  | fails (e : Err)
  /-- the assertion that the bytes are the same fails -/
  | differs

/-- The bytes of a file as characters, as `hex::decode` sees them (`apps/bin-prot-layout-reader/src/main.rs:65`). -/
def chars (bs : Bytes) : Text.Text := bs.map fun b => Char.ofNat b.toNat

/-- `main.rs:61-72`: hexadecimal text is decoded, anything else is taken as it is. -/
def input (file : Bytes) : Bytes :=
  match Codec.hexDecode (chars file) with
  | .ok bs => bs
  | .error _ => file

/-- `main.rs:74-90`: decode by the layout and, with `--roundtrip`, compare with the re-encoded value. -/
def tool (r : Rule) (roundtrip : Bool) (file : Bytes) : Outcome :=
  match (decodeLoose r).run (input file) with
  | .error e => .fails e
  | .ok ((v, _), _) =>
    if roundtrip then if input file = valueBytes v then .prints v else .differs
    else .prints v

end MinaRs.BinProt.ReaderTool
