import Verif.GraphQL.Model
import Verif.Json.Pretty

/-!
# Model of wallet files

`secrets/src/secret_box`: reading a wallet file, writing it back, and decrypting its private key.
Documents are JSON values (`J`); their text form is in `Json/DocText.lean` and `Json/Pretty.lean`.  The password hash, the cipher,
salts and key pairs are external crates, of which `Crypto` states the contract.
-/

namespace MinaRs.Secrets

open Json (J JErr Env)
open Text (Text)
open GraphQL (R)

/-- What the external crates provide.
* `b64Encode`, `b64Decode`: `SaltString::b64_encode` and `b64_decode` into a buffer of 16 bytes.  Salts of 16
  bytes are accepted and decoded as they were; longer ones do not fit the buffer; whatever is decoded is what
  was encoded.
* `argon2 m t salt password`: `Argon2::hash_password` with these costs, with an output of 32 bytes
  (`argon2`'s default).
* `openBox key nonce ciphertext`: `XSalsa20Poly1305::decrypt`.
* `fromHex`: `Keypair::from_hex` (`secrets/src/secret_box/types_impls.rs:23, 54, 91-100, 114-119, 130`). -/
structure Crypto where
  Salt : Type
  b64Encode : Bytes → Option Salt
  b64Decode : Salt → Option Bytes
  b64_16 : ∀ bs : Bytes, bs.length = 16 → ∃ s, b64Encode bs = some s ∧ b64Decode s = some bs
  b64_long : ∀ bs s, b64Encode bs = some s → 16 < bs.length → b64Decode s = none
  b64_inv : ∀ bs s bs', b64Encode bs = some s → b64Decode s = some bs' → bs' = bs
  argon2 : UInt32 → UInt32 → Salt → Bytes → Option Bytes
  argon2_length : ∀ m t s pw k, argon2 m t s pw = some k → k.length = 32
  openBox : Bytes → Bytes → Bytes → Option Bytes
  Keypair : Type
  fromHex : Text → Option Keypair

/-- types.rs 8-16 (`SecretBoxJson`); the numbers are `i64`. -/
structure BoxJson where
  boxPrimitive : String
  pwPrimitive : String
  nonce : String
  pwsalt : String
  memLimit : Int
  opsLimit : Int
  ciphertext : String
  deriving DecidableEq

/-- types.rs 21-29 (`SecretBox`) -/
structure SecretBox (Salt : Type) where
  boxPrimitive : String
  pwPrimitive : String
  nonce : Bytes
  pwsalt : Salt
  memLimit : Int
  opsLimit : UInt32
  ciphertext : Bytes

/-- constants.rs 4 -/
def boxPrimitive : String := "xsalsa20poly1305"

/-- constants.rs 5 -/
def pwPrimitive : String := "argon2i"

/-- utils.rs 6 -/
def versionByte : UInt8 := 0x02

/-- utils.rs 8-16 (`base58_decode`); `remove(0)` of an empty vector panics. -/
def base58Decode (E : Env) (s : Text) : R Bytes :=
  match Codec.decodeCheck E.chk versionByte s with
  | .error _ => .error .err
  | .ok [] => .error .panic
  | .ok (_ :: bs) => .ok bs

/-- utils.rs 18-22 (`base58_encode`) -/
def base58Encode (E : Env) (bs : Bytes) : Text := Codec.encodeCheck E.chk versionByte bs

/-- `String` of serde (`secrets/src/secret_box/types.rs:8-16`). -/
def deString : J → R String
  | .str s => .ok s
  | _ => .error .err

/-- `i64` of serde (`secrets/src/secret_box/types.rs:14`). -/
def deI64 : J → R Int
  | .num n => if -(2 ^ 63) ≤ n ∧ n < 2 ^ 63 then .ok n else .error .err
  | _ => .error .err

/-- `[i64; 2]` of serde (`secrets/src/secret_box/types.rs:14`). -/
def dePair : J → R (Int × Int)
  | .arr [a, b] => do
    let x ← deI64 a
    let y ← deI64 b
    .ok (x, y)
  | _ => .error .err

/-- The member of an object with this name, if there is one and only one (`secrets/src/secret_box/types.rs:7-16`).  A struct refuses
documents that lack a field or have it twice; it refuses `null` for each of these fields, so `null` stands for both. -/
def member (es : List (String × J)) (name : String) : J :=
  match Json.lookup name es with
  | [j] => j
  | _ => .null

/-- The six fields, as members of an object or items of an array (`secrets/src/secret_box/types.rs:8-16`). -/
def deFields (f1 f2 f3 f4 f5 f6 : J) : R BoxJson := do
  let a ← deString f1
  let b ← deString f2
  let c ← deString f3
  let d ← deString f4
  let e ← dePair f5
  let f ← deString f6
  .ok ⟨a, b, c, d, e.1, e.2, f⟩

/-- types.rs 7 (derived `Deserialize for SecretBoxJson`) -/
def deJson : J → R BoxJson
  | .obj es => deFields (member es "box_primitive") (member es "pw_primitive") (member es "nonce")
      (member es "pwsalt") (member es "pwdiff") (member es "ciphertext")
  | .arr [f1, f2, f3, f4, f5, f6] => deFields f1 f2 f3 f4 f5 f6
  | _ => .error .err

/-- types.rs 7 (derived `Serialize for SecretBoxJson`) -/
def serJson (b : BoxJson) : J := .obj [("box_primitive", .str b.boxPrimitive), ("pw_primitive", .str b.pwPrimitive),
  ("nonce", .str b.nonce), ("pwsalt", .str b.pwsalt), ("pwdiff", .arr [.num b.memLimit, .num b.opsLimit]),
  ("ciphertext", .str b.ciphertext)]

/-- `x as u32` of an `i64` (`secrets/src/secret_box/types_impls.rs:32, 89`). -/
def asU32 (n : Int) : UInt32 := UInt32.ofInt n

/-- `SaltString::b64_encode(..).map_err(..)?` (`secrets/src/secret_box/types_impls.rs:23-24`) -/
def saltOf (C : Crypto) (bs : Bytes) : R C.Salt :=
  match C.b64Encode bs with
  | some s => .ok s
  | none => .error .err

/-- types_impls.rs 11-36 (`TryFrom<SecretBoxJson> for SecretBox`) -/
def ofJson (E : Env) (C : Crypto) (json : BoxJson) : R (SecretBox C.Salt) :=
  if json.boxPrimitive ≠ boxPrimitive then .error .err
  else if json.pwPrimitive ≠ pwPrimitive then .error .err
  else do
    let saltBytes ← base58Decode E json.pwsalt.toList
    let salt ← saltOf C saltBytes
    let nonce ← base58Decode E json.nonce.toList
    let ciphertext ← base58Decode E json.ciphertext.toList
    .ok ⟨json.boxPrimitive, json.pwPrimitive, nonce, salt, json.memLimit, asU32 json.opsLimit, ciphertext⟩

/-- types_impls.rs 38-44 (`TryFrom<&str> for SecretBox`), from the document on. -/
def read (E : Env) (C : Crypto) (j : J) : R (SecretBox C.Salt) := do
  let json ← deJson j
  ofJson E C json

/-- types_impls.rs 46-67 (`TryFrom<SecretBox> for SecretBoxJson`) -/
def toJson (E : Env) (C : Crypto) (sb : SecretBox C.Salt) : R BoxJson :=
  match C.b64Decode sb.pwsalt with
  | none => .error .err
  | some bytes => .ok ⟨sb.boxPrimitive, sb.pwPrimitive, String.ofList (base58Encode E sb.nonce),
      String.ofList (base58Encode E bytes), sb.memLimit, sb.opsLimit.toNat, String.ofList (base58Encode E sb.ciphertext)⟩

/-- types_impls.rs 69-83 (`TryInto<String>`, `TryInto<serde_json::Value>`), up to the document. -/
def write (E : Env) (C : Crypto) (sb : SecretBox C.Salt) : R J := do
  let json ← toJson E C sb
  .ok (serJson json)

/-- types_impls.rs 38-44 (`TryFrom<&str> for SecretBox`) -/
def readText (F : Json.Floats) (E : Env) (C : Crypto) (s : Text) : R (SecretBox C.Salt) :=
  match Json.parse F s with
  | none => .error .err
  | some j => read E C j

/-- types_impls.rs 69-75 (`TryInto<String> for SecretBox`) -/
def writeText (F : Json.Floats) (E : Env) (C : Crypto) (sb : SecretBox C.Salt) : R Text := do
  let j ← write E C sb
  .ok (Json.pretty F 0 j)

/-- types_impls.rs 77-83 (`TryInto<serde_json::Value> for SecretBox`) -/
def writeValue (F : Json.Floats) (E : Env) (C : Crypto) (sb : SecretBox C.Salt) : R J := do
  let s ← writeText F E C sb
  match Json.parse F s with
  | none => .error .err
  | some j => .ok (Json.asValue j)

/-- types_impls.rs 86-108 (`try_gen_secret`); the division rounds towards zero. -/
def genSecret (C : Crypto) (sb : SecretBox C.Salt) (password : Bytes) : R Bytes :=
  match C.argon2 (asU32 (sb.memLimit.tdiv 1024)) sb.opsLimit sb.pwsalt password with
  | some k => .ok k
  | none => .error .err

/-- `GenericArray::from_slice` panics unless the length fits; `remove(0)` panics on an empty vector.
types_impls.rs 111-123 (`get_private_key_bytes`) -/
def privateKeyBytes (C : Crypto) (sb : SecretBox C.Salt) (password : Bytes) : R Bytes := do
  let secret ← genSecret C sb password
  if secret.length ≠ 32 then .error .panic
  else if sb.nonce.length ≠ 24 then .error .panic
  else match C.openBox secret sb.nonce sb.ciphertext with
    | none => .error .err
    | some [] => .error .panic
    | some (_ :: bytes) => .ok bytes

/-- types_impls.rs 126-131 (`get_keypair`) -/
def keypair (C : Crypto) (sb : SecretBox C.Salt) (password : Bytes) : R C.Keypair := do
  let bytes ← privateKeyBytes C sb password
  match C.fromHex (Codec.hexEncode bytes.reverse) with
  | some k => .ok k
  | none => .error .err

end MinaRs.Secrets
