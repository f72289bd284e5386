import Verif.BinProt.Bytes
import Verif.Base.Text
import Verif.Json.Radix

/-!
# Text forms of byte strings: hexadecimal, base58, base58check, base64

The crates `hex` 0.4, `bs58` 0.4 (feature `check`) and `base64` 0.13 as the code uses them.  Their
algorithms are modelled (they are not part of the repository); SHA-256 is a parameter.
-/

namespace MinaRs.Codec

open Text (Text)

/-- Errors of the three crates, without their positions (`protocol/serialization-types/src/errors.rs:13`). -/
inductive CodecErr where
  | oddLength
  | invalidCharacter
  | noChecksum
  | invalidChecksum
  | invalidVersion
  | invalidBase64
  deriving DecidableEq, Repr

/-! ## Hexadecimal -/

/-- The lower-case digit used by `hex::encode` (used at
`protocol/serialization-types/src/field_and_curve_elements.rs:135`). -/
def hexDigit (n : Nat) : Char := if n < 10 then Char.ofNat (48 + n) else Char.ofNat (87 + n)

/-- `hex::encode` (used at `protocol/serialization-types/src/field_and_curve_elements.rs:135`) -/
def hexEncode (bs : Bytes) : Text := bs.flatMap (fun b => [hexDigit (b.toNat / 16), hexDigit (b.toNat % 16)])

/-- One digit of `hex::decode`, either case (used at
`protocol/serialization-types/src/field_and_curve_elements.rs:141`). -/
def hexVal (c : Char) : Option Nat :=
  if 48 ≤ c.toNat ∧ c.toNat ≤ 57 then some (c.toNat - 48)
  else if 97 ≤ c.toNat ∧ c.toNat ≤ 102 then some (c.toNat - 87)
  else if 65 ≤ c.toNat ∧ c.toNat ≤ 70 then some (c.toNat - 55)
  else none

/-- The digit pairs of `hex::decode` (used at `protocol/serialization-types/src/field_and_curve_elements.rs:141`). -/
def hexPairs : Text → Except CodecErr Bytes
  | [] => .ok []
  | [_] => .error .oddLength
  | a :: b :: rest =>
    match hexVal a, hexVal b with
    | some x, some y =>
      match hexPairs rest with
      | .ok bs => .ok (UInt8.ofNat (16 * x + y) :: bs)
      | .error e => .error e
    | _, _ => .error .invalidCharacter

/-- `hex::decode`: the length is checked before the digits (used at
`protocol/serialization-types/src/field_and_curve_elements.rs:141`). -/
def hexDecode (s : Text) : Except CodecErr Bytes :=
  if s.length % 2 = 1 then .error .oddLength else hexPairs s

/-! ## Base58 -/

/-- The alphabet of `bs58` (`Alphabet::BITCOIN`) (used at `protocol/serialization-types/src/common.rs:257, 280`). -/
def alphabet58 : List Char := "123456789ABCDEFGHJKLMNPQRSTUVWXYZabcdefghijkmnopqrstuvwxyz".toList

/-- The character of a base58 digit (used at `protocol/serialization-types/src/common.rs:280`). -/
def char58 (d : Nat) : Char := alphabet58.getD d '1'

/-- The digit of a character (used at `protocol/serialization-types/src/common.rs:257`). -/
def digit58 (c : Char) : Option Nat := alphabet58.findIdx? (· == c)

/-- `bs58::encode(bytes).into_string()` (used at `protocol/serialization-types/src/common.rs:280`) -/
def encode58 (bs : Bytes) : Text := (convert 256 58 (bs.map UInt8.toNat)).map char58

/-- The digits of a text, or an error at a character outside the alphabet (used at
`protocol/serialization-types/src/common.rs:257`). -/
def digits58 : Text → Except CodecErr (List Nat)
  | [] => .ok []
  | c :: cs =>
    match digit58 c with
    | none => .error .invalidCharacter
    | some d =>
      match digits58 cs with
      | .ok ds => .ok (d :: ds)
      | .error e => .error e

/-- `bs58::decode(text).into_vec()` (used at `protocol/serialization-types/src/common.rs:257`) -/
def decode58 (s : Text) : Except CodecErr Bytes :=
  match digits58 s with
  | .ok ds => .ok ((convert 58 256 ds).map UInt8.ofNat)
  | .error e => .error e

/-- `bs58::encode(bytes).with_check_version(ver).into_string()`: the version byte in front, the first
four bytes of the double SHA-256 behind.  `chk` is that checksum (used at
`protocol/serialization-types/src/common.rs:280, 356`). -/
def encodeCheck (chk : Bytes → Bytes) (ver : UInt8) (bs : Bytes) : Text :=
  encode58 ((ver :: bs) ++ chk (ver :: bs))

/-- `bs58::decode(text).with_check(Some(ver)).into_vec()`: the version byte is part of the result.  The
version is compared with the first byte of the whole output, also when that byte belongs to the
checksum (used at `protocol/serialization-types/src/common.rs:257-259, 329-331`). -/
def decodeCheck (chk : Bytes → Bytes) (ver : UInt8) (s : Text) : Except CodecErr Bytes :=
  match decode58 s with
  | .error e => .error e
  | .ok out =>
    if out.length < 4 then .error .noChecksum
    else if chk (out.take (out.length - 4)) ≠ out.drop (out.length - 4) then .error .invalidChecksum
    else if out.head? = some ver then .ok (out.take (out.length - 4))
    else .error .invalidVersion

/-! ## Base64 (URL-safe alphabet, padding written, padding optional when reading) -/

/-- The alphabet of `base64::URL_SAFE` (used at `protocol/serialization-types/src/consensus_state.rs:35, 47`). -/
def alphabet64 : List Char := "ABCDEFGHIJKLMNOPQRSTUVWXYZabcdefghijklmnopqrstuvwxyz0123456789-_".toList

/-- The character of a base64 digit (used at `protocol/serialization-types/src/consensus_state.rs:35`). -/
def char64 (d : Nat) : Char := alphabet64.getD d 'A'

/-- The digit of a character (used at `protocol/serialization-types/src/consensus_state.rs:47`). -/
def digit64 (c : Char) : Option Nat := alphabet64.findIdx? (· == c)

/-- `base64::encode_config(bytes, URL_SAFE)` (used at `protocol/serialization-types/src/consensus_state.rs:35`) -/
def encode64 : Bytes → Text
  | [] => []
  | [x] => [char64 (x.toNat / 4), char64 (x.toNat % 4 * 16), '=', '=']
  | [x, y] =>
    [char64 (x.toNat / 4), char64 (x.toNat % 4 * 16 + y.toNat / 16), char64 (y.toNat % 16 * 4), '=']
  | x :: y :: z :: rest =>
    char64 (x.toNat / 4) :: char64 (x.toNat % 4 * 16 + y.toNat / 16) ::
      char64 (y.toNat % 16 * 4 + z.toNat / 64) :: char64 (z.toNat % 64) :: encode64 rest

/-- Two last symbols: one byte; the four spare bits must be zero (used at
`protocol/serialization-types/src/consensus_state.rs:47`). -/
def tail2 (a b : Char) : Except CodecErr Bytes :=
  match digit64 a, digit64 b with
  | some x, some y => if y % 16 = 0 then .ok [UInt8.ofNat (x * 4 + y / 16)] else .error .invalidBase64
  | _, _ => .error .invalidBase64

/-- Three last symbols: two bytes; the two spare bits must be zero (used at
`protocol/serialization-types/src/consensus_state.rs:47`). -/
def tail3 (a b c : Char) : Except CodecErr Bytes :=
  match digit64 a, digit64 b, digit64 c with
  | some x, some y, some z =>
    if z % 4 = 0 then .ok [UInt8.ofNat (x * 4 + y / 16), UInt8.ofNat (y % 16 * 16 + z / 4)] else .error .invalidBase64
  | _, _, _ => .error .invalidBase64

/-- Four symbols: three bytes (used at `protocol/serialization-types/src/consensus_state.rs:47`). -/
def quad (a b c d : Char) : Except CodecErr Bytes :=
  match digit64 a, digit64 b, digit64 c, digit64 d with
  | some x, some y, some z, some w =>
    .ok [UInt8.ofNat (x * 4 + y / 16), UInt8.ofNat (y % 16 * 16 + z / 4), UInt8.ofNat (z % 4 * 64 + w)]
  | _, _, _, _ => .error .invalidBase64

/-- `base64::decode_config(text, URL_SAFE)` (used at `protocol/serialization-types/src/consensus_state.rs:47`) -/
def decode64 : Text → Except CodecErr Bytes
  | [] => .ok []
  | [_] => .error .invalidBase64
  | [a, b] => tail2 a b
  | [a, b, c] => if c = '=' then tail2 a b else tail3 a b c
  | [a, b, c, d] => if d = '=' then (if c = '=' then tail2 a b else tail3 a b c) else quad a b c d
  | a :: b :: c :: d :: rest =>
    match quad a b c d, decode64 rest with
    | .ok xs, .ok ys => .ok (xs ++ ys)
    | .error e, _ => .error e
    | _, .error e => .error e

end MinaRs.Codec
