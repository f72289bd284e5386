import Verif.Json.Text

/-! # Specification: base64 (RFC 4648), with padding that may be left out -/

namespace MinaRs.Codec.Spec

open Text (Text)

/-- The standard alphabet (RFC 4648, table 1). -/
def standard : List Char := "ABCDEFGHIJKLMNOPQRSTUVWXYZabcdefghijklmnopqrstuvwxyz0123456789+/".toList

/-- The text is base64 of the bytes: four symbols for each three bytes, the last one or two bytes in two or three symbols whose
spare bits are 0, and at most as many `=` as are missing to four. -/
inductive Base64 (alphabet : List Char) : Text → Bytes → Prop
  | nil : Base64 alphabet [] []
  | one (a b : Char) (pad : Text) (x : UInt8) : alphabet[x.toNat / 4]? = some a → alphabet[x.toNat % 4 * 16]? = some b →
      pad ∈ [[], ['='], ['=', '=']] → Base64 alphabet (a :: b :: pad) [x]
  | two (a b c : Char) (pad : Text) (x y : UInt8) : alphabet[x.toNat / 4]? = some a →
      alphabet[x.toNat % 4 * 16 + y.toNat / 16]? = some b → alphabet[y.toNat % 16 * 4]? = some c →
      pad ∈ [[], ['=']] → Base64 alphabet (a :: b :: c :: pad) [x, y]
  | more (a b c d : Char) (t : Text) (x y z : UInt8) (bs : Bytes) : alphabet[x.toNat / 4]? = some a →
      alphabet[x.toNat % 4 * 16 + y.toNat / 16]? = some b → alphabet[y.toNat % 16 * 4 + z.toNat / 64]? = some c →
      alphabet[z.toNat % 64]? = some d → Base64 alphabet t bs → Base64 alphabet (a :: b :: c :: d :: t) (x :: y :: z :: bs)

end MinaRs.Codec.Spec
