import Verif.Json.Model

/-! # What a wallet file says -/

namespace MinaRs.Secrets.Spec

open Json (J Env)

/-- The contents of a wallet file. -/
structure Wallet where
  nonce : Bytes
  salt : Bytes
  memLimit : Int
  opsLimit : Int
  ciphertext : Bytes
  deriving DecidableEq

/-- Bytes as text: base58check with version 2. -/
def text (E : Env) (bs : Bytes) : J := .str (String.ofList (Codec.encodeCheck E.chk 0x02 bs))

/-- The document is an object with one member of this name, and this is its value.  There may be other members. -/
def Once (j : J) (name : String) (v : J) : Prop := ∃ es, j = .obj es ∧ es.filter (fun e => e.1 == name) = [(name, v)]

/-- The document is a wallet file with these contents. -/
structure Says (E : Env) (j : J) (w : Wallet) : Prop where
  box : Once j "box_primitive" (.str "xsalsa20poly1305")
  pw : Once j "pw_primitive" (.str "argon2i")
  nonce : Once j "nonce" (text E w.nonce)
  salt : Once j "pwsalt" (text E w.salt)
  pwdiff : Once j "pwdiff" (.arr [.num w.memLimit, .num w.opsLimit])
  ciphertext : Once j "ciphertext" (text E w.ciphertext)

/-- The file as the tool writes it, with nothing else in it. -/
def file (E : Env) (w : Wallet) : J := .obj [("box_primitive", .str "xsalsa20poly1305"), ("pw_primitive", .str "argon2i"),
  ("nonce", text E w.nonce), ("pwsalt", text E w.salt), ("pwdiff", .arr [.num w.memLimit, .num w.opsLimit]),
  ("ciphertext", text E w.ciphertext)]

/-- A 64-bit signed number. -/
def IsI64 (n : Int) : Prop := -(2 ^ 63) ≤ n ∧ n < 2 ^ 63

instance (n : Int) : Decidable (IsI64 n) := inferInstanceAs (Decidable (_ ∧ _))

/-- The hexadecimal digits of a number of 32 bytes, most significant first. -/
def hexBE (n : Nat) : Text.Text := Codec.hexEncode (leBytes 32 n).reverse

end MinaRs.Secrets.Spec
