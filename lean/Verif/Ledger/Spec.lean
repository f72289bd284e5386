import Verif.Ledger.Model

/-! # What a genesis ledger holds -/

namespace MinaRs.Ledger.Spec

open BinProt

/-- The entries of a database are in key order and no key occurs twice. -/
def KeyOrder (db : List Entry) : Prop := db.Pairwise (fun a b => a.1 < b.1)

/-- The key starts with the byte 0xfe. -/
def AccountKey (k : Bytes) : Prop := ∃ rest, k = 0xfe :: rest

instance (k : Bytes) : Decidable (AccountKey k) :=
  match k with
  | [] => .isFalse (by rintro ⟨_, h⟩; cases h)
  | b :: rest => if h : b = 0xfe then .isTrue ⟨rest, by rw [h]⟩ else
      .isFalse (by rintro ⟨_, h'⟩; injection h' with h1 _; exact h h1)

/-- The account entries of a database, in key order. -/
def stored (db : List Entry) : List Entry := db.filter (fun e => AccountKey e.1)

end MinaRs.Ledger.Spec
