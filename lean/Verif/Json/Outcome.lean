import Verif.Json.Eqns

/-! When serialization to JSON succeeds. -/

namespace MinaRs.Json

open BinProt (Ty Tys Fits)
open Codec

/-- Success exactly under a condition, and no serde error otherwise. -/
def Decides {α : Type} (r : Except JErr α) (P : Prop) (Q : α → Prop) : Prop :=
  (∃ a, r = .ok a ∧ P ∧ Q a) ∨ (∃ e, r = .error e ∧ e ≠ .err ∧ ¬ P)

theorem uncheckedString_decides (bs : Bytes) : Decides (uncheckedString bs) (IsUtf8 bs) (fun _ => True) := by
  unfold uncheckedString
  cases h : String.fromUTF8? ⟨bs.toArray⟩ with
  | some s =>
    exact .inl ⟨_, rfl, ⟨s, (BinProt.utf8_of_fromUTF8? h).symm⟩, trivial⟩
  | none =>
    refine .inr ⟨.ub, rfl, (fun h => by cases h), ?_⟩
    rintro ⟨s, rfl⟩
    rw [BinProt.fromUTF8?_utf8] at h
    cases h

theorem utf8_singleton_ascii {b : UInt8} : IsUtf8 [b] ↔ b.toNat < 128 := by
  constructor
  · rintro ⟨s, hs⟩
    have h1 : ∀ n : Fin 256, (128 ≤ n.1) → String.fromUTF8? ⟨[UInt8.ofNat n.1].toArray⟩ = none := by decide +kernel
    have h2 := BinProt.fromUTF8?_utf8 s
    rw [hs] at h2
    have h3 := h1 ⟨b.toNat, b.toNat_lt⟩
    simp only [UInt8.ofNat_toNat] at h3
    rcases Nat.lt_or_ge b.toNat 128 with h | h
    · exact h
    · rw [h3 h] at h2; cases h2
  · intro h
    exact ⟨_, utf8_ascii h⟩

theorem leaf_decides (E : Env) (c : Leaf) (v : c.wire.denote) : Decides (c.ser E v) (c.Writable v) (fun _ => True) := by
  cases c with
  | char =>
    change UInt8 at v
    rcases uncheckedString_decides [v] with ⟨a, h1, h2, -⟩ | ⟨e, h1, h2, h3⟩
    · exact .inl ⟨a, h1, utf8_singleton_ascii.mp h2, trivial⟩
    · exact .inr ⟨e, h1, h2, fun h => h3 (utf8_singleton_ascii.mpr h)⟩
  | byteVec =>
    change Bytes at v
    exact uncheckedString_decides v
  | publicKey =>
    obtain ⟨x, odd, u⟩ : arr32.denote × Bool × Unit := v
    by_cases h : leNat (arrBytes 32 x) < Hash.p
    · refine .inl ⟨ofText (address E (arrBytes 32 x) odd), ?_, ?_, trivial⟩
      · simp only [Leaf.ser]; exact if_pos h
      · simp only [Leaf.Writable]; exact h
    · refine .inr ⟨.panic, ?_, (fun h => by cases h), ?_⟩
      · simp only [Leaf.ser]; exact if_neg h
      · simp only [Leaf.Writable]; exact h
  | _ => exact .inl ⟨_, rfl, trivial, trivial⟩

theorem collect_decides {α β : Type} (f : α → Except JErr β) (P : α → Prop)
    (h : ∀ a, Decides (f a) (P a) (fun _ => True)) :
    ∀ as : List α, Decides (collect f as) (∀ a ∈ as, P a) (fun _ => True)
  | [] => .inl ⟨[], rfl, by simp, trivial⟩
  | a :: as => by
    rcases h a with ⟨b, h1, h2, -⟩ | ⟨e, h1, h2, h3⟩
    · rcases collect_decides f P h as with ⟨bs, h4, h5, -⟩ | ⟨e, h4, h5, h6⟩
      · exact .inl ⟨b :: bs, by simp only [collect, h1, h4], by simp [h2]; exact h5, trivial⟩
      · exact .inr ⟨e, by simp only [collect, h1, h4], h5, fun hh => h6 (fun x hx => hh x (by simp [hx]))⟩
    · exact .inr ⟨e, by simp only [collect, h1], h2, fun hh => h3 (hh a (by simp))⟩

/-- Externally tagged documents. -/
def IsTagged (j : J) : Prop := (∃ n, j = .str n) ∨ ∃ n v, j = .obj [(n, v)]

theorem IsTagged.list {j : J} (h : IsTagged j) (expand : Bool) : ∃ k, toListTagged expand j = .ok k := by
  rcases h with ⟨n, rfl⟩ | ⟨n, v, rfl⟩
  · exact ⟨_, rfl⟩
  · cases expand <;> cases v <;> exact ⟨_, rfl⟩

theorem IsTagged.value {j : J} (h : IsTagged j) : IsTagged (asValue j) := by
  rcases h with ⟨n, rfl⟩ | ⟨n, v, rfl⟩
  · exact .inl ⟨n, rfl⟩
  · exact .inr ⟨n, asValue v, rfl⟩

mutual
theorem ser_decides (E : Env) : (t : JTy) → (v : t.wire.denote) →
    Decides (ser E t v) (Leaves Leaf.Writable t v) (fun _ => True)
  | .leaf c, v => by simp only [Leaves]; exact leaf_decides E c v
  | .unit, _ => .inl ⟨.null, rfl, by simp only [Leaves], trivial⟩
  | .bool, v => .inl ⟨.bool v, rfl, by simp only [Leaves], trivial⟩
  | .option t, v => by
    simp only [Leaves]
    obtain _ | w : Option t.wire.denote := v
    · exact .inl ⟨.null, rfl, (fun w h => by cases h), trivial⟩
    · rcases ser_decides E t w with ⟨a, h1, h2, -⟩ | ⟨e, h1, h2, h3⟩
      · exact .inl ⟨a, by rw [ser_some]; exact h1, (fun x hx => by cases hx; exact h2), trivial⟩
      · exact .inr ⟨e, by rw [ser_some]; exact h1, h2, fun hh => h3 (hh w rfl)⟩
  | .newtype t, v => by simp only [Leaves]; exact ser_decides E t v
  | .seq t, v => by
    simp only [Leaves]
    rcases collect_decides (ser E t) (Leaves Leaf.Writable t) (ser_decides E t) v with ⟨a, h1, h2, -⟩ | ⟨e, h1, h2, h3⟩
    · exact .inl ⟨.arr a, by rw [ser_seq E t v, h1], h2, trivial⟩
    · exact .inr ⟨e, by rw [ser_seq E t v, h1], h2, h3⟩
  | .tuple ts, v => by
    simp only [Leaves]
    rcases serTuple_decides E ts v with ⟨a, h1, h2, -⟩ | ⟨e, h1, h2, h3⟩
    · exact .inl ⟨.arr a, by rw [ser_tuple, h1], h2, trivial⟩
    · exact .inr ⟨e, by rw [ser_tuple, h1], h2, h3⟩
  | .struct ts, v => by
    simp only [Leaves]
    rcases serStruct_decides E ts v with ⟨a, h1, h2, -⟩ | ⟨e, h1, h2, h3⟩
    · exact .inl ⟨.obj a, by rw [ser_struct, h1], h2, trivial⟩
    · exact .inr ⟨e, by rw [ser_struct, h1], h2, h3⟩
  | .versioned t, v => by simp only [Leaves]; exact ser_decides E t _
  | .listEnum poly expand vs, v => by
    simp only [Leaves]
    rcases serTagged_decides E vs (cast (denote_listEnum poly expand vs) v) with ⟨a, h1, h2, h3⟩ | ⟨e, h1, h2, h3⟩
    · obtain ⟨k, hk⟩ := h3.value.list expand
      exact .inl ⟨k, by rw [ser_listEnum, h1]; exact hk, h2, trivial⟩
    · exact .inr ⟨e, by rw [ser_listEnum, h1], h2, h3⟩
  | .tagEnum vs, v => by
    simp only [Leaves]
    rcases serTagged_decides E vs v with ⟨a, h1, h2, h3⟩ | ⟨e, h1, h2, h3⟩
    · exact .inl ⟨a, h1, h2, trivial⟩
    · exact .inr ⟨e, h1, h2, h3⟩
theorem serTuple_decides (E : Env) : (ts : JTys) → (v : ts.wire.prod) →
    Decides (serTuple E ts v) (LeavesAll Leaf.Writable ts v) (fun _ => True)
  | .nil, _ => .inl ⟨[], rfl, by simp only [LeavesAll], trivial⟩
  | .cons n t ts, v => by
    simp only [LeavesAll]
    obtain ⟨a, b⟩ : t.wire.denote × ts.wire.prod := v
    rw [serTuple_cons]
    rcases ser_decides E t a with ⟨j, h1, h2, -⟩ | ⟨e, h1, h2, h3⟩
    · rcases serTuple_decides E ts b with ⟨js, h4, h5, -⟩ | ⟨e, h4, h5, h6⟩
      · exact .inl ⟨j :: js, by simp only [h1, h4], ⟨h2, h5⟩, trivial⟩
      · exact .inr ⟨e, by simp only [h1, h4], h5, fun hh => h6 hh.2⟩
    · exact .inr ⟨e, by simp only [h1], h2, fun hh => h3 hh.1⟩
  | .skip n s ts, v => by simp only [LeavesAll]; exact serTuple_decides E ts _
theorem serStruct_decides (E : Env) : (ts : JTys) → (v : ts.wire.prod) →
    Decides (serStruct E ts v) (LeavesAll Leaf.Writable ts v) (fun _ => True)
  | .nil, _ => .inl ⟨[], rfl, by simp only [LeavesAll], trivial⟩
  | .cons n t ts, v => by
    simp only [LeavesAll]
    obtain ⟨a, b⟩ : t.wire.denote × ts.wire.prod := v
    rw [serStruct_cons]
    rcases ser_decides E t a with ⟨j, h1, h2, -⟩ | ⟨e, h1, h2, h3⟩
    · rcases serStruct_decides E ts b with ⟨js, h4, h5, -⟩ | ⟨e, h4, h5, h6⟩
      · exact .inl ⟨(n, j) :: js, by simp only [h1, h4], ⟨h2, h5⟩, trivial⟩
      · exact .inr ⟨e, by simp only [h1, h4], h5, fun hh => h6 hh.2⟩
    · exact .inr ⟨e, by simp only [h1], h2, fun hh => h3 hh.1⟩
  | .skip n s ts, v => by simp only [LeavesAll]; exact serStruct_decides E ts _
theorem serTagged_decides (E : Env) : (vs : JVars) → (v : vs.wire.sum) →
    Decides (serTagged E vs v) (LeavesVar Leaf.Writable vs v) IsTagged
  | .nil, v => nomatch (show Empty from v)
  | .cons n p vs, v => by
    obtain w | w : p.wire.denote ⊕ vs.wire.sum := v
    · simp only [LeavesVar]; rw [serTagged_inl]; exact serPay_decides E n p w
    · simp only [LeavesVar]; rw [serTagged_inr]; exact serTagged_decides E vs w
theorem serPay_decides (E : Env) (n : String) : (p : JPay) → (v : p.wire.denote) →
    Decides (serPay E n p v) (LeavesPay Leaf.Writable p v) IsTagged
  | .unit, _ => .inl ⟨.str n, rfl, by simp only [LeavesPay], .inl ⟨n, rfl⟩⟩
  | .newtype t, v => by
    simp only [LeavesPay]
    rcases ser_decides E t v with ⟨a, h1, h2, -⟩ | ⟨e, h1, h2, h3⟩
    · exact .inl ⟨_, by simp only [serPay_newtype]; rw [h1], h2, .inr ⟨n, a, rfl⟩⟩
    · exact .inr ⟨e, by simp only [serPay_newtype]; rw [h1], h2, h3⟩
  | .tuple ts, v => by
    simp only [LeavesPay]
    rcases serTuple_decides E ts v with ⟨a, h1, h2, -⟩ | ⟨e, h1, h2, h3⟩
    · exact .inl ⟨_, by rw [serPay_tuple, h1], h2, .inr ⟨n, .arr a, rfl⟩⟩
    · exact .inr ⟨e, by rw [serPay_tuple, h1], h2, h3⟩
  | .struct ts, v => by
    simp only [LeavesPay]
    rcases serStruct_decides E ts v with ⟨a, h1, h2, -⟩ | ⟨e, h1, h2, h3⟩
    · exact .inl ⟨_, by rw [serPay_struct, h1], h2, .inr ⟨n, .obj a, rfl⟩⟩
    · exact .inr ⟨e, by rw [serPay_struct, h1], h2, h3⟩
end

end MinaRs.Json
