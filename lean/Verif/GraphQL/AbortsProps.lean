import Verif.GraphQL.AbortsLemmas
import Verif.Genesis.RealProps

/-!
# Importing a GraphQL answer does not end the process (C119)

`Spec.Hazard` and `Spec.EntryAborts` are in `GraphQL/AbortsSpec.lean`.  The checksum is the one that is used.
-/

namespace MinaRs.Merkle

/-- **C28 fails**, by a panic instead of an error, exactly for the empty path and for the paths whose last 64 nodes, those next
to the root, have one hash each. -/
theorem C28_panics_fails {I H : Type} (path : List (PathNode H)) (item : I) :
    (∃ m, pathToProof path item = .error (.panic m)) ↔ path = [] ∨
      ∃ (before : List (PathNode H)) (steps : List (Bool × H)), path = before ++ steps.map Spec.pathNode ∧ steps.length = 64 :=
  pathToProof_panic_iff path item

end MinaRs.Merkle

namespace MinaRs.GraphQL

open Json (J JErr Env)
open Text (Text)
open Hash Spec
open Genesis (env env_nil)

theorem Calm.cases {α : Type} {x : R α} (h : Calm x) : (∃ a, x = .ok a) ∨ x = .error .err := by
  cases x with
  | ok a => exact .inl ⟨a, rfl⟩
  | error e => rw [h e rfl]; exact .inr rfl

/-- **C119.** Importing permissions, a timing, an account or a protocol state gives a value or an error, whatever the
document is. -/
theorem C119_parts (checks : Bool) (j : J) :
    ((∃ q, permissions j = .ok q) ∨ permissions j = .error .err) ∧ (∃ t, timing j = .ok t) ∧
    ((∃ a, account (env checks) j = .ok a) ∨ account (env checks) j = .error .err) ∧
    ((∃ s, protocolState (env checks) j = .ok s) ∨ protocolState (env checks) j = .error .err) := by
  refine ⟨(calm_permissions j).cases, ?_, (calm_account _ (env_nil checks) j).cases, (calm_protocolState _ (env_nil checks) j).cases⟩
  rcases C74_never_refused j with ⟨d, h, -⟩ | h
  · exact ⟨_, h⟩
  · exact ⟨_, h⟩

/-- **C119.** Importing a best chain document gives a value or an error unless an entry of its ledger, under an address, is one of
those listed in `Hazard`.  Missing: those entries, see `C119_import_fails`. -/
theorem C119_import_partial (checks : Bool) (j : J)
    (h : ∀ es key v, j = .obj es → (key, v) ∈ es → AddressText (env checks) key → ¬ Hazard v) :
    (∃ r, bestChain (env checks) j = .ok r) ∨ bestChain (env checks) j = .error .err := by
  simp only [bestChain, bind, Except.bind]
  cases hs : protocolState (env checks) (index (item (index j "bestChain") 0) "protocolState") with
  | error e => exact .inr (by rw [calm_protocolState _ (env_nil checks) _ e hs])
  | ok s =>
    dsimp only
    cases hl : sparseLedger (env checks) j with
    | ok l => exact .inl ⟨_, rfl⟩
    | error e =>
      rcases sparse_error _ _ e hl with rfl | rfl
      · exact .inr rfl
      · cases j with
        | obj es =>
          obtain ⟨b, key, v, c, -, rfl, -, hk, hv⟩ := (sparse_panic_iff _ es).mp hl
          exact absurd (hazard_of_aborts ((entry_panic_iff v).mp hv)) (h _ key v rfl (by simp) hk)
        | _ => cases hl

/-- **C119 fails** exactly for the documents whose first block can be read as a protocol state and whose ledger has an
entry that ends the process, all members under addresses before it being entries that are read. -/
theorem C119_import_fails (checks : Bool) (j : J) : bestChain (env checks) j = .error .panic ↔
    ∃ b bs s before key v after q, ∃ proofs : List LedgerProof, j = .obj (before ++ (key, v) :: after) ∧ index j "bestChain" = .arr (b :: bs) ∧
      ReadsState (env checks) (index b "protocolState") s ∧ ReadsEntries (env checks) before q ∧
      q.map (fun e => Merkle.pathToProof (e.1.map Merkle.Spec.pathNode) e.2) = proofs.map .ok ∧
      AddressText (env checks) key ∧ EntryAborts v := by
  have hE := env_nil checks 0x15 (by decide)
  simp only [bestChain, bind, Except.bind]
  constructor
  · intro h
    cases hs : protocolState (env checks) (index (item (index j "bestChain") 0) "protocolState") with
    | error e => rw [hs] at h; cases h; cases calm_protocolState _ (env_nil checks) _ _ hs
    | ok s =>
      rw [hs] at h
      dsimp only at h
      have hr := (C73_accepted_iff _ hE _ _).mp hs
      cases hl : sparseLedger (env checks) j with
      | ok l => rw [hl] at h; cases h
      | error e =>
        rw [hl] at h
        cases h
        cases j with
        | obj es =>
          obtain ⟨before, key, v, after, proofs, rfl, hb, hk, hv⟩ := (sparse_panic_iff _ es).mp hl
          obtain ⟨q, hq, hm⟩ := (sparseLedger_iff _ before proofs).mp hb
          have hnull : ¬ ReadsState (env checks) .null s := by
            intro h
            obtain ⟨_, _, _, _, _, h⟩ := h.previous
            cases h
          cases hi : index (.obj (before ++ (key, v) :: after)) "bestChain" with
          | arr bs =>
            rw [hi] at hr
            cases bs with
            | nil => exact absurd hr hnull
            | cons b bs => exact ⟨b, bs, s, before, key, v, after, q, proofs, rfl, rfl, hr, hq, hm, hk, (entry_panic_iff v).mp hv⟩
          | _ => rw [hi] at hr; exact absurd hr hnull
        | _ => cases hl
  · rintro ⟨b, bs, s, before, key, v, after, q, proofs, rfl, hi, hs, hq, hm, hk, hv⟩
    rw [hi]
    have : item (.arr (b :: bs)) 0 = b := rfl
    rw [this, (C73_accepted_iff _ hE _ _).mpr hs]
    dsimp only
    rw [(sparse_panic_iff _ _).mpr ⟨before, key, v, after, proofs, rfl, (sparseLedger_iff _ before proofs).mpr ⟨q, hq, hm⟩, hk,
      (entry_panic_iff v).mpr hv⟩]

/-! ## The conditions are met -/

/-- Entries of each kind. -/
example (x : Fp) : EntryAborts (.obj [("merklePath", .arr []), ("leafHash", number x.val)]) ∧
    EntryAborts (.obj [("merklePath", .arr [.obj [("left", number p)]]), ("leafHash", .null)]) ∧
    EntryAborts (.obj [("merklePath", .arr []), ("leafHash", number p)]) := by
  have hx : ReadsField (number x.val) x := ⟨_, rfl, by rw [String.toList_ofList]; exact denotes_decimal x.val⟩
  have hp : Denotes (String.ofList (Text.decimal p)).toList p := by rw [String.toList_ofList]; exact denotes_decimal p
  have hb : p < 2 ^ 256 := by decide +kernel
  refine ⟨.empty rfl hx, ?_, .leaf ⟨[], rfl, .nil⟩ ⟨_, p, rfl, hp, Nat.le_refl _⟩⟩
  refine .node (before := []) (node := .obj [("left", number p)]) (after := []) rfl .nil ?_
  exact ⟨_, _, .inl ⟨_, rfl, rfl, rfl⟩, .inl ⟨_, p, rfl, hp, Nat.le_refl _, hb⟩⟩

/-- A whole document that ends the process, with the state of any block. -/
example (checks : Bool) (s : ProtocolState) (k : PubKey) (leaf : Fp) :
    bestChain (env checks) (.obj (bestChainDoc (env checks) s k [] leaf)) = .error .panic :=
  (C77_panics_fails (env checks) s k leaf p (Nat.le_refl _)).1

/-- A path of 64 nodes. -/
example (x : Fp) : EntryAborts (.obj [("merklePath", .arr (List.replicate 64 (.arr [number x.val, .null]))), ("leafHash", number x.val)]) := by
  have hx : ReadsField (number x.val) x := ⟨_, rfl, by rw [String.toList_ofList]; exact denotes_decimal x.val⟩
  have hn : ReadsNode (.arr [number x.val, .null]) (Merkle.Spec.pathNode (true, x)) := ⟨_, _, .inr rfl, hx, rfl⟩
  have hw : ∀ n, Pointwise ReadsNode (List.replicate n (.arr [number x.val, .null])) ((List.replicate n (true, x)).map Merkle.Spec.pathNode) := by
    intro n
    induction n with
    | zero => exact .nil
    | succ n ih => exact .cons hn ih
  exact .long (path := []) (steps := List.replicate 64 (true, x)) ⟨_, rfl, hw 64⟩ (by simp) hx

/-- An entry with a short path of proper nodes is none of the listed ones. -/
example (x : Fp) : ¬ Hazard (.obj [("merklePath", .arr [.obj [("left", number x.val)]]), ("leafHash", number x.val)]) := by
  have hx : Denotes (String.ofList (Text.decimal x.val)).toList x.val := by rw [String.toList_ofList]; exact denotes_decimal x.val
  have hbig : ¬ BigLeaf (number x.val) := by
    rintro ⟨t, n, h, hd, hn⟩
    cases h
    have h1 := (bigUint_iff _ _).mpr hx
    rw [(bigUint_iff _ _).mpr hd] at h1
    cases h1
    have := x.isLt
    omega
  have hnull : ¬ BigHash .null := by rintro ⟨_, _, h, -⟩; cases h
  intro h
  cases h with
  | hash h1 h2 h3 h4 =>
    have : index (.obj [("merklePath", .arr [.obj [("left", number x.val)]]), ("leafHash", number x.val)]) "merklePath" =
        .arr [.obj [("left", number x.val)]] := rfl
    rw [this] at h1
    cases h1
    have h2 := List.mem_singleton.mp h2
    subst h2
    rcases h3 with ⟨es, h, rfl, rfl⟩ | h
    · rcases h4 with ⟨t, n, h, hd, hn, -⟩ | h
      · exact hbig ⟨t, n, h, hd, hn⟩
      · exact hnull h
    · cases h
  | leaf h => exact hbig h
  | empty h => cases h
  | long h h' =>
    cases h
    simp at h'

end MinaRs.GraphQL
