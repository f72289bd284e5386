import Verif.Ledger.AccountModel
import Verif.Ledger.Props
import Verif.Account.Props
import Verif.Merkle.CollisionProps
import Verif.Hash.AccountProps
import Verif.Hash.LegacyStateProps

/-! # C91: the genesis ledger of a database of accounts -/

namespace MinaRs.Ledger

open BinProt (NoReadErrors)
open Hash (Fp M)
open Spec

/-! ## Specification -/

/-- The account entries of the database are laid out as these accounts, in key order. -/
def Holds (db : List Entry) (as : List Hash.Account) : Prop :=
  (stored db).length = as.length ∧
  ∀ (i : Nat) (k v : Bytes) (a : Hash.Account), (stored db)[i]? = some (k, v) → as[i]? = some a → Account.Spec.accountLayout a v

/-- See `Holds`; any version numbers will do. -/
def HoldsLegacy (db : List Entry) (as : List Hash.AccountLegacy) : Prop :=
  (stored db).length = as.length ∧
  ∀ (i : Nat) (k v : Bytes) (a : Hash.AccountLegacy), (stored db)[i]? = some (k, v) → as[i]? = some a →
    Account.Spec.legacyLayout Account.Spec.anyVersion a v

/-- The account can be hashed: its two hashes are encodings of field elements. -/
def Hashable (a : Hash.Account) : Prop := Hash.Spec.IsField a.votingFor ∧ Hash.Spec.IsField a.receiptChainHash

/-- The full tree of height 20 over these leaf hashes, the other leaves being `empty`; a node of height `h` is
the hash of its two children under the domain of height `h - 1`. -/
def fullLedgerRoot (H : String → List Fp → Fp) (empty : Fp) (hashes : List Fp) : Fp :=
  Merkle.Spec.fullTree (fun h l r => H ("CodaMklTree" ++ Merkle.pad3 (h - 1)) [l, r]) (fun i => hashes[i]?.getD empty) 20 0

/-! ## Lemmas -/

theorem accounts_of_reads {A : Type} (t : BinProt.Ty) (into : t.denote → Except Merkle.Panic A) (db : List Entry) (hk : KeyOrder db)
    (as : List A) (hl : (stored db).length = as.length)
    (h : ∀ (i : Nat) (k v : Bytes) (a : A), (stored db)[i]? = some (k, v) → as[i]? = some a →
      decodeAccount t into (.ok (k, v)) = .ok (.ok a)) :
    accounts t into db none = as.map (fun a => .ok (.ok a)) := by
  rw [accounts_none t into hk]
  apply List.ext_getElem?
  intro i
  rw [List.getElem?_map, List.getElem?_map]
  cases e : (stored db)[i]? with
  | none =>
    rw [List.getElem?_eq_none_iff] at e
    rw [List.getElem?_eq_none (by omega)]
    rfl
  | some kv =>
    have := (List.getElem?_eq_some_iff.mp e).1
    have ha : as[i]? = some (as[i]'(by omega)) := List.getElem?_eq_getElem _
    rw [ha]
    exact congrArg some (h i kv.1 kv.2 _ e ha)

theorem decode_of_read (k v : Bytes) (a : Hash.Account) (h : Account.readAccount ⟨v, []⟩ = .ok a) :
    decodeAccount Account.account.wire accountInto (.ok (k, v)) = .ok (.ok a) := by
  unfold Account.readAccount Block.tryFromBinprot at h
  unfold decodeAccount
  dsimp only
  cases e : BinProt.fromReaderStrict Account.account.wire ⟨v, []⟩ with
  | error err => rw [e] at h; cases h
  | ok x =>
    rw [e] at h
    simp only at h ⊢
    unfold accountInto
    cases e' : Block.fromWire Account.account x with
    | error err => rw [e'] at h; cases h
    | ok b => rw [e'] at h; cases h; rfl

theorem decode_of_read_legacy (k v : Bytes) (a : Hash.AccountLegacy) (h : Account.readLegacy ⟨v, []⟩ = .ok a) :
    decodeAccount Account.accountLegacy.wire legacyInto (.ok (k, v)) = .ok (.ok a) := by
  unfold Account.readLegacy Block.tryFromBinprot at h
  unfold decodeAccount
  dsimp only
  cases e : BinProt.fromReaderStrict Account.accountLegacy.wire ⟨v, []⟩ with
  | error err => rw [e] at h; cases h
  | ok x =>
    rw [e] at h
    simp only at h ⊢
    unfold legacyInto
    cases e' : Block.fromWire Account.accountLegacy x with
    | error err => rw [e'] at h; cases h
    | ok b => rw [e'] at h; cases h; rfl

/-- The node function of the trees over hashes that may have panicked. -/
abbrev nodeM (H : String → List Fp → Fp) (h : Nat) (l r : M Fp) : M Fp :=
  mergeFields H (if h = 0 then none else some ("CodaMklTree" ++ Merkle.pad3 (h - 1))) l r

theorem fullTree_ok (H : String → List Fp → Fp) (leaf : Nat → M Fp) (leaf' : Nat → Fp) (k : Nat) : ∀ lo,
    (∀ i, lo ≤ i → i < lo + 2 ^ k → leaf i = .ok (leaf' i)) →
    Merkle.Spec.fullTree (nodeM H) leaf k lo =
      .ok (Merkle.Spec.fullTree (fun h l r => H ("CodaMklTree" ++ Merkle.pad3 (h - 1)) [l, r]) leaf' k lo) := by
  induction k with
  | zero => intro lo h; exact h lo (Nat.le_refl _) (by simp)
  | succ k ih =>
    intro lo h
    rw [Nat.pow_succ] at h
    rw [Merkle.Spec.fullTree, ih lo (fun i h1 h2 => h i h1 (by omega)), ih (lo + 2 ^ k) (fun i h1 h2 => h i (by omega) (by omega))]
    rfl

theorem fullTree_error (H : String → List Fp → Fp) (leaf : Nat → M Fp) (k : Nat) : ∀ lo,
    (∃ i e, lo ≤ i ∧ i < lo + 2 ^ k ∧ leaf i = .error e) → ∃ e, Merkle.Spec.fullTree (nodeM H) leaf k lo = .error e := by
  induction k with
  | zero =>
    rintro lo ⟨i, e, h1, h2, h3⟩
    have : i = lo := by simp at h2; omega
    exact ⟨e, this ▸ h3⟩
  | succ k ih =>
    rintro lo ⟨i, e, h1, h2, h3⟩
    rw [Nat.pow_succ] at h2
    rw [Merkle.Spec.fullTree]
    cases hl : Merkle.Spec.fullTree (nodeM H) leaf k lo with
    | error e => exact ⟨e, rfl⟩
    | ok l =>
      have hr : ∃ e, Merkle.Spec.fullTree (nodeM H) leaf k (lo + 2 ^ k) = .error e := by
        refine ih (lo + 2 ^ k) ⟨i, e, ?_, by omega, h3⟩
        apply Nat.le_of_not_lt
        intro hlt
        obtain ⟨e', he'⟩ := ih lo ⟨i, e, h1, hlt, h3⟩
        rw [hl] at he'
        cases he'
      obtain ⟨e', he'⟩ := hr
      exact ⟨e', by rw [he']; rfl⟩

theorem hash_ok (H : String → List Fp → Fp) (a : Hash.Account) (fs : List Fp) (h : Hash.packFields (a.chunked H) = .ok fs) :
    a.hash H = .ok (H "CodaAccount" fs) := by
  unfold Hash.Account.hash Hash.hashChunked
  unfold Hash.packFields at h
  cases e : a.chunked H with
  | error x => rw [e] at h; exact nomatch h
  | ok c => rw [e] at h; simp only [bind, Except.bind] at h ⊢; rw [h]; rfl

theorem hash_error (H : String → List Fp → Fp) (a : Hash.Account) (h : ¬ Hashable a) : ∃ e, a.hash H = .error e := by
  have hn := mt (Hash.C65_no_panic_iff H a).1 h
  cases e : a.hash H with
  | error x => exact ⟨x, rfl⟩
  | ok x =>
    exfalso
    unfold Hash.Account.hash Hash.hashChunked at e
    unfold Hash.packFields at hn
    cases e' : a.chunked H with
    | error x => rw [e'] at e; exact nomatch e
    | ok c =>
      rw [e'] at e hn
      simp only [bind, Except.bind] at e hn
      cases e2 : c.intoFields with
      | error x => rw [e2] at e; exact nomatch e
      | ok fs => exact hn ⟨fs, e2⟩

/-- The leaves of the tree of a list of accounts. -/
def leafM {A : Type} (hash : A → M Fp) (empty : Fp) (as : List A) (i : Nat) : M Fp := (as[i]?.map hash).getD (.ok empty)

/-- The tree of a list of accounts. -/
theorem root_of_accounts {A : Type} (H : String → List Fp → Fp) (empty : Fp) (hash : A → M Fp)
    (as : List A) (hfit : as.length ≤ 2 ^ 20) :
    ∃ tree : Merkle.Tree A (M Fp), toMinaMerkleLedger (E := LedgerErr) (as.map (fun a => .ok (.ok a))) = .ok tree ∧
      ∃ t', tree.root (Merkle.poseidonHasher hash) (Merkle.poseidonMerger (mergeFields H) (.ok empty)) =
        .ok (some (Merkle.Spec.fullTree (nodeM H) (leafM hash empty as) 20 0), t') := by
  obtain ⟨tree, h1, -, h3⟩ := C46_tree_of_accounts_partial (mergeFields H) (.ok empty) hash _ as (E := LedgerErr) rfl hfit
  refine ⟨tree, h1, ?_⟩
  cases e : tree.root (Merkle.poseidonHasher hash) (Merkle.poseidonMerger (mergeFields H) (.ok empty)) with
  | error p => rw [e] at h3; cases h3
  | ok x =>
    rw [e] at h3
    have hl : leafM hash empty as = fun i => match as[i]? with
        | some x => hash x
        | none => .ok empty := by
      funext i
      unfold leafM
      cases as[i]? <;> rfl
    have h3 : x.1 = some (Merkle.Spec.fullTree (nodeM H) (leafM hash empty as) 20 0) := by
      rw [hl]; exact Except.ok.inj h3
    exact ⟨x.2, by rw [← h3]⟩

/-! ## Theorems -/

/-- **C91 (reading).** A database whose account entries are laid out as accounts yields these accounts. -/
theorem C91_accounts_read (db : List Entry) (hk : KeyOrder db) (as : List Hash.Account) (h : Holds db as) :
    ledgerAccounts db none = as.map (fun a => .ok (.ok a)) :=
  accounts_of_reads _ _ db hk as h.1 (fun i k v a h1 h2 => decode_of_read k v a
    ((Account.C90_reads_layout a v [] (by simp [NoReadErrors])).1 (h.2 i k v a h1 h2)))

/-- **C91 (writing).** The accounts the node writes are laid out so. -/
theorem C91_written_partial (db : List Entry) (as : List Hash.Account) (hs : ∀ a ∈ as, Account.Spec.SmallAccount a)
    (h : (stored db).map Prod.snd = as.map Account.writeAccount) : Holds db as := by
  have hl := congrArg List.length h
  rw [List.length_map, List.length_map] at hl
  refine ⟨hl, fun i k v a h1 h2 => ?_⟩
  have := congrArg (fun l : List Bytes => l[i]?) h
  simp only [List.getElem?_map, h1, h2, Option.map_some] at this
  rw [Option.some.inj this]
  exact Account.C90_written_layout_partial a (hs a (List.mem_of_getElem? h2))

/-- **C91 (root).** The ledger of a database of at most 2^20 accounts whose hashes are field elements has as its
root that of the full tree over the hashes of these accounts in key order. -/
theorem C91_root_partial (H : String → List Fp → Fp) (db : List Entry) (hk : KeyOrder db) (as : List Hash.Account) (h : Holds db as)
    (hfit : as.length ≤ 2 ^ 20) (hh : ∀ a ∈ as, Hashable a) :
    ∃ hashes : List Fp, as.map (Hash.Account.hash H) = hashes.map .ok ∧
      ledgerRoot H db none = .ok (some (fullLedgerRoot H emptyKimchi hashes)) := by
  have hx : ∃ hashes : List Fp, as.map (Hash.Account.hash H) = hashes.map .ok := by
    clear h hfit
    induction as with
    | nil => exact ⟨[], rfl⟩
    | cons a as ih =>
      obtain ⟨hs, e⟩ := ih (fun b hb => hh b (List.mem_cons_of_mem _ hb))
      obtain ⟨fs, hf⟩ := (Hash.C65_no_panic_iff H a).2 (hh a List.mem_cons_self)
      exact ⟨H "CodaAccount" fs :: hs, by rw [List.map_cons, List.map_cons, e, hash_ok H a fs hf]⟩
  obtain ⟨hashes, hm⟩ := hx
  refine ⟨hashes, hm, ?_⟩
  obtain ⟨tree, h1, t', h2⟩ := root_of_accounts H emptyKimchi (Hash.Account.hash H) as hfit
  unfold ledgerRoot
  rw [C91_accounts_read db hk as h, h1]
  simp only
  rw [h2, fullTree_ok H _ (fun i => hashes[i]?.getD emptyKimchi) 20 0]
  · rfl
  · intro i _ _
    have := congrArg (fun l : List (M Fp) => l[i]?) hm
    simp only [List.getElem?_map] at this
    unfold leafM
    cases e : as[i]? with
    | none =>
      rw [e] at this
      cases e' : hashes[i]? with
      | none => rfl
      | some x => rw [e'] at this; cases this
    | some a =>
      rw [e] at this
      cases e' : hashes[i]? with
      | none => rw [e'] at this; cases this
      | some x => rw [e'] at this; exact Option.some.inj this

/-- **C91 (aborts).** If one of the accounts has a hash that is not a field element, asking for the root ends the
process. -/
theorem C91_unhashable_aborts (H : String → List Fp → Fp) (db : List Entry) (hk : KeyOrder db) (as : List Hash.Account) (h : Holds db as)
    (hfit : as.length ≤ 2 ^ 20) (a : Hash.Account) (ha : a ∈ as) (hn : ¬ Hashable a) :
    ∃ p, ledgerRoot H db none = .error p := by
  obtain ⟨tree, h1, t', h2⟩ := root_of_accounts H emptyKimchi (Hash.Account.hash H) as hfit
  obtain ⟨i, hi⟩ := List.getElem?_of_mem ha
  obtain ⟨e, he⟩ := hash_error H a hn
  have hlt := (List.getElem?_eq_some_iff.mp hi).1
  obtain ⟨e', he'⟩ := fullTree_error H (leafM (Hash.Account.hash H) emptyKimchi as) 20 0 ⟨i, e, Nat.zero_le _, by omega, by unfold leafM; rw [hi]; exact he⟩
  refine ⟨⟨"hash of an account"⟩, ?_⟩
  unfold ledgerRoot
  rw [C91_accounts_read db hk as h, h1]
  simp only
  rw [h2, he']
  rfl

theorem split_at {α : Type} (l : List α) (i : Nat) (x : α) (h : l[i]? = some x) : l = l.take i ++ x :: l.drop (i + 1) := by
  obtain ⟨hlt, e⟩ := List.getElem?_eq_some_iff.mp h
  rw [← e, ← List.drop_eq_getElem_cons hlt, List.take_append_drop]

/-- **C91 (aborts).** If an entry is the encoding of an account with a key outside the field, and no earlier one is,
building the ledger ends the process. -/
theorem C91_bad_key_aborts (H : String → List Fp → Fp) (db : List Entry) (hk : KeyOrder db) (before : List (Except LedgerErr Hash.Account))
    (i : Nat) (hb : (ledgerAccounts db none).take i = before.map .ok) (k v : Bytes) (hi : (stored db)[i]? = some (k, v))
    (x : Account.account.wire.denote) (hw : BinProt.Spec.Wire Account.account.wire v x) (hc : ¬ Block.Spec.Canonical Account.account x) :
    ∃ p, ledgerRoot H db none = .error p := by
  have hrun := (BinProt.C09_accepts_exactly_wire_forms Account.account.wire
    (Block.wf_of_ordinary Account.account Account.account_ordinary) v x []).mpr ⟨v, by simp, hw⟩
  obtain ⟨p, hp⟩ : ∃ p, accountInto x = .error p := by
    rcases Block.from_cases Account.account x with ⟨h, _⟩ | ⟨_, s, hs⟩
    · exact absurd h hc
    · exact ⟨_, by unfold accountInto; rw [hs]⟩
  have hitem := ((C45_exactly_the_stored_accounts_partial Account.account.wire accountInto db hk).2 i k v hi).2.1 x p hrun hp
  refine ⟨p, ?_⟩
  have hsplit := split_at (ledgerAccounts db none) i (.error p) hitem
  rw [hb] at hsplit
  unfold ledgerRoot
  rw [hsplit, C46_abort_fails]

/-- **C91 (commitment).** Two databases of accounts with the same ledger root hold the same accounts, up to what the
account hash ignores (`Hash.Spec.Agree`); or else two hash inputs that occur in them collide. -/
theorem C91_same_root_partial (H : String → List Fp → Fp) (db db' : List Entry) (hk : KeyOrder db) (hk' : KeyOrder db')
    (as bs : List Hash.Account) (h : Holds db as) (h' : Holds db' bs)
    (hfit : as.length ≤ 2 ^ 20) (hfit' : bs.length ≤ 2 ^ 20) (hh : ∀ a ∈ as, Hashable a) (hh' : ∀ b ∈ bs, Hashable b)
    (hroot : ledgerRoot H db none = ledgerRoot H db' none) :
    (as.length = bs.length ∧ ∀ (i : Nat) (a b : Hash.Account), as[i]? = some a → bs[i]? = some b → Hash.Spec.Agree a b) ∨
    (∃ (i : Nat) (a b : Hash.Account) (fa fb : List Fp), as[i]? = some a ∧ bs[i]? = some b ∧
      Hash.packFields (a.chunked H) = .ok fa ∧ Hash.packFields (b.chunked H) = .ok fb ∧ fa ≠ fb ∧
      H "CodaAccount" fa = H "CodaAccount" fb) ∨
    (∃ a, (a ∈ as ∨ a ∈ bs) ∧ a.hash H = .ok emptyKimchi) ∨
    (∃ hashes hashes' : List Fp, as.map (Hash.Account.hash H) = hashes.map .ok ∧ bs.map (Hash.Account.hash H) = hashes'.map .ok ∧
      Merkle.Spec.TreesCollide (fun h l r => H ("CodaMklTree" ++ Merkle.pad3 (h - 1)) [l, r])
        (fun i => hashes[i]?.getD emptyKimchi) (fun i => hashes'[i]?.getD emptyKimchi) 20) := by
  obtain ⟨hs, m, r⟩ := C91_root_partial H db hk as h hfit hh
  obtain ⟨hs', m', r'⟩ := C91_root_partial H db' hk' bs h' hfit' hh'
  rw [r, r'] at hroot
  have hroot := Option.some.inj (Except.ok.inj hroot)
  have lenA : as.length = hs.length := by have := congrArg List.length m; simpa using this
  have lenB : bs.length = hs'.length := by have := congrArg List.length m'; simpa using this
  have get : ∀ {cs : List Hash.Account} {ks : List Fp}, cs.map (Hash.Account.hash H) = ks.map .ok →
      ∀ (i : Nat) (c : Hash.Account), cs[i]? = some c → ∃ x, ks[i]? = some x ∧ c.hash H = .ok x := by
    intro cs ks e i c hc
    have := congrArg (fun l : List (M Fp) => l[i]?) e
    simp only [List.getElem?_map, hc, Option.map_some] at this
    cases e' : ks[i]? with
    | none => rw [e'] at this; cases this
    | some x => rw [e'] at this; exact ⟨x, rfl, Option.some.inj this⟩
  rcases Merkle.fullTree_commits _ _ _ 20 hroot with a | a
  · -- equal leaves
    by_cases hlen : as.length = bs.length
    · by_cases hall : ∀ (i : Nat) (a b : Hash.Account), as[i]? = some a → bs[i]? = some b → Hash.Spec.Agree a b
      · exact .inl ⟨hlen, hall⟩
      · right; left
        simp only [Classical.not_forall] at hall
        obtain ⟨i, x, y, hx, hy, hn⟩ := hall
        obtain ⟨fa, hfa⟩ := (Hash.C65_no_panic_iff H x).2 (hh x (List.mem_of_getElem? hx))
        obtain ⟨fb, hfb⟩ := (Hash.C65_no_panic_iff H y).2 (hh' y (List.mem_of_getElem? hy))
        refine ⟨i, x, y, fa, fb, hx, hy, hfa, hfb, fun he => hn ?_, ?_⟩
        · exact (Hash.C65_exact_partial H x y (hh x (List.mem_of_getElem? hx))).1 (by rw [hfa, hfb, he])
        · obtain ⟨u, hu, hu'⟩ := get m i x hx
          obtain ⟨w, hw, hw'⟩ := get m' i y hy
          have := a i (by have := (List.getElem?_eq_some_iff.mp hx).1; omega)
          simp only [hu, hw, Option.getD_some] at this
          rw [hash_ok H x fa hfa] at hu'
          rw [hash_ok H y fb hfb] at hw'
          rw [Except.ok.inj hu', Except.ok.inj hw', this]
    · right; right; left
      rcases Nat.lt_or_gt_of_ne hlen with hlt | hlt
      · obtain ⟨x, hx⟩ : ∃ x, bs[as.length]? = some x := ⟨_, List.getElem?_eq_getElem hlt⟩
        obtain ⟨w, hw, hw'⟩ := get m' _ x hx
        have := a as.length (by omega)
        rw [List.getElem?_eq_none (by omega), hw] at this
        exact ⟨x, .inr (List.mem_of_getElem? hx), by rw [hw']; exact congrArg _ this.symm⟩
      · obtain ⟨x, hx⟩ : ∃ x, as[bs.length]? = some x := ⟨_, List.getElem?_eq_getElem hlt⟩
        obtain ⟨w, hw, hw'⟩ := get m _ x hx
        have := a bs.length (by omega)
        rw [List.getElem?_eq_none (l := hs') (by omega), hw] at this
        exact ⟨x, .inl (List.mem_of_getElem? hx), by rw [hw']; exact congrArg _ this⟩
  · exact .inr (.inr (.inr ⟨hs, hs', m, m', a⟩))

/-! ## Accounts of the older format -/

/-- **C91 (writing, older format).** -/
theorem C91_legacy_written_partial (db : List Entry) (as : List Hash.AccountLegacy) (hs : ∀ a ∈ as, Account.Spec.SmallLegacy a)
    (h : (stored db).map Prod.snd = as.map Account.writeLegacy) : HoldsLegacy db as := by
  have hl := congrArg List.length h
  rw [List.length_map, List.length_map] at hl
  refine ⟨hl, fun i k v a h1 h2 => ?_⟩
  have := congrArg (fun l : List Bytes => l[i]?) h
  simp only [List.getElem?_map, h1, h2, Option.map_some] at this
  rw [Option.some.inj this]
  exact Account.written_legacyLayout a (hs a (List.mem_of_getElem? h2))

/-- **C91 (root, older format).** The hashes are those of the token and the balance only. -/
theorem C91_legacy_root_partial (H : String → List Fp → Fp) (db : List Entry) (hk : KeyOrder db) (as : List Hash.AccountLegacy)
    (h : HoldsLegacy db as) (hfit : as.length ≤ 2 ^ 20) :
    legacyAccounts db none = as.map (fun a => .ok (.ok a)) ∧
    legacyRoot H db none = .ok (some (fullLedgerRoot H emptyLegacy
      (as.map (fun a => H "CodaAccount" (Hash.Legacy.toFields (Hash.Legacy.build [Hash.Legacy.u64 a.tokenId, Hash.Legacy.u64 a.balance])))))) := by
  have hr : legacyAccounts db none = as.map (fun a => .ok (.ok a)) :=
    accounts_of_reads _ _ db hk as h.1 (fun i k v a h1 h2 => decode_of_read_legacy k v a
      ((Account.C90_legacy_reads_layout a v [] (by simp [NoReadErrors])).1 (h.2 i k v a h1 h2)))
  refine ⟨hr, ?_⟩
  obtain ⟨tree, h1, t', h2⟩ := root_of_accounts H emptyLegacy
    (fun a : Hash.AccountLegacy => (.ok (H "CodaAccount" a.legacy.toFields) : M Fp)) as hfit
  unfold legacyRoot
  rw [hr, h1]
  simp only
  rw [h2, fullTree_ok H _ (fun i => (as.map (fun a => H "CodaAccount" a.legacy.toFields))[i]?.getD emptyLegacy) 20 0]
  · rfl
  · intro i _ _
    unfold leafM
    rw [List.getElem?_map]
    cases as[i]? <;> rfl

/-- **C91** is false of the code for the older format: the root does not depend on who owns the accounts, nor on
their nonces, delegates, vesting schedules or permissions. -/
theorem C91_legacy_root_ignores_fails (H : String → List Fp → Fp) (db db' : List Entry) (hk : KeyOrder db) (hk' : KeyOrder db')
    (as bs : List Hash.AccountLegacy) (h : HoldsLegacy db as) (h' : HoldsLegacy db' bs) (hfit : as.length ≤ 2 ^ 20)
    (hsame : as.map (fun a => (a.tokenId, a.balance)) = bs.map (fun a => (a.tokenId, a.balance))) :
    legacyRoot H db none = legacyRoot H db' none := by
  have hl : as.length = bs.length := by have := congrArg List.length hsame; simpa using this
  rw [(C91_legacy_root_partial H db hk as h hfit).2, (C91_legacy_root_partial H db' hk' bs h' (hl ▸ hfit)).2]
  have := congrArg (List.map (fun x : UInt64 × UInt64 => H "CodaAccount" (Hash.Legacy.toFields (Hash.Legacy.build [Hash.Legacy.u64 x.1, Hash.Legacy.u64 x.2])))) hsame
  rw [List.map_map, List.map_map] at this
  have e : ∀ cs : List Hash.AccountLegacy, cs.map ((fun x : UInt64 × UInt64 => H "CodaAccount" (Hash.Legacy.toFields (Hash.Legacy.build [Hash.Legacy.u64 x.1, Hash.Legacy.u64 x.2]))) ∘ fun a => (a.tokenId, a.balance)) =
      cs.map (fun a => H "CodaAccount" (Hash.Legacy.toFields (Hash.Legacy.build [Hash.Legacy.u64 a.tokenId, Hash.Legacy.u64 a.balance]))) := fun _ => rfl
  rw [e, e] at this
  rw [this]

/-- **C91 (empty leaves).** The leaves without an account have the hashes the comments give (`merger_poseidon.rs:90-91`,
`134-135`). -/
theorem C91_empty_hashes :
    emptyLegacy.val = 14604874247461951431777712543359658136906556694369689076707549712589474483312 ∧
    emptyKimchi.val = 0x152a1d70fdf6fab070ed15dbca812cb8e1ceedc033b7f788ef032d2fd1bce027 := by decide +kernel

/-! ## Examples -/

/-- Another account. -/
def otherAccount : Hash.Account := { Account.sampleAccount with balance := 7, delegate := none }

/-- A database with an inner node, two accounts, and something else. -/
def accountDb : List Entry :=
  [([0x00, 0x01], [1, 2, 3]), ([0xfe, 0x00], Account.writeAccount Account.sampleAccount),
   ([0xfe, 0x01], Account.writeAccount otherAccount), ([0xff], [])]

theorem accountDb_order : KeyOrder accountDb := by
  unfold KeyOrder accountDb
  simp only [List.pairwise_cons, List.mem_cons, List.not_mem_nil, or_false, forall_eq_or_imp, forall_eq, List.Pairwise.nil,
    and_true, implies_true, false_implies]
  decide

theorem accountDb_holds : Holds accountDb [Account.sampleAccount, otherAccount] :=
  C91_written_partial accountDb _ (by
    intro a ha
    simp only [List.mem_cons, List.not_mem_nil, or_false] at ha
    rcases ha with rfl | rfl <;> decide) rfl

theorem accountDb_hashable : ∀ a ∈ [Account.sampleAccount, otherAccount], Hashable a := by
  intro a ha
  simp only [List.mem_cons, List.not_mem_nil, or_false] at ha
  rcases ha with rfl | rfl <;> exact ⟨by unfold Hash.Spec.IsField; decide +kernel, by unfold Hash.Spec.IsField; decide +kernel⟩

example (H : String → List Fp → Fp) : ∃ hashes : List Fp,
    [Account.sampleAccount, otherAccount].map (Hash.Account.hash H) = hashes.map .ok ∧
      ledgerRoot H accountDb none = .ok (some (fullLedgerRoot H emptyKimchi hashes)) :=
  C91_root_partial H accountDb accountDb_order _ accountDb_holds (by decide) accountDb_hashable

/-- **C91** is false of the code: a stored account whose receipt chain hash is not a field element ends the process
when the root is asked for. -/
theorem C91_root_aborts_fails (H : String → List Fp → Fp) : ∃ (db : List Entry) (as : List Hash.Account) (p : Merkle.Panic),
    KeyOrder db ∧ Holds db as ∧ ledgerAccounts db none = as.map (fun a => .ok (.ok a)) ∧ ledgerRoot H db none = .error p := by
  let a : Hash.Account := { Account.sampleAccount with receiptChainHash := Hash.ones32 }
  have hk : KeyOrder [([0xfe, 0x00], Account.writeAccount a)] := by simp [KeyOrder]
  have hh : Holds [([0xfe, 0x00], Account.writeAccount a)] [a] :=
    C91_written_partial _ _ (by
      intro b hb
      simp only [List.mem_cons, List.not_mem_nil, or_false] at hb
      subst hb
      show Account.Spec.SmallAccount { Account.sampleAccount with receiptChainHash := Hash.ones32 }
      decide) rfl
  obtain ⟨p, hp⟩ := C91_unhashable_aborts H _ hk [a] hh (by simp) a (by simp)
    (fun h => absurd h.2 (by unfold Hash.Spec.IsField; decide +kernel))
  exact ⟨_, _, p, hk, hh, C91_accounts_read _ hk _ hh, hp⟩

/-- **C91** is false of the code: a stored account whose key is not a field element ends the process when the ledger
is built. -/
theorem C91_build_aborts_fails (H : String → List Fp → Fp) :
    ∃ (db : List Entry) (p : Merkle.Panic), KeyOrder db ∧ ledgerRoot H db none = .error p := by
  have hk : KeyOrder [([0xfe, 0x00], Account.badKeyBytes)] := by simp [KeyOrder]
  rcases Account.C90_outcomes_partial Account.badKeyBytes [] (by simp [NoReadErrors]) with ⟨e, h1, h2⟩ | ⟨a, _, _, h1, _⟩ |
    ⟨m, enc, r, v, h1, h2, h3, h4⟩
  · have h : Account.aborts (Account.readAccount ⟨Account.badKeyBytes, []⟩) = true := by decide +kernel
    rw [h2] at h
    cases e with
    | panic m => exact absurd rfl (h1 m)
    | _ => cases h
  · have h : Account.aborts (Account.readAccount ⟨Account.badKeyBytes, []⟩) = true := by decide +kernel
    rw [h1] at h
    cases h
  · have hk' : KeyOrder [([0xfe, 0x00], enc)] := by simp [KeyOrder]
    obtain ⟨p, hp⟩ := C91_bad_key_aborts H [([0xfe, 0x00], enc)] hk' [] 0 rfl [0xfe, 0x00] enc (by rfl) v h3 h4
    exact ⟨_, p, hk', hp⟩

/-- A database with the repository's sample accounts. -/
def legacyDb : List Entry := [([0xfe, 0x00], Account.storedAccount), ([0xfe, 0x01], Account.storedAccount2)]

theorem legacyDb_holds : HoldsLegacy legacyDb [Account.storedAccountValue, Account.storedAccountValue2] :=
  C91_legacy_written_partial legacyDb _ (by
    intro a ha
    simp only [List.mem_cons, List.not_mem_nil, or_false] at ha
    rcases ha with rfl | rfl <;> decide) (by decide +kernel)

/-- The same database after both accounts have changed hands. -/
def stolenAccounts : List Hash.AccountLegacy :=
  [{ Account.storedAccountValue with publicKey := ⟨0, true⟩ }, { Account.storedAccountValue2 with publicKey := ⟨0, true⟩ }]

/-- Two databases with the same root and different owners. -/
example (H : String → List Fp → Fp) : ∃ db', legacyRoot H legacyDb none = legacyRoot H db' none ∧
    legacyAccounts db' none = stolenAccounts.map (fun a => .ok (.ok a)) := by
  let db' : List Entry := [([0xfe, 0x00], Account.writeLegacy { Account.storedAccountValue with publicKey := ⟨0, true⟩ }),
    ([0xfe, 0x01], Account.writeLegacy { Account.storedAccountValue2 with publicKey := ⟨0, true⟩ })]
  have hk : KeyOrder legacyDb := by
    unfold KeyOrder legacyDb
    simp only [List.pairwise_cons, List.mem_cons, List.not_mem_nil, or_false, forall_eq, List.Pairwise.nil, and_true,
      implies_true, false_implies]
    decide
  have hk' : KeyOrder db' := by
    show KeyOrder [([0xfe, 0x00], _), ([0xfe, 0x01], _)]
    unfold KeyOrder
    simp only [List.pairwise_cons, List.mem_cons, List.not_mem_nil, or_false, forall_eq, List.Pairwise.nil, and_true,
      implies_true, false_implies]
    decide
  have hh : HoldsLegacy db' stolenAccounts := C91_legacy_written_partial db' _ (by
    intro a ha
    unfold stolenAccounts at ha
    simp only [List.mem_cons, List.not_mem_nil, or_false] at ha
    rcases ha with rfl | rfl <;> decide) rfl
  exact ⟨db', C91_legacy_root_ignores_fails H _ _ hk hk' _ _ legacyDb_holds hh (by decide) rfl,
    (C91_legacy_root_partial H db' hk' _ hh (by decide)).1⟩

end MinaRs.Ledger
