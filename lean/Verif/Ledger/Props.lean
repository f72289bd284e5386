import Verif.Ledger.Lemmas

/-! # C45, C46: genesis ledgers -/

namespace MinaRs.Ledger

open BinProt Spec

variable {A : Type}

/-- With no read error the items are the decoded account entries. -/
theorem accounts_none (t : Ty) (into : t.denote → Except Merkle.Panic A) {db : List Entry} (h : KeyOrder db) :
    accounts t into db none = (stored db).map (fun e => decodeAccount t into (.ok e)) := by
  unfold accounts prefixIterator
  rw [walk_none, takeWhile_ok, select_eq_stored h, List.map_map]
  rfl

theorem decodeAccount_spec (t : Ty) (into : t.denote → Except Merkle.Panic A) (k v : Bytes) :
    (∀ x, (decode t).run v = .ok (x, []) → decodeAccount t into (.ok (k, v)) = (into x).map .ok) ∧
    (∀ e, (decode t).run v = .error e → decodeAccount t into (.ok (k, v)) = .ok (.error (.disconnect e k v))) := by
  obtain ⟨h1, h2, -⟩ := C10_strict_partial t v [] (by simp [NoReadErrors])
  refine ⟨fun a ha => ?_, fun e he => ?_⟩
  · simp only [decodeAccount, h2 a ha]
    cases into a <;> rfl
  · simp only [decodeAccount, h1 e he]

/-! ## C45 -/

/-- C45: for every database, when no read fails, iterating yields one item per entry whose key
starts with the account prefix, in key order: the i-th item is the account the i-th such value
encodes, or an error naming that entry if the value does not decode.  If the account cannot be converted the
process ends there.  Missing: a value with bytes left over after the account, where the strict reader itself
is too lenient (`C10_buffer_boundary_fails`), and failing reads (below). -/
theorem C45_exactly_the_stored_accounts_partial (t : Ty) (into : t.denote → Except Merkle.Panic A) (db : List Entry) (h : KeyOrder db) :
    (accounts t into db none).length = (stored db).length ∧
    ∀ (i : Nat) (k v : Bytes), (stored db)[i]? = some (k, v) →
      (∀ x a, (decode t).run v = .ok (x, []) → into x = .ok a → (accounts t into db none)[i]? = some (.ok (.ok a))) ∧
      (∀ x p, (decode t).run v = .ok (x, []) → into x = .error p → (accounts t into db none)[i]? = some (.error p)) ∧
      (∀ e, (decode t).run v = .error e → (accounts t into db none)[i]? = some (.ok (.error (.disconnect e k v)))) := by
  rw [accounts_none t into h]
  refine ⟨by rw [List.length_map], fun i k v hi => ?_⟩
  obtain ⟨h1, h2⟩ := decodeAccount_spec t into k v
  rw [List.getElem?_map, hi]
  refine ⟨fun x a hx ha => ?_, fun x p hx hp => ?_, fun e he => by rw [← h2 e he]; rfl⟩
  · have := h1 x hx
    rw [ha] at this
    exact congrArg some this
  · have := h1 x hx
    rw [hp] at this
    exact congrArg some this

/-- C45: a database whose account entries hold encoded accounts yields those accounts, in key order,
whatever else the database holds. -/
theorem C45_written_accounts_read_back_partial (t : Ty) (into : t.denote → Except Merkle.Panic A) (db : List Entry) (h : KeyOrder db)
    (xs : List t.denote) (hfits : ∀ x ∈ xs, Fits t x) (hdb : (stored db).map Prod.snd = xs.map (toBytes t)) :
    accounts t into db none = xs.map (fun x => (into x).map .ok) := by
  rw [accounts_none t into h]
  clear h
  generalize stored db = l at hdb
  induction l generalizing xs with
  | nil => cases xs with
    | nil => rfl
    | cons x xs => cases hdb
  | cons e es ih => cases xs with
    | nil => cases hdb
    | cons x xs =>
      obtain ⟨k, v⟩ := e
      simp only [List.map_cons, List.cons.injEq] at hdb
      have hrun := C07_typed_roundtrip_partial t x (hfits x List.mem_cons_self) []
      rw [List.append_nil, ← hdb.1] at hrun
      rw [List.map_cons, List.map_cons, (decodeAccount_spec t into k v).1 x hrun,
        ih xs (fun y hy => hfits y (List.mem_cons_of_mem _ hy)) hdb.2]

/-- C45: a read error after `n` entries of the walk cuts the iteration to its first `n` items. -/
theorem C45_read_error_cuts_partial (t : Ty) (into : t.denote → Except Merkle.Panic A) (db : List Entry) (n : Nat) (msg : String) :
    accounts t into db (some (n, msg)) = (accounts t into db none).take n := by
  unfold accounts prefixIterator
  rw [walk_some, walk_none, ← List.map_take, List.map_take, takeWhile_take, List.map_take]

/-- C45 fails when reads fail: no database error is ever delivered to the caller, ... -/
theorem C45_read_error_not_reported_fails (t : Ty) (into : t.denote → Except Merkle.Panic A) (db : List Entry)
    (fail : Option (Nat × String)) (msg : String) : .ok (.error (.rocksDb msg)) ∉ accounts t into db fail := by
  intro hmem
  obtain ⟨r, hr, he⟩ := List.mem_map.mp hmem
  have hr : isAccount r = true := mem_takeWhile _ _ _ hr
  cases r with
  | error m => simp [isAccount] at hr
  | ok e =>
    obtain ⟨k, v⟩ := e
    unfold decodeAccount at he
    split at he
    · rename_i h; cases h
    · split at he
      · cases he
      · split at he <;> cases he

/-- ... so every ledger can look like one that holds only its first accounts, or none. -/
theorem C45_accounts_lost_fails (t : Ty) (into : t.denote → Except Merkle.Panic A) (db : List Entry) (h : KeyOrder db) (n : Nat)
    (hn : n < (stored db).length) (msg : String) :
    (accounts t into db (some (n, msg))).length = n ∧ ∀ r ∈ accounts t into db (some (n, msg)), r ∈ accounts t into db none := by
  rw [C45_read_error_cuts_partial]
  refine ⟨?_, fun r hr => List.mem_of_mem_take hr⟩
  rw [List.length_take, (C45_exactly_the_stored_accounts_partial t into db h).1]
  omega

example : ∃ (db : List Entry) (fail : Option (Nat × String)), KeyOrder db ∧ (stored db).length = 2 ∧
      accounts (.int .u16) .ok db fail = [] :=
  ⟨[([0xfe, 0], [1]), ([0xfe, 1], [2])], some (0, "IO error"), by simp [KeyOrder]; decide, by decide, rfl⟩

/-- A database with a node entry before the accounts and another entry after them. -/
def sampleDb : List Entry := [([], [9]), ([0x05], [7]), ([0xfe], [1]), ([0xfe, 0x00], [0xfd]), ([0xfe, 0x01], [3]), ([0xff], [4])]

example : KeyOrder sampleDb ∧ (stored sampleDb).length = 3 ∧
    accounts (.int .u16) .ok sampleDb none =
      [.ok (.ok ⟨1, by decide⟩), .ok (.error (.disconnect .eof [0xfe, 0x00] [0xfd])), .ok (.ok ⟨3, by decide⟩)] :=
  ⟨by unfold KeyOrder sampleDb; decide, by decide, rfl⟩

/-! ## C46 -/

/-- C46: when every stored account decodes and there are at most 2^20, the tree is built, counts
them, and its root is that of the full binary tree of height 20 whose i-th leaf is the hash of the
i-th account and whose other leaves are the empty hash.  Missing: accounts that do not decode (below),
and hashers other than Mina's. -/
theorem C46_tree_of_accounts_partial {E H : Type} (compress : Option String → H → H → H) (empty : H) (hash : A → H)
    (results : List (Except Merkle.Panic (Except E A))) (xs : List A) (hall : results = xs.map (fun x => .ok (.ok x))) (hfit : xs.length ≤ 2 ^ 20) :
    ∃ tree : Merkle.Tree A H, toMinaMerkleLedger results = .ok tree ∧ tree.count = xs.length ∧
      (tree.root (Merkle.poseidonHasher hash) (Merkle.poseidonMerger compress empty)).map Prod.fst =
        .ok (some (Merkle.Spec.fullTree
          (fun h l r => compress (if h = 0 then none else some ("CodaMklTree" ++ Merkle.pad3 (h - 1))) l r)
          (fun i => match xs[i]? with
            | some x => hash x
            | none => empty) 20 0)) := by
  subst hall
  obtain ⟨t', -, h2, h3, -, -⟩ := Merkle.C21_one_by_one (H := H) (Merkle.poseidonHasher hash) (Merkle.poseidonMerger compress empty)
    (some 20) [] (Merkle.Tree.new (some 20)) [] rfl xs
  refine ⟨t', by unfold toMinaMerkleLedger; rw [flattenOk_map_ok]; exact h2, by simpa [Merkle.Tree.new, Merkle.Tree.count] using h3, ?_⟩
  have hrun : (Merkle.Tree.new (some 20)).run (Merkle.poseidonHasher hash) (Merkle.poseidonMerger compress empty)
      [.addBatch xs] = .ok (t', [.done]) := by
    simp only [Merkle.Tree.run, Merkle.Tree.step, h2, bind, Except.bind]
  have hins : Merkle.Spec.inserted [Merkle.Op.addBatch xs] = xs := by simp [Merkle.Spec.inserted]
  have := Merkle.C23_fixed_root_partial compress empty hash 20 [.addBatch xs]
    (by rw [hins]; exact Nat.lt_of_le_of_lt hfit (by decide)) (by rw [hins]; exact hfit) (.inr (by decide)) t' _ hrun
  rw [hins] at this
  exact this

/-- C46: and for each of at least two accounts the tree proves the account at its position. -/
theorem C46_position_partial {E H : Type} [DecidableEq H] (compress : Option String → H → H → H) (empty : H) (hash : A → H)
    (results : List (Except Merkle.Panic (Except E A))) (xs : List A) (hall : results = xs.map (fun x => .ok (.ok x))) (hfit : xs.length ≤ 2 ^ 20)
    (h2 : 2 ≤ xs.length) (i : Nat) (hi : i < xs.length) :
    ∃ (tree tree' tree'' : Merkle.Tree A H) (p : Merkle.Proof A H) (root : H), toMinaMerkleLedger results = .ok tree ∧
      tree.getProof (Merkle.poseidonHasher hash) (Merkle.poseidonMerger compress empty) i = .ok (some p, tree') ∧
      tree.root (Merkle.poseidonHasher hash) (Merkle.poseidonMerger compress empty) = .ok (some root, tree'') ∧
      p.index = 2 ^ 20 - 1 + i ∧ xs[i]? = some p.item ∧
      p.verify (Merkle.poseidonHasher hash) (Merkle.poseidonMerger compress empty) root = .ok true := by
  subst hall
  obtain ⟨t', -, hadd, hcount, -, hh⟩ := Merkle.C21_one_by_one (H := H) (Merkle.poseidonHasher hash)
    (Merkle.poseidonMerger compress empty) (some 20) [] (Merkle.Tree.new (some 20)) [] rfl xs
  have hcount : t'.count = xs.length := by simpa [Merkle.Tree.new, Merkle.Tree.count] using hcount
  have hh := hh 20 rfl
  have hrun : (Merkle.Tree.new (some 20)).run (Merkle.poseidonHasher hash) (Merkle.poseidonMerger compress empty)
      [.addBatch xs] = .ok (t', [.done]) := by
    simp only [Merkle.Tree.run, Merkle.Tree.step, hadd, bind, Except.bind]
  have hins : Merkle.Spec.inserted [Merkle.Op.addBatch xs] = xs := by simp [Merkle.Spec.inserted]
  obtain ⟨p, t1, root, t2, a1, a2, a3, a4, -, -, -, a5⟩ := Merkle.C24_proof_verifies_partial (Merkle.poseidonHasher hash)
    (Merkle.poseidonMerger compress empty) (Merkle.poseidon_total compress empty) (Merkle.poseidon_stable hash) (some 20)
    (.inr (fun l r d d' h => rfl)) [.addBatch xs] (by rw [hins]; exact Nat.lt_of_le_of_lt hfit (by decide))
    (by rw [hins]; exact h2) t' _ hrun (by rw [hcount, hh]; exact hfit) (by rw [hh]; decide) i (by rw [hcount]; exact hi)
  rw [hins] at a4
  rw [hh] at a3
  exact ⟨t', t1, t2, p, root, by unfold toMinaMerkleLedger; rw [flattenOk_map_ok]; exact hadd, a1, a2, a3, a4, a5⟩

/-- C46, from the database up: the tree of a database whose account entries hold encoded accounts. -/
theorem C46_tree_of_database_partial {H : Type} (compress : Option String → H → H → H) (empty : H)
    (t : Ty) (into : t.denote → Except Merkle.Panic A) (hash : A → H) (db : List Entry) (h : KeyOrder db)
    (xs : List t.denote) (as : List A) (hinto : xs.map into = as.map .ok)
    (hfits : ∀ x ∈ xs, Fits t x) (hdb : (stored db).map Prod.snd = xs.map (toBytes t))
    (hfit : xs.length ≤ 2 ^ 20) :
    ∃ tree : Merkle.Tree A H, toMinaMerkleLedger (accounts t into db none) = .ok tree ∧ tree.count = xs.length ∧
      (tree.root (Merkle.poseidonHasher hash) (Merkle.poseidonMerger compress empty)).map Prod.fst =
        .ok (some (Merkle.Spec.fullTree
          (fun h l r => compress (if h = 0 then none else some ("CodaMklTree" ++ Merkle.pad3 (h - 1))) l r)
          (fun i => match as[i]? with
            | some a => hash a
            | none => empty) 20 0)) := by
  have hl : as.length = xs.length := by
    have := congrArg List.length hinto
    rw [List.length_map, List.length_map] at this
    exact this.symm
  have := C46_tree_of_accounts_partial compress empty hash (accounts t into db none) as
    (by
      rw [C45_written_accounts_read_back_partial t into db h xs hfits hdb]
      have := congrArg (List.map (Except.map (ε := Merkle.Panic) (Except.ok (ε := LedgerErr)))) hinto
      rw [List.map_map, List.map_map] at this
      exact this) (by rw [hl]; exact hfit)
  rw [hl] at this
  exact this

/-- C46: if some stored account before which all others can be converted cannot, building the tree ends the
process. -/
theorem C46_abort_fails {E H : Type} (before : List (Except E A)) (p : Merkle.Panic)
    (after : List (Except Merkle.Panic (Except E A))) :
    (toMinaMerkleLedger (before.map .ok ++ .error p :: after) : Except Merkle.Panic (Merkle.Tree A H)) = .error p := by
  unfold toMinaMerkleLedger
  rw [flattenOk_append]
  have : ∃ b, flattenOk (before.map (Except.ok (ε := Merkle.Panic))) = .ok b := by
    induction before with
    | nil => exact ⟨_, rfl⟩
    | cons r rs ih =>
      obtain ⟨b, hb⟩ := ih
      cases r with
      | error e => exact ⟨b, by rw [List.map_cons, flattenOk, hb]⟩
      | ok a => exact ⟨a :: b, by rw [List.map_cons, flattenOk, hb]; rfl⟩
  obtain ⟨b, hb⟩ := this
  rw [hb]
  rfl

/-- C46 fails for accounts that do not decode: at any place in the ledger they are left out, the
accounts after them move down one position, and nothing is reported. -/
theorem C46_undecodable_skipped_fails {E H : Type} (before after : List (Except Merkle.Panic (Except E A))) (e : E) :
    (toMinaMerkleLedger (before ++ .ok (.error e) :: after) : Except Merkle.Panic (Merkle.Tree A H)) =
      toMinaMerkleLedger (before ++ after) := by
  unfold toMinaMerkleLedger
  rw [flattenOk_append, flattenOk_append, flattenOk]

/-- C46 fails: a concrete database where the second stored account is at position 0 of the tree. -/
theorem C46_position_shift_fails :
    ∃ db : List Entry, KeyOrder db ∧ (stored db).length = 3 ∧
      ∃ tree : Merkle.Tree Nat Nat,
        toMinaMerkleLedger (accounts (.int .u16) (fun x => .ok x.1.toNat) db none) = .ok tree ∧
        tree.leafs.map Prod.fst = [2, 3] :=
  ⟨[([0xfe, 0], [0xfd]), ([0xfe, 1], [2]), ([0xfe, 2], [3])], by unfold KeyOrder; decide, by decide, _, rfl, rfl⟩

example : ∃ (db : List Entry) (xs : List Nat), KeyOrder db ∧ accounts (.int .u16) (fun x => .ok x.1.toNat) db none = xs.map (fun x => .ok (.ok x)) ∧
    xs.length = 3 :=
  ⟨[([0xfe, 0], [1]), ([0xfe, 1], [2]), ([0xfe, 2], [3])], [1, 2, 3], by unfold KeyOrder; decide, rfl, rfl⟩

end MinaRs.Ledger
