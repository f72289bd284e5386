import Verif.GraphQL.BestChainLemmas
import Verif.GraphQL.Props
import Verif.Merkle.Props
import Verif.Frontier.Props

/-!
# Field elements, paths and the best chain document (C76, C77, C78)
-/

namespace MinaRs.GraphQL

open Json (J JErr Env)
open Text (Text)
open Text.Spec (IsDigit IsDecimalOf)
open Hash
open Spec

/-! ## C76: field elements as texts -/

/-- **C76.** Every field element is written as the decimal notation of its number and read back as itself, by
both readers. -/
theorem C76_roundtrip (f : Fp) :
    (∃ t, FpJson.serialize f = .str t ∧ IsDecimalOf t.toList f.val) ∧ FpJson.deserialize (FpJson.serialize f) = .ok f ∧
      fpFromRadix10 (str (FpJson.serialize f)) = .ok f :=
  ⟨⟨_, rfl, by rw [String.toList_ofList]; exact Text.isDecimalOf_decimal _⟩, deserialize_number f, fpFromRadix10_decimal f⟩

/-- **C76.** A path of any length, whatever its nodes hold, is written to JSON and read back as itself. -/
theorem C76_path_roundtrip (path : List (Merkle.PathNode Fp)) : pathOf (pathJson path) = .ok path := by
  have hopt : ∀ o : Option Fp, optFp (optFpJson o) = .ok o := by
    intro o
    cases o with
    | none => rfl
    | some f => exact optFp_number f
  have hnode : ∀ n : Merkle.PathNode Fp, pathNodeOf (pathNodeJson n) = .ok n := by
    intro n
    unfold pathNodeJson pathNodeOf
    have h1 : index (.obj [("left", optFpJson n.left), ("right", optFpJson n.right)]) "left" = optFpJson n.left := by
      simp [index, List.lookup]
    have h2 : index (.obj [("left", optFpJson n.left), ("right", optFpJson n.right)]) "right" = optFpJson n.right := by
      simp [index, List.lookup]
    simp only [h1, h2, hopt, bind, Except.bind]
  unfold pathOf pathJson
  simp only
  rw [allOf_ok_iff, List.map_map]
  exact List.map_congr_left (fun n _ => hnode n)

/-- **C76.** A document is read as a field element exactly if it is a text that denotes that number. -/
theorem C76_accepted_iff (j : J) (f : Fp) : FpJson.deserialize j = .ok f ↔ ∃ t : String, j = .str t ∧ Denotes t.toList f.val := by
  constructor
  · intro h
    cases j with
    | str t =>
      refine ⟨t, rfl, ?_⟩
      simp only [FpJson.deserialize] at h
      split at h
      · cases h
      rename_i n hn
      split at h
      · split at h
        · have := Except.ok.inj h
          rw [← this]
          exact (bigUint_iff _ _).mp hn
        · cases h
      · cases h
    | _ => cases h
  · rintro ⟨t, rfl, h⟩
    simp only [FpJson.deserialize, (bigUint_iff _ _).mpr h]
    rw [if_pos (Nat.lt_of_lt_of_le f.isLt p_le), dif_pos f.isLt]

/-- **C76.** Likewise for the second reader. -/
theorem C76_radix_accepted_iff (t : Text) (f : Fp) : fpFromRadix10 t = .ok f ↔ Denotes t f.val := by
  unfold fpFromRadix10
  constructor
  · intro h
    split at h
    · cases h
    rename_i n hn
    split at h
    · have := Except.ok.inj h
      rw [← this]
      exact (bigUint_iff _ _).mp hn
    · cases h
  · intro h
    simp only [(bigUint_iff _ _).mpr h]
    rw [dif_pos f.isLt]

/-- **C76.** A document that is no text, or a text that denotes no number below 2^256, is refused with an error.
Missing: the texts of numbers between the modulus and 2^256, which panic. -/
theorem C76_refused_partial (j : J) (h : ∀ (t : String) n, j = .str t → Denotes t.toList n → 2 ^ 256 ≤ n) :
    FpJson.deserialize j = .error .err := by
  cases j with
  | str t =>
    simp only [FpJson.deserialize]
    split
    · rfl
    rename_i n hn
    have := h t n rfl ((bigUint_iff _ _).mp hn)
    rw [if_neg (by omega)]
  | _ => rfl

example : ∀ (t : String) n, J.str "12x" = .str t → Denotes t.toList n → 2 ^ 256 ≤ n := by
  intro t n ht hd
  cases ht
  have := (bigUint_iff _ _).mpr hd
  rw [show bigUint "12x".toList = none from by decide] at this
  cases this

/-- **C76 fails** for the numbers from the modulus on: both readers panic instead of refusing; the second one
does so for every larger number too. -/
theorem C76_large_fails (n : Nat) (hn : p ≤ n) :
    (n < 2 ^ 256 → FpJson.deserialize (number n) = .error .panic) ∧ fpFromRadix10 (Text.decimal n) = .error .panic := by
  refine ⟨fun h => ?_, ?_⟩
  · unfold number FpJson.deserialize
    simp only [String.toList_ofList, bigUint_decimal]
    rw [if_pos h, dif_neg (by omega)]
  · unfold fpFromRadix10
    rw [bigUint_decimal]
    simp only
    rw [dif_neg (by omega)]

example : p ≤ 2 ^ 256 - 1 ∧ 2 ^ 256 - 1 < 2 ^ 256 := by decide +kernel

/-! ## C77: the best chain document -/

theorem sparseLedger_says (E : Env) (es : List (String × J)) (q : List (List (Bool × Fp) × Fp)) (h : SaysEntries E es q)
    (hq : ∀ e ∈ q, e.1 ≠ [] ∧ e.1.length < 64) :
    ∃ proofs : List LedgerProof, sparseLedger E (.obj es) = .ok proofs ∧ proofs.length = q.length ∧
      ∀ (i : Nat) (path : List (Bool × Fp)) (leaf : Fp), q[i]? = some (path, leaf) → ∃ pr, proofs[i]? = some pr ∧
        Merkle.pathToProof (path.map Merkle.Spec.pathNode) leaf = .ok pr := by
  unfold sparseLedger
  simp only
  induction h with
  | nil => exact ⟨[], rfl, rfl, fun i _ _ h => by simp at h⟩
  | @other key j es q hk _ ih =>
    have hk' : isAddress E key = false := by
      cases hb : isAddress E key with
      | false => rfl
      | true => exact absurd ((isAddress_iff E key).mp hb) hk
    obtain ⟨proofs, h1, h2⟩ := ih hq
    refine ⟨proofs, ?_, h2⟩
    rw [List.filter_cons_of_neg (by simp [hk'])]
    exact h1
  | @entry key j es path leaf q hk he _ ih =>
    have hk' : isAddress E key = true := (isAddress_iff E key).mpr hk
    obtain ⟨proofs, h1, h2, h3⟩ := ih (fun e h => hq e (List.mem_cons_of_mem _ h))
    obtain ⟨js, hj, hs⟩ := he.path
    obtain ⟨hne, hlen⟩ := hq _ List.mem_cons_self
    obtain ⟨pr, hpr⟩ : ∃ pr, Merkle.pathToProof (path.map Merkle.Spec.pathNode) leaf = .ok pr :=
      ⟨_, Merkle.pathToProof_ok path leaf hne hlen⟩
    have hl : ledgerEntry j = .ok pr := by
      simp only [ledgerEntry, index_of_has hj, pathOf_says hs, index_of_has he.leaf, fpFromRadix10_decimal, proofOf, hpr,
        bind, Except.bind]
    refine ⟨pr :: proofs, ?_, by simp [h2], ?_⟩
    · rw [List.filter_cons_of_pos (by simp [hk'])]
      simp only [allOf, hl, h1, bind, Except.bind]
    · intro i path' leaf' hi
      cases i with
      | zero =>
        simp only [List.getElem?_cons_zero, Option.some.injEq, Prod.mk.injEq] at hi
        obtain ⟨rfl, rfl⟩ := hi
        exact ⟨pr, rfl, hpr⟩
      | succ i =>
        simp only [List.getElem?_cons_succ] at hi
        obtain ⟨pr', h4, h5⟩ := h3 i path' leaf' hi
        exact ⟨pr', by simpa using h4, h5⟩

/-- **C77.** A document that describes a protocol state and entries of the ledger under addresses is imported as
that state and one proof per entry, in order: for the entry's leaf, at the position its path spells, with
the root that hashing along the path gives.  Missing: what C73 misses of the state, empty paths and paths of
64 or more nodes; and the root for paths longer than 48 nodes and positions from 2^28 - 1 on (C28). -/
theorem C77_import_partial (E : Env) (es : List (String × J)) (s : ProtocolState) (q : List (List (Bool × Fp) × Fp))
    (h : SaysBestChain E es s q) (hq : ∀ e ∈ q, e.1 ≠ [] ∧ e.1.length < 64) :
    ∃ proofs : List LedgerProof, bestChain E (.obj es) = .ok (importedState s, proofs) ∧ proofs.length = q.length ∧
      ∀ (i : Nat) (path : List (Bool × Fp)) (leaf : Fp), q[i]? = some (path, leaf) → ∃ pr, proofs[i]? = some pr ∧ pr.item = leaf ∧
        pr.index = 2 ^ path.length - 1 + Merkle.Spec.pathPosition path ∧
        ∀ (merger : Option Fp → Option Fp → Merkle.Meta → Option Fp), path.length ≤ 48 →
          Merkle.Spec.pathPosition path + 1 < 2 ^ 28 →
          pr.rootHash dummyHasher merger = match Merkle.Spec.foldPath merger path.length 0 (some leaf) path with
            | some root => .ok root
            | none => .error .mergerFailure := by
  obtain ⟨b, bs, d, h1, h2, h3⟩ := h.state
  obtain ⟨proofs, h4, h5, h6⟩ := sparseLedger_says E es q h.entries hq
  refine ⟨proofs, ?_, h5, ?_⟩
  · simp only [bestChain, index_of_has h1, item, List.getD_cons_zero, index_of_has h2, C73_import_partial E d s h3, h4, bind,
      Except.bind]
  · intro i path leaf hi
    obtain ⟨pr, h7, h8⟩ := h6 i path leaf hi
    obtain ⟨hne, hl⟩ := hq _ (List.mem_of_getElem? hi)
    have h9 := Merkle.pathToProof_ok path leaf hne hl
    have e : pr = _ := Except.ok.inj (h8.symm.trans h9)
    refine ⟨pr, h7, by rw [e], by rw [e]; rfl, ?_⟩
    intro merger h48 hpos
    obtain ⟨pr', h10, -, -, h11⟩ := Merkle.C28_path_root_partial dummyHasher merger path leaf hne h48 hpos
    have e' : pr' = pr := Except.ok.inj (h10.symm.trans h8)
    rw [← e', h11]
    simp only [dummyHasher]
    cases Merkle.Spec.foldPath merger path.length 0 (some leaf) path <;> rfl

/-- A step as a document. -/
def stepDoc : Bool × Fp → J
  | (true, s) => .obj [("left", number s.val), ("right", .null)]
  | (false, s) => .obj [("left", .null), ("right", number s.val)]

theorem says_stepDoc (s : Bool × Fp) : SaysStep (stepDoc s) s := by
  obtain ⟨b, s⟩ := s
  cases b
  · exact ⟨Or.inl (has_obj (by simp) (by simp)), has_obj (by simp) (by simp)⟩
  · exact ⟨has_obj (by simp) (by simp), Or.inl (has_obj (by simp) (by simp))⟩

theorem says_steps (path : List (Bool × Fp)) : SaysSteps (path.map stepDoc) path := by
  induction path with
  | nil => exact .nil
  | cons s path ih => exact .cons (says_stepDoc s) ih

/-- An entry as a document. -/
def entryDoc (path : List (Bool × Fp)) (leaf : Fp) : J :=
  .obj [("merklePath", .arr (path.map stepDoc)), ("leafHash", number leaf.val)]

theorem says_entryDoc (path : List (Bool × Fp)) (leaf : Fp) : SaysEntry (entryDoc path leaf) path leaf := by
  exact ⟨⟨path.map stepDoc, has_obj (by simp) (by simp), says_steps path⟩, has_obj (by simp) (by simp)⟩

/-- The document of a state and one account of the ledger. -/
def bestChainDoc (E : Env) (s : ProtocolState) (k : PubKey) (path : List (Bool × Fp)) (leaf : Fp) : List (String × J) :=
  [(String.ofList (Json.address E (leBytes 32 k.x.val) k.isOdd), entryDoc path leaf),
   ("bestChain", .arr [.obj [("protocolState", stateDoc E s)]])]

theorem not_address_bestChain (E : Env) : ¬ AddressText E "bestChain" := fun h => absurd h.1 (by decide)

theorem says_bestChainDoc (E : Env) (s : ProtocolState) (k : PubKey) (path : List (Bool × Fp)) (leaf : Fp) :
    SaysBestChain E (bestChainDoc E s k path leaf) s [(path, leaf)] := by
  have ha := addressText_address E k
  unfold bestChainDoc
  refine ⟨⟨.obj [("protocolState", stateDoc E s)], [], stateDoc E s, has_obj ?_ (by simp), has_obj (by simp) (by simp),
    says_stateDoc E s⟩, .entry ha (says_entryDoc path leaf) (.other (not_address_bestChain E) .nil)⟩
  simp only [List.map_cons, List.map_nil, List.nodup_cons, List.mem_singleton, List.not_mem_nil, not_false_iff,
    List.nodup_nil, and_self, and_true]
  intro e
  exact not_address_bestChain E (e ▸ ha)

example (E : Env) (s : ProtocolState) (k : PubKey) (x y : Fp) :
    SaysBestChain E (bestChainDoc E s k [(true, x), (false, y)] x) s [([(true, x), (false, y)], x)] ∧
      ∀ e ∈ [([(true, x), (false, y)], x)], e.1 ≠ [] ∧ e.1.length < 64 :=
  ⟨says_bestChainDoc E s k _ _, by simp⟩

/-- **C77 (refusal).** If the first block of the best chain is not importable, or any member under an address
has no readable path, a node without exactly one hash, or no readable leaf, the whole document is not
imported. -/
theorem C77_refused (E : Env) (es : List (String × J))
    (h : (∀ s, protocolState E (index (item (index (.obj es) "bestChain") 0) "protocolState") ≠ .ok s) ∨
      ∃ key j, (key, j) ∈ es ∧ AddressText E key ∧
        ((∀ path, pathOf (index j "merklePath") ≠ .ok path) ∨
          (∃ path, pathOf (index j "merklePath") = .ok path ∧ ∃ n ∈ path, n.left.isSome = n.right.isSome) ∨
          ∀ f : Fp, ¬ Denotes (str (index j "leafHash")) f.val)) :
    ∀ r, bestChain E (.obj es) ≠ .ok r := by
  intro r hr
  simp only [bestChain, bind, Except.bind] at hr
  split at hr
  · cases hr
  rename_i s hs
  rcases h with h | ⟨key, j, hm, hk, h⟩
  · exact h s hs
  split at hr
  · cases hr
  rename_i ledger hl
  refine allOf_not_ok _ _ (key, j) (List.mem_filter.mpr ⟨hm, (isAddress_iff E key).mpr hk⟩) ?_ ledger hl
  intro pr he
  simp only [ledgerEntry, bind, Except.bind] at he
  split at he
  · cases he
  rename_i path hp
  split at he
  · cases he
  rename_i leaf hleaf
  rcases h with h | ⟨path', hp', hbad⟩ | h
  · exact h path hp
  · have e : path' = path := Except.ok.inj (hp'.symm.trans hp)
    subst e
    unfold proofOf at he
    split at he
    · rename_i pr' hpr
      exact (Merkle.C28_bad_node_refused path' leaf hbad).1 pr' hpr
    · cases he
    · cases he
  · exact h leaf ((C76_radix_accepted_iff _ _).mp hleaf)

/-- A document with an account whose path has a node without hashes. -/
example (E : Env) (k : PubKey) : ∃ es : List (String × J), ∃ key j, (key, j) ∈ es ∧ AddressText E key ∧
    ∃ path, pathOf (index j "merklePath") = .ok path ∧ ∃ n ∈ path, n.left.isSome = n.right.isSome := by
  refine ⟨[(_, .obj [("merklePath", .arr [.obj []])])], _, _, List.mem_singleton.mpr rfl, addressText_address E k,
    [⟨none, none⟩], ?_, ⟨none, none⟩, by simp, rfl⟩
  simp [index, pathOf, allOf, pathNodeOf, optFp, bind, Except.bind]

/-- **C77.** Whatever the document, the import makes one proof for each member under an address. -/
theorem C77_one_proof_each (E : Env) [DecidablePred (AddressText E)] (es : List (String × J)) (s : ProtocolState)
    (proofs : List LedgerProof) (h : bestChain E (.obj es) = .ok (s, proofs)) :
    proofs.length = es.countP (fun e => AddressText E e.1) := by
  simp only [bestChain, bind, Except.bind] at h
  split at h
  · cases h
  split at h
  · cases h
  rename_i ledger hl
  have e := Except.ok.inj h
  simp only [Prod.mk.injEq] at e
  rw [← e.2]
  have hmap := congrArg List.length ((allOf_ok_iff _ _ _).mp hl)
  rw [List.length_map, List.length_map] at hmap
  rw [← hmap, ← List.countP_eq_length_filter]
  apply List.countP_congr
  intro e _
  simpa using isAddress_iff E e.1

/-- An imported document with one account. -/
example (E : Env) (s : ProtocolState) (k : PubKey) (x : Fp) :
    ∃ r, bestChain E (.obj (bestChainDoc E s k [(true, x)] x)) = .ok r := by
  obtain ⟨proofs, h, -⟩ := C77_import_partial E _ s _ (says_bestChainDoc E s k [(true, x)] x) (by simp)
  exact ⟨_, h⟩

/-- **C77 fails**: an account with an empty path, and one whose leaf hash is not below the modulus, make the
import panic. -/
theorem C77_panics_fails (E : Env) (s : ProtocolState) (k : PubKey) (leaf : Fp) (n : Nat) (hn : p ≤ n) :
    bestChain E (.obj (bestChainDoc E s k [] leaf)) = .error .panic ∧
    ∀ path : List (Bool × Fp), bestChain E (.obj [(String.ofList (Json.address E (leBytes 32 k.x.val) k.isOdd),
        .obj [("merklePath", .arr (path.map stepDoc)), ("leafHash", number n)]),
      ("bestChain", .arr [.obj [("protocolState", stateDoc E s)]])]) = .error .panic := by
  have ha := addressText_address E k
  have hst : ∀ d, index (item (index (.obj [(String.ofList (Json.address E (leBytes 32 k.x.val) k.isOdd), d),
      ("bestChain", .arr [.obj [("protocolState", stateDoc E s)]])]) "bestChain") 0) "protocolState" = stateDoc E s := by
    intro d
    have h1 : Has (.obj [(String.ofList (Json.address E (leBytes 32 k.x.val) k.isOdd), d),
      ("bestChain", .arr [.obj [("protocolState", stateDoc E s)]])]) "bestChain" (.arr [.obj [("protocolState", stateDoc E s)]]) := by
      refine has_obj ?_ (by simp)
      simp only [List.map_cons, List.map_nil, List.nodup_cons, List.mem_singleton, List.not_mem_nil, not_false_iff,
        List.nodup_nil, and_self, and_true]
      intro e
      exact not_address_bestChain E (e ▸ ha)
    rw [index_of_has h1]
    simp only [item, List.getD_cons_zero]
    exact index_of_has (has_obj (by simp) (by simp))
  have hled : ∀ d, ledgerEntry d = .error .panic →
      sparseLedger E (.obj [(String.ofList (Json.address E (leBytes 32 k.x.val) k.isOdd), d),
        ("bestChain", .arr [.obj [("protocolState", stateDoc E s)]])]) = .error .panic := by
    intro d hd
    unfold sparseLedger
    simp only
    rw [List.filter_cons_of_pos (by exact (isAddress_iff E _).mpr ha)]
    simp only [allOf, hd, bind, Except.bind]
  have hstate := C73_import_partial E _ s (says_stateDoc E s)
  constructor
  · have he : ledgerEntry (entryDoc [] leaf) = .error .panic := by
      obtain ⟨⟨js, h1, h2⟩, h3⟩ := says_entryDoc [] leaf
      cases h2
      simp only [ledgerEntry, index_of_has h1, index_of_has h3, fpFromRadix10_decimal, bind, Except.bind]
      rfl
    unfold bestChainDoc
    simp only [bestChain, hst, hstate, hled _ he, bind, Except.bind]
  · intro path
    have he : ledgerEntry (.obj [("merklePath", .arr (path.map stepDoc)), ("leafHash", number n)]) = .error .panic := by
      have h1 := index_of_has (has_obj (es := [("merklePath", J.arr (path.map stepDoc)), ("leafHash", number n)])
        (k := "merklePath") (v := .arr (path.map stepDoc)) (by simp) (by simp))
      have h2 := index_of_has (has_obj (es := [("merklePath", J.arr (path.map stepDoc)), ("leafHash", number n)])
        (k := "leafHash") (v := number n) (by simp) (by simp))
      have h4 : fpFromRadix10 (str (number n)) = .error .panic := by
        unfold number
        rw [str_ofList]
        exact (C76_large_fails n hn).2
      simp only [ledgerEntry, h1, h2, pathOf_says (says_steps path), h4, bind, Except.bind]
    simp only [bestChain, hst, hstate, hled _ he, bind, Except.bind]

/-! ## C78: are the ledger entries those of the tip's ledger? -/

/-- The Berkeley frontier fed with a document: one that is not imported changes nothing. -/
def addDocument (E : Env) (h : Consensus.Header ProtocolState) (st : Frontier.State ProtocolState LedgerProof) (j : J) :
    Frontier.State ProtocolState LedgerProof :=
  match bestChain E j with
  | .ok b => (Frontier.addBlockBerkeley h st b).1
  | .error _ => st

/-- The entries prove membership of their leaves in the ledger whose hash is `root`. -/
def Proves (merger : Option Fp → Option Fp → Merkle.Meta → Option Fp) (root : Fp) (ledger : List LedgerProof) : Prop :=
  ∀ pr ∈ ledger, pr.rootHash dummyHasher merger = .ok root

theorem documents_offers (E : Env) (h : Consensus.Header ProtocolState) (js : List J) :
    ∀ st, js.foldl (addDocument E h) st =
      Frontier.offers (Frontier.addBlockBerkeley h) st (js.filterMap (fun j => (bestChain E j).toOption)) := by
  induction js with
  | nil => intro st; rfl
  | cons j js ih =>
    intro st
    rw [List.foldl_cons, ih]
    unfold addDocument
    cases hb : bestChain E j with
    | ok b => rw [List.filterMap_cons, hb]; rfl
    | error e => rw [List.filterMap_cons, hb]; rfl

/-- **C78.** After any sequence of documents, the entries the frontier holds prove membership in the ledger of the
tip (of which `root` tells the hash) if those of every imported document do for its block, and different
blocks have different state hashes.  Missing: documents whose entries do not; the code never checks. -/
theorem C78_honest_partial (E : Env) (h : Consensus.Header ProtocolState)
    (merger : Option Fp → Option Fp → Merkle.Meta → Option Fp) (root : ProtocolState → Fp) (js : List J)
    (hgood : ∀ j ∈ js, ∀ s ledger, bestChain E j = .ok (s, ledger) → Proves merger (root s) ledger)
    (hinj : ∀ i ∈ js, ∀ j ∈ js, ∀ s t l m, bestChain E i = .ok (s, l) → bestChain E j = .ok (t, m) →
      h.stateHash s = h.stateHash t → s = t) :
    match Consensus.top (js.foldl (addDocument E h) Frontier.State.new).bestChain with
    | none => (js.foldl (addDocument E h) Frontier.State.new).ledger = []
    | some tip => Proves merger (root tip) (js.foldl (addDocument E h) Frontier.State.new).ledger := by
  rw [documents_offers]
  generalize hbs : js.filterMap (fun j => (bestChain E j).toOption) = bs
  have hof : ∀ b ∈ bs, ∃ j ∈ js, bestChain E j = .ok b := by
    intro b hb
    rw [← hbs] at hb
    obtain ⟨j, hj, e⟩ := List.mem_filterMap.mp hb
    refine ⟨j, hj, ?_⟩
    cases hr : bestChain E j with
    | ok r => rw [hr] at e; cases e; rfl
    | error r => rw [hr] at e; cases e
  have hinj' : ∀ x ∈ bs, ∀ y ∈ bs, h.stateHash x.1 = h.stateHash y.1 → x.1 = y.1 := by
    intro x hx y hy hxy
    obtain ⟨i, hi, ei⟩ := hof x hx
    obtain ⟨j, hj, ej⟩ := hof y hy
    exact hinj i hi j hj x.1 y.1 x.2 y.2 ei ej hxy
  have hl := Frontier.C41_ledger_of_tip_partial (Proof := LedgerProof) h bs hinj'
  cases ht : Consensus.top (Frontier.offers (Frontier.addBlockBerkeley h) Frontier.State.new bs).bestChain with
  | none => rw [ht] at hl; exact hl
  | some tip =>
    rw [ht] at hl
    obtain ⟨j, hj, ej⟩ := hof _ hl
    exact hgood j hj tip _ ej

/-- **C78 fails**: whatever ledger hash the tip states, a document whose entry does not lead to it is taken: of
two leaves that lead to different roots along the path, one is served as an entry of the tip's ledger
although it is none. -/
theorem C78_unchecked_fails (E : Env) (h : Consensus.Header ProtocolState)
    (merger : Option Fp → Option Fp → Merkle.Meta → Option Fp) (s : ProtocolState) (k : PubKey) (path : List (Bool × Fp))
    (a b : Fp) (root : Fp) (hne : path ≠ []) (h48 : path.length ≤ 48) (hpos : Merkle.Spec.pathPosition path + 1 < 2 ^ 28)
    (hab : Merkle.Spec.foldPath merger path.length 0 (some a) path ≠ Merkle.Spec.foldPath merger path.length 0 (some b) path) :
    ∃ j, Consensus.top (addDocument E h Frontier.State.new j).bestChain = some (importedState s) ∧
      ¬ Proves merger root (addDocument E h Frontier.State.new j).ledger := by
  have key : ∀ leaf, Merkle.Spec.foldPath merger path.length 0 (some leaf) path ≠ some root →
      ∃ j, Consensus.top (addDocument E h Frontier.State.new j).bestChain = some (importedState s) ∧
        ¬ Proves merger root (addDocument E h Frontier.State.new j).ledger := by
    intro leaf hleaf
    obtain ⟨proofs, h1, h2, h3⟩ := C77_import_partial E _ s _ (says_bestChainDoc E s k path leaf)
      (by
        intro e he
        cases List.mem_singleton.mp he
        exact ⟨hne, Nat.lt_of_le_of_lt h48 (by decide)⟩)
    obtain ⟨pr, h4, -, -, h5⟩ := h3 0 path leaf rfl
    have hst : addDocument E h Frontier.State.new (.obj (bestChainDoc E s k path leaf)) = ⟨[importedState s], proofs⟩ := by
      unfold addDocument
      rw [h1]
      rfl
    refine ⟨.obj (bestChainDoc E s k path leaf), by rw [hst]; rfl, ?_⟩
    rw [hst]
    intro hp
    have := hp pr (List.mem_of_getElem? h4)
    rw [h5 merger h48 hpos] at this
    split at this
    · rename_i r hr
      rw [hr] at hleaf
      exact hleaf (congrArg some (Except.ok.inj this))
    · cases this
  by_cases ha : Merkle.Spec.foldPath merger path.length 0 (some a) path = some root
  · exact key b (fun hb => hab (ha.trans hb.symm))
  · exact key a ha

/-- A merger and a path along which two leaves lead to different roots. -/
example : Merkle.Spec.foldPath (fun l _ _ => l) 1 0 (some (0 : Fp)) [(true, 0)] ≠
    Merkle.Spec.foldPath (fun l _ _ => l) 1 0 (some (1 : Fp)) [(true, 0)] := by
  intro h
  have := Option.some.inj h
  exact absurd (congrArg Fin.val this) (by decide +kernel)

/-- A document whose entry proves membership in the ledger with the hash `x`. -/
example (E : Env) (s : ProtocolState) (k : PubKey) (x y : Fp) : ∃ j st ledger, bestChain E j = .ok (st, ledger) ∧ ledger ≠ [] ∧
    Proves (fun l _ _ => l) x ledger := by
  obtain ⟨proofs, h1, h2, h3⟩ := C77_import_partial E _ s _ (says_bestChainDoc E s k [(true, y)] x) (by simp)
  obtain ⟨pr, h4, -, -, h5⟩ := h3 0 _ x rfl
  match proofs, h2, h4 with
  | [q], _, h4 =>
    simp only [List.getElem?_cons_zero, Option.some.injEq] at h4
    subst h4
    refine ⟨_, _, _, h1, by simp, ?_⟩
    intro pr' hp
    cases List.mem_singleton.mp hp
    exact h5 _ (by simp) (by simp [Merkle.Spec.pathPosition])

end MinaRs.GraphQL
