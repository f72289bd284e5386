import Verif.Frontier.Query
import Verif.Frontier.Processor
import Verif.Block.JsonProps

/-!
# Properties of what a page is told about the best chain (C98)

`convert` and `add` are arbitrary where the frontier does not matter, and those of mainnet or Berkeley net where it does.
-/

namespace MinaRs.Frontier

open MinaRs.Consensus (Header Chain top push selectSecureChain ConsensusState)

namespace Spec

variable {N St Q A : Type}

/-- A history of a node that handles one block after another and answers questions in between, never in the middle of a
block: the blocks handled, and the answers given. -/
inductive Told (after : List N → St) (view : Q → St → A) : List N → List (Q × A) → Prop where
  | start : Told after view [] []
  | block {bs as} (b : N) : Told after view bs as → Told after view (bs ++ [b]) as
  | answer {bs as} (q : Q) : Told after view bs as → Told after view bs (as ++ [(q, view q (after bs))])

end Spec

open Spec

variable {N B St Q A : Type} (convert : N → Except Err B) (add : St → B → St × Except Err Unit) (view : Q → St → A)

/-! ## Lemmas -/

/-- Nobody reads while a block is being added. -/
def NoReader (p : Proc N St) : Prop := ∀ b, p.loop = .adding b → p.readers = 0

theorem noReader_step {p p' : Proc N St} (h : NoReader p) (e : Ev N) (hs : p.step convert add e = some p') : NoReader p' := by
  intro c hc
  cases e with
  | send b =>
    simp only [Proc.step] at hs
    split at hs
    · cases hs; exact h c hc
    · cases hs
  | close =>
    simp only [Proc.step] at hs
    split at hs
    · cases hs; exact h c hc
    · cases hs
  | acquireRead =>
    simp only [Proc.step] at hs
    split at hs
    · cases hs
    · cases hs
    · rename_i hna
      cases hs
      exact absurd hc (hna c)
  | releaseRead =>
    simp only [Proc.step] at hs
    split at hs
    · cases hs
      have := h c hc
      show p.readers - 1 = 0
      omega
    · cases hs
  | loop =>
    simp only [Proc.step] at hs
    split at hs
    · split at hs
      · cases hs; cases hc
      · split at hs
        · cases hs; cases hc
        · cases hs
    · split at hs
      · rename_i hr; cases hs; exact hr
      · cases hs
    · split at hs
      · cases hs; cases hc
      · split at hs <;> · cases hs; cases hc
    · cases hs
    · cases hs

/-- What one step of the processor does to the log of handled blocks. -/
theorem handled_step {p p' : Proc N St} (e : Ev N) (hs : p.step convert add e = some p') :
    (p'.handled = p.handled ∧ p'.frontier = p.frontier) ∨ (∃ b, p'.handled = p.handled ++ [b] ∧ p.loop = .adding b) := by
  cases e with
  | send b =>
    simp only [Proc.step] at hs
    split at hs
    · cases hs; exact .inl ⟨rfl, rfl⟩
    · cases hs
  | close =>
    simp only [Proc.step] at hs
    split at hs
    · cases hs; exact .inl ⟨rfl, rfl⟩
    · cases hs
  | acquireRead =>
    simp only [Proc.step] at hs
    split at hs
    · cases hs
    · cases hs
    · cases hs; exact .inl ⟨rfl, rfl⟩
  | releaseRead =>
    simp only [Proc.step] at hs
    split at hs
    · cases hs; exact .inl ⟨rfl, rfl⟩
    · cases hs
  | loop =>
    simp only [Proc.step] at hs
    split at hs
    · split at hs
      · cases hs; exact .inl ⟨rfl, rfl⟩
      · split at hs
        · cases hs; exact .inl ⟨rfl, rfl⟩
        · cases hs
    · split at hs
      · cases hs; exact .inl ⟨rfl, rfl⟩
      · cases hs
    · rename_i b hl
      split at hs
      · cases hs; exact .inr ⟨b, rfl, hl⟩
      · split at hs <;> · cases hs; exact .inr ⟨b, rfl, hl⟩
    · cases hs
    · cases hs

/-- What holds of the node and its pages. -/
structure PageInv (s0 : St) (p : Page N St Q A) : Prop where
  proc : Inv convert add s0 p.proc
  told : Told (sequential convert add s0) view p.proc.handled p.told

theorem pageInv_init (s0 : St) : PageInv convert add view s0 (Page.init s0) :=
  ⟨inv_init convert add s0, .start⟩

theorem pageInv_step {s0 : St} {p p' : Page N St Q A} (h : PageInv convert add view s0 p) (e : PageEv N Q)
    (hs : p.step convert add view e = some p') : PageInv convert add view s0 p' := by
  cases e with
  | node e =>
    obtain ⟨x, hx, rfl⟩ := Option.map_eq_some_iff.mp hs
    refine ⟨inv_step convert add h.proc e hx, ?_⟩
    rcases handled_step convert add e hx with ⟨h1, -⟩ | ⟨b, h1, -⟩
    · show Told _ _ x.handled p.told
      rw [h1]; exact h.told
    · show Told _ _ x.handled p.told
      rw [h1]; exact .block b h.told
  | answer q =>
    simp only [Page.step] at hs
    split at hs
    · cases hs
      refine ⟨h.proc, ?_⟩
      show Told _ _ p.proc.handled (p.told ++ [(q, view q p.proc.frontier)])
      rw [h.proc.frontier]
      exact .answer q h.told
    · cases hs

theorem pageInv_run {s0 : St} {p p' : Page N St Q A} (h : PageInv convert add view s0 p) (es : List (PageEv N Q))
    (hs : p.run convert add view es = some p') : PageInv convert add view s0 p' := by
  induction es generalizing p with
  | nil => cases hs; exact h
  | cons e es ih =>
    rw [Page.run] at hs
    split at hs
    · cases hs
    · rename_i q hq; exact ih (pageInv_step convert add view h e hq) hs

/-! ## Every answer belongs to a moment between two blocks -/

theorem moments (s0 : St) (es : List (PageEv N Q)) (p : Page N St Q A)
    (hrun : (Page.init s0).run convert add view es = some p) :
    p.proc.handled <+: p.proc.sent ∧
    Told (fun bs => bs.foldl (fun s b => (handle convert add s b).1) s0) view p.proc.handled p.told := by
  have h := pageInv_run convert add view (pageInv_init convert add view s0) es hrun
  refine ⟨?_, h.told⟩
  rw [h.proc.log, List.append_assoc]
  exact List.prefix_append _ _

/-- **C98 (moments).** Under every schedule, the answers given so far are those of a node that is offered the blocks sent,
in the order sent and one after another, and answers every question between two of them; so later answers are never
about an earlier moment than earlier answers. -/
theorem C98_moments (s0 : St) (es : List (PageEv N Q)) (p : Page N St Q A)
    (hrun : (Page.init s0).run convert add view es = some p) :
    p.proc.handled <+: p.proc.sent ∧ Told (Spec.after convert add s0) view p.proc.handled p.told := by
  have h := moments convert add view s0 es p hrun
  have e : (fun bs => bs.foldl (fun s b => (handle convert add s b).1) s0) = Spec.after convert add s0 :=
    funext fun bs => sequential_after convert add s0 bs
  rwa [e] at h

theorem noReader_run : ∀ (es : List (PageEv N Q)) (p p' : Page N St Q A), NoReader p.proc → p.run convert add view es = some p' →
    NoReader p'.proc := by
  intro es
  induction es with
  | nil => intro p p' h hr; cases hr; exact h
  | cons e es ih =>
    intro p p' h hr
    rw [Page.run] at hr
    split at hr
    · cases hr
    · rename_i q hq
      refine ih q p' ?_ hr
      cases e with
      | node e =>
        obtain ⟨x, hx, rfl⟩ := Option.map_eq_some_iff.mp hq
        exact noReader_step convert add h e hx
      | answer q =>
        simp only [Page.step] at hq
        split at hq
        · cases hq; exact h
        · cases hq

/-- **C98 (guards).** While a block is being added, no answer is computed: pages never see a half-updated frontier. -/
theorem C98_no_answer_while_adding (s0 : St) (es : List (PageEv N Q)) (p : Page N St Q A)
    (hrun : (Page.init s0).run convert add view es = some p) (b : N) (hb : p.proc.loop = .adding b) (q : Q) :
    p.step convert add view (.answer q) = none := by
  have h := noReader_run convert add view es _ p (by intro b hb; cases hb) hrun b hb
  simp only [Page.step]
  rw [if_neg (by omega)]

/-- **C98 (guards).** As long as some caller holds a guard, the frontier does not change. -/
theorem C98_guard (s0 : St) (es es' : List (PageEv N Q)) (p p' : Page N St Q A)
    (hrun : (Page.init s0).run convert add view es = some p) (hrun' : p.run convert add view es' = some p')
    (hheld : ∀ pre post q, es' = pre ++ post → p.run convert add view pre = some q → 0 < q.proc.readers) :
    p'.proc.frontier = p.proc.frontier ∧ p'.proc.handled = p.proc.handled := by
  have h0 := noReader_run convert add view es _ p (by intro b hb; cases hb) hrun
  clear hrun
  induction es' generalizing p with
  | nil => cases hrun'; exact ⟨rfl, rfl⟩
  | cons e es' ih =>
    rw [Page.run] at hrun'
    split at hrun'
    · cases hrun'
    · rename_i q hq
      have hstay : q.proc.frontier = p.proc.frontier ∧ q.proc.handled = p.proc.handled := by
        cases e with
        | node e =>
          obtain ⟨x, hx, rfl⟩ := Option.map_eq_some_iff.mp hq
          rcases handled_step convert add e hx with ⟨h1, h2⟩ | ⟨b, -, hl⟩
          · exact ⟨h2, h1⟩
          · have := hheld [] (.node e :: es') p rfl rfl
            rw [h0 b hl] at this
            cases this
        | answer a =>
          simp only [Page.step] at hq
          split at hq
          · cases hq; exact ⟨rfl, rfl⟩
          · cases hq
      have hnq : NoReader q.proc := noReader_run convert add view [e] p q h0 (by rw [Page.run, hq]; rfl)
      obtain ⟨h1, h2⟩ := ih q hrun' (fun pre post r he hr => hheld (e :: pre) post r (by rw [he]; rfl)
        (by rw [Page.run, hq]; exact hr)) hnq
      exact ⟨h1.trans hstay.1, h2.trans hstay.2⟩

/-! ## Mainnet: the document -/

theorem stateText_ok (E : Json.Env) (ps : MainnetState) :
    ∃ j, stateText E ps = .ok (some j) ∧ readState E j = .ok ps := by
  have hcar := Block.carried_part Block.protocolState (by decide +kernel) Json.Block.protocolState (by decide +kernel)
    state_wire_eq_json ps (Block.shown_noText Block.shownText_noText _ _ rfl)
  obtain ⟨j, h1, h2, -⟩ := Json.roundtrip E Json.Block.protocolState (by decide +kernel) _ hcar
  refine ⟨j, ?_, ?_⟩
  · unfold stateText stateForm
    rw [h1]
  · unfold readState
    rw [h2, Block.norm_toWire Block.protocolState (by decide +kernel) Json.Block.protocolState (by decide +kernel)
      state_wire_eq_json ps]
    simp only [cast_cast, cast_eq, Block.from_to]

/-- **C98 (the document).** The document of a protocol state is always written, never replaced by the empty string, and
it is read back as the same protocol state. -/
theorem C98_document (E : Json.Env) (ps : MainnetState) :
    ∃ j, stateText E ps = .ok (some j) ∧ readState E j = .ok ps := stateText_ok E ps

/-! ## Answers and moments -/

section
variable {after : List N → St} {view : Q → St → A}

theorem told_mem {bs : List N} {as : List (Q × A)} (h : Told after view bs as) (x : Q × A) (hx : x ∈ as) :
    ∃ pre, pre <+: bs ∧ x.2 = view x.1 (after pre) := by
  induction h with
  | start => cases hx
  | block b _ ih =>
    obtain ⟨pre, h1, h2⟩ := ih hx
    exact ⟨pre, h1.trans (List.prefix_append _ _), h2⟩
  | @answer bs as q h ih =>
    rcases List.mem_append.mp hx with hx | hx
    · exact ih hx
    · cases List.mem_singleton.mp hx
      exact ⟨bs, List.prefix_refl _, rfl⟩

theorem told_two {bs : List N} {as : List (Q × A)} (h : Told after view bs as) (xs ys : List (Q × A)) (x y : Q × A)
    (he : as = xs ++ x :: ys) (hy : y ∈ ys) :
    ∃ pre pre', pre <+: pre' ∧ pre' <+: bs ∧ x.2 = view x.1 (after pre) ∧ y.2 = view y.1 (after pre') := by
  induction h generalizing ys with
  | start => cases xs <;> cases he
  | block b _ ih =>
    obtain ⟨pre, pre', h1, h2, h3⟩ := ih ys he hy
    exact ⟨pre, pre', h1, h2.trans (List.prefix_append _ _), h3⟩
  | @answer bs as q h ih =>
    rcases List.eq_nil_or_concat ys with rfl | ⟨zs, z, rfl⟩
    · cases hy
    · rw [List.concat_eq_append, ← List.cons_append, ← List.append_assoc] at he
      obtain ⟨h1, h2⟩ := List.append_inj' he rfl
      cases h2
      rw [List.concat_eq_append] at hy
      rcases List.mem_append.mp hy with hy | hy
      · exact ih zs h1 hy
      · cases List.mem_singleton.mp hy
        obtain ⟨pre, h3, h4⟩ := told_mem h x (by rw [h1]; simp)
        exact ⟨pre, bs, h3, List.prefix_refl _, h4, rfl⟩

end

theorem offers_append (s : St) (xs ys : List B) : offers add s (xs ++ ys) = offers add (offers add s xs) ys := by
  induction xs generalizing s with
  | nil => rfl
  | cons x xs ih => simp only [List.cons_append, offers]; exact ih _

section
variable {T K Pt S P Proof : Type} (h : Header T) (crypto : Crypto K Pt S P)

theorem extend_nonempty (c : Chain T) (b : T) : (extend h c b).1 ≠ [] := by
  cases c with
  | nil =>
    have e : MinaRs.Consensus.length h [] = 0 := rfl
    unfold extend
    rw [if_pos (by rw [e]; omega)]
    simp [push]
  | cons x c =>
    rcases extend_cases (h := h) (x :: c) b with ⟨-, h1 | h1 | h1⟩ | ⟨h1, -⟩ <;> rw [h1] <;> simp

theorem berkeley_chain (s : State T Proof) (b : T × List Proof) :
    (addBlockBerkeley h s b).1.bestChain = (extend h s.bestChain b.1).1 := by
  obtain ⟨b, ps⟩ := b
  unfold addBlockBerkeley extend
  simp only
  split
  · rcases push h s.bestChain b with ⟨c, r⟩
    cases r <;> rfl
  · rcases selectSecureChain h s.bestChain [[b]] with ⟨c, r⟩
    cases r with
    | error e => rfl
    | ok u => simp only; split <;> rfl

theorem mainnet_empty_step (s : State T Proof) (b : ExternalTransition T K S P) :
    (addBlockMainnet h crypto s b).1.bestChain = [] ↔ s.bestChain = [] ∧ ¬ ValidBlock crypto b := by
  by_cases hv : ValidBlock crypto b
  · have e := (verify_true crypto b).mpr hv
    unfold addBlockMainnet
    rw [e]
    simp only [hv, not_true_eq_false, and_false, iff_false]
    exact extend_nonempty h s.bestChain b.protocolState
  · rw [(C39_invalid_refused h crypto s b hv).1]
    simp [hv]

theorem mainnet_empty (s : State T Proof) (bs : List (ExternalTransition T K S P)) :
    (offers (addBlockMainnet h crypto) s bs).bestChain = [] ↔ s.bestChain = [] ∧ ∀ b ∈ bs, ¬ ValidBlock crypto b := by
  induction bs generalizing s with
  | nil => simp [offers]
  | cons b bs ih =>
    rw [offers, ih, mainnet_empty_step]
    simp only [List.mem_cons, forall_eq_or_imp, and_assoc]

theorem berkeley_empty (s : State T Proof) (bs : List (T × List Proof)) :
    (offers (addBlockBerkeley h) s bs).bestChain = [] ↔ s.bestChain = [] ∧ bs = [] := by
  induction bs generalizing s with
  | nil => simp [offers]
  | cons b bs ih =>
    rw [offers, ih, berkeley_chain]
    simp only [extend_nonempty h, false_and, reduceCtorEq, and_false]

theorem top_none {c : Chain T} (hc : top c = none) : c = [] := by
  unfold top at hc
  exact List.getLast?_eq_none_iff.mp hc

theorem top_mem {c : Chain T} {t : T} (hc : top c = some t) : t ∈ c := List.mem_of_getLast? hc

end

/-! ## Mainnet: the answers -/

namespace Spec

/-- A valid block among these. -/
def HasValid {N K Pt S P T : Type} (crypto : Crypto K Pt S P) (convert : N → Except Err (ExternalTransition T K S P)) (ns : List N) : Prop :=
  ∃ n ∈ ns, ∃ b, convert n = .ok b ∧ ValidBlock crypto b

/-- The protocol state of a valid block among these. -/
def IsStateOfValid {N K Pt S P T : Type} (crypto : Crypto K Pt S P) (convert : N → Except Err (ExternalTransition T K S P)) (ns : List N)
    (x : T) : Prop :=
  ∃ n ∈ ns, ∃ b, convert n = .ok b ∧ ValidBlock crypto b ∧ b.protocolState = x

/-- The answer is right of a node that was sent these blocks: `null` only if none of them is valid, and else the hash or
a document of the protocol state of a valid one, and the document is read as that protocol state. -/
def MainnetRight {N K Pt S P : Type} (crypto : Crypto K Pt S P) (convert : N → Except Err (ExternalTransition MainnetState K S P))
    (h : Header MainnetState) (render : Nat → String) (E : Json.Env) (ns : List N) : MainnetQ → MainnetA → Prop
  | .hash, .hash none => ¬ HasValid crypto convert ns
  | .hash, .hash (some t) => ∃ x, IsStateOfValid crypto convert ns x ∧ t = render (h.stateHash x)
  | .json, .json none => ¬ HasValid crypto convert ns
  | .json, .json (some r) => ∃ x j, IsStateOfValid crypto convert ns x ∧ r = .ok (some j) ∧ readState E j = .ok x
  | _, _ => False

/-- The answer is `null`. -/
def MainnetNull : MainnetA → Prop
  | .hash t => t = none
  | .json t => t = none

end Spec

section
variable {K Pt S P Proof : Type} (h : Header MainnetState) (crypto : Crypto K Pt S P) (render : Nat → String) (E : Json.Env)
  (convert : N → Except Err (ExternalTransition MainnetState K S P))

theorem hasValid_iff (ns : List N) : HasValid crypto convert ns ↔ ∃ b ∈ ns.filterMap (converted convert), ValidBlock crypto b := by
  constructor
  · rintro ⟨n, hn, b, hc, hb⟩
    exact ⟨b, List.mem_filterMap.mpr ⟨n, hn, (converted_iff convert n b).mpr hc⟩, hb⟩
  · rintro ⟨b, hb, hv⟩
    obtain ⟨n, hn, hc⟩ := List.mem_filterMap.mp hb
    exact ⟨n, hn, b, (converted_iff convert n b).mp hc, hv⟩

/-- The best chain after some blocks: empty if none of them is valid, and else with the state of a valid one on top. -/
theorem mainnet_top (ns : List N) :
    match top (sequential convert (addBlockMainnet h crypto) (State.new : State MainnetState Proof) ns).bestChain with
    | none => ¬ HasValid crypto convert ns
    | some t => IsStateOfValid crypto convert ns t := by
  rw [sequential_offers]
  cases ht : top (offers (addBlockMainnet h crypto) (State.new : State MainnetState Proof) (ns.filterMap (converted convert))).bestChain with
  | none =>
    have := (mainnet_empty h crypto _ _).mp (top_none ht)
    simp only
    rw [hasValid_iff]
    rintro ⟨b, hb, hv⟩
    exact this.2 b hb hv
  | some t =>
    obtain ⟨b, hb, h1, h2⟩ := C39_best_chain_verified h crypto _ t (top_mem ht)
    obtain ⟨n, hn, hc⟩ := List.mem_filterMap.mp hb
    exact ⟨n, hn, b, (converted_iff convert n b).mp hc, h2, h1⟩

/-- **C98 (mainnet).** Under every schedule, whatever a page is told is about the first few blocks sent: it is told
nothing only if none of them is valid, and otherwise the hash or a document of the protocol state of a valid one, and
the document is read back as that protocol state. -/
theorem C98_mainnet (es : List (PageEv N MainnetQ)) (p : Page N (State MainnetState Proof) MainnetQ MainnetA)
    (hrun : (Page.init State.new).run convert (addBlockMainnet h crypto) (mainnetView h render E) es = some p)
    (q : MainnetQ) (a : MainnetA) (ha : (q, a) ∈ p.told) :
    ∃ ns, ns <+: p.proc.sent ∧ MainnetRight crypto convert h render E ns q a := by
  obtain ⟨h1, h2⟩ := moments _ _ _ _ es p hrun
  obtain ⟨ns, h3, h4⟩ := told_mem h2 (q, a) ha
  refine ⟨ns, h3.trans h1, ?_⟩
  have hm := mainnet_top (Proof := Proof) h crypto convert ns
  unfold sequential at hm
  simp only at h4
  rw [h4]
  clear ha h4
  cases q with
  | hash =>
    simp only [mainnetView, MinaRs.Consensus.stateHash]
    cases ht : top (ns.foldl (fun s b => (handle convert (addBlockMainnet h crypto) s b).1)
      (State.new : State MainnetState Proof)).bestChain with
    | none => rw [ht] at hm; exact hm
    | some t => rw [ht] at hm; exact ⟨t, hm, rfl⟩
  | json =>
    simp only [mainnetView]
    cases ht : top (ns.foldl (fun s b => (handle convert (addBlockMainnet h crypto) s b).1)
      (State.new : State MainnetState Proof)).bestChain with
    | none => rw [ht] at hm; exact hm
    | some t =>
      rw [ht] at hm
      obtain ⟨j, h5, h6⟩ := stateText_ok E t
      exact ⟨t, j, hm, h5, h6⟩

theorem mainnet_null_iff (q : MainnetQ) (s : State MainnetState Proof) :
    MainnetNull (mainnetView h render E q s) ↔ s.bestChain = [] := by
  cases q <;> cases ht : top s.bestChain <;>
    simp only [mainnetView, MainnetNull, MinaRs.Consensus.stateHash, ht, Option.map_none, Option.map_some, reduceCtorEq, true_iff, false_iff]
  · exact top_none ht
  · intro hc; rw [hc] at ht; cases ht
  · exact top_none ht
  · intro hc; rw [hc] at ht; cases ht

/-- **C98 (mainnet).** Once a page was told something, no page is told nothing again. -/
theorem C98_mainnet_never_null_again (es : List (PageEv N MainnetQ)) (p : Page N (State MainnetState Proof) MainnetQ MainnetA)
    (hrun : (Page.init State.new).run convert (addBlockMainnet h crypto) (mainnetView h render E) es = some p)
    (earlier later : List (MainnetQ × MainnetA)) (x y : MainnetQ × MainnetA) (htold : p.told = earlier ++ x :: later)
    (hy : y ∈ later) (hx : ¬ MainnetNull x.2) : ¬ MainnetNull y.2 := by
  obtain ⟨-, h2⟩ := moments _ _ _ _ es p hrun
  obtain ⟨pre, pre', ⟨rest, h3⟩, -, h4, h5⟩ := told_two h2 _ _ x y htold hy
  rw [h4, mainnet_null_iff] at hx
  rw [h5, mainnet_null_iff]
  intro hn
  apply hx
  subst h3
  change (sequential convert (addBlockMainnet h crypto) State.new (pre ++ rest)).bestChain = [] at hn
  change (sequential convert (addBlockMainnet h crypto) State.new pre).bestChain = []
  rw [sequential_offers, List.filterMap_append, offers_append, mainnet_empty] at hn
  rw [sequential_offers]
  exact hn.1

/-- **C98 (mainnet).** If no block was handled between two questions, the hash is the hash of the protocol state in the
document. -/
theorem C98_mainnet_agree (es es' : List (PageEv N MainnetQ)) (p p' : Page N (State MainnetState Proof) MainnetQ MainnetA)
    (hrun : (Page.init State.new).run convert (addBlockMainnet h crypto) (mainnetView h render E) es = some p)
    (hrun' : p.run convert (addBlockMainnet h crypto) (mainnetView h render E) es' = some p')
    (hsame : p'.proc.handled = p.proc.handled) (t : String) (r : Except Json.JErr (Option Json.J))
    (ht : mainnetView h render E .hash p.proc.frontier = .hash (some t))
    (hr : mainnetView h render E .json p'.proc.frontier = .json (some r)) :
    ∃ j x, r = .ok (some j) ∧ readState E j = .ok x ∧ t = render (h.stateHash x) := by
  have i := pageInv_run _ _ _ (pageInv_init convert (addBlockMainnet h crypto) (mainnetView h render E) State.new) es hrun
  have i' := pageInv_run _ _ _ i es' hrun'
  have hs : p'.proc.frontier = p.proc.frontier := by rw [i'.proc.frontier, i.proc.frontier, hsame]
  rw [hs] at hr
  simp only [mainnetView, MinaRs.Consensus.stateHash, MainnetA.hash.injEq, MainnetA.json.injEq] at ht hr
  cases e : top p.proc.frontier.bestChain with
  | none => rw [e] at ht; cases ht
  | some x =>
    rw [e] at ht hr
    obtain ⟨j, h1, h2⟩ := stateText_ok E x
    simp only [Option.map_some, Option.some.injEq] at ht hr
    exact ⟨j, x, hr ▸ h1, h2, ht.symm⟩

end

/-! ## Berkeley: the answers -/

namespace Spec

/-- A block with this protocol state, and one with this ledger, among these. -/
def Delivered {N T Proof : Type} (convert : N → Except Err (T × List Proof)) (ns : List N) (b : T × List Proof) : Prop :=
  ∃ n ∈ ns, convert n = .ok b

/-- The answer is right of a node that was sent these blocks: nothing only if none of them could be read, and else the hash
or the protocol state or the ledger of one of them. -/
def BerkeleyRight {N T Proof : Type} (convert : N → Except Err (T × List Proof)) (h : Header T) (render : Nat → String)
    (ns : List N) : BerkeleyQ → BerkeleyA T Proof → Prop
  | .hash, .hash none => ∀ n ∈ ns, ∀ b, convert n ≠ .ok b
  | .hash, .hash (some t) => ∃ b, Delivered convert ns b ∧ t = render (h.stateHash b.1)
  | .state, .state none => ∀ n ∈ ns, ∀ b, convert n ≠ .ok b
  | .state, .state (some x) => ∃ b, Delivered convert ns b ∧ b.1 = x
  | .ledger, .ledger l => ((∀ n ∈ ns, ∀ b, convert n ≠ .ok b) ∧ l = []) ∨ ∃ b, Delivered convert ns b ∧ b.2 = l
  | _, _ => False

end Spec

section
variable {T Proof : Type} (h : Header T) (render : Nat → String) (convert : N → Except Err (T × List Proof))

theorem delivered_iff (ns : List N) (b : T × List Proof) : b ∈ ns.filterMap (converted convert) ↔ Delivered convert ns b := by
  simp only [List.mem_filterMap, converted_iff, Delivered]

/-- The best chain and the ledger after some blocks. -/
theorem berkeley_top (ns : List N) (s : State T Proof)
    (hs : s = sequential convert (addBlockBerkeley h) (State.new : State T Proof) ns) :
    match top s.bestChain with
    | none => (∀ n ∈ ns, ∀ b, convert n ≠ .ok b) ∧ s.ledger = []
    | some t => (∃ b, Delivered convert ns b ∧ b.1 = t) ∧
      ∃ b, Delivered convert ns b ∧ h.stateHash b.1 = h.stateHash t ∧ b.2 = s.ledger := by
  rw [sequential_offers] at hs
  have hl := C41_ledger_of_tip_hash (Proof := Proof) h (ns.filterMap (converted convert))
  rw [← hs] at hl
  unfold LedgerOfTip at hl
  cases ht : top s.bestChain with
  | none =>
    rw [ht] at hl
    refine ⟨?_, hl⟩
    have he := top_none ht
    rw [hs] at he
    have := ((berkeley_empty h _ _).mp he).2
    intro n hn b hc
    have hm : b ∈ ns.filterMap (converted convert) := List.mem_filterMap.mpr ⟨n, hn, (converted_iff convert n b).mpr hc⟩
    rw [this] at hm
    cases hm
  | some t =>
    rw [ht] at hl
    obtain ⟨h1, b, h2, h3, h4⟩ := hl
    obtain ⟨b', hb', rfl⟩ := List.mem_map.mp h1
    exact ⟨⟨b', (delivered_iff convert ns b').mp hb', rfl⟩, b, (delivered_iff convert ns b).mp h2, h3, h4⟩

/-- **C98 (Berkeley net).** Under every schedule, whatever a page is told is about the first few blocks sent: it is told
nothing only if none of them could be read, and otherwise the hash, the protocol state or the ledger of one of them. -/
theorem C98_berkeley (es : List (PageEv N BerkeleyQ)) (p : Page N (State T Proof) BerkeleyQ (BerkeleyA T Proof))
    (hrun : (Page.init State.new).run convert (addBlockBerkeley h) (berkeleyView h render) es = some p)
    (q : BerkeleyQ) (a : BerkeleyA T Proof) (ha : (q, a) ∈ p.told) :
    ∃ ns, ns <+: p.proc.sent ∧ BerkeleyRight convert h render ns q a := by
  obtain ⟨h1, h2⟩ := moments _ _ _ _ es p hrun
  obtain ⟨ns, h3, h4⟩ := told_mem h2 (q, a) ha
  refine ⟨ns, h3.trans h1, ?_⟩
  have hm := berkeley_top h convert ns _ rfl
  unfold sequential at hm
  simp only at h4
  rw [h4]
  clear ha h4
  cases ht : top (ns.foldl (fun s b => (handle convert (addBlockBerkeley h) s b).1) (State.new : State T Proof)).bestChain with
  | none =>
    rw [ht] at hm
    cases q <;> simp only [berkeleyView, MinaRs.Consensus.stateHash, ht]
    · exact hm.1
    · exact hm.1
    · exact .inl hm
  | some t =>
    rw [ht] at hm
    obtain ⟨⟨b, hb, h5⟩, b', hb', -, h6⟩ := hm
    cases q <;> simp only [berkeleyView, MinaRs.Consensus.stateHash, ht]
    · exact ⟨b, hb, by rw [h5]⟩
    · exact ⟨b, hb, h5⟩
    · exact .inr ⟨b', hb', h6⟩

/-- **C98 (Berkeley net).** If no block was handled between the two questions, the ledger was delivered with a block that
has the state hash of the protocol state.  Missing: questions with a block between them, see
`C98_two_calls_fails`. -/
theorem C98_berkeley_together_partial (es es' : List (PageEv N BerkeleyQ)) (p p' : Page N (State T Proof) BerkeleyQ (BerkeleyA T Proof))
    (hrun : (Page.init State.new).run convert (addBlockBerkeley h) (berkeleyView h render) es = some p)
    (hrun' : p.run convert (addBlockBerkeley h) (berkeleyView h render) es' = some p')
    (hsame : p'.proc.handled = p.proc.handled) (x : T) (l : List Proof)
    (hx : berkeleyView h render .state p.proc.frontier = .state (some x))
    (hl : berkeleyView h render .ledger p'.proc.frontier = .ledger l) :
    ∃ b, Delivered convert p.proc.sent b ∧ h.stateHash b.1 = h.stateHash x ∧ b.2 = l := by
  have i := pageInv_run _ _ _ (pageInv_init convert (addBlockBerkeley h) (berkeleyView h render) State.new) es hrun
  have i' := pageInv_run _ _ _ i es' hrun'
  have hs : p'.proc.frontier = p.proc.frontier := by rw [i'.proc.frontier, i.proc.frontier, hsame]
  rw [hs] at hl
  have hm := berkeley_top h convert p.proc.handled _ i.proc.frontier
  simp only [berkeleyView, BerkeleyA.state.injEq, BerkeleyA.ledger.injEq] at hx hl
  rw [hx] at hm
  obtain ⟨-, b, ⟨n, hn, hb⟩, h1, h2⟩ := hm
  refine ⟨b, ⟨n, ?_, hb⟩, h1, h2.trans hl⟩
  rw [i.proc.log]; simp [hn]

end

/-! ## Examples and disagreements -/

/-- Taking a guard, computing an answer and releasing the guard. -/
def exAsk (q : BerkeleyQ) : List (PageEv ((ConsensusState × Nat) × List String) BerkeleyQ) :=
  [.node .acquireRead, .answer q, .node .releaseRead]

/-- A block arrives and is handled. -/
def exArrive (b : (ConsensusState × Nat) × List String) : List (PageEv ((ConsensusState × Nat) × List String) BerkeleyQ) :=
  [.node (.send b), .node .loop, .node .loop, .node .loop]

/-- A page that asks before and after two blocks. -/
example : ((Page.init (Q := BerkeleyQ) (State.new : State (ConsensusState × Nat) String)).run .ok (addBlockBerkeley exHeader)
    (berkeleyView exHeader toString)
    (exAsk .state ++ exArrive (exState 5 2000 [1] [1] 0, ["a"]) ++ exAsk .hash ++ exArrive (exState 6 2000 [1] [1] 2, ["c"]) ++
      exAsk .hash ++ exAsk .ledger)).map Page.told =
    some [(.state, .state none), (.hash, .hash (some "0")), (.hash, .hash (some "2")), (.ledger, .ledger ["c"])] := by decide +kernel

/-- **C98** is false of the code across calls: a page asks for the protocol state and then for the ledger, and gets the
ledger of another block, because a block was handled in between. -/
theorem C98_two_calls_fails : ∃ (es : List (PageEv ((ConsensusState × Nat) × List String) BerkeleyQ))
    (p : Page ((ConsensusState × Nat) × List String) (State (ConsensusState × Nat) String) BerkeleyQ (BerkeleyA (ConsensusState × Nat) String))
    (x : ConsensusState × Nat) (l : List String),
    (Page.init State.new).run .ok (addBlockBerkeley exHeader) (berkeleyView exHeader toString) es = some p ∧
    p.told = [(.state, .state (some x)), (.ledger, .ledger l)] ∧
    ∀ b, Delivered .ok p.proc.sent b → exHeader.stateHash b.1 = exHeader.stateHash x → b.2 ≠ l := by
  refine ⟨exArrive (exState 5 2000 [1] [1] 0, ["a"]) ++ exAsk .state ++ exArrive (exState 6 2000 [1] [1] 2, ["c"]) ++ exAsk .ledger,
    _, exState 5 2000 [1] [1] 0, ["c"], rfl, rfl, ?_⟩
  rintro b ⟨n, hn, hb⟩ he hl
  cases hb
  have hn' : b ∈ [(exState 5 2000 [1] [1] 0, ["a"]), (exState 6 2000 [1] [1] 2, ["c"])] := hn
  simp only [List.mem_cons, List.not_mem_nil, or_false] at hn'
  rcases hn' with rfl | rfl
  · exact absurd hl (by decide)
  · exact absurd he (by decide)

/-- The mainnet node of the examples: every block is a protocol state without commands. -/
def exMainnet : Header MainnetState := ⟨fun _ => (exState 5 2000 [1] [1] 0).1, fun _ => 42, id⟩

/-- The protocol state of the sample block. -/
def exMainnetState : MainnetState := (show Block.Spec.BlkParts from Block.sampleBlock.1).1

/-- A page that asks while a block waits for the guard to be released, and again after it was handled. -/
example (E : Json.Env) : ((Page.init (Q := MainnetQ) (State.new : State MainnetState Unit)).run
    (fun n : Nat => if n = 0 then .error .conversion else .ok (⟨exMainnetState, ⟨[], none⟩⟩ : ExternalTransition MainnetState Nat Nat Nat))
    (addBlockMainnet exMainnet exCrypto) (mainnetView exMainnet toString E)
    [.node (.send 0), .node .loop, .node .loop, .node .loop, .node .acquireRead, .answer .json, .node (.send 7), .node .loop,
     .answer .hash, .node .releaseRead, .node .loop, .node .loop, .node .acquireRead, .answer .json, .answer .hash]).map Page.told =
    some [(.json, .json none), (.hash, .hash none), (.json, .json (some (stateText E exMainnetState))),
      (.hash, .hash (some "42"))] := by rfl

end MinaRs.Frontier
