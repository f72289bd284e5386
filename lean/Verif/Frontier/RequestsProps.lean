import Verif.Frontier.RequestsSpec
import Verif.Frontier.Processor

/-!
# Requests for blocks (C127)

`Spec.Takes`, `Spec.TakesAll` and `Spec.Answer` are in `Frontier/RequestsSpec.lean`.
-/

namespace MinaRs.Frontier

open Spec (Takes TakesAll Answer Entangled)

variable {N B St R : Type} {convert : N → Except Err B} {add : St → B → St × List R × Except Err Unit} {ops : Ops}

/-- The block in the hands of the receiving loop. -/
def Recv.hand : Recv N R → List N
  | .adding b => [b]
  | .asking b _ => [b]
  | _ => []

/-- The block that has been added, its requests being sent. -/
def Recv.added : Recv N R → List N
  | .asking b _ => [b]
  | _ => []

/-- The requests still to be sent. -/
def Recv.todo : Recv N R → List R
  | .asking _ rs => rs
  | _ => []

/-- The request in the hands of the requesting loop. -/
def Query.hand : Query N R → List R
  | .locking r => [r]
  | _ => []

/-- The blocks still to be sent. -/
def Query.todo : Query N R → List N
  | .sending bs => bs
  | _ => []

structure DuoInv (convert : N → Except Err B) (add : St → B → St × List R × Except Err Unit) (ops : Ops) (s0 : St)
    (ws : List (World N R)) (d : Duo N St R) : Prop where
  blocks : d.sent = d.handled ++ d.recv.hand ++ d.blocks
  room : d.blocks.length ≤ 1
  requests : d.asked = d.queried.map (·.1) ++ d.query.hand ++ d.requests
  roomR : d.requests.length ≤ 1
  taken : TakesAll convert add s0 (d.handled ++ d.recv.added) d.frontier (d.asked ++ d.recv.todo)
  answers : d.answered ++ d.query.todo = (d.queried.map (·.2)).flatten
  among : d.answered.Sublist d.sent
  worlds : ∀ q ∈ d.queried, ∃ w ∈ ws, q.2 = queryBlock ops w q.1
  alone : ∀ bs, d.query = .sending bs → d.polls = []

/-- The worlds of a schedule. -/
def worldOf : DuoEv N R → Option (World N R)
  | .query w => some w
  | _ => none

theorem duo_init (s0 : St) : DuoInv convert add ops s0 [] (Duo.init s0 : Duo N St R) :=
  ⟨rfl, by simp [Duo.init], rfl, by simp [Duo.init], .nil, rfl, .refl _, by simp [Duo.init], by simp [Duo.init]⟩

theorem put_inv {s0 : St} {ws : List (World N R)} {d d' : Duo N St R} {b : N} (hd : DuoInv convert add ops s0 ws d) (h : d.put b = some d') :
    DuoInv convert add ops s0 ws d' := by
  unfold Duo.put at h
  split at h
  · rename_i hc
    cases h
    obtain ⟨h1, h2, h3, h4, h5, h6, h7, h8, h9⟩ := hd
    refine ⟨by simp [h1], ?_, h3, h4, h5, h6, h7.trans (List.sublist_append_left _ _), h8, h9⟩
    simp only [capacity] at hc
    simp only [List.length_append, List.length_cons, List.length_nil]; omega
  · cases h

theorem put_eq {d d' : Duo N St R} {b : N} (h : d.put b = some d') :
    d.blocks = [] ∧ d' = { d with blocks := [b], sent := d.sent ++ [b] } := by
  unfold Duo.put at h
  split at h
  · rename_i hc
    have : d.blocks = [] := by
      cases hb : d.blocks with
      | nil => rfl
      | cons x xs => rw [hb] at hc; simp [capacity] at hc
    cases h
    exact ⟨this, by simp [this]⟩
  · cases h

theorem recv_inv {s0 : St} {ws : List (World N R)} {d d' : Duo N St R} (hd : DuoInv convert add ops s0 ws d)
    (h : d.recvStep convert add = some d') : DuoInv convert add ops s0 ws d' := by
  obtain ⟨h1, h2, h3, h4, h5, h6, h7, h8, h9⟩ := hd
  unfold Duo.recvStep at h
  split at h
  · rename_i hr
    rw [hr] at h1 h5
    split at h
    · rename_i b rest hb
      cases h
      rw [hb] at h1 h2
      exact ⟨by simpa [Recv.hand] using h1, by simp at h2; simp [h2], h3, h4, h5, h6, h7, h8, h9⟩
    · cases h
  · rename_i b hr
    rw [hr] at h1 h5
    simp only [Recv.hand, Recv.added, Recv.todo, List.append_nil] at h1 h5
    split at h
    · rename_i e he
      have h5' := TakesAll.snoc h5 (.passed he)
      rw [List.append_nil] at h5'
      split at h <;> cases h
      all_goals exact ⟨by simpa [Recv.hand] using h1, h2, h3, h4, by simpa [Recv.added, Recv.todo] using h5', h6, h7, h8, h9⟩
    · rename_i x hx
      split at h
      · rename_i s rs ha
        cases h
        exact ⟨by simpa [Recv.hand] using h1, h2, h3, h4, .snoc h5 (.taken hx ha (by intro e h; cases h)), h6, h7, h8, h9⟩
      · rename_i s rs e ha
        split at h
        · rename_i hp
          cases h
          have h5' := TakesAll.snoc h5 (.panicked hx ha ((isPanic_iff e).mp hp))
          rw [List.append_nil] at h5'
          exact ⟨by simpa [Recv.hand] using h1, h2, h3, h4, by simpa [Recv.added, Recv.todo] using h5', h6, h7, h8, h9⟩
        · rename_i hp
          cases h
          refine ⟨by simpa [Recv.hand] using h1, h2, h3, h4, .snoc h5 (.taken hx ha ?_), h6, h7, h8, h9⟩
          intro e' h hp'
          cases h
          exact hp ((isPanic_iff e).mpr hp')
  · rename_i b hr
    rw [hr] at h1 h5
    cases h
    exact ⟨by simpa [Recv.hand] using h1, h2, h3, h4, by simpa [Recv.added, Recv.todo] using h5, h6, h7, h8, h9⟩
  · rename_i b r rs hr
    rw [hr] at h1 h5
    split at h
    · rename_i hc
      cases h
      refine ⟨by simpa [Recv.hand] using h1, h2, by simp [h3], ?_, by simpa [Recv.added, Recv.todo] using h5, h6, h7, h8, h9⟩
      simp only [capacity] at hc
      simp only [List.length_append, List.length_cons, List.length_nil]; omega
    · cases h
  · cases h

theorem query_inv {s0 : St} {ws : List (World N R)} {d d' : Duo N St R} {w : World N R} (hd : DuoInv convert add ops s0 ws d)
    (h : d.queryStep ops w = some d') : DuoInv convert add ops s0 (ws ++ [w]) d' := by
  have hd' := hd
  obtain ⟨h1, h2, h3, h4, h5, h6, h7, h8, h9⟩ := hd
  have h8' : ∀ q ∈ d.queried, ∃ w' ∈ ws ++ [w], q.2 = queryBlock ops w' q.1 := by
    intro q hq
    obtain ⟨w', hw, e⟩ := h8 q hq
    exact ⟨w', by simp [hw], e⟩
  unfold Duo.queryStep at h
  split at h
  · rename_i hq
    rw [hq] at h3 h6
    split at h
    · rename_i r rest hr
      cases h
      rw [hr] at h3 h4
      exact ⟨h1, h2, by simpa [Query.hand] using h3, by simp at h4; simp [h4], h5, h6, h7, h8', by simp⟩
    · cases h
  · rename_i r hq
    rw [hq] at h3 h6
    split at h
    · rename_i hp
      cases h
      refine ⟨h1, h2, by simpa [Query.hand] using h3, h4, h5, ?_, h7, ?_, fun _ _ => hp⟩
      · simp only [Query.todo, List.append_nil] at h6
        simp [Query.todo, h6]
      · intro q hq
        rcases List.mem_append.mp hq with hq | hq
        · exact h8' q hq
        · simp only [List.mem_singleton] at hq
          subst hq
          exact ⟨w, by simp, rfl⟩
    · cases h
  · rename_i hq
    rw [hq] at h3 h6
    cases h
    exact ⟨h1, h2, by simpa [Query.hand] using h3, h4, h5, by simpa [Query.todo] using h6, h7, h8', by simp⟩
  · rename_i b bs hq
    rw [hq] at h3 h6
    split at h
    · cases h
    · rename_i d1 hput
      obtain ⟨hb, rfl⟩ := put_eq hput
      cases h
      rw [hb] at h1
      refine ⟨by simp [h1], by simp, by simpa [Query.hand] using h3, h4, h5, by simpa [Query.todo] using h6, ?_, h8', ?_⟩
      · exact List.Sublist.append h7 (.refl _)
      · intro _ _; exact h9 _ hq

theorem duo_step {s0 : St} {ws : List (World N R)} {d d' : Duo N St R} (e : DuoEv N R) (hd : DuoInv convert add ops s0 ws d)
    (h : d.step convert add ops e = some d') : DuoInv convert add ops s0 (ws ++ (worldOf e).toList) d' := by
  cases e with
  | recv => simpa [worldOf] using recv_inv hd h
  | query w =>
    simp only [Duo.step] at h
    split at h
    · cases h
    · exact query_inv hd h
  | pollStarts bs =>
    simp only [Duo.step] at h
    split at h
    · rename_i hq
      cases h
      obtain ⟨h1, h2, h3, h4, h5, h6, h7, h8, h9⟩ := hd
      simp only [worldOf, Option.toList_none, List.append_nil]
      exact ⟨h1, h2, h3, h4, h5, h6, h7, h8, fun bs' h => by rw [hq] at h; cases h⟩
    · cases h
  | poll i =>
    simp only [worldOf, Option.toList_none, List.append_nil]
    simp only [Duo.step] at h
    split at h
    · cases h
    · rename_i hi
      cases h
      obtain ⟨h1, h2, h3, h4, h5, h6, h7, h8, h9⟩ := hd
      refine ⟨h1, h2, h3, h4, h5, h6, h7, h8, fun bs' h => ?_⟩
      rw [h9 bs' h] at hi; simp at hi
    · rename_i b bs hi
      split at h
      · cases h
      · rename_i d1 hput
        obtain ⟨h1, h2, h3, h4, h5, h6, h7, h8, h9⟩ := put_inv hd hput
        cases h
        refine ⟨h1, h2, h3, h4, h5, h6, h7, h8, fun bs' h => ?_⟩
        obtain ⟨-, rfl⟩ := put_eq hput
        have := h9 bs' h
        dsimp only at this
        rw [this] at hi; simp at hi

theorem duo_run {s0 : St} (es : List (DuoEv N R)) : ∀ {ws : List (World N R)} {d d' : Duo N St R}, DuoInv convert add ops s0 ws d →
    d.run convert add ops es = some d' → DuoInv convert add ops s0 (ws ++ es.filterMap worldOf) d' := by
  induction es with
  | nil => intro ws d d' hd h; cases h; simpa using hd
  | cons e es ih =>
    intro ws d d' hd h
    rw [Duo.run] at h
    split at h
    · cases h
    · rename_i d1 hs
      have := ih (duo_step e hd hs) h
      have e2 : ws ++ (e :: es).filterMap worldOf = ws ++ (worldOf e).toList ++ es.filterMap worldOf := by
        rw [List.filterMap_cons]
        cases worldOf e <;> simp
      rw [e2]; exact this

variable (convert add ops)

/-- **C127.** Under every schedule: blocks are handled in the order sent, each once, with at most two pending; the requests that
were sent are those of the frontier that is handed these blocks one after another, in order, but for those still to
be sent; and the frontier is that one. -/
theorem C127_asked (s0 : St) (es : List (DuoEv N R)) (d : Duo N St R) (hrun : (Duo.init s0).run convert add ops es = some d) :
    d.handled <+: d.sent ∧ d.sent.length ≤ d.handled.length + 2 ∧
    ∃ current rest, TakesAll convert add s0 (d.handled ++ current) d.frontier (d.asked ++ rest) ∧
      d.handled ++ current <+: d.sent ∧ (rest ≠ [] → current ≠ []) := by
  obtain ⟨h1, h2, h3, h4, h5, -⟩ := duo_run es (duo_init s0) hrun
  have hl : d.recv.hand.length ≤ 1 := by cases d.recv <;> simp [Recv.hand]
  refine ⟨⟨d.recv.hand ++ d.blocks, by rw [h1]; simp⟩, ?_, d.recv.added, d.recv.todo, h5, ?_, ?_⟩
  · rw [h1]; simp only [List.length_append]; omega
  · rw [h1]
    cases d.recv <;> simp [Recv.hand, Recv.added]
  · cases d.recv <;> simp [Recv.added, Recv.todo]

/-- **C127.** Under every schedule, requests are queried in the order sent, each once, with at most two pending. -/
theorem C127_queried (s0 : St) (es : List (DuoEv N R)) (d : Duo N St R) (hrun : (Duo.init s0).run convert add ops es = some d) :
    d.queried.map (·.1) <+: d.asked ∧ d.asked.length ≤ d.queried.length + 2 := by
  obtain ⟨h1, h2, h3, h4, -⟩ := duo_run es (duo_init s0) hrun
  have hl : d.query.hand.length ≤ 1 := by cases d.query <;> simp [Query.hand]
  refine ⟨⟨d.query.hand ++ d.requests, by rw [h3]; simp⟩, ?_⟩
  rw [h3]; simp only [List.length_append, List.length_map]; omega

theorem answer_of (w : World N R) (r : R) : Answer w r ops (queryBlock ops w r) := by
  cases ops with
  | v1 =>
    simp only [queryBlock]
    split
    · exact .got ‹_›
    · exact .missed ‹_›
  | berkeley =>
    simp only [queryBlock]
    have : ∀ l : List (Option N), l = (queryBlock.untilFailure l).map some ∨
        ∃ rest, l = (queryBlock.untilFailure l).map some ++ none :: rest := by
      intro l
      induction l with
      | nil => exact .inl rfl
      | cons a l ih =>
        cases a with
        | none => exact .inr ⟨l, rfl⟩
        | some b =>
          simp only [queryBlock.untilFailure, List.map_cons, List.cons_append, List.cons.injEq, true_and]
          exact ih
    rcases this w.endpoints with h | ⟨rest, h⟩
    · exact .all h
    · exact .some h

/-- **C127.** Under every schedule, each request that was queried is answered with the blocks that could be fetched at one moment, and these
go to the frontier in this order, each once: what the requesting loop has sent is the answers in the order of the requests but for the
rest of the last one, and is among the blocks sent. -/
theorem C127_answered (s0 : St) (es : List (DuoEv N R)) (d : Duo N St R) (hrun : (Duo.init s0).run convert add ops es = some d) :
    (∀ q ∈ d.queried, ∃ w, .query w ∈ es ∧ Answer w q.1 ops q.2) ∧
    d.answered <+: (d.queried.map (·.2)).flatten ∧ (d.query = .receiving → d.answered = (d.queried.map (·.2)).flatten) ∧
    d.answered.Sublist d.sent := by
  obtain ⟨-, -, -, -, -, h6, h7, h8, -⟩ := duo_run es (duo_init s0) hrun
  refine ⟨fun q hq => ?_, ⟨_, h6⟩, fun hr => ?_, h7⟩
  · obtain ⟨w, hw, e⟩ := h8 q hq
    refine ⟨w, ?_, e ▸ answer_of ops w q.1⟩
    simp only [List.nil_append, List.mem_filterMap] at hw
    obtain ⟨ev, hev, h⟩ := hw
    cases ev <;> cases h
    exact hev
  · rw [hr] at h6; simpa [Query.todo] using h6

/-- **C127.** When nothing can happen any more although no block panicked, both loops wait for each other. -/
theorem C127_stuck_iff (s0 : St) (es : List (DuoEv N R)) (d : Duo N St R) (hrun : (Duo.init s0).run convert add ops es = some d)
    (hc : d.recv ≠ .crashed) : (∀ e, d.step convert add ops e = none) ↔ Entangled d := by
  obtain ⟨h1, h2, h3, h4, h5, h6, h7, h8, h9⟩ := duo_run es (duo_init s0) hrun
  have len1 : ∀ {α : Type} (l : List α), l.length ≤ 1 → ¬ l.length < capacity → ∃ a, l = [a] := by
    intro α l ha hb
    simp only [capacity] at hb
    match l with
    | [] => simp at hb
    | [a] => exact ⟨a, rfl⟩
    | _ :: _ :: _ => simp at ha
  have putNone : ∀ b, d.put b = none ↔ ∃ b, d.blocks = [b] := by
    intro b
    unfold Duo.put
    constructor
    · intro h
      split at h
      · cases h
      · exact len1 _ h2 ‹_›
    · rintro ⟨b, hb⟩
      simp [hb, capacity]
  constructor
  · intro h
    have hq : d.query ≠ .receiving := by
      intro hq
      have := h (.pollStarts [])
      simp [Duo.step, hq] at this
    have hquery : ∀ w, d.queryStep ops w = none := by
      intro w
      have := h (.query w)
      simp only [Duo.step] at this
      exact this
    have hpolls : ∀ p ∈ d.polls, p ≠ [] ∧ ∃ b, d.blocks = [b] := by
      intro p hp
      obtain ⟨i, hi, e⟩ := List.getElem_of_mem hp
      have := h (.poll i)
      simp only [Duo.step, List.getElem?_eq_getElem hi, e] at this
      cases p with
      | nil => cases this
      | cons b bs =>
        refine ⟨by simp, (putNone b).mp ?_⟩
        simp only at this
        split at this
        · assumption
        · cases this
    have hquerying : ((∃ b bs, d.query = .sending (b :: bs)) ∨ ((∃ r, d.query = .locking r) ∧ d.polls ≠ [])) ∧ ∃ b, d.blocks = [b] := by
      have hw := hquery ⟨fun _ => none, []⟩
      unfold Duo.queryStep at hw
      split at hw
      · exact absurd ‹_› hq
      · split at hw
        · cases hw
        · rename_i r hr hp
          refine ⟨.inr ⟨⟨r, hr⟩, hp⟩, ?_⟩
          cases hpl : d.polls with
          | nil => exact absurd hpl hp
          | cons p ps => exact (hpolls p (by simp [hpl])).2
      · cases hw
      · rename_i b bs hr
        split at hw
        · exact ⟨.inl ⟨b, bs, hr⟩, (putNone b).mp ‹_›⟩
        · cases hw
    obtain ⟨hqq, b0, hb0⟩ := hquerying
    have hrecv := h .recv
    simp only [Duo.step] at hrecv
    unfold Duo.recvStep at hrecv
    split at hrecv
    · rw [hb0] at hrecv; cases hrecv
    · split at hrecv
      · split at hrecv <;> cases hrecv
      · split at hrecv
        · cases hrecv
        · split at hrecv <;> cases hrecv
    · cases hrecv
    · rename_i b r rs hr
      split at hrecv
      · cases hrecv
      · exact ⟨⟨b, r, rs, hr⟩, len1 _ h4 ‹_›, ⟨b0, hb0⟩, hqq, fun p hp => (hpolls p hp).1⟩
    · exact absurd ‹_› hc
  · rintro ⟨⟨b, r, rs, hr⟩, ⟨r0, hr0⟩, ⟨b0, hb0⟩, hq, hp⟩ e
    cases e with
    | recv => simp [Duo.step, Duo.recvStep, hr, hr0, capacity]
    | query w =>
      simp only [Duo.step, hr, Duo.queryStep]
      rcases hq with ⟨b', bs, hq⟩ | ⟨⟨r', hq⟩, hp'⟩
      · rw [hq]; simp only [(putNone b').mpr ⟨b0, hb0⟩]
      · rw [hq]; simp only [hp', if_false]
    | pollStarts bs =>
      simp only [Duo.step]
      rcases hq with ⟨b', bs, hq⟩ | ⟨⟨r', hq⟩, hp'⟩ <;> rw [hq]
    | poll i =>
      simp only [Duo.step]
      cases hi : d.polls[i]? with
      | none => rfl
      | some p =>
        have := hp p (List.mem_of_getElem? hi)
        cases p with
        | nil => exact absurd rfl this
        | cons b' bs => simp only [(putNone b').mpr ⟨b0, hb0⟩]

/-! ## Frontiers that send no requests -/

theorem takes_silent (hs : ∀ s x, (add s x).2.1 = []) {s s' : St} {b : N} {rs : List R} (h : Takes convert add s b s' rs) : rs = [] := by
  cases h with
  | passed _ => rfl
  | taken _ ha _ =>
    rename_i x _ _ _
    have h1 := hs s x
    rw [ha] at h1
    exact h1
  | panicked _ _ _ => rfl

theorem takesAll_silent (hs : ∀ s x, (add s x).2.1 = []) {s s' : St} {bs : List N} {rs : List R} (h : TakesAll convert add s bs s' rs) :
    rs = [] := by
  induction h with
  | nil => rfl
  | snoc _ h ih => rw [ih, takes_silent convert add hs h]; rfl

/-- **C127.** With a frontier that sends no requests, something can always happen as long as no block panics.  Missing: frontiers that send
requests, see `C127_deadlock_fails`. -/
theorem C127_no_deadlock_partial (hs : ∀ s x, (add s x).2.1 = []) (s0 : St) (es : List (DuoEv N R)) (d : Duo N St R)
    (hrun : (Duo.init s0).run convert add ops es = some d) (hc : d.recv ≠ .crashed) : ∃ e d', d.step convert add ops e = some d' := by
  apply Classical.byContradiction
  intro hn
  have hstuck : ∀ e, d.step convert add ops e = none := by
    intro e
    cases h : d.step convert add ops e with
    | none => rfl
    | some d' => exact absurd ⟨e, d', h⟩ hn
  obtain ⟨⟨b, r, rs, hr⟩, -⟩ := (C127_stuck_iff convert add ops s0 es d hrun hc).mp hstuck
  have h5 := (duo_run es (duo_init s0) hrun).taken
  rw [hr] at h5
  have := takesAll_silent convert add hs h5
  simp [Recv.todo] at this

/-- A frontier that sends no requests, handed blocks one after another, is the one of C43. -/
theorem takesAll_after (add : St → B → St × Except Err Unit) {s s' : St} {bs : List N} {rs : List R}
    (h : TakesAll convert (silent add) s bs s' rs) : s' = Spec.after convert add s bs := by
  induction h with
  | nil => rfl
  | snoc _ h2 ih =>
    subst ih
    cases h2 with
    | passed hc => simp [Spec.after, Spec.converted, hc]
    | taken hc ha _ =>
      have := congrArg Prod.fst ha
      simp only [silent] at this
      simp [Spec.after, Spec.converted, hc]
      exact this.symm
    | panicked hc ha _ =>
      have := congrArg Prod.fst ha
      simp only [silent] at this
      simp [Spec.after, Spec.converted, hc]
      exact this.symm

/-- **C127 fails** for the two frontiers there are: neither of them ever asks for a block, whatever blocks arrive, in whatever order and
with whatever gaps between them.  It only takes what the receiving loop hands it. -/
theorem C127_never_asks_fails (add : St → B → St × Except Err Unit) (s0 : St) (es : List (DuoEv N R)) (d : Duo N St R)
    (hrun : (Duo.init s0).run convert (silent add) ops es = some d) :
    d.asked = [] ∧ d.queried = [] ∧ d.answered = [] ∧
    ∃ bs, d.handled <+: bs ∧ bs <+: d.sent ∧ d.frontier = Spec.after convert add s0 bs := by
  obtain ⟨h1, h2, h3, h4, h5, h6, h7, h8, h9⟩ := duo_run es (duo_init s0) hrun
  have := takesAll_silent convert (silent add) (fun _ _ => rfl) h5
  have ha : d.asked = [] := (List.append_eq_nil_iff.mp this).1
  rw [ha] at h3
  have hq : d.queried = [] := by
    have := (List.append_eq_nil_iff.mp (List.append_eq_nil_iff.mp h3.symm).1).1
    simpa using this
  rw [hq] at h6
  refine ⟨ha, hq, (List.append_eq_nil_iff.mp h6).1, d.handled ++ d.recv.added, List.prefix_append _ _, ?_, takesAll_after convert add h5⟩
  rw [h1]
  cases d.recv <;> simp [Recv.hand, Recv.added]

/-- **C127 fails** for every frontier that asks for one block, such as the parent, for each block it is handed: while a poll delivers
five blocks or more, both loops and the poll can come to wait for each other for ever. -/
theorem C127_deadlock_fails (hconv : ∀ b, ∃ x, convert b = .ok x) (hadd : ∀ s x, ∃ s' r, add s x = (s', [r], .ok ()))
    (s0 : St) (w : World N R) (b1 b2 b3 b4 b5 : N) (more : List N) : ∃ (es : List (DuoEv N R)) (d : Duo N St R),
      (Duo.init s0).run convert add ops es = some d ∧ d.handled = [b1, b2] ∧ d.queried = [] ∧ d.recv ≠ .crashed ∧
      ∀ e, d.step convert add ops e = none := by
  obtain ⟨x1, hx1⟩ := hconv b1
  obtain ⟨x2, hx2⟩ := hconv b2
  obtain ⟨x3, hx3⟩ := hconv b3
  obtain ⟨s1, r1, ha1⟩ := hadd s0 x1
  obtain ⟨s2, r2, ha2⟩ := hadd s1 x2
  obtain ⟨s3, r3, ha3⟩ := hadd s2 x3
  have hrun : (Duo.init s0).run convert add ops [.pollStarts (b1 :: b2 :: b3 :: b4 :: b5 :: more), .poll 0, .recv, .poll 0, .recv,
      .recv, .recv, .query w, .recv, .poll 0, .recv, .recv, .recv, .recv, .poll 0, .recv] =
      some ⟨s3, [b4], [r2], .asking b3 [r3], .locking r1, [b5 :: more], [b1, b2, b3, b4], [b1, b2], [r1, r2], [], []⟩ := by
    simp [Duo.run, Duo.step, Duo.init, Duo.put, Duo.recvStep, Duo.queryStep, capacity, hx1, hx2, hx3, ha1, ha2, ha3]
  refine ⟨_, _, hrun, rfl, rfl, by simp, ?_⟩
  refine (C127_stuck_iff convert add ops s0 _ _ hrun (by simp)).mpr ⟨⟨b3, r3, [], rfl⟩, ⟨r2, rfl⟩, ⟨b4, rfl⟩, .inr ⟨⟨r1, rfl⟩, by simp⟩, by simp⟩

/-- **C127 fails** on Berkeley net: what is sent for a request does not depend on it. -/
theorem C127_wrong_block_fails (s0 : St) (es : List (DuoEv N R)) (d : Duo N St R)
    (hrun : (Duo.init s0).run convert add .berkeley es = some d) (q : R × List N) (hq : q ∈ d.queried) :
    ∃ w, .query w ∈ es ∧ ∀ r, Answer w r .berkeley q.2 := by
  obtain ⟨w, hw, h⟩ := (C127_answered convert add .berkeley s0 es d hrun).1 q hq
  refine ⟨w, hw, fun r => ?_⟩
  cases h with
  | all h => exact .all h
  | some h => exact .some h

/-! ## Examples -/

/-- A frontier that collects numbers and asks for the predecessor of each number whose predecessor it does not have. -/
def exAsking (s : List Nat) (b : Nat) : List Nat × List Nat × Except Err Unit :=
  if b = 0 ∨ b - 1 ∈ s then (s ++ [b], [], .ok ()) else (s ++ [b], [b - 1], .ok ())

/-- What can be fetched: every number. -/
def exWorld : World Nat Nat := ⟨some, [some 7]⟩

/-- The block asked for is fetched and handled. -/
example : ∃ d, (Duo.init []).run (fun b : Nat => .ok b) exAsking .v1
    [.pollStarts [1], .poll 0, .poll 0, .recv, .recv, .recv, .recv, .query exWorld, .query exWorld, .query exWorld, .query exWorld, .recv, .recv, .recv] = some d ∧
    d.handled = [1, 0] ∧ d.queried = [(0, [0])] ∧ d.answered = [0] ∧ d.frontier = [1, 0] :=
  ⟨_, rfl, by decide, by decide, by decide, by decide⟩

/-- On Berkeley net another block is fetched. -/
example : ∃ d, (Duo.init []).run (fun b : Nat => .ok b) exAsking .berkeley
    [.pollStarts [1], .poll 0, .poll 0, .recv, .recv, .recv, .recv, .query exWorld, .query exWorld, .query exWorld, .query exWorld, .recv, .recv] = some d ∧
    d.queried = [(0, [7])] ∧ d.recv = .asking 7 [6] :=
  ⟨_, rfl, by decide, by decide⟩

/-- A frontier that asks for the parent of each block. -/
example : ∃ (es : List (DuoEv Nat Nat)) (d : Duo Nat (List Nat) Nat),
    (Duo.init []).run (fun b : Nat => .ok b) (fun s b => (s ++ [b], [b - 1], .ok ())) .v1 es = some d ∧ d.handled = [9, 8] ∧ d.queried = [] ∧
      d.recv ≠ .crashed ∧ ∀ e, d.step (fun b : Nat => .ok b) (fun s b => (s ++ [b], [b - 1], .ok ())) .v1 e = none :=
  C127_deadlock_fails _ _ _ (fun b => ⟨b, rfl⟩) (fun _ _ => ⟨_, _, rfl⟩) [] exWorld 9 8 7 6 5 []

/-- A frontier that sends no requests goes on. -/
example : ∃ d, (Duo.init []).run (R := Nat) (fun b : Nat => .ok b) (silent fun s b => (s ++ [b], .ok ())) .v1
    [.pollStarts [5, 9], .poll 0, .recv, .poll 0, .recv, .recv, .recv, .recv] = some d ∧ d.handled = [5] ∧ d.recv = .asking 9 [] :=
  ⟨_, rfl, by decide, by decide⟩

end MinaRs.Frontier
