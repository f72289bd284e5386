import Verif.Frontier.PollSpec
import Verif.Frontier.Processor

/-!
# Properties of polling (C81)
-/

namespace MinaRs.Frontier

open Spec

variable {D N B St : Type} (convert : N → Except Err B) (add : St → B → St × Except Err Unit) (backend : Backend)
  (parse : D → Option N)

/-! ## Fetching -/

theorem retryLoop_iff (n : Nat) (as : List (Option D)) (d : D) : retryLoop n as = some d ↔
    ∃ k, k < n ∧ as[k]? = some (some d) ∧ ∀ j < k, as[j]? = some none := by
  induction n generalizing as with
  | zero =>
    simp only [retryLoop]
    constructor
    · intro h; cases h
    · rintro ⟨k, h, -⟩; omega
  | succ n ih =>
    match as with
    | [] =>
      simp only [retryLoop]
      constructor
      · intro h; cases h
      · rintro ⟨k, -, h, -⟩; simp at h
    | some x :: rest =>
      simp only [retryLoop]
      constructor
      · intro h
        exact ⟨0, by omega, by simpa using h, fun j hj => by omega⟩
      · rintro ⟨k, hk, h, hb⟩
        cases k with
        | zero => simpa using h
        | succ k => have := hb 0 (by omega); simp at this
    | none :: rest =>
      simp only [retryLoop]
      rw [ih]
      constructor
      · rintro ⟨k, hk, h, hb⟩
        refine ⟨k + 1, by omega, by simpa using h, fun j hj => ?_⟩
        cases j with
        | zero => rfl
        | succ j => simpa using hb j (by omega)
      · rintro ⟨k, hk, h, hb⟩
        cases k with
        | zero => simp at h
        | succ k => exact ⟨k, by omega, by simpa using h, fun j hj => by simpa using hb (j + 1) (by omega)⟩

theorem fetch_iff (as : List (Option D)) (b : N) : fetch parse as = some b ↔ Fetched parse as b := by
  unfold fetch retry Fetched
  constructor
  · intro h
    split at h
    · cases h
    rename_i d hd
    obtain ⟨k, h1, h2, h3⟩ := (retryLoop_iff 3 as d).mp hd
    exact ⟨k, d, h1, h2, h3, h⟩
  · rintro ⟨k, d, h1, h2, h3, h4⟩
    rw [(retryLoop_iff 3 as d).mpr ⟨k, h1, h2, h3⟩]
    exact h4

theorem fetch_none (as : List (Option D)) (h : fetch parse as = none) : ∀ b, ¬ Fetched parse as b := by
  intro b hb
  rw [(fetch_iff parse as b).mpr hb] at h
  cases h

/-! ## What a poll has still to send -/

/-- The blocks the loop will send. -/
def due : List (List (Option D)) → List N
  | [] => []
  | item :: todo =>
    match fetch parse item with
    | some b => b :: due todo
    | none =>
      match backend with
      | .v1 => due todo
      | .berkeley => []

/-- The result the loop will return. -/
def result : List (List (Option D)) → Bool
  | [] => true
  | item :: todo =>
    match fetch parse item with
    | some _ => result todo
    | none =>
      match backend with
      | .v1 => result todo
      | .berkeley => false

/-- The same for a poll. -/
def Poll.due : Poll D N → List N
  | .waiting none => []
  | .waiting (some todo) => Frontier.due backend parse todo
  | .running todo => Frontier.due backend parse todo
  | .sending b todo => b :: Frontier.due backend parse todo
  | .finished _ => []

/-- The same for a poll. -/
def Poll.result : Poll D N → Bool
  | .waiting none => false
  | .waiting (some todo) => Frontier.result backend parse todo
  | .running todo => Frontier.result backend parse todo
  | .sending _ todo => Frontier.result backend parse todo
  | .finished ok => ok

theorem due_v1 (todo : List (List (Option D))) : Fetchable parse todo (due .v1 parse todo) ∧ result .v1 parse todo = true := by
  induction todo with
  | nil => exact ⟨.nil, rfl⟩
  | cons item todo ih =>
    unfold due result
    cases hf : fetch parse item with
    | some b => exact ⟨.got ((fetch_iff parse item b).mp hf) ih.1, ih.2⟩
    | none => exact ⟨.missed (fetch_none parse item hf) ih.1, ih.2⟩

theorem due_berkeley (todo : List (List (Option D))) :
    UpToFailure parse todo (due .berkeley parse todo) (result .berkeley parse todo) := by
  induction todo with
  | nil => exact .nil
  | cons item todo ih =>
    unfold due result
    cases hf : fetch parse item with
    | some b => exact .got ((fetch_iff parse item b).mp hf) ih
    | none => exact .missed (fetch_none parse item hf)

/-! ## The invariant -/

/-- Each poll has sent, and has still to send, what it should; the log is what the channel accepted. -/
structure SysInv (s0 : St) (ls : List (Listing D)) (s : Sys D N St) : Prop where
  proc : Inv convert add s0 s.proc
  reached : ∃ es, (Proc.init s0).run convert add es = some s.proc
  isOpen : s.proc.closed = false
  log : s.proc.sent = s.log.map (·.2)
  length : s.polls.length = ls.length
  polls : ∀ i l q, ls[i]? = some l → s.polls[i]? = some q →
    sentBy i s.log ++ q.due backend parse = Poll.due backend parse (.waiting l : Poll D N) ∧
      q.result backend parse = Poll.result backend parse (.waiting l : Poll D N)
  setter : s.setter = .holding → ∀ q ∈ s.polls, q.holds = false

theorem sentBy_nil (i : Nat) : sentBy i ([] : List (Nat × N)) = [] := rfl

theorem sentBy_snoc (i j : Nat) (b : N) (log : List (Nat × N)) :
    sentBy i (log ++ [(j, b)]) = if j = i then sentBy i log ++ [b] else sentBy i log := by
  unfold sentBy
  rw [List.filterMap_append]
  split
  · rename_i h; simp [h]
  · rename_i h; simp [h]

theorem run_snoc (p : Proc N St) (es : List (Ev N)) (e : Ev N) (p' : Proc N St) (h : p.run convert add es = some p') :
    p.run convert add (es ++ [e]) = p'.step convert add e := by
  induction es generalizing p with
  | nil =>
    simp only [Proc.run, Option.some.injEq] at h
    subst h
    simp only [List.nil_append, Proc.run]
    cases p.step convert add e <;> rfl
  | cons x es ih =>
    rw [Proc.run] at h
    split at h
    · cases h
    · rename_i q hq
      rw [List.cons_append, Proc.run, hq]
      exact ih q h

theorem sysInv_init (s0 : St) (ls : List (Listing D)) :
    SysInv convert add backend parse s0 ls (Sys.init s0 ls : Sys D N St) := by
  refine ⟨inv_init convert add s0, ⟨[], rfl⟩, rfl, rfl, by simp [Sys.init], ?_, fun h => by cases h⟩
  intro i l q hl hq
  simp only [Sys.init, List.getElem?_map, hl, Option.map_some, Option.some.injEq] at hq
  subst hq
  exact ⟨rfl, rfl⟩

/-- Steps of the processor other than sending and closing keep what was sent. -/
theorem step_sent {p p' : Proc N St} {e : Ev N} (h : p.step convert add e = some p') (hs : ∀ b, e ≠ .send b)
    (hc : e ≠ .close) : p'.sent = p.sent ∧ p'.closed = p.closed := by
  cases e with
  | send b => exact absurd rfl (hs b)
  | close => exact absurd rfl hc
  | acquireRead =>
    simp only [Proc.step] at h
    split at h
    · cases h
    · cases h
    · cases h; exact ⟨rfl, rfl⟩
  | releaseRead =>
    simp only [Proc.step] at h
    split at h
    · cases h; exact ⟨rfl, rfl⟩
    · cases h
  | loop =>
    simp only [Proc.step] at h
    split at h
    · split at h
      · cases h; exact ⟨rfl, rfl⟩
      · split at h
        · cases h; exact ⟨rfl, rfl⟩
        · cases h
    · split at h
      · cases h; exact ⟨rfl, rfl⟩
      · cases h
    · split at h
      · cases h; exact ⟨rfl, rfl⟩
      · split at h
        · cases h; exact ⟨rfl, rfl⟩
        · cases h; exact ⟨rfl, rfl⟩
    · cases h
    · cases h

theorem send_sent {p p' : Proc N St} {b : N} (h : p.step convert add (.send b) = some p') :
    p'.sent = p.sent ++ [b] ∧ p'.closed = p.closed ∧ p'.queue = p.queue ++ [b] ∧ p'.loop = p.loop ∧ p'.readers = p.readers := by
  simp only [Proc.step] at h
  split at h
  · cases h; exact ⟨rfl, rfl, rfl, rfl, rfl⟩
  · cases h

variable {convert add backend parse} in
theorem sysInv_procStep {s0 : St} {ls : List (Listing D)} {s s' : Sys D N St}
    (h : SysInv convert add backend parse s0 ls s) {e : Ev N} (hs : s.procStep convert add e = some s')
    (hns : ∀ b, e ≠ .send b) (hc : e ≠ .close) : SysInv convert add backend parse s0 ls s' := by
  unfold Sys.procStep at hs
  split at hs
  · cases hs
  rename_i p hp
  cases hs
  obtain ⟨h1, ⟨es, h2⟩, h3, h4, h5, h6, h7⟩ := h
  obtain ⟨e1, e2⟩ := step_sent convert add hp hns hc
  refine ⟨inv_step convert add h1 e hp, ⟨es ++ [e], by rw [run_snoc convert add _ _ _ _ h2, hp]⟩, by rw [← h3]; exact e2,
    by rw [← h4]; exact e1, h5, h6, h7⟩

variable {convert add backend parse} in
/-- Replacing one poll by one with the same obligations. -/
theorem sysInv_set {s0 : St} {ls : List (Listing D)} {s : Sys D N St}
    (h : SysInv convert add backend parse s0 ls s) {i : Nat} {q q' : Poll D N} (hi : s.polls[i]? = some q)
    (hd : q'.due backend parse = q.due backend parse) (hr : q'.result backend parse = q.result backend parse)
    (hh : q'.holds = true → s.setter ≠ .holding) :
    SysInv convert add backend parse s0 ls { s with polls := s.polls.set i q' } := by
  obtain ⟨h1, h2, h3, h4, h5, h6, h7⟩ := h
  refine ⟨h1, h2, h3, h4, by simpa using h5, ?_, ?_⟩
  · intro j l r hl hj
    simp only [List.getElem?_set] at hj
    split at hj
    · rename_i hij
      split at hj
      · cases hj
        subst hij
        rw [hd, hr]
        exact h6 i l q hl hi
      · cases hj
    · exact h6 j l r hl hj
  · intro hw r hr'
    rcases List.mem_or_eq_of_mem_set hr' with hm | rfl
    · exact h7 hw r hm
    · cases hb : r.holds with
      | false => rfl
      | true => exact absurd hw (hh hb)

variable {convert add backend parse} in
theorem sysInv_pollStep {s0 : St} {ls : List (Listing D)} {s s' : Sys D N St}
    (h : SysInv convert add backend parse s0 ls s) {i : Nat} (hs : s.pollStep convert add backend parse i = some s') :
    SysInv convert add backend parse s0 ls s' := by
  unfold Sys.pollStep at hs
  split at hs
  · cases hs
  · rename_i l hi
    split at hs
    · rename_i hidle
      split at hs
      · cases hs
        exact sysInv_set h hi rfl rfl (fun hh => by cases hh)
      · cases hs
        exact sysInv_set h hi rfl rfl (fun _ hw => by rw [hidle] at hw; cases hw)
    · cases hs
  · rename_i hi
    cases hs
    exact sysInv_set h hi rfl rfl (fun hh => by cases hh)
  · rename_i item todo hi
    have hold : s.setter ≠ .holding := fun hw => by
      have := h.setter hw _ (List.mem_of_getElem? hi)
      cases this
    split at hs
    · rename_i b hb
      cases hs
      refine sysInv_set h hi ?_ ?_ (fun _ => hold)
      · simp only [Poll.due, due, hb]
      · simp only [Poll.result, result, hb]
    · rename_i hb
      cases backend with
      | v1 =>
        cases hs
        refine sysInv_set h hi ?_ ?_ (fun _ => hold)
        · simp only [Poll.due, due, hb]
        · simp only [Poll.result, result, hb]
      | berkeley =>
        cases hs
        refine sysInv_set h hi ?_ ?_ (fun hh => by cases hh)
        · simp only [Poll.due, due, hb]
        · simp only [Poll.result, result, hb]
  · rename_i b todo hi
    have hold : s.setter ≠ .holding := fun hw => by
      have := h.setter hw _ (List.mem_of_getElem? hi)
      cases this
    split at hs
    · cases hs
    rename_i p hp
    cases hs
    obtain ⟨h1, ⟨es, h2⟩, h3, h4, h5, h6, h7⟩ := h
    obtain ⟨e1, e2, -⟩ := send_sent convert add hp
    refine ⟨inv_step convert add h1 _ hp, ⟨es ++ [.send b], by rw [run_snoc convert add _ _ _ _ h2, hp]⟩,
      by rw [← h3]; exact e2, by show p.sent = _; rw [e1, h4]; simp, by simpa using h5, ?_, fun hw => absurd hw hold⟩
    intro j l r hl hj
    simp only [List.getElem?_set] at hj
    rw [sentBy_snoc]
    split at hj
    · rename_i hij
      split at hj
      · cases hj
        subst hij
        rw [if_pos rfl]
        obtain ⟨g1, g2⟩ := h6 i l _ hl hi
        refine ⟨?_, g2⟩
        rw [← g1]
        simp [Poll.due]
      · cases hj
    · rename_i hij
      rw [if_neg hij]
      exact h6 j l r hl hj
  · cases hs

variable {convert add backend parse} in
theorem sysInv_step {s0 : St} {ls : List (Listing D)} {s s' : Sys D N St}
    (h : SysInv convert add backend parse s0 ls s) (e : SysEv) (hs : s.step convert add backend parse e = some s') :
    SysInv convert add backend parse s0 ls s' := by
  cases e with
  | run => cases hs; exact ⟨h.1, h.2, h.3, h.4, h.5, h.6, h.7⟩
  | loop =>
    simp only [Sys.step] at hs
    split at hs
    · exact sysInv_procStep h hs (fun _ h => by cases h) (fun h => by cases h)
    · cases hs
  | acquireRead => exact sysInv_procStep h hs (fun _ h => by cases h) (fun h => by cases h)
  | releaseRead => exact sysInv_procStep h hs (fun _ h => by cases h) (fun h => by cases h)
  | poll i => exact sysInv_pollStep h hs
  | setterAsks =>
    simp only [Sys.step] at hs
    split at hs
    · cases hs
      exact ⟨h.1, h.2, h.3, h.4, h.5, h.6, fun h => by cases h⟩
    · cases hs
  | setterEnters =>
    simp only [Sys.step] at hs
    split at hs
    · rename_i hw
      cases hs
      refine ⟨h.1, h.2, h.3, h.4, h.5, h.6, fun _ q hq => ?_⟩
      simpa using List.all_eq_true.mp hw.2 q hq
    · cases hs
  | setterLeaves =>
    simp only [Sys.step] at hs
    split at hs
    · cases hs
      exact ⟨h.1, h.2, h.3, h.4, h.5, h.6, fun h => by cases h⟩
    · cases hs

variable {convert add backend parse} in
theorem sysInv_run {s0 : St} {ls : List (Listing D)} {s s' : Sys D N St}
    (h : SysInv convert add backend parse s0 ls s) (es : List SysEv) (hs : s.run convert add backend parse es = some s') :
    SysInv convert add backend parse s0 ls s' := by
  induction es generalizing s with
  | nil => cases hs; exact h
  | cons e es ih =>
    rw [Sys.run] at hs
    split at hs
    · cases hs
    · rename_i t ht; exact ih (sysInv_step h e ht) hs

/-! ## C81 -/

/-- **C81.** Whatever the schedule, other polls, settings changes and readers: a poll of the mainnet backend
that has returned has handed to the processor exactly the listed blocks that could be fetched, in the order of
the list, and it reports success exactly if the list could be fetched. -/
theorem C81_mainnet (s0 : St) (ls : List (Listing D)) (es : List SysEv) (s : Sys D N St)
    (hrun : (Sys.init s0 ls).run convert add .v1 parse es = some s) (i : Nat) (l : Listing D) (ok : Bool)
    (hl : ls[i]? = some l) (hq : s.polls[i]? = some (.finished ok)) :
    match l with
    | none => ok = false ∧ sentBy i s.log = []
    | some items => ok = true ∧ Fetchable parse items (sentBy i s.log) := by
  obtain ⟨h1, h2⟩ := (sysInv_run (sysInv_init convert add .v1 parse s0 ls) es hrun).polls i l _ hl hq
  simp only [Poll.due, List.append_nil] at h1
  cases l with
  | none => exact ⟨h2, h1⟩
  | some items =>
    obtain ⟨g1, g2⟩ := due_v1 parse items
    simp only at h1 ⊢
    rw [h1]
    exact ⟨h2.trans g2, g1⟩

/-- **C81.** The same for the Berkeley backend up to the first endpoint that cannot be fetched, where the poll
ends with an error.  Missing: the blocks of the remaining endpoints. -/
theorem C81_berkeley_partial (s0 : St) (ls : List (Listing D)) (es : List SysEv) (s : Sys D N St)
    (hrun : (Sys.init s0 ls).run convert add .berkeley parse es = some s) (i : Nat) (items : List (List (Option D)))
    (ok : Bool) (hl : ls[i]? = some (some items)) (hq : s.polls[i]? = some (.finished ok)) :
    UpToFailure parse items (sentBy i s.log) ok := by
  obtain ⟨h1, h2⟩ := (sysInv_run (sysInv_init convert add .berkeley parse s0 ls) es hrun).polls i _ _ hl hq
  simp only [Poll.due, List.append_nil] at h1
  have := due_berkeley parse items
  rw [h1]
  have h2' : ok = _ := h2
  rw [h2']
  exact this

/-- **C81.** While polls are under way, each has handed over a beginning of those blocks; and what the processor
has handled is the beginning of what the polls have sent, all but at most two blocks. -/
theorem C81_under_way (s0 : St) (ls : List (Listing D)) (es : List SysEv) (s : Sys D N St)
    (hrun : (Sys.init s0 ls).run convert add .v1 parse es = some s) :
    (∀ i items, ls[i]? = some (some items) → ∃ rest, Fetchable parse items (sentBy i s.log ++ rest)) ∧
    ∃ rest, s.log.map (·.2) = s.proc.handled ++ rest ∧ rest.length ≤ 2 := by
  have hinv := sysInv_run (sysInv_init convert add .v1 parse s0 ls) es hrun
  refine ⟨fun i items hl => ?_, ?_⟩
  · have hi : i < s.polls.length := by
      rw [hinv.length]
      exact (List.getElem?_eq_some_iff.mp hl).1
    obtain ⟨h1, -⟩ := hinv.polls i _ _ hl (List.getElem?_eq_getElem hi)
    refine ⟨s.polls[i].due .v1 parse, ?_⟩
    rw [h1]
    exact (due_v1 parse items).1
  · refine ⟨inFlight s.proc.loop ++ s.proc.queue, ?_, ?_⟩
    · rw [← hinv.log, hinv.proc.log, List.append_assoc]
    · have := hinv.proc.bounded
      have h2 : (inFlight s.proc.loop).length ≤ 1 := by cases s.proc.loop <;> simp [inFlight]
      rw [List.length_append]
      omega

/-! ## Everything comes to an end -/

/-- Events by which calls that have begun go on; the others begin new ones. -/
def SysEv.goesOn : SysEv → Bool
  | .loop => true
  | .releaseRead => true
  | .poll _ => true
  | .setterEnters => true
  | .setterLeaves => true
  | _ => false

/-- Steps a poll and the processor need for its blocks. -/
def Poll.work : Poll D N → Nat
  | .waiting none => 1
  | .waiting (some todo) => 2 + 5 * todo.length
  | .running todo => 1 + 5 * todo.length
  | .sending _ todo => 5 + 5 * todo.length
  | .finished _ => 0

/-- Steps the setter needs. -/
def Setter.work : Setter → Nat
  | .idle => 0
  | .waiting => 2
  | .holding => 1

/-- Steps of all polls. -/
def pollsWork (qs : List (Poll D N)) : Nat := (qs.map Poll.work).sum

/-- Steps until everything begun is finished. -/
def Sys.work (s : Sys D N St) : Nat := Frontier.work s.proc + s.proc.readers + pollsWork s.polls + s.setter.work

theorem pollsWork_set (qs : List (Poll D N)) (i : Nat) (q q' : Poll D N) (h : qs[i]? = some q) :
    pollsWork (qs.set i q') + q.work = pollsWork qs + q'.work := by
  unfold pollsWork
  induction qs generalizing i with
  | nil => simp at h
  | cons r qs ih =>
    cases i with
    | zero =>
      simp only [List.getElem?_cons_zero, Option.some.injEq] at h
      subst h
      simp only [List.set_cons_zero, List.map_cons, List.sum_cons]
      omega
    | succ i =>
      simp only [List.getElem?_cons_succ] at h
      have := ih i h
      simp only [List.set_cons_succ, List.map_cons, List.sum_cons]
      omega

theorem loop_work {p p' : Proc N St} (hopen : p.closed = false) (h : p.step convert add .loop = some p') :
    work p' < work p ∧ p'.readers = p.readers := by
  simp only [Proc.step] at h
  split at h
  · rename_i hl
    split at h
    · rename_i b rest hq
      cases h
      simp only [work, hl, hq, loopWork, List.length_cons]
      exact ⟨by omega, trivial⟩
    · rw [if_neg (by simp [hopen])] at h; cases h
  · rename_i b hl
    split at h
    · cases h
      simp only [work, hl, loopWork]
      exact ⟨by omega, trivial⟩
    · cases h
  · rename_i b hl
    split at h
    · cases h
      simp only [work, hl, loopWork]
      exact ⟨by omega, trivial⟩
    · split at h
      · cases h
        simp only [work, hl, loopWork]
        exact ⟨by omega, trivial⟩
      · cases h
        simp only [work, hl, loopWork]
        exact ⟨by omega, trivial⟩
  · cases h
  · cases h

variable {convert add backend parse} in
theorem step_work {s s' : Sys D N St} (hopen : s.proc.closed = false) {e : SysEv} (he : e.goesOn = true)
    (hs : s.step convert add backend parse e = some s') : s'.work < s.work := by
  cases e with
  | run => cases he
  | acquireRead => cases he
  | setterAsks => cases he
  | loop =>
    simp only [Sys.step] at hs
    split at hs
    · unfold Sys.procStep at hs
      split at hs
      · cases hs
      rename_i p hp
      cases hs
      obtain ⟨h1, h2⟩ := loop_work convert add hopen hp
      simp only [Sys.work, h2]
      omega
    · cases hs
  | releaseRead =>
    simp only [Sys.step, Sys.procStep, Proc.step] at hs
    split at hs
    · cases hs
    rename_i p hp
    cases hs
    split at hp
    · rename_i hr
      cases hp
      simp only [Sys.work, Frontier.work]
      omega
    · cases hp
  | setterEnters =>
    simp only [Sys.step] at hs
    split at hs
    · rename_i hw
      cases hs
      simp only [Sys.work, hw.1, Setter.work]
      omega
    · cases hs
  | setterLeaves =>
    simp only [Sys.step] at hs
    split at hs
    · rename_i hw
      cases hs
      simp only [Sys.work, hw, Setter.work]
      omega
    · cases hs
  | poll i =>
    simp only [Sys.step, Sys.pollStep] at hs
    split at hs
    · cases hs
    · rename_i l hi
      split at hs
      · split at hs
        · cases hs
          have := pollsWork_set _ i _ (.finished false) hi
          simp only [Sys.work, Poll.work] at this ⊢
          omega
        · rename_i todo
          cases hs
          have := pollsWork_set _ i _ (.running todo) hi
          simp only [Sys.work, Poll.work] at this ⊢
          omega
      · cases hs
    · rename_i hi
      cases hs
      have := pollsWork_set _ i _ (.finished true) hi
      simp only [Sys.work, Poll.work] at this ⊢
      omega
    · rename_i item todo hi
      split at hs
      · rename_i b hb
        cases hs
        have := pollsWork_set _ i _ (.sending b todo) hi
        simp only [Sys.work, Poll.work, List.length_cons] at this ⊢
        omega
      · cases backend with
        | v1 =>
          cases hs
          have := pollsWork_set _ i _ (.running todo) hi
          simp only [Sys.work, Poll.work, List.length_cons] at this ⊢
          omega
        | berkeley =>
          cases hs
          have := pollsWork_set _ i _ (.finished false) hi
          simp only [Sys.work, Poll.work, List.length_cons] at this ⊢
          omega
    · rename_i b todo hi
      split at hs
      · cases hs
      rename_i p hp
      cases hs
      obtain ⟨-, -, e3, e4, e5⟩ := send_sent convert add hp
      have := pollsWork_set _ i _ (.running todo) hi
      simp only [Sys.work, Frontier.work, Poll.work, e3, e4, e5, List.length_append, List.length_cons, List.length_nil] at this ⊢
      omega
    · cases hs

/-- All polls have returned, no one holds or waits for a guard, and every block sent has been handled. -/
structure AllDone (s : Sys D N St) : Prop where
  polls : ∀ q ∈ s.polls, ∃ ok, q = .finished ok
  setter : s.setter = .idle
  readers : s.proc.readers = 0
  handled : s.proc.handled = s.proc.sent

theorem mem_getElem {α : Type} {l : List α} {a : α} (h : a ∈ l) : ∃ i : Nat, l[i]? = some a := by
  obtain ⟨i, hi, rfl⟩ := List.getElem_of_mem h
  exact ⟨i, List.getElem?_eq_getElem hi⟩

/-- **C81.** Nothing deadlocks: once the processor runs, and unless handling a block panics, the calls that have
begun can go on until all polls have returned, all guards are released and every block sent has been handled. -/
theorem C81_no_deadlock (hnp : ∀ s b, ¬ Frontier.Spec.PanicsOn convert add s b)
    (s0 : St) (ls : List (Listing D)) (es : List SysEv) (s : Sys D N St)
    (hrun : (Sys.init s0 ls).run convert add backend parse es = some s) (hst : s.started = true) :
    AllDone s ∨ ∃ e s', e.goesOn = true ∧ s.step convert add backend parse e = some s' := by
  have hinv := sysInv_run (sysInv_init convert add backend parse s0 ls) es hrun
  have hncr : s.proc.loop ≠ .crashed := by
    intro hc
    obtain ⟨pre, b, e, -, h2, h3⟩ := hinv.proc.crashed hc
    exact hnp _ _ ((handle_panics convert add _ _).mp ⟨e, h2, h3⟩)
  by_cases hr : 0 < s.proc.readers
  · exact Or.inr ⟨.releaseRead, _, rfl, by simp only [Sys.step, Sys.procStep, Proc.step, if_pos hr]; rfl⟩
  have hr0 : s.proc.readers = 0 := by omega
  by_cases hp : s.proc.handled = s.proc.sent
  case neg =>
    obtain ⟨es', hes'⟩ := hinv.reached
    obtain ⟨p, hp'⟩ := C43_progress convert add s0 es' s.proc hes' hp hr0 hncr
    exact Or.inr ⟨.loop, _, rfl, by simp only [Sys.step, hst, if_true, Sys.procStep, hp']; rfl⟩
  have hq : s.proc.queue = [] := by
    have h1 := hinv.proc.log
    rw [hp] at h1
    have := congrArg List.length h1
    simp only [List.length_append] at this
    exact List.length_eq_zero_iff.mp (by omega)
  -- a poll that holds the guard can go on
  by_cases hh : ∃ q ∈ s.polls, q.holds = true
  · obtain ⟨q, hm, hq'⟩ := hh
    obtain ⟨i, hi⟩ := mem_getElem hm
    refine Or.inr ?_
    cases q with
    | waiting l => cases hq'
    | finished ok => cases hq'
    | running todo =>
      cases todo with
      | nil => exact ⟨.poll i, _, rfl, by simp only [Sys.step, Sys.pollStep, hi]; rfl⟩
      | cons item todo =>
        cases hf : fetch parse item with
        | some b => exact ⟨.poll i, _, rfl, by simp only [Sys.step, Sys.pollStep, hi, hf]; rfl⟩
        | none =>
          cases backend with
          | v1 => exact ⟨.poll i, _, rfl, by simp only [Sys.step, Sys.pollStep, hi, hf]; rfl⟩
          | berkeley => exact ⟨.poll i, _, rfl, by simp only [Sys.step, Sys.pollStep, hi, hf]; rfl⟩
    | sending b todo =>
      have : s.proc.step convert add (.send b) = some { s.proc with queue := s.proc.queue ++ [b], sent := s.proc.sent ++ [b] } := by
        simp only [Proc.step]
        rw [if_pos ⟨hinv.isOpen, by rw [hq]; exact Nat.zero_lt_one⟩]
      exact ⟨.poll i, _, rfl, by simp only [Sys.step, Sys.pollStep, hi, this]; rfl⟩
  have hnh : ∀ q ∈ s.polls, q.holds = false := by
    intro q hm
    cases hb : q.holds with
    | false => rfl
    | true => exact absurd ⟨q, hm, hb⟩ hh
  cases hw : s.setter with
  | holding => exact Or.inr ⟨.setterLeaves, _, rfl, by simp only [Sys.step, hw, if_true]; rfl⟩
  | waiting =>
    refine Or.inr ⟨.setterEnters, { s with setter := .holding }, rfl, ?_⟩
    simp only [Sys.step]
    rw [if_pos ⟨hw, List.all_eq_true.mpr fun q hm => by rw [hnh q hm]; rfl⟩]
  | idle =>
    by_cases hf : ∀ q ∈ s.polls, ∃ ok, q = .finished ok
    · exact Or.inl ⟨hf, hw, hr0, hp⟩
    obtain ⟨q, hm, hq'⟩ : ∃ q ∈ s.polls, ¬ ∃ ok, q = .finished ok :=
      Classical.byContradiction fun hc => hf fun q hm => Classical.byContradiction fun hn => hc ⟨q, hm, hn⟩
    obtain ⟨i, hi⟩ := mem_getElem hm
    refine Or.inr ?_
    cases q with
    | waiting l =>
      cases l with
      | none => exact ⟨.poll i, _, rfl, by simp only [Sys.step, Sys.pollStep, hi, hw, if_true]; rfl⟩
      | some todo => exact ⟨.poll i, _, rfl, by simp only [Sys.step, Sys.pollStep, hi, hw, if_true]; rfl⟩
    | finished ok => exact absurd ⟨ok, rfl⟩ hq'
    | running todo => have := hnh _ hm; cases this
    | sending b todo => have := hnh _ hm; cases this

/-- **C81.** And they do come to an end: there is a bound on how many steps they can take, whatever the order. -/
theorem C81_terminates (s0 : St) (ls : List (Listing D)) (es : List SysEv) (s : Sys D N St)
    (hrun : (Sys.init s0 ls).run convert add backend parse es = some s) :
    ∃ bound, ∀ es' s', (∀ e ∈ es', e.goesOn = true) → s.run convert add backend parse es' = some s' → es'.length ≤ bound := by
  have hinv := sysInv_run (sysInv_init convert add backend parse s0 ls) es hrun
  refine ⟨s.work, fun es' => ?_⟩
  suffices hgen : ∀ (t t' : Sys D N St), SysInv convert add backend parse s0 ls t → (∀ e ∈ es', e.goesOn = true) →
      t.run convert add backend parse es' = some t' → es'.length + t'.work ≤ t.work by
    intro s' he hr
    have := hgen s s' hinv he hr
    omega
  induction es' with
  | nil => intro t t' _ _ hr; cases hr; simp
  | cons e es' ih =>
    intro t t' ht he hr
    rw [Sys.run] at hr
    split at hr
    · cases hr
    rename_i u hu
    have h1 := step_work ht.isOpen (he e List.mem_cons_self) hu
    have h2 := ih u t' (sysInv_step ht e hu) (fun e h => he e (List.mem_cons_of_mem _ h)) hr
    rw [List.length_cons]
    omega

/-! ## Examples and counterexamples -/

/-- A poll with a failing block, one whose third attempt answers and an unparsable one. -/
example : ((Sys.init [] [some [[some 7], [none, none, some 8], [none, none, none, some 5], [some 0], [some 9]]]).run exConvert exAdd
      .v1 (fun d => if d = 0 then none else some d)
      [.poll 0, .poll 0, .setterAsks, .run, .poll 0, .loop, .loop, .poll 0, .poll 0, .loop, .loop, .poll 0, .poll 0, .poll 0,
       .loop, .loop, .poll 0, .poll 0, .setterEnters, .loop, .loop, .loop, .setterLeaves]).map
    (fun s => (s.polls, s.log, s.proc.frontier)) =
    some ([.finished true], [(0, 7), (0, 8), (0, 9)], [7, 8, 9]) := by decide

/-- Its blocks are the fetchable ones. -/
example : Fetchable (fun d => if d = 0 then none else some d) [[some 7], [none, none, some 8], [some 0]] [7, 8] :=
  .got ⟨0, 7, by decide, rfl, fun j hj => by omega, rfl⟩
    (.got ⟨2, 8, by decide, rfl, fun j hj => by
        have : j = 0 ∨ j = 1 := by omega
        rcases this with rfl | rfl <;> rfl, rfl⟩
      (.missed (fun b hb => by
        have := (fetch_iff (fun d => if d = 0 then none else some d) [some 0] b).mpr hb
        simp [fetch, retry, retryLoop] at this) .nil))

/-- Nothing panics with these blocks. -/
example : ∀ (s : List Nat) (b : Nat), ¬ Frontier.Spec.PanicsOn (fun b => .ok b) (fun s b => (s ++ [b], .ok ())) s b := by
  rintro s b (⟨e, h, -⟩ | ⟨x, e, -, h, -⟩) <;> cases h

/-- **C81 fails** for the Berkeley backend, in every history: an endpoint that cannot be reached ends the poll with an
error, and it hands over no more blocks than there are endpoints before that one. -/
theorem C81_berkeley_fails (s0 : St) (ls : List (Listing D)) (es : List SysEv) (s : Sys D N St)
    (hrun : (Sys.init s0 ls).run convert add .berkeley parse es = some s) (i : Nat) (before after : List (List (Option D)))
    (dead : List (Option D)) (hdead : ∀ b, ¬ Fetched parse dead b) (ok : Bool)
    (hl : ls[i]? = some (some (before ++ dead :: after))) (hq : s.polls[i]? = some (.finished ok)) :
    ok = false ∧ (sentBy i s.log).length ≤ before.length := by
  have h := C81_berkeley_partial convert add parse s0 ls es s hrun i _ ok hl hq
  clear hl hq hrun
  generalize sentBy i s.log = sent at h
  induction before generalizing sent with
  | nil =>
    cases h with
    | got hf _ => exact absurd hf (hdead _)
    | missed _ => exact ⟨rfl, Nat.le_refl _⟩
  | cons item before ih =>
    cases h with
    | got _ h =>
      obtain ⟨h1, h2⟩ := ih _ h
      exact ⟨h1, by simp only [List.length_cons]; omega⟩
    | missed _ => exact ⟨rfl, by simp⟩

/-- Such a poll: the second endpoint would answer. -/
example : ∃ (es : List SysEv) (s : Sys Nat Nat (List Nat)),
    (Sys.init [] [some [[none, none, none], [some 7]]]).run exConvert exAdd .berkeley some es = some s ∧
    s.polls = [.finished false] ∧ s.log = [] ∧ Fetched some [some 7] 7 :=
  ⟨[.run, .poll 0, .poll 0], _, rfl, rfl, rfl, 0, 7, by decide, rfl, fun j hj => by omega, rfl⟩

/-- **C81 fails** before the processor runs, for both backends and every poll that gets two blocks: it waits for the
channel and holds the guard, so that a change of the settings waits too; neither can go on. -/
theorem C81_not_running_fails (backend : Backend) (s0 : St) (x y : List (Option D)) (rest : List (List (Option D))) (b c : N)
    (hx : Fetched parse x b) (hy : Fetched parse y c) : ∃ (es : List SysEv) (s : Sys D N St),
    (Sys.init s0 [some (x :: y :: rest)]).run convert add backend parse es = some s ∧
    s.polls = [.sending c rest] ∧ s.setter = .waiting ∧
    ∀ e, e.goesOn = true → s.step convert add backend parse e = none := by
  have fx := (fetch_iff parse x b).mpr hx
  have fy := (fetch_iff parse y c).mpr hy
  refine ⟨[.poll 0, .poll 0, .poll 0, .poll 0, .setterAsks],
    ⟨{ (Proc.init s0 : Proc N St) with queue := [b], sent := [b] }, false, [.sending c rest], .waiting, [(0, b)]⟩, ?_, rfl, rfl, ?_⟩
  · simp [Sys.run, Sys.step, Sys.pollStep, Sys.init, fx, fy, Proc.step, Proc.init, capacity]
  · intro e he
    cases e with
    | run => cases he
    | acquireRead => cases he
    | setterAsks => cases he
    | loop => rfl
    | releaseRead => rfl
    | setterEnters => rfl
    | setterLeaves => rfl
    | poll i =>
      cases i with
      | zero => rfl
      | succ i => rfl

/-- Such a poll. -/
example : Fetched (some : Nat → Option Nat) [some 7] 7 ∧ Fetched (some : Nat → Option Nat) [none, some 9] 9 :=
  ⟨⟨0, 7, by decide, rfl, fun j hj => by omega, rfl⟩,
    ⟨1, 9, by decide, rfl, fun j hj => by have : j = 0 := by omega
                                          rw [this]; rfl, rfl⟩⟩

end MinaRs.Frontier
