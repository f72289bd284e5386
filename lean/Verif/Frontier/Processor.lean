import Verif.Frontier.Props

/-!
# Properties of the message processor (C43)

Network blocks of type `N` are converted to frontier blocks (`convert`, which may fail) and added
(`add`, which may fail or panic); both are arbitrary, as the processor is generic in them.  A
schedule is an arbitrary list of events: sends by any number of senders, closing, steps of the
loop, and callers acquiring and releasing read guards of the frontier.
-/

namespace MinaRs.Frontier

variable {N B St : Type} (convert : N → Except Err B) (add : St → B → St × Except Err Unit)

/-- The frontier after handling blocks one after another, without any concurrency. -/
def sequential (s : St) (bs : List N) : St := bs.foldl (fun s b => (handle convert add s b).1) s

/-- The block the loop has taken from the channel and not finished. -/
def inFlight : Loop N → List N
  | .locking b => [b]
  | .adding b => [b]
  | _ => []

/-- Blocks are neither lost, duplicated nor reordered, and the frontier is the sequential one. -/
structure Inv (s0 : St) (p : Proc N St) : Prop where
  log : p.sent = p.handled ++ inFlight p.loop ++ p.queue
  bounded : p.queue.length ≤ 1
  frontier : p.frontier = sequential convert add s0 p.handled
  done : p.loop = .done → p.queue = [] ∧ p.closed = true
  crashed : p.loop = .crashed → ∃ pre b e, p.handled = pre ++ [b] ∧
    (handle convert add (sequential convert add s0 pre) b).2 = .error e ∧ e.isPanic = true

theorem isPanic_iff (e : Err) : e.isPanic = true ↔ Spec.Panics e := by
  unfold Spec.Panics
  rcases e with _ | (_ | _ | _ | _ | _) | _ <;> simp [Err.isPanic]

theorem sequential_snoc (s : St) (bs : List N) (b : N) :
    sequential convert add s (bs ++ [b]) = (handle convert add (sequential convert add s bs) b).1 := by
  simp [sequential]

theorem inv_init (s0 : St) : Inv convert add s0 (Proc.init s0 : Proc N St) :=
  ⟨rfl, by simp [Proc.init], rfl, by simp [Proc.init], by simp [Proc.init]⟩

theorem inv_step {s0 : St} {p p' : Proc N St} (hp : Inv convert add s0 p) (e : Ev N)
    (hs : p.step convert add e = some p') : Inv convert add s0 p' := by
  obtain ⟨h1, h2, h3, h4, h5⟩ := hp
  cases e with
  | send b =>
    simp only [Proc.step] at hs
    split at hs
    · rename_i hc
      cases hs
      simp only [capacity] at hc
      refine ⟨by simp [h1], by simp only [List.length_append, List.length_cons, List.length_nil]; omega, h3, fun hd => ?_, h5⟩
      have := (h4 hd).2
      rw [this] at hc; simp at hc
    · cases hs
  | close =>
    simp only [Proc.step] at hs
    split at hs
    · cases hs; exact ⟨h1, h2, h3, fun hd => ⟨(h4 hd).1, rfl⟩, h5⟩
    · cases hs
  | acquireRead =>
    simp only [Proc.step] at hs
    split at hs
    · cases hs
    · cases hs
    · cases hs; exact ⟨h1, h2, h3, h4, h5⟩
  | releaseRead =>
    simp only [Proc.step] at hs
    split at hs
    · cases hs; exact ⟨h1, h2, h3, h4, h5⟩
    · cases hs
  | loop =>
    simp only [Proc.step] at hs
    split at hs
    · rename_i hl
      rw [hl] at h1
      split at hs
      · rename_i b rest hq
        cases hs
        rw [hq] at h1 h2
        refine ⟨by simp [inFlight, h1], by simp only [List.length_cons] at h2; show rest.length ≤ 1; omega, h3, by simp, by simp⟩
      · rename_i hq
        split at hs
        · rename_i hc
          cases hs
          exact ⟨by simp [inFlight, h1], h2, h3, fun _ => ⟨hq, hc⟩, by simp⟩
        · cases hs
    · rename_i b hl
      rw [hl] at h1
      split at hs
      · cases hs; exact ⟨by simpa [inFlight] using h1, h2, h3, by simp, by simp⟩
      · cases hs
    · rename_i b hl
      rw [hl] at h1
      rcases hr : handle convert add p.frontier b with ⟨s, r⟩
      have hseq : s = sequential convert add s0 (p.handled ++ [b]) := by
        rw [sequential_snoc, ← h3, hr]
      rw [hr] at hs
      simp only at hs
      split at hs
      · cases hs; exact ⟨by simpa [inFlight] using h1, h2, hseq, by simp, by simp⟩
      · rename_i e
        split at hs
        · rename_i hpan
          cases hs
          exact ⟨by simpa [inFlight] using h1, h2, hseq, by simp, fun _ => ⟨p.handled, b, e, rfl, by rw [← h3, hr], hpan⟩⟩
        · cases hs; exact ⟨by simpa [inFlight] using h1, h2, hseq, by simp, by simp⟩
    · cases hs
    · cases hs

theorem inv_run {s0 : St} {p p' : Proc N St} (hp : Inv convert add s0 p) (es : List (Ev N))
    (hs : p.run convert add es = some p') : Inv convert add s0 p' := by
  induction es generalizing p with
  | nil => cases hs; exact hp
  | cons e es ih =>
    rw [Proc.run] at hs
    split at hs
    · cases hs
    · rename_i q hq; exact ih (inv_step convert add hp e hq) hs

theorem sequential_after (s : St) (bs : List N) : sequential convert add s bs = Spec.after convert add s bs := by
  unfold sequential Spec.after
  induction bs generalizing s with
  | nil => rfl
  | cons b bs ih =>
    rw [List.foldl_cons, ih, List.filterMap_cons]
    cases hc : convert b with
    | error e => simp only [handle, hc, Spec.converted]
    | ok x => simp only [handle, hc, Spec.converted, List.foldl_cons]

theorem converted_iff (n : N) (b : B) : Spec.converted convert n = some b ↔ convert n = .ok b := by
  unfold Spec.converted
  cases convert n with
  | error e => simp
  | ok x => simp

/-- Handling network blocks is offering those that can be converted. -/
theorem sequential_offers (s : St) (ns : List N) :
    sequential convert add s ns = offers add s (ns.filterMap (Spec.converted convert)) := by
  rw [sequential_after]
  unfold Spec.after
  generalize ns.filterMap (Spec.converted convert) = bs
  induction bs generalizing s with
  | nil => rfl
  | cons b bs ih => rw [List.foldl_cons, ih]; rfl

theorem handle_panics (s : St) (b : N) :
    (∃ e, (handle convert add s b).2 = .error e ∧ e.isPanic = true) ↔ Spec.PanicsOn convert add s b := by
  unfold handle Spec.PanicsOn
  cases hc : convert b with
  | error x =>
    constructor
    · rintro ⟨e, h, hp⟩; cases h; exact .inl ⟨_, rfl, (isPanic_iff _).mp hp⟩
    · rintro (⟨e, h, hp⟩ | ⟨x, e, h, -⟩)
      · cases h; exact ⟨_, rfl, (isPanic_iff _).mpr hp⟩
      · cases h
  | ok x =>
    constructor
    · rintro ⟨e, h, hp⟩; exact .inr ⟨x, e, rfl, h, (isPanic_iff e).mp hp⟩
    · rintro (⟨e, h, -⟩ | ⟨_, e, h, h2, hp⟩)
      · cases h
      · cases h; exact ⟨e, h2, (isPanic_iff e).mpr hp⟩

/-- C43: under every schedule, the blocks handled so far are the first ones sent, in the order
sent, each exactly once; at most two others, one in the hands of the loop and one in the channel, have been sent;
and the frontier is the one that was offered the handled ones one after another. -/
theorem C43_in_order_exactly_once (s0 : St) (es : List (Ev N)) (p : Proc N St)
    (hrun : (Proc.init s0).run convert add es = some p) :
    p.handled <+: p.sent ∧ p.sent.length ≤ p.handled.length + 2 ∧ p.frontier = Spec.after convert add s0 p.handled := by
  obtain ⟨h1, h2, h3, -, -⟩ := inv_run convert add (inv_init convert add s0) es hrun
  refine ⟨⟨inFlight p.loop ++ p.queue, by rw [h1, List.append_assoc]⟩, ?_, h3.trans (sequential_after convert add _ _)⟩
  have : (inFlight p.loop).length ≤ 1 := by cases p.loop <;> simp [inFlight]
  rw [h1, List.length_append, List.length_append]
  omega

/-- C43: when the loop ends because the channel was closed, every block sent has been handled. -/
theorem C43_all_handled_at_end (s0 : St) (es : List (Ev N)) (p : Proc N St)
    (hrun : (Proc.init s0).run convert add es = some p) (hdone : p.loop = .done) : p.handled = p.sent := by
  obtain ⟨h1, -, -, h4, -⟩ := inv_run convert add (inv_init convert add s0) es hrun
  rw [h1, (h4 hdone).1, hdone]; simp [inFlight]

/-- C43: the loop stops early only if handling some block panicked; blocks that fail with an error
do not stop it. -/
theorem C43_only_panics_stop (s0 : St) (es : List (Ev N)) (p : Proc N St)
    (hrun : (Proc.init s0).run convert add es = some p) (hcrash : p.loop = .crashed) :
    ∃ pre b, p.handled = pre ++ [b] ∧ Spec.PanicsOn convert add (Spec.after convert add s0 pre) b := by
  obtain ⟨pre, b, e, h1, h2, h3⟩ := (inv_run convert add (inv_init convert add s0) es hrun).crashed hcrash
  rw [sequential_after] at h2
  exact ⟨pre, b, h1, (handle_panics convert add _ _).mp ⟨e, h2, h3⟩⟩

/-- C43: no deadlock: while there is a block that was sent and not handled, no caller holds a read
guard, and no block has panicked, the loop can take a step. -/
theorem C43_progress (s0 : St) (es : List (Ev N)) (p : Proc N St)
    (hrun : (Proc.init s0).run convert add es = some p) (hpending : p.handled ≠ p.sent) (hread : p.readers = 0)
    (hcrash : p.loop ≠ .crashed) : ∃ p', p.step convert add .loop = some p' := by
  obtain ⟨h1, h2, h3, h4, -⟩ := inv_run convert add (inv_init convert add s0) es hrun
  simp only [Proc.step]
  cases hl : p.loop with
  | receiving =>
    simp only
    cases hq : p.queue with
    | nil => rw [hl, hq] at h1; exact absurd (by simpa [inFlight] using h1.symm) hpending
    | cons b rest => exact ⟨_, rfl⟩
  | locking b => simp [hread]
  | adding b =>
    simp only
    split
    · exact ⟨_, rfl⟩
    · split <;> exact ⟨_, rfl⟩
  | done =>
    rw [(h4 hl).1, hl] at h1
    exact absurd (by simpa [inFlight] using h1.symm) hpending
  | crashed => exact absurd hl hcrash

/-- How many steps the loop needs to finish the block in its hands. -/
def loopWork : Loop N → Nat
  | .locking _ => 2
  | .adding _ => 1
  | _ => 0

/-- How many steps the loop needs to finish what has been sent. -/
def work (p : Proc N St) : Nat := 3 * p.queue.length + loopWork p.loop

/-- C43: from every reachable state in which no read guard is held, if no block panics, at most
five steps of the loop alone handle every block sent so far. -/
theorem C43_drains (hnp : ∀ s b, ¬ Spec.PanicsOn convert add s b)
    (s0 : St) (es : List (Ev N)) (p : Proc N St)
    (hrun : (Proc.init s0).run convert add es = some p) (hread : p.readers = 0) :
    ∃ k p', k ≤ 5 ∧ p.run convert add (List.replicate k .loop) = some p' ∧ p'.handled = p.sent ∧ p'.sent = p.sent := by
  have hinv := inv_run convert add (inv_init convert add s0) es hrun
  suffices hgen : ∀ (n : Nat) (p : Proc N St), work p = n → Inv convert add s0 p → p.readers = 0 →
      ∃ k p', k ≤ n ∧ p.run convert add (List.replicate k .loop) = some p' ∧ p'.handled = p.sent ∧ p'.sent = p.sent by
    obtain ⟨k, p', hk, hr⟩ := hgen (work p) p rfl hinv hread
    refine ⟨k, p', ?_, hr⟩
    have := hinv.bounded
    have hl : loopWork p.loop ≤ 2 := by cases p.loop <;> simp [loopWork]
    unfold work at hk
    omega
  intro n
  induction n using Nat.strongRecOn with
  | ind n ih =>
    intro p hn hp hr
    by_cases hpend : p.handled = p.sent
    · exact ⟨0, p, Nat.zero_le _, rfl, hpend, rfl⟩
    · have hncr : p.loop ≠ .crashed := by
        intro hc
        obtain ⟨pre, b, e, -, h2, h3⟩ := hp.crashed hc
        exact hnp _ _ ((handle_panics convert add _ _).mp ⟨e, h2, h3⟩)
      have hstep : ∃ q, p.step convert add .loop = some q ∧ work q < work p ∧ q.readers = 0 ∧ q.sent = p.sent := by
        have h1 := hp.log
        unfold work
        cases hl : p.loop with
        | receiving =>
          cases hq : p.queue with
          | nil => rw [hl, hq] at h1; exact absurd (by simpa [inFlight] using h1.symm) hpend
          | cons b rest =>
            refine ⟨{ p with queue := rest, loop := .locking b }, by simp only [Proc.step, hl, hq], ?_, hr, rfl⟩
            simp only [List.length_cons, loopWork]; omega
        | locking b => exact ⟨{ p with loop := .adding b }, by simp [Proc.step, hl, hr], by simp [loopWork], hr, rfl⟩
        | adding b =>
          rcases hh : handle convert add p.frontier b with ⟨s, r⟩
          cases r with
          | ok u => exact ⟨{ p with frontier := s, loop := .receiving, handled := p.handled ++ [b] }, by simp only [Proc.step, hl, hh], by simp [loopWork], hr, rfl⟩
          | error e =>
            have he : e.isPanic = false := by
              cases hx : e.isPanic
              · rfl
              · exact absurd ((handle_panics convert add _ _).mp ⟨e, by rw [hh], hx⟩) (hnp p.frontier b)
            exact ⟨{ p with frontier := s, loop := .receiving, handled := p.handled ++ [b] },
              by simp [Proc.step, hl, hh, he], by simp [loopWork], hr, rfl⟩
        | done =>
          rw [(hp.done hl).1, hl] at h1
          exact absurd (by simpa [inFlight] using h1.symm) hpend
        | crashed => exact absurd hl hncr
      obtain ⟨q, hq, hw, hr', hsent⟩ := hstep
      obtain ⟨k, p', hk, h1, h2, h3⟩ := ih (work q) (by omega) q rfl (inv_step convert add hp _ hq) hr'
      refine ⟨k + 1, p', by omega, ?_, by rw [h2, hsent], by rw [h3, hsent]⟩
      rw [List.replicate_succ, Proc.run, hq]
      exact h1

/-! ## Examples -/

/-- Blocks are numbers, conversion fails for 0 and panics for 3, adding fails for 1 and panics for 2. -/
def exAdd (s : List Nat) (b : Nat) : List Nat × Except Err Unit :=
  if b = 1 then (s, .error .verificationFailure) else if b = 2 then (s, .error (.panic "")) else (s ++ [b], .ok ())

/-- Conversion for the examples. -/
def exConvert (b : Nat) : Except Err Nat :=
  if b = 0 then .error .conversion else if b = 3 then .error (.panic "") else .ok b

/-- A schedule with a reader, an unconvertible and a failing block: all are handled in order. -/
example : ((Proc.init []).run exConvert exAdd
    [.send 7, .acquireRead, .loop, .send 0, .releaseRead, .loop, .loop, .loop, .send 1, .loop, .loop, .loop, .send 9, .loop, .loop,
     .close, .loop, .loop, .loop, .loop]).map
    (fun p => (p.frontier, p.handled, p.sent, p.loop)) = some ([7, 9], [7, 0, 1, 9], [7, 0, 1, 9], .done) := by decide

/-- Nothing was handled after a block that panicked, and the loop has ended. -/
def Stops (s0 : St) (p : Proc N St) : Prop :=
  ∀ pre b post e, p.handled = pre ++ b :: post → (handle convert add (sequential convert add s0 pre) b).2 = .error e →
    e.isPanic = true → p.loop = .crashed ∧ post = []

theorem stops_step {s0 : St} {p p' : Proc N St} (hi : Inv convert add s0 p) (hp : Stops convert add s0 p) (ev : Ev N)
    (hs : p.step convert add ev = some p') : Stops convert add s0 p' := by
  have keep : p'.handled = p.handled → (p.loop = .crashed → p'.loop = .crashed) → Stops convert add s0 p' := by
    intro h1 h2 pre b post e hh hb he
    rw [h1] at hh
    exact ⟨h2 (hp pre b post e hh hb he).1, (hp pre b post e hh hb he).2⟩
  cases ev with
  | send b => simp only [Proc.step] at hs; split at hs <;> cases hs; exact keep rfl id
  | close => simp only [Proc.step] at hs; split at hs <;> cases hs; exact keep rfl id
  | acquireRead => simp only [Proc.step] at hs; split at hs <;> cases hs; exact keep rfl id
  | releaseRead => simp only [Proc.step] at hs; split at hs <;> cases hs; exact keep rfl id
  | loop =>
    simp only [Proc.step] at hs
    split at hs
    · rename_i hl
      split at hs
      · cases hs; exact keep rfl (fun h => by rw [hl] at h; cases h)
      · split at hs <;> cases hs; exact keep rfl (fun h => by rw [hl] at h; cases h)
    · rename_i b hl
      split at hs <;> cases hs; exact keep rfl (fun h => by rw [hl] at h; cases h)
    · rename_i b hl
      have grown : ∀ lp : Loop N, p'.handled = p.handled ++ [b] → p'.loop = lp →
          (∀ e, (handle convert add p.frontier b).2 = .error e → e.isPanic = true → lp = .crashed) →
          Stops convert add s0 p' := by
        intro lp h1 h2 h3 pre c post e hh hc he
        rw [h1] at hh
        rcases List.eq_nil_or_concat post with rfl | ⟨post', x, rfl⟩
        · obtain ⟨rfl, hx⟩ := List.append_inj' hh rfl
          cases hx
          rw [hi.frontier] at h3
          exact ⟨h2.trans (h3 e hc he), rfl⟩
        · have hh' : p.handled ++ [b] = (pre ++ c :: post') ++ [x] := by simpa using hh
          obtain ⟨hh', -⟩ := List.append_inj' hh' rfl
          have := (hp pre c post' e hh' hc he).1
          rw [hl] at this
          cases this
      rcases hr : handle convert add p.frontier b with ⟨s, r⟩
      rw [hr] at hs grown
      simp only at hs
      split at hs
      · cases hs; exact grown _ rfl rfl (fun e he => nomatch he)
      · split at hs
        · cases hs; exact grown _ rfl rfl (fun _ _ _ => rfl)
        · rename_i hn
          cases hs
          exact grown _ rfl rfl (fun e he hp => absurd (by cases he; exact hp) hn)
    · cases hs
    · cases hs

theorem stops_run {s0 : St} {p p' : Proc N St} (hi : Inv convert add s0 p) (hp : Stops convert add s0 p) (es : List (Ev N))
    (hs : p.run convert add es = some p') : Stops convert add s0 p' := by
  induction es generalizing p with
  | nil => cases hs; exact hp
  | cons e es ih =>
    rw [Proc.run] at hs
    split at hs
    · cases hs
    · rename_i q hq; exact ih (inv_step convert add hi e hq) (stops_step convert add hi hp e hq) hs

/-- C43 is false of the code for a block that panics, under every schedule: once such a block has been handled, it is the last one
for ever, whatever is sent afterwards. -/
theorem C43_panic_stops_fails (s0 : St) (es es' : List (Ev N)) (p p' : Proc N St)
    (hrun : (Proc.init s0).run convert add es = some p) (hrun' : p.run convert add es' = some p') (pre : List N) (b : N) (post : List N)
    (hb : p.handled = pre ++ b :: post) (hpanic : Spec.PanicsOn convert add (Spec.after convert add s0 pre) b) :
    p'.handled = pre ++ [b] := by
  have hs : Stops convert add s0 (Proc.init s0 : Proc N St) := by
    intro pre b post e h; simp [Proc.init] at h
  have hi := inv_run convert add (inv_init convert add s0) es hrun
  have hp := stops_run convert add (inv_init convert add s0) hs es hrun
  obtain ⟨e, he, hpan⟩ := (handle_panics convert add _ _).mpr hpanic
  rw [← sequential_after] at he
  obtain ⟨hl, rfl⟩ := hp pre b post e hb he hpan
  rw [← hb]
  clear hb he hrun hp hs hi
  induction es' generalizing p with
  | nil => cases hrun'; rfl
  | cons ev es' ih =>
    rw [Proc.run] at hrun'
    split at hrun'
    · cases hrun'
    · rename_i q hq
      have : q.loop = .crashed ∧ q.handled = p.handled := by
        cases ev <;> simp only [Proc.step, hl] at hq
        · split at hq <;> cases hq; exact ⟨rfl, rfl⟩
        · split at hq <;> cases hq; exact ⟨rfl, rfl⟩
        · cases hq
        · cases hq; exact ⟨rfl, rfl⟩
        · split at hq <;> cases hq; exact ⟨rfl, rfl⟩
      rw [ih q hrun' this.1, this.2]

/-- A block whose conversion panics, and one that waits in vain. -/
example : ((Proc.init []).run exConvert exAdd [.send 9, .loop, .loop, .loop, .send 3, .loop, .send 7, .loop, .loop]).map
    (fun p => (p.handled, p.sent, p.queue)) = some ([9, 3], [9, 3, 7], [7]) ∧
    Spec.PanicsOn exConvert exAdd (Spec.after exConvert exAdd [] [9]) 3 :=
  ⟨by decide, .inl ⟨.panic "", rfl, .inl ⟨_, rfl⟩⟩⟩

/-- A block that panics, and one that waits in vain. -/
example : ((Proc.init []).run exConvert exAdd [.send 9, .loop, .loop, .loop, .send 2, .loop, .send 7, .loop, .loop]).map
    (fun p => (p.handled, p.sent, p.queue)) = some ([9, 2], [9, 2, 7], [7]) ∧
    Spec.PanicsOn exConvert exAdd (Spec.after exConvert exAdd [] [9]) 2 :=
  ⟨by decide, .inr ⟨2, .panic "", rfl, rfl, .inl ⟨_, rfl⟩⟩⟩

/-- The processor with the mainnet frontier: under every schedule its best chain contains only
verified blocks that were sent. -/
theorem C39_processor_best_chain_verified {T K Pt S P Proof : Type} (h : MinaRs.Consensus.Header T) (crypto : Crypto K Pt S P)
    (convert : N → Except Err (ExternalTransition T K S P)) (es : List (Ev N)) (p : Proc N (State T Proof))
    (hrun : (Proc.init State.new).run convert (addBlockMainnet h crypto) es = some p) (x : T) (hx : x ∈ p.frontier.bestChain) :
    ∃ n ∈ p.sent, ∃ b, convert n = .ok b ∧ b.protocolState = x ∧ Spec.ValidBlock crypto b := by
  obtain ⟨h1, -, h3⟩ := C43_in_order_exactly_once convert (addBlockMainnet h crypto) _ es p hrun
  rw [h3, ← sequential_after, sequential_offers] at hx
  obtain ⟨b, hb, hb1, hb2⟩ := C39_best_chain_verified h crypto _ x hx
  obtain ⟨n, hn, hc⟩ := List.mem_filterMap.mp hb
  refine ⟨n, ?_, b, (converted_iff convert n b).mp hc, hb1, hb2⟩
  exact h1.subset hn

end MinaRs.Frontier
