import Verif.Crawler.Model
import Verif.Base.TextLemmas

/-! # Properties of the crawler (C83) -/

namespace MinaRs.Crawler

open MinaRs.Text

variable {D : Type} (E : Env D)

/-! ## File names -/

theorem dash_not_digit : ¬ Spec.IsDigit '-' := by decide

theorem split_at_dash (a b x y : Text) (ha : '-' ∉ a) (hb : '-' ∉ b) (h : a ++ '-' :: x = b ++ '-' :: y) : a = b ∧ x = y := by
  induction a generalizing b with
  | nil =>
    cases b with
    | nil => exact ⟨rfl, by simpa using h⟩
    | cons d b =>
      rw [List.nil_append, List.cons_append] at h
      have := (List.cons.inj h).1
      exact absurd (by rw [this]; exact List.mem_cons_self) hb
  | cons c a ih =>
    cases b with
    | nil =>
      rw [List.nil_append, List.cons_append] at h
      have := (List.cons.inj h).1
      exact absurd (by rw [← this]; exact List.mem_cons_self) ha
    | cons d b =>
      rw [List.cons_append, List.cons_append] at h
      obtain ⟨h1, h2⟩ := List.cons.inj h
      obtain ⟨e1, e2⟩ := ih b (fun m => ha (List.mem_cons_of_mem _ m)) (fun m => hb (List.mem_cons_of_mem _ m)) h2
      exact ⟨by rw [h1, e1], e2⟩

/-- **C83.** Different blocks have different files. -/
theorem C83_names (b b' : BlockInfo) (h : fileName b = fileName b') : b = b' := by
  unfold fileName at h
  have h2 := List.append_cancel_left (List.append_cancel_right h)
  have hd : ∀ k, '-' ∉ decimal k := fun k hm => dash_not_digit (decimal_digits k _ hm)
  obtain ⟨e1, e2⟩ := split_at_dash _ _ _ _ (hd _) (hd _) h2
  have e3 : b.blockHeight = b'.blockHeight := by rw [← value_decimal b.blockHeight, e1, value_decimal]
  cases b; cases b'
  simp only at e2 e3
  rw [e2, e3]

theorem digit_digitChar (n : Nat) (h : n < 10) : digit n = n.digitChar := by
  match n with
  | 0 | 1 | 2 | 3 | 4 | 5 | 6 | 7 | 8 | 9 => rfl
  | n + 10 => omega

theorem decimal_toString (n : Nat) : decimal n = (toString n).toList := by
  show decimal n = n.repr.toList
  rw [Nat.toList_repr]
  induction n using Nat.strongRecOn with
  | ind n ih =>
    rw [decimal]
    split
    · rename_i h
      rw [Nat.toDigits_of_lt_base h, digit_digitChar n h]
    · rename_i h
      rw [Nat.toDigits_of_base_le (by omega) (by omega), ih (n / 10) (by omega), digit_digitChar _ (by omega)]

/-- **C83.** The file of a block is named after the network, its height and its hash. -/
theorem C83_file_name (b : BlockInfo) :
    fileName b = "mainnet-".toList ++ (toString b.blockHeight).toList ++ "-".toList ++ b.stateHash ++ ".json".toList := by
  unfold fileName
  rw [decimal_toString]
  have : "-".toList = ['-'] := by decide
  rw [this]
  simp only [List.append_assoc, List.cons_append, List.nil_append]

/-! ## What the files hold -/

/-- What is known of a file: it holds a beginning of a document retrieved for its block, with this verdict; all of it
if no process was killed while writing. -/
def Holds (E : Env D) (got : List (Text × D)) (v : Verdict) (whole : Bool) (f : Text → Option Bytes) : Prop :=
  ∀ name bytes, f name = some bytes → ∃ d, (name, d) ∈ got ∧ E.judge d = v ∧
    bytes <+: E.print d ∧ (whole = true → bytes = E.print d)

/-- No process is killed while it writes. -/
def Ev.clean : Ev D → Bool
  | .killWriting _ _ _ => false
  | _ => true

variable {E} in
theorem Holds.mono {got got' : List (Text × D)} {v : Verdict} {w w' : Bool} {f : Text → Option Bytes}
    (h : Holds E got v w f) (hg : ∀ x ∈ got, x ∈ got') (hw : w' = true → w = true) : Holds E got' v w' f := by
  intro name bytes hf
  obtain ⟨d, h1, h2, h3, h4⟩ := h name bytes hf
  exact ⟨d, hg _ h1, h2, h3, fun h => h4 (hw h)⟩

variable {E} in
theorem Holds.put_none {got : List (Text × D)} {v : Verdict} {w : Bool} {f : Text → Option Bytes}
    (h : Holds E got v w f) (name : Text) : Holds E got v w (put f name none) := by
  intro x bytes hf
  unfold put at hf
  split at hf
  · cases hf
  · exact h x bytes hf

variable {E} in
theorem Holds.put_some {got : List (Text × D)} {v : Verdict} {w : Bool} {f : Text → Option Bytes}
    (h : Holds E got v w f) (name : Text) (d : D) (c : Bytes) (hg : (name, d) ∈ got) (hv : E.judge d = v)
    (hc : c <+: E.print d) (hw : w = true → c = E.print d) : Holds E got v w (put f name (some c)) := by
  intro x bytes hf
  unfold put at hf
  split at hf
  · rename_i hx
    cases hf
    subst hx
    exact ⟨d, hg, hv, hc, hw⟩
  · exact h x bytes hf

/-- Both folders. -/
def BothHold (E : Env D) (whole : Bool) (s : St D) : Prop :=
  Holds E s.got .accepted whole s.folders.succeeded ∧ Holds E s.got .refused whole s.folders.failed

variable {E} in
theorem hold_step {w : Bool} {s s' : St D} (h : BothHold E w s) (e : Ev D) (hs : step E s e = some s') :
    BothHold E (w && e.clean) s' := by
  obtain ⟨h1, h2⟩ := h
  cases e with
  | launch blocks =>
    simp only [step] at hs
    split at hs
    · cases hs; exact ⟨by simpa [Ev.clean] using h1, by simpa [Ev.clean] using h2⟩
    · cases hs
  | kill => cases hs; exact ⟨by simpa [Ev.clean] using h1, by simpa [Ev.clean] using h2⟩
  | start i =>
    simp only [step] at hs
    split at hs
    · rename_i b hb
      cases hs
      have e1 : (begin s.folders b).1 = { s.folders with failed := put s.folders.failed (fileName b) none } := by
        unfold begin
        simp only
        split <;> rfl
      refine ⟨?_, ?_⟩
      · show Holds E s.got _ _ (begin s.folders b).1.succeeded
        rw [e1]; simpa [Ev.clean] using h1
      · show Holds E s.got _ _ (begin s.folders b).1.failed
        rw [e1]; simpa [Ev.clean] using h2.put_none (fileName b)
    · cases hs
  | answer i r =>
    simp only [step] at hs
    split at hs
    · rename_i b hb
      split at hs
      · cases hs; exact ⟨by simpa [Ev.clean] using h1, by simpa [Ev.clean] using h2⟩
      · rename_i d
        have hm : ∀ x ∈ s.got, x ∈ s.got ++ [(fileName b, d)] := fun x hx => List.mem_append_left _ hx
        have hin : (fileName b, d) ∈ s.got ++ [(fileName b, d)] := by simp
        have w' : (w && Ev.clean (Ev.answer i (some d))) = true → w = true := by simp [Ev.clean]
        split at hs
        · cases hs; exact ⟨h1.mono hm w', h2.mono hm w'⟩
        · rename_i hv
          cases hs
          cases hj : E.judge d with
          | panics => exact absurd hj hv
          | accepted =>
            exact ⟨(h1.mono hm w').put_some (fileName b) d _ hin hj (List.prefix_refl _) (fun _ => rfl), h2.mono hm w'⟩
          | refused =>
            exact ⟨h1.mono hm w', (h2.mono hm w').put_some (fileName b) d _ hin hj (List.prefix_refl _) (fun _ => rfl)⟩
    · cases hs
  | killWriting i d k =>
    simp only [step] at hs
    split at hs
    · rename_i b hb
      cases hs
      have hm : ∀ x ∈ s.got, x ∈ s.got ++ [(fileName b, d)] := fun x hx => List.mem_append_left _ hx
      have hin : (fileName b, d) ∈ s.got ++ [(fileName b, d)] := by simp
      have w' : (w && Ev.clean (Ev.killWriting i d k)) = true → w = true := by simp [Ev.clean]
      have w'' : (w && Ev.clean (Ev.killWriting i d k)) = true → (E.print d).take k = E.print d := by simp [Ev.clean]
      cases hj : E.judge d with
      | panics => exact ⟨h1.mono hm w', h2.mono hm w'⟩
      | accepted =>
        exact ⟨(h1.mono hm w').put_some (fileName b) d _ hin hj (List.take_prefix _ _) w'', h2.mono hm w'⟩
      | refused =>
        exact ⟨h1.mono hm w', (h2.mono hm w').put_some (fileName b) d _ hin hj (List.take_prefix _ _) w''⟩
    · cases hs

theorem hold_run {w : Bool} {s s' : St D} (h : BothHold E w s) (es : List (Ev D)) (hs : run E s es = some s') :
    BothHold E (w && es.all Ev.clean) s' := by
  induction es generalizing s w with
  | nil => cases hs; simpa using h
  | cons e es ih =>
    rw [run] at hs
    split at hs
    · cases hs
    · rename_i t ht
      have := ih (hold_step h e ht) hs
      simpa [Bool.and_assoc] using this

/-- **C83.** After any history of runs, kills included: a file among the succeeded blocks holds a document that was
retrieved for its block and is accepted; one among the failed blocks a document that was retrieved and is refused.
Missing: if a process was killed while it wrote, the file may hold only a beginning of the document. -/
theorem C83_contents_partial (es : List (Ev D)) (s : St D) (h : run E init es = some s) (b : BlockInfo) (bytes : Bytes) :
    (s.folders.succeeded (fileName b) = some bytes → ∃ d, (fileName b, d) ∈ s.got ∧ E.judge d = .accepted ∧
      bytes <+: E.print d ∧ (es.all Ev.clean = true → bytes = E.print d)) ∧
    (s.folders.failed (fileName b) = some bytes → ∃ d, (fileName b, d) ∈ s.got ∧ E.judge d = .refused ∧
      bytes <+: E.print d ∧ (es.all Ev.clean = true → bytes = E.print d)) := by
  have h0 : BothHold E true (init : St D) := ⟨(fun _ _ h => by cases h), (fun _ _ h => by cases h)⟩
  obtain ⟨h1, h2⟩ := hold_run E h0 es h
  exact ⟨fun hf => by simpa using h1 _ _ hf, fun hf => by simpa using h2 _ _ hf⟩

/-! ## What a run does -/

/-- The block a call is about. -/
def Job.block : Job → Option BlockInfo
  | .pending b => some b
  | .fetching b => some b
  | .done => none

/-- The calls under way are about different blocks. -/
def Distinct (jobs : List Job) : Prop :=
  ∀ (i j : Nat) b, (jobs[i]?).bind Job.block = some b → (jobs[j]?).bind Job.block = some b → i = j

/-- Every list of blocks is without repetitions. -/
def Ev.distinct : Ev D → Prop
  | .launch blocks => blocks.Nodup
  | _ => True

theorem distinct_launch {blocks : List BlockInfo} (h : blocks.Nodup) : Distinct (blocks.map .pending) := by
  intro i j b hi hj
  rw [List.getElem?_map] at hi hj
  cases h1 : blocks[i]? with
  | none => rw [h1] at hi; cases hi
  | some x =>
    cases h2 : blocks[j]? with
    | none => rw [h2] at hj; cases hj
    | some y =>
      rw [h1] at hi; rw [h2] at hj
      cases hi; cases hj
      exact List.getElem?_inj (List.getElem?_eq_some_iff.mp h1).1 h |>.mp (h1.trans h2.symm)

theorem distinct_nil : Distinct [] := by
  intro i j b hi; simp at hi

/-- A call goes on with the same block or ends. -/
theorem distinct_set {jobs : List Job} (h : Distinct jobs) (i : Nat) (j : Job)
    (hj : ∀ b, j.block = some b → (jobs[i]?).bind Job.block = some b) : Distinct (jobs.set i j) := by
  have key : ∀ (k : Nat) b, ((jobs.set i j)[k]?).bind Job.block = some b → (jobs[k]?).bind Job.block = some b := by
    intro k b hk
    rw [List.getElem?_set] at hk
    split at hk
    · rename_i hik
      split at hk
      · subst hik; exact hj b hk
      · cases hk
    · exact hk
  intro a c b ha hc
  exact h a c b (key a b ha) (key c b hc)

/-- Between runs and during them: calls are about different blocks; a block being fetched is in no folder; no block is
in both. -/
structure Tidy (s : St D) : Prop where
  distinct : Distinct s.jobs
  fetching : ∀ (i : Nat) b, s.jobs[i]? = some (.fetching b) →
    s.folders.succeeded (fileName b) = none ∧ s.folders.failed (fileName b) = none
  one : ∀ x, s.folders.succeeded x = none ∨ s.folders.failed x = none

theorem put_same (f : Text → Option Bytes) (x : Text) (c : Option Bytes) : put f x c x = c := by simp [put]
theorem put_other (f : Text → Option Bytes) {x y : Text} (c : Option Bytes) (h : y ≠ x) : put f x c y = f y := by
  simp [put, h]

/-- Filing one block leaves the files of the others. -/
theorem finish_other (f : Folders) (b : BlockInfo) (v : Verdict) (c : Bytes) {x : Text} (h : x ≠ fileName b) :
    (finish f b v c).succeeded x = f.succeeded x ∧ (finish f b v c).failed x = f.failed x := by
  cases v with
  | accepted => exact ⟨put_other _ _ h, rfl⟩
  | refused => exact ⟨rfl, put_other _ _ h⟩
  | panics => exact ⟨rfl, rfl⟩

theorem finish_one (f : Folders) (b : BlockInfo) (v : Verdict) (c : Bytes)
    (hone : ∀ x, f.succeeded x = none ∨ f.failed x = none)
    (h : f.succeeded (fileName b) = none ∧ f.failed (fileName b) = none) (x : Text) :
    (finish f b v c).succeeded x = none ∨ (finish f b v c).failed x = none := by
  by_cases hx : x = fileName b
  · subst hx
    cases v with
    | accepted => exact .inr h.2
    | refused => exact .inl h.1
    | panics => exact .inl h.1
  · obtain ⟨e1, e2⟩ := finish_other f b v c hx
    rw [e1, e2]
    exact hone x

theorem begin_folders (f : Folders) (b : BlockInfo) :
    (begin f b).1.succeeded = f.succeeded ∧ (begin f b).1.failed = put f.failed (fileName b) none := by
  unfold begin
  simp only
  split <;> exact ⟨rfl, rfl⟩

theorem begin_job (f : Folders) (b : BlockInfo) :
    (begin f b).2 = if (f.succeeded (fileName b)).isSome then .done else .fetching b := by
  unfold begin
  simp only
  cases h : f.succeeded (fileName b) <;> simp

variable {E} in
theorem tidy_step {s s' : St D} (h : Tidy s) (e : Ev D) (he : e.distinct) (hs : step E s e = some s') : Tidy s' := by
  obtain ⟨h1, h2, h3⟩ := h
  have hfetch : ∀ (i : Nat) (b : BlockInfo) (j : Job), s.jobs[i]? = some (.fetching b) → j.block = none →
      ∀ (k : Nat) c, (s.jobs.set i j)[k]? = some (.fetching c) → k ≠ i ∧ c ≠ b ∧ s.jobs[k]? = some (.fetching c) := by
    intro i b j hi hj k c hk
    rw [List.getElem?_set] at hk
    split at hk
    · split at hk
      · cases hk; cases hj
      · cases hk
    · rename_i hik
      refine ⟨fun e => hik e.symm, ?_, hk⟩
      rintro rfl
      exact hik (h1 i k c (by rw [hi]; rfl) (by rw [hk]; rfl))
  cases e with
  | launch blocks =>
    simp only [step] at hs
    split at hs
    · cases hs
      refine ⟨distinct_launch he, fun i b hi => ?_, h3⟩
      simp only [List.getElem?_map] at hi
      cases hx : blocks[i]? with
      | none => rw [hx] at hi; cases hi
      | some y => rw [hx] at hi; cases hi
    · cases hs
  | kill =>
    cases hs
    exact ⟨distinct_nil, fun i b hi => by simp at hi, h3⟩
  | start i =>
    simp only [step] at hs
    split at hs
    · rename_i b hb
      cases hs
      obtain ⟨e1, e2⟩ := begin_folders s.folders b
      have ej := begin_job s.folders b
      refine ⟨distinct_set h1 i _ ?_, ?_, ?_⟩
      · intro c hc
        rw [ej] at hc
        split at hc
        · cases hc
        · rw [hb]; exact hc
      · intro k c hk
        show (begin s.folders b).1.succeeded _ = none ∧ (begin s.folders b).1.failed _ = none
        rw [e1, e2]
        simp only [List.getElem?_set] at hk
        split at hk
        · split at hk
          · rw [ej] at hk
            split at hk
            · cases hk
            · rename_i hn
              cases hk
              exact ⟨by simpa using hn, put_same _ _ _⟩
          · cases hk
        · rename_i hik
          obtain ⟨g1, g2⟩ := h2 k c hk
          refine ⟨g1, ?_⟩
          unfold put
          split
          · rfl
          · exact g2
      · intro x
        show (begin s.folders b).1.succeeded _ = none ∨ (begin s.folders b).1.failed _ = none
        rw [e1, e2]
        rcases h3 x with h | h
        · exact .inl h
        · right
          unfold put
          split
          · rfl
          · exact h
    · cases hs
  | answer i r =>
    simp only [step] at hs
    split at hs
    · rename_i b hb
      have hdone : Distinct (s.jobs.set i .done) := distinct_set h1 i _ (fun b hb => by cases hb)
      split at hs
      · cases hs
        exact ⟨hdone, fun k c hk => h2 k c (hfetch i b .done hb rfl k c hk).2.2, h3⟩
      · rename_i d
        split at hs
        · cases hs
          exact ⟨distinct_nil, fun i b hi => by simp at hi, h3⟩
        · cases hs
          refine ⟨hdone, fun k c hk => ?_, finish_one _ _ _ _ h3 (h2 i b hb)⟩
          obtain ⟨-, hne, hk'⟩ := hfetch i b .done hb rfl k c hk
          obtain ⟨f1, f2⟩ := finish_other s.folders b (E.judge d) (E.print d) (x := fileName c)
            (fun e => hne (C83_names _ _ e))
          obtain ⟨g1, g2⟩ := h2 k c hk'
          exact ⟨f1.trans g1, f2.trans g2⟩
    · cases hs
  | killWriting i d k =>
    simp only [step] at hs
    split at hs
    · rename_i b hb
      cases hs
      exact ⟨distinct_nil, fun i b hi => by simp at hi, finish_one _ _ _ _ h3 (h2 i b hb)⟩
    · cases hs

theorem tidy_init : Tidy (init : St D) := ⟨distinct_nil, fun i b hi => by simp [init] at hi, fun _ => .inl rfl⟩

variable {E} in
theorem tidy_run {s s' : St D} (h : Tidy s) (es : List (Ev D)) (he : ∀ e ∈ es, e.distinct) (hs : run E s es = some s') :
    Tidy s' := by
  induction es generalizing s with
  | nil => cases hs; exact h
  | cons e es ih =>
    rw [run] at hs
    split at hs
    · cases hs
    · rename_i t ht
      exact ih (tidy_step h e (he e List.mem_cons_self) ht) (fun e hm => he e (List.mem_cons_of_mem _ hm)) hs

/-- **C83.** No block is filed both as succeeded and as failed, after any history of runs on lists without
repetitions, kills included. -/
theorem C83_not_both (es : List (Ev D)) (he : ∀ e ∈ es, e.distinct) (s : St D) (h : run E init es = some s)
    (b : BlockInfo) : s.folders.succeeded (fileName b) = none ∨ s.folders.failed (fileName b) = none :=
  (tidy_run tidy_init es he h).one _

variable {E} in
theorem kept_step {s s' : St D} (h : Tidy s) (e : Ev D) (hs : step E s e = some s') (x : Text) (c : Bytes)
    (hx : s.folders.succeeded x = some c) : s'.folders.succeeded x = some c := by
  have hne : ∀ (i : Nat) b, s.jobs[i]? = some (.fetching b) → x ≠ fileName b := by
    rintro i b hb rfl
    rw [(h.fetching i b hb).1] at hx
    cases hx
  cases e with
  | launch blocks =>
    simp only [step] at hs
    split at hs
    · cases hs; exact hx
    · cases hs
  | kill => cases hs; exact hx
  | start i =>
    simp only [step] at hs
    split at hs
    · rename_i b hb
      cases hs
      show (begin s.folders b).1.succeeded x = _
      rw [(begin_folders s.folders b).1]; exact hx
    · cases hs
  | answer i r =>
    simp only [step] at hs
    split at hs
    · rename_i b hb
      split at hs
      · cases hs; exact hx
      · rename_i d
        split at hs
        · cases hs; exact hx
        · cases hs
          exact (finish_other s.folders b (E.judge d) (E.print d) (hne i b hb)).1.trans hx
    · cases hs
  | killWriting i d k =>
    simp only [step] at hs
    split at hs
    · rename_i b hb
      cases hs
      exact (finish_other s.folders b (E.judge d) _ (hne i b hb)).1.trans hx
    · cases hs

/-- **C83.** What is filed as succeeded stays as it is, whatever runs and kills follow. -/
theorem C83_kept (es es' : List (Ev D)) (he : ∀ e ∈ es ++ es', e.distinct) (s s' : St D) (h : run E init es = some s)
    (h' : run E s es' = some s') (b : BlockInfo) (c : Bytes) (hc : s.folders.succeeded (fileName b) = some c) :
    s'.folders.succeeded (fileName b) = some c := by
  have ht := tidy_run tidy_init es (fun e hm => he e (List.mem_append_left _ hm)) h
  have he' : ∀ e ∈ es', e.distinct := fun e hm => he e (List.mem_append_right _ hm)
  clear h he
  induction es' generalizing s with
  | nil => cases h'; exact hc
  | cons e es' ih =>
    rw [run] at h'
    split at h'
    · cases h'
    · rename_i t htt
      exact ih t h' (kept_step ht e htt _ c hc) (tidy_step ht e (he' e List.mem_cons_self) htt)
        (fun e hm => he' e (List.mem_cons_of_mem _ hm))

/-! ## A complete run -/

/-- Events of one run that is not killed and meets no document on which parsing panics. -/
def Ev.within (E : Env D) : Ev D → Bool
  | .start _ => true
  | .answer _ none => true
  | .answer _ (some d) => E.judge d != .panics
  | _ => false

/-- What the folders say of a listed block, given what was retrieved. -/
def Filed (E : Env D) (before after : Folders) (b : BlockInfo) (r : Option D) : Prop :=
  match before.succeeded (fileName b) with
  | some c => after.succeeded (fileName b) = some c ∧ after.failed (fileName b) = none
  | none =>
    match r with
    | none => after.succeeded (fileName b) = none ∧ after.failed (fileName b) = none
    | some d =>
      match E.judge d with
      | .accepted => after.succeeded (fileName b) = some (E.print d) ∧ after.failed (fileName b) = none
      | _ => after.succeeded (fileName b) = none ∧ after.failed (fileName b) = some (E.print d)

/-- The invariant of a run: what a call has done so far. -/
structure Running (E : Env D) (before : Folders) (blocks : List BlockInfo) (es : List (Ev D)) (s : St D) : Prop where
  tidy : Tidy s
  length : s.jobs.length = blocks.length
  jobs : ∀ (i : Nat) b, blocks[i]? = some b →
    s.jobs[i]? = some (.pending b) ∧ s.folders.succeeded (fileName b) = before.succeeded (fileName b) ∨
    s.jobs[i]? = some (.fetching b) ∧ before.succeeded (fileName b) = none ∨
    s.jobs[i]? = some .done ∧ ∃ r, (before.succeeded (fileName b) = none → Ev.answer i r ∈ es) ∧ Filed E before s.folders b r
  others : ∀ x, (∀ b ∈ blocks, x ≠ fileName b) → s.folders.succeeded x = before.succeeded x ∧ s.folders.failed x = before.failed x

variable {E} in
theorem running_step {before : Folders} {blocks : List BlockInfo} (hnd : blocks.Nodup) {es : List (Ev D)} {s s' : St D}
    (h : Running E before blocks es s) (e : Ev D) (he : e.within E = true) (hs : step E s e = some s') :
    Running E before blocks (es ++ [e]) s' := by
  obtain ⟨h1, h2, h3, h4⟩ := h
  have hmono : ∀ i r, Ev.answer i r ∈ es → Ev.answer i r ∈ es ++ [e] := fun i r hm => List.mem_append_left _ hm
  have hlt : ∀ {i : Nat} {j}, s.jobs[i]? = some j → i < blocks.length := by
    intro i j hj
    rw [← h2]; exact (List.getElem?_eq_some_iff.mp hj).1
  have hname : ∀ (i j : Nat) b c, blocks[i]? = some b → blocks[j]? = some c → j ≠ i → fileName c ≠ fileName b := by
    intro i j b c hi hj hji hn
    have := C83_names _ _ hn
    subst this
    exact hji (List.getElem?_inj (List.getElem?_eq_some_iff.mp hj).1 hnd |>.mp (hj.trans hi.symm))
  -- a call other than the one that takes the step
  have hother : ∀ (f : Folders) (i : Nat) (j : Job) b, blocks[i]? = some b →
      (∀ x, x ≠ fileName b → f.succeeded x = s.folders.succeeded x ∧ f.failed x = s.folders.failed x) →
      ∀ (k : Nat) c, blocks[k]? = some c → k ≠ i →
      (s.jobs.set i j)[k]? = some (.pending c) ∧ f.succeeded (fileName c) = before.succeeded (fileName c) ∨
      (s.jobs.set i j)[k]? = some (.fetching c) ∧ before.succeeded (fileName c) = none ∨
      (s.jobs.set i j)[k]? = some .done ∧ ∃ r, (before.succeeded (fileName c) = none → Ev.answer k r ∈ es ++ [e]) ∧ Filed E before f c r := by
    intro f i j b hb hf k c hk hki
    obtain ⟨f1, f2⟩ := hf (fileName c) (hname i k b c hb hk hki)
    have hset : (s.jobs.set i j)[k]? = s.jobs[k]? := by
      rw [List.getElem?_set, if_neg (fun e => hki e.symm)]
    rw [hset, f1]
    rcases h3 k c hk with hj | hj | ⟨hj, r, hr, hfl⟩
    · exact .inl hj
    · exact .inr (.inl hj)
    · refine .inr (.inr ⟨hj, r, fun h => hmono _ _ (hr h), ?_⟩)
      unfold Filed at hfl ⊢
      rw [f1, f2]
      exact hfl
  have hothers : ∀ (f : Folders) (i : Nat) b, blocks[i]? = some b →
      (∀ x, x ≠ fileName b → f.succeeded x = s.folders.succeeded x ∧ f.failed x = s.folders.failed x) →
      ∀ x, (∀ b ∈ blocks, x ≠ fileName b) → f.succeeded x = before.succeeded x ∧ f.failed x = before.failed x := by
    intro f i b hb hf x hx
    obtain ⟨f1, f2⟩ := hf x (hx b (List.mem_of_getElem? hb))
    rw [f1, f2]
    exact h4 x hx
  cases e with
  | launch _ => cases he
  | kill => cases he
  | killWriting _ _ _ => cases he
  | start i =>
    have ht := tidy_step h1 (.start i) trivial hs
    simp only [step] at hs
    split at hs
    · rename_i b hb
      cases hs
      have hblk : blocks[i]? = some b := by
        have hi := List.getElem?_eq_getElem (hlt hb)
        rcases h3 i _ hi with ⟨hj, -⟩ | ⟨hj, -⟩ | ⟨hj, -⟩
        · rw [hb] at hj; rw [hi]; exact congrArg some (Job.pending.inj (Option.some.inj hj)).symm
        · rw [hb] at hj; cases hj
        · rw [hb] at hj; cases hj
      obtain ⟨e1, e2⟩ := begin_folders s.folders b
      have hfo : ∀ x, x ≠ fileName b → (begin s.folders b).1.succeeded x = s.folders.succeeded x ∧
          (begin s.folders b).1.failed x = s.folders.failed x := by
        intro x hx
        rw [e1, e2]
        exact ⟨rfl, put_other _ _ hx⟩
      refine ⟨ht, by simpa using h2, ?_, hothers _ i b hblk hfo⟩
      intro k c hk
      by_cases hki : k = i
      · subst hki
        rw [hblk] at hk
        cases hk
        have hbef : s.folders.succeeded (fileName b) = before.succeeded (fileName b) := by
          rcases h3 k b hblk with ⟨-, hj⟩ | ⟨hj, -⟩ | ⟨hj, -⟩
          · exact hj
          · rw [hb] at hj; cases hj
          · rw [hb] at hj; cases hj
        have hset : (s.jobs.set k (begin s.folders b).2)[k]? = some (begin s.folders b).2 := by
          rw [List.getElem?_set, if_pos rfl, if_pos (List.getElem?_eq_some_iff.mp hb).1]
        cases hsucc : s.folders.succeeded (fileName b) with
        | none =>
          refine .inr (.inl ⟨by rw [hset, begin_job, hsucc]; rfl, ?_⟩)
          rw [← hbef, hsucc]
        | some c =>
          refine .inr (.inr ⟨by rw [hset, begin_job, hsucc]; rfl, none, fun h => ?_, ?_⟩)
          · rw [← hbef, hsucc] at h; cases h
          · unfold Filed
            rw [← hbef, hsucc]
            simp only
            rw [e1, e2]
            exact ⟨hsucc, put_same _ _ _⟩
      · exact hother _ i _ b hblk hfo k c hk hki
    · cases hs
  | answer i r =>
    have ht := tidy_step h1 (.answer i r) trivial hs
    simp only [step] at hs
    split at hs
    · rename_i b hb
      have hblk : blocks[i]? = some b ∧ before.succeeded (fileName b) = none := by
        have hi := List.getElem?_eq_getElem (hlt hb)
        rcases h3 i _ hi with ⟨hj, -⟩ | ⟨hj, hn⟩ | ⟨hj, -⟩
        · rw [hb] at hj; cases hj
        · rw [hb] at hj; rw [hi]; rw [← Job.fetching.inj (Option.some.inj hj)] at hn ⊢; exact ⟨rfl, hn⟩
        · rw [hb] at hj; cases hj
      obtain ⟨hblk, hnone⟩ := hblk
      obtain ⟨g1, g2⟩ := h1.fetching i b hb
      have hset : (s.jobs.set i .done)[i]? = some .done := by
        rw [List.getElem?_set, if_pos rfl, if_pos (List.getElem?_eq_some_iff.mp hb).1]
      have hin : Ev.answer i r ∈ es ++ [Ev.answer i r] := by simp
      split at hs
      · cases hs
        refine ⟨ht, by simpa using h2, ?_, hothers _ i b hblk (fun _ _ => ⟨rfl, rfl⟩)⟩
        intro k c hk
        by_cases hki : k = i
        · subst hki
          rw [hblk] at hk
          cases hk
          refine .inr (.inr ⟨hset, none, fun _ => hin, ?_⟩)
          unfold Filed
          rw [hnone]
          exact ⟨g1, g2⟩
        · exact hother s.folders i _ b hblk (fun _ _ => ⟨rfl, rfl⟩) k c hk hki
      · rename_i d
        split at hs
        · rename_i hj
          simp only [Ev.within, hj] at he
          cases he
        · rename_i hj
          cases hs
          have hfo : ∀ x, x ≠ fileName b → (finish s.folders b (E.judge d) (E.print d)).succeeded x = s.folders.succeeded x ∧
              (finish s.folders b (E.judge d) (E.print d)).failed x = s.folders.failed x :=
            fun x hx => finish_other _ _ _ _ hx
          refine ⟨ht, by simpa using h2, ?_, hothers _ i b hblk hfo⟩
          intro k c hk
          by_cases hki : k = i
          · subst hki
            rw [hblk] at hk
            cases hk
            refine .inr (.inr ⟨hset, some d, fun _ => hin, ?_⟩)
            unfold Filed
            rw [hnone]
            simp only
            cases hv : E.judge d with
            | accepted => exact ⟨put_same _ _ _, g2⟩
            | refused => exact ⟨g1, put_same _ _ _⟩
            | panics => exact absurd hv hj
          · exact hother _ i _ b hblk hfo k c hk hki
    · cases hs

/-- **C83.** A run that is neither killed nor meets a document on which parsing panics, once all its checks are done:
a block that had succeeded is as before; any other listed block was asked for, and it is filed as succeeded or as
failed with exactly the document retrieved, or in neither folder if it could not be retrieved.  Blocks that are not
listed are as before.  Missing: runs stopped by a panic. -/
theorem C83_run_partial (es es' : List (Ev D)) (he : ∀ e ∈ es, e.distinct) (s s' : St D) (blocks : List BlockInfo)
    (hnd : blocks.Nodup) (h : run E init es = some s) (h' : run E s (.launch blocks :: es') = some s')
    (hw : ∀ e ∈ es', e.within E = true) (hdone : ∀ j ∈ s'.jobs, j = .done) :
    (∀ (i : Nat) b, blocks[i]? = some b → ∃ r, (s.folders.succeeded (fileName b) = none → Ev.answer i r ∈ es') ∧
      Filed E s.folders s'.folders b r) ∧
    ∀ b, b ∉ blocks → s'.folders.succeeded (fileName b) = s.folders.succeeded (fileName b) ∧
      s'.folders.failed (fileName b) = s.folders.failed (fileName b) := by
  have ht := tidy_run tidy_init es he h
  rw [run] at h'
  split at h'
  · cases h'
  rename_i t htt
  have ht' := tidy_step ht (.launch blocks) hnd htt
  have hstart : t = { s with jobs := blocks.map .pending } := by
    simp only [step] at htt
    split at htt
    · cases htt; rfl
    · cases htt
  have h0 : Running E s.folders blocks [] t := by
    refine ⟨ht', by rw [hstart]; simp, fun i b hb => .inl ⟨?_, by rw [hstart]⟩, fun x _ => by rw [hstart]; exact ⟨rfl, rfl⟩⟩
    rw [hstart]
    simp only [List.getElem?_map, hb, Option.map_some]
  have hrun : ∀ (es0 es1 : List (Ev D)) (t : St D), Running E s.folders blocks es0 t → (∀ e ∈ es1, e.within E = true) →
      run E t es1 = some s' → Running E s.folders blocks (es0 ++ es1) s' := by
    intro es0 es1
    induction es1 generalizing es0 with
    | nil => intro t h0 _ hr; cases hr; simpa using h0
    | cons e es1 ih =>
      intro t h0 hw hr
      rw [run] at hr
      split at hr
      · cases hr
      rename_i u hu
      have := ih (es0 ++ [e]) u (running_step hnd h0 e (hw e List.mem_cons_self) hu)
        (fun e hm => hw e (List.mem_cons_of_mem _ hm)) hr
      simpa using this
  obtain ⟨-, -, r3, r4⟩ := hrun [] es' t h0 hw h'
  refine ⟨fun i b hb => ?_, fun b hb => r4 _ (fun c hc e => hb (C83_names _ _ e ▸ hc))⟩
  rcases r3 i b hb with ⟨hj, -⟩ | ⟨hj, -⟩ | ⟨-, r, hr, hf⟩
  · have := hdone _ (List.mem_of_getElem? hj); cases this
  · have := hdone _ (List.mem_of_getElem? hj); cases this
  · exact ⟨r, by simpa using hr, hf⟩

/-! ## Examples and counterexamples -/

/-- Documents are numbers: even ones are blocks, odd ones are not, and parsing 0 panics. -/
def exEnv : Env Nat := ⟨fun d => if d = 0 then .panics else if d % 2 = 0 then .accepted else .refused, fun d => [1, 2, UInt8.ofNat d]⟩

def exA : BlockInfo := ⟨7, "3Na".toList⟩
def exB : BlockInfo := ⟨8, "3Nb".toList⟩
def exC : BlockInfo := ⟨9, "3Nc".toList⟩

/-- The folders of some blocks. -/
def look (s : Option (St Nat)) (bs : List BlockInfo) : Option (List (Option Bytes × Option Bytes)) :=
  s.map fun s => bs.map fun b => (s.folders.succeeded (fileName b), s.folders.failed (fileName b))

/-- Two runs that meet the hypotheses: a failed block succeeds the second time. -/
example : look (run exEnv init [.launch [exA, exB, exC], .start 1, .start 0, .answer 0 (some 4), .start 2, .answer 2 none,
      .answer 1 (some 5)]) [exA, exB, exC] = some [(some [1, 2, 4], none), (none, some [1, 2, 5]), (none, none)] ∧
    look (run exEnv init [.launch [exA, exB, exC], .start 1, .start 0, .answer 0 (some 4), .start 2, .answer 2 none,
      .answer 1 (some 5), .launch [exB, exA], .start 0, .start 1, .answer 0 (some 6)]) [exA, exB, exC] =
      some [(some [1, 2, 4], none), (some [1, 2, 6], none), (none, none)] := by decide +kernel

/-- **C83 fails** when the process is killed while writing, for every block not yet filed as succeeded and every document
that is one: any beginning of the document is filed as succeeded, and the next run does not check the block again. -/
theorem C83_killed_fails (s : St D) (hidle : ∀ j ∈ s.jobs, j = .done) (b : BlockInfo)
    (hb : s.folders.succeeded (fileName b) = none) (d : D) (hd : E.judge d = .accepted) (k : Nat) (hk : k < (E.print d).length) :
    ∃ s', run E s [.launch [b], .start 0, .killWriting 0 d k, .launch [b], .start 0] = some s' ∧
      s'.folders.succeeded (fileName b) = some ((E.print d).take k) ∧ (E.print d).take k ≠ E.print d ∧ s'.jobs = [.done] := by
  have hall : (s.jobs.all fun j => j == .done) = true := by
    rw [List.all_eq_true]; intro j hj; rw [hidle j hj]; rfl
  refine ⟨_, by simp [run, step, hall, begin, hb, finish, hd, put]; rfl, by simp [put], ?_, rfl⟩
  intro e
  have := congrArg List.length e
  rw [List.length_take] at this
  omega

/-- **C83 fails** for a list that names a block twice, for every block not yet filed as succeeded, if its document is a
block one time and not the next: it is filed both ways. -/
theorem C83_repeated_fails (s : St D) (hidle : ∀ j ∈ s.jobs, j = .done) (b : BlockInfo)
    (hb : s.folders.succeeded (fileName b) = none) (d d' : D) (hd : E.judge d = .accepted) (hd' : E.judge d' = .refused) :
    ∃ s', run E s [.launch [b, b], .start 0, .start 1, .answer 0 (some d), .answer 1 (some d')] = some s' ∧
      s'.folders.succeeded (fileName b) = some (E.print d) ∧ s'.folders.failed (fileName b) = some (E.print d') := by
  have hall : (s.jobs.all fun j => j == .done) = true := by
    rw [List.all_eq_true]; intro j hj; rw [hidle j hj]; rfl
  exact ⟨_, by simp [run, step, hall, begin, hb, finish, hd, hd']; rfl, by simp [put], by simp [put]⟩

/-- **C83 fails** for a document on which parsing panics, whatever else is under way: the run ends, and nothing more is
asked for until the next run. -/
theorem C83_panic_fails (s : St D) (i : Nat) (b : BlockInfo) (hj : s.jobs[i]? = some (.fetching b)) (d : D)
    (hd : E.judge d = .panics) : ∃ s', step E s (.answer i (some d)) = some s' ∧ s'.jobs = [] ∧ s'.folders = s.folders ∧
      ∀ i r, step E s' (.start i) = none ∧ step E s' (.answer i r) = none := by
  refine ⟨{ s with jobs := [], got := s.got ++ [(fileName b, d)] }, by simp [step, hj, hd], rfl, rfl, fun i r => ⟨?_, ?_⟩⟩
  · simp [step]
  · simp [step]

/-- Such runs: the block is cut short; the block is filed both ways; the second block is never asked for. -/
example : look (run exEnv init [.launch [exA], .start 0, .killWriting 0 4 1, .launch [exA], .start 0]) [exA] =
      some [(some [1], none)] ∧
    look (run exEnv init [.launch [exA, exA], .start 0, .start 1, .answer 0 (some 4), .answer 1 (some 5)]) [exA] =
      some [(some [1, 2, 4], some [1, 2, 5])] ∧
    (run exEnv init [.launch [exA, exB], .start 0]).map (·.jobs) = some [.fetching exA, .pending exB] ∧ exEnv.judge 0 = .panics := by
  decide +kernel

end MinaRs.Crawler
