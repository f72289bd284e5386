import Verif.Log.Model

/-!
# The log of a page: properties

C99: the log text a page reads holds, in order and once each, the records made since the log was cleared.
-/
namespace MinaRs.Log

namespace Spec

/-- The name of a level. -/
def name : Level → String
  | .error => "ERROR"
  | .warn => "WARN"
  | .info => "INFO"
  | .debug => "DEBUG"
  | .trace => "TRACE"

/-- How a record looks in the log: `[LEVEL][target]: message`. -/
def line (r : Record) : Text :=
  "[".toList ++ (name r.level).toList ++ "][".toList ++ r.target ++ "]: ".toList ++ r.message

/-- The `i`-th call of the history made the record `r`, at a level the page wants, after the log was set up. -/
def Logged (h : List Ev) (i : Nat) (r : Record) : Prop :=
  h[i]? = some (.record r) ∧ r.level ≠ .trace ∧ ∃ j, j < i ∧ h[j]? = some .init

/-- ... and the log was not cleared since. -/
def Kept (h : List Ev) (i : Nat) (r : Record) : Prop :=
  Logged h i r ∧ ∀ j, i < j → h[j]? ≠ some .clear

/-- `recs` are the records, with the number of their call, of which `P` holds, in the order of the calls. -/
def InOrder (P : Nat → Record → Prop) (recs : List (Nat × Record)) : Prop :=
  recs.Pairwise (fun a b => a.1 < b.1) ∧ ∀ i r, (i, r) ∈ recs ↔ P i r

/-- A text without line breaks. -/
def OneLine (t : Text) : Prop := '\n' ∉ t

/-- The lines of a text. -/
def lines : Text → List Text
  | [] => [[]]
  | c :: t =>
    if c = '\n' then [] :: lines t
    else
      match lines t with
      | [] => [[c]]
      | l :: ls => (c :: l) :: ls

end Spec

open Spec

theorem recordToString_eq (r : Record) : recordToString r = line r := by
  cases h : r.level <;> simp [recordToString, line, name, Level.text, h]

/-- What is known after every history. -/
structure Inv (h : List Ev) (s : St) (ks ls : List (Nat × Record)) : Prop where
  filter : s.filter = if Ev.init ∈ h then some Level.debug else none
  logger : s.logger = if Ev.init ∈ h then some jsLogger else none
  kept : InOrder (Kept h) ks
  text : s.logText = ks.flatMap fun x => '\n' :: line x.2
  logged : InOrder (Logged h) ls
  console : s.console = ls.map fun x => line x.2

theorem mem_init_iff (h : List Ev) : Ev.init ∈ h ↔ ∃ j, j < h.length ∧ h[j]? = some Ev.init := by
  rw [List.mem_iff_getElem?]
  constructor
  · rintro ⟨j, hj⟩; exact ⟨j, (List.getElem?_eq_some_iff.mp hj).1, hj⟩
  · rintro ⟨j, _, hj⟩; exact ⟨j, hj⟩

theorem getElem?_snoc (h : List Ev) (e : Ev) (i : Nat) :
    (h ++ [e])[i]? = if i < h.length then h[i]? else if i = h.length then some e else none := by
  rw [List.getElem?_append]
  split
  · rfl
  · rename_i hi
    split
    · rename_i hi'; subst hi'; simp
    · rw [List.getElem?_eq_none]; simp; omega

theorem logged_snoc (h : List Ev) (e : Ev) (i : Nat) (r : Record) :
    Logged (h ++ [e]) i r ↔ Logged h i r ∨ (i = h.length ∧ e = .record r ∧ r.level ≠ .trace ∧ Ev.init ∈ h) := by
  unfold Logged
  rw [getElem?_snoc, mem_init_iff]
  constructor
  · rintro ⟨h1, h2, j, hj, h3⟩
    split at h1
    · rename_i hi
      rw [getElem?_snoc, if_pos (by omega)] at h3
      exact .inl ⟨h1, h2, j, hj, h3⟩
    · split at h1
      · rename_i hi
        subst hi
        rw [getElem?_snoc, if_pos hj] at h3
        exact .inr ⟨rfl, Option.some.inj h1, h2, j, hj, h3⟩
      · cases h1
  · rintro (⟨h1, h2, j, hj, h3⟩ | ⟨rfl, rfl, h2, j, hj, h3⟩)
    · have hi := (List.getElem?_eq_some_iff.mp h1).1
      rw [if_pos hi]
      exact ⟨h1, h2, j, hj, by rw [getElem?_snoc, if_pos (by omega)]; exact h3⟩
    · rw [if_neg (Nat.lt_irrefl _), if_pos rfl]
      exact ⟨rfl, h2, j, hj, by rw [getElem?_snoc, if_pos hj]; exact h3⟩

theorem kept_snoc (h : List Ev) (e : Ev) (i : Nat) (r : Record) :
    Kept (h ++ [e]) i r ↔
      (Kept h i r ∧ e ≠ .clear) ∨ (i = h.length ∧ e = .record r ∧ r.level ≠ .trace ∧ Ev.init ∈ h) := by
  unfold Kept
  rw [logged_snoc]
  constructor
  · rintro ⟨h1 | h1, h2⟩
    · left
      have hi := (List.getElem?_eq_some_iff.mp h1.1).1
      refine ⟨⟨h1, fun j hj hc => ?_⟩, fun he => ?_⟩
      · have hj' := (List.getElem?_eq_some_iff.mp hc).1
        exact h2 j hj (by rw [getElem?_snoc, if_pos hj']; exact hc)
      · exact h2 h.length hi (by rw [getElem?_snoc, if_neg (Nat.lt_irrefl _), if_pos rfl, he])
    · exact .inr h1
  · rintro (⟨⟨h1, h2⟩, he⟩ | h1)
    · refine ⟨.inl h1, fun j hj hc => ?_⟩
      rw [getElem?_snoc] at hc
      split at hc
      · exact h2 j hj hc
      · split at hc
        · exact he (Option.some.inj hc)
        · cases hc
    · refine ⟨.inr h1, fun j hj hc => ?_⟩
      rw [getElem?_snoc, if_neg (by omega), if_neg (by omega)] at hc
      cases hc

theorem inOrder_snoc {P Q : Nat → Record → Prop} {recs : List (Nat × Record)} {n : Nat} {r : Record} (hP : InOrder P recs)
    (hlt : ∀ i r, P i r → i < n) (hQ : ∀ i r', Q i r' ↔ P i r' ∨ (i = n ∧ r' = r)) : InOrder Q (recs ++ [(n, r)]) := by
  refine ⟨?_, fun i r' => ?_⟩
  · rw [List.pairwise_append]
    refine ⟨hP.1, by simp, fun a ha b hb => ?_⟩
    rw [List.mem_singleton] at hb; subst hb
    exact hlt a.1 a.2 ((hP.2 a.1 a.2).mp ha)
  · rw [List.mem_append, hP.2, hQ, List.mem_singleton, Prod.mk.injEq]

theorem inOrder_congr {P Q : Nat → Record → Prop} {recs : List (Nat × Record)} (hP : InOrder P recs)
    (hQ : ∀ i r, Q i r ↔ P i r) : InOrder Q recs := ⟨hP.1, fun i r => by rw [hP.2, hQ]⟩

theorem inv_step {h : List Ev} {s : St} {kept logged : List (Nat × Record)} (hi : Inv h s kept logged) (e : Ev) :
    ∃ kept' logged', Inv (h ++ [e]) (step s e) kept' logged' := by
  have hlt : ∀ i r, Logged h i r → i < h.length := fun i r hl => (List.getElem?_eq_some_iff.mp hl.1).1
  -- a call that adds no record
  have same : ∀ s' : St, s'.logText = s.logText → s'.console = s.console → e ≠ .clear →
      s'.filter = (if Ev.init ∈ h ++ [e] then some Level.debug else none) →
      s'.logger = (if Ev.init ∈ h ++ [e] then some jsLogger else none) →
      (∀ r, e = .record r → ¬ (r.level ≠ .trace ∧ Ev.init ∈ h)) → ∃ kept' logged', Inv (h ++ [e]) s' kept' logged' := by
    intro s' ht hc he hf hl hr
    refine ⟨kept, logged, ⟨hf, hl, inOrder_congr hi.kept fun i r => ?_, ht ▸ hi.text,
      inOrder_congr hi.logged fun i r => ?_, hc ▸ hi.console⟩⟩
    · rw [kept_snoc]
      constructor
      · rintro (⟨h1, _⟩ | ⟨_, h1, h2⟩)
        · exact h1
        · exact absurd h2 (hr r h1)
      · exact fun h1 => .inl ⟨h1, he⟩
    · rw [logged_snoc]
      constructor
      · rintro (h1 | ⟨_, h1, h2⟩)
        · exact h1
        · exact absurd h2 (hr r h1)
      · exact fun h1 => .inl h1
  cases e with
  | init =>
    apply same _ _ _ (by simp) _ _ (by simp)
    · unfold step initLogger; dsimp only; split <;> rfl
    · unfold step initLogger; dsimp only; split <;> rfl
    · rw [if_pos (by simp)]; unfold step initLogger; dsimp only; split <;> rfl
    · rw [if_pos (by simp)]
      unfold step initLogger; dsimp only
      split
      · rfl
      · rename_i l hl
        rw [hi.logger] at hl
        split at hl
        · show s.logger = _; rw [hi.logger, if_pos (by assumption)]
        · cases hl
  | clear =>
    have hm : (Ev.init ∈ h ++ [Ev.clear]) ↔ Ev.init ∈ h := by simp
    refine ⟨[], logged, ⟨?_, ?_, ⟨.nil, fun i r => ?_⟩, rfl, inOrder_congr hi.logged fun i r => ?_, hi.console⟩⟩
    · show s.filter = _; simp only [hm]; exact hi.filter
    · show s.logger = _; simp only [hm]; exact hi.logger
    · rw [kept_snoc]; simp
    · rw [logged_snoc]; simp
  | record r =>
    have hm : (Ev.init ∈ h ++ [Ev.record r]) ↔ Ev.init ∈ h := by simp
    by_cases hin : Ev.init ∈ h
    · have hf : s.filter = some .debug := by rw [hi.filter, if_pos hin]
      have hl : s.logger = some jsLogger := by rw [hi.logger, if_pos hin]
      by_cases ht : r.level = .trace
      · apply same _ _ _ (by simp) _ _ (by rintro r' ⟨⟩; simp [ht])
        all_goals simp [step, record, hf, hl, ht, Level.toNat, hin]
      · have hle : r.level.toNat ≤ 4 := by cases hv : r.level <;> simp_all [Level.toNat]
        have hs : step s (.record r) =
            { s with console := s.console ++ [line r], logText := s.logText ++ '\n' :: line r } := by
          have hd : Level.debug.toNat = 4 := rfl
          have hj : jsLogger.maxLevel = .debug := rfl
          simp [step, record, hf, hl, Logger.log, Logger.enabled, hj, hd, hle, appendLogRecord, recordToString_eq]
        refine ⟨kept ++ [(h.length, r)], logged ++ [(h.length, r)], ?_⟩
        rw [hs]
        refine ⟨?_, ?_, inOrder_snoc hi.kept (fun i r hk => hlt i r hk.1) fun i r' => ?_, ?_,
          inOrder_snoc hi.logged hlt fun i r' => ?_, ?_⟩
        · show s.filter = _; simp only [hm]; exact hi.filter
        · show s.logger = _; simp only [hm]; exact hi.logger
        · rw [kept_snoc]
          constructor
          · rintro (⟨h1, _⟩ | ⟨h1, h2, _⟩)
            · exact .inl h1
            · injection h2 with h2; exact .inr ⟨h1, h2.symm⟩
          · rintro (h1 | ⟨h1, h2⟩)
            · exact .inl ⟨h1, by simp⟩
            · subst h2; exact .inr ⟨h1, rfl, ht, hin⟩
        · show s.logText ++ _ = _
          rw [hi.text, List.flatMap_append]; simp
        · rw [logged_snoc]
          constructor
          · rintro (h1 | ⟨h1, h2, _⟩)
            · exact .inl h1
            · injection h2 with h2; exact .inr ⟨h1, h2.symm⟩
          · rintro (h1 | ⟨h1, h2⟩)
            · exact .inl h1
            · subst h2; exact .inr ⟨h1, rfl, ht, hin⟩
        · show s.console ++ _ = _
          rw [hi.console, List.map_append]; rfl
    · have hf : s.filter = none := by rw [hi.filter, if_neg hin]
      have hl : s.logger = none := by rw [hi.logger, if_neg hin]
      apply same _ _ _ (by simp) _ _ (by rintro r' _ ⟨_, h'⟩; exact hin h')
      all_goals simp [step, record, hf, hl, hin]

theorem inv_run (h : List Ev) : ∃ kept logged, Inv h (run h) kept logged := by
  have key : ∀ (h pre : List Ev) (s : St) (kept logged : List (Nat × Record)), Inv pre s kept logged →
      ∃ kept' logged', Inv (pre ++ h) (h.foldl step s) kept' logged' := by
    intro h
    induction h with
    | nil => intro pre s kept logged hi; exact ⟨kept, logged, by rw [List.append_nil]; exact hi⟩
    | cons e h ih =>
      intro pre s kept logged hi
      obtain ⟨kept', logged', hi'⟩ := inv_step hi e
      have := ih (pre ++ [e]) _ _ _ hi'
      rwa [List.append_assoc] at this
  have h0 : Inv [] St.init [] [] :=
    ⟨rfl, rfl, ⟨.nil, fun i r => by simp [Kept, Logged]⟩, rfl, ⟨.nil, fun i r => by simp [Logged]⟩, rfl⟩
  have := key h [] _ _ _ h0
  rwa [List.nil_append] at this

/-- **C99.** After any history of calls the log text is made of exactly the records that were made after the log was set
up and after it was last cleared, at any level but `trace`, each on a line of its own, in order and once each. -/
theorem C99_text (h : List Ev) :
    ∃ recs, InOrder (Kept h) recs ∧ getLogText (run h) = recs.flatMap fun x => '\n' :: line x.2 := by
  obtain ⟨kept, _, hi⟩ := inv_run h
  exact ⟨kept, hi.kept, hi.text⟩

/-- A history with a record before the log is set up, one that is cleared, one at level `trace`, and two that stay. -/
def exRec (l : Level) (m : String) : Record := ⟨l, "mvp".toList, m.toList⟩

def exHistory : List Ev :=
  [.record (exRec .error "lost"), .init, .record (exRec .info "old"), .clear, .record (exRec .warn "a"), .init,
    .record (exRec .trace "quiet"), .record (exRec .debug "b")]

example : String.ofList (getLogText (run exHistory)) = "\n[WARN][mvp]: a\n[DEBUG][mvp]: b" := by decide +kernel

example : Kept exHistory 4 (exRec .warn "a") ∧ ¬ Kept exHistory 2 (exRec .info "old") := by
  refine ⟨⟨⟨rfl, by decide, 1, by decide, rfl⟩, fun j hj hc => ?_⟩, fun h => h.2 3 (by decide) rfl⟩
  have : j < 8 := (List.getElem?_eq_some_iff.mp hc).1
  have : j = 5 ∨ j = 6 ∨ j = 7 := by omega
  rcases this with rfl | rfl | rfl <;> cases hc

/-- **C99.** The console gets the same records, whether or not the log is cleared. -/
theorem C99_console (h : List Ev) :
    ∃ recs, InOrder (Logged h) recs ∧ (run h).console = recs.map fun x => line x.2 := by
  obtain ⟨_, logged, hi⟩ := inv_run h
  exact ⟨logged, hi.logged, hi.console⟩

/-- **C99.** Setting the log up succeeds the first time and is refused, without effect on the log, every other time. -/
theorem C99_init (h : List Ev) :
    ((initLogger (run h)).1 = true ↔ Ev.init ∉ h) ∧
    getLogText (initLogger (run h)).2 = getLogText (run h) ∧
    (Ev.init ∈ h → (initLogger (run h)).2 = run h) := by
  obtain ⟨kept, logged, hi⟩ := inv_run h
  have hl := hi.logger
  have hf := hi.filter
  by_cases hin : Ev.init ∈ h
  · rw [if_pos hin] at hl hf
    unfold initLogger getLogText
    dsimp only
    rw [hl]
    refine ⟨by simp [hin], rfl, fun _ => ?_⟩
    show St.mk (some jsLogger.maxLevel) (some jsLogger) (run h).logText (run h).console = run h
    rw [← hl, show some jsLogger.maxLevel = (run h).filter from hf.symm]
  · rw [if_neg hin] at hl
    unfold initLogger getLogText
    dsimp only
    rw [hl]
    exact ⟨by simp [hin], rfl, fun h' => absurd h' hin⟩

example : Ev.init ∈ exHistory := by decide

theorem lines_append_oneLine (t rest : Text) (ht : OneLine t) (l : Text) (ls : List Text) (hr : lines rest = l :: ls) :
    lines (t ++ rest) = (t ++ l) :: ls := by
  induction t with
  | nil => exact hr
  | cons c t ih =>
    have hc : c ≠ '\n' := fun h => ht (by rw [h]; exact List.mem_cons_self)
    have := ih (fun h => ht (List.mem_cons_of_mem _ h))
    rw [List.cons_append, lines, if_neg hc, this]
    rfl

theorem lines_records (recs : List (Nat × Record)) (h : ∀ x ∈ recs, OneLine (line x.2)) :
    lines (recs.flatMap fun x => '\n' :: line x.2) = [] :: recs.map fun x => line x.2 := by
  have key : ∀ recs : List (Nat × Record), (∀ x ∈ recs, OneLine (line x.2)) →
      lines (recs.flatMap fun x => '\n' :: line x.2) = [] :: recs.map fun x => line x.2 := by
    intro recs
    induction recs with
    | nil => intro _; rfl
    | cons x recs ih =>
      intro h
      rw [List.flatMap_cons, List.cons_append, lines, if_pos rfl]
      rw [lines_append_oneLine _ _ (h x List.mem_cons_self) [] _ (ih fun y hy => h y (List.mem_cons_of_mem _ hy)),
        List.append_nil, List.map_cons]
  exact key recs h

theorem oneLine_line {r : Record} (ht : OneLine r.target) (hm : OneLine r.message) : OneLine (line r) := by
  unfold OneLine line at *
  cases r.level <;> simp_all [name]

/-- **C99.** So if no record spans several lines, the lines of the log text, after the first, which is empty, are the
records.  Missing: records with a line break in their message, see below. -/
theorem C99_lines_partial (h : List Ev) (hone : ∀ r, Ev.record r ∈ h → OneLine r.target ∧ OneLine r.message) :
    ∃ recs, InOrder (Kept h) recs ∧ lines (getLogText (run h)) = [] :: recs.map fun x => line x.2 := by
  obtain ⟨recs, h1, h2⟩ := C99_text h
  refine ⟨recs, h1, ?_⟩
  rw [h2]
  refine lines_records recs fun x hx => ?_
  have := hone x.2 (List.mem_of_getElem? ((h1.2 x.1 x.2).mp hx).1.1)
  exact oneLine_line this.1 this.2

example : ∀ r, Ev.record r ∈ exHistory → OneLine r.target ∧ OneLine r.message := by
  intro r hr
  simp only [exHistory, List.mem_cons, List.not_mem_nil, or_false, Ev.record.injEq, reduceCtorEq, false_or] at hr
  rcases hr with rfl | rfl | rfl | rfl | rfl <;> exact ⟨by unfold OneLine; decide, by unfold OneLine; decide⟩

theorem split_unique {c : Char} : ∀ {a a' b b' : Text}, c ∉ a → c ∉ a' → a ++ c :: b = a' ++ c :: b' → a = a' ∧ b = b'
  | [], [], _, _, _, _, h => ⟨rfl, by injection h⟩
  | [], x :: _, _, _, _, h', h => absurd (by injection h with h1 _; rw [h1]; exact List.mem_cons_self) h'
  | x :: _, [], _, _, h', _, h => absurd (by injection h with h1 _; rw [← h1]; exact List.mem_cons_self) h'
  | x :: a, y :: a', _, _, h1, h2, h => by
    injection h with hx ht
    have := split_unique (fun hh => h1 (List.mem_cons_of_mem _ hh)) (fun hh => h2 (List.mem_cons_of_mem _ hh)) ht
    exact ⟨by rw [hx, this.1], this.2⟩

/-- **C99.** A line says which record it is, if targets are module paths (no bracket in them). -/
theorem C99_line_unique_partial (r r' : Record) (ht : ']' ∉ r.target) (ht' : ']' ∉ r'.target) (h : line r = line r') :
    r = r' := by
  have hn : ∀ l, ']' ∉ (name l).toList := by intro l; cases l <;> decide
  have e : ∀ r : Record, line r = '[' :: ((name r.level).toList ++ ']' :: ('[' :: (r.target ++ ']' :: (':' :: ' ' :: r.message)))) := by
    intro r; simp [line]
  rw [e, e] at h
  injection h with _ h
  obtain ⟨h1, h2⟩ := split_unique (hn _) (hn _) h
  injection h2 with _ h2
  obtain ⟨h3, h4⟩ := split_unique ht ht' h2
  injection h4 with _ h4
  injection h4 with _ h4
  have h5 : r.level = r'.level := by
    revert h1
    cases r.level <;> cases r'.level <;> decide
  cases r; cases r'
  simp_all

example : ']' ∉ (exRec .warn "a]: b").target := by decide

theorem started (h : List Ev) (hi : Ev.init ∈ h) : (run h).filter = some .debug ∧ (run h).logger = some jsLogger := by
  obtain ⟨_, _, inv⟩ := inv_run h
  exact ⟨by rw [inv.filter, if_pos hi], by rw [inv.logger, if_pos hi]⟩

/-- **C99** fails for messages with a line break: after any history in which logging was set up, a record whose message goes on
with a line break and the line of another record gives the same log text as the two records one after the other. -/
theorem C99_line_break_fails (h : List Ev) (hi : Ev.init ∈ h) (r r' : Record) (hr : r.level ≠ .trace) (hr' : r'.level ≠ .trace) :
    getLogText (run (h ++ [.record { r with message := r.message ++ '\n' :: line r' }])) =
      getLogText (run (h ++ [.record r, .record r'])) := by
  obtain ⟨h1, h2⟩ := started h hi
  have hd : ∀ l : Level, l ≠ .trace → l.toNat ≤ Level.debug.toNat := by intro l; cases l <;> decide
  have one : ∀ (s : St) (q : Record), s.filter = some .debug → s.logger = some jsLogger → q.level ≠ .trace →
      record q s = { s with console := s.console ++ [line q], logText := s.logText ++ '\n' :: line q } := by
    intro s q e1 e2 hq
    have hen : Logger.enabled jsLogger q = true := decide_eq_true (hd _ hq)
    unfold record Logger.log
    rw [e1, e2]
    simp only [hen, if_true]
    rw [if_pos (hd _ hq), recordToString_eq]
    rfl
  simp only [run, List.foldl_append, List.foldl_cons, List.foldl_nil, step]
  show getLogText (record _ (run h)) = getLogText (record _ (record _ (run h)))
  rw [one (run h) r h1 h2 hr, one (run h) { r with message := r.message ++ '\n' :: line r' } h1 h2 hr]
  rw [one ⟨(run h).filter, (run h).logger, (run h).logText ++ '\n' :: line r, (run h).console ++ [line r]⟩ r' h1 h2 hr']
  simp [getLogText, line]

example : getLogText (run [.init, .record (exRec .info "a\n[ERROR][mvp]: b")]) =
    getLogText (run [.init, .record (exRec .info "a"), .record (exRec .error "b")]) := by decide +kernel

end MinaRs.Log
