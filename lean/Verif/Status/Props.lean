import Verif.Status.Spec

/-! # C96: node status lines -/

namespace MinaRs.Status

open Spec

/-! ## Lemmas -/

theorem splitLine_some {buf l r : Bytes} (h : splitLine buf = some (l, r)) (x : Bytes) :
    lines (buf ++ x) = l :: lines (r ++ x) ∧ Ended l ∧ l ≠ [] := by
  induction buf generalizing l with
  | nil => cases h
  | cons b bs ih =>
    unfold splitLine at h
    split at h
    · rename_i hb
      cases h
      subst hb
      exact ⟨by rw [List.cons_append, lines, if_pos rfl], rfl, by simp⟩
    · rename_i hb
      split at h
      · rename_i l' r' hs
        cases h
        obtain ⟨h1, h2, h3⟩ := ih hs
        refine ⟨?_, ?_, by simp⟩
        · rw [List.cons_append, lines, if_neg hb, h1]
        · unfold Ended at h2 ⊢
          cases l' with
          | nil => exact absurd rfl h3
          | cons a l' => rw [List.getLast?_cons_cons]; exact h2
      · cases h

theorem splitLine_none {buf : Bytes} (h : splitLine buf = none) :
    lines buf = (if buf = [] then [] else [buf]) ∧ ¬ Ended buf := by
  induction buf with
  | nil => exact ⟨rfl, by simp [Ended]⟩
  | cons b bs ih =>
    unfold splitLine at h
    split at h
    · cases h
    · rename_i hb
      split at h
      · cases h
      · rename_i hs
        obtain ⟨h1, h2⟩ := ih hs
        constructor
        · rw [lines, if_neg hb, h1]
          by_cases he : bs = []
          · subst he; rfl
          · rw [if_neg he, if_neg (List.cons_ne_nil _ _)]
        · unfold Ended at h2 ⊢
          cases bs with
          | nil => simp [hb]
          | cons a bs => rw [List.getLast?_cons_cons]; exact h2

/-- What a stream delivers after some bytes that have been received. -/
def deliveredFrom (buf : Bytes) (evs : List Ev) : List Bytes :=
  if Broken evs then (lines (buf ++ received evs)).filter (fun l => decide (Ended l)) else lines (buf ++ received evs)

theorem deliveredFrom_line {buf l r : Bytes} (evs : List Ev) (h : splitLine buf = some (l, r)) :
    deliveredFrom buf evs = l :: deliveredFrom r evs := by
  obtain ⟨h1, h2, -⟩ := splitLine_some h (received evs)
  unfold deliveredFrom
  rw [h1]
  split
  · rw [List.filter_cons_of_pos (by simpa using h2)]
  · rfl

/-- One call of `read_line`: a failure, the end of the stream, or the next line. -/
theorem readLine_spec : (evs : List Ev) → (buf : Bytes) →
    (readLine buf evs = none ∧ Broken evs ∧ deliveredFrom buf evs = []) ∨
    (readLine buf evs = some ([], [], []) ∧ ¬ Broken evs ∧ deliveredFrom buf evs = []) ∨
    (∃ l buf' evs', readLine buf evs = some (l, buf', evs') ∧ (Broken evs ↔ Broken evs') ∧
      deliveredFrom buf evs = l :: deliveredFrom buf' evs')
  | [], buf => by
    unfold readLine
    cases hs : splitLine buf with
    | some p =>
      obtain ⟨l, r⟩ := p
      exact .inr (.inr ⟨l, r, [], rfl, Iff.rfl, deliveredFrom_line [] hs⟩)
    | none =>
      obtain ⟨h1, -⟩ := splitLine_none hs
      have hd : deliveredFrom buf [] = lines buf := by
        unfold deliveredFrom
        rw [if_neg (by simp [Broken]), received, List.append_nil]
      by_cases hb : buf = []
      · subst hb
        exact .inr (.inl ⟨rfl, by simp [Broken], by rw [hd]; rfl⟩)
      · refine .inr (.inr ⟨buf, [], [], rfl, Iff.rfl, ?_⟩)
        rw [hd, h1, if_neg hb]
        rfl
  | .error :: evs, buf => by
    unfold readLine
    cases hs : splitLine buf with
    | some p =>
      obtain ⟨l, r⟩ := p
      exact .inr (.inr ⟨l, r, _, rfl, Iff.rfl, deliveredFrom_line _ hs⟩)
    | none =>
      obtain ⟨h1, h2⟩ := splitLine_none hs
      refine .inl ⟨rfl, by simp [Broken], ?_⟩
      unfold deliveredFrom
      rw [if_pos (by simp [Broken]), received, List.append_nil, h1]
      split
      · rfl
      · rw [List.filter_cons_of_neg (by simpa using h2)]; rfl
  | .data b bs :: evs, buf => by
    unfold readLine
    cases hs : splitLine buf with
    | some p =>
      obtain ⟨l, r⟩ := p
      exact .inr (.inr ⟨l, r, _, rfl, Iff.rfl, deliveredFrom_line _ hs⟩)
    | none =>
      have hb : Broken (.data b bs :: evs) ↔ Broken evs := by simp [Broken]
      have hd : deliveredFrom buf (.data b bs :: evs) = deliveredFrom (buf ++ b :: bs) evs := by
        unfold deliveredFrom
        rw [received, List.append_assoc]
        simp only [hb]
      rw [hd, hb]
      exact readLine_spec evs (buf ++ b :: bs)

theorem isText_nil : String.fromUTF8? ⟨([] : Bytes).toArray⟩ = some "" := by decide +kernel

variable {St : Type}

/-- What line number `i` makes the codec report to a listener. -/
def Spec.report (meaning : List Char → Option St) (listening : Nat → Bool) (p : Bytes × Nat) : Option St :=
  if listening p.2 then (String.fromUTF8? ⟨p.1.toArray⟩).bind (lineStatus meaning) else none

theorem run_spec (meaning : List Char → Option St) (listening : Nat → Bool) (n : Nat) : ∀ (i : Nat) (buf : Bytes) (evs : List Ev),
    run meaning listening n i buf evs =
      ((((deliveredFrom buf evs).takeWhile IsText).take n).zipIdx i |>.filterMap (report meaning listening),
        decide ((Broken evs ∨ ∃ l ∈ deliveredFrom buf evs, IsText l = false) ∧
          ((deliveredFrom buf evs).takeWhile IsText).length < n)) := by
  induction n with
  | zero => intro i buf evs; simp [run]
  | succ n ih =>
    intro i buf evs
    unfold run
    rcases readLine_spec evs buf with ⟨h1, h2, h3⟩ | ⟨h1, h2, h3⟩ | ⟨l, buf', evs', h1, h2, h3⟩
    · rw [h1, h3]
      simp [h2]
    · rw [h1, h3]
      have he : deliveredFrom [] [] = [] := by
        unfold deliveredFrom; rw [if_neg (by simp [Broken])]; rfl
      simp only [isText_nil]
      rw [ih (i + 1) [] [], he]
      have hl : lineStatus meaning "" = none := rfl
      have hb : ¬ Broken [] := by simp [Broken]
      simp [h2, hl, hb]
    · rw [h1, h3]
      dsimp only
      cases hu : String.fromUTF8? ⟨l.toArray⟩ with
      | none =>
        have ht : IsText l = false := by unfold IsText; rw [hu]; rfl
        simp [ht]
      | some s =>
        have ht : IsText l = true := by unfold IsText; rw [hu]; rfl
        dsimp only
        rw [ih (i + 1) buf' evs', List.takeWhile_cons_of_pos ht]
        refine Prod.ext ?_ ?_
        · simp only [List.take_succ_cons, List.zipIdx_cons, List.filterMap_cons]
          unfold report
          simp only [hu, Option.bind_some]
          cases listening i with
          | false => rfl
          | true => cases lineStatus meaning s <;> rfl
        · simp [h2, ht]

/-! ## C96 -/

/-- **C96 (updates).** After any number of rounds, the listener has been given exactly what the lines read so far say, in
order and once each, in whatever pieces the bytes arrived: these are the lines before the first one that is not text. -/
theorem C96_updates (meaning : List Char → Option St) (listening : Nat → Bool) (evs : List Ev) (n : Nat) :
    (run meaning listening n 0 [] evs).1 =
      (((delivered evs).takeWhile IsText).take n).zipIdx.filterMap (report meaning listening) := by
  rw [run_spec]
  rfl

/-- **C96 (lines).** A line says what the text between its surrounding white space says, and a line of white space says
nothing. -/
theorem C96_line (meaning : List Char → Option St) (s : String) (st : St) :
    lineStatus meaning s = some st ↔
      ∃ before t after, s.toList = before ++ t ++ after ∧ (∀ c ∈ before, isSpace c = true) ∧ (∀ c ∈ after, isSpace c = true) ∧
        (∃ c, t.head? = some c ∧ isSpace c = false) ∧ (∃ c, t.getLast? = some c ∧ isSpace c = false) ∧
        meaning t = some st := by
  have key : ∀ (x t : List Char), t ≠ [] → (trim x = t ↔
      ∃ before after, x = before ++ t ++ after ∧ (∀ c ∈ before, isSpace c = true) ∧ (∀ c ∈ after, isSpace c = true) ∧
        (∃ c, t.head? = some c ∧ isSpace c = false) ∧ (∃ c, t.getLast? = some c ∧ isSpace c = false)) := by
    intro x t ht
    constructor
    · intro h
      have e1 := List.takeWhile_append_dropWhile (p := isSpace) (l := x)
      have e2 := congrArg List.reverse
        (List.takeWhile_append_dropWhile (p := isSpace) (l := (x.dropWhile isSpace).reverse))
      rw [List.reverse_append, List.reverse_reverse] at e2
      have h' : ((x.dropWhile isSpace).reverse.dropWhile isSpace).reverse = t := h
      rw [h'] at e2
      have hr : (x.dropWhile isSpace).reverse.dropWhile isSpace = t.reverse := by rw [← h', List.reverse_reverse]
      refine ⟨x.takeWhile isSpace, ((x.dropWhile isSpace).reverse.takeWhile isSpace).reverse, ?_, ?_, ?_, ?_, ?_⟩
      · rw [List.append_assoc, e2, e1]
      · intro c hc; exact List.all_eq_true.mp List.all_takeWhile c hc
      · intro c hc; exact List.all_eq_true.mp List.all_takeWhile c (List.mem_reverse.mp hc)
      · cases t with
        | nil => exact absurd rfl ht
        | cons c t =>
          refine ⟨c, rfl, ?_⟩
          have := List.head?_dropWhile_not isSpace x
          rw [← e2] at this
          simpa using this
      · have := List.head?_dropWhile_not isSpace (x.dropWhile isSpace).reverse
        rw [hr, List.head?_reverse] at this
        cases hl : t.getLast? with
        | none => exact absurd (List.getLast?_eq_none_iff.mp hl) ht
        | some c => rw [hl] at this; exact ⟨c, rfl, by simpa using this⟩
    · rintro ⟨before, after, rfl, hb, ha, ⟨c, hc, hcs⟩, ⟨d, hd, hds⟩⟩
      unfold trim
      have e1 : (before ++ t ++ after).dropWhile isSpace = t ++ after := by
        rw [List.append_assoc, List.dropWhile_append_of_pos hb]
        cases t with
        | nil => cases hc
        | cons a t => cases hc; rw [List.cons_append, List.dropWhile_cons_of_neg (by simp [hcs])]
      rw [e1, List.reverse_append,
        List.dropWhile_append_of_pos (fun a h => ha a (List.mem_reverse.mp h))]
      rw [← List.head?_reverse] at hd
      cases hr : t.reverse with
      | nil => rw [hr] at hd; cases hd
      | cons a r =>
        rw [hr] at hd
        cases hd
        rw [List.dropWhile_cons_of_neg (by simp [hds]), ← hr, List.reverse_reverse]
  unfold lineStatus
  constructor
  · intro h
    dsimp only at h
    split at h
    · cases h
    · rename_i ht
      obtain ⟨b, a, h1, h2, h3, h4, h5⟩ := (key _ _ ht).mp rfl
      exact ⟨b, _, a, h1, h2, h3, h4, h5, h⟩
  · rintro ⟨b, t, a, h1, h2, h3, h4, h5, h6⟩
    have ht : t ≠ [] := by rintro rfl; obtain ⟨c, hc, -⟩ := h4; cases hc
    have := (key _ _ ht).mpr ⟨b, a, h1, h2, h3, h4, h5⟩
    dsimp only
    rw [this, if_neg ht, h6]

/-- **C96 (pieces do not matter).** The same bytes in other pieces have the same effect. -/
theorem C96_chunk_independent (meaning : List Char → Option St) (listening : Nat → Bool) (evs evs' : List Ev) (n : Nat)
    (h : received evs = received evs') (hb : Broken evs ↔ Broken evs') :
    run meaning listening n 0 [] evs = run meaning listening n 0 [] evs' := by
  have : deliveredFrom [] evs = deliveredFrom [] evs' := by
    unfold deliveredFrom
    rw [h]
    simp only [hb]
  rw [run_spec, run_spec, this]
  simp only [hb]

/-- **C96 (end).** Proved: the response ends when reading fails or a line is not text, after the lines before it.
Missing: that it ends when the peer closes the stream, see `C96_never_ends_fails`. -/
theorem C96_ends_iff_partial (meaning : List Char → Option St) (listening : Nat → Bool) (evs : List Ev) (n : Nat) :
    (run meaning listening n 0 [] evs).2 = true ↔
      (Broken evs ∨ ∃ l ∈ delivered evs, IsText l = false) ∧ ((delivered evs).takeWhile IsText).length < n := by
  rw [run_spec]
  simp only [decide_eq_true_eq]
  rfl

/-- **C96 fails**: when the peer sends text and closes the stream, the response never ends. -/
theorem C96_never_ends_fails (meaning : List Char → Option St) (listening : Nat → Bool) (evs : List Ev) (hb : ¬ Broken evs)
    (ht : ∀ l ∈ lines (received evs), IsText l = true) (n : Nat) : (run meaning listening n 0 [] evs).2 = false := by
  rw [run_spec]
  simp only [decide_eq_false_iff_not]
  rintro ⟨h | ⟨l, h1, h2⟩, -⟩
  · exact hb h
  · have : deliveredFrom [] evs = lines (received evs) := by
      unfold deliveredFrom; rw [if_neg hb]; rfl
    rw [this] at h1
    rw [ht l h1] at h2
    cases h2

/-- **C96 (requests).** While connected, one status request is sent for each established connection, in order. -/
theorem C96_requests (evs : List NetEv) (rs : List Nat) (h : connect true true true evs = .running rs) (p : Nat) :
    connect true true true (evs ++ [.established p]) = .running (rs ++ [p]) ∧
    connect true true true (evs ++ [.other]) = .running rs := by
  simp only [connect, Bool.not_true, Bool.false_eq_true, if_false, if_true, Conn.running.injEq] at h
  subst h
  constructor
  · simp [connect]
  · simp [connect]

/-- **C96 fails**: `connect` reports success exactly when the peer could not be dialled; when it could, `connect` does not
return, and it aborts on an address that cannot be parsed. -/
theorem C96_connect_fails (parsed dialled : Bool) (evs : List NetEv) :
    (connect true parsed dialled evs = .returned true ↔ parsed = true ∧ dialled = false) ∧
    (∀ b, connect true true true evs ≠ .returned b) ∧ connect true false dialled evs = .panicked := by
  refine ⟨?_, fun b => by simp [connect], by simp [connect]⟩
  cases parsed <;> cases dialled <;> simp [connect]

/-- **C96 fails** between two pages: every stream that is opened to a page is taken for a request, and the page announces that it
answers, but it writes nothing to any of them.  A page that asks another one is told no status and waits without end. -/
theorem C96_asked_fails (meaning : List Char → Option St) (listening : Nat → Bool) (stream : List Ev) (evs : List ReqEv)
    (channel n : Nat) :
    readRequest stream = true ∧ written evs = [] ∧
      run meaning listening n 0 [] (arrives evs channel) = ([], false) := by
  have hw : written evs = [] := by
    induction evs with
    | nil => rfl
    | cons e evs ih => exact ih
  refine ⟨rfl, hw, ?_⟩
  have ha : arrives evs channel = [] := by rw [arrives, hw]; rfl
  rw [ha]
  have key : ∀ n i, run meaning listening n i [] [] = ([], false) := by
    intro n
    induction n with
    | zero => intro i; rfl
    | succ n ih =>
      intro i
      have e : String.fromUTF8? ⟨([] : Bytes).toArray⟩ = some "" := by decide +kernel
      have hl : lineStatus meaning "" = none := by simp [lineStatus, trim]
      simp only [run, readLine, splitLine, e, ih, hl]
      cases listening i <;> rfl
  exact key n 0

/-! ## Examples -/

example : arrives [.request 3, .other] 3 = [] ∧ writeRequest = [] := ⟨rfl, rfl⟩

example : lineStatus (fun s => some s) " a b\r\n" = some ['a', ' ', 'b'] ∧
    lineStatus (fun s => some s) " \r\n" = (none : Option (List Char)) := by decide +kernel

example : connect true true true [.other, .established 7] = .running [7] := rfl

example : received [.data 97 [10, 98]] = received [.data 97 [10], .data 98 []] ∧
    (Broken [.data 97 [10, 98]] ↔ Broken [.data 97 [10], .data 98 []]) := by decide +kernel

/-- "a", a line feed and "b", in two pieces, and what `C96_updates` says about them. -/
example : received [.data 97 [10], .data 98 []] = [97, 10, 98] ∧ delivered [.data 97 [10], .data 98 []] = [[97, 10], [98]] ∧
    delivered [.data 97 [10], .data 98 [], .error] = [[97, 10]] ∧
    (run (fun s => some s) (fun _ => true) 5 0 [] [.data 97 [10], .data 98 []]).1 = [['a'], ['b']] := by
  refine ⟨rfl, rfl, rfl, ?_⟩
  rw [C96_updates]
  decide +kernel

example : ¬ Broken [.data 97 [10], .data 98 []] ∧ ∀ l ∈ lines (received [.data 97 [10], .data 98 []]), IsText l = true := by
  decide +kernel

end MinaRs.Status
