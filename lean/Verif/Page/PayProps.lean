import Verif.Page.PaySpec

/-!
# C124: the payment page
-/

namespace MinaRs.Page.Pay

open MinaRs.Text (Text)
open MinaRs.Wallet (Js)
open Spec

theorem account_append (k : Option Text) (a b : List Seen) : account k (a ++ b) = account (account k a) b := by
  induction a generalizing k with
  | nil => rfl
  | cons x a ih => cases x <;> exact ih _

theorem kept_append (k : Option Text) (a b : List Seen) : kept k (a ++ b) = kept (kept k a) b := by
  induction a generalizing k with
  | nil => rfl
  | cons x a ih => cases x <;> exact ih _

theorem text_append (k : Text) (a b : List Seen) : text k (a ++ b) = text (text k a) b := by
  induction a generalizing k with
  | nil => rfl
  | cons x a ih => cases x <;> exact ih _

theorem step_held (L : Lib) (s : State) (e : Event) :
    account s.publicKey (step L s e).2 = (step L s e).1.publicKey ∧
    kept s.password (step L s e).2 = (step L s e).1.password ∧
    text s.paymentStr (step L s e).2 = (step L s e).1.paymentStr := by
  obtain ⟨k, p, t, d, l, i, w⟩ := s
  cases e with
  | typeKey t => exact ⟨rfl, rfl, rfl⟩
  | typePayment t => exact ⟨rfl, rfl, rfl⟩
  | clickInfo =>
    rcases k with _ | _ | ⟨c, k⟩ <;> exact ⟨rfl, rfl, rfl⟩
  | clickLock a =>
    rcases k with _ | _ | ⟨c, k⟩ <;> rcases a with _ | a <;> exact ⟨rfl, rfl, rfl⟩
  | clickUnlock a =>
    rcases k with _ | _ | ⟨c, k⟩ <;> rcases p with _ | _ | ⟨d, p⟩ <;> rcases a with _ | a <;> exact ⟨rfl, rfl, rfl⟩
  | clickSend =>
    rcases k with _ | _ | ⟨c, k⟩
    · exact ⟨rfl, rfl, rfl⟩
    · exact ⟨rfl, rfl, rfl⟩
    · simp only [step, sendHandler]
      cases L.parse t <;> exact ⟨rfl, rfl, rfl⟩
  | settled j r =>
    simp only [step]
    cases w[j]? with
    | none => exact ⟨rfl, rfl, rfl⟩
    | some x => cases x <;> cases r <;> exact ⟨rfl, rfl, rfl⟩

theorem run_held (L : Lib) (s : State) (es : List Event) :
    account s.publicKey (run L s es).2 = (run L s es).1.publicKey ∧
    kept s.password (run L s es).2 = (run L s es).1.password ∧
    text s.paymentStr (run L s es).2 = (run L s es).1.paymentStr := by
  induction es generalizing s with
  | nil => exact ⟨rfl, rfl, rfl⟩
  | cons e es ih =>
    obtain ⟨a, b, c⟩ := step_held L s e
    obtain ⟨d, f, g⟩ := ih (step L s e).1
    simp only [run, account_append, kept_append, text_append, a, b, c]
    exact ⟨d, f, g⟩

theorem run_append (L : Lib) (s : State) (a b : List Event) :
    run L s (a ++ b) = ((run L (run L s a).1 b).1, (run L s a).2 ++ (run L (run L s a).1 b).2) := by
  induction a generalizing s with
  | nil => rfl
  | cons e a ih => simp [run, ih]

theorem run_split (L : Lib) (s : State) (es : List Event) (pre : List Seen) (x : Seen) (post : List Seen)
    (h : (run L s es).2 = pre ++ x :: post) :
    ∃ es1 e es2 p q, es = es1 ++ e :: es2 ∧ pre = (run L s es1).2 ++ p ∧ (step L (run L s es1).1 e).2 = p ++ x :: q := by
  induction es generalizing s pre with
  | nil => simp [run] at h
  | cons e es ih =>
    have h' : (step L s e).2 ++ (run L (step L s e).1 es).2 = pre ++ x :: post := h
    rcases List.append_eq_append_iff.1 h' with ⟨as, h1, h2⟩ | ⟨bs, h1, h2⟩
    · obtain ⟨es1, e', es2, p, q, h3, h4, h5⟩ := ih (step L s e).1 as h2
      exact ⟨e :: es1, e', es2, p, q, by simp [h3], by rw [h1, h4]; simp [run], h5⟩
    · cases bs with
      | nil =>
        obtain ⟨es1, e', es2, p, q, h3, h4, h5⟩ := ih (step L s e).1 [] (by simpa using h2.symm)
        refine ⟨e :: es1, e', es2, p, q, by simp [h3], ?_, h5⟩
        have h6 : (step L s e).2 = pre := by simpa using h1
        rw [← h6]
        have h7 : (run L (step L s e).1 es1).2 ++ p = [] := h4.symm
        simp only [run, List.append_assoc, h7, List.append_nil]
      | cons y bs =>
        obtain ⟨h3, h4⟩ := List.cons.inj h2
        exact ⟨[], e, es, pre, bs, rfl, rfl, by rw [h3]; exact h1⟩

theorem filled_ne {k : Option Text} (h : filled k = true) : ∃ t, k = some t ∧ t ≠ [] := by
  rcases k with _ | _ | ⟨c, k⟩
  · cases h
  · cases h
  · exact ⟨_, rfl, by simp⟩

theorem step_unlock (L : Lib) (s : State) (e : Event) (p q : List Seen) (k w : Text)
    (h : (step L s e).2 = p ++ .request (.unlock k w) :: q) :
    account s.publicKey p = some k ∧ k ≠ [] ∧ kept s.password p = some w := by
  obtain ⟨sk, sp, t, d, l, i, wt⟩ := s
  cases e with
  | typeKey t => rcases p with _ | ⟨x, _ | ⟨y, p⟩⟩ <;> simp [step] at h
  | typePayment t => rcases p with _ | ⟨x, _ | ⟨y, p⟩⟩ <;> simp [step] at h
  | clickInfo =>
    rcases sk with _ | _ | ⟨c, sk⟩ <;> rcases p with _ | ⟨x, _ | ⟨y, p⟩⟩ <;> simp [step, infoHandler] at h
  | clickLock a =>
    rcases sk with _ | _ | ⟨c, sk⟩ <;> rcases a with _ | a <;> rcases p with _ | ⟨x, _ | ⟨y, p⟩⟩ <;>
      simp [step, lockHandler, filled] at h
  | clickUnlock a =>
    rcases sk with _ | _ | ⟨c, sk⟩ <;> rcases sp with _ | _ | ⟨d, sp⟩ <;> rcases a with _ | a <;>
      rcases p with _ | ⟨x, _ | ⟨y, p⟩⟩ <;> simp [step, unlockHandler, filled] at h <;>
      first
        | (obtain ⟨⟨h1, h2⟩, h3⟩ := h; subst h1; subst h2; simp [account, kept])
        | (obtain ⟨hx, ⟨h1, h2⟩, h3⟩ := h; subst hx; subst h1; subst h2; simp [account, kept])
  | clickSend =>
    rcases sk with _ | _ | ⟨c, sk⟩
    · rcases p with _ | ⟨x, _ | ⟨y, p⟩⟩ <;> simp [step, sendHandler] at h
    · rcases p with _ | ⟨x, _ | ⟨y, p⟩⟩ <;> simp [step, sendHandler] at h
    · simp only [step, sendHandler] at h
      cases hp : L.parse t with
      | none => rw [hp] at h; simp at h
      | some o => rw [hp] at h; rcases p with _ | ⟨x, _ | ⟨y, p⟩⟩ <;> simp at h
  | settled j r =>
    simp only [step] at h
    cases hw : wt[j]? with
    | none => rw [hw] at h; simp at h
    | some x => rw [hw] at h; cases x <;> cases r <;> rcases p with _ | ⟨x, _ | ⟨y, p⟩⟩ <;> simp [resume] at h

theorem step_pay (L : Lib) (s : State) (e : Event) (p q : List Seen) (o : Obj)
    (h : (step L s e).2 = p ++ .request (.pay o) :: q) :
    ∃ k o', p = [.rendered (L.stringify o)] ∧ s.publicKey = some k ∧ k ≠ [] ∧ L.parse s.paymentStr = some o' ∧ o = setFrom k o' := by
  obtain ⟨sk, sp, t, d, l, i, wt⟩ := s
  cases e with
  | typeKey t => rcases p with _ | ⟨x, _ | ⟨y, p⟩⟩ <;> simp [step] at h
  | typePayment t => rcases p with _ | ⟨x, _ | ⟨y, p⟩⟩ <;> simp [step] at h
  | clickInfo =>
    rcases sk with _ | _ | ⟨c, sk⟩ <;> rcases p with _ | ⟨x, _ | ⟨y, p⟩⟩ <;> simp [step, infoHandler] at h
  | clickLock a =>
    rcases sk with _ | _ | ⟨c, sk⟩ <;> rcases a with _ | a <;> rcases p with _ | ⟨x, _ | ⟨y, p⟩⟩ <;>
      simp [step, lockHandler, filled] at h
  | clickUnlock a =>
    rcases sk with _ | _ | ⟨c, sk⟩ <;> rcases sp with _ | _ | ⟨d, sp⟩ <;> rcases a with _ | a <;>
      rcases p with _ | ⟨x, _ | ⟨y, p⟩⟩ <;> simp [step, unlockHandler, filled] at h
  | clickSend =>
    rcases sk with _ | _ | ⟨c, sk⟩
    · rcases p with _ | ⟨x, _ | ⟨y, p⟩⟩ <;> simp [step, sendHandler] at h
    · rcases p with _ | ⟨x, _ | ⟨y, p⟩⟩ <;> simp [step, sendHandler] at h
    · simp only [step, sendHandler] at h
      cases hp : L.parse t with
      | none => rw [hp] at h; simp at h
      | some o' =>
        rw [hp] at h
        rcases p with _ | ⟨x, _ | ⟨y, p⟩⟩ <;> simp at h
        obtain ⟨hx, ho, _⟩ := h
        subst ho; subst hx
        exact ⟨c :: sk, o', rfl, rfl, by simp, rfl, rfl⟩
  | settled j r =>
    simp only [step] at h
    cases hw : wt[j]? with
    | none => rw [hw] at h; simp at h
    | some x => rw [hw] at h; cases x <;> cases r <;> rcases p with _ | ⟨x, _ | ⟨y, p⟩⟩ <;> simp [resume] at h

theorem step_lock (L : Lib) (s : State) (e : Event) (p q : List Seen) (k : Text)
    (h : (step L s e).2 = p ++ .request (.lock k) :: q) :
    account s.publicKey p = some k ∧ (k = [] → p = [.askedKey (some [])]) := by
  obtain ⟨sk, sp, t, d, l, i, wt⟩ := s
  cases e with
  | typeKey t => rcases p with _ | ⟨x, _ | ⟨y, p⟩⟩ <;> simp [step] at h
  | typePayment t => rcases p with _ | ⟨x, _ | ⟨y, p⟩⟩ <;> simp [step] at h
  | clickInfo =>
    rcases sk with _ | _ | ⟨c, sk⟩ <;> rcases p with _ | ⟨x, _ | ⟨y, p⟩⟩ <;> simp [step, infoHandler] at h
  | clickLock a =>
    rcases sk with _ | _ | ⟨c, sk⟩ <;> rcases a with _ | a <;> rcases p with _ | ⟨x, _ | ⟨y, p⟩⟩ <;>
      simp [step, lockHandler, filled] at h <;>
      first
        | (obtain ⟨hx, h1, h2⟩ := h; subst hx; subst h1; simp [account])
        | (obtain ⟨h1, h2⟩ := h; subst h1; simp [account])
  | clickUnlock a =>
    rcases sk with _ | _ | ⟨c, sk⟩ <;> rcases sp with _ | _ | ⟨d, sp⟩ <;> rcases a with _ | a <;>
      rcases p with _ | ⟨x, _ | ⟨y, p⟩⟩ <;> simp [step, unlockHandler, filled] at h
  | clickSend =>
    rcases sk with _ | _ | ⟨c, sk⟩
    · rcases p with _ | ⟨x, _ | ⟨y, p⟩⟩ <;> simp [step, sendHandler] at h
    · rcases p with _ | ⟨x, _ | ⟨y, p⟩⟩ <;> simp [step, sendHandler] at h
    · simp only [step, sendHandler] at h
      cases hp : L.parse t with
      | none => rw [hp] at h; simp at h
      | some o => rw [hp] at h; rcases p with _ | ⟨x, _ | ⟨y, p⟩⟩ <;> simp at h
  | settled j r =>
    simp only [step] at h
    cases hw : wt[j]? with
    | none => rw [hw] at h; simp at h
    | some x => rw [hw] at h; cases x <;> cases r <;> rcases p with _ | ⟨x, _ | ⟨y, p⟩⟩ <;> simp [resume] at h

theorem step_info (L : Lib) (s : State) (e : Event) (p q : List Seen) (k : Text)
    (h : (step L s e).2 = p ++ .request (.info k) :: q) : p = [] ∧ s.publicKey = some k ∧ k ≠ [] := by
  obtain ⟨sk, sp, t, d, l, i, wt⟩ := s
  cases e with
  | typeKey t => rcases p with _ | ⟨x, _ | ⟨y, p⟩⟩ <;> simp [step] at h
  | typePayment t => rcases p with _ | ⟨x, _ | ⟨y, p⟩⟩ <;> simp [step] at h
  | clickInfo =>
    rcases sk with _ | _ | ⟨c, sk⟩ <;> rcases p with _ | ⟨x, _ | ⟨y, p⟩⟩ <;> simp [step, infoHandler] at h
    obtain ⟨h1, _⟩ := h
    subst h1
    exact ⟨rfl, rfl, by simp⟩
  | clickLock a =>
    rcases sk with _ | _ | ⟨c, sk⟩ <;> rcases a with _ | a <;> rcases p with _ | ⟨x, _ | ⟨y, p⟩⟩ <;>
      simp [step, lockHandler, filled] at h
  | clickUnlock a =>
    rcases sk with _ | _ | ⟨c, sk⟩ <;> rcases sp with _ | _ | ⟨d, sp⟩ <;> rcases a with _ | a <;>
      rcases p with _ | ⟨x, _ | ⟨y, p⟩⟩ <;> simp [step, unlockHandler, filled] at h
  | clickSend =>
    rcases sk with _ | _ | ⟨c, sk⟩
    · rcases p with _ | ⟨x, _ | ⟨y, p⟩⟩ <;> simp [step, sendHandler] at h
    · rcases p with _ | ⟨x, _ | ⟨y, p⟩⟩ <;> simp [step, sendHandler] at h
    · simp only [step, sendHandler] at h
      cases hp : L.parse t with
      | none => rw [hp] at h; simp at h
      | some o => rw [hp] at h; rcases p with _ | ⟨x, _ | ⟨y, p⟩⟩ <;> simp at h
  | settled j r =>
    simp only [step] at h
    cases hw : wt[j]? with
    | none => rw [hw] at h; simp at h
    | some x => rw [hw] at h; cases x <;> cases r <;> rcases p with _ | ⟨x, _ | ⟨y, p⟩⟩ <;> simp [resume] at h

theorem property_setFrom (k : Text) (n : Text) (o : Obj) :
    property n (setFrom k o) = if n = "from".toList then some (.string k) else property n o := by
  induction o with
  | nil =>
    simp only [setFrom, property, List.find?_cons, List.find?_nil]
    by_cases h : n = "from".toList
    · subst h; simp
    · rw [if_neg h, beq_false_of_ne (Ne.symm h)]
  | cons e o ih =>
    obtain ⟨m, v⟩ := e
    simp only [setFrom]
    by_cases hm : m = "from".toList
    · rw [if_pos hm]
      by_cases h : n = "from".toList
      · rw [if_pos h, hm, h]; simp [property]
      · rw [if_neg h]
        have : (m == n) = false := beq_false_of_ne (by rw [hm]; exact Ne.symm h)
        simp [property, this]
    · rw [if_neg hm]
      by_cases hn : m = n
      · subst hn
        rw [if_neg hm]; simp [property]
      · have : (m == n) = false := beq_false_of_ne hn
        have ih' := ih
        simp only [property] at ih' ⊢
        simp only [List.find?_cons, this]
        exact ih'

/-! ## C124 -/

/-- **C124.** Whatever is done with the page and however the answers arrive: a payment that is sent has the account in the box at
that moment as its sender and otherwise the properties of the object in the payment box, and the box shows the payment that is sent. -/
theorem C124_payments (L : Lib) (t : Text) (es : List Event) (pre post : List Seen) (o : Obj)
    (h : (run L (.init t) es).2 = pre ++ .request (.pay o) :: post) :
    text t pre = L.stringify o ∧
    ∃ before k typed, pre = before ++ [.rendered (L.stringify o)] ∧ account none before = some k ∧ k ≠ [] ∧
      L.parse (text t before) = some typed ∧
      property "from".toList o = some (.string k) ∧ ∀ n, n ≠ "from".toList → property n o = property n typed := by
  obtain ⟨es1, e, es2, p, q, h1, h2, h3⟩ := run_split L _ es pre _ post h
  obtain ⟨k, o', hp, hk, hne, ho, rfl⟩ := step_pay L _ e p q o h3
  obtain ⟨a, _, c⟩ := run_held L (.init t) es1
  have a' : account none (run L (.init t) es1).2 = some k := a.trans hk
  have c' : text t (run L (.init t) es1).2 = (run L (.init t) es1).1.paymentStr := c
  subst hp
  refine ⟨by rw [h2, text_append]; rfl, _, k, o', h2, a', hne, by rw [c', ho], ?_, fun n hn => ?_⟩
  · rw [property_setFrom, if_pos rfl]
  · rw [property_setFrom, if_neg hn]

/-- **C124.** A request to unlock an account names the account in the box at that moment, which is not empty, and carries the
password that was given to the page last, unless an account was locked since. Missing: that the password was given for this account, and
that a wrong one can be replaced (see the theorems below). -/
theorem C124_unlock_partial (L : Lib) (t : Text) (es : List Event) (pre post : List Seen) (k p : Text)
    (h : (run L (.init t) es).2 = pre ++ .request (.unlock k p) :: post) :
    account none pre = some k ∧ k ≠ [] ∧ kept none pre = some p := by
  obtain ⟨es1, e, es2, p', q, h1, h2, h3⟩ := run_split L _ es pre _ post h
  obtain ⟨a, b, c⟩ := step_unlock L _ e p' q k p h3
  obtain ⟨a', b', _⟩ := run_held L (.init t) es1
  subst h2
  refine ⟨?_, b, ?_⟩
  · rw [account_append, show account none _ = _ from a']; exact a
  · rw [kept_append, show kept none _ = _ from b']; exact c

/-- **C124.** Requests to lock an account and for its details name the account in the box at that moment, which is empty only if
the prompt for the account to lock was just answered with nothing. -/
theorem C124_named (L : Lib) (t : Text) (es : List Event) (pre post : List Seen) (k : Text) :
    ((run L (.init t) es).2 = pre ++ .request (.lock k) :: post → account none pre = some k ∧
      (k = [] → ∃ before, pre = before ++ [.askedKey (some [])])) ∧
    ((run L (.init t) es).2 = pre ++ .request (.info k) :: post → account none pre = some k ∧ k ≠ []) := by
  constructor
  · intro h
    obtain ⟨es1, e, es2, p', q, h1, h2, h3⟩ := run_split L _ es pre _ post h
    obtain ⟨a, b⟩ := step_lock L _ e p' q k h3
    obtain ⟨a', _, _⟩ := run_held L (.init t) es1
    subst h2
    refine ⟨?_, fun hk => ⟨_, by rw [b hk]⟩⟩
    rw [account_append, show account none _ = _ from a']; exact a
  · intro h
    obtain ⟨es1, e, es2, p', q, h1, h2, h3⟩ := run_split L _ es pre _ post h
    obtain ⟨a, b, c⟩ := step_info L _ e p' q k h3
    obtain ⟨a', _, _⟩ := run_held L (.init t) es1
    subst h2; subst a
    refine ⟨?_, c⟩
    rw [List.append_nil]
    exact a'.trans b

/-- **C124.** The password given for one account is sent for every other account: after any session in which the page keeps a
password, typing another account and pressing the button sends that password with it, without asking. -/
theorem C124_other_account_fails (L : Lib) (t : Text) (es : List Event) (p k : Text) (a : Option Text) (hp : p ≠ []) (hk : k ≠ [])
    (h : kept none (run L (.init t) es).2 = some p) :
    (run L (.init t) (es ++ [.typeKey k, .clickUnlock a])).2 =
      (run L (.init t) es).2 ++ [.typedKey k, .request (.unlock k p)] := by
  have hs : (run L (.init t) es).1.password = some p := (run_held L (.init t) es).2.1.symm.trans h
  rw [run_append]
  generalize (run L (.init t) es).1 = s at hs ⊢
  obtain ⟨_, sp, _, _, _, _, _⟩ := s
  have hs' : sp = some p := hs
  subst hs'
  rcases p with _ | ⟨c, p⟩
  · exact absurd rfl hp
  · rcases k with _ | ⟨d, k⟩
    · exact absurd rfl hk
    · rfl

theorem kept_stays (L : Lib) (es : List Event) (s : State) (p : Text) (hp : p ≠ []) (hs : s.password = some p)
    (hl : NeverLocked (run L s es).2) : (run L s es).1.password = some p ∧ ∀ a, Seen.askedPassword a ∉ (run L s es).2 := by
  induction es generalizing s with
  | nil => exact ⟨hs, fun a h => nomatch h⟩
  | cons e es ih =>
    have h1 : (step L s e).1.password = some p ∧ ∀ a, Seen.askedPassword a ∉ (step L s e).2 := by
      have hl1 : Seen.locked ∉ (step L s e).2 := fun h => hl (List.mem_append_left _ h)
      obtain ⟨sk, sp, t, d, l, i, w⟩ := s
      have hs' : sp = some p := hs
      subst hs'
      rcases p with _ | ⟨c, p⟩
      · exact absurd rfl hp
      cases e with
      | typeKey t => simp [step]
      | typePayment t => simp [step]
      | clickInfo => rcases sk with _ | _ | ⟨c, k⟩ <;> simp [step, infoHandler]
      | clickLock a => rcases sk with _ | _ | ⟨c, k⟩ <;> rcases a with _ | a <;> simp [step, lockHandler, filled]
      | clickUnlock a => rcases sk with _ | _ | ⟨c, k⟩ <;> simp [step, unlockHandler, filled]
      | clickSend =>
        rcases sk with _ | _ | ⟨c, k⟩
        · simp [step, sendHandler]
        · simp [step, sendHandler]
        · simp only [step, sendHandler]
          cases L.parse t <;> simp
      | settled j r =>
        simp only [step] at hl1 ⊢
        cases hw : w[j]? with
        | none => simp
        | some x => rw [hw] at hl1; cases x <;> cases r <;> simp [resume] at hl1 ⊢
    obtain ⟨h2, h3⟩ := ih (step L s e).1 h1.1 fun h => hl (List.mem_append_right _ h)
    exact ⟨h2, fun a h => (List.mem_append.1 h).elim (h1.2 a) (h3 a)⟩

/-- **C124.** A mistyped password cannot be replaced: once the page keeps a password, it never asks for one and sends only that
password, in every continuation in which no account is locked. -/
theorem C124_mistyped_fails (L : Lib) (t : Text) (es more : List Event) (p : Text) (hp : p ≠ [])
    (h : kept none (run L (.init t) es).2 = some p)
    (hl : NeverLocked (run L (run L (.init t) es).1 more).2) :
    (∀ a, Seen.askedPassword a ∉ (run L (run L (.init t) es).1 more).2) ∧
    ∀ k q, Seen.request (.unlock k q) ∈ (run L (run L (.init t) es).1 more).2 → q = p := by
  have hs : (run L (.init t) es).1.password = some p := (run_held L (.init t) es).2.1.symm.trans h
  refine ⟨(kept_stays L more _ p hp hs hl).2, fun k q hq => ?_⟩
  obtain ⟨pre, post, he⟩ := List.append_of_mem hq
  obtain ⟨es1, e, es2, p', q', h1, h2, h3⟩ := run_split L _ more pre _ post he
  obtain ⟨_, _, c⟩ := step_unlock L _ e p' q' k q h3
  subst h1
  rw [run_append] at hl
  have hl1 : NeverLocked (run L (run L (.init t) es).1 es1).2 := fun h => hl (List.mem_append_left _ h)
  have hk := (kept_stays L es1 _ p hp hs hl1).1
  have hl2 : NeverLocked (run L (run L (run L (.init t) es).1 es1).1 (e :: es2)).2 := fun h => hl (List.mem_append_right _ h)
  have hn : ∀ x ∈ p', x ≠ Seen.locked ∧ ∀ a, x ≠ Seen.askedPassword a := by
    intro x hx
    have hx' : x ∈ (run L (run L (run L (.init t) es).1 es1).1 (e :: es2)).2 := by
      have h4 : x ∈ (step L (run L (run L (.init t) es).1 es1).1 e).2 := by
        rw [h3]; exact List.mem_append_left _ hx
      exact List.mem_append_left _ h4
    exact ⟨fun h => hl2 (h ▸ hx'), fun a h => (kept_stays L (e :: es2) _ p hp hk hl2).2 a (h ▸ hx')⟩
  have hkeep : ∀ (l : List Seen) (o : Option Text), (∀ x ∈ l, x ≠ Seen.locked ∧ ∀ a, x ≠ Seen.askedPassword a) → kept o l = o := by
    intro l
    induction l with
    | nil => intro o _; rfl
    | cons x l ih =>
      intro o hx
      have hx0 := hx x (List.mem_cons_self ..)
      have hx1 : ∀ y ∈ l, y ≠ Seen.locked ∧ ∀ a, y ≠ Seen.askedPassword a := fun y hy => hx y (List.mem_cons_of_mem _ hy)
      cases x with
      | locked => exact absurd rfl hx0.1
      | askedPassword a => exact absurd rfl (hx0.2 a)
      | _ => exact ih o hx1
  rw [hkeep p' _ hn, hk] at c
  exact (Option.some.inj c).symm

/-- **C124.** What is shown can be the answer to an earlier request: if an account is unlocked and then locked, and the answers
arrive the other way round, the page shows the answer to unlocking. -/
theorem C124_order_fails (L : Lib) (t : Text) (k p : Text) (a : Option Text) (unlocked locked : Text) (hk : k ≠ []) :
    (run L (.init t) [.typeKey k, .clickUnlock (some p), .clickLock a, .settled 1 (.ok locked), .settled 0 (.ok unlocked)]).1.isAccountLocked =
      unlocked ∧
    (run L (.init t) [.typeKey k, .clickUnlock (some p), .clickLock a]).2 =
      [.typedKey k, .askedPassword (some p), .request (.unlock k p), .request (.lock k)] := by
  rcases k with _ | ⟨c, k⟩
  · exact absurd rfl hk
  · exact ⟨rfl, rfl⟩

/-- **C124.** If no other call is under way, the answer to a request is shown where it belongs, and nothing else changes on the
page except that locking an account forgets the password. -/
theorem C124_answers_partial (L : Lib) (s : State) (h : s.waiting = []) (e : Event) (r : Except Text Text) (q : Request)
    (hq : Seen.request q ∈ (step L s e).2) :
    let after := (run L s [e, .settled 0 r]).1
    let sent := (step L s e).1
    after.waiting = [] ∧ after.publicKey = sent.publicKey ∧ after.paymentStr = sent.paymentStr ∧
    match q with
    | .info _ => after.accountDetails = textOf r ∧ after.isAccountLocked = s.isAccountLocked ∧ after.paymentId = s.paymentId ∧
        after.password = sent.password
    | .pay _ => after.paymentId = textOf r ∧ after.isAccountLocked = s.isAccountLocked ∧ after.accountDetails = s.accountDetails ∧
        after.password = sent.password
    | .unlock _ _ => after.isAccountLocked = textOf r ∧ after.paymentId = s.paymentId ∧ after.accountDetails = s.accountDetails ∧
        after.password = sent.password
    | .lock _ => after.isAccountLocked = textOf r ∧ after.paymentId = s.paymentId ∧ after.accountDetails = s.accountDetails ∧
        after.password = (match r with | .ok _ => some [] | .error _ => sent.password) := by
  obtain ⟨sk, sp, t, d, l, i, w⟩ := s
  have hw : w = [] := h
  subst hw
  cases e with
  | typeKey t => simp [step] at hq
  | typePayment t => simp [step] at hq
  | clickInfo =>
    rcases sk with _ | _ | ⟨c, k⟩ <;> simp [step, infoHandler] at hq
    subst hq
    exact ⟨rfl, rfl, rfl, rfl, rfl, rfl, rfl⟩
  | clickLock a =>
    rcases sk with _ | _ | ⟨c, k⟩ <;> rcases a with _ | a <;> simp [step, lockHandler, filled] at hq <;> subst hq <;>
      cases r <;> exact ⟨rfl, rfl, rfl, rfl, rfl, rfl, rfl⟩
  | clickUnlock a =>
    rcases sk with _ | _ | ⟨c, k⟩ <;> rcases sp with _ | _ | ⟨d, sp⟩ <;> rcases a with _ | a <;>
      simp [step, unlockHandler, filled] at hq <;> subst hq <;> exact ⟨rfl, rfl, rfl, rfl, rfl, rfl, rfl⟩
  | clickSend =>
    rcases sk with _ | _ | ⟨c, k⟩
    · simp [step, sendHandler] at hq
    · simp [step, sendHandler] at hq
    · simp only [step, sendHandler] at hq
      cases hp : L.parse t with
      | none => rw [hp] at hq; simp at hq
      | some o =>
        rw [hp] at hq
        simp at hq
        subst hq
        simp only [run, step, sendHandler, hp]
        exact ⟨rfl, rfl, rfl, rfl, rfl, rfl, rfl⟩
  | settled j r => simp [step] at hq

/-- A session: the password of account `A` is sent for account `B`, and a payment for which the box says another sender. -/
example : (run ⟨fun _ => some [("to".toList, .string ['C']), ("from".toList, .string ['X'])], fun _ => [], []⟩ (.init [])
      [.typeKey ['A'], .clickUnlock (some ['p']), .settled 0 (.ok ['y']), .typeKey ['B'], .clickUnlock none, .clickSend]).2 =
    [.typedKey ['A'], .askedPassword (some ['p']), .request (.unlock ['A'] ['p']), .typedKey ['B'], .request (.unlock ['B'] ['p']),
      .rendered [], .request (.pay [("to".toList, .string ['C']), ("from".toList, .string ['B'])])] := rfl

end MinaRs.Page.Pay
