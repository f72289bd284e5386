import Verif.Page.System
import Verif.GraphQL.BestChainProps
import Verif.Page.PatchProps

/-!
# C107: every call of the page finishes, and takes effect in the order of the calls
-/

namespace MinaRs.Page

open Text (Text)
open Json (J)

variable {F : Type}

/-! ## Specification -/

/-- The calls among the events; `none` stands for a question about the best chain. -/
def Spec.callsOf : List SysEv → List (Option Call)
  | [] => []
  | .call c :: es => some c :: callsOf es
  | .callLook :: es => none :: callsOf es
  | _ :: es => callsOf es

/-- The page does something: it calls a function or starts the processor. -/
def Spec.ByPage : SysEv → Prop
  | .call _ => True
  | .callLook => True
  | .start => True
  | _ => False

/-- A call that returned. -/
def Spec.Finished : Task F → Prop
  | .polled _ _ => True
  | .set => True
  | .looked _ => True
  | _ => False

/-- Nothing can happen unless the page does something. -/
def Spec.Quiet (order : List Text → List Text) (add : F → J → Option F) (s : Sys F) : Prop :=
  ∀ e, ¬ ByPage e → s.step order add e = none

/-- The backend a poll reads. -/
def Spec.reads : Task F → Option Settings
  | .asking b _ _ _ _ => some b
  | .sending b _ _ _ => some b
  | .polled b _ => some b
  | _ => none

/-- A poll under way. -/
def Spec.UnderWay : Task F → Prop
  | .asking .. => True
  | .sending .. => True
  | _ => False

open Spec

/-! ## Nothing is stuck -/

theorem least (p : Nat → Prop) (i : Nat) (h : p i) : ∃ j, p j ∧ ∀ k < j, ¬ p k := by
  induction i using Nat.strongRecOn with
  | ind i ih =>
    by_cases hk : ∃ k, k < i ∧ p k
    · obtain ⟨k, hki, hp⟩ := hk
      exact ih k hki hp
    · exact ⟨i, h, fun k hki hp => hk ⟨k, hki, hp⟩⟩

/-- **C107.** When the processor runs and no panic kept a lock, the page comes to rest only when every call has returned and
every document was taken over. -/
theorem C107_no_deadlock_partial (order : List Text → List Text) (add : F → J → Option F) (s : Sys F) (hrun : s.running = true)
    (hb : s.backendStuck = false) (hf : s.frontierStuck = false) (hq : Quiet order add s) :
    s.channel = [] ∧ ∀ t ∈ s.tasks, Finished t ∨ t = .aborted := by
  have hc : s.channel = [] := by
    cases hch : s.channel with
    | nil => rfl
    | cons doc rest =>
      have := hq .receive (by simp [ByPage])
      simp only [Sys.step, hrun, hf, Bool.not_false, Bool.and_self, if_true, hch] at this
      split at this <;> cases this
  have hread : s.tasks.any Task.isReading = false := by
    rw [Bool.eq_false_iff]
    intro ha
    obtain ⟨t, ht, hr⟩ := List.any_eq_true.mp ha
    obtain ⟨i, hi⟩ := List.mem_iff_getElem?.mp ht
    cases t with
    | asking b q e rest k =>
      have := hq (.answer i none) (by simp [ByPage])
      simp [Sys.step, hi] at this
    | sending b q doc rest =>
      have := hq (.goOn i) (by simp [ByPage])
      simp [Sys.step, Sys.goOn, hi, hc] at this
    | _ => cases hr
  have hwait : ∀ (i : Nat) (t : Task F), s.tasks[i]? = some t → t.isWaiting = false := by
    intro i t hi
    rw [Bool.eq_false_iff]
    intro hw
    obtain ⟨j, ⟨u, hj, hu⟩, hmin⟩ := least (fun i => ∃ t : Task F, s.tasks[i]? = some t ∧ t.isWaiting = true) i ⟨t, hi, hw⟩
    have hbefore : (s.tasks.take j).any Task.isWaiting = false := by
      rw [Bool.eq_false_iff]
      intro ha
      obtain ⟨v, hv, hvw⟩ := List.any_eq_true.mp ha
      obtain ⟨k, hk⟩ := List.mem_iff_getElem?.mp hv
      rw [List.getElem?_take] at hk
      split at hk
      · rename_i hlt
        exact hmin k hlt ⟨v, hk, hvw⟩
      · cases hk
    cases u with
    | waiting c =>
      have := hq (.goOn j) (by simp [ByPage])
      simp only [Sys.step, Sys.goOn, hj, hb, hbefore, hread, Bool.or_self, Bool.false_eq_true, if_false] at this
      cases c with
      | poll => cases this
      | setApiList items => simp only at this; split at this <;> cases this
      | setTrackingAccounts items => simp only at this; split at this <;> cases this
    | _ => cases hu
  refine ⟨hc, fun t ht => ?_⟩
  obtain ⟨i, hi⟩ := List.mem_iff_getElem?.mp ht
  have hr : t.isReading = false := by
    rw [Bool.eq_false_iff]
    intro h
    rw [Bool.eq_false_iff] at hread
    exact hread (List.any_eq_true.mpr ⟨t, ht, h⟩)
  cases t with
  | waiting c => exact absurd (hwait i _ hi) (by simp [Task.isWaiting])
  | asking b q e rest k => cases hr
  | sending b q doc rest => cases hr
  | look =>
    have := hq (.goOn i) (by simp [ByPage])
    simp [Sys.step, Sys.goOn, hi, hf] at this
  | aborted => exact .inr rfl
  | polled b ok => exact .inl trivial
  | set => exact .inl trivial
  | looked f => exact .inl trivial

/-! ## Nothing goes on for ever -/

/-- Calls that have not begun. -/
def begun : Task F → Nat
  | .waiting _ => 1
  | .look => 1
  | _ => 0

/-- What is left to do for a poll. -/
def work : Task F → Nat
  | .asking _ _ _ rest k => 6 * rest.length + 3 + (3 - k)
  | .sending _ _ _ rest => 6 * rest.length + 2
  | _ => 0

theorem sum_set (g : Task F → Nat) (ts : List (Task F)) (i : Nat) (t u : Task F) (h : ts[i]? = some t) :
    ((ts.set i u).map g).sum + g t = (ts.map g).sum + g u := by
  induction ts generalizing i with
  | nil => cases h
  | cons x ts ih =>
    cases i with
    | zero =>
      simp only [List.getElem?_cons_zero, Option.some.injEq] at h
      subst h
      simp only [List.set_cons_zero, List.map_cons, List.sum_cons]
      omega
    | succ i =>
      simp only [List.getElem?_cons_succ] at h
      have := ih i h
      simp only [List.set_cons_succ, List.map_cons, List.sum_cons]
      omega

/-- Calls that have not begun, and what is left to do for the others. -/
def Sys.left (s : Sys F) : Nat × Nat := ((s.tasks.map begun).sum, (s.tasks.map work).sum + s.channel.length)

theorem work_next (b : Settings) (q : Text) (rest : List Text) : work (nextEndpoint b q rest : Task F) ≤ 6 * rest.length := by
  cases rest <;> simp [nextEndpoint, work]; omega

theorem begun_next (b : Settings) (q : Text) (rest : List Text) : begun (nextEndpoint b q rest : Task F) = 0 := by
  cases rest <;> rfl

theorem left_lt (order : List Text → List Text) (add : F → J → Option F) (s s' : Sys F) (e : SysEv) (he : ¬ ByPage e)
    (h : s.step order add e = some s') : Prod.Lex (· < ·) (· < ·) s'.left s.left := by
  have begins : ∀ (i : Nat) (t u : Task F), s.tasks[i]? = some t → begun t = 1 → begun u = 0 → ∀ s'' : Sys F,
      s''.tasks = s.tasks.set i u → Prod.Lex (· < ·) (· < ·) s''.left s.left := by
    intro i t u ht h1 h2 s'' hs
    apply Prod.Lex.left
    rw [hs]
    have := sum_set begun s.tasks i t u ht
    omega
  have goes : ∀ (i : Nat) (t u : Task F), s.tasks[i]? = some t → begun t = begun u → ∀ s'' : Sys F,
      s''.tasks = s.tasks.set i u → work u + s''.channel.length < work t + s.channel.length →
      Prod.Lex (· < ·) (· < ·) s''.left s.left := by
    intro i t u ht h1 s'' hs hw
    have e1 := sum_set begun s.tasks i t u ht
    have e2 := sum_set work s.tasks i t u ht
    unfold Sys.left
    rw [hs, show ((s.tasks.set i u).map begun).sum = (s.tasks.map begun).sum by omega]
    apply Prod.Lex.right
    omega
  cases e with
  | call c => exact absurd trivial he
  | callLook => exact absurd trivial he
  | start => exact absurd trivial he
  | answer i r =>
    simp only [Sys.step] at h
    split at h
    · rename_i b q endpoint rest k ht
      split at h
      · rename_i doc _
        cases h
        refine goes i _ (.sending b q doc rest) ht rfl _ rfl ?_
        simp only [work]
        omega
      · cases h
        refine goes i _ _ ht ?_ _ rfl ?_
        · split <;> rfl
        · split
          · simp only [work]; omega
          · simp only [work]; omega
    · cases h
  | goOn i =>
    simp only [Sys.step, Sys.goOn] at h
    split at h
    · rename_i c ht
      split at h
      · cases h
      split at h
      · cases h
        exact begins i _ _ ht rfl (begun_next _ _ _) _ rfl
      · split at h
        · cases h
        split at h <;> (cases h; exact begins i _ _ ht rfl rfl _ rfl)
      · split at h
        · cases h
        split at h <;> (cases h; exact begins i _ _ ht rfl rfl _ rfl)
    · rename_i b q doc rest ht
      split at h
      · cases h
        refine goes i _ _ ht (begun_next _ _ _).symm _ rfl ?_
        have := work_next (F := F) b q rest
        have e : work (Task.sending b q doc rest : Task F) = 6 * rest.length + 2 := rfl
        rw [e]
        simp only [List.length_append, List.length_singleton]
        omega
      · cases h
    · rename_i ht
      split at h
      · cases h
      · cases h
        exact begins i _ _ ht rfl rfl _ rfl
    · cases h
  | receive =>
    simp only [Sys.step] at h
    split at h
    · split at h
      · cases h
      · rename_i doc rest hch
        split at h <;>
        · cases h
          unfold Sys.left
          apply Prod.Lex.right
          rw [hch, List.length_cons]
          simp only
          omega
    · cases h

/-- **C107.** Unless the page goes on calling functions, it comes to rest: there is no endless sequence of events. -/
theorem C107_no_endless (order : List Text → List Text) (add : F → J → Option F) (s : Nat → Sys F) (e : Nat → SysEv)
    (he : ∀ n, ¬ ByPage (e n)) (h : ∀ n, (s n).step order add (e n) = some (s (n + 1))) : False := by
  have wf : WellFounded (Prod.Lex (· < ·) (· < ·) : Nat × Nat → Nat × Nat → Prop) :=
    (Prod.lex Nat.lt_wfRel Nat.lt_wfRel).wf
  have key : ∀ x : Nat × Nat, ∀ n, (s n).left = x → False := by
    intro x
    induction x using wf.induction with
    | _ x ih =>
      intro n hn
      exact ih _ (hn ▸ left_lt order add _ _ _ (he n) (h n)) (n + 1) rfl
  exact key _ 0 rfl

/-! ## The order of the calls -/

/-- The page after calls one after the other, as in C104. -/
def Spec.inTurn (cs : List (Option Call)) : Page := Page.after (cs.filterMap id)

/-- What is known of a page after some calls. -/
structure Inv (cs : List (Option Call)) (s : Sys F) : Prop where
  len : s.tasks.length = cs.length
  waits : ∀ (i : Nat) c, s.tasks[i]? = some (.waiting c) → cs[i]? = some (some c)
  split : ∃ w, w ≤ cs.length ∧ (∀ (i : Nat) c, w ≤ i → cs[i]? = some (some c) → s.tasks[i]? = some (.waiting c)) ∧
    (∀ (i : Nat) c, i < w → s.tasks[i]? ≠ some (.waiting c)) ∧ inTurn (cs.take w) = ⟨s.settings, s.backendStuck⟩
  snap : ∀ (i : Nat) t b, s.tasks[i]? = some t → reads t = some b → b = (inTurn (cs.take i)).settings
  live : ∀ t ∈ s.tasks, ∀ b, UnderWay t → reads t = some b → s.settings = b

theorem inTurn_nones (cs : List (Option Call)) (w i : Nat) (hw : w ≤ i) (h : ∀ j, w ≤ j → j < i → ∀ c, cs[j]? ≠ some (some c)) :
    inTurn (cs.take i) = inTurn (cs.take w) := by
  induction i with
  | zero => rw [Nat.le_zero.mp hw]
  | succ i ih =>
    by_cases hwi : w = i + 1
    · rw [hwi]
    · rw [← ih (by omega) (fun j h1 h2 => h j h1 (by omega))]
      rw [List.take_add_one]
      cases hc : cs[i]? with
      | none => simp
      | some x =>
        cases x with
        | none => simp [inTurn]
        | some c => exact absurd hc (h i (by omega) (by omega) c)

theorem inTurn_succ (cs : List (Option Call)) (i : Nat) (c : Call) (h : cs[i]? = some (some c)) :
    inTurn (cs.take (i + 1)) = (inTurn (cs.take i)).call c := by
  rw [List.take_add_one, h]
  simp [inTurn, Page.after, List.foldl_append]

theorem inv_init (f : F) : Inv [] (Sys.init f) where
  len := rfl
  waits := fun i c h => by cases h
  split := ⟨0, Nat.le_refl _, (fun i c _ h => by cases h), (fun i c h => by omega), rfl⟩
  snap := fun i t b h => by cases h
  live := fun t h => by cases h

theorem snoc_get {α : Type} (l : List α) (a x : α) (i : Nat) (h : (l ++ [a])[i]? = some x) : l[i]? = some x ∨ i = l.length ∧ x = a := by
  rw [List.getElem?_append] at h
  split at h
  · exact .inl h
  · rename_i hl
    cases hi : i - l.length with
    | zero => rw [hi] at h; exact .inr ⟨by omega, (Option.some.inj h).symm⟩
    | succ k => rw [hi] at h; cases h

/-- A new call. -/
theorem inv_call (cs : List (Option Call)) (s : Sys F) (h : Inv cs s) (c : Option Call) (t : Task F)
    (ht : t = match c with | some c => .waiting c | none => .look) :
    Inv (cs ++ [c]) { s with tasks := s.tasks ++ [t] } := by
  have hle : ∀ i, i ≤ cs.length → (cs ++ [c]).take i = cs.take i := fun i hi => by
    rw [List.take_append_of_le_length hi]
  have old : ∀ (i : Nat) u, s.tasks[i]? = some u → (s.tasks ++ [t])[i]? = some u := by
    intro i u hu
    rw [List.getElem?_append, if_pos (List.getElem?_eq_some_iff.mp hu).1, hu]
  have oldc : ∀ (i : Nat) u, cs[i]? = some u → (cs ++ [c])[i]? = some u := by
    intro i u hu
    rw [List.getElem?_append, if_pos (List.getElem?_eq_some_iff.mp hu).1, hu]
  constructor
  case len => simp [h.len]
  case waits =>
    intro i d hd
    rcases snoc_get _ _ _ _ hd with hd | ⟨hi, hd⟩
    · exact oldc _ _ (h.waits i d hd)
    · cases c with
      | none => rw [ht] at hd; cases hd
      | some c =>
        rw [ht] at hd
        cases hd
        rw [hi, h.len]
        simp
  case split =>
    obtain ⟨w, h1, h2, hn, h3⟩ := h.split
    refine ⟨w, by simp; omega, ?_, ?_, by rw [hle w h1]; exact h3⟩
    case refine_2 =>
      intro i d hi hd
      rcases snoc_get _ _ _ _ hd with hd | ⟨hl, -⟩
      · exact hn i d hi hd
      · have := h.len; omega
    intro i d hw hd
    rcases snoc_get _ _ _ _ hd with hd | ⟨hi, hd⟩
    · exact old _ _ (h2 i d hw hd)
    · rw [← hd] at ht
      simp only at ht
      rw [ht, hi, ← h.len]
      simp
  case snap =>
    intro i u b hu hr
    rcases snoc_get _ _ _ _ hu with hu | ⟨hi, hu⟩
    · have : i ≤ cs.length := by have := (List.getElem?_eq_some_iff.mp hu).1; have := h.len; omega
      rw [hle i this]
      exact h.snap i u b hu hr
    · rw [hu, ht] at hr
      cases c <;> cases hr
  case live =>
    intro u hu b h1 h2
    rcases List.mem_append.mp hu with hu | hu
    · exact h.live u hu b h1 h2
    · rw [List.mem_singleton.mp hu, ht] at h1
      cases c <;> cases h1

/-- A call that goes on after it got the lock. -/
theorem inv_set (cs : List (Option Call)) (s : Sys F) (h : Inv cs s) (i : Nat) (t u : Task F) (ht : s.tasks[i]? = some t)
    (h1 : t.isWaiting = false) (h2 : u.isWaiting = false) (h3 : ∀ b, reads u = some b → reads t = some b)
    (h4 : ∀ b, UnderWay u → reads u = some b → UnderWay t)
    (s' : Sys F) (e1 : s'.tasks = s.tasks.set i u) (e2 : s'.settings = s.settings)
    (e3 : s'.backendStuck = s.backendStuck) : Inv cs s' := by
  have hi := (List.getElem?_eq_some_iff.mp ht).1
  have get : ∀ (j : Nat) v, s'.tasks[j]? = some v → (j ≠ i ∧ s.tasks[j]? = some v) ∨ j = i ∧ v = u := by
    intro j v hv
    rw [e1, List.getElem?_set] at hv
    split at hv
    · rename_i hij
      exact .inr ⟨hij.symm, (Option.some.inj hv).symm⟩
    · rename_i hij
      exact .inl ⟨fun e => hij e.symm, hv⟩
  have put : ∀ (j : Nat) v, s.tasks[j]? = some v → v ≠ t → s'.tasks[j]? = some v := by
    intro j v hv hne
    rw [e1, List.getElem?_set]
    split
    · rename_i hij
      rw [← hij, ht] at hv
      exact absurd (Option.some.inj hv).symm hne
    · exact hv
  constructor
  case len => rw [e1, List.length_set, h.len]
  case waits =>
    intro j c hj
    rcases get j _ hj with ⟨-, hj⟩ | ⟨-, hj⟩
    · exact h.waits j c hj
    · rw [← hj] at h2; cases h2
  case split =>
    obtain ⟨w, a1, a2, an, a3⟩ := h.split
    refine ⟨w, a1, fun j c hw hc => put j _ (a2 j c hw hc) ?_, fun j c hj hc => ?_, by rw [e2, e3]; exact a3⟩
    case refine_2 =>
      rcases get j _ hc with ⟨-, hc⟩ | ⟨-, hc⟩
      · exact an j c hj hc
      · rw [← hc] at h2; cases h2
    intro e
    rw [← e] at h1
    cases h1
  case snap =>
    intro j v b hv hr
    rcases get j v hv with ⟨-, hv⟩ | ⟨hj, hv⟩
    · exact h.snap j v b hv hr
    · rw [hv] at hr
      rw [hj]
      exact h.snap i t b ht (h3 b hr)
  case live =>
    intro v hv b hu hr
    obtain ⟨j, hj⟩ := List.mem_iff_getElem?.mp hv
    rw [e2]
    rcases get j v hj with ⟨-, hj⟩ | ⟨-, hj⟩
    · exact h.live v (List.mem_of_getElem? hj) b hu hr
    · rw [hj] at hu hr
      exact h.live t (List.mem_of_getElem? ht) b (h4 b hu hr) (h3 b hr)

/-- A call that gets the lock on the backend. -/
theorem inv_begin (cs : List (Option Call)) (s : Sys F) (h : Inv cs s) (i : Nat) (c : Call) (u : Task F)
    (ht : s.tasks[i]? = some (.waiting c)) (hs : s.backendStuck = false) (hb : (s.tasks.take i).any Task.isWaiting = false)
    (s' : Sys F) (e1 : s'.tasks = s.tasks.set i u)
    (h2 : u.isWaiting = false)
    (h3 : (⟨s'.settings, s'.backendStuck⟩ : Page) = (⟨s.settings, s.backendStuck⟩ : Page).call c)
    (h4 : ∀ b, reads u = some b → b = s.settings)
    (h5 : s'.settings = s.settings ∨ (s.tasks.any Task.isReading = false ∧ ¬ UnderWay u)) : Inv cs s' := by
  have hi := (List.getElem?_eq_some_iff.mp ht).1
  have hci := h.waits i c ht
  have get : ∀ (j : Nat) v, s'.tasks[j]? = some v → (j ≠ i ∧ s.tasks[j]? = some v) ∨ j = i ∧ v = u := by
    intro j v hv
    rw [e1, List.getElem?_set] at hv
    split at hv
    · rename_i hij
      exact .inr ⟨hij.symm, (Option.some.inj hv).symm⟩
    · rename_i hij
      exact .inl ⟨fun e => hij e.symm, hv⟩
  have put : ∀ (j : Nat) v, s.tasks[j]? = some v → j ≠ i → s'.tasks[j]? = some v := by
    intro j v hv hne
    rw [e1, List.getElem?_set, if_neg (fun e => hne e.symm)]
    exact hv
  obtain ⟨w, a1, a2, an, a3⟩ := h.split
  have hle : w ≤ i := by
    rcases Nat.lt_or_ge i w with hlt | hle
    · exact absurd ht (an i c hlt)
    · exact hle
  have nowait : ∀ (j : Nat), j < i → ∀ d, s.tasks[j]? ≠ some (.waiting d) := by
    intro j hj d hd
    rw [Bool.eq_false_iff] at hb
    refine hb (List.any_eq_true.mpr ⟨.waiting d, ?_, rfl⟩)
    refine List.mem_of_getElem? (i := j) ?_
    rw [List.getElem?_take, if_pos hj, hd]
  have hwi : inTurn (cs.take i) = ⟨s.settings, s.backendStuck⟩ := by
    rw [← a3]
    exact inTurn_nones cs w i hle (fun j h1 h2 d hd => nowait j h2 d (a2 j d h1 hd))
  constructor
  case len => rw [e1, List.length_set, h.len]
  case waits =>
    intro j d hj
    rcases get j _ hj with ⟨-, hj⟩ | ⟨-, hj⟩
    · exact h.waits j d hj
    · rw [← hj] at h2; cases h2
  case split =>
    refine ⟨i + 1, by have := h.len; omega, fun j d hj hd => put j _ (a2 j d (by omega) hd) (by omega), ?_,
      by rw [inTurn_succ cs i c hci, hwi, h3]⟩
    intro j d hj hd
    rcases get j _ hd with ⟨hne, hd⟩ | ⟨-, hd⟩
    · exact nowait j (by omega) d hd
    · rw [← hd] at h2; cases h2
  case snap =>
    intro j v b hv hr
    rcases get j v hv with ⟨-, hv⟩ | ⟨hj, hv⟩
    · exact h.snap j v b hv hr
    · rw [hv] at hr
      rw [hj, hwi, h4 b hr]
  case live =>
    intro v hv b hu hr
    obtain ⟨j, hj⟩ := List.mem_iff_getElem?.mp hv
    rcases get j v hj with ⟨-, hj⟩ | ⟨-, hj⟩
    · rcases h5 with h5 | ⟨h5, -⟩
      · rw [h5]; exact h.live v (List.mem_of_getElem? hj) b hu hr
      · exfalso
        rw [Bool.eq_false_iff] at h5
        refine h5 (List.any_eq_true.mpr ⟨v, List.mem_of_getElem? hj, ?_⟩)
        cases v <;> first | rfl | cases hu
    · rw [hj] at hu hr
      rcases h5 with h5 | ⟨-, h5⟩
      · rw [h5, h4 b hr]
      · exact absurd hu h5

theorem isWaiting_next (b : Settings) (q : Text) (rest : List Text) : (nextEndpoint b q rest : Task F).isWaiting = false := by
  cases rest <;> rfl

theorem reads_next (b : Settings) (q : Text) (rest : List Text) : reads (nextEndpoint b q rest : Task F) = some b := by
  cases rest <;> rfl

/-- The events of one step, as calls. -/
theorem inv_step (order : List Text → List Text) (add : F → J → Option F) (cs : List (Option Call)) (s s' : Sys F) (e : SysEv)
    (hI : Inv cs s) (h : s.step order add e = some s') : Inv (cs ++ callsOf [e]) s' := by
  cases e with
  | call c => cases h; exact inv_call cs s hI (some c) _ rfl
  | callLook => cases h; exact inv_call cs s hI none _ rfl
  | start =>
    cases h
    simp only [callsOf, List.append_nil]
    exact ⟨hI.len, hI.waits, hI.split, hI.snap, hI.live⟩
  | answer i r =>
    simp only [Sys.step] at h
    simp only [callsOf, List.append_nil]
    split at h
    · rename_i b q endpoint rest k ht
      split at h
      · rename_i doc _
        cases h
        exact inv_set cs s hI i _ (.sending b q doc rest) ht rfl rfl (fun _ h => h) (fun _ _ _ => trivial) _ rfl rfl rfl
      · cases h
        by_cases hk : k + 1 < 3
        · exact inv_set cs s hI i _ (.asking b q endpoint rest (k + 1)) ht rfl rfl (fun _ h => h) (fun _ _ _ => trivial) _
            (by rw [if_pos hk]) rfl rfl
        · exact inv_set cs s hI i _ (.polled b false) ht rfl rfl (fun _ h => h) (fun _ _ _ => trivial) _
            (by rw [if_neg hk]) rfl rfl
    · cases h
  | goOn i =>
    simp only [Sys.step, Sys.goOn] at h
    simp only [callsOf, List.append_nil]
    split at h
    · rename_i c ht
      split at h
      · cases h
      rename_i hn
      simp only [Bool.or_eq_true, not_or, Bool.not_eq_true] at hn
      obtain ⟨hs, hb⟩ := hn
      split at h
      · cases h
        refine inv_begin cs s hI i _ _ ht hs hb _ rfl (isWaiting_next _ _ _) ?_ ?_ (.inl rfl)
        · simp [Page.call, hs]
        · intro b hr
          rw [reads_next] at hr
          exact (Option.some.inj hr).symm
      · rename_i items
        split at h
        · cases h
        rename_i hread
        rw [Bool.not_eq_true] at hread
        split at h
        · rename_i hi
          cases h
          exact inv_begin cs s hI i _ .aborted ht hs hb _ rfl rfl (by simp [Page.call, Page.setApiList, Page.setTrackingAccounts, hs, hi]) (fun b hr => by cases hr) (.inl rfl)
        · rename_i urls hi
          cases h
          exact inv_begin cs s hI i _ .set ht hs hb _ rfl rfl (by simp [Page.call, Page.setApiList, Page.setTrackingAccounts, hs, hi]) (fun b hr => by cases hr)
            (.inr ⟨hread, id⟩)
      · rename_i items
        split at h
        · cases h
        rename_i hread
        rw [Bool.not_eq_true] at hread
        split at h
        · rename_i hi
          cases h
          exact inv_begin cs s hI i _ .aborted ht hs hb _ rfl rfl (by simp [Page.call, Page.setApiList, Page.setTrackingAccounts, hs, hi]) (fun b hr => by cases hr) (.inl rfl)
        · rename_i urls hi
          cases h
          exact inv_begin cs s hI i _ .set ht hs hb _ rfl rfl (by simp [Page.call, Page.setApiList, Page.setTrackingAccounts, hs, hi]) (fun b hr => by cases hr)
            (.inr ⟨hread, id⟩)
    · rename_i b q doc rest ht
      split at h
      · cases h
        refine inv_set cs s hI i _ _ ht rfl (isWaiting_next b q rest) ?_ (fun _ _ _ => trivial) _ rfl rfl rfl
        intro b' hr
        rw [reads_next] at hr
        exact hr
      · cases h
    · rename_i ht
      split at h
      · cases h
      · cases h
        exact inv_set cs s hI i _ (.looked s.frontier) ht rfl rfl (fun _ h => by cases h) (fun _ h _ => by cases h) _ rfl rfl rfl
    · cases h
  | receive =>
    simp only [Sys.step] at h
    simp only [callsOf, List.append_nil]
    split at h
    · split at h
      · cases h
      · split at h <;>
        · cases h
          exact ⟨hI.len, hI.waits, hI.split, hI.snap, hI.live⟩
    · cases h

theorem callsOf_cons (e : SysEv) (es : List SysEv) : callsOf (e :: es) = callsOf [e] ++ callsOf es := by
  cases e <;> rfl

theorem inv_run (order : List Text → List Text) (add : F → J → Option F) (es : List SysEv) : ∀ (cs : List (Option Call)) (s s' : Sys F),
    Inv cs s → s.run order add es = some s' → Inv (cs ++ callsOf es) s' := by
  induction es with
  | nil => intro cs s s' hI h; cases h; simpa [callsOf] using hI
  | cons e es ih =>
    intro cs s s' hI h
    simp only [Sys.run] at h
    split at h
    · cases h
    · rename_i s1 h1
      rw [callsOf_cons, ← List.append_assoc]
      exact ih _ s1 s' (inv_step order add cs s s1 e hI h1) h

/-- **C107.** Whatever the interleaving, a poll reads the settings that the calls before it, one after the other, leave. -/
theorem C107_poll_sees (order : List Text → List Text) (add : F → J → Option F) (f : F) (es : List SysEv) (s : Sys F)
    (h : (Sys.init f).run order add es = some s) (i : Nat) (t : Task F) (b : Settings) (ht : s.tasks[i]? = some t)
    (hr : reads t = some b) : b = (inTurn ((callsOf es).take i)).settings := by
  have hI := inv_run order add es [] _ s (inv_init f) h
  exact hI.snap i t b ht hr

/-- **C107.** Once no call waits for the lock on the backend, the settings are those that all calls, one after the other, leave. -/
theorem C107_last_set (order : List Text → List Text) (add : F → J → Option F) (f : F) (es : List SysEv) (s : Sys F)
    (h : (Sys.init f).run order add es = some s) (hw : ∀ c, Task.waiting c ∉ s.tasks) :
    inTurn (callsOf es) = ⟨s.settings, s.backendStuck⟩ := by
  have hI := inv_run order add es [] _ s (inv_init f) h
  rw [List.nil_append] at hI
  obtain ⟨w, h1, h2, -, h3⟩ := hI.split
  rw [← h3, ← inTurn_nones (callsOf es) w (callsOf es).length h1, List.take_length]
  intro j hj _ c hc
  exact hw c (List.mem_of_getElem? (h2 j c hj hc))

/-- **C107.** The settings do not change while a poll is under way: every poll under way reads the settings as they are. -/
theorem C107_settings_hold (order : List Text → List Text) (add : F → J → Option F) (f : F) (es : List SysEv) (s : Sys F)
    (h : (Sys.init f).run order add es = some s) (t : Task F) (ht : t ∈ s.tasks) (hu : UnderWay t) : reads t = some s.settings := by
  have hI := inv_run order add es [] _ s (inv_init f) h
  cases t with
  | asking b q e rest k => rw [hI.live _ ht b hu rfl]; rfl
  | sending b q doc rest => rw [hI.live _ ht b hu rfl]; rfl
  | _ => cases hu

/-! ## What a poll asks -/

theorem kept_run (order : List Text → List Text) (add : F → J → Option F) (ok : SysEv → Prop) (P : Sys F → Prop)
    (step : ∀ s s' e, ok e → P s → s.step order add e = some s' → P s') (es : List SysEv) : ∀ (s s' : Sys F), (∀ e ∈ es, ok e) → P s →
    s.run order add es = some s' → P s' := by
  induction es with
  | nil => intro s s' _ hP h; cases h; exact hP
  | cons e es ih =>
    intro s s' hok hP h
    simp only [Sys.run] at h
    split at h
    · cases h
    · rename_i s1 h1
      exact ih s1 s' (fun x hx => hok x (List.mem_cons_of_mem _ hx)) (step s s1 e (hok e List.mem_cons_self) hP h1) h

/-- A poll under way has sent its one request to some endpoints, is at the next one for the first, second or third time, and
has the others before it. -/
def Spec.Asks (order : List Text → List Text) : Task F → Prop
  | .asking b q endpoint rest k =>
    q = query (order b.trackingAccounts) ∧ k < 3 ∧ ∃ done, order b.apiList = done ++ endpoint :: rest
  | .sending b q _ rest => q = query (order b.trackingAccounts) ∧ ∃ done endpoint, order b.apiList = done ++ endpoint :: rest
  | _ => True

theorem asks_next (order : List Text → List Text) (b : Settings) (q : Text) (rest done : List Text)
    (hq : q = query (order b.trackingAccounts)) (h : order b.apiList = done ++ rest) : Asks order (nextEndpoint b q rest : Task F) := by
  cases rest with
  | nil => trivial
  | cons e rest => exact ⟨hq, by omega, done, h⟩

theorem asks_step (order : List Text → List Text) (add : F → J → Option F) (s s' : Sys F) (e : SysEv)
    (hI : ∀ t ∈ s.tasks, Asks order t) (h : s.step order add e = some s') : ∀ t ∈ s'.tasks, Asks order t := by
  have put : ∀ (i : Nat) (u : Task F), Asks order u → ∀ t ∈ s.tasks.set i u, Asks order t := by
    intro i u hu t ht
    rcases List.mem_or_eq_of_mem_set ht with ht | rfl
    · exact hI t ht
    · exact hu
  have new : ∀ (u : Task F), Asks order u → ∀ t ∈ s.tasks ++ [u], Asks order t := by
    intro u hu t ht
    rcases List.mem_append.mp ht with ht | ht
    · exact hI t ht
    · rw [List.mem_singleton.mp ht]; exact hu
  cases e with
  | call c => cases h; exact new _ trivial
  | callLook => cases h; exact new _ trivial
  | start => cases h; exact hI
  | answer i r =>
    simp only [Sys.step] at h
    split at h
    · rename_i b q endpoint rest k ht
      obtain ⟨h1, h2, done, h3⟩ := hI _ (List.mem_of_getElem? ht)
      split at h
      · rename_i doc _
        cases h
        exact put i _ ⟨h1, done, endpoint, h3⟩
      · cases h
        refine put i _ ?_
        split
        · exact ⟨h1, by assumption, done, h3⟩
        · trivial
    · cases h
  | goOn i =>
    simp only [Sys.step, Sys.goOn] at h
    split at h
    · split at h
      · cases h
      split at h
      · cases h
        exact put i _ (asks_next order _ _ _ [] rfl rfl)
      · split at h
        · cases h
        split at h <;> (cases h; exact put i _ trivial)
      · split at h
        · cases h
        split at h <;> (cases h; exact put i _ trivial)
    · rename_i b q doc rest ht
      obtain ⟨h1, done, endpoint, h2⟩ := hI _ (List.mem_of_getElem? ht)
      split at h
      · cases h
        exact put i _ (asks_next order b q rest (done ++ [endpoint]) h1 (by rw [h2, List.append_assoc]; rfl))
      · cases h
    · split at h
      · cases h
      · cases h
        exact put i _ trivial
    · cases h
  | receive =>
    simp only [Sys.step] at h
    split at h
    · split at h
      · cases h
      · split at h <;> (cases h; exact hI)
    · cases h

/-- **C107.** A poll under way asks the endpoints of the settings it reads, one after the other, at most three times each, for the
accounts of these settings. -/
theorem C107_poll_asks (order : List Text → List Text) (add : F → J → Option F) (f : F) (es : List SysEv) (s : Sys F)
    (h : (Sys.init f).run order add es = some s) (t : Task F) (ht : t ∈ s.tasks) : Asks order t :=
  kept_run order add (fun _ => True) (fun s => ∀ t ∈ s.tasks, Asks order t) (fun s s' e _ hP h => asks_step order add s s' e hP h) es
    (Sys.init f) s (fun _ _ => trivial) (fun t h => by cases h) h t ht

/-! ## What the page shows -/

/-- The frontier after taking over documents, each of which is the answer to a request of a poll. -/
inductive Spec.Grown (add : F → J → Option F) (answers : J → Prop) (f : F) : F → Prop
  | start : Grown add answers f f
  | more (g g' : F) (a d : J) : Grown add answers f g → answers a → patch a = some d → add g d = some g' → Grown add answers f g'

/-- **C107.** What a question about the best chain is answered from is a frontier that took over answers to requests of polls, and
nothing else. -/
theorem C107_shown (order : List Text → List Text) (add : F → J → Option F) (f : F) (es : List SysEv) (s : Sys F)
    (h : (Sys.init f).run order add es = some s) (g : F) (hg : g = s.frontier ∨ .looked g ∈ s.tasks) :
    Grown add (fun a => ∃ i, .answer i (some a) ∈ es) f g := by
  let A : J → Prop := fun a => ∃ i, SysEv.answer i (some a) ∈ es
  let D : J → Prop := fun d => ∃ a, A a ∧ patch a = some d
  let T : Task F → Prop := fun t => match t with
    | .sending _ _ d _ => D d
    | .looked g => Grown add A f g
    | _ => True
  have next : ∀ (b : Settings) (q : Text) (rest : List Text), T (nextEndpoint b q rest) := by
    intro b q rest
    cases rest <;> trivial
  have key := kept_run order add (fun e => e ∈ es) (fun s => Grown add A f s.frontier ∧ (∀ d ∈ s.channel, D d) ∧ ∀ t ∈ s.tasks, T t) ?_ es
    (Sys.init f) s (fun e he => he) ⟨.start, (fun d hd => by cases hd), (fun t ht => by cases ht)⟩ h
  · rcases hg with rfl | hg
    · exact key.1
    · exact key.2.2 _ hg
  · rintro s s' e he ⟨h1, h2, h3⟩ h
    have put : ∀ (i : Nat) (u : Task F), T u → ∀ t ∈ s.tasks.set i u, T t := by
      intro i u hu t ht
      rcases List.mem_or_eq_of_mem_set ht with ht | rfl
      · exact h3 t ht
      · exact hu
    have new : ∀ (u : Task F), T u → ∀ t ∈ s.tasks ++ [u], T t := by
      intro u hu t ht
      rcases List.mem_append.mp ht with ht | ht
      · exact h3 t ht
      · rw [List.mem_singleton.mp ht]; exact hu
    cases e with
    | call c => cases h; exact ⟨h1, h2, new _ trivial⟩
    | callLook => cases h; exact ⟨h1, h2, new _ trivial⟩
    | start => cases h; exact ⟨h1, h2, h3⟩
    | answer i r =>
      simp only [Sys.step] at h
      split at h
      · split at h
        · rename_i doc hd
          cases h
          refine ⟨h1, h2, put i _ ?_⟩
          cases r with
          | none => cases hd
          | some a => exact ⟨a, ⟨i, he⟩, hd⟩
        · cases h
          refine ⟨h1, h2, put i _ ?_⟩
          split <;> trivial
      · cases h
    | goOn i =>
      simp only [Sys.step, Sys.goOn] at h
      split at h
      · split at h
        · cases h
        split at h
        · cases h
          exact ⟨h1, h2, put i _ (next _ _ _)⟩
        · split at h
          · cases h
          split at h <;> (cases h; exact ⟨h1, h2, put i _ trivial⟩)
        · split at h
          · cases h
          split at h <;> (cases h; exact ⟨h1, h2, put i _ trivial⟩)
      · rename_i b q doc rest ht
        split at h
        · cases h
          refine ⟨h1, ?_, put i _ (next _ _ _)⟩
          intro d hd
          rcases List.mem_append.mp hd with hd | hd
          · exact h2 d hd
          · rw [List.mem_singleton.mp hd]
            exact h3 _ (List.mem_of_getElem? ht)
        · cases h
      · split at h
        · cases h
        · cases h
          exact ⟨h1, h2, put i _ h1⟩
      · cases h
    | receive =>
      simp only [Sys.step] at h
      split at h
      · split at h
        · cases h
        · rename_i doc rest hch
          have hr : ∀ d ∈ rest, D d := fun d hd => h2 d (by rw [hch]; exact List.mem_cons_of_mem _ hd)
          split at h
          · cases h
            exact ⟨h1, hr, h3⟩
          · rename_i g' hadd
            cases h
            obtain ⟨a, ha, hp⟩ := h2 doc (by rw [hch]; exact List.mem_cons_self)
            exact ⟨.more _ _ a doc h1 ha hp hadd, hr, h3⟩
      · cases h

/-! ## Every call returns -/

/-- Nothing wrong with the items of a call: they are all strings. -/
def Spec.Strings : SysEv → Prop
  | .call (.setApiList items) => Item.other ∉ items
  | .call (.setTrackingAccounts items) => Item.other ∉ items
  | _ => True

theorem all_strings (items : List Item) (h : Item.other ∉ items) : ∃ ts, strings items = some ts := by
  induction items with
  | nil => exact ⟨[], rfl⟩
  | cons x items ih =>
    obtain ⟨ts, hts⟩ := ih (fun hm => h (List.mem_cons_of_mem _ hm))
    cases x with
    | string t => exact ⟨t :: ts, by simp [strings, hts]⟩
    | other => exact absurd List.mem_cons_self h

theorem fine_step (order : List Text → List Text) (add : F → J → Option F) (hadd : ∀ f d, add f d ≠ none) (s s' : Sys F) (e : SysEv)
    (hok : Strings e) (hP : s.backendStuck = false ∧ s.frontierStuck = false ∧ ∀ t ∈ s.tasks, t ≠ .aborted ∧ ∀ c, t = .waiting c → Strings (.call c))
    (h : s.step order add e = some s') :
    s'.backendStuck = false ∧ s'.frontierStuck = false ∧ ∀ t ∈ s'.tasks, t ≠ .aborted ∧ ∀ c, t = .waiting c → Strings (.call c) := by
  obtain ⟨h1, h2, hI⟩ := hP
  have put : ∀ (i : Nat) (u : Task F), u ≠ .aborted → u.isWaiting = false →
      ∀ t ∈ s.tasks.set i u, t ≠ .aborted ∧ ∀ c, t = .waiting c → Strings (.call c) := by
    intro i u hu hw t ht
    rcases List.mem_or_eq_of_mem_set ht with ht | rfl
    · exact hI t ht
    · exact ⟨hu, fun c hc => by rw [hc] at hw; cases hw⟩
  have new : ∀ (u : Task F), u ≠ .aborted → (∀ c, u = .waiting c → Strings (.call c)) →
      ∀ t ∈ s.tasks ++ [u], t ≠ .aborted ∧ ∀ c, t = .waiting c → Strings (.call c) := by
    intro u hu hw t ht
    rcases List.mem_append.mp ht with ht | ht
    · exact hI t ht
    · rw [List.mem_singleton.mp ht]; exact ⟨hu, hw⟩
  cases e with
  | call c => cases h; exact ⟨h1, h2, new _ (fun h => by cases h) (fun c hc => by cases hc; exact hok)⟩
  | callLook => cases h; exact ⟨h1, h2, new _ (fun h => by cases h) (fun c hc => by cases hc)⟩
  | start => cases h; exact ⟨h1, h2, hI⟩
  | answer i r =>
    simp only [Sys.step] at h
    split at h
    · split at h
      · cases h
        exact ⟨h1, h2, put i _ (fun h => by cases h) rfl⟩
      · cases h
        refine ⟨h1, h2, put i _ ?_ ?_⟩
        · split <;> (intro h; cases h)
        · split <;> rfl
    · cases h
  | goOn i =>
    simp only [Sys.step, Sys.goOn] at h
    split at h
    · rename_i c ht
      have hc := (hI _ (List.mem_of_getElem? ht)).2 c rfl
      split at h
      · cases h
      split at h
      · cases h
        refine ⟨h1, h2, put i _ ?_ (isWaiting_next _ _ _)⟩
        cases order s.settings.apiList <;> (intro h; cases h)
      · split at h
        · cases h
        obtain ⟨ts, hts⟩ := all_strings _ hc
        rw [hts] at h
        cases h
        exact ⟨h1, h2, put i _ (fun h => by cases h) rfl⟩
      · split at h
        · cases h
        obtain ⟨ts, hts⟩ := all_strings _ hc
        rw [hts] at h
        cases h
        exact ⟨h1, h2, put i _ (fun h => by cases h) rfl⟩
    · rename_i b q doc rest ht
      split at h
      · cases h
        refine ⟨h1, h2, put i _ ?_ (isWaiting_next _ _ _)⟩
        cases rest <;> (intro h; cases h)
      · cases h
    · split at h
      · cases h
      · cases h
        exact ⟨h1, h2, put i _ (fun h => by cases h) rfl⟩
    · cases h
  | receive =>
    simp only [Sys.step] at h
    split at h
    · split at h
      · cases h
      · split at h
        · rename_i hn; exact absurd hn (hadd _ _)
        · cases h; exact ⟨h1, h2, hI⟩
    · cases h

theorem running_run (order : List Text → List Text) (add : F → J → Option F) (es : List SysEv) : ∀ (s s' : Sys F),
    s.run order add es = some s' → .start ∈ es ∨ s.running = true → s'.running = true := by
  have keep : ∀ (s s' : Sys F) (e : SysEv), s.step order add e = some s' → e = .start ∨ s.running = true → s'.running = true := by
    intro s s' e h hr
    cases e with
    | start => cases h; rfl
    | call c => cases h; exact hr.resolve_left (fun h => by cases h)
    | callLook => cases h; exact hr.resolve_left (fun h => by cases h)
    | answer i r =>
      have hr := hr.resolve_left (fun h => by cases h)
      simp only [Sys.step] at h
      split at h
      · split at h <;> (cases h; exact hr)
      · cases h
    | goOn i =>
      have hr := hr.resolve_left (fun h => by cases h)
      simp only [Sys.step, Sys.goOn] at h
      split at h
      · split at h
        · cases h
        split at h
        · cases h; exact hr
        · split at h
          · cases h
          split at h <;> (cases h; exact hr)
        · split at h
          · cases h
          split at h <;> (cases h; exact hr)
      · split at h
        · cases h; exact hr
        · cases h
      · split at h
        · cases h
        · cases h; exact hr
      · cases h
    | receive =>
      have hr := hr.resolve_left (fun h => by cases h)
      simp only [Sys.step] at h
      split at h
      · split at h
        · cases h
        · split at h <;> (cases h; exact hr)
      · cases h
  induction es with
  | nil => intro s s' h hr; cases h; exact hr.resolve_left (fun h => by cases h)
  | cons e es ih =>
    intro s s' h hr
    simp only [Sys.run] at h
    split at h
    · cases h
    · rename_i s1 h1
      refine ih s1 s' h ?_
      rcases hr with hr | hr
      · rcases List.mem_cons.mp hr with he | hr
        · exact .inr (keep s s1 e h1 (.inl he.symm))
        · exact .inl hr
      · exact .inr (keep s s1 e h1 (.inr hr))

/-- **C107.** A page that starts the processor and sets nothing but strings, with a frontier that does not panic: whatever the
interleaving, it comes to rest only when every one of its calls has returned and every document was taken over. -/
theorem C107_all_return_partial (order : List Text → List Text) (add : F → J → Option F) (hadd : ∀ f d, add f d ≠ none) (f : F)
    (es : List SysEv) (hstart : .start ∈ es) (hes : ∀ e ∈ es, Strings e) (s : Sys F) (h : (Sys.init f).run order add es = some s)
    (hq : Quiet order add s) : s.channel = [] ∧ s.tasks.length = (callsOf es).length ∧ ∀ t ∈ s.tasks, Finished t := by
  obtain ⟨h1, h2, h3⟩ := kept_run order add Strings _ (fun s s' e hok hP h => fine_step order add hadd s s' e hok hP h) es (Sys.init f) s hes
    ⟨rfl, rfl, fun t h => by cases h⟩ h
  obtain ⟨h4, h5⟩ := C107_no_deadlock_partial order add s (running_run order add es _ s h (.inl hstart)) h1 h2 hq
  refine ⟨h4, ?_, fun t ht => (h5 t ht).resolve_right (h3 t ht).1⟩
  have := (inv_run order add es [] _ s (inv_init f) h).len
  simpa using this

/-! ## Calls that never return -/

/-- A task is left as it is when no step is possible for it. -/
theorem task_step (order : List Text → List Text) (add : F → J → Option F) (s s' : Sys F) (e : SysEv) (i : Nat) (t : Task F)
    (ht : s.tasks[i]? = some t) (h : s.step order add e = some s') : s'.tasks[i]? = some t ∨ e = .goOn i ∨ ∃ r, e = .answer i r := by
  have put : ∀ (j : Nat) (u : Task F), j ≠ i → (s.tasks.set j u)[i]? = some t := by
    intro j u hj
    rw [List.getElem?_set, if_neg hj]
    exact ht
  have new : ∀ (u : Task F), (s.tasks ++ [u])[i]? = some t := by
    intro u
    rw [List.getElem?_append, if_pos (List.getElem?_eq_some_iff.mp ht).1, ht]
  cases e with
  | call c => cases h; exact .inl (new _)
  | callLook => cases h; exact .inl (new _)
  | start => cases h; exact .inl ht
  | answer j r =>
    by_cases hj : j = i
    · exact .inr (.inr ⟨r, by rw [hj]⟩)
    simp only [Sys.step] at h
    split at h
    · split at h <;> (cases h; exact .inl (put j _ hj))
    · cases h
  | goOn j =>
    by_cases hj : j = i
    · exact .inr (.inl (by rw [hj]))
    refine .inl ?_
    simp only [Sys.step, Sys.goOn] at h
    split at h
    · split at h
      · cases h
      split at h
      · cases h
        exact put j _ hj
      · split at h
        · cases h
        split at h <;> (cases h; exact put j _ hj)
      · split at h
        · cases h
        split at h <;> (cases h; exact put j _ hj)
    · split at h
      · cases h
        exact put j _ hj
      · cases h
    · split at h
      · cases h
      · cases h
        exact put j _ hj
    · cases h
  | receive =>
    simp only [Sys.step] at h
    split at h
    · split at h
      · cases h
      · split at h <;> (cases h; exact .inl ht)
    · cases h

/-- What a step does to the locks and the channel. -/
theorem flags_step (order : List Text → List Text) (add : F → J → Option F) (s s' : Sys F) (e : SysEv)
    (h : s.step order add e = some s') : (s.backendStuck = true → s'.backendStuck = true) ∧
    (s.frontierStuck = true → s'.frontierStuck = true) ∧
    (e ≠ .start → s.running = false → s'.running = false ∧ (s.channel ≠ [] → s'.channel ≠ [])) := by
  cases e with
  | call c => cases h; exact ⟨id, id, fun _ h => ⟨h, id⟩⟩
  | callLook => cases h; exact ⟨id, id, fun _ h => ⟨h, id⟩⟩
  | start => cases h; exact ⟨id, id, fun h => absurd rfl h⟩
  | answer j r =>
    simp only [Sys.step] at h
    split at h
    · split at h <;> (cases h; exact ⟨id, id, fun _ h => ⟨h, id⟩⟩)
    · cases h
  | goOn j =>
    simp only [Sys.step, Sys.goOn] at h
    split at h
    · split at h
      · cases h
      split at h
      · cases h
        exact ⟨id, id, fun _ h => ⟨h, id⟩⟩
      · split at h
        · cases h
        split at h
        · cases h; exact ⟨fun _ => rfl, id, fun _ h => ⟨h, id⟩⟩
        · cases h; exact ⟨id, id, fun _ h => ⟨h, id⟩⟩
      · split at h
        · cases h
        split at h
        · cases h; exact ⟨fun _ => rfl, id, fun _ h => ⟨h, id⟩⟩
        · cases h; exact ⟨id, id, fun _ h => ⟨h, id⟩⟩
    · split at h
      · cases h
        exact ⟨id, id, fun _ h => ⟨h, fun _ => by simp⟩⟩
      · cases h
    · split at h
      · cases h
      · cases h
        exact ⟨id, id, fun _ h => ⟨h, id⟩⟩
    · cases h
  | receive =>
    simp only [Sys.step] at h
    split at h
    · rename_i hr
      simp only [Bool.and_eq_true, Bool.not_eq_true'] at hr
      split at h
      · cases h
      · split at h
        · cases h; exact ⟨id, fun _ => rfl, fun _ hn => by rw [hr.1] at hn; cases hn⟩
        · cases h; exact ⟨id, id, fun _ hn => by rw [hr.1] at hn; cases hn⟩
    · cases h

/-- **C107 fails** for a page that does not run the processor: a poll with two endpoints that answer never returns, and neither does
a later change of the endpoints or the accounts, whatever else happens. -/
theorem C107_not_started_fails (order : List Text → List Text) (horder : ∀ l, (order l).Perm l) (add : F → J → Option F) (f : F)
    (u1 u2 : Text) (hu : u1 ≠ u2) (a1 a2 d1 d2 : J) (h1 : patch a1 = some d1) (h2 : patch a2 = some d2) (c : Call) (hc : c ≠ .poll) :
    ∃ s, (Sys.init f).run order add [.call (.setApiList [.string u1, .string u2]), .goOn 0, .call .poll, .goOn 1, .answer 1 (some a1),
        .goOn 1, .answer 1 (some a2), .call c] = some s ∧
      ∀ es s', (∀ e ∈ es, e ≠ .start) → s.run order add es = some s' →
        (∃ t, s'.tasks[1]? = some t ∧ ¬ Finished t) ∧ ∃ t, s'.tasks[2]? = some t ∧ ¬ Finished t := by
  have hcol : collect [u1, u2] = [u1, u2] := by
    simp only [collect, List.foldl_cons, List.foldl_nil, List.not_mem_nil, if_false, List.nil_append, List.mem_singleton]
    rw [if_neg (fun e => hu e.symm)]
    rfl
  obtain ⟨v1, v2, hv⟩ : ∃ v1 v2, order [u1, u2] = [v1, v2] := by
    have := (horder [u1, u2]).length_eq
    match h : order [u1, u2] with
    | [v1, v2] => exact ⟨v1, v2, rfl⟩
    | [] => rw [h] at this; simp at this
    | [_] => rw [h] at this; simp at this
    | _ :: _ :: _ :: _ => rw [h] at this; simp at this
  refine ⟨⟨⟨[u1, u2], []⟩, false, false, false, [d1], f, [.set, .sending ⟨[u1, u2], []⟩ (query (order [])) d2 [], .waiting c]⟩, ?_, ?_⟩
  · simp [Sys.run, Sys.step, Sys.goOn, Sys.init, Task.isWaiting, Task.isReading, strings, Settings.setApiList, hcol, hv, nextEndpoint, h1, h2]
  · intro es s' hes h
    have key := kept_run order add (fun e => e ≠ .start) (fun s => s.running = false ∧ s.channel ≠ [] ∧
      s.tasks[1]? = some (.sending ⟨[u1, u2], []⟩ (query (order [])) d2 []) ∧ s.tasks[2]? = some (.waiting c)) ?_ es _ s' hes
      ⟨rfl, by simp, rfl, rfl⟩ h
    · exact ⟨⟨_, key.2.2.1, id⟩, ⟨_, key.2.2.2, id⟩⟩
    · rintro s s' e he ⟨hr, hch, t1, t2⟩ hs
      obtain ⟨-, -, hk⟩ := flags_step order add s s' e hs
      obtain ⟨k1, k2⟩ := hk he hr
      have hread : s.tasks.any Task.isReading = true := List.any_eq_true.mpr ⟨_, List.mem_of_getElem? t1, rfl⟩
      have hfull : ¬ s.channel.length < 1 := by
        cases hl : s.channel with
        | nil => exact absurd hl hch
        | cons _ _ => simp
      refine ⟨k1, k2 hch, ?_, ?_⟩
      · rcases task_step order add s s' e 1 _ t1 hs with h | rfl | ⟨r, rfl⟩
        · exact h
        · simp [Sys.step, Sys.goOn, t1, hfull] at hs
        · simp [Sys.step, t1] at hs
      · rcases task_step order add s s' e 2 _ t2 hs with h | rfl | ⟨r, rfl⟩
        · exact h
        · simp only [Sys.step, Sys.goOn, t2, hread, if_true] at hs
          split at hs
          · cases hs
          · cases c with
            | poll => exact absurd rfl hc
            | setApiList items => cases hs
            | setTrackingAccounts items => cases hs
        · simp [Sys.step, t2] at hs

/-- **C107 fails** when taking over a document panics: no later question about the best chain is ever answered. -/
theorem C107_panic_fails (order : List Text → List Text) (horder : ∀ l, (order l).Perm l) (add : F → J → Option F) (f : F)
    (u : Text) (a d : J) (h1 : patch a = some d) (hp : add f d = none) :
    ∃ s, (Sys.init f).run order add [.start, .call (.setApiList [.string u]), .goOn 0, .call .poll, .goOn 1, .answer 1 (some a), .goOn 1,
        .receive, .callLook] = some s ∧
      ∀ es s', s.run order add es = some s' → s'.tasks[2]? = some .look := by
  have hv : order [u] = [u] := List.perm_singleton.mp (horder [u])
  refine ⟨⟨⟨[u], []⟩, false, true, true, [], f, [.set, .polled ⟨[u], []⟩ true, .look]⟩, ?_, ?_⟩
  · simp [Sys.run, Sys.step, Sys.goOn, Sys.init, Task.isWaiting, Task.isReading, strings, Settings.setApiList, collect, hv, nextEndpoint, h1,
      hp]
  · intro es s' h
    refine (kept_run order add (fun _ => True) (fun s => s.frontierStuck = true ∧ s.tasks[2]? = some .look) ?_ es _ s' (fun _ _ => trivial)
      ⟨rfl, rfl⟩ h).2
    rintro s s' e - ⟨hf, t2⟩ hs
    refine ⟨(flags_step order add s s' e hs).2.1 hf, ?_⟩
    rcases task_step order add s s' e 2 _ t2 hs with h | rfl | ⟨r, rfl⟩
    · exact h
    · simp [Sys.step, Sys.goOn, t2, hf] at hs
    · simp [Sys.step, t2] at hs

/-- **C107 fails** after a setting with an item that is no string: every call that waits for the backend, or comes later, waits for
ever. -/
theorem C107_abort_fails (order : List Text → List Text) (add : F → J → Option F) (s : Sys F) (hs : s.backendStuck = true) (i : Nat)
    (c : Call) (ht : s.tasks[i]? = some (.waiting c)) (es : List SysEv) (s' : Sys F) (h : s.run order add es = some s') :
    s'.tasks[i]? = some (.waiting c) := by
  refine (kept_run order add (fun _ => True) (fun s => s.backendStuck = true ∧ s.tasks[i]? = some (.waiting c)) ?_ es s s'
    (fun _ _ => trivial) ⟨hs, ht⟩ h).2
  rintro s s' e - ⟨hf, t2⟩ hs
  refine ⟨(flags_step order add s s' e hs).1 hf, ?_⟩
  rcases task_step order add s s' e i _ t2 hs with h | rfl | ⟨r, rfl⟩
  · exact h
  · simp [Sys.step, Sys.goOn, t2, hf] at hs
  · simp [Sys.step, t2] at hs

/-- An answer with an account whose path is empty. -/
def emptyPathAnswer (E : Json.Env) (s g : Hash.ProtocolState) (k : Hash.PubKey) (leaf : Hash.Fp) : J := .obj [
  ("bestChain", .arr [.obj [("protocolState", GraphQL.stateDoc E s)]]),
  ("genesisBlock", .obj [("protocolState", GraphQL.stateDoc E g)]),
  (String.ofList (Json.address E (leBytes 32 k.x.val) k.isOdd), GraphQL.entryDoc [] leaf)]

/-- **C107 fails** for the document of an answer in which an account has an empty path: taking it over panics. -/
theorem C107_empty_path_fails (E : Json.Env) (h : Consensus.Header Hash.ProtocolState)
    (f : Frontier.State Hash.ProtocolState GraphQL.LedgerProof) (s g : Hash.ProtocolState) (k : Hash.PubKey) (leaf : Hash.Fp) :
    ∃ d, patch (.obj [("data", emptyPathAnswer E s g k leaf)]) = some d ∧ addJson E h f d = none := by
  obtain ⟨d, hd⟩ := C106_answered (emptyPathAnswer E s g k leaf) _ _ _ _ rfl rfl rfl
  refine ⟨d, hd, ?_⟩
  have hl := (C106_rest E _ _ hd).2.2.2.2.2
  obtain ⟨hash, hh, rfl⟩ := patch_some hd
  have e : GraphQL.index (.obj [("data", emptyPathAnswer E s g k leaf)]) "data" = emptyPathAnswer E s g k leaf := rfl
  rw [e] at hl hh ⊢
  have hash_eq : hash = some (GraphQL.Spec.hashText E 0x05 g.body.blockchainState.registers.ledger) := by
    cases hash with
    | none => cases hh
    | some v => exact congrArg some hh
  have hs : ∃ st, GraphQL.protocolState E (stateIn (inMember "bestChain" (inFirst (inMember "protocolState" (inMember "blockchainState"
      (assign "genesisLedgerHash" hash)))) (emptyPathAnswer E s g k leaf))) = .ok st := by
    rw [stateIn_patched, hash_eq]
    have hd : stateIn (emptyPathAnswer E s g k leaf) = GraphQL.stateDoc E s := rfl
    have hp : inMember "blockchainState" (assign "genesisLedgerHash"
        (some (GraphQL.Spec.hashText E 5 g.body.blockchainState.registers.ledger))) (GraphQL.stateDoc E s) =
        GraphQL.stateDoc E { s with body := { s.body with blockchainState :=
          { s.body.blockchainState with genesisLedgerHash := g.body.blockchainState.registers.ledger } } } := by
      simp [GraphQL.stateDoc, inMember, assign, GraphQL.blockchainDoc, List.lookup]
    rw [hd, hp]
    exact ⟨_, GraphQL.C73_import_partial E _ _ (GraphQL.says_stateDoc E _)⟩
  have hn : GraphQL.sparseLedger E (emptyPathAnswer E s g k leaf) = .error .panic := by
    have na : ∀ k : String, k.toList.length ≠ 55 → GraphQL.isAddress E k = false := by
      intro k hk
      unfold GraphQL.isAddress
      cases ha : Json.fromAddress E k.toList with
      | none => rfl
      | some v => exact absurd (Json.StrConv.C105_address_read E _ v.1 v.2 ha).2 hk
    have he : GraphQL.ledgerEntry (GraphQL.entryDoc [] leaf) = .error .panic := by
      obtain ⟨⟨js, h1, h2⟩, h3⟩ := GraphQL.says_entryDoc [] leaf
      cases h2
      simp only [GraphQL.ledgerEntry, GraphQL.index_of_has h1, GraphQL.index_of_has h3, GraphQL.fpFromRadix10_decimal, bind, Except.bind]
      rfl
    unfold emptyPathAnswer GraphQL.sparseLedger
    simp only
    rw [List.filter_cons_of_neg (by rw [na "bestChain" (by decide)]; simp),
      List.filter_cons_of_neg (by rw [na "genesisBlock" (by decide)]; simp),
      List.filter_cons_of_pos (by exact (GraphQL.isAddress_iff E _).mpr (GraphQL.addressText_address E k))]
    simp only [GraphQL.allOf, he, bind, Except.bind]
  obtain ⟨st, hs⟩ := hs
  rw [hn] at hl
  unfold stateIn at hs
  unfold addJson GraphQL.bestChain
  rw [hs, hl]
  rfl

/-- **C107.** A document that is refused when it is imported is passed over. -/
theorem C107_bad_document (E : Json.Env) (h : Consensus.Header Hash.ProtocolState)
    (f : Frontier.State Hash.ProtocolState GraphQL.LedgerProof) (d : J) (hd : GraphQL.bestChain E d = .error .err) :
    addJson E h f d = some f := by
  simp only [addJson, hd]

theorem offers_snoc {B St : Type} (add : St → B → St × Except Frontier.Err Unit) (bs : List B) (b : B) :
    ∀ s, Frontier.offers add s (bs ++ [b]) = (add (Frontier.offers add s bs) b).1 := by
  induction bs with
  | nil => intro s; rfl
  | cons x xs ih => intro s; exact ih _

/-- **C107.** What the page shows is the frontier that was offered blocks, one after the other, and nothing else; each of them was
read from an answer to a request of a poll. -/
theorem C107_shown_blocks (E : Json.Env) (h : Consensus.Header Hash.ProtocolState) (order : List Text → List Text) (es : List SysEv)
    (s : Sys (Frontier.State Hash.ProtocolState GraphQL.LedgerProof))
    (hrun : (Sys.init Frontier.State.new).run order (addJson E h) es = some s)
    (g : Frontier.State Hash.ProtocolState GraphQL.LedgerProof) (hg : g = s.frontier ∨ .looked g ∈ s.tasks) :
    ∃ bs, g = Frontier.offers (Frontier.addBlockBerkeley h) Frontier.State.new bs ∧
      ∀ b ∈ bs, ∃ i a d, .answer i (some a) ∈ es ∧ patch a = some d ∧ GraphQL.bestChain E d = .ok b := by
  have hG := C107_shown order (addJson E h) Frontier.State.new es s hrun g hg
  clear hg
  induction hG with
  | start => exact ⟨[], rfl, fun b hb => by cases hb⟩
  | more g g' a d _ ha hp hadd ih =>
    obtain ⟨bs, rfl, hbs⟩ := ih
    obtain ⟨i, hi⟩ := ha
    unfold addJson at hadd
    split at hadd
    · cases hadd; exact ⟨bs, rfl, hbs⟩
    · cases hadd
    · rename_i b hb
      refine ⟨bs ++ [b], ?_, ?_⟩
      · rw [offers_snoc]
        split at hadd
        · rename_i f' he
          rw [he]; exact (Option.some.inj hadd).symm
        · rename_i f' e he
          split at hadd
          · cases hadd
          · rw [he]; exact (Option.some.inj hadd).symm
      · intro x hx
        rcases List.mem_append.mp hx with hx | hx
        · exact hbs x hx
        · rw [List.mem_singleton] at hx; subst hx
          exact ⟨i, a, d, hi, hp, hb⟩

/-- A session of the page with the real frontier in which a question about the best chain is never answered. -/
example (E : Json.Env) (h : Consensus.Header Hash.ProtocolState) (f : Frontier.State Hash.ProtocolState GraphQL.LedgerProof)
    (s : Hash.ProtocolState) (k : Hash.PubKey) (leaf : Hash.Fp) (order : List Text → List Text) (horder : ∀ l, (order l).Perm l) :
    ∃ before t, (Sys.init f).run order (addJson E h) before = some t ∧
      ∀ es s', t.run order (addJson E h) es = some s' → s'.tasks[2]? = some .look := by
  obtain ⟨d, h1, h2⟩ := C107_empty_path_fails E h f s s k leaf
  obtain ⟨t, h3, h4⟩ := C107_panic_fails order horder (addJson E h) f "u".toList _ d h1 h2
  exact ⟨_, t, h3, h4⟩

/-- A session: endpoints are set, a poll gets a document, the accounts are set while it is under way, and the document is taken
over.  In the end nothing can happen, and every call has returned. -/
example (E : Json.Env) (s g : Hash.ProtocolState) : ∃ d t,
    patch (.obj [("data", sampleAnswer E s g)]) = some d ∧
    (Sys.init [J.null]).run id (fun f d => some (d :: f)) [.start, .call (.setApiList [.string "u".toList]), .goOn 0, .call .poll, .goOn 1,
      .call (.setTrackingAccounts [.string "a".toList]), .callLook, .answer 1 none, .answer 1 (some (.obj [("data", sampleAnswer E s g)])),
      .goOn 1, .goOn 3, .goOn 2, .receive] = some t ∧
    t.tasks = [.set, .polled ⟨["u".toList], []⟩ true, .set, .looked [J.null]] ∧ t.frontier = [d, J.null] ∧
    t.settings = ⟨["u".toList], ["a".toList]⟩ ∧ Quiet id (fun f d => some (d :: f)) t ∧ ∀ x ∈ t.tasks, Finished x := by
  obtain ⟨d, hd⟩ := C106_answered (sampleAnswer E s g) _ _ _ _ rfl rfl rfl
  refine ⟨d, ⟨⟨["u".toList], ["a".toList]⟩, false, true, false, [], [d, J.null],
    [.set, .polled ⟨["u".toList], []⟩ true, .set, .looked [J.null]]⟩, hd, ?_, rfl, rfl, rfl, ?_, ?_⟩
  · simp [Sys.run, Sys.step, Sys.goOn, Sys.init, Task.isWaiting, Task.isReading, strings, Settings.setApiList, Settings.setTrackingAccounts,
      collect, nextEndpoint, hd]
  · intro e he
    cases e with
    | call c => exact absurd trivial he
    | callLook => exact absurd trivial he
    | start => exact absurd trivial he
    | answer i r =>
      match i with
      | 0 => rfl
      | 1 => rfl
      | 2 => rfl
      | 3 => rfl
      | _ + 4 => rfl
    | goOn i =>
      match i with
      | 0 => rfl
      | 1 => rfl
      | 2 => rfl
      | 3 => rfl
      | _ + 4 => rfl
    | receive => rfl
  · intro x hx
    simp only [List.mem_cons, List.not_mem_nil, or_false] at hx
    rcases hx with rfl | rfl | rfl | rfl <;> trivial

end MinaRs.Page
