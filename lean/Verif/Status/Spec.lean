import Verif.Status.Model

/-! What a stream of status lines says, without the reader. -/

namespace MinaRs.Status.Spec

/-- The lines of a text, each with its line feed; the last one may lack it. -/
def lines : Bytes → List Bytes
  | [] => []
  | b :: bs =>
    if b = 10 then [b] :: lines bs
    else match lines bs with
      | [] => [[b]]
      | l :: ls => (b :: l) :: ls

/-- The bytes that arrive before reading fails. -/
def received : List Ev → Bytes
  | [] => []
  | .error :: _ => []
  | .data b bs :: evs => b :: bs ++ received evs

/-- Reading fails at some point. -/
def Broken (evs : List Ev) : Prop := Ev.error ∈ evs

instance instDecidableBroken : (evs : List Ev) → Decidable (Broken evs)
  | [] => .isFalse (by simp [Broken])
  | .error :: _ => .isTrue (by simp [Broken])
  | .data _ _ :: evs => match instDecidableBroken evs with
    | .isTrue h => .isTrue (by simp only [Broken, List.mem_cons]; exact .inr h)
    | .isFalse h => .isFalse (by simp only [Broken, List.mem_cons]; rintro (h' | h'); cases h'; exact h h')

/-- The line has its line feed. -/
def Ended (l : Bytes) : Prop := l.getLast? = some 10

instance (l : Bytes) : Decidable (Ended l) := inferInstanceAs (Decidable (_ = _))

/-- The lines a stream delivers: all of them if the peer closes it, those with a line feed if reading fails. -/
def delivered (evs : List Ev) : List Bytes :=
  if Broken evs then (lines (received evs)).filter (fun l => decide (Ended l)) else lines (received evs)

/-- The line is UTF-8. -/
def IsText (l : Bytes) : Bool := (String.fromUTF8? ⟨l.toArray⟩).isSome

end MinaRs.Status.Spec
