import Verif.Hash.Command
/-!
# What memos and built commands should contain
-/

namespace MinaRs.Hash.Spec

/-- The memo of a text: a tag, the length, the text, zeros up to 34 bytes. -/
def IsMemoOf (m : Bytes) (text : Bytes) : Prop :=
  m = [1, UInt8.ofNat text.length] ++ text ++ List.replicate (32 - text.length) 0

/-- The last value given by the calls that set this field, if any. -/
def lastSet {α : Type} (get : Setter → Option α) (calls : List Setter) (default : α) : α :=
  ((calls.filterMap get).getLast?).getD default

end MinaRs.Hash.Spec
