import Verif.Hash.RO
/-!
# What a chunked random-oracle input should be packed to

Independent of the packing loop: pieces are numbers of known width, written one after another, most
significant first; the packing cuts the sequence of pieces into groups of at most 254 bits, each
group as long as possible.
-/

namespace MinaRs.Hash.Spec

/-- Total width of a sequence of pieces. -/
def width (ps : List (Fp × Nat)) : Nat := (ps.map Prod.snd).sum

/-- The number obtained by writing the pieces one after another, the first one most significant. -/
def concat : List (Fp × Nat) → Nat
  | [] => 0
  | (v, _) :: ps => v.val * 2 ^ width ps + concat ps

/-- The width of the first piece of a group. -/
def firstWidth : List (Fp × Nat) → Nat
  | [] => 0
  | (_, w) :: _ => w

/-- Groups of at most 254 bits, none of which could have taken the first piece of the next one. -/
def Greedy : List (List (Fp × Nat)) → Prop
  | [] => True
  | [g] => g ≠ [] ∧ width g ≤ 254
  | g :: h :: gs => g ≠ [] ∧ width g ≤ 254 ∧ 254 < width g + firstWidth h ∧ Greedy (h :: gs)

/-- Every piece is a number of its declared width, and its width is between 1 and 254. -/
def Proper (c : Chunked) : Prop := ∀ q ∈ c.packed, q.1.val < 2 ^ q.2 ∧ 1 ≤ q.2 ∧ q.2 ≤ 254

/-- Every piece is a number of its declared width; a width may be anything below `2^31`. -/
def Fits (c : Chunked) : Prop := ∀ q ∈ c.packed, q.1.val < 2 ^ q.2 ∧ q.2 < 2 ^ 31

/-- The declared widths of the pieces. -/
def widths (c : Chunked) : List Nat := c.packed.map Prod.snd

end MinaRs.Hash.Spec
