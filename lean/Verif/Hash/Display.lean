import Verif.Hash.RO
import Verif.Base.Text

/-!
# The printed form of a hash input

Model of `Display for ChunkedROInput` (`proof-systems-shim/src/roinput.rs:155-172`), which is compared with what the OCaml
implementation prints.
-/

namespace MinaRs.Hash

open Text (Text decimal)

/-- `writeln!` (`roinput.rs:162, 164, 166, 168`). -/
def line (s : Text) : Text := s ++ ['\n']

/-- `roinput.rs:157-161` (`fp_to_str`) -/
def fpToStr (f : Fp) : Text := decimal f.val

/-- `roinput.rs:156-171` -/
def Chunked.display (c : Chunked) : Text :=
  line ("fields (".toList ++ decimal c.fields.length ++ "):".toList) ++
  c.fields.flatMap (fun f => line ('\t' :: fpToStr f)) ++
  line ("packed: (".toList ++ decimal c.packed.length ++ "):".toList) ++
  c.packed.flatMap (fun p => line ('\t' :: (decimal p.2 ++ ':' :: fpToStr p.1)))

end MinaRs.Hash
