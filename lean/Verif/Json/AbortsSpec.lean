import Verif.Json.Model
import Verif.Json.SpecText
import Verif.Base.TextSpec

/-!
# What in a JSON document can end the process

`Spec.Part` says which parts of a document are read as which types: the items of lists, the members of objects, the contents of
enumerations.  `Spec.Aborting` lists the parts at which the code panics.
-/

namespace MinaRs.Json.Spec

open Text (Text)
open Text.Spec (IsDigit value)
open Codec (encode58)

/-- The fields with a JSON form. -/
def fields : JTys → List (String × JTy)
  | .nil => []
  | .cons n t ts => (n, t) :: fields ts
  | .skip _ _ ts => fields ts

/-- The variants. -/
def variants : JVars → List (String × JPay)
  | .nil => []
  | .cons n p vs => (n, p) :: variants vs

/-- A list as it is written for an enumeration: the name of the variant and its content. -/
inductive Listed : J → String → J → Prop
  | one (n : String) (c : J) : Listed (.arr [.str n, c]) n c
  | more (n : String) (c d : J) (rest : List J) : Listed (.arr (.str n :: c :: d :: rest)) n (.arr (c :: d :: rest))
  | object (n : String) (c : J) : Listed (.arr [.obj [(n, c)]]) n c

/-- A part of the fields of a variant, or of a record or tuple. -/
inductive Member : JTys → J → JTy → J → Prop
  | item {ts : JTys} {js : List J} {n : String} {t : JTy} {j : J} : ((n, t), j) ∈ (fields ts).zip js → Member ts (.arr js) t j
  | field {ts : JTys} {es : List (String × J)} {n : String} {t : JTy} {j : J} :
      (n, t) ∈ fields ts → (n, j) ∈ es → Member ts (.obj es) t j

/-- A part of the content of a variant. -/
inductive Content : JPay → J → JTy → J → Prop
  | whole (t : JTy) (c : J) : Content (.newtype t) c t c
  | tuple {ts : JTys} {c : J} {t : JTy} {j : J} : Member ts c t j → Content (.tuple ts) c t j
  | struct {ts : JTys} {c : J} {t : JTy} {j : J} : Member ts c t j → Content (.struct ts) c t j

/-- A document read as the first type has the second document as a part, which is read as the second type. -/
inductive Part : JTy → J → JTy → J → Prop
  | here (t : JTy) (j : J) : Part t j t j
  | option {t t' : JTy} {j j' : J} : j ≠ .null → Part t j t' j' → Part (.option t) j t' j'
  | newtype {t t' : JTy} {j j' : J} : Part t j t' j' → Part (.newtype t) j t' j'
  | versioned {t t' : JTy} {j j' : J} : Part t j t' j' → Part (.versioned t) j t' j'
  | item {t t' : JTy} {js : List J} {j j' : J} : j ∈ js → Part t j t' j' → Part (.seq t) (.arr js) t' j'
  | tuple {ts : JTys} {t t' : JTy} {c j j' : J} : Member ts c t j → Part t j t' j' → Part (.tuple ts) c t' j'
  | struct {ts : JTys} {t t' : JTy} {c j j' : J} : Member ts c t j → Part t j t' j' → Part (.struct ts) c t' j'
  | listed {poly expand : Bool} {vs : JVars} {n : String} {p : JPay} {t t' : JTy} {d c j j' : J} :
      Listed (asValue d) n c → (variants vs).lookup n = some p → Content p c t j → Part t j t' j' → Part (.listEnum poly expand vs) d t' j'
  | tagged {vs : JVars} {n : String} {p : JPay} {t t' : JTy} {c j j' : J} :
      (variants vs).lookup n = some p → Content p c t j → Part t j t' j' → Part (.tagEnum vs) (.obj [(n, c)]) t' j'

/-- A text that stands for a 64-bit number: digits, perhaps after a plus sign. -/
def Number (t : Text) (n : Nat) : Prop :=
  ∃ ds, (t = ds ∨ t = '+' :: ds) ∧ ds ≠ [] ∧ (∀ c ∈ ds, IsDigit c) ∧ n = value ds ∧ n < 2 ^ 64

/-- The documents at which reading ends the process. -/
inductive Aborting (E : Env) : JTy → J → Prop
  /-- Something else than a list of at least one item where an enumeration is expected. -/
  | noList {poly expand : Bool} {vs : JVars} {j : J} : (∀ i is, j ≠ .arr (i :: is)) → Aborting E (.listEnum poly expand vs) j
  /-- A text of some other number of bytes than 32 where a field element is expected. -/
  | hex {s : String} {body : Text} {bs : Bytes} : Prefixed s.toList body → Spells body bs → bs.length ≠ 32 →
      Aborting E (.leaf .field) (.str s)
  /-- No character where one is expected. -/
  | letter : Aborting E (.leaf .char) (.str "")
  /-- A whole amount of 2^64 or more, in a build that checks for overflow. -/
  | whole {s : String} {w : Nat} : E.checks = true → Number s.toList w → 2 ^ 64 ≤ w * 10 ^ 9 → Aborting E (.leaf .decimal) (.str s)
  /-- An amount of 2^64 or more with decimal places, in a build that checks for overflow. -/
  | amount {s : String} {q f : Text} {w r : Nat} : E.checks = true → s.toList = q ++ '.' :: f → Number q w →
      Number (f ++ List.replicate (9 - f.length) '0') r → 2 ^ 64 ≤ w * 10 ^ 9 + r → Aborting E (.leaf .decimal) (.str s)
  /-- The checksum of nothing, if it begins with the version that is expected. -/
  | noBytes {ver : UInt8} {t : BinProt.Ty} : (E.chk []).head? = some ver →
      Aborting E (.leaf (.base58Bin ver t)) (.str (String.ofList (encode58 (E.chk []))))
  | noContent {ver : UInt8} : (E.chk []).head? = some ver →
      Aborting E (.leaf (.base58Bytes ver)) (.str (String.ofList (encode58 (E.chk []))))

end MinaRs.Json.Spec
