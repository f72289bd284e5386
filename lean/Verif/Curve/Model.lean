import Verif.BinProt.Bytes

/-!
# Model of the conversions to field elements and curve points

`/repo/base/src/numbers.rs:307-312`, `/repo/base/src/protocol_state_proof/field_and_curve_elements.rs:48-182`, and the part
of `ark-ff` and `ark-ec` they call: reading four limbs, comparing them with the modulus, and the point type with its flag.

Simplification: a field element is its value; the Montgomery form in which the library keeps it is not modelled.
-/
namespace MinaRs.Curve


/-- `BigInt256` (`base/src/numbers.rs:280-282`), 32 bytes. -/
structure Elem where
  bytes : Bytes
  length : bytes.length = 32

/-- The modulus is exceeded: `Option::unwrap` on `None`, or an unexpected end of the bytes
(`base/src/numbers.rs:310`). -/
inductive Panic where
  | unwrapNone
  | endOfBytes
  deriving DecidableEq, Repr

/-- `BigInteger256::read` of `ark-ff` (`base/src/numbers.rs:309-310`): `n` limbs of 8 bytes, the least significant byte first. -/
def readLimbs : Nat → Bytes → Except Panic (List Nat)
  | 0, _ => .ok []
  | n + 1, bs =>
    if bs.length < 8 then .error .endOfBytes
    else
      match readLimbs n (bs.drop 8) with
      | .error e => .error e
      | .ok ls => .ok (leNat (bs.take 8) :: ls)

/-- The limbs of a modulus, as the parameters of a field have them (external crate, used at
`base/src/numbers.rs:307-312`). -/
def limbs : Nat → Nat → List Nat
  | 0, _ => []
  | n + 1, q => q % 2 ^ 64 :: limbs n (q / 2 ^ 64)

/-- `Ord` of `BigInteger256`: the limbs are compared beginning with the most significant; the lists are reversed
already (external crate, used at `field_and_curve_elements.rs:54`). -/
def limbsLt : List Nat → List Nat → Bool
  | a :: as, b :: bs => if a < b then true else if a > b then false else limbsLt as bs
  | _, _ => false

/-- The number four limbs stand for (external crate, used at `base/src/numbers.rs:310`). -/
def limbsNat : List Nat → Nat
  | [] => 0
  | l :: ls => l + 2 ^ 64 * limbsNat ls

/-- `From<BigInteger256>` of a field of `ark-ff`: `from_repr(..).unwrap()`, which is `None` for a number that is not
below the modulus, unless it is 0 (used at `base/src/protocol_state_proof/field_and_curve_elements.rs:54`). -/
def fromRepr (q : Nat) (ls : List Nat) : Except Panic Nat :=
  if ls.all (· == 0) then .ok 0
  else if limbsLt ls.reverse (limbs 4 q).reverse then .ok (limbsNat ls)
  else .error .unwrapNone

/-- `ark_ff::BigInteger256::from(&x).into()` (`base/src/numbers.rs:307-312`, `field_and_curve_elements.rs:54`) in the field with `q` elements. -/
def toField (q : Nat) (x : Elem) : Except Panic Nat :=
  match readLimbs 4 x.bytes with
  | .error e => .error e
  | .ok ls => fromRepr q ls

/-- `GroupAffine` of `ark-ec`; `new` fills in the fields and checks nothing (used at
`base/src/protocol_state_proof/field_and_curve_elements.rs:65-77`). -/
structure Affine where
  x : Nat
  y : Nat
  infinity : Bool
  deriving DecidableEq, Repr

/-- `FiniteECPoint` (`field_and_curve_elements.rs:61-63`) -/
structure Finite where
  x : Elem
  y : Elem

/-- `ECPoint` (`field_and_curve_elements.rs:143-150`) -/
inductive Point where
  | infinite
  | finite (p : Finite)

/-- `field_and_curve_elements.rs:65-77` -/
def Finite.toAffine (q : Nat) (p : Finite) : Except Panic Affine := do
  let x ← toField q p.x
  let y ← toField q p.y
  .ok ⟨x, y, false⟩

/-- `field_and_curve_elements.rs:152-167` -/
def Point.toAffine (q : Nat) : Point → Except Panic Affine
  | .infinite => .ok ⟨0, 0, true⟩
  | .finite p => do
    let x ← toField q p.x
    let y ← toField q p.y
    .ok ⟨x, y, false⟩

/-- `iter().map(..).collect()`: one after another, a panic ends it
(`base/src/protocol_state_proof/field_and_curve_elements.rs:48-57`). -/
def mapAll {A B : Type} (f : A → Except Panic B) : List A → Except Panic (List B)
  | [] => .ok []
  | a :: as => do
    let b ← f a
    let bs ← mapAll f as
    .ok (b :: bs)

/-- `field_and_curve_elements.rs:48-57` -/
def fieldVec (q : Nat) (v : List Elem) : Except Panic (List Nat) := mapAll (toField q) v

/-- `field_and_curve_elements.rs:96-104` -/
def finiteVec (q : Nat) (v : List Finite) : Except Panic (List Affine) := mapAll (Finite.toAffine q) v

/-- `field_and_curve_elements.rs:129-139` -/
def pairVec (q : Nat) (v : List (Finite × Finite)) : Except Panic (List (Affine × Affine)) :=
  mapAll (fun s => do
    let a ← s.1.toAffine q
    let b ← s.2.toAffine q
    .ok (a, b)) v

/-- `field_and_curve_elements.rs:174-182` -/
def pointVec (q : Nat) (v : List Point) : Except Panic (List Affine) := mapAll (Point.toAffine q) v

end MinaRs.Curve
