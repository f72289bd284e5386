import Verif.GraphQL.Model
import Verif.Merkle.Model

/-!
# Field elements as texts and the best chain document

Model of `proof-systems-shim/src/fp.rs` and of the import of a Berkeley block with its sparse ledger,
`network/src/processor/naive_transition_frontier.rs:126-152`.
-/

namespace MinaRs.GraphQL

open Json (J JErr Env)
open Text (Text)
open Hash

/-! ## Field elements (`fp.rs`) -/

/-- The digits loop of `num::BigUint::from_str_radix(_, 10)` (external crate): underscores are skipped,
any other character that is no digit is an error (used at `proof-systems-shim/src/fp.rs:33, 44`). -/
def bigDigits : Nat → Text → Option Nat
  | acc, [] => some acc
  | acc, c :: cs =>
    if c = '_' then bigDigits acc cs
    else match Text.toDigit c with
      | some d => bigDigits (acc * 10 + d) cs
      | none => none

/-- One leading plus sign is removed unless another one follows (external crate, used at
`proof-systems-shim/src/fp.rs:33, 44`). -/
def stripPlus : Text → Text
  | '+' :: '+' :: s => '+' :: '+' :: s
  | '+' :: s => s
  | s => s

/-- `BigUint::from_str_radix(_, 10)` and `BigUint::from_str`: an empty text and a leading underscore are
errors (used at `proof-systems-shim/src/fp.rs:33, 44`). -/
def bigUint (s : Text) : Option Nat :=
  match stripPlus s with
  | [] => none
  | c :: cs => if c = '_' then none else bigDigits 0 (c :: cs)

/-- fp.rs 15-24 (`Serialize for FpJson`) -/
def FpJson.serialize (f : Fp) : J := Json.ofText (Text.decimal f.val)

/-- fp.rs 26-39 (`Deserialize for FpJson`): a number that does not fit 256 bits is an error; one that
does, but is not below the modulus, panics in `Fp::from` (`from_repr(..).unwrap()`). -/
def FpJson.deserialize : J → R Fp
  | .str s =>
    match bigUint s.toList with
    | none => .error .err
    | some n =>
      if n < 2 ^ 256 then if h : n < p then .ok ⟨n, h⟩ else .error .panic
      else .error .err
  | _ => .error .err

/-- fp.rs 41-47 (`fp_from_radix_10`): here a number that does not fit 256 bits panics too. -/
def fpFromRadix10 (s : Text) : R Fp :=
  match bigUint s with
  | none => .error .err
  | some n => if h : n < p then .ok ⟨n, h⟩ else .error .panic

/-! ## Merkle paths (`merkle/src/path.rs`) -/

/-- `Option<FpJson>`: `null` is `None` (`merkle/src/path.rs:12-17`). -/
def optFp : J → R (Option Fp)
  | .null => .ok none
  | j =>
    match FpJson.deserialize j with
    | .ok f => .ok (some f)
    | .error e => .error e

/-- path.rs 10-17 (derived `Deserialize for MerklePathNode`): an object whose absent keys are `None`, or
an array of exactly two items. -/
def pathNodeOf : J → R (Merkle.PathNode Fp)
  | .obj es => do
    let l ← optFp (index (.obj es) "left")
    let r ← optFp (index (.obj es) "right")
    .ok ⟨l, r⟩
  | .arr [a, b] => do
    let l ← optFp a
    let r ← optFp b
    .ok ⟨l, r⟩
  | _ => .error .err

/-- `Serialize for Option<FpJson>` (`merkle/src/path.rs:12-17`) -/
def optFpJson : Option Fp → J
  | none => .null
  | some f => FpJson.serialize f

/-- path.rs 10-17 (derived `Serialize for MerklePathNode`) -/
def pathNodeJson (n : Merkle.PathNode Fp) : J := .obj [("left", optFpJson n.left), ("right", optFpJson n.right)]

/-- path.rs 36-38 (derived `Serialize for MerklePath`) -/
def pathJson (path : List (Merkle.PathNode Fp)) : J := .arr (path.map pathNodeJson)

/-- All results, or the first error (`network/src/processor/naive_transition_frontier.rs:138-147`). -/
def allOf {α β : Type} (f : α → R β) : List α → R (List β)
  | [] => .ok []
  | a :: as => do
    let b ← f a
    let bs ← allOf f as
    .ok (b :: bs)

/-- path.rs 36-38 (derived `Deserialize for MerklePath`) -/
def pathOf : J → R (List (Merkle.PathNode Fp))
  | .arr js => allOf pathNodeOf js
  | _ => .error .err

/-! ## The document (`naive_transition_frontier.rs`) -/

/-- `&json[i]` of `serde_json`: `Null` when it is no array or too short
(`network/src/processor/naive_transition_frontier.rs:128-151`). -/
def item (j : J) (i : Nat) : J :=
  match j with
  | .arr js => js.getD i .null
  | _ => .null

/-- `MerkleProofBerkeleyNet` (naive_transition_frontier.rs:59-60): the item is `DummyAccount`, a leaf
hash. -/
abbrev LedgerProof := Merkle.Proof Fp Fp

/-- `path.to_proof(..)?` (`network/src/processor/naive_transition_frontier.rs:138-147`) -/
def proofOf (path : List (Merkle.PathNode Fp)) (leaf : Fp) : R LedgerProof :=
  match Merkle.pathToProof path leaf with
  | .ok q => .ok q
  | .error (.panic _) => .error .panic
  | .error _ => .error .err

/-- naive_transition_frontier.rs:141-144: one entry of the document. -/
def ledgerEntry (value : J) : R LedgerProof := do
  let path ← pathOf (index value "merklePath")
  let leaf ← fpFromRadix10 (str (index value "leafHash"))
  proofOf path leaf

/-- `CompressedPubKey::from_address(key).is_ok()` (`network/src/processor/naive_transition_frontier.rs:140`) -/
def isAddress (E : Env) (key : String) : Bool := (Json.fromAddress E key.toList).isSome

/-- naive_transition_frontier.rs:138-147: the entries in the order of the map, those whose key is no
address are passed over.  `if let Some(map) = json.as_object()`. -/
def sparseLedger (E : Env) : J → R (List LedgerProof)
  | .obj es => allOf (fun e => ledgerEntry e.2) (es.filter (fun e => isAddress E e.1))
  | _ => .ok []

/-- naive_transition_frontier.rs:128-151 (`try_from`) -/
def bestChain (E : Env) (j : J) : R (ProtocolState × List LedgerProof) := do
  let state ← protocolState E (index (item (index j "bestChain") 0) "protocolState")
  let ledger ← sparseLedger E j
  .ok (state, ledger)

/-- `DummyHasher` (naive_transition_frontier.rs:43-52): the item is already a hash. -/
def dummyHasher (leaf : Fp) (_ : Merkle.Meta) : Fp := leaf

end MinaRs.GraphQL
