import Verif.Json.Spec

/-! Specifications for the text properties: hexadecimal text, and kinds of base58 text. -/

namespace MinaRs.Json.Spec

open Text (Text)

/-- The value of a hexadecimal digit, either case. -/
def digitValue (c : Char) : Option Nat := "0123456789abcdef".toList.idxOf? c.toLower

/-- The text spells the bytes in hexadecimal: two digits each, the higher one first. -/
inductive Spells : Text → Bytes → Prop
  | nil : Spells [] []
  | cons {a b : Char} {x y : Nat} {rest : Text} {bs : Bytes} :
      digitValue a = some x → digitValue b = some y → Spells rest bs →
      Spells (a :: b :: rest) (UInt8.ofNat (16 * x + y) :: bs)

/-- The text is the body, bare or after `0x` or `\x`. -/
def Prefixed (s body : Text) : Prop := s = body ∨ s = '0' :: 'x' :: body ∨ s = '\\' :: 'x' :: body

/-- The kinds of values with a base58check text (`version_bytes.rs`). -/
inductive Kind where
  | ledgerHash | coinbaseHash | epochSeed | stateHash | stateBodyHash | vrfOutput | auxHash
  | pendingCoinbaseAux | memo | signature | coinbaseStackData | coinbaseStackHash
  deriving DecidableEq

/-- The wire type of a signature without its outer version (`signatures.rs:75-77`). -/
def signatureTy : BinProt.Ty := versionedTy (.tuple (.cons "" arr32 (.cons "" arr32 .nil)))

/-- The JSON type of each kind (`common.rs:419-451`, `consensus_state.rs:53-56`,
`staged_ledger_diff.rs:244-246`, `signatures.rs:75-77`). -/
def Kind.leaf : Kind → Leaf
  | .ledgerHash => .base58Bin 0x05 hashV1
  | .coinbaseHash => .base58Bin 0x0c hashV1
  | .epochSeed => .base58Bin 0x0d hashV1
  | .stateHash => .base58Bin 0x10 hashV1
  | .stateBodyHash => .base58Bin 0x11 hashV1
  | .vrfOutput => .vrfBase58
  | .auxHash => .base58Bytes 0x0e
  | .pendingCoinbaseAux => .base58Bytes 0x0f
  | .memo => .memo
  | .signature => .base58Bin 0x9a signatureTy
  | .coinbaseStackData => .base58Bin 0x17 hashV1
  | .coinbaseStackHash => .base58Bin 0x18 hashV1

end MinaRs.Json.Spec
