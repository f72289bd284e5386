import Verif.Genesis.Model
import Verif.Secrets.Props
import Verif.GraphQL.BestChainAccepted
import Verif.GraphQL.ChecksumProps

/-!
# Theorems about the actual checksum

Theorems on C60, C73, C77 and C80 assume that the checksum of no bytes does not start with a version byte.
Here the assumption is discharged for the checksum that is used, the double SHA-256 digest.
-/

namespace MinaRs.Genesis

open Json (J JErr Env)
open Text (Text)
open Hash GraphQL GraphQL.Spec

/-- The checksum of no bytes is `5d f6 e0 e2`. -/
theorem check_nil : Sha256.check [] = [0x5d, 0xf6, 0xe0, 0xe2] := by decide +kernel

theorem env_nil (checks : Bool) (ver : UInt8) (h : ver ≠ 0x5d) : ((env checks).chk []).head? ≠ some ver := by
  show (Sha256.check []).head? ≠ some ver
  rw [check_nil]
  exact fun e => h (Option.some.inj e).symm

/-- **C60.** Reading and writing wallet files never panics. -/
theorem C60_no_panic (checks : Bool) (C : Secrets.Crypto) (j : J) :
    Secrets.read (env checks) C j ≠ .error .panic ∧ ∀ sb, Secrets.write (env checks) C sb ≠ .error .panic :=
  Secrets.C60_read_no_panic (env checks) (env_nil checks _ (by decide)) C j

/-- **C73.** Exactly the documents whose parts can be read are imported, with the actual checksum. -/
theorem C73_accepted_exactly (checks : Bool) (j : J) (s : ProtocolState) :
    protocolState (env checks) j = .ok s ↔ ReadsState (env checks) j s :=
  C73_accepted_iff (env checks) (env_nil checks _ (by decide)) j s

/-- **C77.** Exactly the best chain documents whose parts can be read are imported, with the actual checksum. -/
theorem C77_accepted_exactly (checks : Bool) (j : J) (s : ProtocolState) (proofs : List LedgerProof) :
    bestChain (env checks) j = .ok (s, proofs) ↔ ∃ es b bs q, j = .obj es ∧ index j "bestChain" = .arr (b :: bs) ∧
      ReadsState (env checks) (index b "protocolState") s ∧ ReadsEntries (env checks) es q ∧
      q.map (fun e => Merkle.pathToProof (e.1.map Merkle.Spec.pathNode) e.2) = proofs.map .ok :=
  C77_accepted_iff (env checks) (env_nil checks _ (by decide)) j s proofs

/-- **C80 (uniqueness).** Each memo has one accepted text. -/
theorem C80_memo_unique (checks : Bool) (s s' : String) (memo : Bytes) (h : Json.Leaf.memo.de (env checks) (.str s) = .ok memo)
    (h' : Json.Leaf.memo.de (env checks) (.str s') = .ok memo) : s = s' :=
  C80_unique_partial (env checks) .memo 0x14 (.inr ⟨rfl, rfl⟩) (env_nil checks _ (by decide)) s s' memo h h'

/-- **C80 (uniqueness).** Each auxiliary hash and each pending coinbase auxiliary hash has one accepted text. -/
theorem C80_aux_unique (checks : Bool) (ver : UInt8) (hv : ver = 0x0e ∨ ver = 0x0f) (s s' : String) (hash : Bytes)
    (h : (Json.Leaf.base58Bytes ver).de (env checks) (.str s) = .ok hash)
    (h' : (Json.Leaf.base58Bytes ver).de (env checks) (.str s') = .ok hash) : s = s' :=
  C80_unique_partial (env checks) (.base58Bytes ver) ver (.inl rfl)
    (env_nil checks _ (by rcases hv with rfl | rfl <;> decide)) s s' hash h h'

example : ∃ hash, byteHash (env true) 0x0e "UDRUFHSvxUAtV8sh7gzMVPqpbd46roG1wzWR6dYvB6RunPihom".toList = .ok hash ∧
    hash.length = 32 := by
  have : (match byteHash (env true) 0x0e "UDRUFHSvxUAtV8sh7gzMVPqpbd46roG1wzWR6dYvB6RunPihom".toList with
      | .ok h => h.length == 32 | .error _ => false) = true := by decide +kernel
  split at this
  · rename_i h e
    exact ⟨h, e, by simpa using this⟩
  · cases this

end MinaRs.Genesis
