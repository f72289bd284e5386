import Verif.Ledger.Model
import Verif.Account.Model

/-! Genesis ledgers of the node's accounts. -/

namespace MinaRs.Ledger

open Hash (Fp M)

/-- `account.into()` of `rocksdb_genesis_ledger.rs:59`, for `base::account::Account`
(`base/src/account/mod.rs:92-122`, `207-209`) -/
def accountInto (v : Account.account.wire.denote) : Except Merkle.Panic Hash.Account :=
  match Block.fromWire Account.account v with
  | .error _ => .error ⟨"conversion of an account"⟩
  | .ok b => .ok (Account.ofParts b)

/-- `account.into()` of `rocksdb_genesis_ledger.rs:59`, for `AccountLegacy`
(`base/src/account/mod.rs:33-63`) -/
def legacyInto (v : Account.accountLegacy.wire.denote) : Except Merkle.Panic Hash.AccountLegacy :=
  match Block.fromWire Account.accountLegacy v with
  | .error _ => .error ⟨"conversion of an account"⟩
  | .ok b => .ok (Account.ofLegacyParts b)

/-- `genesis_ledger.rs:57-59` (`accounts`) of a `RocksDbGenesisLedger<20, Account>` -/
def ledgerAccounts (db : List Entry) (fail : Option (Nat × String)) := accounts Account.account.wire accountInto db fail

/-- `genesis_ledger.rs:57-59` (`accounts`) of a `RocksDbGenesisLedger<20, AccountLegacy>` -/
def legacyAccounts (db : List Entry) (fail : Option (Nat × String)) := accounts Account.accountLegacy.wire legacyInto db fail

/-- `merkle/src/merger_poseidon.rs:42-61`, `107-117`: the two children are the hashed fields and the domain is that
of the height (`H` is the Poseidon hash of fields under a domain; without a domain, which is only asked for at
height 0, the text is empty).  A child whose hash panicked has already ended the process. -/
def mergeFields (H : String → List Fp → Fp) (domain : Option String) (l r : M Fp) : M Fp := do
  let l ← l
  let r ← r
  .ok (H (domain.getD "") [l, r])

/-- The number of four 64-bit limbs, least significant first (`merkle/src/merger_poseidon.rs:119-142`). -/
def ofLimbs (a b c d : Nat) : Nat := a + b * 2 ^ 64 + c * 2 ^ 128 + d * 2 ^ 192

/-- `merger_poseidon.rs:119-142`: the empty account's hash, four limbs. -/
def emptyKimchi : Fp :=
  ⟨ofLimbs 17222659083400437799 16271203913493378952 8137184135467838648 1525063794952698544, by decide⟩

/-- `merger_poseidon.rs:75-99` -/
def emptyLegacy : Fp :=
  ⟨ofLimbs 618825277339585648 17206846358602357477 11135808194678189552 2326690702673829595, by decide⟩

/-- What is left of a root computed over hashes that may have panicked
(`ledger/src/genesis_ledger.rs:61-79`). -/
def settle {T : Type} : Except Merkle.Panic (Option (M Fp) × T) → Except Merkle.Panic (Option Fp)
  | .error p => .error p
  | .ok (none, _) => .ok none
  | .ok (some (.ok h), _) => .ok (some h)
  | .ok (some (.error _), _) => .error ⟨"hash of an account"⟩

/-- `to_mina_merkle_ledger` (`genesis_ledger.rs:71-79`) and then `root`, for accounts
(`merkle/src/hasher_poseidon.rs:36-49`, `merger_poseidon.rs:28-38`) -/
def ledgerRoot (H : String → List Fp → Fp) (db : List Entry) (fail : Option (Nat × String)) :
    Except Merkle.Panic (Option Fp) :=
  match toMinaMerkleLedger (ledgerAccounts db fail) with
  | .error p => .error p
  | .ok tree => settle (tree.root (Merkle.poseidonHasher (Hash.Account.hash H))
      (Merkle.poseidonMerger (mergeFields H) (.ok emptyKimchi)))

/-- `to_mina_merkle_ledger_legacy` (`genesis_ledger.rs:61-69`) and then `root`, for accounts of the older format
(`hasher_poseidon.rs:17-26`, `merger_poseidon.rs:14-24`, `base/src/account/mod.rs:66-89`) -/
def legacyRoot (H : String → List Fp → Fp) (db : List Entry) (fail : Option (Nat × String)) :
    Except Merkle.Panic (Option Fp) :=
  match toMinaMerkleLedger (legacyAccounts db fail) with
  | .error p => .error p
  | .ok tree => settle (tree.root
      (Merkle.poseidonHasher (fun a : Hash.AccountLegacy => (.ok (H "CodaAccount" a.legacy.toFields) : M Fp)))
      (Merkle.poseidonMerger (mergeFields H) (.ok emptyLegacy)))

end MinaRs.Ledger
