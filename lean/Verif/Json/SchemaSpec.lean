import Verif.Json.Model
import Verif.Base.AmountSpec

/-!
# Specification: the form of block documents

A small language of document forms, what it means that a document has a form, and the form of a block as the Mina tools write and
expect it.
-/

namespace MinaRs.Json.Form

open Text (Text)
open Text.Spec (IsDigit value IsDecimalOf)
open Base.Spec (Decimal Denotes)
open Codec (encodeCheck encode64)

/-- Kinds of texts. -/
inductive Kind where
  /-- A number of so many bits, in decimal. -/
  | number (bits : Nat)
  /-- An amount in mina with up to nine decimals. -/
  | mina
  /-- A field element in hexadecimal. -/
  | field
  /-- Bytes in base58check after this version byte. -/
  | base58 (ver : UInt8)
  /-- Bytes in base64. -/
  | base64
  /-- The address of a public key. -/
  | key
  /-- One character. -/
  | letter
  /-- Any text. -/
  | any
  deriving DecidableEq

/-- The text is of the kind. -/
def Kind.Is (E : Env) : Kind → Text → Prop
  | .number bits, s => ∃ n, n < 2 ^ bits ∧ IsDecimalOf s n
  | .mina, s => ∃ n int frac, n < 2 ^ 64 ∧ Decimal s int frac ∧ frac.length ≤ 9 ∧ frac.getLast? ≠ some '0' ∧ Denotes int frac n
  | .field, s => ∃ t, s = '0' :: 'x' :: t ∧ t.length = 64 ∧ ∀ c ∈ t, c ∈ "0123456789abcdef".toList
  | .base58 ver, s => ∃ bytes, s = encodeCheck E.chk ver bytes
  | .base64, s => ∃ bytes, s = encode64 bytes
  | .key, s => ∃ x odd, x.length = 32 ∧ leNat x < Hash.p ∧ s = address E x odd
  | .letter, s => s.length = 1
  | .any, _ => True

mutual
/-- Forms of documents. -/
inductive Doc where
  /-- A text of a kind. -/
  | text (k : Kind)
  /-- A signed number of 64 bits. -/
  | int
  | bool
  | null
  /-- `null`, or this. -/
  | orNull (d : Doc)
  /-- Any number of items of this form. -/
  | list (d : Doc)
  /-- These items in this order. -/
  | row (ds : Docs)
  /-- An object with these members, in any order. -/
  | object (ms : Members)
  /-- A list with a name and the items that belong to it. -/
  | tagged (cs : Cases)
  /-- One of these names. -/
  | oneOf (names : List String)
inductive Docs where
  | nil
  | cons (d : Doc) (ds : Docs)
inductive Members where
  | nil
  | cons (name : String) (d : Doc) (ms : Members)
inductive Cases where
  | nil
  | cons (name : String) (ds : Docs) (cs : Cases)
end

mutual
/-- The document has the form. -/
def Doc.Is (E : Env) : Doc → J → Prop
  | .text k, j => ∃ s, j = .str s ∧ k.Is E s.toList
  | .int, j => ∃ n : Int, j = .num n ∧ -2 ^ 63 ≤ n ∧ n < 2 ^ 63
  | .bool, j => ∃ b, j = .bool b
  | .null, j => j = .null
  | .orNull d, j => j = .null ∨ d.Is E j
  | .list d, j => ∃ js, j = .arr js ∧ ∀ x ∈ js, d.Is E x
  | .row ds, j => ∃ js, j = .arr js ∧ ds.Are E js
  | .object ms, j => ∃ es es', j = .obj es ∧ es.Perm es' ∧ ms.Are E es'
  | .tagged cs, j => ∃ name js, j = .arr (.str name :: js) ∧ cs.Has E name js
  | .oneOf names, j => ∃ s ∈ names, j = .str s
def Docs.Are (E : Env) : Docs → List J → Prop
  | .nil, js => js = []
  | .cons d ds, js => ∃ x rest, js = x :: rest ∧ d.Is E x ∧ ds.Are E rest
def Members.Are (E : Env) : Members → List (String × J) → Prop
  | .nil, es => es = []
  | .cons name d ms, es => ∃ x rest, es = (name, x) :: rest ∧ d.Is E x ∧ ms.Are E rest
def Cases.Has (E : Env) : Cases → String → List J → Prop
  | .nil, _, _ => False
  | .cons name ds cs, n, js => (n = name ∧ ds.Are E js) ∨ cs.Has E n js
end

mutual
/-- The document has at least the parts of the form: objects may have other members as well, lack those that may be `null`, or be
lists of the members' values; texts are any texts, and what is behind a tag is left open. -/
def Doc.Covers : Doc → J → Prop
  | .text _, j => ∃ s, j = .str s
  | .int, j => ∃ n : Int, j = .num n ∧ -2 ^ 63 ≤ n ∧ n < 2 ^ 63
  | .bool, j => ∃ b, j = .bool b
  | .null, j => j = .null
  | .orNull d, j => j = .null ∨ d.Covers j
  | .list d, j => ∃ js, j = .arr js ∧ ∀ x ∈ js, d.Covers x
  | .row ds, j => ∃ js, j = .arr js ∧ ds.Cover js
  | .object ms, j => (∃ es, j = .obj es ∧ ms.Cover es) ∨ ∃ js, j = .arr js ∧ ms.CoverRow js
  | .tagged _, j => ∃ x js, j = .arr (x :: js)
  | .oneOf names, j => ∃ s ∈ names, j = .str s ∨ ∃ x, j = .obj [(s, x)]
def Docs.Cover : Docs → List J → Prop
  | .nil, js => js = []
  | .cons d ds, js => ∃ x rest, js = x :: rest ∧ d.Covers x ∧ ds.Cover rest
/-- Each member exactly once; those that may be `null` at most once. -/
def Members.Cover : Members → List (String × J) → Prop
  | .nil, _ => True
  | .cons name d ms, es =>
    ((∃ x, es.filter (fun e => e.1 == name) = [(name, x)] ∧ d.Covers x) ∨
      ((∃ d', d = .orNull d') ∧ es.filter (fun e => e.1 == name) = [])) ∧ ms.Cover es
def Members.CoverRow : Members → List J → Prop
  | .nil, js => js = []
  | .cons _ d ms, js => ∃ x rest, js = x :: rest ∧ d.Covers x ∧ ms.CoverRow rest
end

/-! ## Blocks -/

/-- Forms in a row. -/
def row (ds : List Doc) : Docs := ds.foldr .cons .nil
/-- An object. -/
def object (ms : List (String × Doc)) : Doc := .object (ms.foldr (fun m ms => .cons m.1 m.2 ms) .nil)
/-- Names with items. -/
def tagged (cs : List (String × List Doc)) : Doc := .tagged (cs.foldr (fun c cs => .cons c.1 (row c.2) cs) .nil)

/-- 32 bits. -/
def n32 : Doc := .text (.number 32)
/-- 64 bits. -/
def n64 : Doc := .text (.number 64)
/-- Fees. -/
def fee : Doc := .text .mina
/-- Public keys. -/
def key : Doc := .text .key
/-- State hashes begin with `3N`. -/
def stateHash : Doc := .text (.base58 16)
/-- Ledger hashes begin with `j`. -/
def ledgerHash : Doc := .text (.base58 5)
/-- Field elements. -/
def fe : Doc := .text .field
/-- Points of a curve. -/
def point : Doc := .row (row [fe, fe])
/-- Points of a curve, infinity among them. -/
def anyPoint : Doc := tagged [("Infinite", []), ("Finite", [point])]
/-- Challenges of a proof. -/
def challenge : Doc := .row (row [.int, .int])
/-- Challenges of scalars. -/
def scalarChallenge : Doc := tagged [("Scalar_challenge", [challenge])]
/-- Bulletproof challenges. -/
def challenges (n : Nat) : Doc := .row (row (List.replicate n (object [("prechallenge", scalarChallenge)])))
/-- Shifted values. -/
def shifted : Doc := tagged [("Shifted_value", [fe])]
/-- The evaluations of the polynomials. -/
def evaluations : Doc := object (["l", "r", "o", "z", "t", "f", "sigma1", "sigma2"].map (fun n => (n, .list fe)))

/-- Proofs. -/
def proof : Doc := object [
  ("statement", object [
    ("proof_state", object [
      ("deferred_values", object [
        ("plonk", object [("alpha", scalarChallenge), ("beta", challenge), ("gamma", challenge), ("zeta", scalarChallenge)]),
        ("combined_inner_product", shifted), ("b", shifted), ("xi", scalarChallenge), ("bulletproof_challenges", challenges 18),
        ("which_branch", .text .letter)]),
      ("sponge_digest_before_evaluations", .row (row [.int, .int, .int, .int])),
      ("me_only", object [("sg", point), ("old_bulletproof_challenges", .row (row [challenges 17, challenges 17]))])]),
    ("pass_through", object [("app_state", .null), ("sg", .list point), ("old_bulletproof_challenges", .list (challenges 18))])]),
  ("prev_evals", .row (row [evaluations, evaluations])),
  ("prev_x_hat", point),
  ("proof", object [
    ("messages", object [
      ("l_comm", .list point), ("r_comm", .list point), ("o_comm", .list point), ("z_comm", .list point),
      ("t_comm", object [("unshifted", .list anyPoint), ("shifted", anyPoint)])]),
    ("openings", object [
      ("proof", object [("lr", .list (.row (row [point, point]))), ("z_1", fe), ("z_2", fe), ("delta", point), ("sg", point)]),
      ("evals", .row (row [evaluations, evaluations]))])])]

/-- What a block says of an epoch. -/
def epochData : Doc := object [
  ("ledger", object [("hash", ledgerHash), ("total_currency", n64)]), ("seed", .text (.base58 13)),
  ("start_checkpoint", stateHash), ("lock_checkpoint", stateHash), ("epoch_length", n32)]

/-- Protocol states. -/
def protocolState : Doc := object [
  ("previous_state_hash", stateHash),
  ("body", object [
    ("genesis_state_hash", stateHash),
    ("blockchain_state", object [
      ("staged_ledger_hash", object [
        ("non_snark", object [
          ("ledger_hash", ledgerHash), ("aux_hash", .text (.base58 14)), ("pending_coinbase_aux", .text (.base58 15))]),
        ("pending_coinbase_hash", .text (.base58 12))]),
      ("snarked_ledger_hash", ledgerHash), ("genesis_ledger_hash", ledgerHash), ("snarked_next_available_token", n64),
      ("timestamp", n64)]),
    ("consensus_state", object [
      ("blockchain_length", n32), ("epoch_count", n32), ("min_window_density", n32), ("sub_window_densities", .list n32),
      ("last_vrf_output", .text .base64), ("total_currency", n64),
      ("curr_global_slot", object [("slot_number", n32), ("slots_per_epoch", n32)]),
      ("global_slot_since_genesis", n32), ("staking_epoch_data", epochData), ("next_epoch_data", epochData),
      ("has_ancestor_in_same_checkpoint_window", .bool), ("block_stake_winner", key), ("block_creator", key),
      ("coinbase_receiver", key), ("supercharge_coinbase", .bool)]),
    ("constants", object [
      ("k", n32), ("slots_per_epoch", n32), ("slots_per_sub_window", n32), ("delta", n32), ("genesis_state_timestamp", n64)])])]

/-- Payments and delegations with their signatures and what became of them. -/
def command : Doc := object [
  ("data", tagged [("Signed_command", [object [
    ("payload", object [
      ("common", object [
        ("fee", fee), ("fee_token", n64), ("fee_payer_pk", key), ("nonce", n32), ("valid_until", n32), ("memo", .text (.base58 20))]),
      ("body", tagged [
        ("Payment", [object [("source_pk", key), ("receiver_pk", key), ("token_id", n64), ("amount", n64)]]),
        ("Stake_delegation", [tagged [("Set_delegate", [object [("delegator", key), ("new_delegate", key)]])]])])]),
    ("signer", key), ("signature", .text (.base58 154))]])]),
  ("status", tagged [
    ("Applied", [
      object [("fee_payer_account_creation_fee_paid", .orNull n64), ("receiver_account_creation_fee_paid", .orNull n64),
        ("created_token", .orNull n64)],
      object [("fee_payer_balance", .orNull n64), ("source_balance", .orNull n64), ("receiver_balance", .orNull n64)]]),
    ("Failed", [
      .list (.oneOf ["Predicate", "Source_not_present", "Receiver_not_present", "Amount_insufficient_to_create_account",
        "Cannot_pay_creation_fee_in_token", "Source_insufficient_balance", "Source_minimum_balance_violation",
        "Receiver_already_exists", "Not_token_owner", "Mismatched_token_permissions", "Overflow",
        "Signed_command_on_snapp_account", "Snapp_account_not_present", "Update_not_permitted", "Incorrect_nonce"]),
      object [("fee_payer_balance", .orNull n64), ("source_balance", .orNull n64), ("receiver_balance", .orNull n64)]])])]

/-- The stacks of coinbases a proof is about. -/
def stack : Doc := object [
  ("data", .text (.base58 23)), ("state", object [("init", .text (.base58 24)), ("curr", .text (.base58 24))])]

/-- Excesses of fees. -/
def excess : Doc := object [("token", n64), ("amount", object [("magnitude", fee), ("sgn", tagged [("Pos", []), ("Neg", [])])])]

/-- Proofs of transactions. -/
def work : Doc := object [
  ("statement", object [
    ("source", ledgerHash), ("target", ledgerHash), ("supply_increase", n64),
    ("pending_coinbase_stack_state", object [("source", stack), ("target", stack)]),
    ("fee_excess", .row (row [excess, excess])),
    ("next_available_token_before", n64), ("next_available_token_after", n64), ("sok_digest", .text .any)]),
  ("proof", proof)]

/-- Fee transfers. -/
def transfer : Doc := object [("receiver_pk", key), ("fee", fee)]

/-- One half of a staged ledger diff. -/
def half : Doc := object [
  ("completed_works", .list (object [
    ("fee", fee), ("proofs", tagged [("One", [work]), ("Two", [work, work])]), ("prover", key)])),
  ("commands", .list command),
  ("coinbase", tagged [("Zero", []), ("One", [.orNull transfer]), ("Two", [.orNull transfer, .orNull transfer])]),
  ("internal_command_balances", .list (tagged [
    ("Coinbase", [object [("coinbase_receiver_balance", n64), ("fee_transfer_receiver_balance", .orNull n64)]]),
    ("Fee_transfer", [object [("receiver1_balance", n64), ("receiver2_balance", .orNull n64)]])]))]

/-- Blocks. -/
def block : Doc := object [
  ("protocol_state", protocolState),
  ("protocol_state_proof", .text .base64),
  ("staged_ledger_diff", object [("diff", .row (row [half, .orNull half]))]),
  ("delta_transition_chain_proof", .row (row [ledgerHash, .list ledgerHash]))]

end MinaRs.Json.Form
