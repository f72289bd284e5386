import Verif.Frontier.Model

/-! # Specification of block verification and of the frontiers -/

namespace MinaRs.Frontier.Spec

open MinaRs.Frontier

variable {T K Pt S P : Type}

/-- A command is valid: its signer is a curve point and the signature verifies under it. -/
def ValidCommand (crypto : Crypto K Pt S P) (c : SignedCommand K S P) : Prop :=
  ∃ pk, crypto.uncompress c.signer = some pk ∧ crypto.verify c.signature pk c.payload = true

/-- All user commands of a block: those of the second pre-diff, if there is one, and of the first. -/
def commands (b : ExternalTransition T K S P) : List (SignedCommand K S P) :=
  b.stagedLedgerDiff.diffTwo ++
    (match b.stagedLedgerDiff.diffOne with
     | some cs => cs
     | none => [])

/-- A block is valid: all its commands are. -/
def ValidBlock (crypto : Crypto K Pt S P) (b : ExternalTransition T K S P) : Prop :=
  ∀ c ∈ commands b, ValidCommand crypto c

/-- The error stands for a panic, of the frontier or of chain selection. -/
def Panics (e : Err) : Prop := (∃ msg, e = .panic msg) ∨ ∃ msg, e = .consensus (.panic msg)

section
variable {N B St : Type} (convert : N → Except Err B) (add : St → B → St × Except Err Unit)

/-- The block that this network block is converted to, if it can be. -/
def converted (b : N) : Option B :=
  match convert b with
  | .ok x => some x
  | .error _ => none

/-- The frontier that has been offered these network blocks one after another, without any concurrency: those that cannot be
converted are passed over, and failures are ignored. -/
def after (s : St) (bs : List N) : St := (bs.filterMap (converted convert)).foldl (fun s b => (add s b).1) s

/-- Converting the network block panics, or adding the block to this frontier does. -/
def PanicsOn (s : St) (b : N) : Prop :=
  (∃ e, convert b = .error e ∧ Panics e) ∨ ∃ x e, convert b = .ok x ∧ (add s x).2 = .error e ∧ Panics e
end

end MinaRs.Frontier.Spec
