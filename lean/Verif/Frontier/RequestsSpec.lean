import Verif.Frontier.Requests
import Verif.Frontier.Spec

/-! # What the two loops should do -/

namespace MinaRs.Frontier.Spec

open MinaRs.Frontier

variable {N B St R : Type} (convert : N → Except Err B) (add : St → B → St × List R × Except Err Unit)

/-- One block is handed to the frontier: the frontier afterwards, and the requests it has sent.  A block that cannot be converted is
passed over; a frontier that panics sends nothing. -/
inductive Takes : St → N → St → List R → Prop
  | passed {s b e} : convert b = .error e → Takes s b s []
  | taken {s b x s' rs r} : convert b = .ok x → add s x = (s', rs, r) → (∀ e, r = .error e → ¬ Panics e) → Takes s b s' rs
  | panicked {s b x s' rs e} : convert b = .ok x → add s x = (s', rs, .error e) → Panics e → Takes s b s' []

/-- The same for some blocks, one after another and without any concurrency. -/
inductive TakesAll : St → List N → St → List R → Prop
  | nil {s} : TakesAll s [] s []
  | snoc {s bs s' rs b s'' rs'} : TakesAll s bs s' rs → Takes convert add s' b s'' rs' → TakesAll s (bs ++ [b]) s'' (rs ++ rs')

/-- The blocks that a request is answered with: on mainnet the one asked for, if it can be fetched; on Berkeley net the best chains
of the endpoints before the first that fails. -/
inductive Answer (w : World N R) (r : R) : Ops → List N → Prop
  | got {b} : w.block r = some b → Answer w r .v1 [b]
  | missed : w.block r = none → Answer w r .v1 []
  | all {bs} : w.endpoints = bs.map some → Answer w r .berkeley bs
  | some {bs rest} : w.endpoints = bs.map some ++ none :: rest → Answer w r .berkeley bs

/-- Both loops wait for each other: the receiving loop for room in the channel of requests, the requesting loop for room in the
channel of blocks, or for a poll that waits for it. -/
structure Entangled (d : Duo N St R) : Prop where
  asking : ∃ b r rs, d.recv = .asking b (r :: rs)
  requests : ∃ r, d.requests = [r]
  blocks : ∃ b, d.blocks = [b]
  querying : (∃ b bs, d.query = .sending (b :: bs)) ∨ ((∃ r, d.query = .locking r) ∧ d.polls ≠ [])
  polls : ∀ p ∈ d.polls, p ≠ []

end MinaRs.Frontier.Spec
