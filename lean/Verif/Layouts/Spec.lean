import Verif.BinProt.AgreeSpec

/-! # Specification for C117: names in the block types and in the layout files -/

namespace MinaRs.Layouts.Spec
open BinProt.Spec

/-- Field names as they are, without the `version` and `t` of the version wrappers. -/
def plainNames : Naming := fun n => if n = "version" ∨ n = "t" then none else some n

/-- Names in the data types of blocks and snark work: the two fields of `Set_delegate` have no names in the layout and are left out. -/
def typeNames : Naming := fun n => if n = "delegator" ∨ n = "new_delegate" then none else plainNames n

/-- Names in the layouts of blocks and snark work, with the names the data types have instead: one pair of fee and token for the left
and the right one, and `Infinite` for `Infinity`. -/
def layoutNames : Naming := fun n =>
  if n = "fee_token_l" ∨ n = "fee_token_r" then some "token"
  else if n = "fee_excess_l" ∨ n = "fee_excess_r" then some "amount"
  else if n = "Infinity" then some "Infinite"
  else plainNames n

/-- The constructors of blocks whose data types and layout differ: a failed command, the coinbase `Two`, and the commands the data types
do not have. -/
def differing : List String :=
  ["Failed", "Two", "Snapp_command", "Create_new_token", "Create_token_account", "Mint_tokens"]

end MinaRs.Layouts.Spec
