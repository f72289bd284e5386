import Verif.BinProt.Bytes

/-! # Blocks in bytes, for the examples of C117 -/

namespace MinaRs.Layouts

/-- A small block up to its list of completed work (`protocol/layouts/external_transition.json:1`): every number and version is 1,
every list and optional part empty.  In pieces of 48 bytes, the first byte of each least significant. -/
def head : Bytes := 
  (leBytes 48 0x10101010101010101010101010101010101010101010101010101010101010101010101010101010101010101010101) ++
  (leBytes 48 0x10101010101010101010101010101010101010101010101010101010101010101010101010101010101010101010101) ++
  (leBytes 48 0x10101010101010101010101010101010101010101010101010101010101010001000101010101010101010101010101) ++
  (leBytes 48 0x10101010101010101010101010101010101010101010101010101010101010101010101010101010101010101010101) ++
  (leBytes 48 0x10101010101000100010101010101010101010101010101010101010101010101010101010101010101010101010101) ++
  (leBytes 48 0x10101010101010101010101010101010101010101010101010101010101010101010101010101010101010101010101) ++
  (leBytes 48 0x10101010101010101010101010101010101010101010101010101010101010101010101010101010101010101010101) ++
  (leBytes 48 0x10101010101010101010101010101010101010101010101010101010101010101010101010101010101010101010101) ++
  (leBytes 48 0x10101010101010101010101010101010101010101010101010101010101010101010101010101010101010101010101) ++
  (leBytes 48 0x10101010101010101010101010101010101010101010101010101010101010101010101010101010101010101010101) ++
  (leBytes 48 0x10101010101010101010101010101010101010101010101010101010101010101010101010101010101010101010101) ++
  (leBytes 48 0x10101010101010100010101010101010101010101010101010101010101010101010101010101010101010001010101) ++
  (leBytes 48 0x10101010101010101010101010101010101010101000101010101010101010101010101010101010101010101010101) ++
  (leBytes 48 0x10101010100010101010101010101010101010101010101010101010101010101000001010101010101010101010101) ++
  (leBytes 48 0x10101010101010101010101010101010101010101010101010001000101010101000100010101010100010101010100) ++
  (leBytes 48 0x10101010100010101010101010101010101010101010101010101010101010101010101010101000101010101010101) ++
  (leBytes 48 0x101010101000101000101010101000101000101010101000101000101010101000101000101010101000101010100) ++
  (leBytes 48 0x101000101010101000101000101010101000101000101010101000101000101010101000101000101010101000101) ++
  (leBytes 48 0x10101000101000101010101000101000101010101000101000101010101000101000101010101000101000101010101) ++
  (leBytes 48 0x10101010101010101010101010001010101010101010101010100000101010101000101000101010101000101000101) ++
  (leBytes 48 0x10101010101010101010101010101010101010101010101010101010101010101010101010101010101010101010101) ++
  (leBytes 48 0x10001010001010101010001010001010101010001010001010101010001010001010101010001010101010101010101) ++
  (leBytes 48 0x10101010001010001010101010001010001010101010001010001010101010001010001010101010001010001010101) ++
  (leBytes 48 0x10001010101010001010001010101010001010001010101010001010001010101010001010001010101010001010001) ++
  (leBytes 48 0x101010101000101000101010101000101000101010101000101010101000001010101010001010001010101010001) ++
  (leBytes 48 0x101000101010101000101000101010101000101000101010101000101000101010101000101000101010101000101) ++
  (leBytes 48 0x10101000101000101010101000101000101010101000101000101010101000101000101010101000101000101010101) ++
  (leBytes 48 0x100010001000101010001000100010000000101010101000101000101010101000101000101010101000101000101) ++
  (leBytes 48 0x10101010101010101010101010101010101010101010100010001000100010001000100010001010001000100010001) ++
  (leBytes 48 0x101010101010101010101010101010101010101010101010101010101010101010101010101010101010101010101) ++
  (leBytes 48 0x10101010101010101010101010101010101010101010101010101010101000101010001000101000101000101000101) ++
  (leBytes 48 0x10101010101010101010101010101010101010101010101010101010101010101010101010101010101010101010101) ++
  (leBytes 48 0x10101010101010101010101010101010101010101010101010101010101010101010101010101010101010101010101) ++
  (leBytes 48 0x10101010101010101010101010101010101010101010101010101010101010101010101010101010101010101010101) ++
  (leBytes 48 0x100010001000100010001010001000100010001000100010001000101010101010101010101010101010101010101) ++
  (leBytes 8 0x101010100010001)

/-- A small block after its staged ledger diff (`protocol/layouts/external_transition.json:1`). -/
def tail : Bytes := 
  (leBytes 40 0x101010100010101010101010101010101010101010101010101010101010101010101010101)

/-- A signed command without its status: a payment, and the creation of a new token
(`protocol/layouts/external_transition.json:1`). -/
def payment : Bytes := 
  (leBytes 48 0x10101010101010101010101010101010101010101010101010101010101010101010101010101010101010100010101) ++
  (leBytes 48 0x10101010101010101010101010101010101010101010101010101010101010100010100010101010101010001010101) ++
  (leBytes 48 0x10101010101010100010101010101010101010101010101010101010101010101010101010101010101010001010101) ++
  (leBytes 48 0x10101010101010101010101010001010101010101010101010101010101010101010101010101010101010101010101) ++
  (leBytes 48 0x10101010101010101010101010101010101010101010101010101010101010101010101010101010101010101010101) ++
  (leBytes 5 0x101010101)
def newToken : Bytes := 
  (leBytes 48 0x10101010101010101010101010101010101010101010101010101010101010101010101010101010101010100010101) ++
  (leBytes 48 0x10101010101010101010101010101010101010101010101010101010101010102010100010101010101010001010101) ++
  (leBytes 48 0x10101010101010001010101010101010101010101010101010101010101010101010101010101010101010000010101) ++
  (leBytes 48 0x10101010101010101010101010101010101010101010101010101010101010101010101010101010101010101010101) ++
  (leBytes 11 0x101010101010101010101)

/-- A block with these commands, this coinbase and this second part of the diff; no completed work and no balances
(`protocol/layouts/external_transition.json:1`). -/
def blockOf (commands coinbase second : Bytes) : Bytes :=
  head ++ ([0x00] ++ commands ++ coinbase ++ [0x00] ++ second) ++ tail

/-- Small completed snark work (`protocol/layouts/snark_work.json:1`): numbers and versions 1, lists and optional parts empty. -/
def workBytes : Bytes :=
  (leBytes 48 0x101010101010101010101010101010101010101010101010101010101010101010101010101010078a48d0101010101) ++
  (leBytes 48 0x10101010101010101010101010101010101010101010101010101010101010101010101010101010101010101010101) ++
  (leBytes 48 0x10101010101010101010101010101010101010101010101010101010101010101010101010101010101010101010101) ++
  (leBytes 48 0x10101010101010101010101010101010101010101010101010101010101010101010101010101010101010101010101) ++
  (leBytes 48 0x10101010101010101010101010101010101010101010101010101010101010101010101010101010101010101010101) ++
  (leBytes 48 0x10101010101010101010101010101010101010101010101010101010101010101010101010101010101010101010101) ++
  (leBytes 48 0x10101000101010101010101010100010101010101010101000101010101010101010001010101010101010101010101) ++
  (leBytes 48 0x10101010101010101010101010101010101010101010100010001010101010001000101010101000101010101000101) ++
  (leBytes 48 0x10101000101010101010101010101010101010101010101010101010101010101010101010001010101010101010101) ++
  (leBytes 48 0x10101010001010001010101010001010001010101010001010001010101010001010001010101010001010101000101) ++
  (leBytes 48 0x10001010101010001010001010101010001010001010101010001010001010101010001010001010101010001010001) ++
  (leBytes 48 0x10001010001010101010001010001010101010001010001010101010001010001010101010001010001010101010001) ++
  (leBytes 48 0x10101010101010101010100010101010101010101010101000001010101010001010001010101010001010001010101) ++
  (leBytes 48 0x10101010101010101010101010101010101010101010101010101010101010101010101010101010101010101010101) ++
  (leBytes 48 0x10100010101010100010100010101010100010100010101010100010100010101010100010101010101010101010101) ++
  (leBytes 48 0x10100010100010101010100010100010101010100010100010101010100010100010101010100010100010101010100) ++
  (leBytes 48 0x10101010100010100010101010100010100010101010100010100010101010100010100010101010100010100010101) ++
  (leBytes 48 0x10101010001010001010101010001010001010101010001010101010000010101010100010100010101010100010100) ++
  (leBytes 48 0x10001010101010001010001010101010001010001010101010001010001010101010001010001010101010001010001) ++
  (leBytes 48 0x10001010001010101010001010001010101010001010001010101010001010001010101010001010001010101010001) ++
  (leBytes 48 0x100010001010100010001000100000001010101010001010001010101010001010001010101010001010001010101) ++
  (leBytes 48 0x10101010101010101010101010101010101010101000100010001000100010001000100010100010001000100010001) ++
  (leBytes 48 0x10101010101010101010101010101010101010101010101010101010101010101010101010101010101010101010101) ++
  (leBytes 48 0x10101010101010101010101010101010101010101010101010101010001010100010001010001010001010001010001) ++
  (leBytes 48 0x10101010101010101010101010101010101010101010101010101010101010101010101010101010101010101010101) ++
  (leBytes 48 0x10101010101010101010101010101010101010101010101010101010101010101010101010101010101010101010101) ++
  (leBytes 48 0x10101010101010101010101010101010101010101010101010101010101010101010101010101010101010101010101) ++
  (leBytes 48 0x100010001000100010100010001000100010001000100010001010101010101010101010101010101010101010101) ++
  (leBytes 41 0x1010101010101010101010101010101010101010101010101010101010101010101000100010001)

end MinaRs.Layouts
