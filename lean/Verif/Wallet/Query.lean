import Verif.Base.Text

/-!
# Requests of the wallet functions

Model of the GraphQL requests made by `sendPayment`, `lockAccount`, `unlockAccount` and `accountInfo`
(`apps/wasm/mvp/src/payment.rs`, `apps/wasm/mina-berkeley/src/js_exports.rs` and `payment.rs`).
-/

namespace MinaRs.Wallet

open MinaRs.Text

/-- A JavaScript value given for a `UInt64` or `UInt32`.  Numbers are given by the text JavaScript prints for
them (`apps/wasm/mvp/src/payment.rs:8-18`). -/
inductive Js where
  | undefined
  | null
  | number (printed : Text)
  | bigint (z : Int)
  | string (s : Text)
  deriving DecidableEq, Repr

/-- `apps/wasm/mvp/src/utils.rs:37-48` (`js_to_string`): `` `${v}` `` -/
def jsToString : Js → Text
  | .undefined => "undefined".toList
  | .null => "null".toList
  | .number t => t
  | .bigint (.ofNat n) => decimal n
  | .bigint (.negSucc n) => '-' :: decimal (n + 1)
  | .string s => s

/-- `apps/wasm/mvp/src/payment.rs:8-18` (`Payment`) -/
structure Payment where
  to : Text
  «from» : Text
  fee : Js
  amount : Js
  nonce : Option Nat
  memo : Option Text
  validUntil : Js
  deriving DecidableEq, Repr

/-- `u64::MAX` (`apps/wasm/mvp/src/payment.rs:51-53`) -/
def U64_MAX : Nat := 18446744073709551615

/-- `u32::MAX` (`apps/wasm/mvp/src/payment.rs:55-57`) -/
def U32_MAX : Nat := 4294967295

/-- `payment.rs:51-53` (`fee_u64`), `payment.rs:55-57` (`amount_u64`) -/
def u64 (v : Js) : Except IntErr Nat := parseUnsigned U64_MAX (jsToString v)

/-- `payment.rs:64-69`: the empty text is no number. -/
def optionalNumber (max : Nat) (s : Text) : Except IntErr (Option Nat) :=
  match s with
  | [] => .ok none
  | s =>
    match parseUnsigned max s with
    | .ok n => .ok (some n)
    | .error e => .error e

/-- `payment.rs:59-71` (`valid_until_u32`) -/
def validUntilU32 (v : Js) : Except IntErr (Option Nat) :=
  match v with
  | .null => .ok none
  | .undefined => .ok none
  | v => optionalNumber U32_MAX (jsToString v)

/-- `payment.rs:138-143`, `js_exports.rs:127-131` (`send_payment`): the query; the fee is read before the amount. -/
def paymentQuery (p : Payment) : Except IntErr Text :=
  match u64 p.fee with
  | .error e => .error e
  | .ok fee =>
    match u64 p.amount with
    | .error e => .error e
    | .ok amount => .ok ("mutation MyMutation {  \n            sendPayment(input: {fee: \"".toList ++ decimal fee ++
        "\", amount: \"".toList ++ decimal amount ++ "\", to: \"".toList ++ p.to ++ "\", from: \"".toList ++ p.from ++
        "\"}) {    payment {      id    }  }\n        }".toList)

/-- `payment.rs:96-101`, `js_exports.rs:79-84` (`lock_account`) -/
def lockQuery (key : Text) : Text :=
  "mutation MyMutation {  \n            lockAccount(input: {publicKey: \"".toList ++ key ++
    "\"}) {    account {      locked    }  }\n        }".toList

/-- `payment.rs:116-120`, `js_exports.rs:102-106` (`unlock_account`) -/
def unlockQuery (key password : Text) : Text :=
  "mutation MyMutation {  \n            unlockAccount(input: {publicKey: \"".toList ++ key ++
    "\", password: \"".toList ++ password ++ "\"}) {    account {      locked    }  }\n        }".toList

/-- `payment.rs:76-81` (`account_info`) -/
def accountQuery (key : Text) : Text :=
  "query MyQuery {  \n            account(publicKey: \"".toList ++ key ++
    "\") { balance { total } inferredNonce locked  }\n        }".toList

end MinaRs.Wallet
