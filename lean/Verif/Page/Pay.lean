import Verif.Wallet.Call

/-!
# The page that sends payments

Model of the script of `apps/wasm/mina-berkeley/web/pages/sendPayment.vue:43-116` and
`apps/wasm/mvp/web/pages/sendPayment.vue:31-114`, which differ only in the endpoint and in the button for account details. A button
runs its handler up to the call it waits for; while it waits, other buttons can be used, and answers can arrive in any order.

Simplifications: `JSON.parse` and `JSON.stringify` are parameters, and so is the text of the errors that JavaScript itself throws.
Handlers are run only once the program has been loaded. The calls behind the buttons are those of `Verif.Wallet.Call`.
-/

namespace MinaRs.Page.Pay

open MinaRs.Text (Text)
open MinaRs.Wallet (Js)

/-- An object: its properties by name (`sendPayment.vue:56-62`). -/
abbrev Obj := List (Text × Js)

/-- What the page uses of JavaScript (`sendPayment.vue:107-109`). `parse` is `none` for a text that is no JSON and for one
that denotes no object: the assignment on the next line throws for it. -/
structure Lib where
  parse : Text → Option Obj
  stringify : Obj → Text
  thrown : Text

/-- `payment.from = this.publicKey` (`sendPayment.vue:108`) -/
def setFrom (k : Text) : Obj → Obj
  | [] => [("from".toList, .string k)]
  | (n, v) :: o => if n = "from".toList then (n, .string k) :: o else (n, v) :: setFrom k o

/-- A call of the program (`sendPayment.vue:81, 96, 110`; for the details of an account `apps/wasm/mvp/web/pages/sendPayment.vue:69`).
The password that is passed to `lockAccount` is not one of its parameters
(`apps/wasm/mina-berkeley/src/js_exports.rs:76`). -/
inductive Request where
  | info (key : Text)
  | lock (key : Text)
  | unlock (key password : Text)
  | pay (payment : Obj)
  deriving DecidableEq

/-- Which handler waits for an answer (`sendPayment.vue:76-115`). -/
inductive Waiting where
  | info
  | lock
  | unlock
  | pay
  deriving DecidableEq

/-- The data of the page (`sendPayment.vue:53-66`). `publicKey` and `password` are not declared there; they are `none` until they are
set, and when a prompt was cancelled. -/
structure State where
  publicKey : Option Text
  password : Option Text
  paymentStr : Text
  accountDetails : Text
  isAccountLocked : Text
  paymentId : Text
  waiting : List Waiting
  deriving DecidableEq

/-- `data()` (`sendPayment.vue:52-67`), with the given text of the payment. -/
def State.init (text : Text) : State := ⟨none, none, text, [], [], [], []⟩

/-- What happens to the page: typing into its two boxes (`sendPayment.vue:8, 22`), its buttons with what will be answered if a prompt
opens (`:15, 26, 35`), and the end of the call of the `i`-th handler that waits. -/
inductive Event where
  | typeKey (t : Text)
  | typePayment (t : Text)
  | clickInfo
  | clickLock (answer : Option Text)
  | clickUnlock (answer : Option Text)
  | clickSend
  | settled (i : Nat) (r : Except Text Text)

/-- What can be observed (`sendPayment.vue:76-115`): typing, prompts with their answers, alerts, the text of the payment set by the page, requests,
and the end of a successful call of `lockAccount`. -/
inductive Seen where
  | typedKey (t : Text)
  | typedPayment (t : Text)
  | askedKey (answer : Option Text)
  | askedPassword (answer : Option Text)
  | alert
  | rendered (t : Text)
  | request (r : Request)
  | locked

/-- `!this.publicKey` is false (`sendPayment.vue:78, 89, 93, 103`): set and not empty. -/
def filled : Option Text → Bool
  | none => false
  | some [] => false
  | some (_ :: _) => true

/-- `lockAccount` (`sendPayment.vue:76-86`), up to the call: `null` for a string throws. -/
def lockHandler (L : Lib) (s : State) (answer : Option Text) : State × List Seen :=
  let (s, seen) := if filled s.publicKey then (s, []) else ({ s with publicKey := answer }, [Seen.askedKey answer])
  match s.publicKey with
  | none => ({ s with isAccountLocked := L.thrown }, seen)
  | some k => ({ s with waiting := s.waiting ++ [.lock] }, seen ++ [.request (.lock k)])

/-- `unlockAccount` (`sendPayment.vue:87-100`), up to the call. -/
def unlockHandler (L : Lib) (s : State) (answer : Option Text) : State × List Seen :=
  if filled s.publicKey then
    let (s, seen) := if filled s.password then (s, []) else ({ s with password := answer }, [Seen.askedPassword answer])
    match s.publicKey, s.password with
    | some k, some p => ({ s with waiting := s.waiting ++ [.unlock] }, seen ++ [.request (.unlock k p)])
    | _, _ => ({ s with isAccountLocked := L.thrown }, seen)
  else (s, [.alert])

/-- `sendSignedPayment` (`sendPayment.vue:101-114`), up to the call. -/
def sendHandler (L : Lib) (s : State) : State × List Seen :=
  match s.publicKey with
  | none => (s, [.alert])
  | some [] => (s, [.alert])
  | some k =>
    match L.parse s.paymentStr with
    | none => ({ s with paymentId := L.thrown }, [])
    | some o =>
      ({ s with paymentStr := L.stringify (setFrom k o), waiting := s.waiting ++ [.pay] },
        [.rendered (L.stringify (setFrom k o)), .request (.pay (setFrom k o))])

/-- `accountInfo` (`apps/wasm/mvp/web/pages/sendPayment.vue:63-73`), up to the call. -/
def infoHandler (s : State) : State × List Seen :=
  match s.publicKey with
  | none => (s, [.alert])
  | some [] => (s, [.alert])
  | some k => ({ s with waiting := s.waiting ++ [.info] }, [.request (.info k)])

/-- The text of an answer or of an error (`sendPayment.vue:81-84, 96-98, 110-112`). -/
def textOf : Except Text Text → Text
  | .ok t => t
  | .error t => t

/-- The rest of a handler (`sendPayment.vue:81-85, 96-99, 110-113`). -/
def resume (s : State) (r : Except Text Text) : Waiting → State × List Seen
  | .info => ({ s with accountDetails := textOf r }, [])
  | .unlock => ({ s with isAccountLocked := textOf r }, [])
  | .pay => ({ s with paymentId := textOf r }, [])
  | .lock =>
    match r with
    | .ok t => ({ s with isAccountLocked := t, password := some [] }, [.locked])
    | .error t => ({ s with isAccountLocked := t }, [])

/-- One event (`sendPayment.vue:8, 15, 22, 26, 35, 76-114`). -/
def step (L : Lib) (s : State) : Event → State × List Seen
  | .typeKey t => ({ s with publicKey := some t }, [.typedKey t])
  | .typePayment t => ({ s with paymentStr := t }, [.typedPayment t])
  | .clickInfo => infoHandler s
  | .clickLock a => lockHandler L s a
  | .clickUnlock a => unlockHandler L s a
  | .clickSend => sendHandler L s
  | .settled i r =>
    match s.waiting[i]? with
    | none => (s, [])
    | some w => resume { s with waiting := s.waiting.eraseIdx i } r w

/-- A session: the events one after another, and all that was seen (`sendPayment.vue:76-115`). -/
def run (L : Lib) (s : State) : List Event → State × List Seen
  | [] => (s, [])
  | e :: es =>
    let (s, a) := step L s e
    let (s, b) := run L s es
    (s, a ++ b)

end MinaRs.Page.Pay
