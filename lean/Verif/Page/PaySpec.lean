import Verif.Page.Pay

/-!
# What the payment page holds, told from what was seen
-/

namespace MinaRs.Page.Pay.Spec

open MinaRs.Text (Text)
open MinaRs.Wallet (Js)

/-- The account in the box: the last one typed or given to a prompt. -/
def account : Option Text → List Seen → Option Text
  | k, [] => k
  | _, .typedKey t :: log => account (some t) log
  | _, .askedKey a :: log => account a log
  | k, _ :: log => account k log

/-- The password that the page keeps: the last one given to a prompt, and the empty one after an account was locked. -/
def kept : Option Text → List Seen → Option Text
  | p, [] => p
  | _, .askedPassword a :: log => kept a log
  | _, .locked :: log => kept (some []) log
  | p, _ :: log => kept p log

/-- The text in the payment box: the last one typed or set by the page. -/
def text : Text → List Seen → Text
  | t, [] => t
  | _, .typedPayment u :: log => text u log
  | _, .rendered u :: log => text u log
  | t, _ :: log => text t log

/-- A property of an object. -/
def property (n : Text) (o : Obj) : Option Js := (o.find? fun e => e.1 == n).map Prod.snd

/-- No account was locked. -/
def NeverLocked (log : List Seen) : Prop := Seen.locked ∉ log

end MinaRs.Page.Pay.Spec
