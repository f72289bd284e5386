import Verif.Json.Model

/-!
# Specification: documents that say the same

Objects are read by name: the order of the members does not matter, and of several members of a name the last one counts
(RFC 8259, section 4, and what JavaScript's `JSON.parse` does).
-/

namespace MinaRs.Json.Grammar

/-- The member that counts. -/
def member (name : String) (es : List (String × J)) : Option J := ((es.filter (fun e => e.1 == name)).getLast?).map Prod.snd

/-- The documents say the same. -/
inductive Same : J → J → Prop
  | null : Same .null .null
  | bool (b : Bool) : Same (.bool b) (.bool b)
  | num (n : Int) : Same (.num n) (.num n)
  | float (bits : UInt64) : Same (.float bits) (.float bits)
  | str (s : String) : Same (.str s) (.str s)
  | arr (js ks : List J) : js.length = ks.length → (∀ (i : Nat) j k, js[i]? = some j → ks[i]? = some k → Same j k) → Same (.arr js) (.arr ks)
  | obj (es fs : List (String × J)) : (∀ name, member name es = none ↔ member name fs = none) →
      (∀ name j k, member name es = some j → member name fs = some k → Same j k) → Same (.obj es) (.obj fs)

end MinaRs.Json.Grammar
