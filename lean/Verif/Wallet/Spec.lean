import Verif.Base.TextSpec

/-!
# What a GraphQL request says

The lexical grammar of GraphQL (GraphQL specification, October 2021, section 2.1) as an automaton that reads one
character at a time.  Negative and fractional numbers, spreads and block strings do not occur here and are left out: a
document with one of them has no meaning in this file.
-/

namespace MinaRs.Wallet.Spec

open MinaRs.Text

/-- Tokens: punctuators, names, string values and integers. -/
inductive Tok where
  | punct (c : Char)
  | name (s : Text)
  | str (s : Text)
  | int (s : Text)
  deriving DecidableEq, Repr

/-- Where the automaton is. -/
inductive State where
  | start
  | comment
  | name (read : Text)
  | int (read : Text)
  /-- after the quote that opens a string -/
  | quote
  /-- after two quotes: the empty string, or the beginning of a block string -/
  | quotes
  | str (read : Text)
  | escape (read : Text)
  | unicode (read : Text) (digits value : Nat)
  deriving DecidableEq, Repr

def isNameStart (c : Char) : Bool := c.isAlpha || c == '_'
def isNameContinue (c : Char) : Bool := c.isAlphanum || c == '_'
def isIgnored (c : Char) : Bool := c == ' ' || c == '\t' || c == '\n' || c == '\r' || c == ','
def isPunctuator (c : Char) : Bool := "!$&():=@[]{|}".toList.contains c

/-- Between tokens. -/
def fromStart (c : Char) : Option (List Tok × State) :=
  if isIgnored c then some ([], .start)
  else if c = '#' then some ([], .comment)
  else if c = '"' then some ([], .quote)
  else if isNameStart c then some ([], .name [c])
  else if c.isDigit then some ([], .int [c])
  else if isPunctuator c then some ([.punct c], .start)
  else none

/-- Inside a string. -/
def fromStr (read : Text) (c : Char) : Option (List Tok × State) :=
  if c = '"' then some ([.str read], .start)
  else if c = '\\' then some ([], .escape read)
  else if c.toNat < 32 ∧ c ≠ '\t' then none
  else some ([], .str (read ++ [c]))

/-- The characters written with a backslash. -/
def escaped : Char → Option Char
  | '"' => some '"'
  | '\\' => some '\\'
  | '/' => some '/'
  | 'b' => some (Char.ofNat 8)
  | 'f' => some (Char.ofNat 12)
  | 'n' => some '\n'
  | 'r' => some '\r'
  | 't' => some '\t'
  | _ => none

/-- A hexadecimal digit. -/
def hexDigit (c : Char) : Option Nat :=
  if '0' ≤ c ∧ c ≤ '9' then some (c.toNat - '0'.toNat)
  else if 'a' ≤ c ∧ c ≤ 'f' then some (c.toNat - 'a'.toNat + 10)
  else if 'A' ≤ c ∧ c ≤ 'F' then some (c.toNat - 'A'.toNat + 10)
  else none

/-- One character. -/
def next : State → Char → Option (List Tok × State)
  | .start, c => fromStart c
  | .comment, c => some ([], if c = '\n' ∨ c = '\r' then .start else .comment)
  | .name read, c =>
    if isNameContinue c then some ([], .name (read ++ [c])) else (fromStart c).map fun r => (.name read :: r.1, r.2)
  | .int read, c =>
    if c.isDigit then if read = ['0'] then none else some ([], .int (read ++ [c]))
    else if isNameStart c || c == '.' then none
    else (fromStart c).map fun r => (.int read :: r.1, r.2)
  | .quote, c => if c = '"' then some ([], .quotes) else fromStr [] c
  | .quotes, c => if c = '"' then none else (fromStart c).map fun r => (.str [] :: r.1, r.2)
  | .str read, c => fromStr read c
  | .escape read, c =>
    if c = 'u' then some ([], .unicode read 0 0) else (escaped c).map fun e => ([], .str (read ++ [e]))
  | .unicode read digits value, c =>
    match hexDigit c with
    | none => none
    | some d =>
      if digits = 3 then
        if (16 * value + d).isValidChar then some ([], .str (read ++ [Char.ofNat (16 * value + d)])) else none
      else some ([], .unicode read (digits + 1) (16 * value + d))

/-- A text. -/
def feed : State → Text → Option (List Tok × State)
  | st, [] => some ([], st)
  | st, c :: cs =>
    match next st c with
    | none => none
    | some (ts, st') => (feed st' cs).map fun r => (ts ++ r.1, r.2)

/-- The end of the text. -/
def finish : State → Option (List Tok)
  | .start => some []
  | .comment => some []
  | .name read => some [.name read]
  | .int read => some [.int read]
  | .quotes => some [.str []]
  | _ => none

/-- The tokens of a document. -/
def tokens (s : Text) : Option (List Tok) :=
  match feed .start s with
  | none => none
  | some (ts, st) => (finish st).map fun r => ts ++ r

/-- A name token. -/
def n (s : String) : Tok := .name s.toList

/-- `mutation MyMutation { sendPayment(input: {fee: …, amount: …, to: …, from: …}) { payment { id } } }`, which asks
the node to send a payment. -/
def sendPayment (fee amount to sender : Text) : List Tok :=
  [n "mutation", n "MyMutation", .punct '{', n "sendPayment", .punct '(', n "input", .punct ':', .punct '{',
    n "fee", .punct ':', .str fee, n "amount", .punct ':', .str amount, n "to", .punct ':', .str to,
    n "from", .punct ':', .str sender, .punct '}', .punct ')', .punct '{', n "payment", .punct '{', n "id", .punct '}',
    .punct '}', .punct '}']

/-- `mutation MyMutation { lockAccount(input: {publicKey: …}) { account { locked } } }` -/
def lockAccount (key : Text) : List Tok :=
  [n "mutation", n "MyMutation", .punct '{', n "lockAccount", .punct '(', n "input", .punct ':', .punct '{',
    n "publicKey", .punct ':', .str key, .punct '}', .punct ')', .punct '{', n "account", .punct '{', n "locked", .punct '}',
    .punct '}', .punct '}']

/-- `mutation MyMutation { unlockAccount(input: {publicKey: …, password: …}) { account { locked } } }` -/
def unlockAccount (key password : Text) : List Tok :=
  [n "mutation", n "MyMutation", .punct '{', n "unlockAccount", .punct '(', n "input", .punct ':', .punct '{',
    n "publicKey", .punct ':', .str key, n "password", .punct ':', .str password, .punct '}', .punct ')', .punct '{',
    n "account", .punct '{', n "locked", .punct '}', .punct '}', .punct '}']

/-- `query MyQuery { account(publicKey: …) { balance { total } inferredNonce locked } }` -/
def account (key : Text) : List Tok :=
  [n "query", n "MyQuery", .punct '{', n "account", .punct '(', n "publicKey", .punct ':', .str key, .punct ')', .punct '{',
    n "balance", .punct '{', n "total", .punct '}', n "inferredNonce", n "locked", .punct '}', .punct '}']

/-- Characters that stand for themselves inside a string. -/
def Plain (s : Text) : Prop := ∀ c ∈ s, c ≠ '"' ∧ c ≠ '\\' ∧ 32 ≤ c.toNat

instance (s : Text) : Decidable (Plain s) := inferInstanceAs (Decidable (∀ c ∈ s, _))

end MinaRs.Wallet.Spec
