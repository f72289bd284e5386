import Verif.BinProt.Loose
import Verif.BinProt.SerdeSpec

/-!
# What a layout means

Two independent readings of a layout, neither of which has a stack:

* `parse r path`: recursive descent over the layout, returning a value or the same errors and
  panics the decoder reports;
* `Gram canon r path enc v`: the bytes `enc` are a complete wire form of `v` under the layout.
  With `canon = true` every integer and length is in the form the writers produce and every
  polymorphic variant tag has its low bit set.

A `Custom` rule takes its type from the innermost enclosing `Reference` (`path`).
-/

namespace MinaRs.BinProt.Spec

mutual
/-- Recursive descent. -/
def parse : Rule → Option String → Prog Value
  | .unit, _ => do binReadUnit; .ret .unit
  | .bool, _ => do let b ← binReadBool; .ret (.bool b)
  | .char, _ => do let c ← readU8; .ret (.char c)
  | .int _, _ => do let n ← binReadInteger i64; .ret (.int n)
  | .float, _ => do let f ← readF64; .ret (.float f)
  | .string, _ => do let bs ← binReadBytes; .ret (.list (bs.map .char))
  | .option r, p => do
    let b ← readU8
    if b = 0 then .ret .none
    else if b = 1 then do let v ← parse r p; .ret (.some v)
    else .fail (.invalidOptionByte b)
  | .record fs, p => do let vs ← parseFields fs p; .ret (.record vs)
  | .tuple rs, p => do let vs ← parseTuple rs p; .ret (.tuple vs)
  | .list r, p => do
    let len ← binReadLen
    claim (len * ruleSize)
    let vs ← decodeN (parse r p) len
    .ret (.list vs)
  | .sum ss, p => do
    let b ← readU8
    parseSummand ss b.toNat p
  | .polyvar ps, p => do
    let tag ← binReadPolyvarTag
    parsePolyvar ps tag p
  | .reference path r, _ => parse r (some path)
  | .custom rs, p =>
    match p with
    | none => .fail .layoutIteratorError
    | some path =>
      match customKind path with
      | .vector n => do
        let vs ← parseVector rs n p
        binReadUnit
        .ret (.tuple (vs ++ [.unit]))
      | .bigInt => do
        let cs ← decodeN readU8 32
        .ret (.tuple (cs.map .char))
      | .unknown => .fail (.unknownCustomType path)
  | .nat0, _ => .fail .unimplementedRule
  | .customForPath _ _, _ => .fail (.panic "not implemented")
  | .other _, _ => .fail (.panic "not implemented")
/-- Each rule in turn. -/
def parseTuple : List Rule → Option String → Prog (List Value)
  | [], _ => .ret []
  | r :: rs, p => do
    let v ← parse r p
    let vs ← parseTuple rs p
    .ret (v :: vs)
/-- Each field in turn. -/
def parseFields : List (String × Rule) → Option String → Prog (List (String × Value))
  | [], _ => .ret []
  | (name, r) :: fs, p => do
    let v ← parse r p
    let vs ← parseFields fs p
    .ret ((name, v) :: vs)
/-- The summand at the position read. -/
def parseSummand : List Summand → Nat → Option String → Prog Value
  | [], _, _ => .fail (.panic "index out of bounds")
  | .mk name i args :: _, 0, p =>
    if 0 ≤ i ∧ i < 256 then do
      let vs ← parseTuple args p
      .ret (.sum name (UInt8.ofNat i.toNat) (.tuple vs))
    else .fail (.panic "called `Result::unwrap()` on an `Err` value")
  | _ :: ss, n + 1, p => parseSummand ss n p
/-- The first variant with the tag read. -/
def parsePolyvar : List Polyvar → UInt32 → Option String → Prog Value
  | [], tag, _ => .fail (.unknownPolyvarTag tag.toNat)
  | .tagged name hash args :: ps, tag, p =>
    if hash = tag then do
      let vs ← parseTuple args p
      .ret (.polyvar name hash (.tuple vs))
    else parsePolyvar ps tag p
  | .inherited _ :: _, _, _ => .fail (.panic "not implemented")
/-- `n` elements of the first rule. -/
def parseVector : List Rule → Nat → Option String → Prog (List Value)
  | [], _, _ => .fail (.panic "called `Option::unwrap()` on a `None` value")
  | r :: _, n, p => decodeN (parse r p) n
end

/-- An integer in the form the writer produces. -/
def CanonInt (enc : Bytes) (n : Int) : Prop := enc = flush (binWriteInteger n).1
/-- A length in the form the writer produces. -/
def CanonNat (enc : Bytes) (n : Nat) : Prop := enc = flush (binWriteNat0 n).1

mutual
/-- Complete wire forms under a layout. -/
def Gram (canon : Bool) : Rule → Option String → Bytes → Value → Prop
  | .unit, _, enc, v => v = .unit ∧ enc = [0x00]
  | .bool, _, enc, v => ∃ b, v = .bool b ∧ enc = [if b then 0x01 else 0x00]
  | .char, _, enc, v => ∃ c, v = .char c ∧ enc = [c]
  | .int _, _, enc, v => ∃ n, v = .int n ∧ WireInt enc n ∧ (canon = true → CanonInt enc n)
  | .float, _, enc, v => ∃ f, v = .float f ∧ enc.length = 8 ∧ leNat enc = f.toNat
  | .string, _, enc, v => ∃ len bs, v = .list (bs.map .char) ∧ enc = len ++ bs ∧
      bs.length < 2 ^ 63 ∧ WireNat len bs.length ∧ (canon = true → CanonNat len bs.length)
  | .option r, p, enc, v =>
      (v = .none ∧ enc = [0x00]) ∨ ∃ w e, v = .some w ∧ enc = 0x01 :: e ∧ Gram canon r p e w
  | .record fs, p, enc, v => ∃ vs, v = .record vs ∧ GramFields canon fs p enc vs
  | .tuple rs, p, enc, v => ∃ vs, v = .tuple vs ∧ GramTuple canon rs p enc vs
  | .list r, p, enc, v => ∃ len es vs, v = .list vs ∧ enc = len ++ es ∧ vs.length < 2 ^ 57 ∧ WireNat len vs.length ∧
      (canon = true → CanonNat len vs.length) ∧ WireElems (Gram canon r p) es vs
  | .sum ss, p, enc, v => ∃ (b : UInt8) (e : Bytes), enc = b :: e ∧ GramSummand canon ss b.toNat p e v
  | .polyvar ps, p, enc, v => ∃ tag e, enc = tag ++ e ∧ tag.length = 4 ∧
      (canon = true → leNat tag % 2 = 1) ∧ GramPolyvar canon ps (leNat tag / 2) p e v
  | .reference path r, _, enc, v => Gram canon r (some path) enc v
  | .custom rs, p, enc, v => ∃ path, p = some path ∧
      ((∃ n es vs, customKind path = .vector n ∧ v = .tuple (vs ++ [.unit]) ∧ enc = es ++ [0x00] ∧
          GramVector canon rs n p es vs) ∨
       (customKind path = .bigInt ∧ v = .tuple (enc.map .char) ∧ enc.length = 32))
  | .nat0, _, _, _ => False
  | .customForPath _ _, _, _, _ => False
  | .other _, _, _, _ => False
/-- Parts back to back. -/
def GramTuple (canon : Bool) : List Rule → Option String → Bytes → List Value → Prop
  | [], _, enc, vs => enc = [] ∧ vs = []
  | r :: rs, p, enc, vs => ∃ e₁ e₂ w ws, enc = e₁ ++ e₂ ∧ vs = w :: ws ∧
      Gram canon r p e₁ w ∧ GramTuple canon rs p e₂ ws
/-- Fields back to back, under their names. -/
def GramFields (canon : Bool) : List (String × Rule) → Option String → Bytes → List (String × Value) → Prop
  | [], _, enc, vs => enc = [] ∧ vs = []
  | (name, r) :: fs, p, enc, vs => ∃ e₁ e₂ w ws, enc = e₁ ++ e₂ ∧ vs = (name, w) :: ws ∧
      Gram canon r p e₁ w ∧ GramFields canon fs p e₂ ws
/-- The summand at a position. -/
def GramSummand (canon : Bool) : List Summand → Nat → Option String → Bytes → Value → Prop
  | [], _, _, _, _ => False
  | .mk name i args :: _, 0, p, enc, v =>
    0 ≤ i ∧ i < 256 ∧ ∃ vs, v = .sum name (UInt8.ofNat i.toNat) (.tuple vs) ∧ GramTuple canon args p enc vs
  | _ :: ss, n + 1, p, enc, v => GramSummand canon ss n p enc v
/-- The first variant with a tag. -/
def GramPolyvar (canon : Bool) : List Polyvar → Nat → Option String → Bytes → Value → Prop
  | [], _, _, _, _ => False
  | .tagged name hash args :: ps, tag, p, enc, v =>
    (hash.toNat = tag ∧ ∃ vs, v = .polyvar name hash (.tuple vs) ∧ GramTuple canon args p enc vs) ∨
    (hash.toNat ≠ tag ∧ GramPolyvar canon ps tag p enc v)
  | .inherited _ :: _, _, _, _, _ => False
/-- `n` elements of the first rule. -/
def GramVector (canon : Bool) : List Rule → Nat → Option String → Bytes → List Value → Prop
  | [], _, _, _, _ => False
  | r :: _, n, p, enc, vs => vs.length = n ∧ WireElems (Gram canon r p) enc vs
end

mutual
/-- Every `Custom` rule is the direct target of a `Reference` (`d` says whether we are at such a
target), as in every file of `/repo/protocol/layouts`: then the module path it sees is its own reference's. -/
def Scoped : Rule → (d : Bool) → Prop
  | .option r, _ => Scoped r false
  | .record fs, _ => ScopedFields fs
  | .tuple rs, _ => ScopedRules rs
  | .sum ss, _ => ScopedSummands ss
  | .polyvar ps, _ => ScopedPolyvars ps
  | .list r, _ => Scoped r false
  | .reference _ r, _ => Scoped r true
  | .custom rs, d => d = true ∧ ScopedRules rs
  | _, _ => True
def ScopedRules : List Rule → Prop
  | [] => True
  | r :: rs => Scoped r false ∧ ScopedRules rs
def ScopedFields : List (String × Rule) → Prop
  | [] => True
  | (_, r) :: fs => Scoped r false ∧ ScopedFields fs
def ScopedSummands : List Summand → Prop
  | [] => True
  | .mk _ _ args :: ss => ScopedRules args ∧ ScopedSummands ss
def ScopedPolyvars : List Polyvar → Prop
  | [] => True
  | .tagged _ _ args :: ps => ScopedRules args ∧ ScopedPolyvars ps
  | .inherited _ :: ps => ScopedPolyvars ps
end

mutual
/-- Summands carry their own position as index (`n` is the position of the first), and tags do
not fit a single byte.  These are the conditions under which the layout's variant indices and
tags can be written back. -/
def Rewritable : Rule → Prop
  | .option r => Rewritable r
  | .record fs => RewritableFields fs
  | .tuple rs => RewritableRules rs
  | .sum ss => RewritableSummands ss 0
  | .polyvar ps => RewritablePolyvars ps
  | .list r => Rewritable r
  | .reference _ r => Rewritable r
  | .custom rs => RewritableRules rs
  | _ => True
def RewritableRules : List Rule → Prop
  | [] => True
  | r :: rs => Rewritable r ∧ RewritableRules rs
def RewritableFields : List (String × Rule) → Prop
  | [] => True
  | (_, r) :: fs => Rewritable r ∧ RewritableFields fs
def RewritableSummands : List Summand → Nat → Prop
  | [], _ => True
  | .mk _ i args :: ss, n => i = n ∧ RewritableRules args ∧ RewritableSummands ss (n + 1)
def RewritablePolyvars : List Polyvar → Prop
  | [] => True
  | .tagged _ hash args :: ps => 256 ≤ hash.toNat ∧ RewritableRules args ∧ RewritablePolyvars ps
  | .inherited _ :: ps => RewritablePolyvars ps
end

mutual
/-- Only rules the decoder supports: no unsupported rule, no inherited polymorphic variant,
vectors name their element, summand indices fit a byte; and every sum lists at least `m`
constructors.  `p` is the innermost enclosing module path. -/
def Supported (m : Nat) : Rule → (p : Option String) → Prop
  | .option r, p => Supported m r p
  | .record fs, p => SupportedFields m fs p
  | .tuple rs, p => SupportedRules m rs p
  | .sum ss, p => m ≤ ss.length ∧ SupportedSummands m ss p
  | .polyvar ps, p => SupportedPolyvars m ps p
  | .list r, p => Supported m r p
  | .reference path r, _ => Supported m r (some path)
  | .custom rs, p => (∀ path n, p = some path → customKind path = .vector n → rs ≠ []) ∧ SupportedRules m rs p
  | .customForPath _ _, _ => False
  | .other _, _ => False
  | _, _ => True
def SupportedRules (m : Nat) : List Rule → (p : Option String) → Prop
  | [], _ => True
  | r :: rs, p => Supported m r p ∧ SupportedRules m rs p
def SupportedFields (m : Nat) : List (String × Rule) → (p : Option String) → Prop
  | [], _ => True
  | (_, r) :: fs, p => Supported m r p ∧ SupportedFields m fs p
def SupportedSummands (m : Nat) : List Summand → (p : Option String) → Prop
  | [], _ => True
  | .mk _ i args :: ss, p => 0 ≤ i ∧ i < 256 ∧ SupportedRules m args p ∧ SupportedSummands m ss p
def SupportedPolyvars (m : Nat) : List Polyvar → (p : Option String) → Prop
  | [], _ => True
  | .tagged _ _ args :: ps, p => SupportedRules m args p ∧ SupportedPolyvars m ps p
  | .inherited _ :: _, _ => False
end

/-- The part of a value a key addresses, if there is one.  A key applied to
a sum constructor addresses the part of the constructor's argument. -/
inductive Addresses : Key → Value → Value → Prop
  | listPos (i : Nat) (vs : List Value) (h : i < vs.length) : Addresses (.pos i) (.list vs) vs[i]
  | tuplePos (i : Nat) (vs : List Value) (h : i < vs.length) : Addresses (.pos i) (.tuple vs) vs[i]
  | field (s : String) (before : List (String × Value)) (w : Value) (after : List (String × Value))
      (h : ∀ e ∈ before, e.1 ≠ s) : Addresses (.name s) (.record (before ++ (s, w) :: after)) w
  | throughSum (k : Key) (name : String) (i : UInt8) (v w : Value) (h : Addresses k v w)
      (hs : ∀ n j u, v ≠ .sum n j u) : Addresses k (.sum name i v) w

/-- A path of keys followed one after the other. -/
inductive AddressesPath : List Key → Value → Value → Prop
  | nil (v : Value) : AddressesPath [] v v
  | cons (k : Key) (ks : List Key) (v u w : Value) (h : Addresses k v u) (hs : AddressesPath ks u w) :
      AddressesPath (k :: ks) v w

end MinaRs.BinProt.Spec
