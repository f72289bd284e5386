/-!
# Model of the derive macro for conversions (`/repo/protocol/serialization-types-macros/src`)

`auto_from_macro` reads the definition of a type and writes implementations of `From` between that type and the types
named in its attributes.  Here the macro is a function from definitions to implementations, and `run` says what an
implementation does when it is called.  What `.into()` does to a part of a value is chosen by the compiler from the types
of the two fields, and is a parameter.  Code that the compiler refuses has no result (`none`).
-/

namespace MinaRs.Derive

/-! ## What the macro reads -/

/-- The type of a field as it is written (`syn::Type`, `auto_from.rs:40, 114, 196, 231`): a path, of which the macro looks at the
names only, or something else. -/
inductive Written where
  | path (segments : List String)
  | other
  deriving DecidableEq, Repr

/-- The fields of a struct or of a variant (`syn::Fields`, `serialization-types-macros/src/lib.rs:91-110`). -/
inductive Fields where
  | named (fs : List (String × Written))
  | unnamed (ts : List Written)
  | unit
  deriving DecidableEq, Repr

/-- `syn::Data` (`serialization-types-macros/src/lib.rs:90-120`) -/
inductive Data where
  | struct (fs : Fields)
  | enum (vs : List (String × Fields))
  | union
  deriving DecidableEq, Repr

/-- An attribute (`auto_from.rs:14-22`): is it outside the item, its name if that is one word, and the tokens in its brackets
if there are brackets. -/
structure Attr where
  outer : Bool
  ident : Option String
  args : Option String
  deriving DecidableEq, Repr

/-- `DeriveInput` (`serialization-types-macros/src/lib.rs:79-81`) -/
structure Input where
  attrs : List Attr
  ident : String
  data : Data
  deriving DecidableEq, Repr

/-! ## What the macro writes -/

/-- The expression for a field (`auto_from.rs:76-79`): `x.into()`, `x.into_iter().map(Into::into).collect()`,
`x.map(Into::into)`, `Box::new((*x).into())`. -/
inductive Conv where
  | into
  | items
  | option
  | boxed
  deriving DecidableEq, Repr

/-- An arm of the `match` (`auto_from.rs:183-185, 221-223, 257-259`): `Other::V => Self::V`, `Other::V(v0, …) => Self::V(…)`
and `Other::V{f, …} => Self::V{f: …, …}`.  An expression is the name it is about and what is done with it. -/
inductive Arm where
  | unit (variant : String)
  | unnamed (variant : String) (binders : List String) (results : List (String × Conv))
  | named (variant : String) (binders : List String) (results : List (String × Conv))
  deriving DecidableEq, Repr

/-- The body of `fn from(item)` (`auto_from.rs:74-93, 148-162, 271-289, 304-366`). -/
inductive Body where
  | named (fields : List (String × Conv))
  | unnamed (items : List (Nat × Conv))
  | arms (arms : List Arm)
  | wrap
  | unwrap
  deriving DecidableEq, Repr

/-- A type in the written code: its tokens, within a number of `Versioned<…, V>` (`auto_from.rs:304-360`). -/
structure TypeRef where
  tokens : String
  layers : Nat
  deriving DecidableEq, Repr

/-- `impl From<source> for target` (`auto_from.rs:73, 84`) -/
structure Impl where
  source : TypeRef
  target : TypeRef
  body : Body
  deriving DecidableEq, Repr

/-! ## The macro -/

/-- `auto_from.rs:12-26` (`parse_types_from_attr`) -/
def targets (attrs : List Attr) : List String :=
  attrs.filterMap fun a => if a.outer && a.ident == some "auto_from" then a.args else none

/-- `auto_from.rs:41-57`: the first of the three names among the segments of the path, from left to right. -/
def segmentConv : List String → Conv
  | [] => .into
  | s :: ss =>
    if s == "Vec" then .items else if s == "Option" then .option else if s == "Box" then .boxed else segmentConv ss

/-- `auto_from.rs:40-59`: how a field of this type is converted. -/
def convOf : Written → Conv
  | .path ss => segmentConv ss
  | .other => .into

/-- The names of the fields that are converted in this way (`auto_from.rs:34-61`). -/
def pick (fs : List (String × Written)) (c : Conv) : List (String × Conv) :=
  (fs.filter fun f => convOf f.2 == c).map fun f => (f.1, c)

/-- `auto_from.rs:34-80`: the four groups of fields, one after the other. -/
def namedBody (fs : List (String × Written)) : List (String × Conv) :=
  pick fs .into ++ pick fs .items ++ pick fs .option ++ pick fs .boxed

/-- `auto_from.rs:109-140`: the position of a field is the number of expressions so far. -/
def unnamedLoop (acc : List (Nat × Conv)) : List Written → List (Nat × Conv)
  | [] => acc
  | t :: ts => unnamedLoop (acc ++ [(acc.length, convOf t)]) ts

/-- `auto_from.rs:107-140` -/
def unnamedBody (ts : List Written) : List (Nat × Conv) := unnamedLoop [] ts

/-- `format!("v{i}")` (`auto_from.rs:191-194`) -/
def binder (i : Nat) : String := "v" ++ toString i

/-- `auto_from.rs:188-220`: the names and the expressions, from position `i` on. -/
def tupleArm : Nat → List Written → List (String × Conv)
  | _, [] => []
  | i, t :: ts => (binder i, convOf t) :: tupleArm (i + 1) ts

/-- `auto_from.rs:180-264`: the arm of one variant. -/
def arm (name : String) : Fields → Arm
  | .unit => .unit name
  | .named [] => .unit name
  | .unnamed [] => .unit name
  | .unnamed (t :: ts) => .unnamed name ((tupleArm 0 (t :: ts)).map (·.1)) (tupleArm 0 (t :: ts))
  | .named (f :: fs) => .named name ((f :: fs).map (·.1)) ((f :: fs).map fun f => (f.1, convOf f.2))

/-- `auto_from.rs:299-368` (`impl_from_for_versioned`): one to four layers, both ways. -/
def versioned (ident target : String) : List Impl :=
  [1, 2, 3, 4].flatMap fun n =>
    [⟨⟨ident, 0⟩, ⟨target, n⟩, .wrap⟩, ⟨⟨target, n⟩, ⟨ident, 0⟩, .unwrap⟩]

/-- The implementations for one target (`auto_from.rs:71-98, 146-167, 270-293`): the same body both ways. -/
def impls (ident : String) (body : Body) (target : String) : List Impl :=
  ⟨⟨ident, 0⟩, ⟨target, 0⟩, body⟩ :: ⟨⟨target, 0⟩, ⟨ident, 0⟩, body⟩ :: versioned ident target

/-- The body for this definition, if the macro writes one (`serialization-types-macros/src/lib.rs:90-122`, `auto_from.rs:62-68, 141-143, 266-268`);
`unimplemented!()` is a panic. -/
def bodyOf : Data → Except String (Option Body)
  | .struct (.named fs) => .ok (if (namedBody fs).isEmpty then none else some (.named (namedBody fs)))
  | .struct (.unnamed ts) => .ok (if (unnamedBody ts).isEmpty then none else some (.unnamed (unnamedBody ts)))
  | .struct .unit => .error "not implemented"
  | .enum vs => .ok (if vs.isEmpty then none else some (.arms (vs.map fun v => arm v.1 v.2)))
  | .union => .error "not implemented"

/-- `serialization-types-macros/src/lib.rs:78-123` (`auto_from_macro`): the implementations, or a panic, which is a compile error at the derive. -/
def derive (i : Input) : Except String (List Impl) :=
  if (targets i.attrs).isEmpty then .ok []
  else
    match bodyOf i.data with
    | .error e => .error e
    | .ok none => .ok []
    | .ok (some b) => .ok ((targets i.attrs).flatMap (impls i.ident b))

/-! ## What the written code does -/

/-- The value of a field: `Vec<_>`, `Option<_>`, `Box<_>` or anything else (`auto_from.rs:76-79`). -/
inductive Part (V : Type) where
  | plain (v : V)
  | list (l : List V)
  | opt (o : Option V)
  | boxed (v : V)
  deriving DecidableEq, Repr

/-- The fields of a value (`auto_from.rs:74-93`). -/
inductive Payload (V : Type) where
  | unit
  | unnamed (ps : List (Part V))
  | named (fs : List (String × Part V))
  deriving DecidableEq, Repr

/-- A value of a struct or an enum (`auto_from.rs:74-93, 271-289`). -/
inductive Value (V : Type) where
  | struct (p : Payload V)
  | variant (name : String) (p : Payload V)
  deriving DecidableEq, Repr

/-- What of the definition of the type that a conversion makes takes part: the names of the fields in their order, or their
number (`auto_from.rs:74-93`). -/
inductive Shape where
  | unit
  | unnamed (n : Nat)
  | named (names : List String)
  deriving DecidableEq, Repr

/-- The definition of the type that a conversion makes (`auto_from.rs:74-93, 271-289`). -/
inductive Def where
  | struct (s : Shape)
  | enum (vs : List (String × Shape))
  deriving DecidableEq, Repr

/-- Where a field is (`auto_from.rs:76, 112, 191-194`). -/
inductive Key where
  | name (s : String)
  | pos (n : Nat)
  deriving DecidableEq, Repr

/-- Where a field is: in which variant, if any, and there (`auto_from.rs:76, 112, 222, 258`). -/
structure Place where
  variant : Option String
  key : Key
  deriving DecidableEq, Repr

section
variable {V : Type}

/-- One expression on the value of one field, `f` being the `From` of its type (`auto_from.rs:76-79`). -/
def Conv.eval (f : V → V) : Conv → Part V → Option (Part V)
  | .into, .plain v => some (.plain (f v))
  | .items, .list l => some (.list (l.map f))
  | .option, .opt o => some (.opt (o.map f))
  | .boxed, .boxed v => some (.boxed (f v))
  | _, _ => none

/-- The value with this name (`auto_from.rs:75-80`). -/
def find {α : Type} (n : String) : List (String × α) → Option α
  | [] => none
  | x :: xs => if x.1 = n then some x.2 else find n xs

/-- Are these the same names, each once?  If not, the code does not compile (`auto_from.rs:75-80`: a field of `Self` is missing, named
twice or not there). -/
def sameNames (a b : List String) : Bool := decide (a.Nodup ∧ b.Nodup ∧ (∀ x ∈ a, x ∈ b) ∧ ∀ x ∈ b, x ∈ a)

/-- `Self { f: …item.f…, … }` (`auto_from.rs:74-93`) for a type with these fields. -/
def runNamed (into : Key → V → V) (body : List (String × Conv)) (target : List String) (item : List (String × Part V)) :
    Option (List (String × Part V)) :=
  if sameNames (body.map (·.1)) target then
    target.mapM fun n => do
      let c ← find n body
      let p ← find n item
      let q ← c.eval (into (.name n)) p
      some (n, q)
  else none

/-- `Self(…item.0…, …)` (`auto_from.rs:148-162`) for a type with so many fields; the position of a field of the result is that of its
expression. -/
def runUnnamed (into : Key → V → V) (body : List (Nat × Conv)) (target : Nat) (item : List (Part V)) : Option (List (Part V)) :=
  if body.length = target then
    body.mapM fun x => do
      let p ← item[x.1]?
      x.2.eval (into (.pos x.1)) p
  else none

/-- The positions that `v0`, `v1`, … stand for (`auto_from.rs:188-195, 221-223`). -/
def bind (binders : List String) (item : List (Part V)) : Option (List (String × Part V)) :=
  if binders.length = item.length then some (binders.zip item) else none

/-- The right side of an arm with positions; the `n`-th expression makes the `n`-th field (`auto_from.rs:221-223`). -/
def runResults (into : Key → V → V) (env : List (String × Part V)) : Nat → List (String × Conv) → Option (List (Part V))
  | _, [] => some []
  | n, x :: xs => do
    let p ← find x.1 env
    let q ← x.2.eval (into (.pos n)) p
    let qs ← runResults into env (n + 1) xs
    some (q :: qs)

/-- One arm on the fields of a value of its variant (`auto_from.rs:183-185, 221-223, 257-259`). -/
def Arm.run (into : Key → V → V) (target : Shape) : Arm → Payload V → Option (Payload V)
  | .unit _, .unit => if target = .unit then some .unit else none
  | .unnamed _ binders results, .unnamed ps =>
    if target = .unnamed results.length then do
      let env ← bind binders ps
      let qs ← runResults into env 0 results
      some (.unnamed qs)
    else none
  | .named _ binders results, .named fs =>
    match target with
    | .named names =>
      if sameNames binders (fs.map (·.1)) then (runNamed into results names fs).map .named else none
    | _ => none
  | _, _ => none

/-- The variant of an arm (`auto_from.rs:184, 222, 258`). -/
def Arm.variant : Arm → String
  | .unit v => v
  | .unnamed v _ _ => v
  | .named v _ _ => v

/-- The body of `from` on a value, for a target of this definition (`auto_from.rs:74-93, 148-162, 271-289`).  Of an enum the first
arm for the variant counts. -/
def Body.run (into : Place → V → V) (target : Def) : Body → Value V → Option (Value V)
  | .named body, .struct (.named item) =>
    match target with
    | .struct (.named names) =>
      (runNamed (fun k => into ⟨none, k⟩) body names item).map fun fs => .struct (.named fs)
    | _ => none
  | .unnamed body, .struct (.unnamed item) =>
    match target with
    | .struct (.unnamed n) =>
      (runUnnamed (fun k => into ⟨none, k⟩) body n item).map fun ps => .struct (.unnamed ps)
    | _ => none
  | .arms list, .variant name p =>
    match target with
    | .enum vs => do
      let a ← list.find? fun a => a.variant == name
      let s ← find name vs
      let q ← a.run (fun k => into ⟨some name, k⟩) s p
      some (.variant name q)
    | _ => none
  | _, _ => none

/-- A value within layers of `Versioned` (`protocol/versioned/src/lib.rs:21-26`). -/
inductive Layered (A : Type) where
  | bare (a : A)
  | layer (version : UInt16) (t : Layered A)
  deriving DecidableEq, Repr

/-- `From<T> for Versioned<…, V>` (`protocol/versioned/src/lib.rs:57-62, 71-77, 87-95, 107-115`): every layer gets the version
number of its type; the numbers from the outside in. -/
def layers {A : Type} : List UInt16 → A → Layered A
  | [], a => .bare a
  | v :: vs, a => .layer v (layers vs a)

/-- `From<Versioned<…, V>> for (T,)` (`protocol/versioned/src/lib.rs:64-69, 79-85, 97-105, 117-125`): so many layers are taken off,
whatever their numbers. -/
def peel {A : Type} : Nat → Layered A → Option A
  | 0, .bare a => some a
  | n + 1, .layer _ t => peel n t
  | _, _ => none

/-- `let t: Target = t.into(); t.into()` (`auto_from.rs:306-309`) -/
def runWrap {A B : Type} (conv : A → Option B) (versions : List UInt16) (a : A) : Option (Layered B) :=
  (conv a).map (layers versions)

/-- `let (t,): (Target,) = t.into(); t.into()` (`auto_from.rs:314-317`) -/
def runUnwrap {A B : Type} (conv : B → Option A) (n : Nat) (b : Layered B) : Option A := (peel n b).bind conv

end

end MinaRs.Derive
