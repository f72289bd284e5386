import Verif.BinProt.LooseSpec
import Verif.BinProt.SerdeWire

/-! The stack machine decodes what the recursive descent does (helper lemmas). -/

namespace MinaRs.BinProt
open Prog Spec

/-- The stateful program `q` does what `p` does and ends with the stack `st`. -/
def Agrees {α : Type} (p : Prog α) (q : Prog (α × Iter)) (st : List Rule) : Prop :=
  ∀ s, (∀ v r, p.run s = .ok (v, r) → ∃ p', q.run s = .ok ((v, ⟨st, p'⟩), r)) ∧
    (∀ e, p.run s = .error e → q.run s = .error e)

theorem Agrees.ret {α : Type} (a : α) (st : List Rule) (p : Option String) :
    Agrees (.ret a) (.ret (a, ⟨st, p⟩)) st := by
  intro s
  refine ⟨?_, ?_⟩
  · intro v r h; cases h; exact ⟨p, rfl⟩
  · intro e h; cases h

theorem Agrees.fail {α : Type} (e : Err) (st : List Rule) :
    Agrees (.fail e : Prog α) (.fail e) st := by
  intro s
  refine ⟨?_, ?_⟩
  · intro v r h; cases h
  · intro e h; cases h; rfl

theorem Agrees.read {α β : Type} {x : Prog α} {f : α → Prog β} {g : α → Prog (β × Iter)} {st : List Rule}
    (h : ∀ a, Agrees (f a) (g a) st) : Agrees (x >>= f) (x >>= g) st := by
  intro s
  cases hx : x.run s with
  | error e =>
    refine ⟨?_, ?_⟩
    · intro v r h'; rw [run_bind_error hx] at h'; cases h'
    · intro e' h'; rw [run_bind_error hx] at h' ⊢; cases h'; rfl
  | ok y =>
    obtain ⟨a, s'⟩ := y
    rw [run_bind_ok hx, run_bind_ok hx]
    exact h a s'

theorem Agrees.bind {α β : Type} {p : Prog α} {q : Prog (α × Iter)} {f : α → Prog β}
    {g : α × Iter → Prog (β × Iter)} {st st' : List Rule} (h : Agrees p q st)
    (h' : ∀ v p', Agrees (f v) (g (v, ⟨st, p'⟩)) st') : Agrees (p >>= f) (q >>= g) st' := by
  intro s
  cases hx : p.run s with
  | error e =>
    have hq := (h s).2 e hx
    refine ⟨?_, ?_⟩
    · intro v r h'; rw [run_bind_error hx] at h'; cases h'
    · intro e' h'; rw [run_bind_error hx] at h'; rw [run_bind_error hq]; cases h'; rfl
  | ok y =>
    obtain ⟨a, s'⟩ := y
    obtain ⟨p', hq⟩ := (h s).1 a s' hx
    rw [run_bind_ok hx, run_bind_ok hq]
    exact h' a p' s'

theorem Agrees.decodeN {P : Prog Value} {D : Iter → Prog (Value × Iter)} {r : Rule}
    (h : ∀ st p, Agrees P (D ⟨r :: st, p⟩) st) (n : Nat) : ∀ st p,
    Agrees (decodeN P n) (iterN D n ⟨List.replicate n r ++ st, p⟩) st := by
  induction n with
  | zero => intro st p; exact Agrees.ret _ _ _
  | succ n ih =>
    intro st p
    rw [List.replicate_succ]
    unfold BinProt.decodeN iterN
    exact (h _ _).bind fun v p' => (ih st p').bind fun vs p'' => Agrees.ret _ _ _

theorem Agrees.vector {P : Prog Value} {D : Iter → Prog (Value × Iter)} {r : Rule}
    (h : ∀ st p, Agrees P (D ⟨r :: st, p⟩) st)
    (hu : ∀ st p, Agrees (do binReadUnit; .ret Value.unit) (D ⟨.unit :: st, p⟩) st) (n : Nat) : ∀ st p,
    Agrees (do let vs ← BinProt.decodeN P n; binReadUnit; .ret (vs ++ [.unit]))
      (iterN D (n + 1) ⟨List.replicate n r ++ .unit :: st, p⟩) st := by
  induction n with
  | zero =>
    intro st p
    have h1 : Agrees (do let v ← (do binReadUnit; .ret Value.unit); .ret [v])
        (iterN D 1 ⟨.unit :: st, p⟩) st :=
      (hu st p).bind fun v p' => Agrees.ret [v] st p'
    intro s
    have h2 := h1 s
    have he : (do let v ← (do binReadUnit; Prog.ret Value.unit); Prog.ret [v] : Prog (List Value)).run s =
      (do let vs ← BinProt.decodeN P 0; binReadUnit; Prog.ret (vs ++ [Value.unit]) : Prog (List Value)).run s := by
      simp only [run_bind, BinProt.decodeN, run_ret]
      cases binReadUnit.run s with
      | error e => rfl
      | ok x => rfl
    rw [he] at h2
    exact h2
  | succ n ih =>
    intro st p
    rw [List.replicate_succ]
    have h1 : Agrees (do let v ← P; let vs ← (do let vs ← BinProt.decodeN P n; binReadUnit; Prog.ret (vs ++ [Value.unit])); .ret (v :: vs))
        (iterN D (n + 1 + 1) ⟨r :: List.replicate n r ++ .unit :: st, p⟩) st :=
      (h _ _).bind fun v p' => (ih st p').bind fun vs p'' => Agrees.ret _ _ _
    intro s
    have h2 := h1 s
    have he : (do let v ← P; let vs ← (do let vs ← BinProt.decodeN P n; binReadUnit; Prog.ret (vs ++ [Value.unit])); Prog.ret (v :: vs) : Prog (List Value)).run s =
      (do let vs ← BinProt.decodeN P (n + 1); binReadUnit; Prog.ret (vs ++ [Value.unit]) : Prog (List Value)).run s := by
      simp only [run_bind, BinProt.decodeN, run_ret]
      cases P.run s with
      | error e => rfl
      | ok x =>
        obtain ⟨v, s⟩ := x
        simp only
        cases (BinProt.decodeN P n).run s with
        | error e => rfl
        | ok x =>
          obtain ⟨vs, s⟩ := x
          simp only
          cases binReadUnit.run s with
          | error e => rfl
          | ok x => rfl
    rw [he] at h2
    exact h2

theorem Agrees.map {α β : Type} {p : Prog α} {q : Prog (α × Iter)} {st : List Rule} (h : Agrees p q st)
    (f : α → β) : Agrees (p >>= fun a => .ret (f a)) (q >>= fun x => .ret (f x.1, x.2)) st :=
  h.bind fun v p' => Agrees.ret _ _ _

theorem deserLoose_reference (fuel : Nat) (path : String) (r : Rule) (st : List Rule) (p : Option String) :
    deserLoose fuel ⟨.reference path r :: st, p⟩ = deserLoose fuel ⟨r :: st, some path⟩ := by
  cases fuel with
  | zero => rfl
  | succ n => rfl

theorem deser_char (fuel : Nat) (st : List Rule) (p : Option String) :
    Agrees (do let c ← readU8; .ret (Value.char c)) (deserLoose (fuel + 1) ⟨.char :: st, p⟩) st :=
  Agrees.read fun c => Agrees.ret _ _ _

theorem deser_unit (fuel : Nat) (st : List Rule) (p : Option String) :
    Agrees (do binReadUnit; .ret Value.unit) (deserLoose (fuel + 1) ⟨.unit :: st, p⟩) st :=
  Agrees.read fun c => Agrees.ret _ _ _

theorem decodeN_map {α β : Type} (P : Prog α) (f : α → β) (n : Nat) : ∀ s,
    (decodeN (do let a ← P; .ret (f a)) n).run s = (do let as ← decodeN P n; .ret (as.map f)).run s := by
  induction n with
  | zero => intro s; rfl
  | succ n ih =>
    intro s
    simp only [decodeN, run_bind, ih, run_ret]
    cases P.run s with
    | error e => rfl
    | ok x =>
      obtain ⟨a, s⟩ := x
      simp only
      cases (decodeN P n).run s with
      | error e => rfl
      | ok x => rfl

theorem Agrees.congr {α : Type} {p p' : Prog α} {q : Prog (α × Iter)} {st : List Rule} (h : Agrees p q st)
    (he : ∀ s, p'.run s = p.run s) : Agrees p' q st := by
  intro s; rw [he s]; exact h s

theorem Agrees.congrR {α : Type} {p : Prog α} {q q' : Prog (α × Iter)} {st : List Rule} (h : Agrees p q st)
    (he : ∀ s, q'.run s = q.run s) : Agrees p q' st := by
  intro s; rw [he s]; exact h s

theorem Rule.depth_pos : (r : Rule) → 0 < r.depth
  | .reference _ r => by simpa [Rule.depth] using Rule.depth_pos r
  | .nat0 | .unit | .bool | .string | .char | .int _ | .float | .other _ => by simp [Rule.depth]
  | .option _ | .record _ | .tuple _ | .sum _ | .polyvar _ | .list _ | .custom _ | .customForPath _ _ => by
    simp [Rule.depth]

mutual
/-- The machine started on one rule does what the recursive descent does, and leaves the rest of
the stack alone. -/
theorem deser_agrees : (r : Rule) → (d : Bool) → Scoped r d → (fuel : Nat) → r.depth ≤ fuel →
    (st : List Rule) → (p p₀ : Option String) → (d = true → p = p₀) →
    Agrees (parse r p₀) (deserLoose fuel ⟨r :: st, p⟩) st
  | r, d, hs, 0, hf, st, p, p₀, hp => by
    have := Rule.depth_pos r
    omega
  | .unit, d, hs, fuel + 1, hf, st, p, p₀, hp => by
    unfold parse; exact Agrees.read fun _ => Agrees.ret _ _ _
  | .bool, d, hs, fuel + 1, hf, st, p, p₀, hp => by
    unfold parse; exact Agrees.read fun _ => Agrees.ret _ _ _
  | .char, d, hs, fuel + 1, hf, st, p, p₀, hp => by
    unfold parse; exact Agrees.read fun _ => Agrees.ret _ _ _
  | .int k, d, hs, fuel + 1, hf, st, p, p₀, hp => by
    unfold parse; exact Agrees.read fun _ => Agrees.ret _ _ _
  | .float, d, hs, fuel + 1, hf, st, p, p₀, hp => by
    unfold parse; exact Agrees.read fun _ => Agrees.ret _ _ _
  | .string, d, hs, fuel + 1, hf, st, p, p₀, hp => by
    unfold parse; exact Agrees.read fun _ => Agrees.ret _ _ _
  | .nat0, d, hs, fuel + 1, hf, st, p, p₀, hp => by
    unfold parse; exact Agrees.fail _ _
  | .other k, d, hs, fuel + 1, hf, st, p, p₀, hp => by
    unfold parse; exact Agrees.fail _ _
  | .customForPath _ _, d, hs, fuel + 1, hf, st, p, p₀, hp => by
    unfold parse; exact Agrees.fail _ _
  | .option r, d, hs, fuel + 1, hf, st, p, p₀, hp => by
    unfold parse
    simp only [Scoped] at hs
    simp only [Rule.depth] at hf
    refine Agrees.read fun b => ?_
    split
    · exact Agrees.ret _ _ _
    · split
      · exact (deser_agrees r false hs fuel (by omega) st p p₀ (by simp)).bind fun v p' => Agrees.ret _ _ _
      · exact Agrees.fail _ _
  | .record fs, d, hs, fuel + 1, hf, st, p, p₀, hp => by
    unfold parse
    simp only [Scoped] at hs
    simp only [Rule.depth] at hf
    refine ((deser_fields fs hs fuel (by omega) st p p₀).map (fun vs => Value.record vs)).congrR fun s => ?_
    show (do
      let (vs, it) ← iterN (deserLoose fuel) fs.length ⟨fs.map Prod.snd ++ st, p⟩
      Prog.ret (Value.record ((fs.map Prod.fst).zip vs), it)).run s = _
    simp only [run_bind]
    cases (iterN (deserLoose fuel) fs.length ⟨fs.map Prod.snd ++ st, p⟩).run s with
    | error e => rfl
    | ok x => rfl
  | .tuple rs, d, hs, fuel + 1, hf, st, p, p₀, hp => by
    unfold parse
    simp only [Scoped] at hs
    simp only [Rule.depth] at hf
    exact (deser_rules rs hs fuel (by omega) st p p₀).bind fun v p' => Agrees.ret _ _ _
  | .list r, d, hs, fuel + 1, hf, st, p, p₀, hp => by
    unfold parse
    simp only [Scoped] at hs
    simp only [Rule.depth] at hf
    refine Agrees.read fun n => Agrees.read fun _ => ?_
    exact (Agrees.decodeN (fun st p => deser_agrees r false hs fuel (by omega) st p p₀ (by simp)) n st p).bind
      fun v p' => Agrees.ret _ _ _
  | .sum ss, d, hs, fuel + 1, hf, st, p, p₀, hp => by
    unfold parse
    simp only [Scoped] at hs
    simp only [Rule.depth] at hf
    exact Agrees.read fun b => deser_summands ss hs b.toNat fuel (by omega) st p p₀
  | .polyvar ps, d, hs, fuel + 1, hf, st, p, p₀, hp => by
    unfold parse
    simp only [Scoped] at hs
    simp only [Rule.depth] at hf
    exact Agrees.read fun tag => deser_polyvars ps hs tag fuel (by omega) st p p₀
  | .reference path r, d, hs, fuel + 1, hf, st, p, p₀, hp => by
    unfold parse
    simp only [Scoped] at hs
    simp only [Rule.depth] at hf
    rw [deserLoose_reference]
    exact deser_agrees r true hs (fuel + 1) hf st (some path) (some path) (fun _ => rfl)
  | .custom rs, d, hs, fuel + 1, hf, st, p, p₀, hp => by
    unfold parse
    simp only [Scoped] at hs
    simp only [Rule.depth] at hf
    obtain rfl := hp hs.1
    cases p with
    | none => exact Agrees.fail _ _
    | some path =>
      clear hp
      have hD : ∀ rs : List Rule, deserLoose (fuel + 1) ⟨.custom rs :: st, some path⟩ =
        (match customKind path with
        | .vector n =>
          match rs with
          | [] => .fail (.panic "called `Option::unwrap()` on a `None` value")
          | r :: _ => do
            let (vs, it) ← iterN (deserLoose fuel) (n + 1) (((⟨st, some path⟩ : Iter).push .unit).pushN r n)
            .ret (.tuple vs, it)
        | .bigInt => do
          let (vs, it) ← iterN (deserLoose fuel) 32 ((⟨st, some path⟩ : Iter).pushN .char 32)
          .ret (.tuple vs, it)
        | .unknown => .fail (.unknownCustomType path)) := fun _ => rfl
      rw [hD]
      simp only
      obtain ⟨f', rfl⟩ : ∃ f', fuel = f' + 1 := ⟨fuel - 1, by omega⟩
      cases customKind path with
      | vector n =>
        have hv := deser_first rs hs.2 (f' + 1) (by omega) (some path)
        cases rs with
        | nil => exact Agrees.fail _ _
        | cons r rs =>
          have h1 := Agrees.vector (D := deserLoose (f' + 1)) (r := r) (hv r rfl)
            (fun st p => deser_unit f' st p) n st (some path)
          refine (h1.map Value.tuple).congr fun s => ?_
          simp only [parseVector, run_bind, run_ret]
          cases (decodeN (parse r (some path)) n).run s with
          | error e => rfl
          | ok x =>
            obtain ⟨a, s⟩ := x
            simp only
            cases binReadUnit.run s with
            | error e => rfl
            | ok x => rfl
      | bigInt =>
        have h1 := Agrees.decodeN (D := deserLoose (f' + 1)) (fun st p => deser_char f' st p) 32 st (some path)
        refine (h1.map Value.tuple).congr fun s => ?_
        simp only [run_bind, decodeN_map, run_ret]
        cases (decodeN readU8 32).run s with
        | error e => rfl
        | ok x => rfl
      | unknown => exact Agrees.fail _ _
theorem deser_first : (rs : List Rule) → ScopedRules rs → (fuel : Nat) → depthRules rs ≤ fuel →
    (p₀ : Option String) → ∀ r, rs.head? = some r → ∀ st p, Agrees (parse r p₀) (deserLoose fuel ⟨r :: st, p⟩) st
  | [], _, _, _, _ => by intro r h; cases h
  | r :: rs, hs, fuel, hf, p₀ => by
    intro r' h st p
    simp only [ScopedRules] at hs
    simp only [depthRules] at hf
    simp only [List.head?_cons, Option.some.injEq] at h
    have h1 := deser_agrees r false hs.1 fuel (by omega) st p p₀ (by simp)
    rw [h] at h1
    exact h1
theorem deser_rules : (rs : List Rule) → ScopedRules rs → (fuel : Nat) → depthRules rs ≤ fuel →
    (st : List Rule) → (p p₀ : Option String) →
    Agrees (parseTuple rs p₀) (iterN (deserLoose fuel) rs.length ⟨rs ++ st, p⟩) st
  | [], _, _, _, _, _, _ => by unfold parseTuple; exact Agrees.ret _ _ _
  | r :: rs, hs, fuel, hf, st, p, p₀ => by
    unfold parseTuple
    simp only [ScopedRules] at hs
    simp only [depthRules] at hf
    exact (deser_agrees r false hs.1 fuel (by omega) _ p p₀ (by simp)).bind fun v p' =>
      (deser_rules rs hs.2 fuel (by omega) st p' p₀).bind fun vs p'' => Agrees.ret _ _ _
theorem deser_fields : (fs : List (String × Rule)) → ScopedFields fs → (fuel : Nat) → depthFields fs ≤ fuel →
    (st : List Rule) → (p p₀ : Option String) →
    Agrees (parseFields fs p₀) (do
      let (vs, it) ← iterN (deserLoose fuel) fs.length ⟨fs.map Prod.snd ++ st, p⟩
      .ret ((fs.map Prod.fst).zip vs, it)) st
  | [], _, _, _, _, p, _ => by unfold parseFields; exact Agrees.ret _ _ p
  | (name, r) :: fs, hs, fuel, hf, st, p, p₀ => by
    unfold parseFields
    simp only [ScopedFields] at hs
    simp only [depthFields] at hf
    have h1 := (deser_agrees r false hs.1 fuel (by omega) (fs.map Prod.snd ++ st) p p₀ (by simp))
    intro s
    have h2 : Agrees _ _ st := h1.bind (g := fun x => do
        let y ← (do
          let (vs, it) ← iterN (deserLoose fuel) fs.length x.2
          Prog.ret ((fs.map Prod.fst).zip vs, it))
        Prog.ret ((name, x.1) :: y.1, y.2)) fun v p' =>
      (deser_fields fs hs.2 fuel (by omega) st p' p₀).bind (f := fun vs => Prog.ret ((name, v) :: vs)) fun vs p'' => Agrees.ret _ _ _
    have h3 := h2 s
    have he : ∀ s, (do
        let x ← deserLoose fuel ⟨r :: (fs.map Prod.snd ++ st), p⟩
        let y ← (do
          let (vs, it) ← iterN (deserLoose fuel) fs.length x.2
          Prog.ret ((fs.map Prod.fst).zip vs, it))
        Prog.ret ((name, x.1) :: y.1, y.2) : Prog (List (String × Value) × Iter)).run s =
      (do
        let (vs, it) ← iterN (deserLoose fuel) (fs.length + 1) ⟨r :: (fs.map Prod.snd ++ st), p⟩
        Prog.ret ((name :: fs.map Prod.fst).zip vs, it) : Prog (List (String × Value) × Iter)).run s := by
      intro s
      simp only [run_bind, iterN]
      cases (deserLoose fuel ⟨r :: (fs.map Prod.snd ++ st), p⟩).run s with
      | error e => rfl
      | ok x =>
        obtain ⟨⟨v, it⟩, s⟩ := x
        simp only
        cases (iterN (deserLoose fuel) fs.length it).run s with
        | error e => rfl
        | ok x => rfl
    rw [he] at h3
    exact h3
theorem deser_summands : (ss : List Summand) → ScopedSummands ss → (n : Nat) → (fuel : Nat) →
    depthSummands ss + 1 ≤ fuel → (st : List Rule) → (p p₀ : Option String) →
    Agrees (parseSummand ss n p₀) (match ss[n]? with
        | none => .fail (.panic "index out of bounds")
        | some (.mk name i args) =>
          if 0 ≤ i ∧ i < 256 then do
            let (v, it) ← deserLoose fuel ((⟨st, p⟩ : Iter).push (.tuple args))
            .ret (.sum name (UInt8.ofNat i.toNat) v, it)
          else .fail (.panic "called `Result::unwrap()` on an `Err` value")) st
  | [], _, n, _, _, _, _, _ => by unfold parseSummand; exact Agrees.fail _ _
  | .mk name i args :: ss, hs, 0, fuel, hf, st, p, p₀ => by
    unfold parseSummand
    simp only [ScopedSummands] at hs
    simp only [depthSummands] at hf
    simp only [List.getElem?_cons_zero]
    split
    · obtain ⟨f', rfl⟩ : ∃ f', fuel = f' + 1 := ⟨fuel - 1, by omega⟩
      have h1 := (deser_rules args hs.1 f' (by omega) st p p₀).map (fun vs => Value.sum name (UInt8.ofNat i.toNat) (.tuple vs))
      intro s
      have h2 := h1 s
      have he : ((iterN (deserLoose f') args.length ⟨args ++ st, p⟩) >>= fun x =>
          Prog.ret (Value.sum name (UInt8.ofNat i.toNat) (.tuple x.1), x.2)).run s =
        (do
            let (v, it) ← deserLoose (f' + 1) ((⟨st, p⟩ : Iter).push (.tuple args))
            Prog.ret (Value.sum name (UInt8.ofNat i.toNat) v, it)).run s := by
        show _ = (do
            let (v, it) ← (do
              let (vs, it) ← iterN (deserLoose f') args.length ⟨args ++ st, p⟩
              Prog.ret (Value.tuple vs, it))
            Prog.ret (Value.sum name (UInt8.ofNat i.toNat) v, it)).run s
        simp only [run_bind]
        cases (iterN (deserLoose f') args.length ⟨args ++ st, p⟩).run s with
        | error e => rfl
        | ok x => rfl
      rw [he] at h2
      exact h2
    · exact Agrees.fail _ _
  | .mk name i args :: ss, hs, n + 1, fuel, hf, st, p, p₀ => by
    unfold parseSummand
    simp only [ScopedSummands] at hs
    simp only [depthSummands] at hf
    simp only [List.getElem?_cons_succ]
    exact deser_summands ss hs.2 n fuel (by omega) st p p₀
theorem deser_polyvars : (ps : List Polyvar) → ScopedPolyvars ps → (tag : UInt32) → (fuel : Nat) →
    depthPolyvars ps + 1 ≤ fuel → (st : List Rule) → (p p₀ : Option String) →
    Agrees (parsePolyvar ps tag p₀) (match findPolyvar ps tag with
        | .error e => .fail e
        | .ok (name, hash, args) => do
          let (v, it) ← deserLoose fuel ((⟨st, p⟩ : Iter).push (.tuple args))
          .ret (.polyvar name hash v, it)) st
  | [], _, _, _, _, _, _, _ => by unfold parsePolyvar; exact Agrees.fail _ _
  | .inherited _ :: _, _, _, _, _, _, _, _ => by unfold parsePolyvar; exact Agrees.fail _ _
  | .tagged name hash args :: ps, hs, tag, fuel, hf, st, p, p₀ => by
    unfold parsePolyvar findPolyvar
    simp only [ScopedPolyvars] at hs
    simp only [depthPolyvars] at hf
    split
    · obtain ⟨f', rfl⟩ : ∃ f', fuel = f' + 1 := ⟨fuel - 1, by omega⟩
      have h1 := (deser_rules args hs.1 f' (by omega) st p p₀).map (fun vs => Value.polyvar name hash (.tuple vs))
      intro s
      have h2 := h1 s
      have he : ((iterN (deserLoose f') args.length ⟨args ++ st, p⟩) >>= fun x =>
          Prog.ret (Value.polyvar name hash (.tuple x.1), x.2)).run s =
        (do
            let (v, it) ← deserLoose (f' + 1) ((⟨st, p⟩ : Iter).push (.tuple args))
            Prog.ret (Value.polyvar name hash v, it)).run s := by
        show _ = (do
            let (v, it) ← (do
              let (vs, it) ← iterN (deserLoose f') args.length ⟨args ++ st, p⟩
              Prog.ret (Value.tuple vs, it))
            Prog.ret (Value.polyvar name hash v, it)).run s
        simp only [run_bind]
        cases (iterN (deserLoose f') args.length ⟨args ++ st, p⟩).run s with
        | error e => rfl
        | ok x => rfl
      rw [he] at h2
      exact h2
    · exact deser_polyvars ps hs.2 tag fuel (by omega) st p p₀
end

end MinaRs.BinProt
