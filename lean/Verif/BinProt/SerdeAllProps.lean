import Verif.BinProt.SerdeAll
import Verif.BinProt.SerdeProps

/-!
# C121: reading and writing values of any type
-/

namespace MinaRs.BinProt

/-! ## Specification -/

/-- What the format has no form for: integers of 128 bits, sequences whose length is not known beforehand, maps. -/
inductive Spec.Obstacle where
  | wide | noLength | map
  deriving DecidableEq, Repr

mutual
/-- The obstacles in a value, in the order of its parts. -/
def Spec.obstacles : SVal → List Spec.Obstacle
  | .wide _ => [.wide]
  | .some v => Spec.obstacles v
  | .newtypeStruct v => Spec.obstacles v
  | .newtypeVariant _ _ _ v => Spec.obstacles v
  | .seq .none _ => [.noLength]
  | .seq (.some _) vs => Spec.obstaclesAll vs
  | .tuple vs => Spec.obstaclesAll vs
  | .tupleStruct vs => Spec.obstaclesAll vs
  | .tupleVariant _ _ _ vs => Spec.obstaclesAll vs
  | .map _ _ => [.map]
  | .struct vs => Spec.obstaclesAll vs
  | .structVariant _ _ _ vs => Spec.obstaclesAll vs
  | _ => []
/-- The same for several values. -/
def Spec.obstaclesAll : SVals → List Spec.Obstacle
  | .nil => []
  | .cons v vs => Spec.obstacles v ++ Spec.obstaclesAll vs
end

/-- What becomes of an obstacle. -/
def Spec.stops : Spec.Obstacle → Err
  | .wide => .custom "i128 is not supported"
  | .noLength => .seqSizeNotProvided
  | .map => .panic "not implemented"

open Spec

/-! ## Writing -/

theorem stop_next (a b : Written) : (a.next b).stop = match a.stop with
    | .none => b.stop
    | .some e => .some e := by
  unfold Written.next
  cases h : a.stop with
  | none => rfl
  | some e => exact h

theorem stop_done_next (ops : List WOp) (b : Written) : ((Written.done ops).next b).stop = b.stop := rfl

mutual
theorem write_stop : (v : SVal) → (write v).stop = (obstacles v).head?.map stops
  | .bool _ => by simp only [write, obstacles]; rfl
  | .u8 _ => by simp only [write, obstacles]; rfl
  | .int _ _ => by simp only [write, obstacles]; rfl
  | .wide _ => by simp only [write, obstacles]; rfl
  | .f32 _ => by simp only [write, obstacles]; rfl
  | .f64 _ => by simp only [write, obstacles]; rfl
  | .char _ => by simp only [write, obstacles]; rfl
  | .str _ => by simp only [write, obstacles]; rfl
  | .bytes _ => by simp only [write, obstacles]; rfl
  | .none => by simp only [write, obstacles]; rfl
  | .some v => by simp only [write, obstacles]; exact write_stop v
  | .unit => by simp only [write, obstacles]; rfl
  | .unitStruct => by simp only [write, obstacles]; rfl
  | .unitVariant _ _ _ => by simp only [write, obstacles]; rfl
  | .newtypeStruct v => by simp only [write, obstacles]; exact write_stop v
  | .newtypeVariant _ _ _ v => by simp only [write, obstacles]; exact write_stop v
  | .seq .none _ => by simp only [write, obstacles]; rfl
  | .seq (.some _) vs => by simp only [write, obstacles]; exact writeAll_stop vs
  | .tuple vs => by simp only [write, obstacles]; exact writeAll_stop vs
  | .tupleStruct vs => by simp only [write, obstacles]; exact writeAll_stop vs
  | .tupleVariant _ _ _ vs => by simp only [write, obstacles]; exact writeAll_stop vs
  | .map _ _ => by simp only [write, obstacles]; rfl
  | .struct vs => by simp only [write, obstacles]; exact writeAll_stop vs
  | .structVariant _ _ _ vs => by simp only [write, obstacles]; exact writeAll_stop vs
theorem writeAll_stop : (vs : SVals) → (writeAll vs).stop = (obstaclesAll vs).head?.map stops
  | .nil => by simp only [writeAll, obstaclesAll]; rfl
  | .cons v vs => by
    simp only [writeAll, obstaclesAll]
    rw [stop_next, write_stop v, writeAll_stop vs]
    cases obstacles v with
    | nil => rfl
    | cons a l => rfl
end

/-- **C121.** A value is written unless it has an obstacle; the first one decides what happens. -/
theorem C121_writes_iff (v : SVal) : ((write v).stop = .none ↔ obstacles v = []) ∧
    ∀ o rest, obstacles v = o :: rest → (write v).stop = .some (stops o) := by
  refine ⟨?_, ?_⟩
  · rw [write_stop]
    cases obstacles v with
    | nil => simp
    | cons a l => simp
  · intro o rest h
    rw [write_stop, h]
    rfl

example : obstacles (.tuple (.cons (.u8 1) (.cons (.wide 5) (.cons (.map .none .nil) .nil)))) = [.wide, .map] := by decide +kernel

/-- **C121 fails** exactly for values whose first obstacle is a map: writing them panics, while other obstacles are errors. -/
theorem C121_map_fails (v : SVal) : (∃ m, (write v).stop = .some (.panic m)) ↔ ∃ rest, obstacles v = .map :: rest := by
  rw [write_stop]
  cases obstacles v with
  | nil => simp
  | cons a l =>
    constructor
    · rintro ⟨m, h⟩
      cases a with
      | map => exact ⟨l, rfl⟩
      | wide => cases h
      | noLength => cases h
    · rintro ⟨rest, h⟩
      cases h
      exact ⟨_, rfl⟩

theorem bytes_next (a b : Written) (h : a.stop = .none) : (a.next b).bytes = a.bytes ++ b.bytes := by
  unfold Written.next
  rw [h]

/-- **C121 fails** as well in that an error comes too late: what stands before the obstacle is in the writer already. -/
theorem C121_half_written_fails (v w : SVal) (hv : obstacles v = []) (o : Obstacle) (rest : List Obstacle)
    (hw : obstacles w = o :: rest) :
    (write (.tuple (.cons v (.cons w .nil)))).bytes = (write v).bytes ++ (write w).bytes ∧
      (write (.tuple (.cons v (.cons w .nil)))).stop = .some (stops o) := by
  have h1 := (C121_writes_iff v).1.mpr hv
  have h2 := (C121_writes_iff w).2 o rest hw
  simp only [write, writeAll]
  rw [stop_next, h1, bytes_next _ _ h1, stop_next, h2]
  refine ⟨?_, rfl⟩
  congr 1
  unfold Written.next
  rw [h2]

example : write (.tuple (.cons (.u8 7) (.cons (.wide 5) .nil))) = ⟨[7], .some (.custom "i128 is not supported")⟩ := by decide +kernel

/-! ## The described types -/

theorem next_done (a b : List WOp) : (Written.done a).next (Written.done b) = Written.done (a ++ b) := by
  unfold Written.done Written.next
  simp only [flush_append]

theorem variant_write (name variant : String) (t : Ty) (ts : Tys) (i : Nat) (w : t.denote)
    (h : write (present t w) = .done (encode t w)) :
    write (presentVariant name (.cons variant t ts) i (Sum.inl w)) = .done (writeTag name variant i ++ encode t w) := by
  have hn : ∀ u : SVal, write u = .done (encode t w) →
      write (.newtypeVariant name variant i u) = .done (writeTag name variant i ++ encode t w) := by
    intro u hu
    simp only [write]
    rw [hu, next_done]
  cases t with
  | tuple fs =>
    cases fs with
    | nil =>
      show write (.unitVariant name variant i) = _
      simp only [write, encode, encodeProd, List.append_nil]
    | cons n t' fs =>
      show write (.tupleVariant name variant i (presentAll (.cons n t' fs) w)) = _
      have h' : writeAll (presentAll (.cons n t' fs) w) = .done (encode (.tuple (.cons n t' fs)) w) := h
      simp only [write]
      rw [h', next_done]
  | struct fs =>
    show write (.structVariant name variant i (presentAll fs w)) = _
    have h' : writeAll (presentAll fs w) = .done (encode (.struct fs) w) := h
    simp only [write]
    rw [h', next_done]
  | unit => exact hn _ h
  | bool => exact hn _ h
  | u8 => exact hn _ h
  | int k => exact hn _ h
  | f32 => exact hn _ h
  | f64 => exact hn _ h
  | char => exact hn _ h
  | string => exact hn _ h
  | option t => exact hn _ h
  | newtype t => exact hn _ h
  | seq t => exact hn _ h
  | enum vs => exact hn _ h
  | polyvar vs => exact hn _ h

mutual
theorem present_write : (t : Ty) → (v : t.denote) → write (present t v) = .done (encode t v)
  | .unit, _ => by simp only [present, write, encode]
  | .bool, _ => by simp only [present, write, encode]
  | .u8, _ => by simp only [present, write, encode]
  | .int _, _ => by simp only [present, write, encode]
  | .f32, _ => by simp only [present, write, encode]
  | .f64, _ => by simp only [present, write, encode]
  | .char, _ => by simp only [present, write, encode]
  | .string, _ => by simp only [present, write, encode]
  | .option t, o => by
    simp only [present, encode]
    cases (show Option t.denote from o) with
    | none => simp only [write]
    | some v =>
      simp only [write]
      rw [present_write t v, next_done]
      rfl
  | .newtype t, v => by simp only [present, write, encode]; exact present_write t v
  | .seq t, vs => by
    simp only [present, write, encode]
    have : ∀ l : List t.denote, writeAll (.ofList (l.map (present t))) = .done (l.flatMap (encode t)) := by
      intro l
      induction l with
      | nil => simp only [List.map_nil, SVals.ofList, writeAll, List.flatMap_nil]
      | cons a l ih =>
        simp only [List.map_cons, SVals.ofList, writeAll, List.flatMap_cons]
        rw [present_write t a, ih, next_done]
    exact (congrArg _ (this vs)).trans (next_done _ _)
  | .tuple ts, v => by simp only [present, write, encode]; exact presentAll_write ts v
  | .struct ts, v => by simp only [present, write, encode]; exact presentAll_write ts v
  | .enum vs, v => by
    simp only [present, encode]
    rw [presentVariant_write "Enum" vs 0 v]
    unfold writeTag
    rw [if_neg (by decide), Nat.zero_add]
  | .polyvar vs, v => by
    simp only [present, encode]
    rw [presentVariant_write "Polyvar" vs 0 v]
    unfold writeTag
    rw [if_pos rfl]
theorem presentAll_write : (ts : Tys) → (v : ts.prod) → writeAll (presentAll ts v) = .done (encodeProd ts v)
  | .nil, _ => by simp only [presentAll, writeAll, encodeProd]
  | .cons _ t ts, v => by
    simp only [presentAll, writeAll, encodeProd]
    rw [present_write t _, presentAll_write ts _, next_done]
theorem presentVariant_write (name : String) : (vs : Tys) → (i : Nat) → (v : vs.sum) →
    write (presentVariant name vs i v) = .done (writeTag name (vs.variantName v) (i + vs.index v) ++ encodeSum vs v)
  | .nil, _, v => nomatch (show Empty from v)
  | .cons variant t ts, i, v => by
    match v with
    | .inl w => exact variant_write name variant t ts i w (present_write t w)
    | .inr w =>
      have h := presentVariant_write name ts (i + 1) w
      rw [Nat.add_right_comm, Nat.add_assoc] at h
      exact h
end

/-- **C121.** A value of a type made of the forms that bin_prot has is always written: as `to_writer` is described for C07. -/
theorem C121_described (t : Ty) (v : t.denote) : write (present t v) = ⟨toBytes t v, .none⟩ := present_write t v

/-- So it has no obstacle. -/
theorem C121_described_free (t : Ty) (v : t.denote) : obstacles (present t v) = [] := by
  rw [← (C121_writes_iff _).1, C121_described]

example : write (present (.seq (.option .u8)) (show List (Option UInt8) from [some 3, none])) = ⟨[2, 1, 3, 0], .none⟩ := by decide +kernel

/-! ## Reading -/

/-- **C121 fails** for types that ask for a borrowed text or leave it to the data what they are: reading them panics on every
input. -/
theorem C121_requests_fails (s : Bytes) : ∀ r, (∃ m, (answer r).run s = .error (.panic m)) ↔ r = .any ∨ r = .ignored ∨ r = .str := by
  intro r
  cases r <;> simp [answer]

/-- **C121.** The other types without a form are refused on every input. -/
theorem C121_refused (s : Bytes) (r : Req) (h : r = .bytes ∨ r = .byteBuf ∨ r = .identifier ∨ r = .wide) :
    ∃ e, (answer r).run s = .error e ∧ ∀ m, e ≠ .panic m := by
  rcases h with rfl | rfl | rfl | rfl <;> exact ⟨_, rfl, fun _ h => by cases h⟩

/-- **C121 fails** for bytes: they are written, without their length, but reading them is refused. -/
theorem C121_bytes_fails (bs s : Bytes) : write (.bytes bs) = ⟨bs, .none⟩ ∧ (answer .bytes).run s = .error .wontImplement ∧
    (answer .byteBuf).run s = .error .wontImplement := by
  refine ⟨?_, rfl, rfl⟩
  simp [write, Written.done, flush, WOp.bytes]

theorem entries_run {α : Type} (p : Prog α) (n : Nat) (s : Bytes) :
    (decodeEntries p n).run s = match (decodeN p n).run s with
      | .ok (l, r) => .ok (l.map fun a => ("", a), r)
      | .error e => .error e := by
  induction n generalizing s with
  | zero => rfl
  | succ n ih =>
    rw [decodeEntries, decodeN, Prog.run_bind, Prog.run_bind]
    cases p.run s with
    | error e => rfl
    | ok r =>
      obtain ⟨a, s'⟩ := r
      simp only
      rw [Prog.run_bind, Prog.run_bind, ih]
      cases (decodeN p n).run s' with
      | error e => rfl
      | ok r => rfl

/-- **C121.** A map is read as a list of its values: after the length come the values, without keys. -/
theorem C121_map_read (t : Ty) (s : Bytes) (len : Nat) (rest : Bytes) (h : binReadLen.run s = .ok (len, rest)) :
    (decodeMap t).run s = if 24 * len < 2 ^ 63 then
        match (decode (.seq t)).run s with
        | .ok (l, r) => .ok ((show List t.denote from l).map fun a => ("", a), r)
        | .error e => .error e
      else .error (.panic "capacity overflow") := by
  rw [decodeMap, Prog.run_bind, h]
  simp only
  rw [Prog.run_bind]
  unfold claim
  by_cases hl : 24 * len < 2 ^ 63
  · rw [if_pos hl, if_pos hl]
    simp only [Prog.run_ret]
    rw [entries_run]
    have : (decode (.seq t)).run s = (decodeN (decode t) len).run rest := by
      have h' := Prog.run_bind binReadLen (fun len => decodeN (decode t) len) s
      rw [h] at h'
      rw [decode]
      exact h'
    rw [this]
    cases (decodeN (decode t) len).run rest with
    | error e => rfl
    | ok r => rfl
  · rw [if_neg hl, if_neg hl]
    rfl

/-- **C121 fails** for maps that are read: whatever the input, every key is the empty text. -/
theorem C121_keys_fails (t : Ty) (s rest : Bytes) (es : List (String × t.denote)) (h : (decodeMap t).run s = .ok (es, rest)) :
    ∀ e ∈ es, e.1 = "" := by
  cases hl : binReadLen.run s with
  | error e => rw [decodeMap, Prog.run_bind, hl] at h; cases h
  | ok r =>
    obtain ⟨len, r⟩ := r
    rw [C121_map_read t s len r hl] at h
    split at h
    · split at h
      · cases h
        intro e he
        obtain ⟨a, -, rfl⟩ := List.mem_map.mp he
        rfl
      · cases h
    · cases h

example : (decodeMap .u8).run [2, 5, 6] = .ok ([("", (5 : UInt8)), ("", (6 : UInt8))], []) := rfl

/-- **C121 fails** for long maps: an announced length ends the process, whatever follows it. -/
theorem C121_map_length_fails (t : Ty) (n : Nat) (hn : n < 2 ^ 64) (hl : 2 ^ 63 ≤ 24 * n) (rest : Bytes) :
    (decodeMap t).run (flush (binWriteNat0 n).1 ++ rest) = .error (.panic "capacity overflow") := by
  have h : binReadLen.run (flush (binWriteNat0 n).1 ++ rest) = .ok (n, rest) := by
    exact binReadLen_write hn rest
  rw [C121_map_read t _ n rest h, if_neg (by omega)]

end MinaRs.BinProt
