import Verif.Genesis.BlockTime

/-!
# C88: block times denote the instants they count
-/

namespace MinaRs.Genesis.Spec

/-- The date and time is the instant `ms` milliseconds after 1970 (before it, if negative). -/
def Instant (d : DateTime) (ms : Int) : Prop := d.seconds * 1000000000 + d.nanos = ms * 1000000 ∧ d.nanos < 1000000000

/-- The instants of the years -9999 to 9999, in milliseconds -/
def InYears (ms : Int) : Prop := -377705116800000 ≤ ms ∧ ms < 253402300800000

/-- Days of the years from year `a` for `n` years, by the Gregorian rule -/
def daysOfYears (a : Int) (n : Nat) : Nat :=
  ((List.range n).map fun (i : Nat) => let y := a + (i : Int)
    if y % 4 = 0 ∧ (y % 100 ≠ 0 ∨ y % 400 = 0) then 366 else 365).sum

end MinaRs.Genesis.Spec

namespace MinaRs.Genesis

open GraphQL Spec

/-- The range of the dates is that of the Gregorian years -9999 to 9999. -/
theorem C88_range : maxSecond + 1 = 86400 * (daysOfYears 1970 (10000 - 1970) : Int) ∧
    minSecond = - (86400 * (daysOfYears (-9999) (1970 + 9999) : Int)) := by
  decide +kernel

theorem datetime_signed (n : Int) : (match expect (fromUnixTimestamp (n.tdiv 1000)) with
      | .error e => (.error e : R DateTime)
      | .ok dt => if n.tmod 1000 = 0 then .ok dt else addMillis dt (n.tmod 1000)) =
    if -377705116800000 ≤ n ∧ n < 253402300800000 then
      .ok ⟨n / 1000, (n % 1000).toNat * 1000000⟩ else .error .panic := by
  have hd : n.tdiv 1000 * 1000 + n.tmod 1000 = n := Int.tdiv_mul_add_tmod n 1000
  have hr : -1000 < n.tmod 1000 ∧ n.tmod 1000 < 1000 ∧ (0 ≤ n → 0 ≤ n.tmod 1000) ∧ (n < 0 → n.tmod 1000 ≤ 0) := by
    refine ⟨?_, ?_, ?_, ?_⟩
    · have := Int.lt_tmod_of_pos n (show (0:Int) < 1000 by decide); omega
    · exact Int.tmod_lt_of_pos n (by decide)
    · exact fun h => Int.tmod_nonneg 1000 h
    · intro h
      have h2 := Int.neg_tmod n 1000
      have h3 := Int.tmod_nonneg (a := -n) 1000 (by omega)
      omega
  generalize n.tdiv 1000 = q at hd ⊢
  generalize n.tmod 1000 = r at hd hr ⊢
  unfold fromUnixTimestamp
  by_cases hq : minSecond ≤ q ∧ q ≤ maxSecond
  · rw [if_pos hq]
    simp only [expect]
    unfold minSecond maxSecond at hq
    by_cases h0 : r = 0
    · rw [if_pos h0, if_pos (by omega)]
      subst h0
      congr 2 <;> omega
    · rw [if_neg h0]
      simp only [addMillis, Int.fdiv_eq_ediv_of_nonneg _ (show (0:Int) ≤ 1000000000 by decide),
        Int.fmod_eq_emod_of_nonneg _ (show (0:Int) ≤ 1000000000 by decide)]
      unfold minSecond maxSecond
      by_cases hn : -377705116800000 ≤ n ∧ n < 253402300800000
      · rw [if_pos hn, if_pos (by omega)]
        congr 2 <;> omega
      · rw [if_neg hn, if_neg (by omega)]
  · rw [if_neg hq]
    simp only [expect]
    unfold minSecond maxSecond at hq
    rw [if_neg (by omega)]

/-- **C88.** The date of a block time is the instant that many milliseconds after 1970, for every block time up to the end
of the year 9999. -/
theorem C88_instant (t : UInt64) (h : t.toNat < 253402300800000) : ∃ d, datetime t = .ok d ∧ Instant d t.toNat := by
  have e : datetime t = _ := datetime_signed (asI64 t)
  have ea : asI64 t = t.toNat := by unfold asI64; rw [if_pos (by omega)]
  rw [ea, if_pos (by omega)] at e
  refine ⟨_, e, ?_, ?_⟩
  · show (t.toNat : Int) / 1000 * 1000000000 + (((t.toNat : Int) % 1000).toNat * 1000000 : Nat) = (t.toNat : Int) * 1000000
    omega
  · show ((t.toNat : Int) % 1000).toNat * 1000000 < 1000000000
    omega

example : (1615939200000 : UInt64).toNat < 253402300800000 := by decide

/-- **C88.** Different block times of that range have different dates. -/
theorem C88_injective (t u : UInt64) (ht : t.toNat < 253402300800000) (hu : u.toNat < 253402300800000)
    (h : datetime t = datetime u) : t = u := by
  obtain ⟨d, h1, h2, -⟩ := C88_instant t ht
  obtain ⟨e, h3, h4, -⟩ := C88_instant u hu
  have := Except.ok.inj (h1.symm.trans (h.trans h3))
  subst this
  apply UInt64.toNat_inj.1
  omega

/-- **C88.** What happens to the other block times: the program aborts, except for those of the last 377705116800 seconds
before `2 ^ 64` milliseconds, which are shown as dates before 1970. -/
theorem C88_beyond (t : UInt64) (h : 253402300800000 ≤ t.toNat) :
    if 2 ^ 64 - 377705116800000 ≤ t.toNat then ∃ d, datetime t = .ok d ∧ Instant d ((t.toNat : Int) - 2 ^ 64)
    else datetime t = .error .panic := by
  have e : datetime t = _ := datetime_signed (asI64 t)
  have ea : asI64 t = if t.toNat < 2 ^ 63 then (t.toNat : Int) else (t.toNat : Int) - 2 ^ 64 := rfl
  split
  · rename_i hl
    rw [if_neg (by omega)] at ea
    rw [ea, if_pos (by have := t.toNat_lt; omega)] at e
    refine ⟨_, e, ?_, ?_⟩
    · generalize (t.toNat : Int) - 2 ^ 64 = n
      show n / 1000 * 1000000000 + ((n % 1000).toNat * 1000000 : Nat) = n * 1000000
      omega
    · generalize (t.toNat : Int) - 2 ^ 64 = n
      show (n % 1000).toNat * 1000000 < 1000000000
      omega
  · rename_i hl
    rw [e, if_neg]
    rw [ea]
    split <;> omega

/-- The largest block time is shown one millisecond before 1970, the first of the year 10000 is not shown. -/
example : (∃ d, datetime 0xffffffffffffffff = .ok d ∧ Instant d (-1)) ∧ datetime 253402300800000 = .error .panic :=
  ⟨C88_beyond 0xffffffffffffffff (by decide), C88_beyond 253402300800000 (by decide)⟩

/-- The greatest block time is shown as one millisecond before 1970. -/
theorem C88_wraps_fails : ∃ d, datetime 18446744073709551615 = .ok d ∧ Instant d (-1) := by
  have := C88_beyond 18446744073709551615 (by decide)
  rw [if_pos (by decide)] at this
  exact this

/-- **C88.** A block time made from seconds has the date of those seconds, for every number of seconds up to the end of the
year 9999, in both builds; from `2 ^ 64 / 1000` on, a build that checks overflow aborts and the other one wraps. -/
theorem C88_from_seconds (checks : Bool) (s : UInt64) :
    (s.toNat < 253402300800 → ∃ t, fromUnixEpoch checks s = .ok t ∧ datetime t = .ok ⟨s.toNat, 0⟩) ∧
    (s.toNat * 1000 < 2 ^ 64 → ∃ t, fromUnixEpoch checks s = .ok t ∧ t.toNat = s.toNat * 1000) ∧
    (2 ^ 64 ≤ s.toNat * 1000 → fromUnixEpoch true s = .error .panic ∧
      ∃ t, fromUnixEpoch false s = .ok t ∧ t.toNat = s.toNat * 1000 % 2 ^ 64) := by
  have hm : (s * 1000).toNat = s.toNat * 1000 % 2 ^ 64 := UInt64.toNat_mul s 1000
  unfold fromUnixEpoch
  refine ⟨fun h => ?_, fun h => ?_, fun h => ?_⟩
  · rw [if_pos (by omega)]
    refine ⟨_, rfl, ?_⟩
    have e : datetime (s * 1000) = _ := datetime_signed (asI64 (s * 1000))
    have ea : asI64 (s * 1000) = (s.toNat * 1000 : Nat) := by
      unfold asI64
      rw [hm, Nat.mod_eq_of_lt (by omega), if_pos (by omega)]
    rw [ea, if_pos (by omega)] at e
    rw [e]
    congr 2 <;> omega
  · rw [if_pos h]
    exact ⟨_, rfl, by rw [hm, Nat.mod_eq_of_lt h]⟩
  · have hn : ¬ s.toNat * 1000 < 2 ^ 64 := by omega
    simp only [if_neg hn]
    exact ⟨rfl, _, rfl, hm⟩

end MinaRs.Genesis
