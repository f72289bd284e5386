import Verif.BinProt.IO

/-! Helper lemmas about buffered readers and sinks. -/

namespace MinaRs.BinProt

/-- What the decoder has not consumed yet: the buffer, then the stream. -/
def BufReader.rest (b : BufReader) : Bytes := b.buf ++ b.src.data

theorem Source.read_spec (s : Source) (k : Nat) (hk : 0 < k) :
    (∃ bs s', s.read k = (.bytes bs, s') ∧ s.data = bs ++ s'.data ∧ bs.length ≤ k ∧
      (bs = [] → s.data = []) ∧ s'.sched <:+ s.sched) ∨
    (∃ s', s.read k = (.interrupted, s') ∧ s'.data = s.data ∧ s'.sched <:+ s.sched ∧
      s'.sched.length < s.sched.length) ∨
    (∃ s', s.read k = (.error, s') ∧ REv.error ∈ s.sched) := by
  obtain ⟨data, sched⟩ := s
  rcases sched with _ | ⟨⟨n⟩ | _ | _, es⟩
  · refine .inl ⟨_, _, rfl, by simp, by simp; omega, ?_, by simp⟩
    intro h
    simp only [List.take_eq_nil_iff] at h
    rcases h with h | h
    · omega
    · exact h
  · refine .inl ⟨_, _, rfl, by simp, by simp; omega, ?_, by simp⟩
    intro h
    simp only [List.take_eq_nil_iff] at h
    rcases h with h | h
    · omega
    · exact h
  · exact .inr (.inl ⟨_, rfl, rfl, by simp, by simp⟩)
  · exact .inr (.inr ⟨_, rfl, by simp⟩)

theorem BufReader.read_spec (b : BufReader) (k : Nat) (hk : 0 < k) :
    (∃ bs b', b.read k = (.bytes bs, b') ∧ b.rest = bs ++ b'.rest ∧ bs.length ≤ k ∧
      (bs = [] → b.rest = []) ∧ b'.src.sched <:+ b.src.sched) ∨
    (∃ b', b.read k = (.interrupted, b') ∧ b'.rest = b.rest ∧ b'.src.sched <:+ b.src.sched ∧
      b'.src.sched.length < b.src.sched.length) ∨
    (∃ b', b.read k = (.error, b') ∧ REv.error ∈ b.src.sched) := by
  obtain ⟨buf, src⟩ := b
  unfold BufReader.read BufReader.rest
  by_cases hb : buf = []
  · subst hb
    simp only [if_true]
    by_cases hc : bufCapacity ≤ k
    · simp only [if_pos hc]
      rcases src.read_spec k hk with ⟨bs, s', h, h1, h2, h3, h4⟩ | ⟨s', h, h1, h2, h3⟩ | ⟨s', h, h1⟩
      · exact .inl ⟨bs, ⟨[], s'⟩, by rw [h], by simpa using h1, h2, by simpa using h3, h4⟩
      · exact .inr (.inl ⟨⟨[], s'⟩, by rw [h], by simpa using h1, h2, h3⟩)
      · exact .inr (.inr ⟨⟨[], s'⟩, by rw [h], h1⟩)
    · simp only [if_neg hc]
      rcases src.read_spec bufCapacity (by decide) with ⟨bs, s', h, h1, h2, h3, h4⟩ | ⟨s', h, h1, h2, h3⟩ | ⟨s', h, h1⟩
      · refine .inl ⟨bs.take k, ⟨bs.drop k, s'⟩, by rw [h], ?_, by simp; omega, ?_, h4⟩
        · simp [h1, ← List.append_assoc]
        · intro h
          simp only [List.take_eq_nil_iff] at h
          rcases h with h | h
          · omega
          · simpa using h3 h
      · exact .inr (.inl ⟨⟨[], s'⟩, by rw [h], by simpa using h1, h2, h3⟩)
      · exact .inr (.inr ⟨⟨[], s'⟩, by rw [h], h1⟩)
  · simp only [if_neg hb]
    refine .inl ⟨_, _, rfl, ?_, by simp; omega, ?_, by simp⟩
    · simp [← List.append_assoc]
    · intro h
      simp only [List.take_eq_nil_iff] at h
      rcases h with h | h
      · omega
      · exact absurd h hb

theorem readExactLoop_eq (fuel : Nat) : ∀ (b : BufReader) (k : Nat) (acc : Bytes),
    k + b.src.sched.length + 1 ≤ fuel →
    (b.readExactLoop fuel k acc = .error .io ∧ REv.error ∈ b.src.sched) ∨
    (b.rest.length < k ∧ b.readExactLoop fuel k acc = .error .eof) ∨
    (k ≤ b.rest.length ∧ ∃ b', b.readExactLoop fuel k acc = .ok (acc ++ b.rest.take k, b') ∧
      b'.rest = b.rest.drop k ∧ b'.src.sched <:+ b.src.sched) := by
  induction fuel with
  | zero => intro b k acc h; omega
  | succ fuel ih =>
    intro b k acc h
    unfold BufReader.readExactLoop
    by_cases hk : k = 0
    · subst hk
      exact .inr (.inr ⟨by omega, b, by simp, by simp, by simp⟩)
    · simp only [if_neg hk]
      rcases b.read_spec k (by omega) with ⟨bs, b', hr, h1, h2, h3, h4⟩ | ⟨b', hr, h1, h2, h3⟩ | ⟨b', hr, h1⟩
      · simp only [hr]
        by_cases hbs : bs = []
        · simp only [if_pos hbs]
          refine .inr (.inl ⟨?_, trivial⟩)
          rw [h3 hbs]; simp; omega
        · simp only [if_neg hbs]
          have hl : 0 < bs.length := List.length_pos_iff.mpr hbs
          have hs := h4.length_le
          rcases ih b' (k - bs.length) (acc ++ bs) (by omega) with ⟨he, hm⟩ | ⟨hlt, he⟩ | ⟨hle, b'', he, hrest, hsuf⟩
          · exact .inl ⟨he, h4.subset hm⟩
          · exact .inr (.inl ⟨by rw [h1]; simp; omega, he⟩)
          · refine .inr (.inr ⟨by rw [h1]; simp; omega, b'', ?_, ?_, hsuf.trans h4⟩)
            · rw [he, h1, List.take_append, List.take_of_length_le (l := bs) h2]
              simp
            · rw [hrest, h1, List.drop_append, List.drop_of_length_le (l := bs) h2]
              simp
      · simp only [hr]
        rcases ih b' k acc (by omega) with ⟨he, hm⟩ | ⟨hlt, he⟩ | ⟨hle, b'', he, hrest, hsuf⟩
        · exact .inl ⟨he, h2.subset hm⟩
        · exact .inr (.inl ⟨by rw [← h1]; exact hlt, he⟩)
        · exact .inr (.inr ⟨by rw [← h1]; exact hle, b'', by rw [he, h1], by rw [hrest, h1], hsuf.trans h2⟩)
      · simp only [hr]
        exact .inl ⟨trivial, h1⟩

theorem BufReader.readExact_eq (b : BufReader) (k : Nat) :
    (b.readExact k = .error .io ∧ REv.error ∈ b.src.sched) ∨
    (b.rest.length < k ∧ b.readExact k = .error .eof) ∨
    (k ≤ b.rest.length ∧ ∃ b', b.readExact k = .ok (b.rest.take k, b') ∧
      b'.rest = b.rest.drop k ∧ b'.src.sched <:+ b.src.sched) := by
  unfold BufReader.readExact
  split
  · rename_i h
    refine .inr (.inr ⟨by simp [rest]; omega, ⟨b.buf.drop k, b.src⟩, ?_, ?_, by simp⟩)
    · simp [rest, List.take_append_of_le_length h]
    · simp [rest, List.drop_append_of_le_length h]
  · rcases readExactLoop_eq _ b k [] (Nat.le_refl _) with h | h | h
    · exact .inl h
    · exact .inr (.inl h)
    · refine .inr (.inr ?_)
      simpa using h

/-- Running on a buffered reader refines running on the byte list. -/
theorem Prog.runBuf_eq {α : Type} (p : Prog α) (b : BufReader) :
    (p.runBuf b = .error .io ∧ REv.error ∈ b.src.sched) ∨
    (∃ e, p.run b.rest = .error e ∧ p.runBuf b = .error e) ∨
    (∃ a r b', p.run b.rest = .ok (a, r) ∧ p.runBuf b = .ok (a, b') ∧ b'.rest = r) := by
  induction p generalizing b with
  | ret a => exact .inr (.inr ⟨a, _, b, rfl, rfl, rfl⟩)
  | fail e => exact .inr (.inl ⟨e, rfl, rfl⟩)
  | read k c ih =>
    simp only [Prog.run, Prog.runBuf]
    rcases b.readExact_eq k with ⟨h, hm⟩ | ⟨hlt, h⟩ | ⟨hle, b', h, hrest, hsuf⟩
    · simp only [h]; exact .inl ⟨trivial, hm⟩
    · simp only [h, if_pos hlt]; exact .inr (.inl ⟨_, rfl, rfl⟩)
    · simp only [h, if_neg (Nat.not_lt.mpr hle)]
      have := ih (b.rest.take k) b'
      rw [hrest] at this
      rcases this with ⟨h, hm⟩ | h | h
      · exact .inl ⟨h, hsuf.subset hm⟩
      · exact .inr (.inl h)
      · exact .inr (.inr h)

/-! ### Sinks -/

theorem writeAllLoop_spec (fuel : Nat) : ∀ (s : Sink) (bs : Bytes), bs.length + s.sched.length + 1 ≤ fuel →
    (∃ s', s.writeAllLoop fuel bs = (.ok (), s') ∧ s'.got = s.got ++ bs) ∨
    (∃ e s' p, s.writeAllLoop fuel bs = (.error e, s') ∧ (e = .writeZero ∨ e = .io) ∧
      s'.got = s.got ++ p ∧ p <+: bs) := by
  induction fuel with
  | zero => intro s bs h; omega
  | succ fuel ih =>
    intro s bs h
    unfold Sink.writeAllLoop
    by_cases hb : bs = []
    · subst hb; exact .inl ⟨s, by simp, by simp⟩
    · simp only [if_neg hb]
      have hpos : 0 < bs.length := List.length_pos_iff.mpr hb
      obtain ⟨got, sched⟩ := s
      have key : ∀ (n : Nat) (es : List WEv), 0 < n → es.length ≤ sched.length →
          (∃ s', (Sink.mk (got ++ bs.take n) es).writeAllLoop fuel (bs.drop n) = (.ok (), s') ∧
            s'.got = got ++ bs) ∨
          (∃ e s' p, (Sink.mk (got ++ bs.take n) es).writeAllLoop fuel (bs.drop n) = (.error e, s') ∧
            (e = .writeZero ∨ e = .io) ∧ s'.got = got ++ p ∧ p <+: bs) := by
        intro n es hn hes
        rcases ih ⟨got ++ bs.take n, es⟩ (bs.drop n) (by simp at h ⊢; omega) with ⟨s', h1, h2⟩ | ⟨e, s', p, h1, h2, h3, h4⟩
        · exact .inl ⟨s', h1, by rw [h2]; simp [List.append_assoc]⟩
        · refine .inr ⟨e, s', bs.take n ++ p, h1, h2, by rw [h3]; simp [List.append_assoc], ?_⟩
          obtain ⟨q, hq⟩ := h4
          exact ⟨q, by rw [List.append_assoc, hq, List.take_append_drop]⟩
      rcases sched with _ | ⟨⟨n⟩ | _ | _, es⟩
      · simp only [Sink.write]
        obtain ⟨m, hm⟩ : ∃ m, bs.length = m + 1 := ⟨bs.length - 1, by omega⟩
        have := key bs.length [] hpos (by simp)
        rw [List.take_length, hm] at this
        rw [hm]; exact this
      · simp only [Sink.write]
        rcases n with _ | n
        · simp only [Nat.zero_min]
          exact .inr ⟨_, _, [], rfl, .inl rfl, by simp, List.nil_prefix⟩
        · obtain ⟨m, hm⟩ : ∃ m, min (n + 1) bs.length = m + 1 := ⟨min (n+1) bs.length - 1, by omega⟩
          have := key (m + 1) es (by omega) (by simp)
          rw [hm]
          have e : bs.take (n + 1) = bs.take (m + 1) := by
            rw [← hm, ← List.take_eq_take_min]
          rw [e]; exact this
      · simp only [Sink.write]
        rcases ih ⟨got, es⟩ bs (by simp at h ⊢; omega) with h1 | h1
        · exact .inl h1
        · exact .inr h1
      · simp only [Sink.write]
        exact .inr ⟨_, _, [], rfl, .inr rfl, by simp, List.nil_prefix⟩

/-- Every call of the list is a `write_all`. -/
def AllWhole (ops : List WOp) : Prop := ∀ op ∈ ops, ∃ bs, op = .all bs

theorem runOps_whole : ∀ (ops : List WOp) (s s' : Sink), AllWhole ops →
    s.runOps ops = (.ok (), s') → s'.got = s.got ++ flush ops := by
  intro ops
  induction ops with
  | nil => intro s s' _ h; simp only [Sink.runOps, Prod.mk.injEq, true_and] at h; subst h; simp
  | cons op ops ih =>
    intro s s' hw h
    obtain ⟨bs, rfl⟩ := hw op (by simp)
    simp only [Sink.runOps, Sink.step] at h
    rcases writeAllLoop_spec _ s bs (Nat.le_refl _) with ⟨s'', h1, h2⟩ | ⟨e, s'', p, h1, -⟩
    · rw [h1] at h
      rw [ih s'' s' (fun o ho => hw o (by simp [ho])) h, h2]
      simp [WOp.bytes, List.append_assoc]
    · rw [h1] at h; simp at h

/-! ### Everything delivered at once -/

/-- The stream is drained into the buffer. -/
def BufReader.Drained (b : BufReader) : Prop := b.src.sched = [] ∧ b.src.data = []

/-- The stream has not been touched and fits the buffer. -/
def BufReader.Fresh (b : BufReader) : Prop := b.src.sched = [] ∧ b.buf = [] ∧ b.src.data.length ≤ bufCapacity

theorem BufReader.read_drained {b : BufReader} {k : Nat} (hk : 0 < k) (h : b.Drained ∨ b.Fresh)
    {bs : Bytes} {b' : BufReader} (hr : b.read k = (.bytes bs, b')) : b'.Drained := by
  obtain ⟨buf, data, sched⟩ := b
  have hs : sched = [] := by rcases h with h | h <;> exact h.1
  subst hs
  unfold BufReader.read Source.read at hr
  simp only at hr
  have hd : data.length ≤ bufCapacity ∨ data = [] := by
    rcases h with h | h
    · exact .inr h.2
    · exact .inl h.2.2
  split at hr
  · split at hr
    · simp only [Prod.mk.injEq, RRes.bytes.injEq] at hr
      obtain ⟨-, rfl⟩ := hr
      refine ⟨rfl, ?_⟩
      rcases hd with hd | rfl
      · exact List.drop_of_length_le (by omega)
      · simp
    · simp only [Prod.mk.injEq, RRes.bytes.injEq] at hr
      obtain ⟨-, rfl⟩ := hr
      refine ⟨rfl, ?_⟩
      rcases hd with hd | rfl
      · exact List.drop_of_length_le hd
      · simp
  · rename_i hb
    simp only [Prod.mk.injEq, RRes.bytes.injEq] at hr
    obtain ⟨-, rfl⟩ := hr
    rcases h with h | h
    · exact h
    · exact absurd h.2.1 hb

theorem readExactLoop_drained (fuel : Nat) : ∀ (b : BufReader) (k : Nat) (acc bs : Bytes) (b' : BufReader),
    (b.Drained ∨ b.Fresh) → b.readExactLoop fuel k acc = .ok (bs, b') → b'.Drained ∨ (k = 0 ∧ b' = b) := by
  induction fuel with
  | zero => intro b k acc bs b' _ h; cases h
  | succ fuel ih =>
    intro b k acc bs b' hb h
    unfold BufReader.readExactLoop at h
    by_cases hk : k = 0
    · simp only [if_pos hk, Except.ok.injEq, Prod.mk.injEq] at h
      exact .inr ⟨hk, h.2.symm⟩
    · simp only [if_neg hk] at h
      cases hr : b.read k with
      | mk r b1 =>
        rw [hr] at h
        cases r with
        | bytes cs =>
          simp only at h
          split at h
          · cases h
          · have hd := BufReader.read_drained (by omega) hb hr
            rcases ih b1 _ _ _ _ (.inl hd) h with h' | ⟨-, rfl⟩
            · exact .inl h'
            · exact .inl hd
        | interrupted =>
          exfalso
          have hs : b.src.sched = [] := by rcases hb with h | h <;> exact h.1
          unfold BufReader.read Source.read at hr
          simp only [hs] at hr
          split at hr
          · split at hr <;> simp at hr
          · simp at hr
        | error => cases h

theorem BufReader.readExact_drained {b : BufReader} {k : Nat} {bs : Bytes} {b' : BufReader}
    (hb : b.Drained ∨ b.Fresh) (h : b.readExact k = .ok (bs, b')) : b'.Drained ∨ (b.Fresh ∧ b' = b) := by
  unfold BufReader.readExact at h
  split at h
  · rename_i hk
    simp only [Except.ok.injEq, Prod.mk.injEq] at h
    obtain ⟨-, rfl⟩ := h
    rcases hb with hb | hb
    · exact .inl hb
    · right
      refine ⟨hb, ?_⟩
      obtain ⟨buf, src⟩ := b
      obtain ⟨_, rfl, _⟩ := hb
      simp
  · rename_i hk
    rcases readExactLoop_drained _ b k [] bs b' hb h with h' | ⟨rfl, -⟩
    · exact .inl h'
    · omega

theorem Prog.runBuf_drained {α : Type} (p : Prog α) {b : BufReader} (hb : b.Drained ∨ b.Fresh)
    {a : α} {b' : BufReader} (h : p.runBuf b = .ok (a, b')) : b'.Drained ∨ (b.Fresh ∧ b' = b) := by
  induction p generalizing b with
  | ret x =>
    simp only [Prog.runBuf, Except.ok.injEq, Prod.mk.injEq] at h
    obtain ⟨-, rfl⟩ := h
    rcases hb with hb | hb
    · exact .inl hb
    · exact .inr ⟨hb, rfl⟩
  | fail e => cases h
  | read k c ih =>
    simp only [Prog.runBuf] at h
    cases hr : b.readExact k with
    | error e => rw [hr] at h; cases h
    | ok x =>
      obtain ⟨bs, b1⟩ := x
      rw [hr] at h
      rcases BufReader.readExact_drained hb hr with h1 | ⟨h1, rfl⟩
      · rcases ih _ (.inl h1) h with h2 | ⟨_, rfl⟩
        · exact .inl h2
        · exact .inl h1
      · exact ih _ (.inr h1) h

/-- Reads that stay inside the buffer do not touch the stream. -/
theorem Prog.runBuf_inside {α : Type} (p : Prog α) (buf : Bytes) (src : Source) (a : α) (r : Bytes)
    (h : p.run buf = .ok (a, r)) : p.runBuf ⟨buf, src⟩ = .ok (a, ⟨r, src⟩) := by
  induction p generalizing buf with
  | ret x => cases h; rfl
  | fail e => cases h
  | read k c ih =>
    simp only [Prog.run] at h
    split at h
    · cases h
    · rename_i hk
      simp only [Prog.runBuf, BufReader.readExact]
      rw [if_pos (by show k ≤ buf.length; omega)]
      exact ih _ _ h

theorem Prog.runBuf_bind {α β : Type} (p : Prog α) (f : α → Prog β) (b : BufReader) :
    (p >>= f).runBuf b = match p.runBuf b with
      | .ok (a, b') => (f a).runBuf b'
      | .error e => .error e := by
  show (Prog.bind p f).runBuf b = _
  induction p generalizing b with
  | ret a => rfl
  | fail e => rfl
  | read k c ih =>
    simp only [Prog.bind, Prog.runBuf]
    cases b.readExact k with
    | error e => rfl
    | ok x => exact ih _ _

end MinaRs.BinProt
