import Verif.Frontier.Lemmas

/-!
# Properties of verification, the frontiers and the processor (C39–C44)
-/

namespace MinaRs.Frontier
open Spec MinaRs.Consensus

variable {T K Pt S P Proof : Type} (h : Header T)

/-! ## Concrete blocks for the examples -/

/-- Keys are numbers; keys from 100 on are not on the curve; a signature is valid when it is the
sum of key and payload. -/
def exCrypto : Crypto Nat Nat Nat Nat := ⟨fun k => if k < 100 then some k else none, fun s k p => s == k + p⟩

/-- What the examples see of a block. -/
def exHeader : Header (ConsensusState × Nat) := ⟨Prod.fst, Prod.snd, id⟩

/-- A protocol state of mainnet shape. -/
def exState (len slot : Nat) (vrf : List UInt8) (lock : List UInt8) (hash : Nat) : ConsensusState × Nat :=
  (⟨len, 0, 40, [1, 7, 7, 7, 7, 7, 7, 7, 7, 7, 7], vrf, ⟨slot, 7140⟩, ⟨lock⟩, ⟨[]⟩⟩, hash)

/-! ## C40 -/

/-- C40: a block verifies exactly when every user command in its first pre-diff and, if present, in
its second verifies. -/
theorem C40_verify_iff (crypto : Crypto K Pt S P) (b : ExternalTransition T K S P) :
    b.verify crypto = .ok true ↔ ValidBlock crypto b := verify_true crypto b

/-- C40: if the signers are curve points, verification answers `false` for all other blocks.
Missing: blocks with a signer that is not on the curve, on which it may panic (see below). -/
theorem C40_verify_false_partial (crypto : Crypto K Pt S P) (b : ExternalTransition T K S P)
    (hk : ∀ c ∈ commands b, crypto.uncompress c.signer ≠ none) :
    b.verify crypto = .ok false ↔ ¬ ValidBlock crypto b := by
  obtain ⟨r, hr⟩ := verify_total crypto b hk
  rw [← verify_true, hr]
  cases r <;> simp

/-- One command that verifies in the first and one that does not in the second pre-diff. -/
example : (⟨(), ⟨[⟨5, 3, 8⟩], some [⟨1, 2, 3⟩, ⟨1, 2, 4⟩]⟩⟩ : ExternalTransition Unit Nat Nat Nat).verify exCrypto = .ok false ∧
    (⟨(), ⟨[⟨5, 3, 8⟩], some [⟨1, 2, 3⟩, ⟨2, 2, 4⟩]⟩⟩ : ExternalTransition Unit Nat Nat Nat).verify exCrypto = .ok true := by
  constructor <;> rfl

theorem verifyAll_panics (crypto : Crypto K Pt S P) (cs : List (SignedCommand K S P)) :
    (∃ m, verifyAll crypto cs = .error (.panic m)) ↔ ∃ pre c post, cs = pre ++ c :: post ∧ (∀ x ∈ pre, ValidCommand crypto x) ∧
      crypto.uncompress c.signer = none := by
  induction cs with
  | nil => simp [verifyAll]
  | cons a cs ih =>
    cases hk : crypto.uncompress a.signer with
    | none =>
      refine ⟨fun _ => ⟨[], a, cs, rfl, by simp, hk⟩, fun _ => ?_⟩
      simp [verifyAll, SignedCommand.verify, hk, bind, Except.bind]
    | some pk =>
      have hne : ∀ pre c post, a :: cs = pre ++ c :: post → crypto.uncompress c.signer = none →
          ∃ pre', pre = a :: pre' ∧ cs = pre' ++ c :: post := by
        intro pre c post he hc
        cases pre with
        | nil =>
          simp only [List.nil_append, List.cons.injEq] at he
          rw [← he.1, hk] at hc; cases hc
        | cons x pre' =>
          simp only [List.cons_append, List.cons.injEq] at he
          exact ⟨pre', by rw [he.1], he.2⟩
      cases hv : crypto.verify a.signature pk a.payload with
      | false =>
        simp only [verifyAll, SignedCommand.verify, hk, hv, bind, Except.bind]
        constructor
        · rintro ⟨m, hm⟩; cases hm
        · rintro ⟨pre, c, post, he, hp, hc⟩
          obtain ⟨pre', rfl, -⟩ := hne pre c post he hc
          obtain ⟨pk', h1, h2⟩ := hp a List.mem_cons_self
          rw [hk] at h1
          cases h1
          rw [hv] at h2; cases h2
      | true =>
        simp only [verifyAll, SignedCommand.verify, hk, hv, bind, Except.bind, if_true]
        rw [ih]
        constructor
        · rintro ⟨pre, c, post, rfl, hp, hc⟩
          refine ⟨a :: pre, c, post, rfl, ?_, hc⟩
          intro x hx
          rcases List.mem_cons.mp hx with rfl | hx
          · exact ⟨pk, hk, hv⟩
          · exact hp x hx
        · rintro ⟨pre, c, post, he, hp, hc⟩
          obtain ⟨pre', rfl, h2⟩ := hne pre c post he hc
          exact ⟨pre', c, post, h2, fun x hx => hp x (List.mem_cons_of_mem _ hx), hc⟩

theorem verifyAll_append (crypto : Crypto K Pt S P) (xs ys : List (SignedCommand K S P)) :
    verifyAll crypto (xs ++ ys) = (do
      let ok ← verifyAll crypto xs
      if ok = true then verifyAll crypto ys else .ok false) := by
  induction xs with
  | nil => simp [verifyAll, bind, Except.bind]
  | cons a xs ih =>
    simp only [List.cons_append, verifyAll]
    cases ha : a.verify crypto with
    | error e => rfl
    | ok r =>
      cases r
      · rfl
      · simpa [bind, Except.bind] using ih

/-- C40 fails, for exactly these blocks: verification panics, instead of answering `false`, if the signer of some command is not on
the curve and the commands checked before it are valid.  (The commands of the second pre-diff are checked first.) -/
theorem C40_invalid_key_fails (crypto : Crypto K Pt S P) (b : ExternalTransition T K S P) :
    (∃ m, b.verify crypto = .error (.panic m)) ↔
      ∃ pre c post, b.stagedLedgerDiff.diffOne.getD [] ++ b.stagedLedgerDiff.diffTwo = pre ++ c :: post ∧
        (∀ x ∈ pre, ValidCommand crypto x) ∧ crypto.uncompress c.signer = none := by
  rw [← verifyAll_panics]
  unfold ExternalTransition.verify Diff.verify
  cases b.stagedLedgerDiff.diffOne with
  | none => rfl
  | some one =>
    rw [Option.getD_some, verifyAll_append]

example : ∃ m, (⟨(), ⟨[⟨5, 200, 8⟩], some [⟨1, 2, 3⟩]⟩⟩ : ExternalTransition Unit Nat Nat Nat).verify exCrypto = .error (.panic m) :=
  (C40_invalid_key_fails _ _).mpr ⟨[⟨1, 2, 3⟩], ⟨5, 200, 8⟩, [], rfl,
    by intro x hx; cases List.mem_singleton.mp hx; exact ⟨2, rfl, rfl⟩, rfl⟩

/-! ## C39 -/

/-- C39: offering a block that is not valid returns an error (or panics) and leaves the frontier
unchanged. -/
theorem C39_invalid_refused (crypto : Crypto K Pt S P) (s : State T Proof) (b : ExternalTransition T K S P)
    (hinv : ¬ ValidBlock crypto b) :
    (addBlockMainnet h crypto s b).1 = s ∧ ∃ e, (addBlockMainnet h crypto s b).2 = .error e := by
  unfold addBlockMainnet
  cases hv : b.verify crypto with
  | error e => exact ⟨rfl, e, rfl⟩
  | ok r =>
    cases r with
    | false => exact ⟨rfl, _, rfl⟩
    | true => exact absurd ((verify_true crypto b).mp hv) hinv

/-- C39: whatever sequence of blocks is offered to a new mainnet frontier, every block of its best
chain is one of the offered ones, and a valid one. -/
theorem C39_best_chain_verified (crypto : Crypto K Pt S P) (bs : List (ExternalTransition T K S P)) (x : T)
    (hx : x ∈ (offers (addBlockMainnet h crypto) (State.new : State T Proof) bs).bestChain) :
    ∃ b ∈ bs, b.protocolState = x ∧ ValidBlock crypto b := by
  suffices hgen : ∀ (s : State T Proof) (Q : T → Prop), (∀ x ∈ s.bestChain, Q x) →
      (∀ b ∈ bs, ValidBlock crypto b → Q b.protocolState) →
      ∀ x ∈ (offers (addBlockMainnet h crypto) s bs).bestChain, Q x from
    hgen State.new (fun x => ∃ b ∈ bs, b.protocolState = x ∧ ValidBlock crypto b) (by simp [State.new])
      (fun b hb hv => ⟨b, hb, rfl, hv⟩) x hx
  clear hx
  induction bs with
  | nil => intro s Q h1 _; exact h1
  | cons b bs ih =>
    intro s Q h1 h2
    rw [offers]
    refine ih _ Q ?_ (fun b' hb' => h2 b' (by simp [hb']))
    intro x hx
    by_cases hv : ValidBlock crypto b
    · unfold addBlockMainnet at hx
      rw [(verify_true crypto b).mpr hv] at hx
      rcases extend_mem _ _ _ hx with hm | rfl
      · exact h1 x hm
      · exact h2 b (by simp) hv
    · rw [(C39_invalid_refused h crypto s b hv).1] at hx
      exact h1 x hx

/-- A history with a valid block, a better but invalid one and a better valid one. -/
example : (offers (addBlockMainnet exHeader exCrypto) (State.new : State _ Unit)
    [⟨exState 5 2000 [1] [1] 0, ⟨[⟨1, 2, 3⟩], none⟩⟩, ⟨exState 9 2000 [1] [1] 0, ⟨[⟨1, 2, 4⟩], none⟩⟩,
     ⟨exState 7 2000 [1] [1] 0, ⟨[], some [⟨1, 2, 3⟩]⟩⟩]).bestChain = [exState 7 2000 [1] [1] 0] := by decide

/-! ## C42 -/

/-- C42 on mainnet: if adding a block does not succeed, the frontier is exactly what it was. -/
theorem C42_mainnet_unchanged (crypto : Crypto K Pt S P) (s : State T Proof) (b : ExternalTransition T K S P)
    (herr : (addBlockMainnet h crypto s b).2 ≠ .ok ()) : (addBlockMainnet h crypto s b).1 = s := by
  unfold addBlockMainnet at *
  cases hv : b.verify crypto with
  | error e => rfl
  | ok r =>
    cases r with
    | false => rfl
    | true =>
      simp only [hv] at herr ⊢
      rcases extend_cases (h := h) s.bestChain b.protocolState with ⟨h1, -⟩ | ⟨h1, -⟩
      · exact absurd h1 herr
      · simp [h1]

/-- C42 on Berkeley net: likewise. -/
theorem C42_berkeley_unchanged (s : State T Proof) (b : T × List Proof)
    (herr : (addBlockBerkeley h s b).2 ≠ .ok ()) : (addBlockBerkeley h s b).1 = s := by
  obtain ⟨block, proofs⟩ := b
  unfold addBlockBerkeley at *
  simp only at *
  by_cases hl : MinaRs.Consensus.length h s.bestChain < 1
  · rw [if_pos hl] at *
    have := push_first (h := h) s.bestChain block
    rcases hp : push h s.bestChain block with ⟨c, r⟩
    rw [hp] at herr this
    cases r with
    | ok u => exact absurd rfl herr
    | error e =>
      rcases this with ⟨-, h2⟩ | ⟨h1, -⟩
      · cases h2
      · simp only at h1; subst h1; rfl
  · rw [if_neg hl] at *
    have := selectOneChain (h := h) s.bestChain block
    rcases hp : selectSecureChain h s.bestChain [[block]] with ⟨c, r⟩
    rw [hp] at herr this
    cases r with
    | ok u =>
      simp only at herr
      split at herr <;> exact absurd rfl herr
    | error e =>
      rcases this with ⟨-, h2⟩ | ⟨h1, -⟩
      · cases h2
      · simp only at h1; subst h1; rfl

/-- A failing addition: the frontier holds a block without sub-window densities. -/
example : addBlockBerkeley exHeader ⟨[(⟨9, 0, 40, [], [], ⟨2000, 7140⟩, ⟨[1]⟩, ⟨[]⟩⟩, 0)], [()]⟩ (exState 5 2000 [] [2] 0, []) =
    (⟨[(⟨9, 0, 40, [], [], ⟨2000, 7140⟩, ⟨[1]⟩, ⟨[]⟩⟩, 0)], [()]⟩, .error (.consensus .candidatesMissingSubWindowDensities)) := by decide

/-! ## C41 -/

/-- The ledger was delivered with a block that has the state hash of the tip. -/
def LedgerOfTip (offered : List (T × List Proof)) (s : State T Proof) : Prop :=
  match top s.bestChain with
  | none => s.ledger = []
  | some tip => tip ∈ offered.map Prod.fst ∧ ∃ b ∈ offered, h.stateHash b.1 = h.stateHash tip ∧ b.2 = s.ledger

theorem ledgerOfTip_step (offered : List (T × List Proof)) (s : State T Proof) (b : T × List Proof)
    (hs : LedgerOfTip h offered s) : LedgerOfTip h (offered ++ [b]) (addBlockBerkeley h s b).1 := by
  have hmono : LedgerOfTip h (offered ++ [b]) s := by
    unfold LedgerOfTip at *
    cases ht : top s.bestChain with
    | none => simp only [ht] at hs; exact hs
    | some tip =>
      simp only [ht] at hs
      obtain ⟨h1, b', h2, h3, h4⟩ := hs
      refine ⟨?_, b', by simp [h2], h3, h4⟩
      rw [List.map_append]; exact List.mem_append_left _ h1
  obtain ⟨block, proofs⟩ := b
  have hnew : ∀ c : Chain T, top c = some block → LedgerOfTip h (offered ++ [(block, proofs)]) ⟨c, proofs⟩ := by
    intro c hc
    unfold LedgerOfTip
    simp only [hc]
    exact ⟨by simp, (block, proofs), by simp, rfl, rfl⟩
  unfold addBlockBerkeley
  simp only
  by_cases hl : MinaRs.Consensus.length h s.bestChain < 1
  · rw [if_pos hl]
    have := push_first (h := h) s.bestChain block
    rcases hp : push h s.bestChain block with ⟨c, r⟩
    rw [hp] at this
    cases r with
    | ok u =>
      rcases this with ⟨h1, -⟩ | ⟨-, e, h2⟩
      · simp only at h1; subst h1
        exact hnew _ (by simp [top])
      · cases h2
    | error e =>
      rcases this with ⟨-, h2⟩ | ⟨h1, -⟩
      · cases h2
      · simp only at h1; subst h1; exact hmono
  · rw [if_neg hl]
    have := selectOneChain (h := h) s.bestChain block
    rcases hp : selectSecureChain h s.bestChain [[block]] with ⟨c, r⟩
    rw [hp] at this
    cases r with
    | error e =>
      rcases this with ⟨-, h2⟩ | ⟨h1, -⟩
      · cases h2
      · simp only at h1; subst h1; exact hmono
    | ok u =>
      simp only
      rcases this with ⟨h1, -⟩ | ⟨-, e, h2⟩
      · simp only at h1
        rcases h1 with h1 | h1 <;> subst h1
        · split
          · rename_i heq
            unfold LedgerOfTip at *
            cases ht : top s.bestChain with
            | none => simp [stateHash, ht] at heq
            | some tip =>
              simp only [ht] at hmono ⊢
              simp only [stateHash, ht, Option.map_some, Option.some.injEq] at heq
              exact ⟨hmono.1, (block, proofs), by simp, heq.symm, rfl⟩
          · exact hmono
        · have e : stateHash h [block] = some (h.stateHash block) := rfl
          rw [if_pos e]
          exact hnew _ rfl
      · cases h2

/-- C41: after any sequence of offered blocks, the tip of the best chain is one of them, and the
ledger held is one that was delivered with a block of the tip's state hash. -/
theorem C41_ledger_of_tip_hash (bs : List (T × List Proof)) :
    LedgerOfTip h bs (offers (addBlockBerkeley h) State.new bs) := by
  suffices hgen : ∀ (done : List (T × List Proof)) (s : State T Proof), LedgerOfTip h done s →
      LedgerOfTip h (done ++ bs) (offers (addBlockBerkeley h) s bs) from hgen [] State.new rfl
  induction bs with
  | nil => intro done s hs; simpa [offers] using hs
  | cons b bs ih =>
    intro done s hs
    rw [offers]
    have := ih (done ++ [b]) _ (ledgerOfTip_step h done s b hs)
    simpa using this

/-- C41: if different offered blocks have different state hashes, the ledger held is one that was
delivered with the block that is the tip.  Missing: blocks that share a state hash. -/
theorem C41_ledger_of_tip_partial (bs : List (T × List Proof))
    (hinj : ∀ x ∈ bs, ∀ y ∈ bs, h.stateHash x.1 = h.stateHash y.1 → x.1 = y.1) :
    match top (offers (addBlockBerkeley h) (State.new : State T Proof) bs).bestChain with
    | none => (offers (addBlockBerkeley h) (State.new : State T Proof) bs).ledger = []
    | some tip => (tip, (offers (addBlockBerkeley h) (State.new : State T Proof) bs).ledger) ∈ bs := by
  have := C41_ledger_of_tip_hash (Proof := Proof) h bs
  unfold LedgerOfTip at this
  cases ht : top (offers (addBlockBerkeley h) (State.new : State T Proof) bs).bestChain with
  | none => simpa [ht] using this
  | some tip =>
    simp only [ht] at this ⊢
    obtain ⟨h1, ⟨b, l⟩, h2, h3, h4⟩ := this
    obtain ⟨x, hx, rfl⟩ := List.mem_map.mp h1
    have := hinj _ h2 _ hx h3
    simp only at this h4
    rw [← this, ← h4]; exact h2

/-- The frontier switches from the first block to the third. -/
example : offers (addBlockBerkeley exHeader) State.new
    [(exState 5 2000 [1] [1] 0, ["a"]), (exState 4 2000 [1] [1] 1, ["b"]), (exState 6 2000 [1] [1] 2, ["c"])] =
    ⟨[exState 6 2000 [1] [1] 2], ["c"]⟩ := by decide

/-- C41 in full is false: any block that loses against the tip but has the tip's state hash replaces
the ledger. -/
theorem C41_same_hash_fails (s : State T Proof) (tip b : T) (proofs : List Proof) (ht : top s.bestChain = some tip)
    (hlen : 1 ≤ h.getHeight tip) (hsr : isShortRange h s.bestChain [b] = .ok true)
    (hlose : ¬ MinaRs.Consensus.Spec.Beats (MinaRs.Consensus.Spec.key h b) (MinaRs.Consensus.Spec.key h tip))
    (hhash : h.stateHash b = h.stateHash tip) :
    addBlockBerkeley h s (b, proofs) = (⟨s.bestChain, proofs⟩, .ok ()) := by
  have hl : ¬ MinaRs.Consensus.length h s.bestChain < 1 := by
    have : MinaRs.Consensus.length h s.bestChain = h.getHeight tip := by
      simp [MinaRs.Consensus.length, consensusState_some ht, Header.getHeight]
    omega
  have hsel : selectSecureChain h s.bestChain [[b]] = (s.bestChain, .ok ()) := by
    rw [selectSecureChain, selectOne_short (tc := b) ht rfl hsr, if_neg hlose]
    rfl
  simp only [addBlockBerkeley, if_neg hl, hsel]
  rw [if_pos (by simp [MinaRs.Consensus.stateHash, ht, hhash])]

/-- A frontier whose ledger was never offered with its tip. -/
example : ∃ bs : List ((ConsensusState × Nat) × List String),
    ∃ tip, (offers (addBlockBerkeley exHeader) State.new bs).bestChain = [tip] ∧
      (tip, (offers (addBlockBerkeley exHeader) State.new bs).ledger) ∉ bs :=
  ⟨[(exState 5 2000 [1] [1] 0, ["a"]), (exState 4 2000 [1] [1] 0, ["b"])], exState 5 2000 [1] [1] 0, by decide⟩

/-! ## C44 -/

/-- Every offered block that is verified is, when it is offered to a frontier that has a best
chain, a short-range fork of it. -/
def ShortRangeHistory (crypto : Crypto K Pt S P) (s : State T Proof) (bs : List (ExternalTransition T K S P)) : Prop :=
  ∀ pre b post, bs = pre ++ b :: post → ValidBlock crypto b →
    (offers (addBlockMainnet h crypto) s pre).bestChain ≠ [] →
    isShortRange h (offers (addBlockMainnet h crypto) s pre).bestChain [b.protocolState] = .ok true

theorem length_top {c : Chain T} {t : T} (ht : top c = some t) : length h c = (h.consensusState t).blockchainLength := by
  simp [length, consensusState_some ht]

theorem extend_length (c : Chain T) (b : T) (hpos : 1 ≤ h.getHeight b) (hc : c = [] ∨ 1 ≤ length h c)
    (hsr : c ≠ [] → isShortRange h c [b] = .ok true) :
    length h c ≤ length h (extend h c b).1 ∧ h.getHeight b ≤ length h (extend h c b).1 := by
  unfold extend
  rcases hc with rfl | hc
  · have : length h [] < 1 := by simp [length, consensusState, top]
    rw [if_pos this]
    have e : length h [b] = h.getHeight b := rfl
    simp only [push, List.getLast?_nil, List.nil_append, e]
    have : length h [] = 0 := rfl
    omega
  · have hne : c ≠ [] := by rintro rfl; simp [length, consensusState, top] at hc
    have hs := hsr hne
    rw [if_neg (by omega)]
    obtain ⟨tc, tb, h1, h2⟩ := isShortRange_tops hs
    have e2 : tb = b := by simpa [top] using h2.symm
    subst e2
    rw [selectSecureChain, selectOne_short h1 h2 hs]
    simp only [selectSecureChain]
    have e : length h [tb] = h.getHeight tb := rfl
    split
    · rename_i hb
      rw [e, length_top h h1]
      simp only [Spec.Beats, Spec.key, Header.getHeight] at *
      omega
    · rename_i hb
      simp only [Spec.Beats, Spec.key, not_or] at hb
      rw [length_top h h1]
      simp only [Header.getHeight]
      omega

/-- C44: while every verified block is a short-range fork of the best chain, offering further
blocks never decreases its length, and it is at least the length of every verified block offered.
Missing: blocks of length 0 (see below). -/
theorem C44_length_never_shrinks_partial (crypto : Crypto K Pt S P) (bs bs' : List (ExternalTransition T K S P))
    (hpos : ∀ b ∈ bs ++ bs', 1 ≤ h.getHeight b.protocolState)
    (hsr : ShortRangeHistory h crypto (State.new : State T Proof) (bs ++ bs')) :
    length h (offers (addBlockMainnet h crypto) (State.new : State T Proof) bs).bestChain ≤
      length h (offers (addBlockMainnet h crypto) (State.new : State T Proof) (bs ++ bs')).bestChain ∧
    ∀ b ∈ bs ++ bs', ValidBlock crypto b → h.getHeight b.protocolState ≤
      length h (offers (addBlockMainnet h crypto) (State.new : State T Proof) (bs ++ bs')).bestChain := by
  have happ : ∀ (s : State T Proof) (xs ys : List (ExternalTransition T K S P)),
      offers (addBlockMainnet h crypto) s (xs ++ ys) = offers (addBlockMainnet h crypto) (offers (addBlockMainnet h crypto) s xs) ys := by
    intro s xs ys
    induction xs generalizing s with
    | nil => rfl
    | cons x xs ih => simp only [List.cons_append, offers]; exact ih _
  -- from any good state
  have hgen : ∀ (ys : List (ExternalTransition T K S P)) (s : State T Proof), (s.bestChain = [] ∨ 1 ≤ length h s.bestChain) →
      (∀ b ∈ ys, 1 ≤ h.getHeight b.protocolState) → ShortRangeHistory h crypto s ys →
      ((offers (addBlockMainnet h crypto) s ys).bestChain = [] ∨ 1 ≤ length h (offers (addBlockMainnet h crypto) s ys).bestChain) ∧
      length h s.bestChain ≤ length h (offers (addBlockMainnet h crypto) s ys).bestChain ∧
      ∀ b ∈ ys, ValidBlock crypto b → h.getHeight b.protocolState ≤ length h (offers (addBlockMainnet h crypto) s ys).bestChain := by
    intro ys
    induction ys with
    | nil => intro s hs _ _; exact ⟨hs, Nat.le_refl _, by simp⟩
    | cons b ys ih =>
      intro s hs hp hh
      have hstep : (((addBlockMainnet h crypto s b).1).bestChain = [] ∨ 1 ≤ length h ((addBlockMainnet h crypto s b).1).bestChain) ∧
          length h s.bestChain ≤ length h ((addBlockMainnet h crypto s b).1).bestChain ∧
          (ValidBlock crypto b → h.getHeight b.protocolState ≤ length h ((addBlockMainnet h crypto s b).1).bestChain) := by
        by_cases hv : ValidBlock crypto b
        · have := extend_length h s.bestChain b.protocolState (hp b (by simp)) hs (fun hne => hh [] b ys rfl hv hne)
          have e : ((addBlockMainnet h crypto s b).1).bestChain = (extend h s.bestChain b.protocolState).1 := by
            unfold addBlockMainnet; rw [(verify_true crypto b).mpr hv]
          rw [e]
          have h1 := hp b (by simp)
          exact ⟨.inr (by omega), this.1, fun _ => this.2⟩
        · rw [(C39_invalid_refused h crypto s b hv).1]
          exact ⟨hs, Nat.le_refl _, fun hh => absurd hh hv⟩
      obtain ⟨g1, g2, g3⟩ := ih (addBlockMainnet h crypto s b).1 hstep.1 (fun b' hb' => hp b' (by simp [hb'])) (by
        intro pre c post hc hv hne
        exact hh (b :: pre) c post (by rw [hc]; rfl) hv hne)
      rw [offers]
      refine ⟨g1, by omega, fun c hc hv => ?_⟩
      simp only [List.mem_cons] at hc
      rcases hc with rfl | hc
      · have := hstep.2.2 hv; omega
      · exact g3 c hc hv
  obtain ⟨-, -, k3⟩ := hgen (bs ++ bs') State.new (.inl rfl) hpos hsr
  obtain ⟨k1, -, -⟩ := hgen bs State.new (.inl rfl) (fun b hb => hpos b (by simp [hb])) (by
    intro pre c post hc hv hne
    exact hsr pre c (post ++ bs') (by rw [hc]; simp) hv hne)
  refine ⟨?_, k3⟩
  rw [happ]
  exact (hgen bs' _ k1 (fun b hb => hpos b (by simp [hb])) (by
    intro pre c post hc hv hne
    have := hsr (bs ++ pre) c post (by rw [hc]; simp) hv
    rw [happ] at this
    exact this hne)).2.1

example : (offers (addBlockMainnet exHeader exCrypto) (State.new : State _ Unit)
    [⟨exState 5 2000 [1] [1] 0, ⟨[], none⟩⟩, ⟨exState 9 2001 [1] [1] 0, ⟨[], none⟩⟩, ⟨exState 7 2002 [1] [1] 0, ⟨[], none⟩⟩]).bestChain =
    [exState 9 2001 [1] [1] 0] := by decide

/-- C44 in full is false: after a first verified block of length 0, every block that does not have length 1
is refused, however long it is, and for ever. -/
theorem C44_length_zero_fails (crypto : Crypto K Pt S P) (g : ExternalTransition T K S P) (hg : ValidBlock crypto g)
    (h0 : h.getHeight g.protocolState = 0) (bs : List (ExternalTransition T K S P))
    (h1 : ∀ b ∈ bs, h.getHeight b.protocolState ≠ 1) :
    (offers (addBlockMainnet h crypto) (State.new : State T Proof) (g :: bs)).bestChain = [g.protocolState] := by
  have hstart : addBlockMainnet h crypto (State.new : State T Proof) g = (⟨[g.protocolState], []⟩, .ok ()) := by
    simp only [addBlockMainnet, (verify_true crypto g).mpr hg]
    rfl
  rw [offers, hstart]
  have hgen : ∀ (bs : List (ExternalTransition T K S P)) (l : List Proof), (∀ b ∈ bs, h.getHeight b.protocolState ≠ 1) →
      (offers (addBlockMainnet h crypto) ⟨[g.protocolState], l⟩ bs).bestChain = [g.protocolState] := by
    intro bs
    induction bs with
    | nil => intro l _; rfl
    | cons b bs ih =>
      intro l hb
      have : (addBlockMainnet h crypto ⟨[g.protocolState], l⟩ b).1 = ⟨[g.protocolState], l⟩ := by
        unfold addBlockMainnet
        split
        · rfl
        · rfl
        · have e : extend h [g.protocolState] b.protocolState = ([g.protocolState], .error (.consensus .invalidHeight)) := by
            have hlen : MinaRs.Consensus.length h [g.protocolState] < 1 := by
              show h.getHeight g.protocolState < 1
              omega
            have hadd : add32 (h.getHeight g.protocolState) 1 = .ok 1 := by rw [h0]; rfl
            simp only [extend, if_pos hlen, push, List.getLast?_singleton, hadd]
            rw [if_pos (hb b (by simp))]
            rfl
          simp only [e]
      rw [offers, this]
      exact ih l (fun c hc => hb c (by simp [hc]))
  exact hgen bs [] h1

/-- A history of short-range forks whose best chain stays shorter than a verified block. -/
example : ∃ bs : List (ExternalTransition (ConsensusState × Nat) Nat Nat Nat),
    ShortRangeHistory exHeader exCrypto (State.new : State (ConsensusState × Nat) Unit) bs ∧
    ∃ b ∈ bs, ValidBlock exCrypto b ∧
      MinaRs.Consensus.length exHeader (offers (addBlockMainnet exHeader exCrypto) (State.new : State (ConsensusState × Nat) Unit) bs).bestChain
        < exHeader.getHeight b.protocolState := by
  refine ⟨[⟨exState 0 2000 [1] [1] 0, ⟨[], none⟩⟩, ⟨exState 9 2001 [1] [1] 0, ⟨[], none⟩⟩], ?_,
    ⟨exState 9 2001 [1] [1] 0, ⟨[], none⟩⟩, by simp, by simp [ValidBlock, commands], by decide⟩
  intro pre b post hb _ hne
  match pre, hb, hne with
  | [], _, hne => exact absurd rfl hne
  | [x], hb, _ => simp only [List.cons_append, List.nil_append, List.cons.injEq] at hb; obtain ⟨rfl, rfl, -⟩ := hb; decide
  | x :: y :: pre, hb, _ => simp at hb

end MinaRs.Frontier
