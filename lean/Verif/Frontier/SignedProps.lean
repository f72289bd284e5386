import Verif.Frontier.Signed
import Verif.Frontier.Lemmas
import Verif.Frontier.Spec
import Verif.Hash.CommandProps

/-!
# C123: who authorised the commands of an accepted block
-/

namespace MinaRs.Frontier.Spec

open MinaRs.Hash (Fp PubKey Payload Network)

variable {SK σ T Pf Dl Ver W St Cb Ib K S P : Type}

/-- The signature scheme is correct: what a key signs satisfies the equation of its public key, and a
public key is recovered from its compressed form. -/
def Correct (G : Scheme SK σ) : Prop :=
  (∀ sk f, G.V (G.pub sk) (G.sign sk f) (f (G.rx (G.sign sk f))) = true) ∧
  ∀ sk, G.uncompress (compress (G.pub sk)) = some (G.pub sk)

/-- A signature fits one challenge only, as with Schnorr's equation `s·G = R + e·P`. -/
def OneChallenge (G : Scheme SK σ) : Prop :=
  ∀ pk s e e', G.V pk s e = true → G.V pk s e' = true → e = e'

/-- All commands of a whole block. -/
def allCommands (b : FullBlock T Pf Dl Ver W St Cb Ib K S P) : List (SignedCommand K S P) :=
  (b.diffTwo.commands ++ (match b.diffOne with | some d => d.commands | none => [])).map Prod.fst

/-- The account that pays the fee, and the one that the command acts for. -/
def payer (c : SignedCommand PubKey σ Payload) : PubKey := c.payload.common.feePayer

end MinaRs.Frontier.Spec

namespace MinaRs.Frontier

open MinaRs.Hash (Fp PubKey Payload Network signedFields verifyPayload)
open Spec

variable {SK σ T Pf Dl Ver W St Cb Ib K S P Pt Proof : Type}

theorem allCommands_eq (b : FullBlock T Pf Dl Ver W St Cb Ib K S P) : Spec.commands b.used = allCommands b := by
  obtain ⟨_, _, two, one, _, _, _⟩ := b
  cases one <;> simp [Spec.commands, allCommands, FullBlock.used]

theorem add_ok {h : MinaRs.Consensus.Header T} {crypto : Crypto K Pt S P} {s : State T Proof}
    {b : FullBlock T Pf Dl Ver W St Cb Ib K S P} (hb : (b.add h crypto s).2 = .ok ()) : b.used.verify crypto = .ok true := by
  unfold FullBlock.add addBlockMainnet at hb
  split at hb
  · cases hb
  · cases hb
  · assumption

/-- **C123.** Each command of an accepted block carries a signature that satisfies the equation of its
signer's public key on the hash, under the mainnet domain, of exactly its own fields. Missing: that
the signer is the account that pays, that the command was not used before, and that the rest of
the block is checked (see the theorems below). -/
theorem C123_accepted_partial (G : Scheme SK σ) (h : MinaRs.Consensus.Header T) (s : State T Proof)
    (b : FullBlock T Pf Dl Ver W St Cb Ib PubKey σ Payload) (hb : (b.add h (G.crypto .mainnet) s).2 = .ok ()) :
    ∀ c ∈ allCommands b, ∃ x y, G.uncompress c.signer = some (x, y) ∧
      G.V (x, y) c.signature (G.H "MinaSignatureMainnet" (signedFields c.payload x y (G.rx c.signature))) = true := by
  intro c hc
  have hv := (verify_true _ _).1 (add_ok hb) c (by rw [allCommands_eq]; exact hc)
  obtain ⟨⟨x, y⟩, h1, h2⟩ := hv
  exact ⟨x, y, h1, h2⟩

/-- **C123.** A block all of whose commands were signed for mainnet is treated exactly as the block
without any commands: no honest command is refused. -/
theorem C123_honest (G : Scheme SK σ) (hG : Correct G) (h : MinaRs.Consensus.Header T) (s : State T Proof)
    (b e : FullBlock T Pf Dl Ver W St Cb Ib PubKey σ Payload)
    (hb : ∀ c ∈ allCommands b, ∃ p sk, c = G.fromPayload p sk .mainnet)
    (he : allCommands e = []) (hp : e.protocolState = b.protocolState) :
    b.add h (G.crypto .mainnet) s = e.add h (G.crypto .mainnet) s := by
  have h1 : b.used.verify (G.crypto .mainnet) = .ok true := (verify_true _ _).2 (by
    intro c hc
    rw [allCommands_eq] at hc
    obtain ⟨p, sk, rfl⟩ := hb c hc
    exact ⟨G.pub sk, hG.2 sk, hG.1 sk _⟩)
  have h2 : e.used.verify (G.crypto .mainnet) = .ok true := (verify_true _ _).2 (by
    intro c hc
    rw [allCommands_eq, he] at hc
    cases hc)
  unfold FullBlock.add addBlockMainnet
  rw [h1, h2]
  simp only [FullBlock.used, hp]

/-- **C123.** A signature made for a payload on some network is valid, on mainnet, for no other payload
with a memo of the same length, and for none at all if it was made for the other network — unless
two inputs with one hash are at hand. Missing: memos of other lengths (C51). -/
theorem C123_replay_partial (G : Scheme SK σ) (hG : Correct G) (h1 : OneChallenge G) (sk : SK) (n : Network)
    (c d : Payload) (hm : c.common.memo.length = d.common.memo.length)
    (hv : ValidCommand (G.crypto .mainnet) { G.fromPayload c sk n with payload := d }) :
    (d = c ∧ n = .mainnet) ∨
    ∃ m m' : String × List Fp, m ≠ m' ∧ G.H m.1 m.2 = G.H m'.1 m'.2 ∧
      m = (n.domain, signedFields c (G.pub sk).1 (G.pub sk).2 (G.rx (G.fromPayload c sk n).signature)) ∧
      m' = (Network.mainnet.domain, signedFields d (G.pub sk).1 (G.pub sk).2 (G.rx (G.fromPayload c sk n).signature)) := by
  obtain ⟨pk, hk, hv⟩ := hv
  have hk' : G.uncompress (compress (G.pub sk)) = some pk := hk
  rw [hG.2 sk] at hk'
  have hpk : G.pub sk = pk := Option.some.inj hk'
  subst hpk
  have heq := h1 _ _ _ _ (hG.1 sk _) hv
  by_cases hd : (n.domain, signedFields c (G.pub sk).1 (G.pub sk).2 (G.rx (G.fromPayload c sk n).signature)) =
      (Network.mainnet.domain, signedFields d (G.pub sk).1 (G.pub sk).2 (G.rx (G.fromPayload c sk n).signature))
  · left
    obtain ⟨e1, e2⟩ := Prod.mk.inj hd
    refine ⟨(MinaRs.Hash.message_inj hm e2).1.symm, ?_⟩
    cases n with
    | mainnet => rfl
    | testnet => exact absurd e1.symm MinaRs.Hash.C51_networks
  · exact Or.inr ⟨_, _, hd, heq, rfl, rfl⟩

/-- **C123.** Nobody checks that the signer is the account that pays: for every correct scheme, every
payload and every key pair whose public key is not the payer's, the payload signed with that key
pair is a valid command, and a block with any number of them is treated exactly as the block
without commands. -/
theorem C123_payer_fails (G : Scheme SK σ) (hG : Correct G) (sk : SK) (p : Payload)
    (hp : compress (G.pub sk) ≠ p.common.feePayer) (st : St) :
    ∃ c : SignedCommand PubKey σ Payload, c.payload = p ∧ c.signer ≠ payer c ∧
      ∀ {T Proof : Type} (h : MinaRs.Consensus.Header T) (s : State T Proof)
        (e : FullBlock T Pf Dl Ver W St Cb Ib PubKey σ Payload) (k : Nat), allCommands e = [] →
        FullBlock.add h (G.crypto .mainnet) s
          { e with diffTwo := { e.diffTwo with commands := List.replicate k (c, st) } } =
        e.add h (G.crypto .mainnet) s := by
  refine ⟨G.fromPayload p sk .mainnet, rfl, hp, fun h s e k he => ?_⟩
  refine C123_honest G hG h s _ e ?_ he rfl
  intro c hc
  refine ⟨p, sk, ?_⟩
  obtain ⟨_, _, ⟨_, two, _, _⟩, one, _, _, _⟩ := e
  cases one with
  | none =>
    simp only [allCommands, List.append_nil, List.map_replicate] at hc
    exact (List.mem_replicate.1 hc).2
  | some d =>
    have h0 : d.commands = [] := (List.append_eq_nil_iff.1 (List.map_eq_nil_iff.1 he)).2
    simp only [allCommands, h0, List.append_nil, List.map_replicate] at hc
    exact (List.mem_replicate.1 hc).2

/-- **C123.** The commands of accepted blocks are accepted again, any number of times and in any other
block: what is done with a block depends on its protocol state alone, once all its commands have
been seen valid in some other block `a`. -/
theorem C123_again_fails (crypto : Crypto K Pt S P) (h h' : MinaRs.Consensus.Header T) (s t : State T Proof)
    (a b e : FullBlock T Pf Dl Ver W St Cb Ib K S P)
    (ha : (a.add h' crypto t).2 = .ok ()) (hs : ∀ c ∈ allCommands b, c ∈ allCommands a)
    (he : allCommands e = []) (hp : e.protocolState = b.protocolState) :
    b.add h crypto s = e.add h crypto s := by
  have hv := (verify_true _ _).1 (add_ok ha)
  have h1 : b.used.verify crypto = .ok true := (verify_true _ _).2 (by
    intro c hc
    rw [allCommands_eq] at hc
    exact hv c (by rw [allCommands_eq]; exact hs c hc))
  have h2 : e.used.verify crypto = .ok true := (verify_true _ _).2 (by
    intro c hc
    rw [allCommands_eq, he] at hc
    cases hc)
  unfold FullBlock.add addBlockMainnet
  rw [h1, h2]
  simp only [FullBlock.used, hp]

/-- **C123.** The proofs of a block are not looked at: replacing the proof of the protocol state, the
proof of the transition chain, the versions, the completed works, the coinbases, the balances and
the statuses of the commands changes nothing, and a block without commands is never refused by
verification, whatever its protocol state and its proofs are. -/
theorem C123_proofs_fails (crypto : Crypto K Pt S P) (h : MinaRs.Consensus.Header T) (s : State T Proof) :
    (∀ a b : FullBlock T Pf Dl Ver W St Cb Ib K S P, a.protocolState = b.protocolState →
      a.diffTwo.commands.map Prod.fst = b.diffTwo.commands.map Prod.fst →
      a.diffOne.map (fun d => d.commands.map Prod.fst) = b.diffOne.map (fun d => d.commands.map Prod.fst) →
      a.add h crypto s = b.add h crypto s) ∧
    (∀ b : FullBlock T Pf Dl Ver W St Cb Ib K S P, allCommands b = [] →
      (b.add h crypto s).2 ≠ .error .verificationFailure ∧
      b.add h crypto s = ({ s with bestChain := (extend h s.bestChain b.protocolState).1 },
        (extend h s.bestChain b.protocolState).2)) := by
  constructor
  · intro a b h1 h2 h3
    unfold FullBlock.add FullBlock.used
    rw [h1, h2, h3]
  · intro b hb
    have h2 : b.used.verify crypto = .ok true := (verify_true _ _).2 (by
      intro c hc
      rw [allCommands_eq, hb] at hc
      cases hc)
    have h3 : b.add h crypto s = ({ s with bestChain := (extend h s.bestChain b.protocolState).1 },
        (extend h s.bestChain b.protocolState).2) := by
      unfold FullBlock.add addBlockMainnet
      rw [h2]
      rfl
    refine ⟨?_, h3⟩
    rw [h3]
    simp only [extend]
    split
    · rcases MinaRs.Consensus.push h s.bestChain b.protocolState with ⟨c, _ | _⟩ <;> simp [liftResult]
    · rcases MinaRs.Consensus.selectSecureChain h s.bestChain [[b.protocolState]] with ⟨c, _ | _⟩ <;> simp [liftResult]

/-! ## A scheme that meets the hypotheses -/

/-- A toy scheme: `s = e + x`, with `rx` a constant; its hash adds up. -/
def toyScheme : Scheme (Fp × Fp) Fp where
  H := fun d fs => fs.foldl (fun a x => a + a + x) (if d = "MinaSignatureMainnet" then 1 else 2)
  V := fun pk s e => decide (s = e + pk.1)
  rx := fun _ => 5
  pub := fun sk => (sk.1, 3)
  sign := fun sk f => f 5 + sk.1
  uncompress := fun k => if k.isOdd = true then some (k.x, 3) else none

theorem three_odd : (((3 : Fp).val % 2) == 1) = true := by decide

theorem toy_correct : Correct toyScheme := by
  refine ⟨fun sk f => ?_, fun sk => ?_⟩
  · simp [toyScheme]
  · simp only [toyScheme, compress, three_odd, if_true]

theorem fp_add_right {a b x : Fp} (h : a + x = b + x) : a = b := by
  have h1 := congrArg Fin.val h
  simp only [Fin.val_add] at h1
  have h2 := a.isLt; have h3 := b.isLt; have h4 := x.isLt
  simp only [MinaRs.Hash.p] at h1 h2 h3 h4
  apply Fin.ext
  omega

theorem toy_one : OneChallenge toyScheme := by
  intro pk s e e' h1 h2
  simp only [toyScheme, decide_eq_true_eq] at h1 h2
  exact fp_add_right (h1.symm.trans h2)

/-- A payment that account 9 is to pay for, signed with the key pair of account 7, is accepted into the
empty frontier. -/
example : compress (toyScheme.pub (7, 0)) ≠ (⟨9, true⟩ : PubKey) ∧
    Spec.ValidCommand (toyScheme.crypto .mainnet)
      (toyScheme.fromPayload ⟨⟨10, 1, ⟨9, true⟩, 7, 1000, List.replicate 34 0⟩,
        .payment ⟨9, true⟩ ⟨7, true⟩ 1 256⟩ (7, 0) .mainnet) := by
  refine ⟨by decide, (7, 3), toy_correct.2 (7, 0), ?_⟩
  exact toy_correct.1 (7, 0) fun r => toyScheme.H Network.mainnet.domain
    (signedFields ⟨⟨10, 1, ⟨9, true⟩, 7, 1000, List.replicate 34 0⟩, .payment ⟨9, true⟩ ⟨7, true⟩ 1 256⟩ 7 3 r)

end MinaRs.Frontier
