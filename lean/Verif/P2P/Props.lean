import Verif.P2P.Model

/-!
# The transport of a node: properties

C100: a transport has the identity it was made with, and the network, multiplexer and timeout that were set last.
-/
namespace MinaRs.P2P

variable {Key PeerId : Type}

namespace Spec

/-- The mainnet's network name and multiplexer. -/
def mainnet : Config :=
  ⟨"/coda/0.0.1/5f704cc0c82e0ed70e873f0893d7e06f148524e3f0bdae2afb02e7819a0c24d1".toUTF8.toList,
    "/coda/mplex/1.0.0".toUTF8.toList⟩

/-- The configuration a call gives, and the timeout a call gives. -/
def configOf : Call → Option Config
  | .config c => some c
  | .mainnet => some mainnet
  | .timeout _ => none

def timeoutOf : Call → Option Nat
  | .timeout t => some t
  | _ => none

/-- `x` is in force after the calls: one call gave it and no later one gave another, or no call gave any. -/
def InForce {α : Type} (first : α) (f : Call → Option α) (calls : List Call) (x : α) : Prop :=
  (∃ before c after, calls = before ++ c :: after ∧ f c = some x ∧ ∀ c' ∈ after, f c' = none) ∨
  ((∀ c ∈ calls, f c = none) ∧ x = first)

end Spec

open Spec

theorem mainnet_eq : Config.mainnet = Spec.mainnet := by decide +kernel

theorem inForce_snoc_some {α : Type} {first : α} {f : Call → Option α} {calls : List Call} {c : Call} {x : α}
    (h : f c = some x) : InForce first f (calls ++ [c]) x := .inl ⟨calls, c, [], rfl, h, by simp⟩

theorem inForce_snoc_none {α : Type} {first : α} {f : Call → Option α} {calls : List Call} {c : Call} {x : α}
    (h : f c = none) (hi : InForce first f calls x) : InForce first f (calls ++ [c]) x := by
  rcases hi with ⟨b, d, a, rfl, h1, h2⟩ | ⟨h1, h2⟩
  · refine .inl ⟨b, d, a ++ [c], by simp, h1, fun c' hc => ?_⟩
    rw [List.mem_append, List.mem_singleton] at hc
    rcases hc with hc | rfl
    · exact h2 _ hc
    · exact h
  · refine .inr ⟨fun c' hc => ?_, h2⟩
    rw [List.mem_append, List.mem_singleton] at hc
    rcases hc with hc | rfl
    · exact h1 _ hc
    · exact h

/-- At most one value is in force. -/
theorem inForce_unique {α : Type} {first : α} {f : Call → Option α} {calls : List Call} {x y : α}
    (hx : InForce first f calls x) (hy : InForce first f calls y) : x = y := by
  have key : ∀ z, InForce first f calls z → z = ((calls.filterMap f).getLast?).getD first := by
    rintro z (⟨b, c, a, rfl, h1, h2⟩ | ⟨h1, rfl⟩)
    · have : a.filterMap f = [] := List.filterMap_eq_nil_iff.mpr h2
      rw [List.filterMap_append, List.filterMap_cons, h1, this]; simp
    · rw [List.filterMap_eq_nil_iff.mpr h1]; rfl
  rw [key x hx, key y hy]

theorem calls_spec (E : Env Key PeerId) (key : Key) (c0 : Config) (calls : List Call) :
    ∃ c t, InForce c0 configOf calls c ∧ InForce 60 timeoutOf calls t ∧
      calls.foldl (Builder.call E) (Builder.newWithKeyAndConfig E key c0) =
        ⟨E.blake2b c.rendezvous, c.mplexName, key, t, E.peerId key⟩ := by
  have go : ∀ (calls pre : List Call) (c : Config) (t : Nat), InForce c0 configOf pre c → InForce 60 timeoutOf pre t →
      ∃ c' t', InForce c0 configOf (pre ++ calls) c' ∧ InForce 60 timeoutOf (pre ++ calls) t' ∧
        calls.foldl (Builder.call E) ⟨E.blake2b c.rendezvous, c.mplexName, key, t, E.peerId key⟩ =
          ⟨E.blake2b c'.rendezvous, c'.mplexName, key, t', E.peerId key⟩ := by
    intro calls
    induction calls with
    | nil => intro pre c t h1 h2; exact ⟨c, t, by simpa using h1, by simpa using h2, rfl⟩
    | cons d calls ih =>
      intro pre c t h1 h2
      rw [show pre ++ d :: calls = (pre ++ [d]) ++ calls by simp]
      cases d with
      | config c' =>
        exact ih (pre ++ [.config c']) c' t (inForce_snoc_some rfl) (inForce_snoc_none rfl h2)
      | mainnet =>
        have := ih (pre ++ [.mainnet]) Spec.mainnet t (inForce_snoc_some rfl) (inForce_snoc_none rfl h2)
        rw [← mainnet_eq] at this
        exact this
      | timeout t' =>
        exact ih (pre ++ [.timeout t']) c t' (inForce_snoc_none rfl h1) (inForce_snoc_some rfl)
  exact go calls [] c0 60 (.inr ⟨by simp, rfl⟩) (.inr ⟨by simp, rfl⟩)

/-- **C100.** However a builder is configured, `build` gives, from the socket upwards: the private network named by the
configuration given last, authentication with the key the builder was made with, the multiplexer of that
configuration, and the timeout given last (60 seconds if none was); and the peer id of the key.  It fails only if the
DNS configuration cannot be read. -/
theorem C100_build (E : Env Key PeerId) (key : Key) (c0 : Config) (calls : List Call) :
    ∃ c t, InForce c0 configOf calls c ∧ InForce 60 timeoutOf calls t ∧
      (calls.foldl (Builder.call E) (Builder.newWithKeyAndConfig E key c0)).build true =
        some ([.privateNetwork (E.blake2b c.rendezvous), .noiseXX key, .multiplex c.mplexName, .timeout t],
          E.peerId key) ∧
      (calls.foldl (Builder.call E) (Builder.newWithKeyAndConfig E key c0)).build false = none := by
  obtain ⟨c, t, h1, h2, h3⟩ := calls_spec E key c0 calls
  exact ⟨c, t, h1, h2, by rw [h3]; rfl, by rw [h3]; rfl⟩

/-- A configuration for mainnet, replaced by another network, with the timeout set twice. -/
example : InForce Config.default configOf [.timeout 5, .mainnet, .config ⟨[1], [2]⟩, .timeout 9] ⟨[1], [2]⟩ ∧
    InForce 60 timeoutOf [.timeout 5, .mainnet, .config ⟨[1], [2]⟩, .timeout 9] 9 :=
  ⟨.inl ⟨[.timeout 5, .mainnet], _, [.timeout 9], rfl, rfl, by simp [configOf]⟩,
    .inl ⟨[.timeout 5, .mainnet, .config ⟨[1], [2]⟩], _, [], rfl, rfl, by simp⟩⟩

/-- Which private network the transport is in. -/
def networkKey : Option (List (Layer Key) × PeerId) → Option Bytes
  | some (.privateNetwork k :: _, _) => some k
  | _ => none

/-- **C100.** Two nodes whose builders were given the same network name last are in the same private network, whatever
else was set; if they are in the same private network, the names are the same or they are a collision of Blake2b.
(`pnet` lets two ends talk exactly if their keys are equal.) -/
theorem C100_network (E : Env Key PeerId) (k k' : Key) (calls calls' : List Call) (c c' : Config)
    (h : InForce Config.default configOf calls c) (h' : InForce Config.default configOf calls' c') :
    let key := networkKey ((calls.foldl (Builder.call E) (Builder.newWithKey E k)).build true)
    let key' := networkKey ((calls'.foldl (Builder.call E) (Builder.newWithKey E k')).build true)
    (∃ psk, key = some psk ∧ psk.length = 32) ∧
    (c.rendezvous = c'.rendezvous → key = key') ∧
    (key = key' → c.rendezvous = c'.rendezvous ∨
      (c.rendezvous ≠ c'.rendezvous ∧ E.blake2b c.rendezvous = E.blake2b c'.rendezvous)) := by
  intro key key'
  obtain ⟨d, t, h1, _, h3⟩ := calls_spec E k Config.default calls
  obtain ⟨d', t', h1', _, h3'⟩ := calls_spec E k' Config.default calls'
  have e1 : key = some (E.blake2b c.rendezvous) := by
    show networkKey ((calls.foldl (Builder.call E) (Builder.newWithKeyAndConfig E k Config.default)).build true) = _
    rw [h3, inForce_unique h h1]; rfl
  have e2 : key' = some (E.blake2b c'.rendezvous) := by
    show networkKey ((calls'.foldl (Builder.call E) (Builder.newWithKeyAndConfig E k' Config.default)).build true) = _
    rw [h3', inForce_unique h' h1']; rfl
  rw [e1, e2]
  refine ⟨⟨_, rfl, E.blake2b_length _⟩, fun h => by rw [h], fun h => ?_⟩
  by_cases hc : c.rendezvous = c'.rendezvous
  · exact .inl hc
  · exact .inr ⟨hc, Option.some.inj h⟩

example : InForce Config.default configOf [.timeout 1, .mainnet] Spec.mainnet ∧
    InForce Config.default configOf [.config Spec.mainnet, .timeout 7] Spec.mainnet ∧
    InForce Config.default configOf [] Config.default ∧ Config.default.rendezvous ≠ Spec.mainnet.rendezvous :=
  ⟨.inl ⟨[.timeout 1], _, [], rfl, rfl, by simp⟩, .inl ⟨[], _, [.timeout 7], rfl, rfl, by simp [configOf]⟩,
    .inr ⟨by simp, rfl⟩, by decide +kernel⟩

end MinaRs.P2P
