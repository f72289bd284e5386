import Verif.Wallet.Call
import Verif.Wallet.QueryProps
import Verif.Json.SameLemmas
import Verif.Json.DocPrint

/-!
# C108: a wallet function sends one request and returns the node's answer
-/

namespace MinaRs.Wallet

open MinaRs.Text
open Json (J Floats escapeChar hexChar parse print asValue Sorted)

/-! ## Specification: JSON strings (RFC 8259, section 7) -/

/-- Four hexadecimal digits. -/
def Spec.unit : Text → Option (Nat × Text)
  | a :: b :: c :: d :: rest =>
    match hexDigit a, hexDigit b, hexDigit c, hexDigit d with
    | some a, some b, some c, some d => some (4096 * a + 256 * b + 16 * c + d, rest)
    | _, _, _, _ => none
  | _ => none

/-- The text after the opening quote of a string is a string with this content, followed by this rest.  Pairs of surrogates are
left out. -/
inductive Spec.ReadsString : Text → Text → Text → Prop
  | done (rest : Text) : ReadsString ('"' :: rest) [] rest
  | plain (c : Char) (t s rest : Text) : c ≠ '"' → c ≠ '\\' → 32 ≤ c.toNat → ReadsString t s rest → ReadsString (c :: t) (c :: s) rest
  | escape (c e : Char) (t s rest : Text) : escaped c = some e → ReadsString t s rest → ReadsString ('\\' :: c :: t) (e :: s) rest
  | unicode (u t s rest : Text) (n : Nat) : unit u = some (n, t) → (h : n.isValidChar) → ReadsString t s rest →
      ReadsString ('\\' :: 'u' :: u) (Char.ofNat n :: s) rest

/-- The body is a JSON object with the one member `query`, which is this text. -/
def Spec.Says (body query : Text) : Prop := ∃ t, body = "{\"query\":\"".toList ++ t ∧ ReadsString t query ['}']

open Spec

theorem hexDigit_hexChar (n : Nat) (h : n < 16) : hexDigit (hexChar n) = some n := by
  revert n
  decide +kernel

theorem reads_unit (u : Text) (c : Char) (t s rest : Text) (hu : unit u = some (c.toNat, t)) (h : ReadsString t s rest) :
    ReadsString ('\\' :: 'u' :: u) (c :: s) rest := by
  have hv : c.toNat.isValidChar := c.valid
  have := ReadsString.unicode u t s rest c.toNat hu hv h
  rw [Char.ofNat_toNat] at this
  exact this

theorem reads_escape (c : Char) (t s rest : Text) (h : ReadsString t s rest) : ReadsString (escapeChar c ++ t) (c :: s) rest := by
  have eqc : ∀ n, c.toNat = n → c = Char.ofNat n := by
    intro n hn
    rw [← hn, Char.ofNat_toNat]
  unfold escapeChar
  split
  · rename_i hc; subst hc; exact .escape _ _ _ _ _ rfl h
  split
  · rename_i hc; subst hc; exact .escape _ _ _ _ _ rfl h
  split
  · rename_i hc; rw [eqc _ hc]; exact .escape _ _ _ _ _ rfl h
  split
  · rename_i hc; rw [eqc _ hc]; exact .escape _ _ _ _ _ rfl h
  split
  · rename_i hc; rw [eqc _ hc]; exact .escape _ _ _ _ _ rfl h
  split
  · rename_i hc; rw [eqc _ hc]; exact .escape _ _ _ _ _ rfl h
  split
  · rename_i hc; rw [eqc _ hc]; exact .escape _ _ _ _ _ rfl h
  split
  · rename_i hlt
    have h0 : hexDigit '0' = some 0 := by decide
    have hu : unit ('0' :: '0' :: hexChar (c.toNat / 16) :: hexChar (c.toNat % 16) :: t) = some (c.toNat, t) := by
      simp only [unit, h0, hexDigit_hexChar _ (show c.toNat / 16 < 16 by omega), hexDigit_hexChar _ (show c.toNat % 16 < 16 by omega)]
      congr 2
      omega
    exact reads_unit _ c t s rest hu h
  · rename_i h1 h2 _ _ _ _ _ h3
    exact .plain c _ _ _ h1 h2 (by omega) h

theorem body_says (q : Text) : Says (body q) q := by
  have e : "\"}".toList = ['"', '}'] := by decide +kernel
  refine ⟨q.flatMap escapeChar ++ ['"', '}'], ?_, ?_⟩
  · unfold body
    rw [e]
    exact List.append_assoc _ _ _
  · clear e
    induction q with
    | nil => exact .done _
    | cons c q ih =>
      rw [List.flatMap_cons, List.append_assoc]
      exact reads_escape c _ _ _ ih

theorem escaped_not_u {c e : Char} (h : escaped c = some e) : c ≠ 'u' := by
  rintro rfl
  revert h
  decide +revert

theorem reads_unique (t s s' rest rest' : Text) (h : ReadsString t s rest) (h' : ReadsString t s' rest') : s = s' ∧ rest = rest' := by
  induction h generalizing s' with
  | done rest =>
    cases h' with
    | done => exact ⟨rfl, rfl⟩
    | plain _ _ _ _ h1 => exact absurd rfl h1
  | plain c t s rest h1 h2 h3 _ ih =>
    cases h' with
    | done => exact absurd rfl h1
    | plain _ _ _ _ _ _ _ h => obtain ⟨rfl, rfl⟩ := ih _ h; exact ⟨rfl, rfl⟩
    | escape => exact absurd rfl h2
    | unicode => exact absurd rfl h2
  | escape c e t s rest h1 _ ih =>
    cases h' with
    | plain _ _ _ _ _ h2 => exact absurd rfl h2
    | escape _ e' _ _ _ h2 h =>
      obtain ⟨rfl, rfl⟩ := ih _ h
      rw [h1] at h2
      cases h2
      exact ⟨rfl, rfl⟩
    | unicode => exact absurd rfl (escaped_not_u h1)
  | unicode u t s rest n h1 hv _ ih =>
    cases h' with
    | plain _ _ _ _ _ h2 => exact absurd rfl h2
    | escape _ _ _ _ _ h2 => exact absurd rfl (escaped_not_u h2)
    | unicode _ _ _ _ _ h2 _ h =>
      rw [h1] at h2
      cases h2
      obtain ⟨rfl, rfl⟩ := ih _ h
      exact ⟨rfl, rfl⟩

/-- **C108.** The body of a request is JSON that says the query, and nothing else, whatever characters are in it. -/
theorem C108_body (q q' : Text) : Says (body q) q' ↔ q' = q := by
  constructor
  · rintro ⟨t, h1, h2⟩
    obtain ⟨t', h1', h2'⟩ := body_says q
    rw [h1] at h1'
    rw [List.append_cancel_left h1'] at h2
    exact (reads_unique _ _ _ _ _ h2 h2').1
  · rintro rfl
    exact body_says _

/-- What a call asks a node for. -/
def Spec.Means : WalletCall → List Tok → Prop
  | .accountInfo key, ts => ts = account key
  | .lockAccount key, ts => ts = Spec.lockAccount key
  | .unlockAccount key password, ts => ts = Spec.unlockAccount key password
  | .sendPayment p, ts => ∃ fee amount feeText amountText, Stands p.fee fee ∧ Stands p.amount amount ∧
      IsDecimalOf feeText fee ∧ IsDecimalOf amountText amount ∧ ts = Spec.sendPayment feeText amountText p.to p.from

/-- The texts of a call stand for themselves inside a GraphQL string. -/
def Spec.PlainCall : WalletCall → Prop
  | .accountInfo key => Plain key
  | .lockAccount key => Plain key
  | .unlockAccount key password => Plain key ∧ Plain password
  | .sendPayment p => Plain p.to ∧ Plain p.from

/-- The numbers of a call are 64-bit numbers. -/
def Spec.Numbers : WalletCall → Prop
  | .sendPayment p => ∃ fee amount, fee < 2 ^ 64 ∧ amount < 2 ^ 64 ∧ Stands p.fee fee ∧ Stands p.amount amount
  | _ => True

/-- The call returns a text that says the same as this document, with the members of each object in the order of their names. -/
def Spec.Returns (F : Floats) (j : J) (e : Ending) : Prop :=
  ∃ t k, e = .resolved t ∧ Json.Grammar.Says F.read t k ∧ Json.Grammar.Same j k ∧ Sorted k

theorem says_print (F : Floats) (j : J) (h : Json.Grammar.Plain j) : Json.Grammar.Says F.read (print F j) j :=
  ⟨[], print F j, [], by simp, (fun c h => by cases h), Json.print_value F j h, (fun c h => by cases h)⟩

/-- The one request, and the answer of the node. -/
theorem post_result (node : Node) (F : Floats) (endpoint q : Text) :
    (post node F endpoint q).requests = [(endpoint, body q)] ∧
    (∀ a j, node endpoint (body q) = some a → Json.Grammar.Says F.read a j → Json.Grammar.depth j ≤ 127 → Json.Grammar.Plain j →
      Returns F j (post node F endpoint q).ending) ∧
    ((∀ a, node endpoint (body q) = some a → parse F a = none) → (post node F endpoint q).ending = .aborted) := by
  refine ⟨rfl, ?_, ?_⟩
  · intro a j h1 h2 h3 h4
    have h5 : parse F a = some j := (Json.parse_iff F a j).mpr ⟨h2, h3⟩
    refine ⟨print F (asValue j), asValue j, ?_, says_print F _ ((Json.asValue_flat j).1 h4), (Json.same_sorted_iff j _).mpr rfl⟩
    simp only [post, h1, h5]
  · intro h
    unfold post
    simp only
    split
    · rfl
    · rename_i a ha
      rw [h a ha]

/-- **C108.** A call with plain texts and proper numbers makes one request, to the endpoint it was given; the request is JSON that
asks for just what was called; and when the node answers with JSON (nested at most 127 deep, with integers of 64 bits) the call returns
JSON that says the same. -/
theorem C108_answer_partial (node : Node) (F : Floats) (endpoint : Text) (c : WalletCall)
    (hp : PlainCall c) (hn : Numbers c) : ∃ b q ts, (walletCall node F endpoint c).requests = [(endpoint, b)] ∧
      Says b q ∧ tokens q = some ts ∧ Means c ts ∧
      ∀ a j, node endpoint b = some a → Json.Grammar.Says F.read a j → Json.Grammar.depth j ≤ 127 → Json.Grammar.Plain j →
        Returns F j (walletCall node F endpoint c).ending := by
  cases c with
  | accountInfo key =>
    exact ⟨_, _, _, rfl, body_says _, account_tokens key hp, rfl, (post_result node F endpoint _).2.1⟩
  | lockAccount key =>
    exact ⟨_, _, _, rfl, body_says _, lock_tokens key hp, rfl, (post_result node F endpoint _).2.1⟩
  | unlockAccount key password =>
    exact ⟨_, _, _, rfl, body_says _, unlock_tokens key password hp.1 hp.2, rfl, (post_result node F endpoint _).2.1⟩
  | sendPayment p =>
    obtain ⟨q, hq⟩ := (C82_sent_iff p).mpr hn
    obtain ⟨fee, amount, ft, am, h1, h2, h3, h4, h5⟩ := C82_payment_partial p hp.1 hp.2 q hq
    refine ⟨body q, q, _, ?_, body_says _, h5, ⟨fee, amount, ft, am, h1, h2, h3, h4, rfl⟩, ?_⟩
    · simp only [walletCall, hq]
      rfl
    · simp only [walletCall, hq]
      exact (post_result node F endpoint _).2.1

/-- **C108.** A payment whose fee or amount is no 64-bit number is rejected, and nothing is sent; no other call is rejected. -/
theorem C108_rejected (node : Node) (F : Floats) (endpoint : Text) (c : WalletCall) :
    ((walletCall node F endpoint c).ending = .rejected ↔ ¬ Numbers c) ∧
    (¬ Numbers c → (walletCall node F endpoint c).requests = []) := by
  have hpost : ∀ q, (post node F endpoint q).ending ≠ .rejected := by
    intro q h
    unfold post at h
    simp only at h
    split at h
    · cases h
    · split at h <;> cases h
  cases c with
  | accountInfo key => exact ⟨⟨fun h => absurd h (hpost _), fun h => absurd trivial h⟩, fun h => absurd trivial h⟩
  | lockAccount key => exact ⟨⟨fun h => absurd h (hpost _), fun h => absurd trivial h⟩, fun h => absurd trivial h⟩
  | unlockAccount key password => exact ⟨⟨fun h => absurd h (hpost _), fun h => absurd trivial h⟩, fun h => absurd trivial h⟩
  | sendPayment p =>
    have hs := C82_sent_iff p
    simp only [walletCall, Numbers]
    rw [← hs]
    cases hq : paymentQuery p with
    | error e =>
      refine ⟨⟨fun _ => ?_, fun _ => rfl⟩, fun _ => rfl⟩
      rintro ⟨q, h⟩
      cases h
    | ok q => exact ⟨⟨fun h => absurd h (hpost _), fun h => absurd ⟨q, rfl⟩ h⟩, fun h => absurd ⟨q, rfl⟩ h⟩

/-- **C108.** The page without an endpoint always asks the node on the same machine. -/
theorem C108_local (node : Node) (F : Floats) (c : WalletCall) :
    ∀ r ∈ (mvpCall node F c).requests, r.1 = "http://localhost:3085/graphql".toList := by
  intro r hr
  have hpost : ∀ q, r ∈ (post node F localNode q).requests → r.1 = localNode := by
    intro q h
    rw [(post_result node F localNode q).1] at h
    rw [List.mem_singleton.mp h]
  unfold mvpCall walletCall at hr
  cases c with
  | sendPayment p =>
    simp only at hr
    split at hr
    · cases hr
    · exact hpost _ hr
  | _ => exact hpost _ hr

/-- **C108 fails** when the request fails, or the answer is no JSON or nested too deep: whatever the call, if it is not rejected the
program aborts instead of telling the page. -/
theorem C108_unreachable_fails (node : Node) (F : Floats) (endpoint : Text) (c : WalletCall)
    (hn : Numbers c) (hf : ∀ b a, node endpoint b = some a → ∀ j, Json.Grammar.Says F.read a j → 127 < Json.Grammar.depth j) :
    (walletCall node F endpoint c).ending = .aborted := by
  have hp := fun q => (post_result node F endpoint q).2.2 (fun a ha => by
    cases e : parse F a with
    | none => rfl
    | some j =>
      obtain ⟨h1, h2⟩ := (Json.parse_iff F a j).mp e
      have h3 := hf _ a ha j h1
      exact absurd h3 (Nat.not_lt.mpr h2))
  cases c with
  | sendPayment p =>
    obtain ⟨q, hq⟩ := (C82_sent_iff p).mpr hn
    simp only [walletCall, hq]
    exact hp q
  | _ => exact hp _

/-- **C108.** What is returned is determined by what the node's answer says, and is the same for answers that say the same. -/
theorem C108_determined (F : Floats) (j j' : J) (e e' : Ending) (hs : Json.Grammar.Same j j') (h : Returns F j e) (h' : Returns F j' e') :
    ∃ t t' k, e = .resolved t ∧ e' = .resolved t' ∧ Json.Grammar.Says F.read t k ∧ Json.Grammar.Says F.read t' k := by
  obtain ⟨t, k, rfl, h1, h2⟩ := h
  obtain ⟨t', k', rfl, h1', h2'⟩ := h'
  have hk := (Json.same_sorted_iff j k).mp h2
  have hk' := (Json.same_sorted_iff j' k').mp h2'
  rw [hk] at h1
  rw [hk', ← Json.asValue_eq_of_same hs] at h1'
  exact ⟨t, t', asValue j, rfl, rfl, h1, h1'⟩

/-- A node that answers with an error object. -/
def sampleNode : Node := fun _ _ => some "{\"data\": null, \"at\": [1, -2] }\n".toList

/-- A payment that is sent, one that is rejected, and a node that cannot be reached. -/
example :
    let F : Floats := ⟨fun _ => [], fun _ => none⟩
    (walletCall sampleNode F "u".toList (.sendPayment samplePayment)).ending = .resolved "{\"at\":[1,-2],\"data\":null}".toList ∧
    (walletCall sampleNode F "u".toList
      (.sendPayment { samplePayment with fee := .string "1.5".toList })) = ⟨[], .rejected⟩ ∧
    (walletCall (fun _ _ => none) F "u".toList (.lockAccount "B62".toList)).ending = .aborted ∧
    PlainCall (.sendPayment samplePayment) ∧ Numbers (.sendPayment samplePayment) := by
  have hn : Numbers (.sendPayment samplePayment) := by
    refine (C82_sent_iff samplePayment).mp ?_
    cases h : paymentQuery samplePayment with
    | ok q => exact ⟨q, rfl⟩
    | error e =>
      have : (paymentQuery samplePayment).toOption.isSome = true := by decide +kernel
      rw [h] at this
      cases this
  have hp : PlainCall (.sendPayment samplePayment) := (by decide +kernel : Plain samplePayment.to ∧ Plain samplePayment.from)
  refine ⟨?_, ?_, rfl, hp, hn⟩
  · obtain ⟨q, hq⟩ := (C82_sent_iff samplePayment).mpr hn
    simp only [walletCall, hq, post, sampleNode]
    decide +kernel
  · simp only [walletCall, paymentQuery, show u64 (.string "1.5".toList) = .error .invalidDigit by decide +kernel]

example : body "a\"\n".toList = "{\"query\":\"a\\\"\\n\"}".toList ∧ body [Char.ofNat 1] = "{\"query\":\"\\u0001\"}".toList := by
  decide +kernel

end MinaRs.Wallet
