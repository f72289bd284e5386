import Verif.Wallet.Query
import Verif.Wallet.Spec
import Verif.Base.TextLemmas
import Verif.Json.Model

/-! # Properties of the wallet requests (C82) -/

namespace MinaRs.Wallet

open MinaRs.Text Spec

theorem feed_append (st : State) (a b : Text) : feed st (a ++ b) =
    match feed st a with
    | none => none
    | some (ts, st') => (feed st' b).map fun r => (ts ++ r.1, r.2) := by
  induction a generalizing st with
  | nil => simp [feed]
  | cons c a ih =>
    rw [List.cons_append, feed, feed]
    cases next st c with
    | none => rfl
    | some r =>
      obtain ⟨ts, st'⟩ := r
      simp only
      rw [ih]
      cases feed st' a with
      | none => rfl
      | some r =>
        obtain ⟨ts', st''⟩ := r
        simp only [Option.map_some]
        cases feed st'' b with
        | none => rfl
        | some r => simp

theorem feed_plain (read s : Text) (h : Plain s) : feed (.str read) s = some ([], .str (read ++ s)) := by
  induction s generalizing read with
  | nil => simp [feed]
  | cons c s ih =>
    obtain ⟨h1, h2, h3⟩ := h c List.mem_cons_self
    rw [feed, next, fromStr, if_neg h1, if_neg h2, if_neg (by omega)]
    simp only
    rw [ih _ (fun d hd => h d (List.mem_cons_of_mem _ hd))]
    simp

/-- A plain text between quotes is one string token. -/
theorem feed_string (s : Text) (c : Char) (hc : c ≠ '"') (h : Plain s) (rest : Text) :
    feed .quote (s ++ '"' :: c :: rest) = (feed .start (c :: rest)).map fun r => (.str s :: r.1, r.2) := by
  cases s with
  | nil =>
    rw [List.nil_append, feed, next, if_pos rfl]
    simp only [feed, next]
    rw [if_neg hc]
    cases fromStart c with
    | none => rfl
    | some r =>
      obtain ⟨ts, st⟩ := r
      simp only [Option.map_some]
      cases feed st rest with
      | none => rfl
      | some r => rfl
  | cons d s =>
    obtain ⟨h1, h2, h3⟩ := h d List.mem_cons_self
    rw [List.cons_append, feed, next, if_neg h1, fromStr, if_neg h1, if_neg h2, if_neg (by omega)]
    simp only
    rw [feed_append, feed_plain _ _ (fun d hd => h d (List.mem_cons_of_mem _ hd))]
    simp only [List.nil_append, List.cons_append]
    rw [feed, next, fromStr, if_pos rfl]
    simp only
    cases feed .start (c :: rest) with
    | none => rfl
    | some r => rfl

/-- The same between a fixed beginning and the rest. -/
theorem feed_field {pre : Text} {ts : List Tok} (hp : feed .start pre = some (ts, .quote)) (s : Text) (h : Plain s)
    (c : Char) (hc : c ≠ '"') (rest : Text) :
    feed .start (pre ++ s ++ '"' :: c :: rest) = (feed .start (c :: rest)).map fun r => (ts ++ .str s :: r.1, r.2) := by
  rw [List.append_assoc, feed_append, hp]
  simp only
  rw [feed_string s c hc h]
  cases feed .start (c :: rest) with
  | none => rfl
  | some r => rfl

theorem plain_decimal (k : Nat) : Plain (decimal k) := by
  intro c hc
  have := decimal_digits k c hc
  refine ⟨?_, ?_, ?_⟩
  · rintro rfl; revert this; decide
  · rintro rfl; revert this; decide
  · have h1 : '0'.toNat ≤ c.toNat := this.1
    have : '0'.toNat = 48 := by decide
    omega

/-- Two quotes, or a closing quote: the token before is the text up to the first quote. -/
theorem feed_quote_head (a rest : Text) (h : Plain a) (ts : List Tok) (st : State)
    (hf : feed .quote (a ++ '"' :: rest) = some (ts, st)) (hr : rest ≠ []) : ts.head? = some (.str a) := by
  cases a with
  | nil =>
    cases rest with
    | nil => exact absurd rfl hr
    | cons c rest =>
      by_cases hc : c = '"'
      · subst hc
        rw [List.nil_append, feed, next, if_pos rfl] at hf
        simp only [feed, next, if_pos] at hf
        cases hf
      · have := feed_string [] c hc h rest
        rw [this] at hf
        cases hx : feed .start (c :: rest) with
        | none => rw [hx] at hf; cases hf
        | some r =>
          rw [hx] at hf
          simp only [Option.map_some, Option.some.injEq, Prod.mk.injEq] at hf
          rw [← hf.1]; rfl
  | cons d s =>
    obtain ⟨h1, h2, h3⟩ := h d List.mem_cons_self
    rw [List.cons_append, feed, next, if_neg h1, fromStr, if_neg h1, if_neg h2, if_neg (by omega)] at hf
    simp only at hf
    rw [feed_append, feed_plain _ _ (fun d hd => h d (List.mem_cons_of_mem _ hd))] at hf
    simp only [List.nil_append, List.cons_append] at hf
    rw [feed, next, fromStr, if_pos rfl] at hf
    simp only at hf
    cases hx : feed .start rest with
    | none => rw [hx] at hf; cases hf
    | some r =>
      rw [hx] at hf
      simp only [Option.map_some, Option.some.injEq, Prod.mk.injEq, List.nil_append, List.cons_append] at hf
      rw [← hf.1]; rfl

/-! ## The fixed parts of the requests -/

theorem pre_payment : feed .start "mutation MyMutation {  \n            sendPayment(input: {fee: \"".toList =
    some ([n "mutation", n "MyMutation", .punct '{', n "sendPayment", .punct '(', n "input", .punct ':', .punct '{',
      n "fee", .punct ':'], .quote) := by decide +kernel

theorem pre_amount : feed .start ", amount: \"".toList = some ([n "amount", .punct ':'], .quote) := by decide +kernel
theorem pre_to : feed .start ", to: \"".toList = some ([n "to", .punct ':'], .quote) := by decide +kernel
theorem pre_from : feed .start ", from: \"".toList = some ([n "from", .punct ':'], .quote) := by decide +kernel
theorem pre_password : feed .start ", password: \"".toList = some ([n "password", .punct ':'], .quote) := by decide +kernel

theorem post_payment : feed .start "}) {    payment {      id    }  }\n        }".toList =
    some ([.punct '}', .punct ')', .punct '{', n "payment", .punct '{', n "id", .punct '}', .punct '}', .punct '}'], .start) := by
  decide +kernel

theorem pre_lock : feed .start "mutation MyMutation {  \n            lockAccount(input: {publicKey: \"".toList =
    some ([n "mutation", n "MyMutation", .punct '{', n "lockAccount", .punct '(', n "input", .punct ':', .punct '{',
      n "publicKey", .punct ':'], .quote) := by decide +kernel

theorem pre_unlock : feed .start "mutation MyMutation {  \n            unlockAccount(input: {publicKey: \"".toList =
    some ([n "mutation", n "MyMutation", .punct '{', n "unlockAccount", .punct '(', n "input", .punct ':', .punct '{',
      n "publicKey", .punct ':'], .quote) := by decide +kernel

theorem post_lock : feed .start "}) {    account {      locked    }  }\n        }".toList =
    some ([.punct '}', .punct ')', .punct '{', n "account", .punct '{', n "locked", .punct '}', .punct '}', .punct '}'], .start) := by
  decide +kernel

theorem pre_account : feed .start "query MyQuery {  \n            account(publicKey: \"".toList =
    some ([n "query", n "MyQuery", .punct '{', n "account", .punct '(', n "publicKey", .punct ':'], .quote) := by
  decide +kernel

theorem post_account : feed .start ") { balance { total } inferredNonce locked  }\n        }".toList =
    some ([.punct ')', .punct '{', n "balance", .punct '{', n "total", .punct '}', n "inferredNonce", n "locked", .punct '}',
      .punct '}'], .start) := by decide +kernel

/-- One field, then the next part, which begins with a comma or a closing bracket. -/
theorem feed_step {pre part : Text} {ts ts' : List Tok} {st' : State} (hp : feed .start pre = some (ts, .quote))
    (s : Text) (h : Plain s) (hpart : feed .start part = some (ts', st'))
    (hc : ∃ c rest, part = c :: rest ∧ c ≠ '"') :
    feed .start (pre ++ s ++ '"' :: part) = some (ts ++ .str s :: ts', st') := by
  obtain ⟨c, rest, rfl, hc⟩ := hc
  rw [feed_field hp s h c hc rest, hpart]
  rfl

theorem begins {part : Text} {c : Char} {cs : Text} (h : part = c :: cs) (hc : c ≠ '"') (rest : Text) :
    ∃ d more, part ++ rest = d :: more ∧ d ≠ '"' := ⟨c, cs ++ rest, by rw [h]; rfl, hc⟩

theorem comma_amount : "\", amount: \"".toList = '"' :: ", amount: \"".toList := by decide +kernel
theorem comma_to : "\", to: \"".toList = '"' :: ", to: \"".toList := by decide +kernel
theorem comma_from : "\", from: \"".toList = '"' :: ", from: \"".toList := by decide +kernel
theorem comma_password : "\", password: \"".toList = '"' :: ", password: \"".toList := by decide +kernel
theorem close_payment : "\"}) {    payment {      id    }  }\n        }".toList =
    '"' :: "}) {    payment {      id    }  }\n        }".toList := by decide +kernel
theorem close_lock : "\"}) {    account {      locked    }  }\n        }".toList =
    '"' :: "}) {    account {      locked    }  }\n        }".toList := by decide +kernel
theorem close_account : "\") { balance { total } inferredNonce locked  }\n        }".toList =
    '"' :: ") { balance { total } inferredNonce locked  }\n        }".toList := by decide +kernel

theorem begins_amount (rest : Text) : ∃ d more, ", amount: \"".toList ++ rest = d :: more ∧ d ≠ '"' :=
  begins (c := ',') (cs := " amount: \"".toList) (by decide +kernel) (by decide) rest
theorem begins_to (rest : Text) : ∃ d more, ", to: \"".toList ++ rest = d :: more ∧ d ≠ '"' :=
  begins (c := ',') (cs := " to: \"".toList) (by decide +kernel) (by decide) rest
theorem begins_from (rest : Text) : ∃ d more, ", from: \"".toList ++ rest = d :: more ∧ d ≠ '"' :=
  begins (c := ',') (cs := " from: \"".toList) (by decide +kernel) (by decide) rest
theorem begins_password (rest : Text) : ∃ d more, ", password: \"".toList ++ rest = d :: more ∧ d ≠ '"' :=
  begins (c := ',') (cs := " password: \"".toList) (by decide +kernel) (by decide) rest

theorem tokens_of_feed {s : Text} {ts : List Tok} (h : feed .start s = some (ts, .start)) : tokens s = some ts := by
  unfold tokens
  rw [h]
  simp [finish]

/-! ## C82 -/

/-- The number a JavaScript value given for an amount stands for: an integer, or decimal digits, perhaps after one
plus sign. -/
def Stands (v : Js) (k : Nat) : Prop :=
  match v with
  | .bigint z => z = k
  | .number t => ∃ ds, (t = ds ∨ t = '+' :: ds) ∧ ds ≠ [] ∧ (∀ c ∈ ds, IsDigit c) ∧ value ds = k
  | .string t => ∃ ds, (t = ds ∨ t = '+' :: ds) ∧ ds ≠ [] ∧ (∀ c ∈ ds, IsDigit c) ∧ value ds = k
  | .null => False
  | .undefined => False

theorem parseUnsigned_iff (max : Nat) (t : Text) (k : Nat) : parseUnsigned max t = .ok k ↔
    k ≤ max ∧ ∃ ds, (t = ds ∨ t = '+' :: ds) ∧ ds ≠ [] ∧ (∀ c ∈ ds, IsDigit c) ∧ value ds = k := by
  constructor
  · intro h
    obtain ⟨ds, h1, h2, h3, h4, h5⟩ := parseUnsigned_inv h
    exact ⟨h5, ds, h1, h2, h3, h4.symm⟩
  · rintro ⟨hk, ds, h1, h2, h3, rfl⟩
    have hd : parseDigits max 0 ds = .ok (value ds) := by
      rw [parseDigits_ok h3]
      · simp
      · simpa using hk
    rcases h1 with rfl | rfl
    · rw [parseUnsigned_digits h2 h3]; exact hd
    · cases ds with
      | nil => exact absurd rfl h2
      | cons d ds =>
        unfold parseUnsigned
        exact hd

theorem parse_js_iff (max : Nat) (v : Js) (k : Nat) : parseUnsigned max (jsToString v) = .ok k ↔ k ≤ max ∧ Stands v k := by
  cases v with
  | undefined =>
    constructor
    · intro h
      obtain ⟨-, ds, h2, -, h4, -⟩ := (parseUnsigned_iff _ _ _).mp h
      have e : jsToString .undefined = "undefined".toList := rfl
      have e' : "undefined".toList = ['u', 'n', 'd', 'e', 'f', 'i', 'n', 'e', 'd'] := by decide +kernel
      rw [e, e'] at h2
      rcases h2 with h2 | h2
      · exact absurd (h4 ('u') (by rw [← h2]; exact List.mem_cons_self)) (by decide)
      · cases h2
    · rintro ⟨-, h⟩; cases h
  | null =>
    constructor
    · intro h
      obtain ⟨-, ds, h2, -, h4, -⟩ := (parseUnsigned_iff _ _ _).mp h
      have e : jsToString .null = "null".toList := rfl
      have e' : "null".toList = ['n', 'u', 'l', 'l'] := by decide +kernel
      rw [e, e'] at h2
      rcases h2 with h2 | h2
      · exact absurd (h4 ('n') (by rw [← h2]; exact List.mem_cons_self)) (by decide)
      · cases h2
    · rintro ⟨-, h⟩; cases h
  | number t => exact parseUnsigned_iff _ _ _
  | string t => exact parseUnsigned_iff _ _ _
  | bigint z =>
    cases z with
    | ofNat m =>
      change parseUnsigned max (decimal m) = .ok k ↔ k ≤ max ∧ Int.ofNat m = k
      constructor
      · intro h
        obtain ⟨h1, ds, h2, -, -, h5⟩ := (parseUnsigned_iff _ _ _).mp h
        rcases h2 with h2 | h2
        · rw [← h2, value_decimal] at h5
          subst h5
          exact ⟨h1, rfl⟩
        · have := decimal_digits m '+' (by rw [h2]; exact List.mem_cons_self)
          exact absurd this plus_not_digit
      · rintro ⟨h1, h2⟩
        have : m = k := by
          have := Int.ofNat.inj h2
          exact this
        subst this
        exact parseUnsigned_decimal h1
    | negSucc m =>
      change parseUnsigned max ('-' :: decimal (m + 1)) = .ok k ↔ k ≤ max ∧ Int.negSucc m = k
      constructor
      · intro h
        obtain ⟨h1, ds, h2, -, h4, -⟩ := (parseUnsigned_iff _ _ _).mp h
        rcases h2 with h2 | h2
        · exact absurd (h4 '-' (by rw [← h2]; exact List.mem_cons_self)) minus_not_digit
        · cases h2
      · rintro ⟨-, h2⟩; cases h2

theorem u64_iff (v : Js) (k : Nat) : u64 v = .ok k ↔ k ≤ U64_MAX ∧ Stands v k := parse_js_iff _ v k

/-- **C82.** A payment is sent exactly if the fee and the amount stand for 64-bit numbers. -/
theorem C82_sent_iff (p : Payment) : (∃ q, paymentQuery p = .ok q) ↔
    ∃ fee amount, fee < 2 ^ 64 ∧ amount < 2 ^ 64 ∧ Stands p.fee fee ∧ Stands p.amount amount := by
  unfold paymentQuery
  constructor
  · rintro ⟨q, h⟩
    split at h
    · cases h
    rename_i fee hf
    split at h
    · cases h
    rename_i amount ha
    obtain ⟨f1, f2⟩ := (u64_iff _ _).mp hf
    obtain ⟨a1, a2⟩ := (u64_iff _ _).mp ha
    unfold U64_MAX at f1 a1
    exact ⟨fee, amount, by omega, by omega, f2, a2⟩
  · rintro ⟨fee, amount, h1, h2, h3, h4⟩
    rw [(u64_iff p.fee fee).mpr ⟨by unfold U64_MAX; omega, h3⟩, (u64_iff p.amount amount).mpr ⟨by unfold U64_MAX; omega, h4⟩]
    exact ⟨_, rfl⟩

theorem optionalNumber_iff (max : Nat) (v : Js) :
    (∀ n, optionalNumber max (jsToString v) = .ok (some n) ↔ n ≤ max ∧ Stands v n) ∧
    (optionalNumber max (jsToString v) = .ok none ↔ jsToString v = []) := by
  have hp := parse_js_iff max v
  unfold optionalNumber
  cases hj : jsToString v with
  | nil =>
    rw [hj] at hp
    refine ⟨fun n => ?_, by simp⟩
    have he : parseUnsigned max [] ≠ .ok n := by
      intro h
      cases h
    simp only [Except.ok.injEq, reduceCtorEq, false_iff]
    exact fun h => he ((hp n).mpr h)
  | cons c cs =>
    rw [hj] at hp
    simp only
    cases hq : parseUnsigned max (c :: cs) with
    | ok m =>
      refine ⟨fun n => ?_, by simp⟩
      have hn := hp n
      rw [hq] at hn
      simp only [Except.ok.injEq, Option.some.injEq] at hn ⊢
      exact hn
    | error e =>
      refine ⟨fun n => ?_, by simp⟩
      have hn := hp n
      rw [hq] at hn
      simp only [reduceCtorEq, false_iff] at hn ⊢
      exact hn

theorem u32_lt (n : Nat) : n ≤ U32_MAX ↔ n < 2 ^ 32 := by
  unfold U32_MAX; omega

theorem validUntil_other (v : Js) (h1 : v ≠ .null) (h2 : v ≠ .undefined) :
    validUntilU32 v = optionalNumber U32_MAX (jsToString v) := by
  unfold validUntilU32
  generalize U32_MAX = m
  cases v <;> first | rfl | contradiction

/-- **C82.** The expiry is read as the 32-bit number it stands for; it is absent exactly if it is `null`, `undefined` or
printed as the empty text. -/
theorem C82_valid_until (v : Js) :
    (∀ n, validUntilU32 v = .ok (some n) ↔ n < 2 ^ 32 ∧ Stands v n) ∧
    (validUntilU32 v = .ok none ↔ v = .null ∨ v = .undefined ∨ v = .string [] ∨ v = .number []) := by
  have hz : ∀ z : Int, jsToString (.bigint z) ≠ [] := by
    intro z
    cases z with
    | ofNat k => exact decimal_ne_nil k
    | negSucc k => exact List.cons_ne_nil _ _
  by_cases h1 : v = .null
  · subst h1
    exact ⟨fun n => ⟨(fun h => by cases h), (fun h => by cases h.2)⟩, by simp [validUntilU32]⟩
  by_cases h2 : v = .undefined
  · subst h2
    exact ⟨fun n => ⟨(fun h => by cases h), (fun h => by cases h.2)⟩, by simp [validUntilU32]⟩
  obtain ⟨ha, hb⟩ := optionalNumber_iff U32_MAX v
  rw [validUntil_other v h1 h2]
  refine ⟨fun n => by rw [ha n, u32_lt], ?_⟩
  rw [hb]
  cases v with
  | undefined => exact absurd rfl h2
  | null => exact absurd rfl h1
  | number t => show t = [] ↔ _; simp
  | string t => show t = [] ↔ _; simp
  | bigint z => simp [hz z]

example : validUntilU32 (.string "4294967295".toList) = .ok (some 4294967295) ∧
    validUntilU32 (.bigint 7) = .ok (some 7) ∧ validUntilU32 (.string []) = .ok none ∧
    (∃ e, validUntilU32 (.string "4294967296".toList) = .error e) := by
  refine ⟨by decide +kernel, by decide +kernel, rfl, .posOverflow, by decide +kernel⟩

/-- **C82.** What is sent, if the receiver and the sender are plain texts, is a request for exactly this payment.
Missing: other texts, and the nonce, memo and expiry. -/
theorem C82_payment_partial (p : Payment) (hto : Plain p.to) (hfrom : Plain p.from) (q : Text)
    (h : paymentQuery p = .ok q) : ∃ fee amount feeText amountText, Stands p.fee fee ∧ Stands p.amount amount ∧
      IsDecimalOf feeText fee ∧ IsDecimalOf amountText amount ∧
      tokens q = some (sendPayment feeText amountText p.to p.from) := by
  unfold paymentQuery at h
  split at h
  · cases h
  rename_i fee hf
  split at h
  · cases h
  rename_i amount ha
  cases h
  refine ⟨fee, amount, decimal fee, decimal amount, ((u64_iff _ _).mp hf).2, ((u64_iff _ _).mp ha).2,
    isDecimalOf_decimal fee, isDecimalOf_decimal amount, ?_⟩
  have s4 := feed_step pre_from p.from hfrom post_payment ⟨'}', _, rfl, by decide⟩
  rw [List.append_assoc] at s4
  have s3 := feed_step pre_to p.to hto s4 (begins_from _)
  rw [List.append_assoc] at s3
  have s2 := feed_step pre_amount (decimal amount) (plain_decimal amount) s3 (begins_to _)
  rw [List.append_assoc] at s2
  have s1 := feed_step pre_payment (decimal fee) (plain_decimal fee) s2 (begins_amount _)
  rw [comma_amount, comma_to, comma_from, close_payment]
  have := tokens_of_feed s1
  simp only [List.append_assoc, List.cons_append, List.nil_append] at this ⊢
  exact this

theorem lock_tokens (key : Text) (h : Plain key) : tokens (lockQuery key) = some (lockAccount key) := by
  have := tokens_of_feed (feed_step pre_lock key h post_lock ⟨'}', _, rfl, by decide⟩)
  unfold lockQuery
  rw [close_lock]
  exact this

theorem account_tokens (key : Text) (h : Plain key) : tokens (accountQuery key) = some (account key) := by
  have := tokens_of_feed (feed_step pre_account key h post_account ⟨')', _, rfl, by decide⟩)
  unfold accountQuery
  rw [close_account]
  exact this

theorem unlock_tokens (key password : Text) (h : Plain key) (hp : Plain password) :
    tokens (unlockQuery key password) = some (unlockAccount key password) := by
  have s2 := feed_step pre_password password hp post_lock ⟨'}', _, rfl, by decide⟩
  rw [List.append_assoc] at s2
  have s1 := feed_step pre_unlock key h s2 (begins_password _)
  have := tokens_of_feed s1
  unfold unlockQuery
  rw [close_lock, comma_password]
  simp only [List.append_assoc, List.cons_append, List.nil_append] at this ⊢
  exact this

/-- **C82.** The same for locking, unlocking and looking up an account. -/
theorem C82_accounts_partial (key password : Text) (h : Plain key) (hp : Plain password) :
    tokens (lockQuery key) = some (lockAccount key) ∧ tokens (accountQuery key) = some (account key) ∧
    tokens (unlockQuery key password) = some (unlockAccount key password) :=
  ⟨lock_tokens key h, account_tokens key h, unlock_tokens key password h hp⟩

/-- A base58 text is plain. -/
theorem plain_base58 (s : Text) (h : ∀ c ∈ s, c ∈ Codec.alphabet58) : Plain s := by
  intro c hc
  have : ∀ c ∈ Codec.alphabet58, c ≠ '"' ∧ c ≠ '\\' ∧ 32 ≤ c.toNat := by decide +kernel
  exact this c (h c hc)

theorem encode58_alphabet (bs : Bytes) : ∀ c ∈ Codec.encode58 bs, c ∈ Codec.alphabet58 := by
  intro c hc
  obtain ⟨d, -, rfl⟩ := List.mem_map.mp hc
  unfold Codec.char58
  rw [List.getD_eq_getElem?_getD]
  cases h : Codec.alphabet58[d]? with
  | none => exact (by decide +kernel : '1' ∈ Codec.alphabet58)
  | some c => exact List.mem_of_getElem? h

/-- **C82.** For addresses of public keys the request is always the right one. -/
theorem C82_addresses (E : Json.Env) (x y : Bytes) (xo yo : Bool) (p : Payment) (hto : p.to = Json.address E x xo)
    (hfrom : p.from = Json.address E y yo) (q : Text) (h : paymentQuery p = .ok q) :
    ∃ fee amount feeText amountText, Stands p.fee fee ∧ Stands p.amount amount ∧
      IsDecimalOf feeText fee ∧ IsDecimalOf amountText amount ∧
      tokens q = some (sendPayment feeText amountText p.to p.from) :=
  C82_payment_partial p (by rw [hto]; exact plain_base58 _ (encode58_alphabet _))
    (by rw [hfrom]; exact plain_base58 _ (encode58_alphabet _)) q h

theorem stands_unique (v : Js) (a b : Nat) (ha : u64 v = .ok a) (hb : u64 v = .ok b) : a = b := by
  rw [ha] at hb; cases hb; rfl

/-- **C82.** Different payments between plain texts make different requests, as far as the request goes. -/
theorem C82_distinguishes_partial (p p' : Payment) (h1 : Plain p.to) (h2 : Plain p.from) (h1' : Plain p'.to)
    (h2' : Plain p'.from) (q : Text) (h : paymentQuery p = .ok q) (h' : paymentQuery p' = .ok q) :
    p.to = p'.to ∧ p.from = p'.from ∧ (∃ fee, Stands p.fee fee ∧ Stands p'.fee fee) ∧
      ∃ amount, Stands p.amount amount ∧ Stands p'.amount amount := by
  obtain ⟨f, a, ft, am, s1, s2, d1, d2, ht⟩ := C82_payment_partial p h1 h2 q h
  obtain ⟨f', a', ft', am', s1', s2', d1', d2', ht'⟩ := C82_payment_partial p' h1' h2' q h'
  rw [ht] at ht'
  simp only [sendPayment, Option.some.injEq, List.cons.injEq, Tok.str.injEq, true_and, and_true] at ht'
  obtain ⟨e1, e2, e3, e4⟩ := ht'
  have ef : f = f' := by rw [← d1.2.2.1, ← d1'.2.2.1, e1]
  have ea : a = a' := by rw [← d2.2.2.1, ← d2'.2.2.1, e2]
  subst ef ea
  exact ⟨e3, e4, ⟨f, s1, s1'⟩, a, s2, s2'⟩

/-! ## Examples and counterexamples -/

/-- A payment that meets the hypotheses. -/
def samplePayment : Payment :=
  ⟨"B62qr".toList, "B62qs".toList, .number "1000000".toList, .bigint 25, some 3, some "rent".toList, .null⟩

example : Plain samplePayment.to ∧ Plain samplePayment.from := by decide +kernel

example : (paymentQuery samplePayment).map tokens =
    .ok (some (sendPayment "1000000".toList "25".toList "B62qr".toList "B62qs".toList)) := by decide +kernel

example : Plain "correct horse".toList := by decide +kernel

/-- A payment of one unit whose receiver contains a quote. -/
def injected : Payment :=
  ⟨"B62eve\", from: \"B62al\"}) { payment { id } } again: sendPayment(input: {fee: \"1\", amount: \"1000\", to: \"B62eve".toList,
    "B62al".toList, .bigint 1, .bigint 1, none, none, .null⟩

/-- **C82 fails** for a receiver that contains a quote: the one call, for a payment of one unit, asks for two
payments, one of them of a thousand. -/
theorem C82_injection_fails : ∃ (q : Text) (ts : List Tok), paymentQuery injected = .ok q ∧ tokens q = some ts ∧
    ts.count (n "sendPayment") = 2 ∧ [n "amount", .punct ':', .str "1000".toList] <:+: ts := by
  have h : ((paymentQuery injected).toOption.bind tokens).map (fun ts => (ts.count (n "sendPayment"),
      (ts.drop 38).take 3)) = some (2, [n "amount", .punct ':', .str "1000".toList]) := by decide +kernel
  cases hq : paymentQuery injected with
  | error e => rw [hq] at h; cases h
  | ok q =>
    rw [hq] at h
    cases ht : tokens q with
    | none =>
      simp only [Except.toOption, Option.bind_some, ht] at h
      cases h
    | some ts =>
      simp only [Except.toOption, Option.bind_some, ht, Option.map_some, Option.some.injEq, Prod.mk.injEq] at h
      refine ⟨q, ts, rfl, ht, h.1, ?_⟩
      rw [← h.2]
      exact (List.take_prefix 3 _).isInfix.trans (List.drop_suffix 38 ts).isInfix

/-- A comment ends at the end of its line. -/
theorem feed_comment (a rest : Text) (h : ∀ c ∈ a, c ≠ '\n' ∧ c ≠ '\r') : feed .comment (a ++ rest) = feed .comment rest := by
  induction a with
  | nil => rfl
  | cons c a ih =>
    have hc := h c List.mem_cons_self
    rw [List.cons_append, feed]
    simp only [next, hc.1, hc.2, or_self, if_false]
    rw [ih fun c hc => h c (List.mem_cons_of_mem _ hc)]
    cases feed .comment rest with
    | none => rfl
    | some r => rfl

/-- A document can be followed by a comment. -/
theorem feed_then_comment (s : Text) (ts : List Tok) (h : tokens s = some ts) : feed .start (s ++ " #".toList) = some (ts, .comment) := by
  unfold tokens at h
  rw [feed_append]
  cases hf : feed .start s with
  | none => rw [hf] at h; cases h
  | some r =>
    obtain ⟨us, st⟩ := r
    rw [hf] at h
    dsimp only at h ⊢
    cases st with
    | start => cases h; rfl
    | comment => cases h; rfl
    | name read => cases h; rfl
    | int read => cases h; rfl
    | quotes => cases h; rfl
    | quote => cases h
    | str read => cases h
    | escape read => cases h
    | unicode read d v => cases h

theorem post_payment_open : feed .start "}) { payment { id } } ".toList =
    some ([.punct '}', .punct ')', .punct '{', n "payment", .punct '{', n "id", .punct '}', .punct '}'], .start) := by
  decide +kernel

theorem after_comment (sender : Text) (h : ∀ c ∈ sender, c ≠ '\n' ∧ c ≠ '\r') :
    feed .comment ('"' :: (", from: \"".toList ++ (sender ++ '"' :: "}) {    payment {      id    }  }\n        }".toList))) =
      some ([.punct '}'], .start) := by
  have e : '"' :: (", from: \"".toList ++ (sender ++ '"' :: "}) {    payment {      id    }  }\n        }".toList)) =
      ('"' :: ", from: \"".toList) ++ (sender ++ ("\"}) {    payment {      id    }  }".toList ++ "\n        }".toList)) := by
    have : '"' :: "}) {    payment {      id    }  }\n        }".toList =
        "\"}) {    payment {      id    }  }".toList ++ "\n        }".toList := by decide +kernel
    rw [this]; rfl
  rw [e, feed_comment _ _ (by decide +kernel), feed_comment _ _ h, feed_comment _ _ (by decide +kernel)]
  decide +kernel

/-- **C82 fails** for every document: whatever fees, amounts and sender the caller gives, and whatever GraphQL fields someone wants the
node to be asked for, there is a receiver text for which the one request is a payment to any receiver from any sender together
with those fields. -/
theorem C82_any_request_fails (p : Payment) (hfrom : Plain p.from) (hline : '\r' ∉ p.from) (hsent : ∃ q, paymentQuery p = .ok q)
    (receiver sender : Text) (hr : Plain receiver) (hs : Plain sender) (fields : Text) (ts : List Tok) (hf : tokens fields = some ts) :
    ∃ (to q : Text) (fee amount : Nat) (feeText amountText : Text), paymentQuery { p with to := to } = .ok q ∧
      Stands p.fee fee ∧ Stands p.amount amount ∧ IsDecimalOf feeText fee ∧ IsDecimalOf amountText amount ∧
      tokens q = some ((sendPayment feeText amountText receiver sender).dropLast ++ ts ++ [.punct '}']) := by
  obtain ⟨q, h⟩ := hsent
  unfold paymentQuery at h
  split at h
  · cases h
  rename_i fee hfee
  split at h
  · cases h
  rename_i amount hamount
  clear h q
  have hnl : ∀ c ∈ p.from, c ≠ '\n' ∧ c ≠ '\r' := by
    intro c hc
    refine ⟨?_, fun e => hline (e ▸ hc)⟩
    rintro rfl
    exact absurd (hfrom _ hc).2.2 (by decide)
  refine ⟨receiver ++ ("\", from: \"".toList ++ (sender ++ ('"' :: "}) { payment { id } } ".toList ++ (fields ++ " #".toList)))), _, fee, amount,
    decimal fee, decimal amount, by simp only [paymentQuery, hfee, hamount]; rfl, ((u64_iff _ _).mp hfee).2, ((u64_iff _ _).mp hamount).2,
    isDecimalOf_decimal fee, isDecimalOf_decimal amount, ?_⟩
  have s6 : feed .start ("}) { payment { id } } ".toList ++ ((fields ++ " #".toList) ++
      '"' :: (", from: \"".toList ++ (p.from ++ '"' :: "}) {    payment {      id    }  }\n        }".toList)))) =
      some ([.punct '}', .punct ')', .punct '{', n "payment", .punct '{', n "id", .punct '}', .punct '}'] ++ (ts ++ [.punct '}']), .start) := by
    rw [feed_append, post_payment_open]
    dsimp only
    rw [feed_append, feed_then_comment fields ts hf]
    dsimp only
    rw [after_comment p.from hnl]
    rfl
  have s4 := feed_step pre_from sender hs s6 ⟨'}', _, rfl, by decide⟩
  rw [List.append_assoc] at s4
  have s3 := feed_step pre_to receiver hr s4 (begins_from _)
  rw [List.append_assoc] at s3
  have s2 := feed_step pre_amount (decimal amount) (plain_decimal amount) s3 (begins_to _)
  rw [List.append_assoc] at s2
  have s1 := feed_step pre_payment (decimal fee) (plain_decimal fee) s2 (begins_amount _)
  rw [comma_amount, comma_to, comma_from, close_payment]
  have := tokens_of_feed s1
  simp only [List.append_assoc, List.cons_append, List.nil_append] at this ⊢
  rw [this]
  simp [sendPayment]

/-- The hypotheses are met: another payment as the fields. -/
example : Plain samplePayment.from ∧ '\r' ∉ samplePayment.from ∧ (∃ q, paymentQuery samplePayment = .ok q) ∧
    ∃ ts, tokens "again: sendPayment(input: {fee: \"1\", amount: \"1000\", to: \"B62eve\", from: \"B62al\"}) { payment { id } }".toList = some ts ∧
      ts.length = 27 := by
  refine ⟨by decide +kernel, by decide +kernel, ?_, ?_⟩
  · have : (paymentQuery samplePayment).isOk = true := by decide +kernel
    cases h : paymentQuery samplePayment with
    | ok q => exact ⟨q, rfl⟩
    | error e => rw [h] at this; cases this
  · have : (tokens "again: sendPayment(input: {fee: \"1\", amount: \"1000\", to: \"B62eve\", from: \"B62al\"}) { payment { id } }".toList).map
        List.length = some 27 := by decide +kernel
    exact Option.map_eq_some_iff.mp this

/-- **C82 fails** for a password with a backslash: the node is given another password. -/
theorem C82_backslash_fails : tokens (unlockQuery "B62qr".toList "pass\\word\\new".toList) = none ∧
    tokens (unlockQuery "B62qr".toList "pass\\new".toList) = some (unlockAccount "B62qr".toList "pass\new".toList) ∧
    "pass\\new".toList ≠ "pass\new".toList := by decide +kernel

/-- A backslash in a string begins an escape. -/
theorem feed_backslash (a rest : Text) (h : Plain a) : feed .quote (a ++ '\\' :: rest) = feed (.escape a) rest := by
  have map_nil : ∀ o : Option (List Tok × State), (o.map fun r => (([] : List Tok) ++ r.1, r.2)) = o := by
    intro o; cases o <;> rfl
  cases a with
  | nil =>
    rw [List.nil_append, feed]
    exact map_nil _
  | cons c a =>
    have hc := h c List.mem_cons_self
    have ha : Plain a := fun x hx => h x (List.mem_cons_of_mem _ hx)
    rw [List.cons_append, feed]
    have hn : next .quote c = some ([], .str [c]) := by
      have : ¬ (c.toNat < 32 ∧ c ≠ '\t') := fun h => absurd hc.2.2 (by omega)
      simp only [next, fromStr, if_neg hc.1, if_neg hc.2.1, if_neg this, List.nil_append]
    rw [hn]
    dsimp only
    rw [map_nil, feed_append, feed_plain [c] a ha]
    dsimp only
    rw [map_nil, feed]
    exact map_nil _

/-- **C82 fails** for every password with an escape of GraphQL in it: the request states another password, with the character that the
escape stands for; and no request with a backslash before another character is GraphQL. -/
theorem C82_escapes_fails (key a b : Text) (c : Char) (hk : Plain key) (ha : Plain a) (hb : Plain b) (hu : c ≠ 'u') :
    tokens (unlockQuery key (a ++ '\\' :: c :: b)) = ((escaped c).map fun e => unlockAccount key (a ++ e :: b)) ∧
      ∀ e, a ++ e :: b ≠ a ++ '\\' :: c :: b := by
  refine ⟨?_, fun e h => by simpa using congrArg List.length h⟩
  have map_nil : ∀ o : Option (List Tok × State), (o.map fun r => (([] : List Tok) ++ r.1, r.2)) = o := by
    intro o; cases o <;> rfl
  let rest : Text := '"' :: "}) {    account {      locked    }  }\n        }".toList
  have hq : unlockQuery key (a ++ '\\' :: c :: b) = "mutation MyMutation {  \n            unlockAccount(input: {publicKey: \"".toList ++
      key ++ '"' :: (", password: \"".toList ++ (a ++ '\\' :: c :: (b ++ rest))) := by
    unfold unlockQuery
    rw [close_lock, comma_password]
    simp only [rest, List.append_assoc, List.cons_append, List.nil_append]
  have hin := feed_append .start ", password: \"".toList (a ++ '\\' :: c :: (b ++ rest))
  rw [pre_password] at hin
  simp only at hin
  obtain ⟨d, more, hd, hdq⟩ := begins_password (a ++ '\\' :: c :: (b ++ rest))
  have hf := feed_field pre_unlock key hk d hdq more
  rw [← hd, hin, ← hq, feed_backslash a _ ha, feed] at hf
  unfold tokens
  rw [hf]
  simp only [next, if_neg hu]
  cases he : escaped c with
  | none => rfl
  | some e =>
    simp only [Option.map_some]
    rw [map_nil, feed_append, feed_plain _ b hb]
    dsimp only
    have hr : feed (.str (a ++ [e] ++ b)) rest = (feed .start "}) {    account {      locked    }  }\n        }".toList).map
        fun r => ([.str (a ++ [e] ++ b)] ++ r.1, r.2) := by
      simp only [rest]
      rw [feed]
      rfl
    rw [hr, post_lock]
    simp [finish, unlockAccount]

example : Plain "pass".toList ∧ Plain "ew".toList ∧ escaped 'n' = some '\n' ∧ escaped 'w' = none := by decide +kernel

/-- **C82 fails** for every password with a quote: whatever the request says, it does not state that password. -/
theorem C82_quote_fails (key a b : Text) (hk : Plain key) (ha : Plain a) :
    tokens (unlockQuery key (a ++ '"' :: b)) ≠ some (unlockAccount key (a ++ '"' :: b)) := by
  intro h
  have hlen : a ≠ a ++ '"' :: b := by
    intro e
    have := congrArg List.length e
    simp at this
  let rest : Text := b ++ '"' :: "}) {    account {      locked    }  }\n        }".toList
  have hq : unlockQuery key (a ++ '"' :: b) = "mutation MyMutation {  \n            unlockAccount(input: {publicKey: \"".toList ++
      key ++ '"' :: (", password: \"".toList ++ (a ++ '"' :: rest)) := by
    unfold unlockQuery
    rw [close_lock, comma_password]
    simp only [rest, List.append_assoc, List.cons_append, List.nil_append]
  have hin := feed_append .start ", password: \"".toList (a ++ '"' :: rest)
  rw [pre_password] at hin
  simp only at hin
  obtain ⟨d, more, hd, hdq⟩ := begins_password (a ++ '"' :: rest)
  have hf := feed_field pre_unlock key hk d hdq more
  rw [← hd, hin, ← hq] at hf
  cases hx : feed .quote (a ++ '"' :: rest) with
  | none =>
    rw [hx] at hf
    simp only [Option.map_none] at hf
    unfold tokens at h
    rw [hf] at h
    cases h
  | some r =>
    obtain ⟨ts, st⟩ := r
    have hhead := feed_quote_head a rest ha ts st hx (by simp [rest])
    cases ts with
    | nil => cases hhead
    | cons t ts =>
      simp only [List.head?_cons, Option.some.injEq] at hhead
      subst hhead
      rw [hx] at hf
      unfold tokens at h
      rw [hf] at h
      simp only [Option.map_some] at h
      cases hfin : finish st with
      | none => rw [hfin] at h; cases h
      | some fin =>
        rw [hfin] at h
        simp only [Option.map_some, unlockAccount, List.cons_append, List.nil_append, Option.some.injEq, List.cons.injEq,
          true_and, Tok.str.injEq] at h
        exact hlen h.1

/-- **C82 fails** for the nonce, the memo and the expiry: they are never sent. -/
theorem C82_rest_fails (p : Payment) (nonce : Option Nat) (memo : Option Text) (validUntil : Js) :
    paymentQuery { p with nonce := nonce, memo := memo, validUntil := validUntil } = paymentQuery p := rfl

end MinaRs.Wallet
