import Verif.Page.Settings
import Verif.Page.RequestSpec
import Verif.Wallet.QueryProps
import Verif.Json.PrefixProps

/-!
# C104: the page asks the endpoints it was given for the accounts it was given
-/

namespace MinaRs.Page

open Text (Text)
open Json (J Env)
open Wallet (feed_append feed_plain feed_field tokens_of_feed)
open Wallet.Spec (Tok State feed next fromStart tokens Plain n isNameStart isNameContinue)
open Spec

/-! ## Specification -/

/-- The items of a call that sets the endpoints. -/
def Spec.endpoints : Call → Option (List Item)
  | .setApiList items => some items
  | _ => none

/-- The items of a call that sets the accounts. -/
def Spec.accounts : Call → Option (List Item)
  | .setTrackingAccounts items => some items
  | _ => none

/-- What was set last: `ts` are the texts of the last call of a kind, none if there was no such call. -/
def Spec.SetLast (kind : Call → Option (List Item)) (calls : List Call) (ts : List Text) : Prop :=
  (∃ before call after, calls = before ++ call :: after ∧ kind call = some (ts.map .string) ∧ ∀ c ∈ after, kind c = none) ∨
    ((∀ c ∈ calls, kind c = none) ∧ ts = [])

/-- Each of the texts once. -/
def Spec.Once (ts once : List Text) : Prop := once.Nodup ∧ ∀ t, t ∈ once ↔ t ∈ ts

/-- Every item of every call is a string. -/
def Spec.AllStrings (calls : List Call) : Prop :=
  ∀ c ∈ calls, ∀ items, (endpoints c = some items ∨ accounts c = some items) → Item.other ∉ items

/-- An endpoint answers at the attempt `k`: the two before it failed, and this one has a best chain and a genesis block. -/
def Spec.AnswersAt (net : Net) (q : Text) (endpoint : Text) (k : Nat) (doc : J) : Prop :=
  k < 3 ∧ (∀ i < k, attempt net endpoint q i = none) ∧ attempt net endpoint q k = some doc

/-- What a poll of endpoints with one request does: every endpoint is asked until it answers, at most three times, and its
document handed over; it stops with an error at the first endpoint that does not answer. -/
inductive Spec.Polls (net : Net) (q : Text) : List Text → PollResult → Prop where
  | done : Polls net q [] ⟨[], [], true⟩
  | answered {endpoint rest k doc r} : AnswersAt net q endpoint k doc → Polls net q rest r →
      Polls net q (endpoint :: rest) ⟨List.replicate (k + 1) (endpoint, q) ++ r.requests, doc :: r.handed, r.ok⟩
  | failed {endpoint rest} : (∀ k < 3, attempt net endpoint q k = none) →
      Polls net q (endpoint :: rest) ⟨List.replicate 3 (endpoint, q), [], false⟩

/-! ## The text of the request -/

theorem feed_continue (read s : Text) (h : ∀ c ∈ s, isNameContinue c = true) :
    feed (.name read) s = some ([], .name (read ++ s)) := by
  induction s generalizing read with
  | nil => simp [feed]
  | cons c s ih =>
    rw [feed, next, if_pos (h c List.mem_cons_self)]
    simp only
    rw [ih _ (fun d hd => h d (List.mem_cons_of_mem _ hd))]
    simp

theorem nameStart_facts (c : Char) (h : isNameStart c = true) :
    Wallet.Spec.isIgnored c = false ∧ c ≠ '#' ∧ c ≠ '"' := by
  refine ⟨?_, ?_, ?_⟩
  · cases hc : Wallet.Spec.isIgnored c with
    | false => rfl
    | true =>
      simp only [Wallet.Spec.isIgnored, Bool.or_eq_true, beq_iff_eq] at hc
      rcases hc with (((rfl | rfl) | rfl) | rfl) | rfl <;> exact absurd h (by decide)
  · rintro rfl; exact absurd h (by decide)
  · rintro rfl; exact absurd h (by decide)

theorem feed_name (s : Text) (h : Name s) : feed .start s = some ([], .name s) := by
  obtain ⟨c, cs, rfl, h1, h2⟩ := h
  obtain ⟨a1, a2, a3⟩ := nameStart_facts c h1
  rw [feed, next, fromStart, if_neg (by rw [a1]; decide), if_neg a2, if_neg a3, if_pos h1]
  simp only
  rw [feed_continue _ _ h2]
  simp

theorem name_plain (s : Text) (h : Name s) : Plain s := by
  obtain ⟨c, cs, rfl, h1, h2⟩ := h
  have key : ∀ d : Char, isNameContinue d = true → d ≠ '"' ∧ d ≠ '\\' ∧ 32 ≤ d.toNat := by
    intro d hd
    refine ⟨by rintro rfl; exact absurd hd (by decide), by rintro rfl; exact absurd hd (by decide), ?_⟩
    simp only [isNameContinue, Bool.or_eq_true, beq_iff_eq, Char.isAlphanum, Char.isAlpha, Char.isUpper, Char.isLower,
      Char.isDigit, Bool.and_eq_true, decide_eq_true_eq] at hd
    rcases hd with ((hd | hd) | hd) | hd
    · have := UInt32.le_iff_toNat_le.mp hd.1; change 65 ≤ d.toNat at this; omega
    · have := UInt32.le_iff_toNat_le.mp hd.1; change 97 ≤ d.toNat at this; omega
    · have := UInt32.le_iff_toNat_le.mp hd.1; change 48 ≤ d.toNat at this; omega
    · rw [hd]; decide
  intro d hd
  rcases List.mem_cons.mp hd with rfl | hd
  · refine key d ?_
    simp only [isNameStart, isNameContinue, Bool.or_eq_true, Char.isAlphanum] at h1 ⊢
    rcases h1 with h1 | h1
    · exact .inl (.inl h1)
    · exact .inr h1
  · exact key d (h2 d hd)

/-- The tokens about one account. -/
def accountTokens (a : Text) : List Tok := (accountSels [a]).tokens

theorem open_cons : accountOpen = ':' :: accountOpen.tail := by decide +kernel

theorem feed_open : feed .start accountOpen.tail =
    some ([n "account", .punct '(', n "publicKey", .punct ':'], .quote) := by decide +kernel

theorem close_cons : accountClose = '"' :: ')' :: accountClose.tail.tail := by decide +kernel

theorem post_one : feed .start (')' :: accountClose.tail.tail) =
    some ([.punct ')', .punct '{', n "merklePath", .punct '{', n "left", n "right", .punct '}', n "leafHash", .punct '}'], .start) := by
  decide +kernel

theorem feed_colon (a : Text) : feed (.name a) accountOpen =
    some ([.name a, .punct ':', n "account", .punct '(', n "publicKey", .punct ':'], .quote) := by
  have e2 : next (.name a) ':' = some ([.name a, .punct ':'], .start) := by
    have : isNameContinue ':' = false := by decide
    have hf : fromStart ':' = some ([.punct ':'], .start) := by decide +kernel
    rw [next, this, hf]
    simp
  rw [open_cons, feed, e2]
  simp only
  rw [feed_open]
  simp

theorem feed_account (a : Text) (h : Name a) : feed .start (a ++ accountOpen) =
      some ([.name a, .punct ':', n "account", .punct '(', n "publicKey", .punct ':'], .quote) := by
  rw [feed_append, feed_name a h]
  simp only
  rw [feed_colon]
  simp

theorem feed_blank : feed .start "\n            ".toList = some ([], .start) := by decide +kernel
theorem feed_blank2 : feed .start "\n            \n            ".toList = some ([], .start) := by decide +kernel

theorem accountTokens_eq (a : Text) : accountTokens a =
    [.name a, .punct ':', n "account", .punct '(', n "publicKey", .punct ':', .str a, .punct ')', .punct '{', n "merklePath",
      .punct '{', n "left", n "right", .punct '}', n "leafHash", .punct '}'] := by
  simp only [accountTokens, accountSels, field, leaves, Sels.tokens, List.cons_append, List.nil_append, n, Json.toList_ofList]

/-- One round adds the tokens of one account. -/
theorem feed_addAccount (acc a : Text) (ts : List Tok) (hacc : feed .start acc = some (ts, .start)) (h : Name a) :
    feed .start (addAccount acc a) = some (ts ++ accountTokens a, .start) := by
  have s := Wallet.feed_step (feed_account a h) a (name_plain a h) post_one ⟨')', _, rfl, by decide⟩
  rw [← close_cons] at s
  unfold addAccount
  generalize hb : "\n            ".toList = b1
  generalize hb2 : "\n            \n            ".toList = b2
  rw [show b1 ++ acc ++ b2 ++ a ++ accountOpen ++ a ++ accountClose = b1 ++ (acc ++ (b2 ++ (a ++ accountOpen ++ a ++ accountClose)))
    by simp only [List.append_assoc]]
  rw [feed_append, ← hb, feed_blank]
  simp only
  rw [feed_append, hacc]
  simp only
  rw [feed_append, ← hb2, feed_blank2]
  simp only
  rw [s, accountTokens_eq]
  simp

theorem tokens_below (key : String) (args : List Tok) (below rest : Sels) (h : below ≠ .nil) :
    (Sels.cons key args below rest).tokens = .name key.toList :: (args ++ .punct '{' :: (below.tokens ++ .punct '}' :: rest.tokens)) := by
  rw [Sels.tokens]
  exact h

theorem accountSels_append (as bs : List Text) : (accountSels (as ++ bs)).tokens = (accountSels as).tokens ++ (accountSels bs).tokens := by
  induction as with
  | nil => rfl
  | cons a as ih =>
    rw [List.cons_append, accountSels, accountSels, tokens_below _ _ _ _ (fun h => by cases h),
      tokens_below _ _ _ _ (fun h => by cases h), ih]
    simp only [List.cons_append, List.append_assoc]

theorem feed_accounts (as : List Text) (h : ∀ a ∈ as, Name a) :
    feed .start (accountQuery as) = some ((accountSels as).tokens, .start) := by
  have key : ∀ (bs : List Text) (acc : Text) (ts : List Tok), (∀ a ∈ bs, Name a) → feed .start acc = some (ts, .start) →
      feed .start (bs.foldl addAccount acc) = some (ts ++ (accountSels bs).tokens, .start) := by
    intro bs
    induction bs with
    | nil => intro acc ts _ h; simpa [accountSels, Sels.tokens] using h
    | cons b bs ih =>
      intro acc ts hb ht
      rw [List.foldl_cons, ih _ _ (fun a ha => hb a (List.mem_cons_of_mem _ ha))
        (feed_addAccount acc b ts ht (hb b List.mem_cons_self)), List.append_assoc]
      have := accountSels_append [b] bs
      rw [show accountTokens b ++ (accountSels bs).tokens = (accountSels (b :: bs)).tokens from this.symm]
  exact key as [] [] h rfl

theorem feed_head : ∃ ts, feed .start queryHead = some (ts, .start) ∧
    ts = n "query" :: n "Query" :: .punct '{' :: (request []).tokens := by
  refine ⟨_, ?_, rfl⟩
  decide +kernel

theorem feed_tail : feed .start queryTail = some ([.punct '}'], .start) := by decide +kernel

theorem block_ne : block ≠ .nil := by intro h; cases h

theorem request_tokens (as : List Text) : (request as).tokens = (request []).tokens ++ (accountSels as).tokens := by
  unfold request field
  rw [tokens_below _ _ _ _ block_ne, tokens_below _ _ _ _ (fun h => by cases h), tokens_below _ _ _ _ block_ne,
    tokens_below _ _ _ _ (fun h => by cases h)]
  simp only [List.cons_append, List.append_assoc, accountSels, Sels.tokens, List.nil_append]

/-- The request as tokens. -/
theorem query_tokens (as : List Text) (h : ∀ a ∈ as, Name a) : tokens (query as) = some (document (request as)) := by
  obtain ⟨ts, h1, h2⟩ := feed_head
  refine tokens_of_feed ?_
  unfold query
  rw [List.append_assoc, feed_append, h1]
  simp only
  rw [feed_append, feed_accounts as h]
  simp only
  rw [feed_tail, h2, document, request_tokens as]
  simp

/-! ## The settings -/

theorem collect_aux (ts set : List Text) (hs : set.Nodup) :
    (ts.foldl (fun set t => if t ∈ set then set else set ++ [t]) set).Nodup ∧
    ∀ t, t ∈ ts.foldl (fun set t => if t ∈ set then set else set ++ [t]) set ↔ t ∈ set ∨ t ∈ ts := by
  induction ts generalizing set with
  | nil => exact ⟨hs, by simp⟩
  | cons a ts ih =>
    rw [List.foldl_cons]
    by_cases h : a ∈ set
    · rw [if_pos h]
      obtain ⟨h1, h2⟩ := ih set hs
      refine ⟨h1, fun t => ?_⟩
      rw [h2, List.mem_cons]
      constructor
      · rintro (h | h)
        · exact .inl h
        · exact .inr (.inr h)
      · rintro (h | rfl | h)
        · exact .inl h
        · exact .inl ‹_›
        · exact .inr h
    · rw [if_neg h]
      obtain ⟨h1, h2⟩ := ih (set ++ [a]) (by
        rw [List.nodup_append]
        refine ⟨hs, by simp, ?_⟩
        intro x hx y hy hxy
        rw [List.mem_singleton.mp hy] at hxy
        exact h (hxy ▸ hx))
      refine ⟨h1, fun t => ?_⟩
      rw [h2, List.mem_append, List.mem_singleton, List.mem_cons, or_assoc]

theorem collect_once (ts : List Text) : Once ts (collect ts) := by
  obtain ⟨h1, h2⟩ := collect_aux ts [] (by simp)
  exact ⟨h1, fun t => by unfold collect; rw [h2]; simp⟩

theorem strings_some (items : List Item) (ts : List Text) : strings items = some ts ↔ items = ts.map .string := by
  induction items generalizing ts with
  | nil => cases ts <;> simp [strings]
  | cons i items ih =>
    cases i with
    | other => cases ts <;> simp [strings]
    | string t =>
      simp only [strings]
      cases hs : strings items with
      | none =>
        cases ts with
        | nil => simp
        | cons u ts =>
          simp only [List.map_cons, List.cons.injEq, Item.string.injEq, reduceCtorEq, false_iff, not_and]
          intro _ h
          rw [(ih ts).mpr h] at hs
          cases hs
      | some us =>
        cases ts with
        | nil => simp
        | cons u ts =>
          have := ih ts
          rw [hs] at this
          simp only [Option.some.injEq] at this
          simp only [List.map_cons, List.cons.injEq, Item.string.injEq, Option.some.injEq, this]

theorem strings_none (items : List Item) : strings items = none ↔ .other ∈ items := by
  induction items with
  | nil => simp [strings]
  | cons i items ih =>
    cases i with
    | other => simp [strings]
    | string t =>
      simp only [strings, List.mem_cons, reduceCtorEq, false_or]
      rw [← ih]
      cases strings items <;> simp

theorem strings_of (items : List Item) (h : .other ∉ items) : ∃ ts, strings items = some ts := by
  cases hs : strings items with
  | none => exact absurd ((strings_none items).mp hs) h
  | some ts => exact ⟨ts, rfl⟩

/-- What the settings are after calls whose items are strings. -/
theorem after_settings (calls : List Call) (h : AllStrings calls) :
    ∃ us as, SetLast endpoints calls us ∧ SetLast accounts calls as ∧
      Page.after calls = ⟨⟨collect us, collect as⟩, false⟩ := by
  have snoc : ∀ rs : List Call, AllStrings rs.reverse → ∃ us as, SetLast endpoints rs.reverse us ∧ SetLast accounts rs.reverse as ∧
      Page.after rs.reverse = ⟨⟨collect us, collect as⟩, false⟩ := by
    intro rs
    induction rs with
    | nil => intro _; exact ⟨[], [], .inr ⟨by simp, rfl⟩, .inr ⟨by simp, rfl⟩, rfl⟩
    | cons c rs ih =>
      intro h
      rw [List.reverse_cons] at h ⊢
      obtain ⟨us, as, hu, ha, hp⟩ := ih (fun c' hc => h c' (List.mem_append_left _ hc))
      have hafter : Page.after (rs.reverse ++ [c]) = (Page.after rs.reverse).call c := by
        simp [Page.after, List.foldl_append]
      have keep : ∀ (kind : Call → Option (List Item)) (ts : List Text), kind c = none → SetLast kind rs.reverse ts →
          SetLast kind (rs.reverse ++ [c]) ts := by
        intro kind ts hk hs
        rcases hs with ⟨before, call, aft, e, h1, h2⟩ | ⟨h1, h2⟩
        · refine .inl ⟨before, call, aft ++ [c], by rw [e]; simp, h1, ?_⟩
          intro d hd
          rcases List.mem_append.mp hd with hd | hd
          · exact h2 d hd
          · rw [List.mem_singleton.mp hd]; exact hk
        · refine .inr ⟨?_, h2⟩
          intro d hd
          rcases List.mem_append.mp hd with hd | hd
          · exact h1 d hd
          · rw [List.mem_singleton.mp hd]; exact hk
      cases c with
      | poll => exact ⟨us, as, keep _ _ rfl hu, keep _ _ rfl ha, by rw [hafter, hp]; rfl⟩
      | setApiList items =>
        obtain ⟨ts, hts⟩ := strings_of items (h (.setApiList items) (by simp) items (.inl rfl))
        refine ⟨ts, as, .inl ⟨rs.reverse, _, [], rfl, ?_, by simp⟩, keep _ _ rfl ha, ?_⟩
        · exact congrArg some ((strings_some _ _).mp hts)
        · rw [hafter, hp]
          simp only [Page.call, setApiList, hts, Settings.setApiList]
          rfl
      | setTrackingAccounts items =>
        obtain ⟨ts, hts⟩ := strings_of items (h (.setTrackingAccounts items) (by simp) items (.inr rfl))
        refine ⟨us, ts, keep _ _ rfl hu, .inl ⟨rs.reverse, _, [], rfl, ?_, by simp⟩, ?_⟩
        · exact congrArg some ((strings_some _ _).mp hts)
        · rw [hafter, hp]
          simp only [Page.call, setTrackingAccounts, hts, Settings.setTrackingAccounts]
          rfl
  have := snoc calls.reverse (by simpa using h)
  simpa using this

/-! ## Polling -/

theorem retry_spec (f : Nat → Option J) (fuel k : Nat) :
    (∃ i doc, i < fuel ∧ (∀ j < i, f (k + j) = none) ∧ f (k + i) = some doc ∧ retry f fuel k = (i + 1, some doc)) ∨
    ((∀ i < fuel, f (k + i) = none) ∧ retry f fuel k = (fuel, none)) := by
  induction fuel generalizing k with
  | zero => exact .inr ⟨by simp, rfl⟩
  | succ fuel ih =>
    cases hf : f k with
    | some doc => exact .inl ⟨0, doc, by omega, by simp, hf, by simp [retry, hf]⟩
    | none =>
      rcases ih (k + 1) with ⟨i, doc, h1, h2, h3, h4⟩ | ⟨h1, h2⟩
      · refine .inl ⟨i + 1, doc, by omega, ?_, by rw [← h3]; congr 1; omega, by simp [retry, hf, h4]⟩
        intro j hj
        cases j with
        | zero => exact hf
        | succ j => rw [← h2 j (by omega)]; congr 1; omega
      · refine .inr ⟨?_, by simp [retry, hf, h2]⟩
        intro i hi
        cases i with
        | zero => exact hf
        | succ i => rw [← h1 i (by omega)]; congr 1; omega

theorem pollLoop_polls (net : Net) (q : Text) (us : List Text) : Polls net q us (pollLoop net q us) := by
  induction us with
  | nil => exact .done
  | cons u us ih =>
    rcases retry_spec (attempt net u q) 3 0 with ⟨i, doc, h1, h2, h3, h4⟩ | ⟨h1, h2⟩
    · rw [pollLoop, h4]
      exact .answered ⟨h1, fun j hj => by simpa using h2 j hj, by simpa using h3⟩ ih
    · rw [pollLoop, h2]
      exact .failed (fun k hk => by simpa using h1 k hk)

/-! ## C104 -/

/-- **C104.** After any calls whose items are strings, a poll asks each endpoint that was set last, once each, for each account
that was set last, once each, whatever order the sets are walked in: with a request for the best chain, the genesis block
and the accounts, if these have the form of names. -/
theorem C104_polls_partial (order : List Text → List Text) (horder : ∀ l, (order l).Perm l) (net : Net) (calls : List Call)
    (h : AllStrings calls) : ∃ us as us' as' r, SetLast endpoints calls us ∧ SetLast accounts calls as ∧ Once us us' ∧ Once as as' ∧
      poll order net (Page.after calls) = (r, if r.ok then .returned else .rejected) ∧
      ∃ q, Polls net q us' r ∧ ((∀ a ∈ as, Name a) → tokens q = some (document (request as'))) := by
  obtain ⟨us, as, hu, ha, hp⟩ := after_settings calls h
  have once : ∀ ts, Once ts (order (collect ts)) := fun ts =>
    ⟨(horder _).nodup_iff.mpr (collect_once ts).1, fun t => ((horder _).mem_iff).trans ((collect_once ts).2 t)⟩
  refine ⟨us, as, order (collect us), order (collect as), _, hu, ha, once us, once as, ?_, query (order (collect as)),
    pollLoop_polls net _ _, ?_⟩
  · rw [hp]; rfl
  · intro hn
    exact query_tokens _ (fun a hm => hn a (((once as).2 a).mp hm))

/-- **C104.** Every address of an account is such a name. -/
theorem C104_address_is_name (E : Env) (s : Text) (x : Bytes) (odd : Bool) (h : Json.fromAddress E s = some (x, odd)) : Name s := by
  have look := (Json.StrConv.C105_address_read E s x odd h).1
  have hs : ∃ out, Codec.encode58 out = s := by
    unfold Json.fromAddress at h
    split at h
    · cases h
    split at h
    · cases h
    rename_i out hd
    exact ⟨out, Codec.encode58_decode hd⟩
  obtain ⟨out, hout⟩ := hs
  have al : ∀ c ∈ s, isNameContinue c = true := by
    intro c hc
    have hm := Wallet.encode58_alphabet out c (by rw [hout]; exact hc)
    exact (by decide +kernel : ∀ c ∈ Codec.alphabet58, isNameContinue c = true) c hm
  obtain ⟨t, ht⟩ := look
  have e : ("B62q" : String).toList = ['B', '6', '2', 'q'] := by decide +kernel
  rw [e] at ht
  refine ⟨'B', '6' :: '2' :: 'q' :: t, ht.symm, by decide, ?_⟩
  intro d hd
  refine al d ?_
  rw [← ht]
  exact List.mem_cons_of_mem _ hd

/-- **C104 fails** for items that are no strings: the call ends the program with the settings locked, and no later call or poll
does anything. -/
theorem C104_not_string_fails (order : List Text → List Text) (net : Net) (calls later : List Call) (items : List Item)
    (h : AllStrings calls) (hi : .other ∈ items) (c : Call) (hc : c = .setApiList items ∨ c = .setTrackingAccounts items) :
    poll order net (Page.after (calls ++ c :: later)) = (⟨[], [], false⟩, .pending) := by
  obtain ⟨us, as, -, -, hp⟩ := after_settings calls h
  have hs := (strings_none items).mpr hi
  have h1 : ((Page.after calls).call c).stuck = true := by
    rw [hp]
    rcases hc with rfl | rfl
    · simp [Page.call, setApiList, hs]
    · simp [Page.call, setTrackingAccounts, hs]
  have h2 : ∀ (l : List Call) (p : Page), p.stuck = true → (l.foldl Page.call p).stuck = true := by
    intro l
    induction l with
    | nil => intro p hp; exact hp
    | cons c l ih =>
      intro p hp
      rw [List.foldl_cons]
      refine ih _ ?_
      cases c <;> simp [Page.call, setApiList, setTrackingAccounts, hp]
  have h3 : (Page.after (calls ++ c :: later)).stuck = true := by
    unfold Page.after
    rw [List.foldl_append, List.foldl_cons]
    exact h2 later _ h1
  unfold poll
  rw [if_pos h3]

/-- The text of an account that asks for the version of the node as well. -/
def askVersion : Text := "v:version a".toList

/-- **C104 fails** for texts that are no names: the text of an account can ask the endpoint for something else as well, or make
the request unreadable. -/
theorem C104_injection_fails :
    (∃ ts, tokens (query [askVersion]) = some ts ∧ n "version" ∈ ts ∧ n "version" ∉ document (request [askVersion])) ∧
      tokens (query ["\n".toList]) = none := by
  obtain ⟨hd, h1, h2⟩ := feed_head
  have q1 : ∃ ts, feed .start (accountQuery [askVersion]) = some (ts, .start) ∧ n "version" ∈ ts := by
    refine ⟨[n "v", .punct ':', n "version", n "a", .punct ':', n "account", .punct '(', n "publicKey", .punct ':',
      .str askVersion, .punct ')', .punct '{', n "merklePath", .punct '{', n "left", n "right", .punct '}', n "leafHash",
      .punct '}'], by decide +kernel, by decide +kernel⟩
  have q2 : feed .start (accountQuery ["\n".toList]) = none := by decide +kernel
  constructor
  · obtain ⟨ts, h3, h4⟩ := q1
    refine ⟨hd ++ ts ++ [.punct '}'], ?_, by simp [h4], ?_⟩
    · refine tokens_of_feed ?_
      unfold query
      rw [List.append_assoc, feed_append, h1]
      simp only
      rw [feed_append, h3]
      simp only
      rw [feed_tail]
      simp
    · decide +kernel
  · unfold tokens query
    rw [List.append_assoc, feed_append, h1]
    simp only
    rw [feed_append, q2]
    rfl

theorem next_no_comment (st st' : Wallet.Spec.State) (c : Char) (ts : List Tok) (h : next st c = some (ts, st')) (hc : c ≠ '#') (hs : st ≠ .comment) :
    st' ≠ .comment := by
  have start : ∀ ts st', fromStart c = some (ts, st') → st' ≠ .comment := by
    intro ts st' h
    unfold fromStart at h
    rw [if_neg hc] at h
    repeat' split at h
    all_goals first | (cases h; exact fun e => by cases e) | cases h
  have str : ∀ read ts st', Wallet.Spec.fromStr read c = some (ts, st') → st' ≠ .comment := by
    intro read ts st' h
    unfold Wallet.Spec.fromStr at h
    repeat' split at h
    all_goals first | (cases h; exact fun e => by cases e) | cases h
  have mapped : ∀ (t : Tok) ts st', ((fromStart c).map fun r => (t :: r.1, r.2)) = some (ts, st') → st' ≠ .comment := by
    intro t ts st' h
    cases e : fromStart c with
    | none => rw [e] at h; cases h
    | some r =>
      rw [e] at h
      cases h
      exact start r.1 r.2 e
  cases st with
  | start => exact start _ _ h
  | comment => exact absurd rfl hs
  | name read =>
    simp only [next] at h
    split at h
    · cases h; exact fun e => by cases e
    · exact mapped _ _ _ h
  | int read =>
    simp only [next] at h
    repeat' split at h
    all_goals first | (cases h; done) | exact mapped _ _ _ h | (cases h; exact fun e => by cases e)
  | quote =>
    simp only [next] at h
    split at h
    · cases h; exact fun e => by cases e
    · exact str _ _ _ h
  | quotes =>
    simp only [next] at h
    split at h
    · cases h
    · exact mapped _ _ _ h
  | str read => exact str _ _ _ h
  | escape read =>
    simp only [next] at h
    split at h
    · cases h; exact fun e => by cases e
    · cases e : Wallet.Spec.escaped c with
      | none => rw [e] at h; cases h
      | some r => rw [e] at h; cases h; exact fun e => by cases e
  | unicode read digits value =>
    simp only [next] at h
    repeat' split at h
    all_goals first | (cases h; done) | (cases h; exact fun e => by cases e)

theorem feed_no_comment (s : Text) : ∀ (st st' : Wallet.Spec.State) (ts : List Tok), feed st s = some (ts, st') → '#' ∉ s → st ≠ .comment →
    st' ≠ .comment := by
  induction s with
  | nil => intro st st' ts h _ hs; cases h; exact hs
  | cons c s ih =>
    intro st st' ts h hc hs
    simp only [feed] at h
    split at h
    · cases h
    · rename_i us st1 hn
      cases e : feed st1 s with
      | none => rw [e] at h; cases h
      | some r =>
        rw [e] at h
        cases h
        exact ih st1 r.2 r.1 e (fun m => hc (List.mem_cons_of_mem _ m))
          (next_no_comment st st1 c us hn (fun e => hc (e ▸ List.mem_cons_self)) hs)

/-- A text of tokens without a comment, then a space. -/
theorem feed_then_space (s : Text) (ts : List Tok) (h : tokens s = some ts) (hc : '#' ∉ s) :
    feed .start (s ++ [' ']) = some (ts, .start) := by
  unfold tokens at h
  split at h
  · cases h
  · rename_i us st hf
    have hn := feed_no_comment s .start st us hf hc (fun e => by cases e)
    rw [feed_append, hf]
    cases st <;> simp only [Wallet.Spec.finish, Option.map_some, Option.map_none, Option.some.injEq, reduceCtorEq] at h <;> try (exact absurd rfl hn)
    all_goals
      subst h
      simp [feed, next, fromStart, Wallet.Spec.isIgnored, isNameContinue, isNameStart, show ' '.isAlphanum = false by decide, show ' '.isDigit = false by decide,
        show ' '.isAlpha = false by decide]

/-- **C104 fails** for every request: whatever fields someone wants the endpoint to be asked for, written in one line without quotes,
backslashes and comments, a text for an account has them asked for beside everything else. -/
theorem C104_any_request_fails (as : List Text) (h : ∀ a ∈ as, Name a) (fields : Text) (ts : List Tok) (hf : tokens fields = some ts)
    (hp : Plain fields) (hc : '#' ∉ fields) (a : Text) (ha : Name a) :
    tokens (query (as ++ [fields ++ ' ' :: a])) =
      some ((document (request as)).dropLast ++ ts ++ .name a :: (accountTokens (fields ++ ' ' :: a)).tail ++ [.punct '}']) := by
  have e : fields ++ ' ' :: a = (fields ++ [' ']) ++ a := by simp
  have hplain : Plain (fields ++ ' ' :: a) := by
    intro c hm
    rcases List.mem_append.mp hm with hm | hm
    · exact hp c hm
    · rcases List.mem_cons.mp hm with rfl | hm
      · decide
      · exact name_plain a ha c hm
  have hopen : feed .start ((fields ++ ' ' :: a) ++ accountOpen) =
      some (ts ++ [.name a, .punct ':', n "account", .punct '(', n "publicKey", .punct ':'], .quote) := by
    rw [e, List.append_assoc, feed_append, feed_then_space fields ts hf hc]
    simp only
    rw [feed_account a ha]
    rfl
  have s := Wallet.feed_step hopen (fields ++ ' ' :: a) hplain post_one ⟨')', _, rfl, by decide⟩
  rw [← close_cons] at s
  have hall : feed .start (accountQuery (as ++ [fields ++ ' ' :: a])) =
      some ((accountSels as).tokens ++ (ts ++ .name a :: (accountTokens (fields ++ ' ' :: a)).tail), .start) := by
    have hacc := feed_accounts as h
    unfold accountQuery at hacc ⊢
    rw [List.foldl_append, List.foldl_cons, List.foldl_nil]
    generalize as.foldl addAccount [] = acc at hacc
    generalize hx : fields ++ ' ' :: a = x at s
    unfold addAccount
    generalize hb : "\n            ".toList = b1
    generalize hb2 : "\n            \n            ".toList = b2
    rw [show b1 ++ acc ++ b2 ++ x ++ accountOpen ++ x ++ accountClose = b1 ++ (acc ++ (b2 ++ (x ++ accountOpen ++ x ++ accountClose)))
      by simp only [List.append_assoc]]
    rw [feed_append, ← hb, feed_blank]
    simp only
    rw [feed_append, hacc]
    simp only
    rw [feed_append, ← hb2, feed_blank2]
    simp only
    rw [s, accountTokens_eq]
    simp
  obtain ⟨hd, h1, h2⟩ := feed_head
  refine tokens_of_feed ?_
  unfold query
  rw [List.append_assoc, feed_append, h1]
  simp only
  rw [feed_append, hall]
  simp only
  have hdoc : (document (request as)).dropLast = n "query" :: n "Query" :: .punct '{' :: ((request []).tokens ++ (accountSels as).tokens) := by
    rw [document, request_tokens as]
    exact List.dropLast_concat (l₁ := n "query" :: n "Query" :: .punct '{' :: ((request []).tokens ++ (accountSels as).tokens))
  rw [feed_tail, h2, hdoc]
  simp

/-- Asking for the version of the node as well, beside the account of a name. -/
example : ∃ ts, tokens "v: version".toList = some ts ∧ n "version" ∈ ts ∧ Plain "v: version".toList ∧ '#' ∉ "v: version".toList ∧
    Name "B62a".toList :=
  ⟨[n "v", .punct ':', n "version"], by decide +kernel, by decide +kernel, by decide +kernel, by decide +kernel,
    'B', "62a".toList, by decide +kernel, by decide +kernel, by decide +kernel⟩

/-- Calls that meet the hypotheses: two endpoints, one account, an endpoint given twice. -/
def sampleCalls : List Call :=
  [.setApiList [.string "http://old".toList], .poll, .setTrackingAccounts [.string "B62a".toList],
    .setApiList [.string "http://one".toList, .string "http://two".toList, .string "http://one".toList], .poll]

example : AllStrings sampleCalls ∧
    (Page.after sampleCalls).settings = ⟨["http://one".toList, "http://two".toList], ["B62a".toList]⟩ := by
  refine ⟨?_, by decide +kernel⟩
  intro c hc items h
  simp only [sampleCalls, List.mem_cons, List.not_mem_nil, or_false] at hc
  rcases hc with rfl | rfl | rfl | rfl | rfl <;> simp only [endpoints, accounts, Option.some.injEq, reduceCtorEq, or_false, false_or] at h
  all_goals (subst h; simp)

example : Item.other ∈ [Item.string "http://one".toList, .other] := by simp

theorem box_strings (t : Text) : ∃ ts, strings (Box.edited t).items = some ts ∧ ∀ u ∈ ts, u.length = 1 := by
  induction t with
  | nil => exact ⟨[], rfl, fun _ h => nomatch h⟩
  | cons c t ih =>
    obtain ⟨ts, h1, h2⟩ := ih
    by_cases hc : c.val ≤ 0xFFFF
    · refine ⟨[c] :: ts, ?_, ?_⟩
      · simp only [Box.items, List.flatMap_cons, if_pos hc] at h1 ⊢
        simp only [List.cons_append, List.nil_append, strings, h1]
      · intro u hu
        rcases List.mem_cons.1 hu with rfl | hu
        · rfl
        · exact h2 u hu
    · refine ⟨['\uFFFD'] :: ['\uFFFD'] :: ts, ?_, ?_⟩
      · simp only [Box.items, List.flatMap_cons, if_neg hc] at h1 ⊢
        simp only [List.cons_append, List.nil_append, strings, h1]
      · intro u hu
        rcases List.mem_cons.1 hu with rfl | hu
        · rfl
        rcases List.mem_cons.1 hu with rfl | hu
        · rfl
        · exact h2 u hu

/-- **C104 fails** for what is typed into the boxes of the page: whatever the text, on one line or more, the page reports success,
and the endpoints (accounts) set are single characters, so that no endpoint or account of two characters or more that
was typed is ever asked. -/
theorem C104_typed_fails (p : Page) (hp : p.stuck = false) (t : Text) :
    (∃ us, setApiList p (Box.edited t).items = ({ p with settings := { p.settings with apiList := us } }, .returned) ∧
      ∀ u ∈ us, u.length = 1) ∧
    (∃ us, setTrackingAccounts p (Box.edited t).items = ({ p with settings := { p.settings with trackingAccounts := us } }, .returned) ∧
      ∀ u ∈ us, u.length = 1) := by
  obtain ⟨ts, h1, h2⟩ := box_strings t
  refine ⟨⟨collect ts, ?_, fun u hu => h2 u (((collect_once ts).2 u).1 hu)⟩, ⟨collect ts, ?_, fun u hu => h2 u (((collect_once ts).2 u).1 hu)⟩⟩
  · simp only [setApiList, hp, h1, Settings.setApiList]; rfl
  · simp only [setTrackingAccounts, hp, h1, Settings.setTrackingAccounts]; rfl

/-- Two endpoints, one on each line. -/
example : strings (Box.edited "ab\ncd".toList).items = some [['a'], ['b'], ['\n'], ['c'], ['d']] ∧
    strings (Box.untouched [['a', 'b'], ['c', 'd']]).items = some [['a', 'b'], ['c', 'd']] := by
  decide +kernel

end MinaRs.Page
