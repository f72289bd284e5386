import Verif.Crawler.List
import Verif.Crawler.Props
import Verif.Wallet.CallProps

/-!
# C120: the list of blocks, and the places of files
-/

namespace MinaRs.Crawler

open MinaRs.Text MinaRs.Text.Spec
open Json (J Floats parse)
open Wallet.Spec (Tok State n feed tokens fromStart next Says)

/-! ## Specification -/

/-- `query Fetch { blocks(limit: …, sortBy: RECEIVEDTIME_DESC) { blockHeight stateHash } }` -/
def Spec.latest (limit : List Tok) : List Tok :=
  [n "query", n "Fetch", .punct '{', n "blocks", .punct '(', n "limit", .punct ':'] ++ limit ++
    [n "sortBy", .punct ':', n "RECEIVEDTIME_DESC", .punct ')', .punct '{', n "blockHeight", n "stateHash", .punct '}', .punct '}']

/-- Exactly one member has this name, and this is its value. -/
def Spec.Member (es : List (String × J)) (k : String) (v : J) : Prop :=
  ∃ (before after : List (String × J)), es = before ++ (k, v) :: after ∧ (∀ e ∈ before, e.1 ≠ k) ∧ ∀ e ∈ after, e.1 ≠ k

/-- A structure with one field, as an object or as an array. -/
inductive Spec.Holds (k : String) : J → J → Prop
  | object (es : List (String × J)) (v : J) : Spec.Member es k v → Holds k (.obj es) v
  | array (v : J) : Holds k (.arr [v]) v

/-- A document that names a block. -/
inductive Spec.Names : J → BlockInfo → Prop
  | object (es : List (String × J)) (h : Nat) (s : String) : Spec.Member es "blockHeight" (.num h) → Spec.Member es "stateHash" (.str s) →
      h < 2 ^ 64 → Names (.obj es) ⟨h, s.toList⟩
  | array (h : Nat) (s : String) : h < 2 ^ 64 → Names (.arr [.num h, .str s]) ⟨h, s.toList⟩

/-- Documents that name these blocks, in this order. -/
inductive Spec.NameAll : List J → List BlockInfo → Prop
  | nil : NameAll [] []
  | cons (j : J) (b : BlockInfo) (js : List J) (bs : List BlockInfo) : Spec.Names j b → NameAll js bs → NameAll (j :: js) (b :: bs)

/-- An answer that lists these blocks. -/
def Spec.Lists (j : J) (bs : List BlockInfo) : Prop :=
  ∃ (d : J) (js : List J), Spec.Holds "data" j d ∧ Spec.Holds "blocks" d (.arr js) ∧ Spec.NameAll js bs

/-! ## The request -/

theorem feed_queryHead : feed .start queryHead =
    some ([n "query", n "Fetch", .punct '{', n "blocks", .punct '(', n "limit", .punct ':'], .start) := by decide +kernel

theorem queryTail_eq : queryTail = ',' ::
    " sortBy: RECEIVEDTIME_DESC) {\n                blockHeight\n                stateHash\n            }\n        }".toList := by
  decide +kernel

theorem feed_queryRest : feed .start
    " sortBy: RECEIVEDTIME_DESC) {\n                blockHeight\n                stateHash\n            }\n        }".toList =
    some ([n "sortBy", .punct ':', n "RECEIVEDTIME_DESC", .punct ')', .punct '{', n "blockHeight", n "stateHash", .punct '}',
      .punct '}'], .start) := by decide +kernel

theorem no_comment (s : Text) (st : State) (hs : st ≠ .comment) (h : '#' ∉ s) (ts : List Tok) (st' : State)
    (hf : feed st s = some (ts, st')) : st' ≠ .comment := by
  have hstart : ∀ c, c ≠ '#' → ∀ r, fromStart c = some r → r.2 ≠ .comment := by
    intro c hc r hr
    unfold fromStart at hr
    split at hr
    · cases hr; intro h; cases h
    split at hr
    · cases hr; intro h; cases h
    split at hr
    · cases hr; intro h; cases h
    split at hr
    · cases hr; intro h; cases h
    split at hr
    · cases hr; intro h; cases h
    · cases hr
  have hstr : ∀ read c r, Wallet.Spec.fromStr read c = some r → r.2 ≠ .comment := by
    intro read c r hr
    unfold Wallet.Spec.fromStr at hr
    split at hr
    · cases hr; intro h; cases h
    split at hr
    · cases hr; intro h; cases h
    split at hr
    · cases hr
    · cases hr; intro h; cases h
  have hmap : ∀ c, c ≠ '#' → ∀ (t : Tok) r, (fromStart c).map (fun r => (t :: r.1, r.2)) = some r → r.2 ≠ .comment := by
    intro c hc t r hr
    cases hx : fromStart c with
    | none => rw [hx] at hr; cases hr
    | some x =>
      rw [hx] at hr
      cases hr
      exact hstart c hc x hx
  have hnext : ∀ st c, st ≠ .comment → c ≠ '#' → ∀ r, next st c = some r → r.2 ≠ .comment := by
    intro st c hst hc r hr
    cases st with
    | start => exact hstart c hc r hr
    | comment => exact absurd rfl hst
    | name read =>
      simp only [next] at hr
      split at hr
      · cases hr; intro h; cases h
      · exact hmap c hc _ r hr
    | int read =>
      simp only [next] at hr
      split at hr
      · split at hr
        · cases hr
        · cases hr; intro h; cases h
      split at hr
      · cases hr
      · exact hmap c hc _ r hr
    | quote =>
      simp only [next] at hr
      split at hr
      · cases hr; intro h; cases h
      · exact hstr _ _ r hr
    | quotes =>
      simp only [next] at hr
      split at hr
      · cases hr
      · exact hmap c hc _ r hr
    | str read => exact hstr _ _ r hr
    | escape read =>
      simp only [next] at hr
      split at hr
      · cases hr; intro h; cases h
      · cases hx : Wallet.Spec.escaped c with
        | none => rw [hx] at hr; cases hr
        | some x => rw [hx] at hr; cases hr; intro h; cases h
    | unicode read digits value =>
      simp only [next] at hr
      split at hr
      · cases hr
      split at hr
      · split at hr
        · cases hr; intro h; cases h
        · cases hr
      · cases hr; intro h; cases h
  induction s generalizing st ts with
  | nil => cases hf; exact hs
  | cons c s ih =>
    rw [feed] at hf
    cases hx : next st c with
    | none => rw [hx] at hf; cases hf
    | some r =>
      obtain ⟨t1, st1⟩ := r
      rw [hx] at hf
      simp only at hf
      cases hy : feed st1 s with
      | none => rw [hy] at hf; cases hf
      | some r =>
        obtain ⟨t2, st2⟩ := r
        rw [hy] at hf
        cases hf
        exact ih st1 (hnext st c hs (fun h' => h (h' ▸ List.mem_cons_self)) _ hx) (fun h' => h (List.mem_cons_of_mem _ h')) _ hy

/-- **C120.** Whatever tokens the limit consists of stand in the request where the limit belongs. -/
theorem C120_any_limit (limit : Text) (ts : List Tok) (h : tokens limit = some ts) (hc : '#' ∉ limit) :
    tokens (listQuery limit) = some (Spec.latest ts) := by
  unfold tokens at h
  cases hf : feed .start limit with
  | none => rw [hf] at h; cases h
  | some r =>
    obtain ⟨t1, st⟩ := r
    rw [hf] at h
    simp only at h
    have hne := no_comment limit .start (by intro h; cases h) hc _ _ hf
    cases hfin : Wallet.Spec.finish st with
    | none => rw [hfin] at h; cases h
    | some f =>
      rw [hfin] at h
      cases h
      have hnx : next st ',' = some (f, .start) := by
        cases st with
        | comment => exact absurd rfl hne
        | start => cases hfin; decide
        | name read => cases hfin; rfl
        | int read => cases hfin; rfl
        | quotes => cases hfin; rfl
        | _ => cases hfin
      refine Wallet.tokens_of_feed ?_
      unfold listQuery
      rw [List.append_assoc, Wallet.feed_append, feed_queryHead]
      simp only
      rw [Wallet.feed_append, hf]
      simp only
      rw [queryTail_eq, feed, hnx]
      simp only
      rw [feed_queryRest]
      simp [Spec.latest]

theorem isDigit_of (c : Char) (h : IsDigit c) : c.isDigit = true := by
  unfold Char.isDigit
  simp only [ge_iff_le, Bool.and_eq_true, decide_eq_true_eq]
  exact ⟨h.1, h.2⟩

theorem feed_digits (read s : Text) (h : ∀ c ∈ s, IsDigit c) (hr : read ≠ []) (h0 : s ≠ [] → read ≠ ['0']) :
    feed (.int read) s = some ([], .int (read ++ s)) := by
  induction s generalizing read with
  | nil => simp [feed]
  | cons c s ih =>
    have h1 := isDigit_of c (h c List.mem_cons_self)
    rw [feed, next, if_pos h1, if_neg (h0 (by simp))]
    simp only
    rw [ih (read ++ [c]) (fun d hd => h d (List.mem_cons_of_mem _ hd)) (by simp) ?_]
    · simp
    · intro _ he
      cases read with
      | nil => exact hr rfl
      | cons a r => simp at he

theorem digit_start (c : Char) (h : IsDigit c) : fromStart c = some ([], .int [c]) := by
  have h1 := (isDigit_iff c).mp h
  have hc : c = Char.ofNat c.toNat := (Char.ofNat_toNat c).symm
  have : ∀ k, k < 58 → 48 ≤ k → fromStart (Char.ofNat k) = some ([], .int [Char.ofNat k]) := by decide +kernel
  rw [hc]
  exact this _ (by omega) h1.1

theorem tokens_decimal (s : Text) (k : Nat) (h : IsDecimalOf s k) : tokens s = some [.int s] := by
  obtain ⟨h1, h2, -, h4⟩ := h
  cases s with
  | nil => exact absurd rfl h1
  | cons c s =>
    unfold tokens
    rw [feed, next, digit_start c (h2 c List.mem_cons_self)]
    simp only
    rw [feed_digits [c] s (fun d hd => h2 d (List.mem_cons_of_mem _ hd)) (by simp) ?_]
    · simp [Wallet.Spec.finish]
    · intro hs he
      cases he
      exact hs (List.cons.inj (h4 rfl)).2

/-- **C120.** For a number the body of the request is JSON that says: the latest blocks, as many as the number says. -/
theorem C120_request (explorer : Text → Option Text) (F : Floats) (limit : Text) (k : Nat) (h : IsDecimalOf limit k) :
    ∃ q, (∀ q', Says (fetchBlockInfo explorer F limit).1 q' ↔ q' = q) ∧ tokens q = some (Spec.latest [.int limit]) := by
  refine ⟨listQuery limit, fun q' => Wallet.C108_body _ _, C120_any_limit limit _ (tokens_decimal limit k h) ?_⟩
  intro hm
  have := h.2.1 _ hm
  revert this
  decide

example : IsDecimalOf "290".toList 290 := by
  refine ⟨by decide, ?_, by decide, by decide⟩
  decide +kernel

/-- **C120 fails** for other limits, which are not refused: the request asks for whatever their text says, such as another
number of blocks and something else besides. -/
theorem C120_limit_fails (explorer : Text → Option Text) (F : Floats) (limit : Text) (ts : List Tok) (h : tokens limit = some ts)
    (hc : '#' ∉ limit) (hn : ∀ k, ¬ IsDecimalOf limit k) :
    ∃ q, Says (fetchBlockInfo explorer F limit).1 q ∧ tokens q = some (Spec.latest ts) ∧
      ∀ m k, IsDecimalOf m k → tokens q = some (Spec.latest [.int m]) → ts = [.int m] ∧ limit ≠ m := by
  refine ⟨listQuery limit, (Wallet.C108_body _ _).mpr rfl, C120_any_limit limit ts h hc, ?_⟩
  intro m k hm he
  rw [C120_any_limit limit ts h hc] at he
  refine ⟨?_, fun e => hn k (e ▸ hm)⟩
  have := Option.some.inj he
  unfold Spec.latest at this
  exact List.append_cancel_left (List.append_cancel_right this)

/-- Such a limit. -/
def otherLimit : Text := "1) { canonical } all: blocks(limit: 100000".toList

example : tokens otherLimit = some [.int ['1'], .punct ')', .punct '{', n "canonical", .punct '}', n "all", .punct ':', n "blocks",
    .punct '(', n "limit", .punct ':', .int "100000".toList] ∧ '#' ∉ otherLimit ∧ ∀ k, ¬ IsDecimalOf otherLimit k := by
  refine ⟨by decide +kernel, by decide +kernel, ?_⟩
  intro k h
  have : ¬ ∀ c ∈ otherLimit, IsDigit c := by decide +kernel
  exact this h.2.1

/-! ## The answer -/

theorem member_cons (k : String) (a : String × J) (es : List (String × J)) (v : J) :
    Spec.Member (a :: es) k v ↔ (a.1 ≠ k ∧ Spec.Member es k v) ∨ (a = (k, v) ∧ ∀ e ∈ es, e.1 ≠ k) := by
  constructor
  · rintro ⟨before, after, h, h1, h2⟩
    cases before with
    | nil => cases h; exact .inr ⟨rfl, h2⟩
    | cons b before =>
      cases h
      exact .inl ⟨h1 _ List.mem_cons_self, before, after, rfl, fun e he => h1 e (List.mem_cons_of_mem _ he), h2⟩
  · rintro (⟨h, before, after, rfl, h1, h2⟩ | ⟨rfl, h⟩)
    · refine ⟨a :: before, after, rfl, ?_, h2⟩
      intro e he
      cases he with
      | head => exact h
      | tail _ he => exact h1 e he
    · exact ⟨[], es, rfl, by simp, h⟩

theorem only_iff (k : String) (es : List (String × J)) (v : J) : only k es = some v ↔ Spec.Member es k v := by
  unfold only
  induction es with
  | nil =>
    refine ⟨fun h => by simp at h, ?_⟩
    rintro ⟨before, after, h, -⟩
    cases before <;> cases h
  | cons a es ih =>
    rw [member_cons]
    by_cases ha : a.1 = k
    · rw [List.filter_cons_of_pos (by simp [ha])]
      constructor
      · intro h
        split at h
        · rename_i e he
          cases h
          obtain ⟨rfl, he2⟩ := List.cons.inj he
          refine .inr ⟨by rw [← ha], ?_⟩
          intro e he' hk
          have : e ∈ es.filter fun e => e.1 == k := List.mem_filter.mpr ⟨he', by simp [hk]⟩
          rw [he2] at this
          cases this
        · cases h
      · rintro (⟨h, -⟩ | ⟨rfl, h⟩)
        · exact absurd ha h
        · have : (es.filter fun e => e.1 == k) = [] := by
            rw [List.filter_eq_nil_iff]
            intro e he
            simp [h e he]
          rw [this]
    · rw [List.filter_cons_of_neg (by simp [ha]), ih]
      constructor
      · exact fun h => .inl ⟨ha, h⟩
      · rintro (⟨-, h⟩ | ⟨rfl, -⟩)
        · exact h
        · exact absurd rfl ha

theorem field_iff (k : String) (j v : J) : field k j = some v ↔ Spec.Holds k j v := by
  constructor
  · intro h
    unfold field at h
    split at h
    · exact .object _ _ ((only_iff _ _ _).mp h)
    · cases h; exact .array _
    · cases h
  · intro h
    cases h with
    | object es _ h => exact (only_iff _ _ _).mpr h
    | array => rfl

theorem info_iff (h s : J) (b : BlockInfo) :
    info h s = some b ↔ ∃ (k : Nat) (t : String), h = .num k ∧ s = .str t ∧ k < 2 ^ 64 ∧ b = ⟨k, t.toList⟩ := by
  constructor
  · intro e
    unfold info at e
    split at e
    · rename_i k t
      split at e
      · rename_i hk
        cases e
        refine ⟨k.toNat, t, ?_, rfl, by omega, rfl⟩
        rw [Int.toNat_of_nonneg hk.1]
      · cases e
    · cases e
  · rintro ⟨k, t, rfl, rfl, hk, rfl⟩
    unfold info
    simp only
    rw [if_pos ⟨by omega, by omega⟩]
    simp

theorem readInfo_iff (j : J) (b : BlockInfo) : readInfo j = some b ↔ Spec.Names j b := by
  constructor
  · intro h
    unfold readInfo at h
    split at h
    · split at h
      · rename_i h1 h2
        obtain ⟨k, t, rfl, rfl, hk, rfl⟩ := (info_iff _ _ _).mp h
        exact .object _ _ _ ((only_iff _ _ _).mp h1) ((only_iff _ _ _).mp h2) hk
      · cases h
    · obtain ⟨k, t, rfl, rfl, hk, rfl⟩ := (info_iff _ _ _).mp h
      exact .array _ _ hk
    · cases h
  · intro h
    cases h with
    | object es k t h1 h2 hk =>
      unfold readInfo
      simp only [(only_iff _ _ _).mpr h1, (only_iff _ _ _).mpr h2]
      exact (info_iff _ _ _).mpr ⟨k, t, rfl, rfl, hk, rfl⟩
    | array k t hk =>
      unfold readInfo
      exact (info_iff _ _ _).mpr ⟨k, t, rfl, rfl, hk, rfl⟩

theorem readInfos_iff (js : List J) (bs : List BlockInfo) : readInfos js = some bs ↔ Spec.NameAll js bs := by
  induction js generalizing bs with
  | nil =>
    constructor
    · intro h; cases h; exact .nil
    · intro h; cases h; rfl
  | cons j js ih =>
    constructor
    · intro h
      rw [readInfos] at h
      split at h
      · rename_i h1 h2
        cases h
        exact .cons _ _ _ _ ((readInfo_iff _ _).mp h1) ((ih _).mp h2)
      · cases h
    · intro h
      cases h with
      | cons _ b _ bs h1 h2 => rw [readInfos, (readInfo_iff _ _).mpr h1, (ih _).mpr h2]

theorem readListing_iff (j : J) (bs : List BlockInfo) : readListing j = some bs ↔ Spec.Lists j bs := by
  constructor
  · intro h
    unfold readListing at h
    split at h
    · cases h
    · rename_i d h1
      split at h
      · rename_i js h2
        exact ⟨d, js, (field_iff _ _ _).mp h1, (field_iff _ _ _).mp h2, (readInfos_iff _ _).mp h⟩
      · cases h
  · rintro ⟨d, js, h1, h2, h3⟩
    unfold readListing
    simp only [(field_iff _ _ _).mpr h1, (field_iff _ _ _).mpr h2]
    exact (readInfos_iff _ _).mpr h3

/-- **C120.** The blocks that are checked are those the answer lists, in its order; an answer that is no such list, or none,
ends the process before a block is checked. -/
theorem C120_answer (explorer : Text → Option Text) (F : Floats) (limit : Text) :
    (∀ bs, (fetchBlockInfo explorer F limit).2 = .blocks bs ↔
      ∃ answer j, explorer (fetchBlockInfo explorer F limit).1 = some answer ∧ parse F answer = some j ∧ Spec.Lists j bs) ∧
    ((fetchBlockInfo explorer F limit).2 = .aborted ↔
      ¬ ∃ answer j bs, explorer (fetchBlockInfo explorer F limit).1 = some answer ∧ parse F answer = some j ∧ Spec.Lists j bs) := by
  have main : ∀ bs, (fetchBlockInfo explorer F limit).2 = .blocks bs ↔
      ∃ answer j, explorer (fetchBlockInfo explorer F limit).1 = some answer ∧ parse F answer = some j ∧ Spec.Lists j bs := by
    intro bs
    constructor
    · intro h
      simp only [fetchBlockInfo] at h ⊢
      split at h
      · cases h
      · rename_i answer ha
        split at h
        · cases h
        · rename_i j hj
          split at h
          · cases h
          · rename_i bs' hb
            cases h
            exact ⟨answer, j, ha, hj, (readListing_iff _ _).mp hb⟩
    · rintro ⟨answer, j, ha, hj, hl⟩
      simp only [fetchBlockInfo] at ha ⊢
      simp only [ha, hj, (readListing_iff _ _).mpr hl]
  refine ⟨main, ?_⟩
  constructor
  · rintro h ⟨answer, j, bs, hx⟩
    rw [(main bs).mpr ⟨answer, j, hx⟩] at h
    cases h
  · intro h
    cases hx : (fetchBlockInfo explorer F limit).2 with
    | aborted => rfl
    | blocks bs =>
      obtain ⟨answer, j, hx⟩ := (main bs).mp hx
      exact absurd ⟨answer, j, bs, hx⟩ h

/-- An answer with two blocks and a member that is not asked for. -/
def exAnswer : J := .obj [("extra", .null), ("data", .obj [("blocks", .arr [
  .obj [("stateHash", .str "3NKa"), ("blockHeight", .num 7)], .arr [.num 8, .str "3NKb"]])])]

example : Spec.Lists exAnswer [⟨7, "3NKa".toList⟩, ⟨8, "3NKb".toList⟩] := (readListing_iff _ _).mp (by decide +kernel)

/-- The blocks of an answer are unique. -/
theorem C120_answer_unique (j : J) (bs bs' : List BlockInfo) (h : Spec.Lists j bs) (h' : Spec.Lists j bs') : bs = bs' := by
  have h1 := (readListing_iff _ _).mpr h
  rw [(readListing_iff _ _).mpr h'] at h1
  exact (Option.some.inj h1).symm

example : Spec.Lists exAnswer [⟨7, "3NKa".toList⟩, ⟨8, "3NKb".toList⟩] := (readListing_iff _ _).mp (by decide +kernel)

/-! ## The files -/

/-- The file system as `main` leaves it before blocks are checked: the output folders are there, and no folder in them has the
name of a file of a block. -/
structure Spec.Ready (isDir : List Text → Bool) (cwd : List Text) (op : Text) : Prop where
  output : isDir (cwd ++ ["output".toList]) = true
  folder : isDir (cwd ++ ["output".toList] ++ [op]) = true
  files : ∀ name, "mainnet-".toList <+: name → isDir (cwd ++ ["output".toList] ++ [op] ++ [name]) = false

theorem split_first (s : Text) : ∃ a rest, split '/' s = a :: rest ∧ '/' ∉ a ∧ (rest = [] → '/' ∉ s) ∧ (rest ≠ [] → '/' ∈ s) ∧
    ∃ t, s = a ++ t := by
  induction s with
  | nil => exact ⟨[], [], rfl, by simp, by simp, by simp, [], rfl⟩
  | cons c s ih =>
    obtain ⟨a, rest, h1, h2, h3, h4, t, h5⟩ := ih
    by_cases hc : c = '/'
    · subst hc
      refine ⟨[], split '/' s, by rw [split, if_pos rfl], by simp, ?_, by simp, _, rfl⟩
      intro h
      exact absurd h (split_ne_nil _ _)
    · refine ⟨c :: a, rest, ?_, ?_, ?_, ?_, t, by rw [h5]; rfl⟩
      · rw [split, if_neg hc, h1]
      · simp [h2, Ne.symm hc]
      · intro h; simp [h3 h, Ne.symm hc]
      · intro h; simp [h4 h]

theorem split_prefix (p m a : Text) (rest : List Text) (h : '/' ∉ p) (hm : split '/' m = a :: rest) :
    split '/' (p ++ m) = (p ++ a) :: rest := by
  induction p with
  | nil => exact hm
  | cons c p ih =>
    have hc : c ≠ '/' := fun e => h (e ▸ List.mem_cons_self)
    rw [List.cons_append, split, if_neg hc, ih fun h' => h (List.mem_cons_of_mem _ h')]
    rfl

theorem split_slash (a b : Text) (h : '/' ∉ a) : split '/' (a ++ '/' :: b) = a :: split '/' b := split_append h

theorem fileName_head (b : BlockInfo) : "mainnet-".toList <+: fileName b := by
  unfold fileName
  rw [List.append_assoc]
  exact List.prefix_append _ _

theorem slash_fileName (b : BlockInfo) : '/' ∈ fileName b ↔ '/' ∈ b.stateHash := by
  have h1 : '/' ∉ "mainnet-".toList := by decide +kernel
  have h2 : '/' ∉ ".json".toList := by decide +kernel
  have h3 : '/' ∉ decimal b.blockHeight := by
    intro h
    have := decimal_digits _ _ h
    revert this
    decide
  unfold fileName
  simp only [List.mem_append, List.mem_cons, h1, h2, h3, false_or, or_false]
  simp

theorem null_fileName (b : BlockInfo) : Char.ofNat 0 ∈ fileName b ↔ Char.ofNat 0 ∈ b.stateHash := by
  have h1 : Char.ofNat 0 ∉ "mainnet-".toList := by decide +kernel
  have h2 : Char.ofNat 0 ∉ ".json".toList := by decide +kernel
  have h3 : Char.ofNat 0 ∉ decimal b.blockHeight := by
    intro h
    have := decimal_digits _ _ h
    revert this
    decide
  have h4 : Char.ofNat 0 ≠ '-' := by decide
  unfold fileName
  simp only [List.mem_append, List.mem_cons, h1, h2, h3, h4, false_or, or_false]

/-- In a folder that holds no folder named like a file of a block. -/
theorem walk_fileName (isDir : List Text → Bool) (cur : List Text) (b : BlockInfo)
    (hf : ∀ name, "mainnet-".toList <+: name → isDir (cur ++ [name]) = false) :
    walk isDir cur (split '/' (fileName b)) = if '/' ∈ b.stateHash then none else some ⟨cur, fileName b⟩ := by
  obtain ⟨m, hm⟩ : ∃ m, fileName b = "mainnet-".toList ++ m := by
    obtain ⟨m, hm⟩ := fileName_head b
    exact ⟨m, hm.symm⟩
  have hml : "mainnet-".toList = ['m', 'a', 'i', 'n', 'n', 'e', 't', '-'] := by decide +kernel
  have hfirst : ∃ a rest, split '/' (fileName b) = ("mainnet-".toList ++ a) :: rest ∧ (rest = [] ↔ '/' ∉ b.stateHash) := by
    obtain ⟨a, rest, h1, h2, h3, h4, -⟩ := split_first m
    refine ⟨a, rest, ?_, ?_⟩
    · rw [hm]
      exact split_prefix _ _ _ _ (by decide +kernel) h1
    · rw [← slash_fileName, hm]
      have : '/' ∉ "mainnet-".toList := by decide +kernel
      simp only [List.mem_append, this, false_or]
      exact ⟨h3, fun h => Classical.byContradiction fun hr => h (h4 hr)⟩
  obtain ⟨a, rest, h1, h2⟩ := hfirst
  have hd := hf ("mainnet-".toList ++ a) (List.prefix_append _ _)
  have n1 : "mainnet-".toList ++ a ≠ [] := by rw [hml]; simp
  have n2 : "mainnet-".toList ++ a ≠ ['.'] := by rw [hml]; simp
  have n3 : "mainnet-".toList ++ a ≠ ['.', '.'] := by rw [hml]; simp
  rw [h1]
  generalize "mainnet-".toList ++ a = x at h1 hd n1 n2 n3 ⊢
  cases rest with
  | nil =>
    have hs := h2.mp rfl
    rw [if_neg hs, walk, if_neg]
    · have hx : '/' ∉ fileName b := fun h => hs ((slash_fileName b).mp h)
      rw [split_of_notMem hx] at h1
      rw [← (List.cons.inj h1).1]
    · simp [n1, n2, n3, hd]
  | cons r rest =>
    have hs : '/' ∈ b.stateHash := Classical.byContradiction fun h => by cases h2.mpr h
    rw [if_pos hs, walk, if_neg (by simp [n1, n2]), if_neg n3, if_neg (by simp [hd])]
    simp

theorem walk_folder (isDir : List Text → Bool) (cur : List Text) (c : Text) (cs : List Text) (hc : cs ≠ []) (h1 : c ≠ [])
    (h2 : c ≠ ['.']) (h3 : c ≠ ['.', '.']) (h : isDir (cur ++ [c]) = true) :
    walk isDir cur (c :: cs) = walk isDir (cur ++ [c]) cs := by
  cases cs with
  | nil => exact absurd rfl hc
  | cons d cs =>
    rw [walk]
    · simp only [h1, h2, or_self, if_false, h3, h, if_true]
    · simp

theorem walk_dot (isDir : List Text → Bool) (cur : List Text) (cs : List Text) (hc : cs ≠ []) :
    walk isDir cur (['.'] :: cs) = walk isDir cur cs := by
  cases cs with
  | nil => exact absurd rfl hc
  | cons d cs =>
    rw [walk]
    · simp
    · simp

/-- The name of one of the two folders. -/
def Spec.Folder (op : Text) : Prop := op = "succeeded".toList ∨ op = "failed".toList

theorem folder_name {op : Text} (h : Spec.Folder op) :
    '/' ∉ op ∧ Char.ofNat 0 ∉ op ∧ op ≠ [] ∧ op ≠ ['.'] ∧ op ≠ ['.', '.'] := by
  rcases h with rfl | rfl <;> decide +kernel

theorem walk_output (isDir : List Text → Bool) (cwd : List Text) (op : Text) (b : BlockInfo) (ho : Spec.Folder op)
    (hr : Spec.Ready isDir cwd op) :
    walk isDir cwd ("output".toList :: op :: split '/' (fileName b)) =
      if '/' ∈ b.stateHash then none else some ⟨cwd ++ ["output".toList, op], fileName b⟩ := by
  obtain ⟨-, -, o1, o2, o3⟩ := folder_name ho
  rw [walk_folder isDir cwd _ _ (by simp) (by decide +kernel) (by decide +kernel) (by decide +kernel) hr.output,
    walk_folder isDir _ _ _ (split_ne_nil _ _) o1 o2 o3 hr.folder, walk_fileName isDir _ b hr.files]
  simp

/-- **C120.** A document is written to the file of its block in one of the two folders and nowhere else, whatever the name of the
block: when the hash holds a separator or a null character, nothing is written and the process ends. -/
theorem C120_places (isDir : List Text → Bool) (cwd : List Text) (op : Text) (b : BlockInfo) (ho : Spec.Folder op)
    (hr : Spec.Ready isDir cwd op) :
    writeJson isDir cwd op b =
      if '/' ∈ b.stateHash ∨ Char.ofNat 0 ∈ b.stateHash then none else some ⟨cwd ++ ["output".toList, op], fileName b⟩ := by
  obtain ⟨s0, z0, -, -, -⟩ := folder_name ho
  have zp : Char.ofNat 0 ∈ writePath op b ↔ Char.ofNat 0 ∈ b.stateHash := by
    have h1 : Char.ofNat 0 ∉ "./output/".toList := by decide +kernel
    have h2 : Char.ofNat 0 ≠ '/' := by decide
    unfold writePath
    simp only [List.mem_append, List.mem_cons, h1, h2, z0, false_or, null_fileName]
  have sp : split '/' (writePath op b) = ['.'] :: "output".toList :: op :: split '/' (fileName b) := by
    have e : "./output/".toList = ['.'] ++ '/' :: ("output".toList ++ '/' :: []) := by decide +kernel
    unfold writePath
    rw [e]
    simp only [List.append_assoc, List.cons_append, List.nil_append]
    have s1 : '/' ∉ "output".toList := by decide +kernel
    have t1 := split_slash ['.'] ("output".toList ++ '/' :: (op ++ '/' :: fileName b)) (by decide)
    rw [split_slash _ _ s1, split_slash _ _ s0] at t1
    exact t1
  unfold writeJson resolve
  by_cases hz : Char.ofNat 0 ∈ b.stateHash
  · rw [if_pos (zp.mpr hz), if_pos (.inr hz)]
  · rw [if_neg (fun h => hz (zp.mp h)), sp, walk_dot _ _ _ (by simp), walk_output isDir cwd op b ho hr]
    simp [hz]

/-- **C120.** The files looked at before a block is retrieved are those that are written afterwards. -/
theorem C120_looked_at (isDir : List Text → Bool) (cwd : List Text) (op : Text) (b : BlockInfo) (ho : Spec.Folder op)
    (hr : Spec.Ready isDir cwd op) : resolve isDir cwd (lookPath op b) = writeJson isDir cwd op b := by
  obtain ⟨s0, z0, -, -, -⟩ := folder_name ho
  have zp : Char.ofNat 0 ∈ lookPath op b ↔ Char.ofNat 0 ∈ b.stateHash := by
    have h1 : Char.ofNat 0 ∉ "output/".toList := by decide +kernel
    have h2 : Char.ofNat 0 ≠ '/' := by decide
    unfold lookPath
    simp only [List.mem_append, List.mem_cons, h1, h2, z0, false_or, null_fileName]
  have sp : split '/' (lookPath op b) = "output".toList :: op :: split '/' (fileName b) := by
    have e : "output/".toList = "output".toList ++ '/' :: [] := by decide +kernel
    unfold lookPath
    rw [e]
    simp only [List.append_assoc, List.cons_append, List.nil_append]
    have s1 : '/' ∉ "output".toList := by decide +kernel
    rw [split_slash _ _ s1, split_slash _ _ s0]
  rw [C120_places isDir cwd op b ho hr]
  unfold resolve
  by_cases hz : Char.ofNat 0 ∈ b.stateHash
  · rw [if_pos (zp.mpr hz), if_pos (.inr hz)]
  · rw [if_neg (fun h => hz (zp.mp h)), sp, walk_output isDir cwd op b ho hr]
    simp [hz]

/-- **C120.** Nothing outside the two folders is ever written, and two blocks never share a file. -/
theorem C120_inside (isDir : List Text → Bool) (cwd : List Text) (op op' : Text) (b b' : BlockInfo) (ho : Spec.Folder op)
    (ho' : Spec.Folder op') (hr : Spec.Ready isDir cwd op) (hr' : Spec.Ready isDir cwd op') (p : Place)
    (h : writeJson isDir cwd op b = some p) :
    p.folder = cwd ++ ["output".toList, op] ∧ (writeJson isDir cwd op' b' = some p → op' = op ∧ b' = b) := by
  rw [C120_places isDir cwd op b ho hr] at h
  split at h
  · cases h
  · cases h
    refine ⟨rfl, ?_⟩
    intro h'
    rw [C120_places isDir cwd op' b' ho' hr'] at h'
    split at h'
    · cases h'
    · have := Option.some.inj h'
      injection this with e1 e2
      have e3 := List.append_cancel_left e1
      exact ⟨(List.cons.inj (List.cons.inj e3).2).1, C83_names _ _ e2⟩

/-- **C120 fails** for a listed block whose hash holds a separator: when its document is retrieved, the process ends instead
of filing it. -/
theorem C120_separator_fails (isDir : List Text → Bool) (cwd : List Text) (op : Text) (height : Nat) (before after : Text)
    (ho : Spec.Folder op) (hr : Spec.Ready isDir cwd op) :
    writeJson isDir cwd op ⟨height, before ++ '/' :: after⟩ = none := by
  rw [C120_places isDir cwd op _ ho hr, if_pos (.inl (by simp))]

/-- A file system with the working folder `/w` and the two folders. -/
def exDirs (p : List Text) : Bool :=
  decide (p = [] ∨ p = [['w']] ∨ p = [['w'], "output".toList] ∨ p = [['w'], "output".toList, "succeeded".toList] ∨
    p = [['w'], "output".toList, "failed".toList])

example : Spec.Ready exDirs [['w']] "failed".toList := by
  refine ⟨by decide +kernel, by decide +kernel, ?_⟩
  intro name _
  unfold exDirs
  simp

example : writeJson exDirs [['w']] "failed".toList ⟨7, "../../../etc/x".toList⟩ = none ∧
    writeJson exDirs [['w']] "failed".toList ⟨7, "3NK".toList⟩ =
      some ⟨[['w'], "output".toList, "failed".toList], fileName ⟨7, "3NK".toList⟩⟩ := by
  have hr : Spec.Ready exDirs [['w']] "failed".toList := by
    refine ⟨by decide +kernel, by decide +kernel, ?_⟩
    intro name _
    unfold exDirs
    simp
  constructor
  · rw [C120_places _ _ _ _ (.inr rfl) hr, if_pos (by decide +kernel)]
  · rw [C120_places _ _ _ _ (.inr rfl) hr, if_neg (by decide +kernel)]
    rfl

end MinaRs.Crawler
