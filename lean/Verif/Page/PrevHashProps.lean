import Verif.Page.PrevHash
import Verif.BinProt.LooseGram

/-!
# C103: what the page is told about the predecessor of a block
-/

namespace MinaRs.Page

open Json (J JErr Env)
open Json.Block (externalTransition)
open Spec

theorem fetchBlock_ok {E : Env} {F : Json.Floats} {server : Server} {height : Nat} {hash : String} {r : Except JErr Block}
    {text : String} {doc : J} (h : Downloaded (server height hash) text) (hp : Document F text doc)
    (hd : Json.de E externalTransition doc = r) : fetchBlock E F server height hash = r := by
  obtain ⟨a, h1, rfl⟩ := (retry_iff (server height hash) text).mpr h
  unfold fetchBlock
  rw [h1]
  simp only [(Json.parse_iff F _ doc).mpr hp, hd]

theorem ok_fetchBlock {E : Env} {F : Json.Floats} {server : Server} {height : Nat} {hash : String} {b : Block}
    (h : fetchBlock E F server height hash = .ok b) :
    ∃ text doc, Downloaded (server height hash) text ∧ Document F text doc ∧ Json.de E externalTransition doc = .ok b := by
  unfold fetchBlock at h
  cases ha : Frontier.retry (server height hash) with
  | none => rw [ha] at h; cases h
  | some a =>
    rw [ha] at h
    simp only at h
    cases hp : Json.parse F (a.getD "").toList with
    | none => rw [hp] at h; cases h
    | some doc =>
      rw [hp] at h
      exact ⟨_, doc, (retry_iff (server height hash) _).mp ⟨a, ha, rfl⟩, (Json.parse_iff F _ doc).mp hp, h⟩

theorem de_previous (E : Env) (doc : J) (b : Block) (h : Json.de E externalTransition doc = .ok b) :
    ∃ bs s, PreviousIn doc (.str s) ∧ s.toList = Codec.encodeCheck E.chk 0x10 bs ∧
      BinProt.Spec.Wire Json.hashV1 bs (previousStateHash b) := by
  obtain ⟨sj, hs, hsd⟩ := de_first E "protocol_state" Json.Block.protocolState _ doc b ⟨_, rfl⟩ h
  unfold Json.Block.protocolState Json.Block.v2 at hsd
  rw [Json.de_versioned, Json.de_versioned] at hsd
  cases hi : Json.de E (.struct (Json.Block.fields [("previous_state_hash", Json.Block.stateHash),
      ("body", Json.Block.protocolStateBody)])) sj with
  | error e => rw [hi] at hsd; cases hsd
  | ok w =>
    rw [hi] at hsd
    simp only at hsd
    obtain ⟨pj, hp, hpd⟩ := de_first E "previous_state_hash" Json.Block.stateHash _ sj w ⟨_, rfl⟩ hi
    obtain ⟨bs, s, rfl, h1, h2⟩ := de_stateHash E pj _ hpd
    refine ⟨bs, s, ⟨sj, hs, hp⟩, h1, ?_⟩
    have hb := Except.ok.inj hsd
    have : previousStateHash b = (show Json.hashV1.denote × Json.Block.protocolStateBody.wire.denote × Unit from w).1 := by
      unfold previousStateHash
      simp only
      rw [← hb]
      rfl
    rw [this]
    exact h2

theorem wireInt_unique {enc : Bytes} {n m : Int} (h : BinProt.Spec.WireInt enc n) (h' : BinProt.Spec.WireInt enc m) : n = m := by
  have e1 := ((BinProt.C02_integer_read_exact BinProt.i64 enc).1 n []).mpr ⟨enc, by simp, h, BinProt.wireInt_i64 h⟩
  have e2 := ((BinProt.C02_integer_read_exact BinProt.i64 enc).1 m []).mpr ⟨enc, by simp, h', BinProt.wireInt_i64 h'⟩
  rw [e1] at e2
  exact (Prod.mk.inj (Except.ok.inj e2)).1

/-- The bytes of a hash: its number as written, and the 32 bytes. -/
theorem toBytes_parts (ver : {n : Int // BinProt.u16.holds n}) (a : (Json.u8s 32).prod) :
    BinProt.toBytes Json.hashV1 ((ver, a, ()) : {n : Int // BinProt.u16.holds n} × (Json.u8s 32).prod × Unit) =
      BinProt.flush (BinProt.binWriteInteger ver.val).1 ++ Json.arrBytes 32 a := by
  have h : BinProt.toBytes Json.hashV1 ((ver, a, ()) : {n : Int // BinProt.u16.holds n} × (Json.u8s 32).prod × Unit) =
      BinProt.flush ((BinProt.binWriteInteger ver.val).1 ++ (BinProt.encodeProd (Json.u8s 32) a ++ [])) := rfl
  rw [h, BinProt.flush_append, BinProt.flush_append, GraphQL.flush_u8s]
  show _ ++ (_ ++ []) = _
  simp

/-- The text in a document and the text of the answer name the same version number and bytes. -/
theorem names_both (E : Env) (bs : Bytes) (s : String) (v : Json.hashV1.denote) (hs : s.toList = Codec.encodeCheck E.chk 0x10 bs)
    (h : BinProt.Spec.Wire Json.hashV1 bs v) :
    ∃ n h32, Names E s n h32 ∧ Names E (toBase58String E v) n h32 ∧
      toBase58String E v = String.ofList (Codec.encodeCheck E.chk 0x10 (BinProt.flush (BinProt.binWriteInteger n).1 ++ h32)) := by
  obtain ⟨ver, a, u⟩ : {n : Int // BinProt.u16.holds n} × (Json.u8s 32).prod × Unit := v
  obtain ⟨num, h1, rfl⟩ := (GraphQL.wire_hash bs ver a).mp h
  have hn1 : (0 : Int) ≤ ver.val := ver.property.1
  have hn2 : ver.val ≤ 2 ^ 16 - 1 := ver.property.2
  have hl := Json.arrBytes_length 32 a
  have ht : toBase58String E ((ver, a, u) : {n : Int // BinProt.u16.holds n} × (Json.u8s 32).prod × Unit) =
      String.ofList (Codec.encodeCheck E.chk 0x10 (BinProt.flush (BinProt.binWriteInteger ver.val).1 ++ Json.arrBytes 32 a)) :=
    congrArg (fun bs => String.ofList (Codec.encodeCheck E.chk 0x10 bs)) (toBytes_parts ver a)
  refine ⟨ver.val, Json.arrBytes 32 a, ⟨hl, hn1, by omega, num, h1, ?_⟩,
    ⟨hl, hn1, by omega, _, BinProt.wireInt_write (BinProt.wireInt_i64 h1), ht⟩, ht⟩
  rw [← hs, String.ofList_toList]

/-! ## C103 -/

/-- There is one such text in a document, and it names one hash. -/
theorem C103_previous_unique (doc j k : J) (hj : PreviousIn doc j) (hk : PreviousIn doc k) : j = k := by
  have hat : ∀ n d a b, At n 0 d a → At n 0 d b → a = b := by
    rintro n d a b (⟨es, rfl, h1, h2⟩ | ⟨js, rfl, h1⟩) (⟨es', he, h3, h4⟩ | ⟨js', he, h3⟩)
    · cases he; exact h4 a h1
    · cases he
    · cases he
    · cases he; rw [h1] at h3; exact Option.some.inj h3
  obtain ⟨s, h1, h2⟩ := hj
  obtain ⟨s', h3, h4⟩ := hk
  have := hat _ _ _ _ h1 h3
  subst this
  exact hat _ _ _ _ h2 h4

theorem C103_hash_unique (E : Env) (t : String) (n m : Int) (a b : Bytes) (h : Names E t n a) (h' : Names E t m b) :
    n = m ∧ a = b := by
  obtain ⟨hl, h0, h1, num, hw, ht⟩ := h
  obtain ⟨hl', h0', h1', num', hw', ht'⟩ := h'
  have he := String.ofList_injective (ht.symm.trans ht')
  have hd := congrArg (Codec.decodeCheck E.chk 0x10) he
  rw [Codec.decodeCheck_encode E.chk_length, Codec.decodeCheck_encode E.chk_length] at hd
  have hc := (List.cons.inj (Except.ok.inj hd)).2
  have hlen := congrArg List.length hc
  simp only [List.length_append] at hlen
  obtain ⟨h2, h3⟩ := List.append_inj hc (by omega)
  subst h2
  exact ⟨wireInt_unique hw hw', h3⟩

/-- **C103.** The answer is a text of the hash that the downloaded document gives as the predecessor: same version number,
same 32 bytes. -/
theorem C103_answer (E : Env) (F : Json.Floats) (server : Server) (height : Nat) (hash t : String)
    (h : fetchBlockPreviousStateHash E F server height hash = .ok t) :
    ∃ text doc s n bytes, Downloaded (server height hash) text ∧ Document F text doc ∧ PreviousIn doc (.str s) ∧
      Names E s n bytes ∧ Names E t n bytes := by
  unfold fetchBlockPreviousStateHash at h
  cases hf : fetchBlock E F server height hash with
  | error e => rw [hf] at h; cases h
  | ok b =>
    rw [hf] at h
    cases h
    obtain ⟨text, doc, h1, h2, h3⟩ := ok_fetchBlock hf
    obtain ⟨bs, s, h4, h5, h6⟩ := de_previous E doc b h3
    obtain ⟨n, h32, h7, h8, -⟩ := names_both E bs s _ h5 h6
    exact ⟨text, doc, s, n, h32, h1, h2, h4, h7, h8⟩

/-- **C103.** When the document has the usual text of a hash, that text is the answer. -/
theorem C103_usual (E : Env) (F : Json.Floats) (server : Server) (height : Nat) (hash t text s : String) (doc : J)
    (bytes : Bytes) (h : fetchBlockPreviousStateHash E F server height hash = .ok t)
    (hd : Downloaded (server height hash) text) (hp : Document F text doc) (hs : PreviousIn doc (.str s))
    (hu : Usual E s bytes) : t = s := by
  unfold fetchBlockPreviousStateHash at h
  cases hf : fetchBlock E F server height hash with
  | error e => rw [hf] at h; cases h
  | ok b =>
    rw [hf] at h
    cases h
    obtain ⟨text', doc', h1, h2, h3⟩ := ok_fetchBlock hf
    have htext : text' = text := by
      obtain ⟨a, e1, e2⟩ := (retry_iff (server height hash) text).mpr hd
      obtain ⟨a', e3, e4⟩ := (retry_iff (server height hash) text').mpr h1
      rw [e1] at e3
      rw [e2, e4, Option.some.inj e3]
    subst htext
    have hdoc : doc' = doc := by
      have e1 := (Json.parse_iff F _ doc).mpr hp
      have e2 := (Json.parse_iff F _ doc').mpr h2
      rw [e1] at e2
      exact (Option.some.inj e2).symm
    subst hdoc
    obtain ⟨bs, s', h4, h5, h6⟩ := de_previous E doc' b h3
    cases C103_previous_unique doc' _ _ hs h4
    obtain ⟨n, h32, h7, -, h8⟩ := names_both E bs s _ h5 h6
    have hone : Names E s 1 bytes := ⟨hu.1, by decide, by decide, [1], .small 1 (by decide), hu.2⟩
    obtain ⟨rfl, rfl⟩ := C103_hash_unique E s _ _ _ _ h7 hone
    rw [h8, hu.2]
    rfl

/-- **C103.** There is an answer exactly when one of the first three downloads succeeds and the first that does gives a
document that is accepted as a block; otherwise the outcome is the error of that document, or an error. -/
theorem C103_answered_iff (E : Env) (F : Json.Floats) (server : Server) (height : Nat) (hash : String) :
    (∃ t, fetchBlockPreviousStateHash E F server height hash = .ok t) ↔
      ∃ text doc b, Downloaded (server height hash) text ∧ Document F text doc ∧ Json.de E externalTransition doc = .ok b := by
  constructor
  · rintro ⟨t, h⟩
    unfold fetchBlockPreviousStateHash at h
    cases hf : fetchBlock E F server height hash with
    | error e => rw [hf] at h; cases h
    | ok b =>
      obtain ⟨text, doc, h1⟩ := ok_fetchBlock hf
      exact ⟨text, doc, b, h1⟩
  · rintro ⟨text, doc, b, h1, h2, h3⟩
    refine ⟨toBase58String E (previousStateHash b), ?_⟩
    unfold fetchBlockPreviousStateHash
    rw [fetchBlock_ok h1 h2 h3]

/-- **C103.** Without a download in three attempts, or without a JSON document in it, the outcome is an error. -/
theorem C103_no_document (E : Env) (F : Json.Floats) (server : Server) (height : Nat) (hash : String)
    (h : ∀ text, Downloaded (server height hash) text → ∀ doc, ¬ Document F text doc) :
    fetchBlockPreviousStateHash E F server height hash = .error .err := by
  have hf : fetchBlock E F server height hash = .error .err := by
    unfold fetchBlock
    cases ha : Frontier.retry (server height hash) with
    | none => rfl
    | some a =>
      simp only
      cases hp : Json.parse F (a.getD "").toList with
      | none => rfl
      | some doc => exact absurd ((Json.parse_iff F _ doc).mp hp) (h _ ((retry_iff (server height hash) _).mp ⟨a, ha, rfl⟩) doc)
  unfold fetchBlockPreviousStateHash
  rw [hf]

/-- **C103.** A document that makes the reader fail makes the page fail the same way: an error, or a panic that aborts the
page's code. -/
theorem C103_refused (E : Env) (F : Json.Floats) (server : Server) (height : Nat) (hash text : String) (doc : J)
    (e : JErr) (hd : Downloaded (server height hash) text) (hp : Document F text doc)
    (h : Json.de E externalTransition doc = .error e) :
    fetchBlockPreviousStateHash E F server height hash = .error e := by
  unfold fetchBlockPreviousStateHash
  rw [fetchBlock_ok hd hp h]

/-! ## Documents with another text of the hash -/

/-- Entries with other names do not matter. -/
theorem lookup_other {n m : String} (h : m ≠ n) (x : J) (es : List (String × J)) :
    Json.lookup n ((m, x) :: es) = Json.lookup n es := by
  unfold Json.lookup
  rw [List.filter_cons_of_neg (by simpa using h)]

/-- The names of the fields (`protocol/serialization-types/src/external_transition.rs:46-70`). -/
def fieldNames : Json.JTys → List String
  | .nil => []
  | .cons n _ ts => n :: fieldNames ts
  | .skip _ _ ts => fieldNames ts

theorem deStruct_other (E : Env) {m : String} (x y : J) (es : List (String × J)) : (ts : Json.JTys) → m ∉ fieldNames ts →
    Json.deStruct E ts ((m, x) :: es) = Json.deStruct E ts ((m, y) :: es)
  | .nil, _ => rfl
  | .cons n t ts, h => by
    simp only [fieldNames, List.mem_cons, not_or] at h
    rw [Json.deStruct_cons, Json.deStruct_cons, lookup_other h.1, lookup_other h.1, deStruct_other E x y es ts h.2]
  | .skip n s ts, h => by
    rw [Json.deStruct_skip, Json.deStruct_skip, deStruct_other E x y es ts h]

/-- The first member of an accepted object may be replaced by another one that is accepted. -/
theorem de_replace (E : Env) {n : String} {t : Json.JTy} {ts : Json.JTys} {x y : J} {es : List (String × J)} {a a' : t.wire.denote}
    {w : ts.wire.prod} (hn : n ∉ fieldNames ts) (hy : Json.de E t y = .ok a')
    (h : Json.deStruct E (.cons n t ts) ((n, x) :: es) = .ok ((a, w) : t.wire.denote × ts.wire.prod)) :
    Json.deStruct E (.cons n t ts) ((n, y) :: es) = .ok ((a', w) : t.wire.denote × ts.wire.prod) := by
  have hl : ∀ z, Json.lookup n ((n, z) :: es) = z :: Json.lookup n es := by
    intro z
    unfold Json.lookup
    rw [List.filter_cons_of_pos (by simp)]
    rfl
  rw [Json.deStruct_cons, hl] at h ⊢
  cases he : Json.lookup n es with
  | cons _ _ => rw [he] at h; cases h
  | nil =>
    rw [he] at h
    simp only at h ⊢
    rw [hy]
    simp only
    cases hx : Json.de E t x with
    | error e => rw [hx] at h; cases h
    | ok b =>
      rw [hx] at h
      simp only at h
      rw [deStruct_other E y x es ts hn]
      cases hr : Json.deStruct E ts ((n, x) :: es) with
      | error e => rw [hr] at h; cases h
      | ok w' =>
        rw [hr] at h
        simp only at h ⊢
        have := (Prod.mk.inj (Except.ok.inj h)).2
        rw [this]

theorem ser_first (E : Env) {n : String} {t : Json.JTy} {ts : Json.JTys} {v : (Json.JTy.struct (.cons n t ts)).wire.denote} {j : J}
    (h : Json.ser E (.struct (.cons n t ts)) v = .ok j) :
    ∃ x es, j = .obj ((n, x) :: es) ∧ Json.ser E t (show t.wire.denote × ts.wire.prod from v).1 = .ok x := by
  rw [Json.ser_struct] at h
  have hc := Json.serStruct_cons E n t ts v
  rw [show Json.serStruct E (.cons n t ts) v = _ from hc] at h
  cases hx : Json.ser E t (show t.wire.denote × ts.wire.prod from v).1 with
  | error e => rw [hx] at h; cases h
  | ok x =>
    rw [hx] at h
    simp only at h
    cases hr : Json.serStruct E ts (show t.wire.denote × ts.wire.prod from v).2 with
    | error e => rw [hr] at h; cases h
    | ok es =>
      rw [hr] at h
      exact ⟨x, es, (Except.ok.inj h).symm, rfl⟩

/-- A text of a hash is read as that hash. -/
theorem de_of_wire (E : Env) (bs : Bytes) (v : Json.hashV1.denote) (h : BinProt.Spec.Wire Json.hashV1 bs v) :
    Json.de E Json.Block.stateHash (.str (String.ofList (Codec.encodeCheck E.chk 0x10 bs))) = .ok v := by
  show (match Codec.decodeCheck E.chk 0x10 (String.ofList (Codec.encodeCheck E.chk 0x10 bs)).toList with
      | .error _ => .error .err
      | .ok bs => Json.strictAfterVersion Json.hashV1 bs) = Except.ok v
  rw [String.toList_ofList, Codec.decodeCheck_encode E.chk_length]
  simp only [Json.strictAfterVersion, (GraphQL.strict_hash_iff bs v).mpr h]

/-- The first member of a written object, when the object is accepted. -/
theorem first_accepted (E : Env) {n : String} {t : Json.JTy} {ts : Json.JTys} {x : J} {es : List (String × J)}
    {b : (Json.JTy.struct (.cons n t ts)).wire.denote} (ha : ∃ e, Json.absent t = .error e)
    (h : Json.de E (.struct (.cons n t ts)) (.obj ((n, x) :: es)) = .ok b) :
    Json.de E t x = .ok (show t.wire.denote × ts.wire.prod from b).1 := by
  obtain ⟨x', hat, hxd⟩ := de_first E n t ts _ b ha h
  rcases hat with ⟨es'', he, -, hu⟩ | ⟨js, he, -⟩
  · cases he
    rw [hu _ (List.mem_cons_self ..)]
    exact hxd
  · cases he

/-- The member under the name is unique in an accepted object. -/
theorem at_first (E : Env) {n : String} {t : Json.JTy} {ts : Json.JTys} {x : J} {es : List (String × J)}
    {b : (Json.JTy.struct (.cons n t ts)).wire.denote} (ha : ∃ e, Json.absent t = .error e)
    (h : Json.de E (.struct (.cons n t ts)) (.obj ((n, x) :: es)) = .ok b) : At n 0 (.obj ((n, x) :: es)) x := by
  obtain ⟨x', hat, hxd⟩ := de_first E n t ts _ b ha h
  rcases hat with ⟨es'', he, hm, hu⟩ | ⟨js, he, -⟩
  · cases he
    have := hu _ (List.mem_cons_self ..)
    subst this
    exact .inl ⟨_, rfl, hm, hu⟩
  · cases he

/-- `de_replace` for whole objects. -/
theorem de_replace' (E : Env) {n : String} {t : Json.JTy} {ts : Json.JTys} {x y : J} {es : List (String × J)} {a' : t.wire.denote}
    {b : (Json.JTy.struct (.cons n t ts)).wire.denote} (hn : n ∉ fieldNames ts) (hy : Json.de E t y = .ok a')
    (h : Json.de E (.struct (.cons n t ts)) (.obj ((n, x) :: es)) = .ok b) :
    Json.de E (.struct (.cons n t ts)) (.obj ((n, y) :: es)) =
      .ok (show (Json.JTy.struct (.cons n t ts)).wire.denote from
        ((a', (show t.wire.denote × ts.wire.prod from b).2) : t.wire.denote × ts.wire.prod)) := by
  obtain ⟨a, w⟩ : t.wire.denote × ts.wire.prod := b
  exact de_replace E hn hy h

/-- Fields of a state (`protocol/serialization-types/src/protocol_state.rs:24-31`). -/
abbrev stateFields : Json.JTys := .cons "body" Json.Block.protocolStateBody .nil
/-- Fields of a block after the state (`protocol/serialization-types/src/external_transition.rs:52-69`). -/
abbrev blockFields : Json.JTys := Json.Block.fields
  [("protocol_state_proof", .leaf (.base64Bin Json.Block.proof.wire)),
    ("staged_ledger_diff", Json.Block.stagedLedgerDiff), ("delta_transition_chain_proof", Json.Block.deltaProof)]
  (.skip "current_protocol_version" .protocolVersion
    (.skip "proposed_protocol_version_opt" .optProtocolVersion
      (.skip "validation_callback" .unit .nil)))

theorem block_eq : externalTransition = .struct (.cons "protocol_state" Json.Block.protocolState blockFields) := rfl
theorem state_eq : Json.Block.protocolState =
    .versioned (.versioned (.struct (.cons "previous_state_hash" Json.Block.stateHash stateFields))) := rfl

theorem versioned_ok (E : Env) (t : Json.JTy) (j : J) (r : (Json.JTy.versioned t).wire.denote)
    (h : Json.de E (.versioned t) j = .ok r) : ∃ v, Json.de E t j = .ok v := by
  rw [Json.de_versioned] at h
  cases hi : Json.de E t j with
  | error e => rw [hi] at h; cases h
  | ok v => exact ⟨v, rfl⟩

theorem versioned_of (E : Env) (t : Json.JTy) (j : J) (v : t.wire.denote) (h : Json.de E t j = .ok v) :
    Json.de E (.versioned t) j = .ok (Json.version1 v) := by
  rw [Json.de_versioned, h]

theorem replaced (E : Env) (rest rest' : List (String × J)) (y y' : J) (h' : Json.hashV1.denote) (b : Block)
    (hb : Json.de E externalTransition (.obj (("protocol_state", .obj (("previous_state_hash", y) :: rest)) :: rest')) = .ok b)
    (hy : Json.de E Json.Block.stateHash y' = .ok h') :
    ∃ b', Json.de E externalTransition (.obj (("protocol_state", .obj (("previous_state_hash", y') :: rest)) :: rest')) = .ok b' ∧
      previousStateHash b' = h' ∧
      PreviousIn (.obj (("protocol_state", .obj (("previous_state_hash", y') :: rest)) :: rest')) y' := by
  have hs := first_accepted E (n := "protocol_state") (t := Json.Block.protocolState) (ts := blockFields) ⟨_, rfl⟩ hb
  have hs' : ∃ s, Json.de E (.struct (.cons "previous_state_hash" Json.Block.stateHash stateFields))
      (.obj (("previous_state_hash", y) :: rest)) = .ok s := by
    obtain ⟨r, hr⟩ := versioned_ok E _ _ _ hs
    exact versioned_ok E _ _ _ hr
  obtain ⟨s, hi⟩ := hs'
  have hi' := de_replace' E (ts := stateFields) (y := y') (by decide) hy hi
  have hst := versioned_of E _ _ _ (versioned_of E _ _ _ hi')
  have hb' := de_replace' E (t := Json.Block.protocolState) (ts := blockFields) (by decide) hst hb
  exact ⟨_, hb', rfl, ⟨_, at_first E (ts := blockFields) ⟨_, rfl⟩ hb', at_first E (ts := stateFields) ⟨_, rfl⟩ hi'⟩⟩

set_option maxRecDepth 20000 in
theorem externalTransition_deep : externalTransition.deep ≤ 127 := by decide +kernel

/-- What a document is written to is read as that document. -/
theorem document_print (F : Json.Floats) {doc : J} (h : Json.Grammar.Plain doc ∧ Json.Grammar.depth doc ≤ 127) :
    Document F (String.ofList (Json.print F doc)) doc := by
  unfold Document
  rw [String.toList_ofList]
  exact ⟨⟨[], _, [], by simp, (fun c h => by cases h), Json.print_value F doc h.1, (fun c h => by cases h)⟩, h.2⟩

/-- The document of any block that can be written, with the hash replaced by a text that writes the number 1 in two bytes. -/
theorem odd_document (E : Env) (v : Json.Block.Blk) (hv : Json.Leaves Json.Leaf.Carried Json.Block.block v) (bytes : Bytes)
    (hl : bytes.length = 32) :
    ∃ doc b, (Json.Grammar.Plain doc ∧ Json.Grammar.depth doc ≤ 127) ∧ Json.de E externalTransition doc = .ok b ∧
    PreviousIn doc (.str (String.ofList (Codec.encodeCheck E.chk 0x10 ([0xff, 1] ++ bytes)))) ∧
    toBase58String E (previousStateHash b) = String.ofList (Codec.encodeCheck E.chk 0x10 (1 :: bytes)) := by
  obtain ⟨j, h1, h2⟩ := Json.Block.C61_roundtrip_partial E v hv
  have h1' : Json.ser E externalTransition (Json.Block.parts v) = .ok j := h1
  obtain ⟨x, rest', rfl, hx⟩ := ser_first E (n := "protocol_state") (t := Json.Block.protocolState) (ts := blockFields) h1'
  obtain ⟨y, rest, rfl, -⟩ := ser_first E (n := "previous_state_hash") (t := Json.Block.stateHash) (ts := stateFields) hx
  have hb : ∃ b, Json.de E externalTransition
      (.obj (("protocol_state", .obj (("previous_state_hash", y) :: rest)) :: rest')) = .ok b := by
    unfold Json.Block.block Json.Block.v1 at h2
    rw [Json.de_versioned] at h2
    cases hd : Json.de E externalTransition
        (.obj (("protocol_state", .obj (("previous_state_hash", y) :: rest)) :: rest')) with
    | error e => rw [hd] at h2; cases h2
    | ok b => exact ⟨b, rfl⟩
  obtain ⟨b, hb⟩ := hb
  obtain ⟨a, ha⟩ := Json.bytesArr_isSome hl
  have hbytes := Json.bytesArr_some ha
  have hw : BinProt.Spec.Wire Json.hashV1 ([0xff, 1] ++ bytes) (Json.version1 (t := Json.arr32) a) :=
    (GraphQL.wire_hash _ ⟨1, by decide⟩ a).mpr ⟨[0xff, 1], .wide 0xff 1 [1] 1 (by decide) (by decide) rfl
      (by unfold BinProt.Spec.IsSignedLE; decide), by rw [hbytes]⟩
  obtain ⟨b', h3, h4, h5⟩ := replaced E rest rest' y _ _ b hb (de_of_wire E _ _ hw)
  refine ⟨_, b', ?_, h3, h5, ?_⟩
  · obtain ⟨hp, hd⟩ := Json.ser_flat E externalTransition _ _ h1'
    have hdeep := externalTransition_deep
    simp only [Json.Grammar.Plain, Json.Grammar.PlainMembers] at hp ⊢
    simp only [Json.Grammar.depth, Json.Grammar.depthMembers] at hd ⊢
    exact ⟨⟨⟨trivial, hp.1.2⟩, hp.2⟩, by omega⟩
  rw [h4]
  unfold toBase58String
  rw [GraphQL.toBytes_hash a, hbytes]

theorem text_ne (E : Env) (bytes : Bytes) : String.ofList (Codec.encodeCheck E.chk 0x10 (1 :: bytes)) ≠
    String.ofList (Codec.encodeCheck E.chk 0x10 ([0xff, 1] ++ bytes)) := by
  intro h
  have hd := congrArg (Codec.decodeCheck E.chk 0x10) (String.ofList_injective h)
  rw [Codec.decodeCheck_encode E.chk_length, Codec.decodeCheck_encode E.chk_length] at hd
  have hc := congrArg List.length (List.cons.inj (Except.ok.inj hd)).2
  simp at hc

/-- **C103 fails** for the text itself: for every hash there is a download that says an accepted document whose text of the hash
is not the text the page gets, though both name the same hash. -/
theorem C103_same_text_fails (E : Env) (F : Json.Floats) (bytes : Bytes) (hl : bytes.length = 32) (height : Nat) (hash : String) :
    ∃ (server : Server) (text s t : String) (doc : J), Downloaded (server height hash) text ∧
      Document F text doc ∧ PreviousIn doc (.str s) ∧ Names E s 1 bytes ∧
      fetchBlockPreviousStateHash E F server height hash = .ok t ∧ t ≠ s := by
  obtain ⟨doc, b, hp, h1, h2, h3⟩ := odd_document E _ Json.Block.sampleBlock.2 bytes hl
  generalize htext : String.ofList (Json.print F doc) = text
  have hdoc : Document F text doc := htext ▸ document_print F hp
  have hd : Downloaded [some (some text)] text := ⟨0, some text, by decide, rfl, by simp, rfl⟩
  refine ⟨fun _ _ => [some (some text)], text, _, _, doc, hd, hdoc, h2,
    ⟨hl, by decide, by decide, [0xff, 1], .wide 0xff 1 [1] 1 (by decide) (by decide) rfl
      (by unfold BinProt.Spec.IsSignedLE; decide), rfl⟩, ?_, text_ne E bytes⟩
  unfold fetchBlockPreviousStateHash
  rw [fetchBlock_ok hd hdoc h1]
  simp only [h3]

/-- **C103 fails** for the block itself: whatever hash of blocks the network uses, there are a request and a server that answers
it with a block of another hash, and the page gets the predecessor of that one. -/
theorem C103_requested_block_fails (E : Env) (F : Json.Floats) (stateHashOf : Block → String) (height : Nat) :
    ∃ (server : Server) (hash t : String) (b : Block),
      fetchBlock E F server height hash = .ok b ∧ stateHashOf b ≠ hash ∧
      fetchBlockPreviousStateHash E F server height hash = .ok t := by
  obtain ⟨doc, b, hp, h1, -, -⟩ := odd_document E _ Json.Block.sampleBlock.2 (List.replicate 32 7) rfl
  generalize htext : String.ofList (Json.print F doc) = text
  have hdoc : Document F text doc := htext ▸ document_print F hp
  have hf : ∀ hash, fetchBlock E F (fun _ _ => [some (some text)]) height hash = .ok b := fun hash =>
    fetchBlock_ok (text := text) ⟨0, some text, by decide, rfl, by simp, rfl⟩ hdoc h1
  refine ⟨fun _ _ => [some (some text)], if stateHashOf b = "a" then "b" else "a",
    toBase58String E (previousStateHash b), b, hf _, ?_, ?_⟩
  · by_cases h : stateHashOf b = "a"
    · rw [if_pos h, h]; decide
    · rw [if_neg h]; exact h
  · unfold fetchBlockPreviousStateHash
    rw [hf]

/-- The hypotheses of `C103_answer` and `C103_answered_iff` are met: two attempts throw, the third succeeds. -/
example (E : Env) (F : Json.Floats) : ∃ (server : Server) (text t : String),
    Downloaded (server 5 "x") text ∧ fetchBlockPreviousStateHash E F server 5 "x" = .ok t := by
  obtain ⟨doc, b, hp, h1, -, -⟩ := odd_document E _ Json.Block.sampleBlock.2 (List.replicate 32 7) rfl
  generalize htext : String.ofList (Json.print F doc) = text
  have hdoc : Document F text doc := htext ▸ document_print F hp
  have hd : Downloaded [none, none, some (some text), none] text :=
    ⟨2, some text, by decide, rfl, fun i hi => by match i, hi with | 0, _ => rfl | 1, _ => rfl, rfl⟩
  refine ⟨fun _ _ => [none, none, some (some text), none], text, toBase58String E (previousStateHash b), hd, ?_⟩
  unfold fetchBlockPreviousStateHash
  rw [fetchBlock_ok hd hdoc h1]

/-- Those of `C103_no_document`: three failures, though a fourth attempt would have succeeded. -/
example (E : Env) (F : Json.Floats) (text : String) : fetchBlockPreviousStateHash E F
    (fun _ _ => [none, none, none, some (some text)]) 5 "x" = .error .err := by
  refine C103_no_document E _ _ 5 "x" (fun text h => ?_)
  obtain ⟨k, a, hk, h1, -⟩ := h
  match k, hk with
  | 0, _ => cases h1
  | 1, _ => cases h1
  | 2, _ => cases h1

end MinaRs.Page
