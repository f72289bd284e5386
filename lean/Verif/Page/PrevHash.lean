import Verif.Json.BlockProps
import Verif.Json.DocPrint
import Verif.Json.Reread
import Verif.Frontier.Poll
import Verif.GraphQL.AcceptedLemmas

/-!
# C103: the previous state hash of a block, as the page shows it

`fetch_block_previous_state_hash` (`apps/wasm/mvp/src/js_exports.rs:10-24`) downloads the document of a block
(`network/src/processor/js/graphql_api_v1.rs:24-35`, `network/js/graphql_v1_utils.js:8-35`), reads it as a block and writes
one of its hashes as text.
-/

namespace MinaRs.Page

open Json (J JErr Env)
open Json.Block (externalTransition)

/-! ## Model -/

/-- The fields of `ExternalTransitionJson` (`protocol/serialization-types/src/external_transition.rs:46-70`). -/
abbrev Block : Type := externalTransition.wire.denote

/-- The fields of `ProtocolStateJson` (`protocol/serialization-types/src/protocol_state.rs:20-31`): two version layers, absent in JSON,
around the previous hash and the body. -/
abbrev State : Type :=
  {n : Int // BinProt.u16.holds n} ×
    ({n : Int // BinProt.u16.holds n} × (Json.hashV1.denote × Json.Block.protocolStateBody.wire.denote × Unit) × Unit) × Unit

/-- `block.protocol_state.previous_state_hash` (`apps/wasm/mvp/src/js_exports.rs:19-21`). -/
def previousStateHash (b : Block) : Json.hashV1.denote :=
  let s : State := (show Json.Block.protocolState.wire.denote × _ from b).1
  s.2.1.2.1.1

/-- `to_base58_string` of a state hash (`protocol/serialization-types/src/common.rs:344-358`): the version byte of state hashes,
the version number and the 32 bytes.  Writing to a `Vec` does not fail. -/
def toBase58String (E : Env) (h : Json.hashV1.denote) : String :=
  String.ofList (Codec.encodeCheck E.chk 0x10 (BinProt.toBytes Json.hashV1 h))

/-- What a download of a block gives, attempt by attempt (`network/js/graphql_v1_utils.js:20-35`): `none` when it throws,
`some none` when the script returns something that is not a string. -/
abbrev Server : Type := Nat → String → List (Option (Option String))

/-- `fetch_block` (`graphql_api_v1.rs:24-35`).  An answer that is not a string counts as the empty text
(`as_string().unwrap_or_default()`).  `F` reads the numbers that are no integers. -/
def fetchBlock (E : Env) (F : Json.Floats) (server : Server) (height : Nat) (stateHash : String) : Except JErr Block :=
  match Frontier.retry (server height stateHash) with
  | none => .error .err
  | some answer =>
    match Json.parse F (answer.getD "").toList with
    | none => .error .err
    | some doc => Json.de E externalTransition doc

/-- `fetch_block_previous_state_hash` (`apps/wasm/mvp/src/js_exports.rs:11-24`). -/
def fetchBlockPreviousStateHash (E : Env) (F : Json.Floats) (server : Server) (height : Nat) (stateHash : String) :
    Except JErr String :=
  match fetchBlock E F server height stateHash with
  | .error e => .error e
  | .ok b => .ok (toBase58String E (previousStateHash b))

/-! ## Specification -/

namespace Spec

/-- `j` is the only member of the object under the name, or the item of the array at the place of that field. -/
def At (name : String) (i : Nat) (doc j : J) : Prop :=
  (∃ es, doc = .obj es ∧ (name, j) ∈ es ∧ ∀ k, (name, k) ∈ es → k = j) ∨ (∃ js, doc = .arr js ∧ js[i]? = some j)

/-- The member `protocol_state.previous_state_hash` of the document of a block. -/
def PreviousIn (doc j : J) : Prop := ∃ s, At "protocol_state" 0 doc s ∧ At "previous_state_hash" 0 s j

/-- The text of a state hash: base58check of the version byte 0x10, a version number `n` below 2^16 in one of its wire forms,
and the 32 bytes. -/
def Names (E : Env) (t : String) (n : Int) (h : Bytes) : Prop :=
  h.length = 32 ∧ 0 ≤ n ∧ n < 2 ^ 16 ∧
    ∃ num, BinProt.Spec.WireInt num n ∧ t = String.ofList (Codec.encodeCheck E.chk 0x10 (num ++ h))

/-- The usual text of a state hash: the version number is 1, in one byte. -/
def Usual (E : Env) (t : String) (h : Bytes) : Prop :=
  h.length = 32 ∧ t = String.ofList (Codec.encodeCheck E.chk 0x10 (1 :: h))

/-- What the download gave in the end: the first attempt that did not throw among the first three. -/
def Downloaded (attempts : List (Option (Option String))) (text : String) : Prop :=
  ∃ k a, k < 3 ∧ attempts[k]? = some (some a) ∧ (∀ i < k, attempts[i]? = some none) ∧ text = a.getD ""

/-- What a text says, if it is JSON (RFC 8259) nested at most 127 deep. -/
def Document (F : Json.Floats) (text : String) (doc : J) : Prop :=
  Json.Grammar.Says F.read text.toList doc ∧ Json.Grammar.depth doc ≤ 127

end Spec

open Spec

/-! ## Lemmas -/

theorem retryLoop_some {D : Type} : (n : Nat) → (as : List (Option D)) → (d : D) → (Frontier.retryLoop n as = some d ↔
    ∃ k, k < n ∧ as[k]? = some (some d) ∧ ∀ i < k, as[i]? = some none)
  | 0, as, d => by
    constructor
    · intro h; cases as <;> cases h
    · rintro ⟨k, h, -⟩; omega
  | n + 1, [], d => by
    constructor
    · intro h; cases h
    · rintro ⟨k, -, h, -⟩; simp at h
  | n + 1, some a :: rest, d => by
    constructor
    · intro h
      cases h
      exact ⟨0, by omega, rfl, fun i hi => by omega⟩
    · rintro ⟨k, hk, h, hi⟩
      cases k with
      | zero => simp at h; subst h; rfl
      | succ k => have := hi 0 (by omega); simp at this
  | n + 1, none :: rest, d => by
    show Frontier.retryLoop n rest = some d ↔ _
    rw [retryLoop_some n rest d]
    constructor
    · rintro ⟨k, hk, h, hi⟩
      refine ⟨k + 1, by omega, h, fun i hlt => ?_⟩
      cases i with
      | zero => rfl
      | succ i => exact hi i (by omega)
    · rintro ⟨k, hk, h, hi⟩
      cases k with
      | zero => simp at h
      | succ k => exact ⟨k, by omega, h, fun i hlt => hi (i + 1) (by omega)⟩

theorem retry_iff (attempts : List (Option (Option String))) (text : String) :
    (∃ a, Frontier.retry attempts = some a ∧ text = a.getD "") ↔ Downloaded attempts text := by
  constructor
  · rintro ⟨a, h, rfl⟩
    obtain ⟨k, h1, h2, h3⟩ := (retryLoop_some 3 attempts a).mp h
    exact ⟨k, a, h1, h2, h3, rfl⟩
  · rintro ⟨k, a, h1, h2, h3, rfl⟩
    exact ⟨a, (retryLoop_some 3 attempts a).mpr ⟨k, h1, h2, h3⟩, rfl⟩

theorem lookup_single {n : String} {es : List (String × J)} {j : J} (h : Json.lookup n es = [j]) :
    (n, j) ∈ es ∧ ∀ k, (n, k) ∈ es → k = j := by
  have hm : ∀ k, (n, k) ∈ es ↔ k ∈ Json.lookup n es := by
    intro k
    unfold Json.lookup
    simp only [List.mem_map, List.mem_filter, beq_iff_eq, Prod.exists]
    constructor
    · intro hk; exact ⟨n, k, ⟨hk, rfl⟩, rfl⟩
    · rintro ⟨a, b, ⟨hk, rfl⟩, rfl⟩; exact hk
  refine ⟨(hm j).mpr (by rw [h]; simp), fun k hk => ?_⟩
  have := (hm k).mp hk
  rw [h] at this
  simpa using this

/-- The first field of a struct, found in the document. -/
theorem de_first (E : Env) (n : String) (t : Json.JTy) (ts : Json.JTys) (doc : J) (v : (Json.JTy.struct (.cons n t ts)).wire.denote)
    (ha : ∃ e, Json.absent t = .error e) (h : Json.de E (.struct (.cons n t ts)) doc = .ok v) :
    ∃ j, At n 0 doc j ∧ Json.de E t j = .ok (show t.wire.denote × ts.wire.prod from v).1 := by
  obtain ⟨e, ha⟩ := ha
  cases doc with
  | obj es =>
    rw [Json.de_struct_obj, Json.deStruct_cons] at h
    cases hl : Json.lookup n es with
    | nil => rw [hl, ha] at h; cases h
    | cons j js =>
      cases js with
      | cons _ _ => rw [hl] at h; cases h
      | nil =>
        rw [hl] at h
        simp only at h
        refine ⟨j, .inl ⟨es, rfl, lookup_single hl⟩, ?_⟩
        cases hd : Json.de E t j with
        | error e => rw [hd] at h; cases h
        | ok a =>
          rw [hd] at h
          simp only at h
          cases hr : Json.deStruct E ts es with
          | error e => rw [hr] at h; cases h
          | ok b => rw [hr] at h; cases h; rfl
  | arr js =>
    cases js with
    | nil => cases h
    | cons j js =>
      change Json.deTuple E (.cons n t ts) (j :: js) = _ at h
      rw [Json.deTuple_cons] at h
      refine ⟨j, .inr ⟨j :: js, rfl, rfl⟩, ?_⟩
      cases hd : Json.de E t j with
      | error e => rw [hd] at h; cases h
      | ok a =>
        rw [hd] at h
        simp only at h
        cases hr : Json.deTuple E ts js with
        | error e => rw [hr] at h; cases h
        | ok b => rw [hr] at h; cases h; rfl
  | _ => cases h

/-- The text a state hash was read from. -/
theorem de_stateHash (E : Env) (j : J) (h : Json.hashV1.denote)
    (hd : Json.de E (.leaf (.base58Bin 0x10 Json.hashV1)) j = .ok h) :
    ∃ bs s, j = .str s ∧ s.toList = Codec.encodeCheck E.chk 0x10 bs ∧ BinProt.Spec.Wire Json.hashV1 bs h := by
  cases j with
  | str s =>
    have hd' : (match Codec.decodeCheck E.chk 0x10 s.toList with
      | .error _ => .error .err
      | .ok bs => Json.strictAfterVersion Json.hashV1 bs) = Except.ok h := hd
    cases hc : Codec.decodeCheck E.chk 0x10 s.toList with
    | error e => rw [hc] at hd'; cases hd'
    | ok out =>
      rw [hc] at hd'
      rcases (Codec.decodeCheck_ok_iff E.chk_length 0x10 _ out).mp hc with ⟨bs, rfl, he⟩ | ⟨rfl, -, -⟩
      · cases hr : BinProt.fromReaderStrict Json.hashV1 ⟨bs, []⟩ with
        | error e => simp only [Json.strictAfterVersion, hr] at hd'; cases hd'
        | ok w =>
          simp only [Json.strictAfterVersion, hr] at hd'
          cases hd'
          exact ⟨bs, s, rfl, he, (GraphQL.strict_hash_iff bs _).mp hr⟩
      · cases hd'
  | _ => cases hd

end MinaRs.Page
