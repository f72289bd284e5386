import Verif.Json.DocPrint
import Verif.Json.StrText
import Verif.Json.BlockProps
import Verif.Block.JsonProps
import Verif.Frontier.Query
import Verif.Secrets.Model
import Verif.Wallet.Call

/-! The text form of JSON documents (C111). -/

namespace MinaRs.Json

open Text (Text)
open Grammar

/-! ## C111: reading -/

/-- **C111 (reading).** A text is read exactly when it is JSON whose lists and objects are nested at most 127 deep, and as the
document that it says. -/
theorem C111_read_iff (F : Floats) (s : Text) (j : J) : parse F s = some j ↔ Says F.read s j ∧ depth j ≤ 127 := parse_iff F s j

/-- **C111 (one meaning).** A JSON text says one document. -/
theorem C111_unambiguous (F : Floats) (s : Text) (j j' : J) (h : Says F.read s j) (h' : Says F.read s j') : j = j' := by
  obtain ⟨w, v, x, e, hw, hv, hx⟩ := h
  obtain ⟨w', v', x', e', hw', hv', hx'⟩ := h'
  have a := value_read F hv (s.length + 1) (max (depth j) (depth j')) w x hw (stops_of_space x hx) (by rw [← e]; omega) (by omega)
  have b := value_read F hv' (s.length + 1) (max (depth j) (depth j')) w' x' hw' (stops_of_space x' hx') (by rw [← e']; omega) (by omega)
  rw [← e] at a
  rw [← e'] at b
  exact (Prod.mk.inj (Option.some.inj (a.symm.trans b))).1

/-- **C111 (white space).** Space around a text that is read does not change what is read. -/
theorem C111_space (F : Floats) (w s w' : Text) (j : J) (hw : Space w) (hw' : Space w') (h : parse F s = some j) :
    parse F (w ++ (s ++ w')) = some j := by
  have app : ∀ {a b : Text}, Space a → Space b → Space (a ++ b) := by
    intro a b ha hb c hc
    rcases List.mem_append.mp hc with hc | hc
    · exact ha c hc
    · exact hb c hc
  obtain ⟨⟨a, v, b, e, ha, hv, hb⟩, hd⟩ := (parse_iff F s j).mp h
  exact (parse_iff F _ j).mpr ⟨⟨w ++ a, v, b ++ w', by rw [e]; simp, app hw ha, hv, app hb hw'⟩, hd⟩

/-! ## C111: writing -/

/-- **C111 (writing).** A document whose numbers are integers of 64 bits is written as JSON that says this document, and on one
line. -/
theorem C111_written (F : Floats) (j : J) (h : Plain j) : Says F.read (print F j) j ∧ ∀ c ∈ print F j, 32 ≤ c.toNat :=
  ⟨⟨[], print F j, [], by simp, (fun c h => by cases h), print_value F j h, (fun c h => by cases h)⟩, print_line F j h⟩

/-- **C111 (writing, then reading).** Such a document is read back from its text if it is nested at most 127 deep. -/
theorem C111_roundtrip (F : Floats) (j : J) (h : Plain j) (hd : depth j ≤ 127) : parse F (print F j) = some j :=
  (parse_iff F _ j).mpr ⟨(C111_written F j h).1, hd⟩

/-- **C111 (the limit).** Documents that are nested deeper are written, but their text is not read, by this reader. -/
theorem C111_too_deep (F : Floats) (j : J) (h : Plain j) (hd : 127 < depth j) :
    Says F.read (print F j) j ∧ parse F (print F j) = none := by
  refine ⟨(C111_written F j h).1, ?_⟩
  cases e : parse F (print F j) with
  | none => rfl
  | some j' =>
    obtain ⟨h1, h2⟩ := (C111_read_iff F _ j').mp e
    rw [C111_unambiguous F _ j j' (C111_written F j h).1 h1] at hd
    omega

/-- **C111 (different documents).** Different documents have different texts. -/
theorem C111_injective (F : Floats) (j k : J) (hj : Plain j) (hk : Plain k) (h : print F j = print F k) : j = k :=
  C111_unambiguous F _ j k (C111_written F j hj).1 (h ▸ (C111_written F k hk).1)

/-! ## C111: the types of the node -/

/-- **C111 (values).** What a value of a type with documents nested at most 127 deep is written to is one line of JSON that says
its document, and is read as this document is. -/
theorem C111_values (F : Floats) (E : Env) (t : JTy) (ht : t.deep ≤ 127) (v : t.wire.denote) (s : Text)
    (h : intoJsonText F E t v = .ok s) :
    ∃ j, ser E t v = .ok j ∧ Says F.read s j ∧ (∀ c ∈ s, 32 ≤ c.toNat) ∧ fromJsonText F E t s = de E t j := by
  unfold intoJsonText at h
  split at h
  · rename_i j hj
    cases h
    obtain ⟨h1, h2⟩ := ser_flat E t v j hj
    obtain ⟨h3, h4⟩ := C111_written F j h1
    refine ⟨j, hj, h3, h4, ?_⟩
    unfold fromJsonText
    rw [C111_roundtrip F j h1 (by omega)]
  · cases h

set_option maxRecDepth 20000 in
/-- Documents of blocks are nested far less. -/
theorem block_deep : Block.block.deep ≤ 127 := by decide +kernel

set_option maxRecDepth 20000 in
theorem state_deep : Block.protocolState.deep ≤ 127 := by decide +kernel

/-- **C111 (blocks).** Every block with a text form is written as one line of JSON, and reading this line gives the block without
the parts that the JSON form leaves out. -/
theorem C111_blocks (F : Floats) (E : Env) (v : Block.Blk) (hv : Leaves Leaf.Carried Block.block v) :
    ∃ s j, intoJsonText F E Block.block v = .ok s ∧ Says F.read s j ∧ (∀ c ∈ s, 32 ≤ c.toNat) ∧
      fromJsonText F E Block.block s = .ok (norm Block.block v) := by
  obtain ⟨j, h1, h2⟩ := Block.C61_roundtrip_partial E v hv
  have hs : intoJsonText F E Block.block v = .ok (print F j) := by unfold intoJsonText; rw [h1]
  obtain ⟨j', h3, h4, h5, h6⟩ := C111_values F E Block.block block_deep v _ hs
  rw [h1] at h3
  cases h3
  exact ⟨_, _, hs, h4, h5, h6.trans h2⟩

/-- **C111 (the node's blocks).** The same of the blocks the node holds: their text is read as the block with the fixed protocol
versions. -/
theorem C111_node_blocks (F : Floats) (E : Env) (b : MinaRs.Block.Blk) (hm : MinaRs.Block.Spec.InMemory MinaRs.Block.block b)
    (h : MinaRs.Block.Spec.Shown b) :
    ∃ s j, MinaRs.Block.tryIntoJsonText F E b = .ok s ∧ Says F.read s j ∧ (∀ c ∈ s, 32 ≤ c.toNat) ∧
      MinaRs.Block.tryFromJsonText F E s = .ok (MinaRs.Block.Spec.plainVersions b) := by
  obtain ⟨j, h1, h2⟩ := MinaRs.Block.C92_write_then_read_partial E b hm h
  obtain ⟨p, d⟩ := ser_flat E Block.block _ j h1
  obtain ⟨h3, h4⟩ := C111_written F j p
  refine ⟨print F j, j, ?_, h3, h4, ?_⟩
  · unfold MinaRs.Block.tryIntoJsonText; rw [h1]
  · unfold MinaRs.Block.tryFromJsonText
    rw [C111_roundtrip F j p (Nat.le_trans d block_deep)]
    exact h2

/-- **C111 (refused texts).** A text that is not JSON is no block; nothing aborts. -/
theorem C111_not_json (F : Floats) (E : Env) (s : Text) (h : ∀ j, ¬ Says F.read s j) :
    MinaRs.Block.tryFromJsonText F E s = .error .err ∧ ∀ t : JTy, fromJsonText F E t s = .error .err := by
  have : parse F s = none := by
    cases e : parse F s with
    | none => rfl
    | some j => exact absurd ((parse_iff F s j).mp e).1 (h j)
  constructor
  · unfold MinaRs.Block.tryFromJsonText; rw [this]
  · intro t; unfold fromJsonText; rw [this]

/-- **C111 (the best state).** The text that a page gets for the best state is one line of JSON that is read as its document. -/
theorem C111_best_state (F : Floats) (E : Env) (ps : Frontier.MainnetState) (j : J) (h : Frontier.stateText E ps = .ok (some j)) :
    Says F.read (print F j) j ∧ (∀ c ∈ print F j, 32 ≤ c.toNat) ∧ parse F (print F j) = some j := by
  unfold Frontier.stateText at h
  split at h
  · rename_i j' hj
    cases h
    obtain ⟨p, d⟩ := ser_flat E _ _ _ hj
    exact ⟨(C111_written F j p).1, (C111_written F j p).2, C111_roundtrip F j p (Nat.le_trans d state_deep)⟩
  · cases h
  · cases h

/-- **C111 (names).** Hashes, memos, keys and the other values with a text of their own go through a quoted string and come out
unchanged, whatever characters the text has. -/
theorem C111_named (F : Floats) (E : Env) (t : StrConv.Named) :
    (∀ s, StrConv.fromStrText F E t s = StrConv.fromStr E t s) ∧ ∀ v, StrConv.toStrText F E t v = StrConv.toStr E t v := by
  have q : ∀ s, parse F (print F (.str s)) = some (.str s) := fun s => C111_roundtrip F (.str s) trivial (by simp [depth])
  constructor
  · intro s
    unfold StrConv.fromStrText StrConv.fromStr
    simp only [q]
    cases t.leaf.de E (.str s) <;> rfl
  · intro v
    unfold StrConv.toStrText StrConv.toStr
    cases h : t.leaf.ser E (t.into v) with
    | error e => rfl
    | ok j =>
      obtain ⟨s, rfl⟩ := StrConv.ser_str E t v j h
      simp only [q]

theorem serJson_plain (b : Secrets.BoxJson) (h : -2 ^ 63 ≤ b.memLimit ∧ b.memLimit < 2 ^ 64)
    (h' : -2 ^ 63 ≤ b.opsLimit ∧ b.opsLimit < 2 ^ 64) : Plain (Secrets.serJson b) :=
  ⟨trivial, trivial, trivial, trivial, ⟨h, h', trivial⟩, trivial, trivial⟩

/-- **C111 (key files).** The text of a key file, which is indented, is JSON that says the document of the file and is read as
this document. -/
theorem C111_key_file (F : Floats) (E : Env) (C : Secrets.Crypto) (sb : Secrets.SecretBox C.Salt) (j : J)
    (hm : -2 ^ 63 ≤ sb.memLimit ∧ sb.memLimit < 2 ^ 63) (h : Secrets.write E C sb = .ok j) :
    ∃ s, Secrets.writeText F E C sb = .ok s ∧ Says F.read s j ∧ parse F s = some j := by
  refine ⟨pretty F 0 j, by simp only [Secrets.writeText, h, bind, Except.bind], ?_⟩
  simp only [Secrets.write, Secrets.toJson, bind, Except.bind] at h
  split at h
  · cases h
  rename_i json hj
  cases h
  split at hj
  · cases hj
  rename_i bytes _
  cases hj
  have := sb.opsLimit.toNat_lt
  have p := serJson_plain ⟨sb.boxPrimitive, sb.pwPrimitive, String.ofList (Secrets.base58Encode E sb.nonce),
      String.ofList (Secrets.base58Encode E bytes), sb.memLimit, sb.opsLimit.toNat, String.ofList (Secrets.base58Encode E sb.ciphertext)⟩
    ⟨hm.1, Int.lt_trans hm.2 (by decide)⟩ ⟨show -2 ^ 63 ≤ (sb.opsLimit.toNat : Int) by omega, show (sb.opsLimit.toNat : Int) < 2 ^ 64 by omega⟩
  have t := pretty_says F _ p
  exact ⟨t, (parse_iff F _ _).mpr ⟨t, by simp [Secrets.serJson, depth, depthMembers, depthAll, maxDepth]⟩⟩

/-- **C111 (requests).** The body of a wallet's request is the text of the object with the query. -/
theorem C111_request (F : Floats) (q : String) : Wallet.body q.toList = print F (.obj [("query", .str q)]) ∧
    parse F (Wallet.body q.toList) = some (.obj [("query", .str q)]) := by
  have e : Wallet.body q.toList = print F (.obj [("query", .str q)]) := by
    unfold Wallet.body
    rw [print, printEntries, print]
    simp only [printString]
    rw [show "query".toList.flatMap escapeChar = "query".toList by decide +kernel]
    simp
  exact ⟨e, e ▸ C111_roundtrip F _ (by simp [Plain, PlainMembers]) (by simp [depth, depthMembers])⟩

/-! ## Examples -/

/-- A reader of numbers that are no integers, for the examples. -/
def noFloats : Floats := ⟨fun _ => ['0', '.', '0'], fun _ => none⟩

set_option maxRecDepth 20000 in
/-- Space, escapes and a surrogate pair are read; what is written has none of them. -/
example : (parse noFloats " {\"a\" : [1, -2 ,true],\n\"\\u00e9\\n\":\"\\ud83d\\ude00\"} ".toList).map (print noFloats) =
    some "{\"a\":[1,-2,true],\"é\\n\":\"😀\"}".toList := by decide +kernel

set_option maxRecDepth 20000 in
/-- Texts that are not JSON: a superfluous comma, a leading zero, a raw line feed, half a surrogate pair, something after the end. -/
example : ∀ s ∈ ["[1,]", "[01]", "\"\n\"", "\"\\ud83d\"", "{} x", "", "nul", "{\"a\":}", "'a'"], (parse noFloats s.toList).isNone := by
  decide +kernel

example (E : Env) : ∃ s j, intoJsonText noFloats E Block.block Block.sampleBlock.1 = .ok s ∧ Says noFloats.read s j ∧
    (∀ c ∈ s, 32 ≤ c.toNat) ∧ fromJsonText noFloats E Block.block s = .ok (norm Block.block Block.sampleBlock.1) :=
  C111_blocks noFloats E _ Block.sampleBlock.2

example (E : Env) : ∃ s, MinaRs.Block.tryIntoJsonText noFloats E MinaRs.Block.sampleBlock.1 = .ok s :=
  let ⟨s, _, h, _⟩ := C111_node_blocks noFloats E _ MinaRs.Block.sampleBlock.2.1 MinaRs.Block.sample_shown
  ⟨s, h⟩

/-- Lists in lists. -/
def nested : Nat → J
  | 0 => .null
  | n + 1 => .arr [nested n]

theorem nested_plain : ∀ n, Plain (nested n)
  | 0 => trivial
  | n + 1 => ⟨nested_plain n, trivial⟩

theorem nested_depth : ∀ n, depth (nested n) = n
  | 0 => rfl
  | n + 1 => by simp only [nested, depth, depthAll, nested_depth n]; omega

/-- Both sides of the limit. -/
example (F : Floats) : parse F (print F (nested 127)) = some (nested 127) ∧ parse F (print F (nested 128)) = none :=
  ⟨C111_roundtrip F _ (nested_plain _) (by rw [nested_depth]; omega), (C111_too_deep F _ (nested_plain _) (by rw [nested_depth]; omega)).2⟩

end MinaRs.Json
