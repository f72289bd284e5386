import Verif.Proto.MessageLemmas
import Verif.Proto.Page

/-! # C113, C114 and C115: the messages between the page and the program, and the list of peers -/

namespace MinaRs.Proto

open Spec

/-! ## Lemmas -/

theorem distinct_of_nodup {table : List (Nat × String × Kind)} (hn : (table.map (·.2.1)).Nodup) : Distinct table := by
  intro f g name k k' hf hg
  have h1 := fieldOf_mem hf
  have h2 := fieldOf_mem hg
  clear hf hg
  induction table with
  | nil => cases h1
  | cons e table ih =>
    rw [List.map_cons, List.nodup_cons] at hn
    rcases List.mem_cons.mp h1 with h3 | h3
    · rcases List.mem_cons.mp h2 with h4 | h4
      · rw [← h3] at h4
        cases h4
        rfl
      · exact absurd (List.mem_map.mpr ⟨_, h4, by rw [← h3]⟩) hn.1
    · rcases List.mem_cons.mp h2 with h4 | h4
      · exact absurd (List.mem_map.mpr ⟨_, h3, by rw [← h4]⟩) hn.1
      · exact ih hn.2 h3 h4

theorem peerStatus_distinct : Distinct peerStatusTable := distinct_of_nodup (by decide)

theorem connectRequest_distinct : Distinct connectRequestTable := distinct_of_nodup (by decide)

theorem commonResponse_distinct : Distinct commonResponseTable := distinct_of_nodup (by decide)

theorem rounds_returned {table : List (Nat × String × Kind)} {bs : Bytes} (n : Nat) : ∀ {o : Int} {m m' : Obj},
    rounds table bs n o m = .returned m' → ∀ k, n ≤ k → rounds table bs k o m = .returned m' := by
  induction n with
  | zero => intro o m m' h; cases h
  | succ n ih =>
    intro o m m' h k hk
    obtain ⟨k, rfl⟩ : ∃ j, k = j + 1 := ⟨k - 1, by omega⟩
    rw [rounds] at h ⊢
    cases hr : round table bs o m with
    | returned m'' => rw [hr] at h; exact h
    | threw e => rw [hr] at h; cases h
    | running o' m'' =>
      rw [hr] at h
      exact ih h k (by omega)

theorem written_length {f : Nat} {p : Piece} {w : Bytes} (h : Written f p w) : 1 ≤ w.length := by
  obtain ⟨tag, body, wt, rfl, -, ht, -⟩ := skip_written h
  have := List.length_pos_iff.mpr (isVarint_ne_nil ht.1)
  rw [List.length_append]
  omega

theorem message_length {fs : List (Nat × Piece)} {bs : Bytes} (h : Message fs bs) : fs.length ≤ bs.length := by
  induction h with
  | nil => exact Nat.le_refl _
  | cons f p fs w rest hw _ ih =>
    have := written_length hw
    rw [List.length_cons, List.length_append]
    omega

/-- A value of a status fits in a message. -/
def PeerStatus.Fits (s : PeerStatus) : Prop :=
  FitsText s.peerId ∧ FitsText s.syncStatus ∧ FitsText s.protocolStateHash ∧ FitsText s.gitCommit ∧
    -2 ^ 63 ≤ s.uptimeMinutes ∧ s.uptimeMinutes < 2 ^ 63

/-! ## C113 -/

/-- **C113.** The page reads every status the program sends: each of the six properties has the value that was sent, and is
absent exactly when that value is `false`, the empty text or 0.  There are no other properties. -/
theorem C113_status (s : PeerStatus) (hs : s.Fits) :
    ∃ n m, decode peerStatusTable s.write n = .returned m ∧
      Shown (.bool s.connected) (get m "connected") ∧ Shown (.str s.peerId) (get m "peer_id") ∧
      Shown (.str s.syncStatus) (get m "sync_status") ∧ Shown (.str s.protocolStateHash) (get m "protocol_state_hash") ∧
      Shown (.str s.gitCommit) (get m "git_commit") ∧ Shown (.int s.uptimeMinutes) (get m "uptime_minutes") ∧
      ∀ name, name ∉ ["connected", "peer_id", "sync_status", "protocol_state_hash", "git_commit", "uptime_minutes"] →
        get m name = none := by
  obtain ⟨h1, h2, h3, h4, h5, h6⟩ := hs
  obtain ⟨n, m, hd, hv, hn⟩ := decode_write peerStatus_distinct
    [.bool s.connected, .str s.peerId, .str s.syncStatus, .str s.protocolStateHash, .str s.gitCommit, .int s.uptimeMinutes]
    (by
      intro v hv
      simp only [List.mem_cons, List.not_mem_nil, or_false] at hv
      rcases hv with rfl | rfl | rfl | rfl | rfl | rfl
      · exact trivial
      · exact h1
      · exact h2
      · exact h3
      · exact h4
      · exact ⟨h5, h6⟩)
    (by simp)
    (by
      intro f name kind hf
      have hm := fieldOf_mem hf
      simp only [peerStatusTable, List.mem_cons, List.not_mem_nil, or_false] at hm
      rcases hm with h | h | h | h | h | h <;> cases h
      · exact ⟨0, _, rfl, rfl, rfl⟩
      · exact ⟨1, _, rfl, rfl, rfl⟩
      · exact ⟨2, _, rfl, rfl, rfl⟩
      · exact ⟨3, _, rfl, rfl, rfl⟩
      · exact ⟨4, _, rfl, rfl, rfl⟩
      · exact ⟨5, _, rfl, rfl, rfl⟩)
  refine ⟨n, m, hd, hv 0 _ _ .bool rfl rfl, hv 1 _ _ .string rfl rfl, hv 2 _ _ .string rfl rfl, hv 3 _ _ .string rfl rfl,
    hv 4 _ _ .string rfl rfl, hv 5 _ _ .int64 rfl rfl, ?_⟩
  intro name hname
  apply hn
  intro e he heq
  subst heq
  simp only [peerStatusTable, List.mem_cons, List.not_mem_nil, or_false] at he
  rcases he with rfl | rfl | rfl | rfl | rfl | rfl <;> exact hname (by decide)

/-- **C113.** The page reads every response the program sends. -/
theorem C113_response (success : Bool) (errorMessage : String) (he : FitsText errorMessage) :
    ∃ n m, decode commonResponseTable (writeCommonResponse success errorMessage) n = .returned m ∧
      Shown (.bool success) (get m "success") ∧ Shown (.str errorMessage) (get m "error_message") ∧
      ∀ name, name ≠ "success" → name ≠ "error_message" → get m name = none := by
  obtain ⟨n, m, hd, hv, hn⟩ := decode_write commonResponse_distinct [.bool success, .str errorMessage]
    (by
      intro v hv
      simp only [List.mem_cons, List.not_mem_nil, or_false] at hv
      rcases hv with rfl | rfl
      · exact trivial
      · exact he)
    (by simp)
    (by
      intro f name kind hf
      have hm := fieldOf_mem hf
      simp only [commonResponseTable, List.mem_cons, List.not_mem_nil, or_false] at hm
      rcases hm with h | h <;> cases h
      · exact ⟨0, _, rfl, rfl, rfl⟩
      · exact ⟨1, _, rfl, rfl, rfl⟩)
  refine ⟨n, m, hd, hv 0 _ _ .bool rfl rfl, hv 1 _ _ .string rfl rfl, ?_⟩
  intro name h1 h2
  apply hn
  intro e he heq
  subst heq
  simp only [commonResponseTable, List.mem_cons, List.not_mem_nil, or_false] at he
  rcases he with rfl | rfl
  · exact h1 rfl
  · exact h2 rfl

/-- The declared types of `ConnectRequest`. -/
theorem parseConnectRequest_message (L : Lib) {fs : List (Nat × Piece)} {bs : Bytes} (h : WithGroups fs bs)
    (hf : ∀ p, (1, p) ∈ fs → ∃ s, p = .bytes (BinProt.utf8 s)) :
    (field fs 1 = none ∧ parseConnectRequest L bs = some "") ∨
      ∃ s, field fs 1 = some (.bytes (BinProt.utf8 s)) ∧ parseConnectRequest L bs = some s := by
  obtain ⟨m, h1, h2⟩ := parseLoop_message L (fun f => if f = 1 then some .string else none) h
    (by
      intro f p hp kind hk
      dsimp only at hk
      by_cases hf1 : f = 1
      · subst hf1
        rw [if_pos rfl] at hk
        cases hk
        obtain ⟨s, rfl⟩ := hf p hp
        exact ⟨_, .string s⟩
      · rw [if_neg hf1] at hk
        cases hk)
    bs.length [] (Nat.le_refl _)
  unfold parseConnectRequest
  rw [h1]
  rcases h2 1 .string (if_pos rfl) with ⟨a, b⟩ | ⟨p, v, a, b, c⟩
  · refine .inl ⟨a, ?_⟩
    rw [Option.map_some, b]
    rfl
  · cases b with
    | string s =>
      refine .inr ⟨s, a, ?_⟩
      rw [Option.map_some, c]

/-- **C113.** The program gets the address that was typed into the page, for every address that is a text (JavaScript strings
may have unpaired surrogates, see `C113_unpaired_fails`). -/
theorem C113_address_partial (L : Lib) (address : String) (h : FitsText address) :
    parseConnectRequest L (encodeConnectRequest [("address", .text (utf16 address))]) = some address := by
  obtain ⟨fs, h1, h2, h3⟩ := encode_message [("address", .text (utf16 address))] connectRequestTable (by
    intro e he
    simp only [connectRequestTable, List.mem_cons, List.not_mem_nil, or_false] at he
    subst he
    refine ⟨by decide, by decide, fun v hv => ?_⟩
    cases hv
    exact ⟨address, rfl, h⟩)
  have hp : ∀ p, (1, p) ∈ fs → p = .bytes (BinProt.utf8 address) := by
    intro p hp
    obtain ⟨name, kind, v, hm, hg, hs, -⟩ := h2 1 p hp
    simp only [connectRequestTable, List.mem_cons, List.not_mem_nil, or_false] at hm
    cases hm
    cases hg
    generalize hv : JsVal.text (utf16 address) = v at hs
    cases hs with
    | string s =>
      have := JsVal.text.inj hv
      have hb : (points (utf16 address)).flatMap pointBytes = (points (utf16 s)).flatMap pointBytes := by rw [this]
      rw [points_bytes, points_bytes] at hb
      rw [hb]
  have hb : encodeConnectRequest [("address", .text (utf16 address))] =
      encode (tags connectRequestTable) [("address", .text (utf16 address))] := rfl
  rw [hb]
  rcases parseConnectRequest_message L (withGroups_of_message h1) (fun p h => ⟨address, hp p h⟩) with ⟨a, -⟩ | ⟨s, a, b⟩
  · obtain ⟨p, hm⟩ := h3 1 "address" .string _ (List.mem_cons_self ..) rfl
    exact absurd hm (field_none a p)
  · have := hp _ (field_some a)
    rw [b, utf8_injective (Piece.bytes.inj this)]

/-- **C113 fails for strings that are not texts.** The page sends U+D800 followed by `a`, and the program gets U+2461
(a circled two) instead: the page's writer pairs a leading surrogate with whatever follows. -/
theorem C113_unpaired_fails (L : Lib) :
    (∀ s, utf16 s ≠ [0xD800, 0x61]) ∧
    parseConnectRequest L (encodeConnectRequest [("address", .text [0xD800, 0x61])]) = some "②" := by
  constructor
  · intro s hs
    have h := points_utf16 s.toList
    unfold utf16 at hs
    rw [hs] at h
    have h2 : points [0xD800, 0x61] = [0x2461] := by decide
    rw [h2] at h
    cases hl : s.toList with
    | nil => rw [hl] at hs; cases hs
    | cons c l =>
      cases l with
      | nil =>
        rw [hl, List.map_cons, List.map_nil] at h
        have hc : c.toNat = 0x2461 := (List.cons.inj h).1.symm
        rw [hl, List.flatMap_cons, List.flatMap_nil, List.append_nil] at hs
        unfold utf16Char at hs
        rw [hc] at hs
        exact absurd hs (by decide)
      | cons d l =>
        rw [hl] at h
        exact absurd (congrArg List.length h) (by simp)
  · cases L with
    | mk cuts => cases cuts <;> decide +kernel

/-- **C113.** A request without address is read as the empty address. -/
theorem C113_no_address (L : Lib) : parseConnectRequest L (encodeConnectRequest []) = some "" := rfl

/-- **C113.** What the page writes the page reads back: every property that is set has the same value, also `false`, the empty
text and 0, and every other property is absent. -/
theorem C113_page (m : Obj) :
    ((∀ name kind, (name, kind) ∈ [("connected", Kind.bool), ("peer_id", .string), ("sync_status", .string),
        ("protocol_state_hash", .string), ("git_commit", .string), ("uptime_minutes", .int64)] →
        ∀ v, get m name = some v → FitsJs kind v) →
      ∃ n m', decode peerStatusTable (encodePeerStatus m) n = .returned m' ∧
        ∀ name ∈ ["connected", "peer_id", "sync_status", "protocol_state_hash", "git_commit", "uptime_minutes"],
          get m' name = get m name) ∧
    ((∀ v, get m "address" = some v → FitsJs .string v) →
      ∃ n m', decode connectRequestTable (encodeConnectRequest m) n = .returned m' ∧ get m' "address" = get m "address") ∧
    ((∀ name kind, (name, kind) ∈ [("success", Kind.bool), ("error_message", .string)] →
        ∀ v, get m name = some v → FitsJs kind v) →
      ∃ n m', decode commonResponseTable (encodeCommonResponse m) n = .returned m' ∧
        ∀ name ∈ ["success", "error_message"], get m' name = get m name) := by
  refine ⟨fun h => ?_, fun h => ?_, fun h => ?_⟩
  · obtain ⟨n, m', h1, h2, -⟩ := decode_encode peerStatus_distinct (by decide) m (by
      rintro ⟨f, name, kind⟩ he
      refine ⟨?_, ?_, fun v hv => h name kind ?_ v hv⟩
      all_goals
        simp only [peerStatusTable, List.mem_cons, List.not_mem_nil, or_false] at he
        rcases he with h | h | h | h | h | h <;> cases h <;> decide)
    refine ⟨n, m', h1, fun name hname => ?_⟩
    simp only [List.mem_cons, List.not_mem_nil, or_false] at hname
    rcases hname with rfl | rfl | rfl | rfl | rfl | rfl
    · exact h2 (1, "connected", .bool) (by decide)
    · exact h2 (2, "peer_id", .string) (by decide)
    · exact h2 (3, "sync_status", .string) (by decide)
    · exact h2 (4, "protocol_state_hash", .string) (by decide)
    · exact h2 (5, "git_commit", .string) (by decide)
    · exact h2 (6, "uptime_minutes", .int64) (by decide)
  · obtain ⟨n, m', h1, h2, -⟩ := decode_encode connectRequest_distinct (by decide) m (by
      rintro ⟨f, name, kind⟩ he
      simp only [connectRequestTable, List.mem_cons, List.not_mem_nil, or_false] at he
      cases he
      exact ⟨by decide, by decide, h⟩)
    exact ⟨n, m', h1, h2 (1, "address", .string) (by decide)⟩
  · obtain ⟨n, m', h1, h2, -⟩ := decode_encode commonResponse_distinct (by decide) m (by
      rintro ⟨f, name, kind⟩ he
      refine ⟨?_, ?_, fun v hv => h name kind ?_ v hv⟩
      all_goals
        simp only [commonResponseTable, List.mem_cons, List.not_mem_nil, or_false] at he
        rcases he with h | h <;> cases h <;> decide)
    refine ⟨n, m', h1, fun name hname => ?_⟩
    simp only [List.mem_cons, List.not_mem_nil, or_false] at hname
    rcases hname with rfl | rfl
    · exact h2 (1, "success", .bool) (by decide)
    · exact h2 (2, "error_message", .string) (by decide)

/-- A status with a negative uptime and characters of two, three and four bytes. -/
def sampleStatus : PeerStatus :=
  { connected := true, peerId := "12D3KooW", syncStatus := "é②𝔐", protocolStateHash := "", gitCommit := "abc", uptimeMinutes := -5 }

theorem sampleStatus_fits : sampleStatus.Fits := by
  refine ⟨?_, ?_, ?_, ?_, ?_, ?_⟩ <;> first | decide +kernel | (unfold FitsText; decide +kernel)

example : ∃ m, decode peerStatusTable sampleStatus.write 6 = .returned m ∧
    get m "sync_status" = some (.text [0xE9, 0x2461, 0xD835, 0xDD10]) ∧
    get m "protocol_state_hash" = none ∧ get m "uptime_minutes" = some (.long ⟨-5, -1, false⟩) :=
  ⟨_, rfl, by decide +kernel⟩

/-! ## C114 -/

/-- What the fields of a message say to a reader of the page. -/
def Spec.ReadAs (table : List (Nat × String × Kind)) (fs : List (Nat × Piece)) (m : Obj) : Prop :=
  (∀ f name kind, (f, name, kind) ∈ table →
    (field fs f = none ∧ get m name = none) ∨ ∃ p v, field fs f = some p ∧ Says kind p v ∧ get m name = some v) ∧
  ∀ name, (∀ e ∈ table, e.2.1 ≠ name) → get m name = none

/-- The three messages of the page. -/
def Spec.tables : List (List (Nat × String × Kind)) := [peerStatusTable, connectRequestTable, commonResponseTable]

theorem tables_distinct {table : List (Nat × String × Kind)} (h : table ∈ tables) : Distinct table := by
  simp only [tables, List.mem_cons, List.not_mem_nil, or_false] at h
  rcases h with rfl | rfl | rfl
  · exact peerStatus_distinct
  · exact connectRequest_distinct
  · exact commonResponse_distinct

theorem tables_nodup {table : List (Nat × String × Kind)} (h : table ∈ tables) : (table.map (·.1)).Nodup := by
  simp only [tables, List.mem_cons, List.not_mem_nil, or_false] at h
  rcases h with rfl | rfl | rfl <;> decide

/-- **C114.** The page reads every protobuf message whose fields have their declared types, in whatever order the fields come:
of a repeated field the last counts, fields it does not know are skipped, whatever their content.  (Numbers may be written
with more bytes than needed, except for `bool`, see `C114_long_bool_fails`.) -/
theorem C114_any_order_partial {table : List (Nat × String × Kind)} (ht : table ∈ tables) {fs : List (Nat × Piece)} {bs : Bytes}
    (h : Message fs bs)
    (hf : ∀ f p, (f, p) ∈ fs → ∀ name kind, (f, name, kind) ∈ table → ShortBool kind p ∧ ∃ v, Says kind p v) :
    ∃ n m, decode table bs n = .returned m ∧ ReadAs table fs m := by
  obtain ⟨m, h1, h2, h3⟩ := decode_message (tables_distinct ht) h
    (fun f p hp name kind hk => hf f p hp name kind (fieldOf_mem hk))
  refine ⟨_, m, h1, ?_, ?_⟩
  · intro f name kind hm
    exact h2 f name kind (mem_fieldOf (tables_nodup ht) hm)
  · intro name hne
    rw [h3 name]
    · rfl
    · intro f kind hk
      exact hne _ (fieldOf_mem hk) rfl

/-- **C114.** A reader that has returned stays so: the number of rounds does not matter. -/
theorem C114_determined {table : List (Nat × String × Kind)} {bs : Bytes} {n k : Nat} {m m' : Obj}
    (h : decode table bs n = .returned m) (h' : decode table bs k = .returned m') : m = m' := by
  have h1 := rounds_returned n h (max n k) (Nat.le_max_left ..)
  have h2 := rounds_returned k h' (max n k) (Nat.le_max_right ..)
  rw [h1] at h2
  exact Reading.returned.inj h2

/-- **C114.** The same for the program: it reads every protobuf message as a request, with whatever groups in it; the last address counts. -/
theorem C114_program (L : Lib) {fs : List (Nat × Piece)} {bs : Bytes} (h : WithGroups fs bs)
    (hf : ∀ p, (1, p) ∈ fs → ∃ s, p = .bytes (BinProt.utf8 s)) :
    (field fs 1 = none ∧ parseConnectRequest L bs = some "") ∨
      ∃ s, field fs 1 = some (.bytes (BinProt.utf8 s)) ∧ parseConnectRequest L bs = some s :=
  parseConnectRequest_message L h hf

/-- A message is one without groups. -/
theorem C114_program_message (L : Lib) {fs : List (Nat × Piece)} {bs : Bytes} (h : Message fs bs)
    (hf : ∀ p, (1, p) ∈ fs → ∃ s, p = .bytes (BinProt.utf8 s)) :
    (field fs 1 = none ∧ parseConnectRequest L bs = some "") ∨
      ∃ s, field fs 1 = some (.bytes (BinProt.utf8 s)) ∧ parseConnectRequest L bs = some s :=
  C114_program L (withGroups_of_message h) hf

/-- An address, and a group 7 after it with another group in it and a field 1, which is no address. -/
example : WithGroups [(1, .bytes [97])] ([10, 1, 97] ++ ([59] ++ (([67] ++ ([] ++ ([68] ++ [10, 1, 98]))) ++ ([60] ++ [])))) := by
  have ht : ∀ (f w : Nat) (b : UInt8), b.toNat = 8 * f + w → b.toNat < 128 → 1 ≤ f → Tag f w [b] := by
    intro f w b h1 h2 h3
    exact ⟨.last _ (by omega), by simp, by simp only [number]; omega, h3, by omega⟩
  refine .cons 1 _ _ [10, 1, 97] _ (.bytes 1 [10] [1] [97] (ht 1 2 10 rfl (by decide) (by decide)) (.last _ (by decide)) (by decide)
    (by decide) (by decide)) ?_
  refine .group 7 [(1, .bytes [98])] [] [59] _ [60] [] (ht 7 3 59 rfl (by decide) (by decide)) ?_ (ht 7 4 60 rfl (by decide) (by decide)) .nil
  refine .group 8 [] _ [67] [] [68] _ (ht 8 3 67 rfl (by decide) (by decide)) .nil (ht 8 4 68 rfl (by decide) (by decide)) ?_
  exact .cons 1 _ _ [10, 1, 98] [] (.bytes 1 [10] [1] [98] (ht 1 2 10 rfl (by decide) (by decide)) (.last _ (by decide)) (by decide)
    (by decide) (by decide)) .nil

/-- Six bytes: field 7, which no message has, with a length of `2 ^ 32 - 6`. -/
def endless : Bytes := [58, 0xFA, 0xFF, 0xFF, 0xFF, 0x0F]

/-- **C114 fails: a reader need not end.** A length of 32 bits is a negative number for the page; skipping it goes back to where
the reader started, and it never ends. -/
theorem C114_endless_fails {table : List (Nat × String × Kind)} (ht : table ∈ tables) (n : Nat) :
    decode table endless n = .running 0 [] := by
  have h : ∀ m, rounds table endless m 0 [] = .running 0 [] := by
    intro m
    induction m with
    | zero => rfl
    | succ m ih =>
      have hr : round table endless 0 [] = .running 0 [] := by
        simp only [tables, List.mem_cons, List.not_mem_nil, or_false] at ht
        rcases ht with rfl | rfl | rfl <;> decide +kernel
      rw [rounds, hr]
      exact ih
  exact h n

/-- **C114 fails: a `bool` of two bytes.** This message says `connected = 1`, in two bytes, and `peer_id = "a"`; the page takes
the second byte for the end of the message and has no `peer_id`. -/
theorem C114_long_bool_fails :
    Message [(1, .varint [0x81, 0]), (2, .bytes [97])] [8, 0x81, 0, 18, 1, 97] ∧ number [0x81, 0] = 1 ∧
    ∃ m, decode peerStatusTable [8, 0x81, 0, 18, 1, 97] 2 = .returned m ∧ get m "connected" = some (.bool true) ∧
      get m "peer_id" = none := by
  refine ⟨?_, rfl, _, rfl, by decide, by decide⟩
  refine .cons 1 _ _ [8, 0x81, 0] _ ?_ (.cons 2 _ _ [18, 1, 97] [] ?_ .nil)
  · exact .varint 1 [8] [0x81, 0] ⟨.last _ (by decide), by decide, by decide, by decide, by decide⟩
      (.more _ _ (by decide) (.last _ (by decide))) (by decide) (by decide)
  · exact .bytes 2 [18] [1] [97] ⟨.last _ (by decide), by decide, by decide, by decide, by decide⟩
      (.last _ (by decide)) (by decide) (by decide) (by decide)

theorem message_append {fs gs : List (Nat × Piece)} {bs cs : Bytes} (h : Message fs bs) (h' : Message gs cs) :
    Message (fs ++ gs) (bs ++ cs) := by
  induction h with
  | nil => exact h'
  | cons f p fs w rest hw _ ih =>
    rw [List.append_assoc]
    exact .cons f p _ w _ hw ih

/-- A `bool` of any bytes, of which the page reads one. -/
theorem round_bool {table : List (Nat × String × Kind)} {name : String} (h1 : fieldOf table 1 = some (name, .bool)) (pre rest : Bytes) (b : UInt8)
    (m : Obj) : round table (pre ++ (8 :: b :: rest)) pre.length m =
      .running ((pre ++ [8, b]).length : Int) (put m name (.bool (b.toNat != 0))) := by
  have ht : Tag 1 0 [8] := ⟨.last _ (by decide), by decide, by decide, by decide, by decide⟩
  have hr := round_start (table := table) ht (by decide) pre (b :: rest) m
  rw [List.singleton_append] at hr
  rw [hr, h1]
  dsimp only
  unfold readVal
  rw [if_neg (by simp only [List.length_append, List.length_cons]; omega), byteAt_mid, ← length_snoc _ b]
  simp

/-- The tag 0 ends a message. -/
theorem round_zero (table : List (Nat × String × Kind)) (pre rest : Bytes) (m : Obj) :
    round table (pre ++ (0 :: rest)) pre.length m = .returned m := by
  have hr := readVarint32_enc (enc := [0]) (.last _ (by decide)) pre rest (by decide)
  rw [List.singleton_append] at hr
  unfold round
  rw [if_neg (by simp only [List.length_append, List.length_cons]; omega), hr]
  rfl

/-- **C114 fails: every `bool` of two bytes that end in 0.** Whatever fields come before it and after it, and whether it says yes
or no, the page reads the message as if it ended with a yes there. -/
theorem C114_cut_by_bool_fails {table : List (Nat × String × Kind)} (ht : table ∈ [peerStatusTable, commonResponseTable])
    {fs gs : List (Nat × Piece)} {bs cs : Bytes} (h : Message fs bs) (hg : Message gs cs)
    (hf : ∀ f p, (f, p) ∈ fs → ∀ name kind, (f, name, kind) ∈ table → ShortBool kind p ∧ ∃ v, Says kind p v)
    (b : UInt8) (hb : 128 ≤ b.toNat) :
    Message (fs ++ (1, .varint [b, 0]) :: gs) (bs ++ (8 :: b :: 0 :: cs)) ∧
    ∃ n m, decode table (bs ++ (8 :: b :: 0 :: cs)) n = .returned m ∧ ReadAs table (fs ++ [(1, .varint [1])]) m := by
  have ht1 : Tag 1 0 [8] := ⟨.last _ (by decide), by decide, by decide, by decide, by decide⟩
  have htable : table ∈ tables := by
    simp only [List.mem_cons, List.not_mem_nil, or_false] at ht
    rcases ht with rfl | rfl <;> simp [tables]
  obtain ⟨name, h1⟩ : ∃ name, fieldOf table 1 = some (name, .bool) := by
    simp only [List.mem_cons, List.not_mem_nil, or_false] at ht
    rcases ht with rfl | rfl <;> exact ⟨_, rfl⟩
  have hnum : number [b, 0] < 2 ^ 64 := by
    have h0 : (0 : UInt8).toNat = 0 := rfl
    simp only [number, h0]
    omega
  have hone : Message [(1, .varint [1])] [8, 1] :=
    .cons 1 _ [] [8, 1] [] (.varint 1 [8] [1] ht1 (.last _ (by decide)) (by decide) (by decide)) .nil
  refine ⟨message_append h (.cons 1 _ gs [8, b, 0] cs (.varint 1 [8] [b, 0] ht1 (.more _ _ hb (.last _ (by decide))) (by simp) hnum) hg), ?_⟩
  have hfit : Fits table fs := fun f p hp name kind hk => hf f p hp name kind (fieldOf_mem hk)
  have hfit' : Fits table (fs ++ [(1, .varint [1])]) := by
    intro f p hp name' kind hk
    rcases List.mem_append.mp hp with hp | hp
    · exact hfit f p hp name' kind hk
    · simp only [List.mem_singleton, Prod.mk.injEq] at hp
      obtain ⟨rfl, rfl⟩ := hp
      rw [h1] at hk
      cases hk
      exact ⟨rfl, _, .bool _⟩
  obtain ⟨m1, r1, -⟩ := rounds_prefix (tables_distinct htable) h hfit [] []
  obtain ⟨m2, r2, hread⟩ := rounds_prefix (tables_distinct htable) (message_append h hone) hfit' [] []
  have hm : m2 = put m1 name (.bool true) := by
    have e2 := r2 [] 0
    have e1 := r1 [8, 1] 1
    simp only [List.nil_append, List.append_nil, Nat.zero_add, List.length_append, List.length_singleton, Nat.add_comm] at e1 e2
    rw [e2] at e1
    rw [rounds] at e1
    have hr := round_bool h1 bs [] 1 m1
    rw [show rounds table (bs ++ [8, 1]) 1 (bs.length : Int) m1 = .running ((bs ++ [8, 1]).length : Int) (put m1 name (.bool ((1 : UInt8).toNat != 0))) by
      rw [rounds, hr]; rfl] at e1
    injection e1
  refine ⟨2 + fs.length, m2, ?_, ?_⟩
  · have e1 := r1 (8 :: b :: 0 :: cs) 2
    simp only [List.nil_append] at e1
    unfold decode
    refine e1.trans ?_
    rw [rounds, round_bool h1]
    dsimp only
    rw [show bs ++ 8 :: b :: 0 :: cs = (bs ++ [8, b]) ++ (0 :: cs) by simp, rounds, round_zero, hm]
    have : (b.toNat != 0) = true := by
      have : b.toNat ≠ 0 := by omega
      simpa using this
    rw [this]
  · refine ⟨?_, ?_⟩
    · intro f nm kind hm
      exact hread.1 f nm kind (mem_fieldOf (tables_nodup htable) hm)
    · intro nm hne
      rw [hread.2 nm]
      · rfl
      · intro f kind hk
        exact hne _ (fieldOf_mem hk) rfl

/-- A field before and one after such a `bool`, which says no. -/
example : Message [(2, .bytes [97])] [18, 1, 97] ∧ number [0x80, 0] = 0 ∧
    ∃ m, decode peerStatusTable ([18, 1, 97] ++ (8 :: 0x80 :: 0 :: [18, 1, 98])) 3 = .returned m ∧
      get m "connected" = some (.bool true) ∧ get m "peer_id" = some (.text [97]) := by
  refine ⟨.cons 2 _ _ [18, 1, 97] [] ?_ .nil, rfl, _, rfl, by decide, by decide⟩
  exact .bytes 2 [18] [1] [97] ⟨.last _ (by decide), by decide, by decide, by decide, by decide⟩
    (.last _ (by decide)) (by decide) (by decide) (by decide)

/-- **C114 fails: a field of number 0.** No protobuf message has one.  The page takes it for the end of the message, whatever its type and
however its tag is written, and returns what came before; what follows, even if it is cut short, is not looked at. -/
theorem C114_number_zero_fails {table : List (Nat × String × Kind)} (ht : table ∈ tables) {fs : List (Nat × Piece)} {bs : Bytes}
    (h : Message fs bs)
    (hf : ∀ f p, (f, p) ∈ fs → ∀ name kind, (f, name, kind) ∈ table → ShortBool kind p ∧ ∃ v, Says kind p v)
    {tag : Bytes} (hv : IsVarint tag) (hn : number tag < 8) (rest : Bytes) :
    ∃ n m, decode table (bs ++ (tag ++ rest)) n = .returned m ∧ ReadAs table fs m := by
  obtain ⟨m, r, hread⟩ := rounds_prefix (tables_distinct ht) h (fun f p hp name kind hk => hf f p hp name kind (fieldOf_mem hk)) [] []
  have hpos : 0 < tag.length := by cases hv <;> simp
  refine ⟨1 + fs.length, m, ?_, ?_, ?_⟩
  · have e := r (tag ++ rest) 1
    simp only [List.nil_append] at e
    refine e.trans ?_
    rw [rounds]
    unfold round
    rw [if_neg (by simp only [List.length_append]; omega), readVarint32_enc hv bs rest (by omega)]
    dsimp only
    rw [if_pos (by omega)]
  · intro f name kind hm
    exact hread.1 f name kind (mem_fieldOf (tables_nodup ht) hm)
  · intro name hne
    rw [hread.2 name]
    · rfl
    · intro f kind hk
      exact hne _ (fieldOf_mem hk) rfl

/-- A field of number 0 with a type, in two bytes, and half a field after it. -/
example : Message [(2, .bytes [97])] [18, 1, 97] ∧ IsVarint [0x85, 0] ∧ number [0x85, 0] = 5 ∧
    ∃ m, decode peerStatusTable ([18, 1, 97] ++ ([0x85, 0] ++ [18, 9])) 2 = .returned m ∧ get m "peer_id" = some (.text [97]) := by
  refine ⟨.cons 2 _ _ [18, 1, 97] [] ?_ .nil, .more _ _ (by decide) (.last _ (by decide)), rfl, _, rfl, by decide⟩
  exact .bytes 2 [18] [1] [97] ⟨.last _ (by decide), by decide, by decide, by decide, by decide⟩
    (.last _ (by decide)) (by decide) (by decide) (by decide)

/-- **C114 fails: groups.** Whatever fields come before it, the page throws at every group it does not know, where the program skips it
(`C114_program`). -/
theorem C114_group_fails {table : List (Nat × String × Kind)} (ht : table ∈ tables) {fs : List (Nat × Piece)} {bs : Bytes}
    (h : Message fs bs)
    (hf : ∀ f p, (f, p) ∈ fs → ∀ name kind, (f, name, kind) ∈ table → ShortBool kind p ∧ ∃ v, Says kind p v)
    {f : Nat} (hnew : ∀ e ∈ table, e.1 ≠ f) {start : Bytes} (hs : Tag f 3 start) (rest : Bytes) :
    ∃ n, decode table (bs ++ (start ++ rest)) n = .threw (.unimplemented 3) := by
  obtain ⟨m, r, -⟩ := rounds_prefix (tables_distinct ht) h (fun f p hp name kind hk => hf f p hp name kind (fieldOf_mem hk)) [] []
  have hnone : fieldOf table f = none := by
    cases hc : fieldOf table f with
    | none => rfl
    | some e => exact absurd rfl (hnew _ (fieldOf_mem hc))
  refine ⟨1 + fs.length, ?_⟩
  have e := r (start ++ rest) 1
  simp only [List.nil_append] at e
  refine e.trans ?_
  rw [rounds, round_start hs (by decide), hnone]
  rfl

example : Tag 7 3 [59] ∧ ∀ e ∈ peerStatusTable, e.1 ≠ 7 := by
  refine ⟨⟨.last _ (by decide), by decide, by decide, by decide, by decide⟩, by decide⟩

/-- **C114 fails: a known number with another type.** Field 1 with some bytes in it is not a `bool` and a protobuf reader skips
it, as the program does; the page takes its length for the value and fails at what follows. -/
theorem C114_other_type_fails (L : Lib) :
    Message [(1, .fixed32 [8, 0, 0, 0])] [13, 8, 0, 0, 0] ∧
    decode connectRequestTable [13, 8, 0, 0, 0] 1 = .threw .pastLimit ∧
    parseConnectRequest L [13, 8, 0, 0, 0] = some "" := by
  refine ⟨?_, by decide +kernel, ?_⟩
  · exact .cons 1 _ _ [13, 8, 0, 0, 0] [] (.fixed32 1 [13] _ ⟨.last _ (by decide), by decide, by decide, by decide, by decide⟩
      (by decide)) .nil
  · cases L with
    | mk cuts => cases cuts <;> decide +kernel

/-- A message with the fields in another order, one of them twice, and an unknown one. -/
example : Message [(2, .bytes [97]), (9, .fixed32 [1, 2, 3, 4]), (1, .varint [1]), (2, .bytes [98])]
      [18, 1, 97, 77, 1, 2, 3, 4, 8, 1, 18, 1, 98] ∧
    ∃ m, decode peerStatusTable [18, 1, 97, 77, 1, 2, 3, 4, 8, 1, 18, 1, 98] 5 = .returned m ∧
      get m "peer_id" = some (.text [98]) ∧ get m "connected" = some (.bool true) := by
  refine ⟨?_, _, rfl, by decide, by decide⟩
  refine .cons 2 _ _ [18, 1, 97] _ ?_ (.cons 9 _ _ [77, 1, 2, 3, 4] _ ?_ (.cons 1 _ _ [8, 1] _ ?_ (.cons 2 _ _ [18, 1, 98] [] ?_ .nil)))
  · exact .bytes 2 [18] [1] [97] ⟨.last _ (by decide), by decide, by decide, by decide, by decide⟩
      (.last _ (by decide)) (by decide) (by decide) (by decide)
  · exact .fixed32 9 [77] _ ⟨.last _ (by decide), by decide, by decide, by decide, by decide⟩ (by decide)
  · exact .varint 1 [8] [1] ⟨.last _ (by decide), by decide, by decide, by decide, by decide⟩ (.last _ (by decide))
      (by decide) (by decide)
  · exact .bytes 2 [18] [1] [98] ⟨.last _ (by decide), by decide, by decide, by decide, by decide⟩
      (.last _ (by decide)) (by decide) (by decide) (by decide)

end MinaRs.Proto
