import Verif.Status.Line
import Verif.Status.Props
import Verif.Json.Base64Lemmas
import Verif.Json.DocPrint
import Verif.BinProt.SerdeWire
import Verif.Proto.PageProps

/-! # C96: what the lines of the status stream say, and what reaches the page -/

namespace MinaRs.Status

open Json (J Floats)
open Text (Text)
open Codec.Spec (Base64 standard)

namespace Spec

/-- The object has one member of this name, and this is its value. -/
def Only (es : List (String × J)) (name : String) (v : J) : Prop := es.filter (fun e => e.1 == name) = [(name, v)]

/-- The document is a status: an object with the six members, in any order and among others, or the list of the six values. -/
def StatusIn (doc : J) (s : Proto.PeerStatus) : Prop :=
  (-2 ^ 63 ≤ s.uptimeMinutes ∧ s.uptimeMinutes < 2 ^ 63) ∧
  ((∃ es, doc = .obj es ∧ Only es "connected" (.bool s.connected) ∧ Only es "peer_id" (.str s.peerId) ∧
      Only es "sync_status" (.str s.syncStatus) ∧ Only es "protocol_state_hash" (.str s.protocolStateHash) ∧
      Only es "git_commit" (.str s.gitCommit) ∧ Only es "uptime_minutes" (.num s.uptimeMinutes)) ∨
    doc = .arr [.bool s.connected, .str s.peerId, .str s.syncStatus, .str s.protocolStateHash, .str s.gitCommit,
      .num s.uptimeMinutes])

/-- The text is base64 (standard alphabet, RFC 4648) of UTF-8 of JSON (RFC 8259), nested at most 127 deep, of a status. -/
def LineSays (F : Floats) (line : Text) (s : Proto.PeerStatus) : Prop :=
  ∃ (text : String) (doc : J), Base64 standard line (BinProt.utf8 text) ∧ Json.Grammar.Says F.read text.toList doc ∧
    Json.Grammar.depth doc ≤ 127 ∧ StatusIn doc s

/-- No text of the status has 2^31 bytes. -/
def TextsFit (s : Proto.PeerStatus) : Prop :=
  Proto.Spec.FitsText s.peerId ∧ Proto.Spec.FitsText s.syncStatus ∧ Proto.Spec.FitsText s.protocolStateHash ∧
    Proto.Spec.FitsText s.gitCommit

end Spec

open Spec

/-! ## Lemmas -/

theorem toUrl_iff (d : Nat) (c : Char) : Codec.alphabet64[d]? = some (toUrl c) ↔ standard[d]? = some c := by
  have hlen : standard.length = 64 := by decide +kernel
  by_cases hd : d < 64
  · have hu := List.getElem?_eq_getElem (l := Codec.alphabet64) (i := d) (by rw [Codec.alphabet64_length]; exact hd)
    have hs := List.getElem?_eq_getElem (l := standard) (i := d) (by rw [hlen]; exact hd)
    have same : ∀ d : Fin 62, Codec.alphabet64[d.1]? = standard[d.1]? ∧
        ∀ x ∈ ['+', '/', '-', '_', '!'], standard[d.1]? ≠ some x := by decide +kernel
    have last : Codec.alphabet64[62]? = some '-' ∧ Codec.alphabet64[63]? = some '_' ∧ standard[62]? = some '+' ∧
        standard[63]? = some '/' := by decide +kernel
    unfold toUrl
    by_cases hlt : d < 62
    · obtain ⟨h1, h2⟩ := same ⟨d, hlt⟩
      dsimp only at h1 h2
      rw [h1]
      split
      · rename_i hc; subst hc
        exact ⟨fun h => absurd h (h2 _ (by decide)), fun h => absurd h (h2 _ (by decide))⟩
      split
      · rename_i hc; subst hc
        exact ⟨fun h => absurd h (h2 _ (by decide)), fun h => absurd h (h2 _ (by decide))⟩
      split
      · rename_i hc
        refine ⟨fun h => absurd h (h2 _ (by decide)), fun h => absurd h (h2 _ ?_)⟩
        rcases hc with rfl | rfl <;> decide
      · rfl
    · rcases (by omega : d = 62 ∨ d = 63) with rfl | rfl
      · rw [last.1, last.2.2.1]
        split
        · rename_i hc; subst hc; exact ⟨fun _ => rfl, fun _ => rfl⟩
        rename_i h0
        split
        · rename_i hc; subst hc; exact ⟨fun h => absurd h (by decide), fun h => absurd h (by decide)⟩
        split
        · exact ⟨fun h => absurd h (by decide), fun h => absurd (Option.some.inj h).symm h0⟩
        · rename_i h1
          exact ⟨fun h => absurd (.inl (Option.some.inj h).symm) h1, fun h => absurd (Option.some.inj h).symm h0⟩
      · rw [last.2.1, last.2.2.2]
        split
        · rename_i hc; subst hc; exact ⟨fun h => absurd h (by decide), fun h => absurd h (by decide)⟩
        split
        · rename_i hc; subst hc; exact ⟨fun _ => rfl, fun _ => rfl⟩
        rename_i h0
        split
        · exact ⟨fun h => absurd h (by decide), fun h => absurd (Option.some.inj h).symm h0⟩
        · rename_i h1
          exact ⟨fun h => absurd (.inr (Option.some.inj h).symm) h1, fun h => absurd (Option.some.inj h).symm h0⟩
  · rw [List.getElem?_eq_none (by rw [Codec.alphabet64_length]; omega), List.getElem?_eq_none (by rw [hlen]; omega)]
    exact ⟨fun h => (by cases h), fun h => (by cases h)⟩

theorem toUrl_pad (c : Char) : toUrl c = '=' ↔ c = '=' := by
  unfold toUrl
  split
  · rename_i h; subst h; decide
  split
  · rename_i h; subst h; decide
  split
  · rename_i h; rcases h with rfl | rfl <;> decide
  · rfl

theorem map_toUrl_pads (pad : Text) (ps : List Text) (hps : ∀ p ∈ ps, ∀ c ∈ p, c = '=') : pad.map toUrl ∈ ps ↔ pad ∈ ps := by
  have h1 : ∀ p : Text, (∀ c ∈ p, c = '=') → p.map toUrl = p := by
    intro p hp
    rw [List.map_congr_left (g := id) (fun c hc => by rw [hp c hc]; rfl)]
    simp
  constructor
  · intro h
    have : ∀ c ∈ pad, c = '=' := by
      intro c hc
      exact (toUrl_pad c).mp (hps _ h _ (List.mem_map_of_mem hc))
    rwa [h1 pad this] at h
  · intro h
    rw [h1 pad (hps pad h)]
    exact h

theorem base64_map (t : Text) (bs : Bytes) : Base64 Codec.alphabet64 (t.map toUrl) bs ↔ Base64 standard t bs := by
  constructor
  · intro h
    generalize hu : t.map toUrl = u at h
    induction h generalizing t with
    | nil =>
      rw [List.map_eq_nil_iff] at hu
      subst hu
      exact .nil
    | one a b pad x h1 h2 hp =>
      match t, hu with
      | a' :: b' :: pad', hu =>
        simp only [List.map_cons, List.cons.injEq] at hu
        obtain ⟨rfl, rfl, rfl⟩ := hu
        exact .one _ _ _ x ((toUrl_iff _ _).mp h1) ((toUrl_iff _ _).mp h2) ((map_toUrl_pads _ _ (by simp)).mp hp)
    | two a b c pad x y h1 h2 h3 hp =>
      match t, hu with
      | a' :: b' :: c' :: pad', hu =>
        simp only [List.map_cons, List.cons.injEq] at hu
        obtain ⟨rfl, rfl, rfl, rfl⟩ := hu
        exact .two _ _ _ _ x y ((toUrl_iff _ _).mp h1) ((toUrl_iff _ _).mp h2) ((toUrl_iff _ _).mp h3)
          ((map_toUrl_pads _ _ (by simp)).mp hp)
    | more a b c d u x y z bs h1 h2 h3 h4 _ ih =>
      match t, hu with
      | a' :: b' :: c' :: d' :: t', hu =>
        simp only [List.map_cons, List.cons.injEq] at hu
        obtain ⟨rfl, rfl, rfl, rfl, hu'⟩ := hu
        exact .more _ _ _ _ _ x y z bs ((toUrl_iff _ _).mp h1) ((toUrl_iff _ _).mp h2) ((toUrl_iff _ _).mp h3)
          ((toUrl_iff _ _).mp h4) (ih t' hu')
  · intro h
    induction h with
    | nil => exact .nil
    | one a b pad x h1 h2 hp =>
      exact .one _ _ _ x ((toUrl_iff _ _).mpr h1) ((toUrl_iff _ _).mpr h2) ((map_toUrl_pads _ _ (by simp)).mpr hp)
    | two a b c pad x y h1 h2 h3 hp =>
      exact .two _ _ _ _ x y ((toUrl_iff _ _).mpr h1) ((toUrl_iff _ _).mpr h2) ((toUrl_iff _ _).mpr h3)
        ((map_toUrl_pads _ _ (by simp)).mpr hp)
    | more a b c d t x y z bs h1 h2 h3 h4 _ ih =>
      exact .more _ _ _ _ _ x y z bs ((toUrl_iff _ _).mpr h1) ((toUrl_iff _ _).mpr h2) ((toUrl_iff _ _).mpr h3)
        ((toUrl_iff _ _).mpr h4) ih

theorem decodeStandard_iff (t : Text) (bs : Bytes) : decodeStandard t = .ok bs ↔ Base64 standard t bs := by
  unfold decodeStandard
  rw [Codec.decode64_iff, base64_map]

theorem member_iff (es : List (String × J)) (name : String) (v : J) : member es name = some v ↔ Only es name v := by
  unfold member Only Json.lookup
  cases hf : es.filter (fun e => e.1 == name) with
  | nil => exact ⟨fun h => (by cases h), fun h => (by cases h)⟩
  | cons e l =>
    cases l with
    | cons _ _ => exact ⟨fun h => (by cases h), fun h => (by cases h)⟩
    | nil =>
      have hm : e ∈ es.filter (fun e => e.1 == name) := by rw [hf]; exact List.mem_cons_self ..
      have hn := eq_of_beq (List.mem_filter.mp hm).2
      obtain ⟨k, w⟩ := e
      dsimp only at hn
      subst hn
      constructor
      · intro h; cases h; rfl
      · intro h; cases h; rfl

theorem deFields_iff (f1 f2 f3 f4 f5 f6 : J) (s : PeerStatusJson) : deFields f1 f2 f3 f4 f5 f6 = some s ↔
    f1 = .bool s.connected ∧ f2 = .str s.peerId ∧ f3 = .str s.syncStatus ∧ f4 = .str s.protocolStateHash ∧
      f5 = .str s.gitCommit ∧ f6 = .num s.uptimeMinutes ∧ -2 ^ 63 ≤ s.uptimeMinutes ∧ s.uptimeMinutes < 2 ^ 63 := by
  have hstr : ∀ j t, deString j = some t ↔ j = .str t := by
    intro j t
    cases j <;> simp [deString]
  have hb : ∀ j t, deBool j = some t ↔ j = .bool t := by
    intro j t
    cases j <;> simp [deBool]
  have hi : ∀ j t, deI64 j = some t ↔ j = .num t ∧ -2 ^ 63 ≤ t ∧ t < 2 ^ 63 := by
    intro j t
    unfold deI64
    cases j with
    | num n =>
      dsimp only
      split
      · rename_i h
        constructor
        · intro e; cases e; exact ⟨rfl, h⟩
        · rintro ⟨e, -⟩; cases e; rfl
      · rename_i h
        constructor
        · intro e; cases e
        · rintro ⟨e, e'⟩; cases e; exact absurd e' h
    | _ => exact ⟨fun h => (by cases h), fun h => (by cases h.1)⟩
  simp only [deFields, bind, Option.bind_eq_some_iff, hstr, hb, hi]
  constructor
  · rintro ⟨a, h1, b, h2, c, h3, d, h4, e, h5, f, h6, h⟩
    cases h
    exact ⟨h1, h2, h3, h4, h5, h6⟩
  · rintro ⟨h1, h2, h3, h4, h5, h6⟩
    exact ⟨_, h1, _, h2, _, h3, _, h4, _, h5, _, h6, rfl⟩

theorem deStatus_iff (doc : J) (s : PeerStatusJson) : deStatus doc = some s ↔ StatusIn doc (toMessage s) := by
  unfold StatusIn toMessage
  constructor
  · intro h
    unfold deStatus at h
    split at h
    · rename_i es
      simp only [bind, Option.bind_eq_some_iff, member_iff] at h
      obtain ⟨f1, h1, f2, h2, f3, h3, f4, h4, f5, h5, f6, h6, h⟩ := h
      obtain ⟨rfl, rfl, rfl, rfl, rfl, rfl, hr⟩ := (deFields_iff ..).mp h
      exact ⟨hr, .inl ⟨es, rfl, h1, h2, h3, h4, h5, h6⟩⟩
    · obtain ⟨rfl, rfl, rfl, rfl, rfl, rfl, hr⟩ := (deFields_iff ..).mp h
      exact ⟨hr, .inr rfl⟩
    · cases h
  · rintro ⟨hr, ⟨es, rfl, h1, h2, h3, h4, h5, h6⟩ | rfl⟩
    · simp only [deStatus, bind, Option.bind_eq_some_iff, member_iff]
      exact ⟨_, h1, _, h2, _, h3, _, h4, _, h5, _, h6, (deFields_iff ..).mpr ⟨rfl, rfl, rfl, rfl, rfl, rfl, hr⟩⟩
    · exact (deFields_iff ..).mpr ⟨rfl, rfl, rfl, rfl, rfl, rfl, hr⟩

theorem toMessage_surjective (s : Proto.PeerStatus) : ∃ s', toMessage s' = s :=
  ⟨⟨s.connected, s.peerId, s.syncStatus, s.protocolStateHash, s.gitCommit, s.uptimeMinutes⟩, rfl⟩

theorem base64_exists (bs : Bytes) : ∃ t, Base64 standard t bs := by
  have hd : ∀ d, d < 64 → ∃ c, standard[d]? = some c := fun d h =>
    ⟨standard[d]'(by rw [show standard.length = 64 by decide +kernel]; exact h), List.getElem?_eq_getElem _⟩
  match bs with
  | [] => exact ⟨[], .nil⟩
  | [x] =>
    have := x.toNat_lt
    obtain ⟨a, ha⟩ := hd (x.toNat / 4) (by omega)
    obtain ⟨b, hb⟩ := hd (x.toNat % 4 * 16) (by omega)
    exact ⟨_, .one a b ['=', '='] x ha hb (by simp)⟩
  | [x, y] =>
    have := x.toNat_lt
    have := y.toNat_lt
    obtain ⟨a, ha⟩ := hd (x.toNat / 4) (by omega)
    obtain ⟨b, hb⟩ := hd (x.toNat % 4 * 16 + y.toNat / 16) (by omega)
    obtain ⟨c, hc⟩ := hd (y.toNat % 16 * 4) (by omega)
    exact ⟨_, .two a b c ['='] x y ha hb hc (by simp)⟩
  | x :: y :: z :: bs =>
    have := x.toNat_lt
    have := y.toNat_lt
    have := z.toNat_lt
    obtain ⟨a, ha⟩ := hd (x.toNat / 4) (by omega)
    obtain ⟨b, hb⟩ := hd (x.toNat % 4 * 16 + y.toNat / 16) (by omega)
    obtain ⟨c, hc⟩ := hd (y.toNat % 16 * 4 + z.toNat / 64) (by omega)
    obtain ⟨d, hd⟩ := hd (z.toNat % 64) (by omega)
    obtain ⟨t, ht⟩ := base64_exists bs
    exact ⟨_, .more a b c d t x y z bs ha hb hc hd ht⟩

/-! ## C96 -/

/-- **C96 (what a line says).** A line is reported as a status exactly when it is base64 of a JSON document with this status;
every other line is passed over. -/
theorem C96_says (F : Floats) (line : Text) (s : Proto.PeerStatus) : statusOf F line = some s ↔ LineSays F line s := by
  unfold statusOf
  constructor
  · intro h
    cases hd : decodeStandard line with
    | error e => rw [hd] at h; cases h
    | ok bs =>
      rw [hd] at h
      dsimp only at h
      cases hf : fromSlice F bs with
      | none => rw [hf] at h; cases h
      | some s' =>
        rw [hf] at h
        cases h
        unfold fromSlice at hf
        cases hu : String.fromUTF8? ⟨bs.toArray⟩ with
        | none => rw [hu] at hf; cases hf
        | some text =>
          rw [hu] at hf
          dsimp only at hf
          cases hp : Json.parse F text.toList with
          | none => rw [hp] at hf; cases hf
          | some doc =>
            rw [hp] at hf
            obtain ⟨h1, h2⟩ := (Json.parse_iff F _ doc).mp hp
            have hb := (decodeStandard_iff line bs).mp hd
            rw [BinProt.utf8_of_fromUTF8? hu] at hb
            exact ⟨text, doc, hb, h1, h2, (deStatus_iff doc s').mp hf⟩
  · rintro ⟨text, doc, h1, h2, h3, h4⟩
    obtain ⟨s', rfl⟩ := toMessage_surjective s
    rw [(decodeStandard_iff line _).mpr h1]
    dsimp only
    have : fromSlice F (BinProt.utf8 text) = some s' := by
      unfold fromSlice
      rw [BinProt.fromUTF8?_utf8]
      dsimp only
      rw [(Json.parse_iff F _ doc).mpr ⟨h2, h3⟩]
      exact (deStatus_iff doc s').mpr h4
    rw [this]

/-- **C96 (one meaning).** A line says at most one status. -/
theorem C96_one_status (F : Floats) (line : Text) (s s' : Proto.PeerStatus) (h : LineSays F line s) (h' : LineSays F line s') :
    s = s' := by
  have e := (C96_says F line s).mpr h
  rw [(C96_says F line s').mpr h'] at e
  exact (Option.some.inj e).symm

/-- **C96 (every status can be sent).** For every status with an uptime of 64 bits there is a line that says it. -/
theorem C96_every_status (F : Floats) (s : Proto.PeerStatus) (h : -2 ^ 63 ≤ s.uptimeMinutes ∧ s.uptimeMinutes < 2 ^ 63) :
    ∃ line, LineSays F line s := by
  let es : List (String × J) := [("connected", .bool s.connected),
    ("peer_id", .str s.peerId), ("sync_status", .str s.syncStatus), ("protocol_state_hash", .str s.protocolStateHash),
    ("git_commit", .str s.gitCommit), ("uptime_minutes", .num s.uptimeMinutes)]
  obtain ⟨t, ht⟩ := base64_exists (BinProt.utf8 (String.ofList (Json.print F (.obj es))))
  refine ⟨t, _, .obj es, ht, ?_, ?_, h, .inl ⟨es, rfl, ?_⟩⟩
  · rw [String.toList_ofList]
    refine ⟨[], _, [], by simp, (fun c h => by cases h), Json.print_value F _ ?_, (fun c h => by cases h)⟩
    exact ⟨trivial, trivial, trivial, trivial, trivial, ⟨h.1, Int.lt_trans h.2 (by decide)⟩, trivial⟩
  · simp [es, Json.Grammar.depth, Json.Grammar.depthMembers]
  · simp [es, Only]

/-- The statuses that the lines of a stream say, as far as they have been read in `n` rounds (see `C96_updates`). -/
def Spec.statuses (F : Floats) (listening : Nat → Bool) (evs : List Ev) (n : Nat) : List Proto.PeerStatus :=
  (((delivered evs).takeWhile IsText).take n).zipIdx.filterMap (report (statusOf F) listening)

/-- **C96 (on the page).** The listener gets one message for each status, in order, and the page reads each of them as the
status that the line says. -/
theorem C96_on_the_page (F : Floats) (listening : Nat → Bool) (evs : List Ev) (n : Nat) :
    emitted F listening n evs = (statuses F listening evs n).map Proto.PeerStatus.write ∧
    ∀ s ∈ statuses F listening evs n, TextsFit s →
      ∃ k m, Proto.decode Proto.peerStatusTable s.write k = .returned m ∧ Proto.Spec.ShowsStatus m s := by
  constructor
  · unfold emitted
    rw [C96_updates]
    rfl
  · intro s hs hf
    obtain ⟨p, -, hp⟩ := List.mem_filterMap.mp hs
    have hr : -2 ^ 63 ≤ s.uptimeMinutes ∧ s.uptimeMinutes < 2 ^ 63 := by
      unfold Spec.report at hp
      split at hp
      · cases hu : String.fromUTF8? ⟨p.1.toArray⟩ with
        | none => rw [hu] at hp; cases hp
        | some text =>
          rw [hu] at hp
          obtain ⟨-, t, -, -, -, -, -, -, ht⟩ := (C96_line (statusOf F) text s).mp hp
          obtain ⟨-, -, -, -, -, h, -⟩ := (C96_says F t s).mp ht
          exact h
      · cases hp
    obtain ⟨h1, h2, h3, h4⟩ := hf
    obtain ⟨k, m, h5, h6, h7, h8, h9, h10, h11, -⟩ := Proto.C113_status s ⟨h1, h2, h3, h4, hr⟩
    exact ⟨k, m, h5, h6, h7, h8, h9, h10, h11⟩

/-! ## Examples -/

/-- A status as a list, and what its line says. -/
example : statusOf ⟨fun _ => [], fun _ => none⟩ "W3RydWUsImEiLCI/IiwiIiwiIiw3XQ==".toList =
    some { connected := true, peerId := "a", syncStatus := "?", protocolStateHash := "", gitCommit := "", uptimeMinutes := 7 } := by
  decide +kernel

/-- An object with a repeated member is passed over. -/
example : deStatus (.obj [("connected", .bool true), ("connected", .bool true), ("peer_id", .str "a"), ("sync_status", .str ""),
    ("protocol_state_hash", .str ""), ("git_commit", .str ""), ("uptime_minutes", .num 7)]) = none := by decide +kernel

end MinaRs.Status
