import Verif.Proto.Props

/-! # C115: the list of peers on the page -/

namespace MinaRs.Proto

open Spec

namespace Spec

/-- The statuses that have arrived since the button was pressed last, in order. -/
def arrived : List PageEv → List PeerStatus → List PeerStatus
  | [], acc => acc
  | .status s :: evs, acc => arrived evs (acc ++ [s])
  | .connect :: evs, _ => arrived evs []

/-- A message shows a status: the six properties under the names of the protocol. -/
def ShowsStatus (m : Obj) (s : PeerStatus) : Prop :=
  Shown (.bool s.connected) (get m "connected") ∧ Shown (.str s.peerId) (get m "peer_id") ∧
  Shown (.str s.syncStatus) (get m "sync_status") ∧ Shown (.str s.protocolStateHash) (get m "protocol_state_hash") ∧
  Shown (.str s.gitCommit) (get m "git_commit") ∧ Shown (.int s.uptimeMinutes) (get m "uptime_minutes")

/-- All statuses of some events fit in a message. -/
def AllFit (evs : List PageEv) : Prop := ∀ s, .status s ∈ evs → s.Fits

end Spec

/-! ## Lemmas -/

theorem onUpdate_status (peers : Peers) (s : PeerStatus) (hs : s.Fits) :
    ∃ m, onUpdate peers s.write = some (setPeer peers (ascii "undefined") m) ∧ ShowsStatus m s ∧
      ∀ name ∈ ["syncStatus", "protocolStateHash", "gitCommit", "uptimeMinutes"], get m name = none := by
  obtain ⟨n, m, h1, h2, h3, h4, h5, h6, h7, h8⟩ := C113_status s hs
  have hfit : ∃ fs, Message fs s.write ∧ Fits peerStatusTable fs := by
    obtain ⟨g1, g2, g3, g4, g5, g6⟩ := hs
    obtain ⟨fs, k1, k2, -⟩ := writeFields_message
      [.bool s.connected, .str s.peerId, .str s.syncStatus, .str s.protocolStateHash, .str s.gitCommit, .int s.uptimeMinutes]
      (by
        intro v hv
        simp only [List.mem_cons, List.not_mem_nil, or_false] at hv
        rcases hv with rfl | rfl | rfl | rfl | rfl | rfl
        · exact trivial
        · exact g1
        · exact g2
        · exact g3
        · exact g4
        · exact ⟨g5, g6⟩) 1 (by omega) (by simp)
    refine ⟨fs, k1, ?_⟩
    intro f p hp name kind hk
    obtain ⟨i, v, j, rfl, hv, -, hsay, -, hb⟩ := k2 f p hp
    have hm := fieldOf_mem hk
    simp only [peerStatusTable, List.mem_cons, List.not_mem_nil, or_false, Prod.mk.injEq] at hm
    rcases hm with ⟨h, -, rfl⟩ | ⟨h, -, rfl⟩ | ⟨h, -, rfl⟩ | ⟨h, -, rfl⟩ | ⟨h, -, rfl⟩ | ⟨h, -, rfl⟩
    · obtain rfl : i = 0 := by omega
      cases hv
      exact ⟨hb, j, hsay⟩
    · obtain rfl : i = 1 := by omega
      cases hv
      exact ⟨hb, j, hsay⟩
    · obtain rfl : i = 2 := by omega
      cases hv
      exact ⟨hb, j, hsay⟩
    · obtain rfl : i = 3 := by omega
      cases hv
      exact ⟨hb, j, hsay⟩
    · obtain rfl : i = 4 := by omega
      cases hv
      exact ⟨hb, j, hsay⟩
    · obtain rfl : i = 5 := by omega
      cases hv
      exact ⟨hb, j, hsay⟩
  obtain ⟨fs, k1, k2⟩ := hfit
  obtain ⟨m', k3, -⟩ := decode_message peerStatus_distinct k1 k2
  have k4 : m' = m := C114_determined k3 h1
  subst k4
  have k5 : decode peerStatusTable s.write (s.write.length + 1) = .returned m' :=
    rounds_returned _ k3 _ (by have := message_length k1; omega)
  refine ⟨m', ?_, ⟨h2, h3, h4, h5, h6, h7⟩, ?_⟩
  · unfold onUpdate
    rw [k5]
    dsimp only
    rw [h8 "peerId" (by decide)]
    rfl
  · intro name hname
    apply h8
    intro hn
    simp only [List.mem_cons, List.not_mem_nil, or_false] at hname
    rcases hname with rfl | rfl | rfl | rfl <;> exact absurd hn (by decide)

/-- What the page has after some events: nothing, or one row for the status that arrived last. -/
theorem page_rows (evs : List PageEv) : AllFit evs → ∀ (peers : Peers) (acc : List PeerStatus),
    (peers = [] ∧ acc = [] ∨ ∃ m s, peers = [(ascii "undefined", m)] ∧ acc.getLast? = some s ∧ ShowsStatus m s ∧
      ∀ name ∈ ["syncStatus", "protocolStateHash", "gitCommit", "uptimeMinutes"], get m name = none) →
    (arrived evs acc = [] ∧ page peers evs = some []) ∨
    ∃ m s, (arrived evs acc).getLast? = some s ∧ page peers evs = some [(ascii "undefined", m)] ∧ ShowsStatus m s ∧
      ∀ name ∈ ["syncStatus", "protocolStateHash", "gitCommit", "uptimeMinutes"], get m name = none := by
  induction evs with
  | nil =>
    intro _ peers acc h
    rcases h with ⟨rfl, rfl⟩ | ⟨m, s, rfl, h1, h2⟩
    · exact .inl ⟨rfl, rfl⟩
    · exact .inr ⟨m, s, h1, rfl, h2⟩
  | cons e evs ih =>
    intro hf peers acc h
    have ih := ih (fun s hs => hf s (List.mem_cons_of_mem _ hs))
    cases e with
    | connect => exact ih [] [] (.inl ⟨rfl, rfl⟩)
    | status s =>
      obtain ⟨m, h1, h2, h3⟩ := onUpdate_status peers s (hf s (List.mem_cons_self ..))
      have hp : setPeer peers (ascii "undefined") m = [(ascii "undefined", m)] := by
        rcases h with ⟨rfl, -⟩ | ⟨m', s', rfl, -⟩
        · rfl
        · rw [setPeer, if_pos rfl]
      rw [page, h1, hp, arrived]
      exact ih _ _ (.inr ⟨m, s, rfl, by simp, h2, h3⟩)

theorem shown_connected {b : Bool} {v : Option JsVal} (h : Shown (.bool b) v) : truthy v = b := by
  cases h <;> rfl

/-! ## The property -/

/-- **C115.** What the page shows after any events: no row before a status has arrived since the button was pressed, then one
row, whatever the number of peers.  It shows whether the peer that reported last is connected. -/
theorem C115_last_partial (evs : List PageEv) (hf : AllFit evs) :
    (arrived evs [] = [] ∧ page [] evs = some []) ∨
    ∃ row s, page [] evs = some [row] ∧ (arrived evs []).getLast? = some s ∧ ShowsStatus row.2 s := by
  rcases page_rows evs hf [] [] (.inl ⟨rfl, rfl⟩) with h | ⟨m, s, h1, h2, h3, -⟩
  · exact .inl h
  · exact .inr ⟨_, s, h2, h1, h3⟩

/-- **C115 fails: no row is labelled with a peer.** After any events every row is labelled `undefined`, and its other cells are
empty except for `connected`: the page asks for `peerId` and `syncStatus` where the message has `peer_id` and `sync_status`. -/
theorem C115_label_fails (evs : List PageEv) (hf : AllFit evs) :
    ∃ rows, page [] evs = some rows ∧ ∀ row ∈ rows,
      ∃ connected, cells row = (utf16 "undefined", [connected, none, none, none, none]) := by
  rcases page_rows evs hf [] [] (.inl ⟨rfl, rfl⟩) with ⟨-, h⟩ | ⟨m, s, -, h2, -, h4⟩
  · exact ⟨[], h, by simp⟩
  · refine ⟨_, h2, ?_⟩
    intro row hrow
    simp only [List.mem_cons, List.not_mem_nil, or_false] at hrow
    subst hrow
    refine ⟨get m "connected", ?_⟩
    unfold cells
    rw [h4 "syncStatus" (by decide), h4 "protocolStateHash" (by decide), h4 "gitCommit" (by decide),
      h4 "uptimeMinutes" (by decide)]
    have : ascii "undefined" = utf16 "undefined" := by decide +kernel
    rw [this]

/-- **C115 fails: the counts.** The page counts one peer as soon as a status has arrived, however many peers have reported, and
one connected peer exactly when the status that arrived last says so. -/
theorem C115_count_fails (evs : List PageEv) (hf : AllFit evs) :
    ∃ rows, page [] evs = some rows ∧ getPeerCount rows = (if arrived evs [] = [] then 0 else 1) ∧
      getConnectedPeerCount rows = (match (arrived evs []).getLast? with
        | some s => if s.connected then 1 else 0
        | none => 0) := by
  rcases page_rows evs hf [] [] (.inl ⟨rfl, rfl⟩) with ⟨h1, h⟩ | ⟨m, s, h1, h2, h3, -⟩
  · exact ⟨[], h, by rw [h1]; rfl, by rw [h1]; rfl⟩
  · refine ⟨_, h2, ?_, ?_⟩
    · rw [if_neg]
      · rfl
      · intro h0
        rw [h0] at h1
        cases h1
    · rw [h1]
      unfold getConnectedPeerCount
      have := shown_connected h3.1
      simp only [List.filter_cons, this, List.filter_nil]
      cases s.connected <;> rfl

/-- Two peers, one of them connected. -/
def samplePeers : List PageEv :=
  [.connect, .status sampleStatus, .status { sampleStatus with peerId := "12D3KooX", connected := false }]

theorem samplePeers_fit : AllFit samplePeers := by
  intro s hs
  simp only [samplePeers, List.mem_cons, List.not_mem_nil, or_false, reduceCtorEq, false_or, PageEv.status.injEq] at hs
  rcases hs with rfl | rfl
  · exact sampleStatus_fits
  · refine ⟨?_, ?_, ?_, ?_, ?_, ?_⟩ <;> first | decide +kernel | (unfold FitsText; decide +kernel)

/-- Two peers have reported and one of them is connected; the page counts one peer and none connected. -/
example : (arrived samplePeers []).length = 2 ∧
    (page [] samplePeers).map (fun p => (getPeerCount p, getConnectedPeerCount p)) = some (1, 0) := by decide +kernel

end MinaRs.Proto
