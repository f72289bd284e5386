import Verif.Proto.CutLemmas

/-! # C114: messages that end within a field -/

namespace MinaRs.Proto

open Spec

/-- **C114.** Bytes that end within a field are refused: after any message, any proper part of a further field makes the reader
throw. -/
theorem C114_cut_short {table : List (Nat × String × Kind)} (ht : table ∈ tables) {fs : List (Nat × Piece)} {bs : Bytes}
    (h : Message fs bs) {f : Nat} {p : Piece} {w : Bytes} (hw : Written f p w)
    (hf : ∀ g q, (g, q) ∈ (f, p) :: fs → ∀ name kind, (g, name, kind) ∈ table → ShortBool kind q ∧ ∃ v, Says kind q v)
    (a b : Bytes) (hab : w = a ++ b) (ha : a ≠ []) (hb : b ≠ []) :
    ∃ n e, decode table (bs ++ a) n = .threw e := by
  have := ht
  obtain ⟨e, he⟩ := rounds_cut (table := table) h
    (fun g q hg name kind hk => hf g q (List.mem_cons_of_mem _ hg) name kind (fieldOf_mem hk)) f p w a b hw
    (fun name kind hk => hf f p (List.mem_cons_self ..) name kind (fieldOf_mem hk)) hab ha hb [] []
  exact ⟨_, e, he⟩

example : decode peerStatusTable [8, 1, 18, 3, 97] 2 = .threw .pastLimit := by decide +kernel

end MinaRs.Proto
