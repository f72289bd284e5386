import Verif.Secrets.Model
import Verif.Secrets.Spec
import Verif.GraphQL.Docs

/-!
# Wallet files (C60, C79)
-/

namespace MinaRs.Secrets

open Json (J JErr Env)
open Text (Text)
open GraphQL (R)
open Spec

/-! ## Lemmas -/

theorem base58Decode_encode (E : Env) (bs : Bytes) : base58Decode E (Codec.encodeCheck E.chk 0x02 bs) = .ok bs := by
  unfold base58Decode versionByte
  rw [Codec.decodeCheck_encode E.chk_length]

theorem base58Decode_inv (E : Env) (s : Text) (bs : Bytes) (h : base58Decode E s = .ok bs) :
    s = Codec.encodeCheck E.chk 0x02 bs := by
  unfold base58Decode at h
  split at h
  · cases h
  · cases h
  · rename_i b bs' hd
    cases h
    rcases (Codec.decodeCheck_ok_iff E.chk_length _ _ _).mp hd with ⟨bs, e, hs⟩ | ⟨e, -⟩
    · cases e; exact hs
    · cases e

theorem base58Decode_no_panic (E : Env) (hE : (E.chk []).head? ≠ some 0x02) (s : Text) : base58Decode E s ≠ .error .panic := by
  unfold base58Decode
  split
  · exact fun h => by cases h
  · rename_i hd
    rcases (Codec.decodeCheck_ok_iff E.chk_length _ _ _).mp hd with ⟨bs, e, hs⟩ | ⟨-, -, e⟩
    · cases e
    · exact absurd e hE
  · exact fun h => by cases h

theorem saltOf_ok {C : Crypto} {bs : Bytes} {s : C.Salt} (h : saltOf C bs = .ok s) : C.b64Encode bs = some s := by
  unfold saltOf at h
  split at h
  · rename_i h'; cases h; exact h'
  · cases h

theorem deI64_num {n : Int} (h : IsI64 n) : deI64 (.num n) = .ok n := by
  unfold deI64
  exact if_pos h

theorem member_once {es : List (String × J)} {name : String} {v : J} (h : Once (.obj es) name v) : member es name = v := by
  obtain ⟨es', he, h⟩ := h
  cases he
  unfold member Json.lookup
  rw [h]
  rfl

theorem once_member {es : List (String × J)} {name : String} {v : J} (h : member es name = v) (hv : v ≠ .null) :
    Once (.obj es) name v := by
  refine ⟨es, rfl, ?_⟩
  unfold member Json.lookup at h
  split at h
  · rename_i j hj
    subst h
    cases hf : es.filter (fun e => e.1 == name) with
    | nil => rw [hf] at hj; cases hj
    | cons e l =>
      rw [hf] at hj
      cases l with
      | cons _ _ => cases hj
      | nil =>
        have hm : e ∈ es.filter (fun e => e.1 == name) := by rw [hf]; exact List.mem_cons_self ..
        have hn := (List.mem_filter.mp hm).2
        cases e with
        | mk k w =>
          cases hj
          have hn : k = name := eq_of_beq hn
          rw [hn]
  · exact absurd h.symm hv

theorem deJson_says (E : Env) (j : J) (w : Wallet) (h : Says E j w) (h1 : IsI64 w.memLimit) (h2 : IsI64 w.opsLimit) :
    deJson j = .ok ⟨"xsalsa20poly1305", "argon2i", String.ofList (Codec.encodeCheck E.chk 0x02 w.nonce),
      String.ofList (Codec.encodeCheck E.chk 0x02 w.salt), w.memLimit, w.opsLimit,
      String.ofList (Codec.encodeCheck E.chk 0x02 w.ciphertext)⟩ := by
  obtain ⟨es, rfl, -⟩ := id h.box
  simp only [deJson, deFields, member_once h.box, member_once h.pw, member_once h.nonce, member_once h.salt,
    member_once h.pwdiff, member_once h.ciphertext, deString, text, dePair, deI64_num h1, deI64_num h2, bind, Except.bind]

theorem read_says (E : Env) (C : Crypto) (j : J) (w : Wallet) (h : Says E j w) (h1 : IsI64 w.memLimit) (h2 : IsI64 w.opsLimit)
    (s : C.Salt) (hs : C.b64Encode w.salt = some s) :
    read E C j = .ok ⟨"xsalsa20poly1305", "argon2i", w.nonce, s, w.memLimit, asU32 w.opsLimit, w.ciphertext⟩ := by
  simp only [read, deJson_says E j w h h1 h2, ofJson, boxPrimitive, pwPrimitive, ne_eq, not_true_eq_false, if_false,
    String.toList_ofList, base58Decode_encode, saltOf, hs, bind, Except.bind]

theorem asU32_toNat {n : Int} (h0 : 0 ≤ n) (h1 : n < 2 ^ 32) : ((asU32 n).toNat : Int) = n := by
  unfold asU32 UInt32.ofInt
  have e : (n % 2 ^ 32).toNat < 2 ^ 32 := by omega
  rw [UInt32.toNat_ofNat_of_lt' e]
  omega

theorem says_file (E : Env) (w : Wallet) : Says E (file E w) w := by
  constructor <;> exact ⟨_, rfl, by simp⟩

/-! ## C60: reading and writing -/

/-- **C60.** A wallet file with a salt of 16 bytes and an operations limit of 32 bits is read, and writing the
wallet gives the file with the same contents and nothing else; a file in that form is reproduced exactly.
Missing: other operations limits and longer salts (see below). -/
theorem C60_reread_partial (E : Env) (C : Crypto) (j : J) (w : Wallet) (h : Says E j w) (h1 : IsI64 w.memLimit)
    (h2 : 0 ≤ w.opsLimit ∧ w.opsLimit < 2 ^ 32) (h3 : w.salt.length = 16) :
    ∃ sb, read E C j = .ok sb ∧ write E C sb = .ok (file E w) := by
  obtain ⟨s, hs, hs'⟩ := C.b64_16 w.salt h3
  have hi : IsI64 w.opsLimit := ⟨by have := h2.1; omega, by have := h2.2; omega⟩
  refine ⟨_, read_says E C j w h h1 hi s hs, ?_⟩
  simp only [write, toJson, hs', bind, Except.bind, asU32_toNat h2.1 h2.2]
  rfl

/-- A checksum, and crypto operations that meet the contract. -/
def exCrypto : Crypto where
  Salt := Bytes
  b64Encode bs := if bs.length ≤ 48 then some bs else none
  b64Decode s := if s.length ≤ 16 then some s else none
  b64_16 bs h := ⟨bs, if_pos (by omega), if_pos (by omega)⟩
  b64_long bs s h hl := by
    split at h
    · cases h; exact if_neg (by omega)
    · cases h
  b64_inv bs s bs' h h' := by
    split at h
    · cases h
      split at h'
      · cases h'; rfl
      · cases h'
    · cases h
  argon2 m _ _ pw := if m < 8 then none else some (List.replicate 32 (UInt8.ofNat pw.length))
  argon2_length m t s pw k h := by
    split at h
    · cases h
    · cases h; simp
  openBox key _ ct := if ct.head? = key.head? then some ct.tail else none
  Keypair := Text
  fromHex s := if s.length = 64 then some s else none

example (E : Env) : let w : Wallet := ⟨List.replicate 24 1, List.replicate 16 2, 134217728, 6, [9, 9]⟩
    Says E (file E w) w ∧ IsI64 w.memLimit ∧ (0 ≤ w.opsLimit ∧ w.opsLimit < 2 ^ 32) ∧ w.salt.length = 16 :=
  ⟨says_file E _, by decide, by decide, by decide⟩

/-- **C60.** Whatever document a wallet was read from: if it is written, it is read back as the same wallet. -/
theorem C60_rewrite (E : Env) (C : Crypto) (j j' : J) (sb : SecretBox C.Salt) (h : read E C j = .ok sb)
    (hw : write E C sb = .ok j') : read E C j' = .ok sb := by
  simp only [read, bind, Except.bind] at h
  split at h
  · cases h
  rename_i json hj
  unfold ofJson at h
  split at h
  · cases h
  rename_i hb
  split at h
  · cases h
  rename_i hp
  simp only [bind, Except.bind] at h
  split at h
  · cases h
  rename_i saltBytes hsalt
  split at h
  · cases h
  rename_i salt hs
  split at h
  · cases h
  rename_i nonce hn
  split at h
  · cases h
  rename_i ct hc
  have hb : json.boxPrimitive = "xsalsa20poly1305" := Decidable.not_not.mp hb
  have hp : json.pwPrimitive = "argon2i" := Decidable.not_not.mp hp
  have h := Except.ok.inj h
  subst h
  have hs' := saltOf_ok hs
  simp only [write, toJson, bind, Except.bind] at hw
  split at hw
  · cases hw
  rename_i json' hw'
  split at hw'
  · cases hw'
  rename_i bytes hbytes
  have hbytes := C.b64_inv _ _ _ hs' hbytes
  rw [hbytes] at hw'
  cases hw'
  cases hw
  have hmem : IsI64 json.memLimit := by
    have : ∀ f1 f2 f3 f4 f5 f6, deFields f1 f2 f3 f4 f5 f6 = .ok json → IsI64 json.memLimit := by
      intro f1 f2 f3 f4 f5 f6 hd
      simp only [deFields, bind, Except.bind] at hd
      split at hd
      · cases hd
      split at hd
      · cases hd
      split at hd
      · cases hd
      split at hd
      · cases hd
      split at hd
      · cases hd
      rename_i e he
      split at hd
      · cases hd
      cases hd
      unfold dePair at he
      split at he
      · simp only [bind, Except.bind] at he
        split at he
        · cases he
        rename_i x hx
        split at he
        · cases he
        cases he
        unfold deI64 at hx
        split at hx
        · split at hx
          · rename_i hr
            cases hx; exact hr
          · cases hx
        · cases hx
      · cases he
    unfold deJson at hj
    split at hj
    · exact this _ _ _ _ _ _ hj
    · exact this _ _ _ _ _ _ hj
    · cases hj
  have hlt := (asU32 json.opsLimit).toNat_lt
  have hops : IsI64 ((asU32 json.opsLimit).toNat : Int) := ⟨by omega, by omega⟩
  have := read_says E C (file E ⟨nonce, saltBytes, json.memLimit, (asU32 json.opsLimit).toNat, ct⟩) _ (says_file E _) hmem hops salt hs'
  have e : asU32 (((asU32 json.opsLimit).toNat : Nat) : Int) = asU32 json.opsLimit := by
    apply UInt32.toNat_inj.mp
    have := asU32_toNat (n := ((asU32 json.opsLimit).toNat : Nat)) (by omega) (by omega)
    omega
  simp only [e] at this
  rw [← hb, ← hp] at this
  simp only [file, text, hb, hp] at this ⊢
  exact this

example (E : Env) : ∃ j sb j', read E exCrypto j = .ok sb ∧ write E exCrypto sb = .ok j' := by
  obtain ⟨sb, h1, h2⟩ := C60_reread_partial E exCrypto _ ⟨[], List.replicate 16 2, 134217728, 6, [9, 9]⟩ (says_file E _)
    (by decide) (by decide) (by decide)
  exact ⟨_, sb, _, h1, h2⟩

/-- **C60.** A document that is read describes a wallet, in the one text form of its byte strings. -/
theorem C60_read_says (E : Env) (C : Crypto) (es : List (String × J)) (sb : SecretBox C.Salt)
    (h : read E C (.obj es) = .ok sb) :
    ∃ w, Says E (.obj es) w ∧ IsI64 w.memLimit ∧ IsI64 w.opsLimit ∧ sb.nonce = w.nonce ∧ sb.ciphertext = w.ciphertext ∧
      sb.memLimit = w.memLimit ∧ sb.opsLimit = asU32 w.opsLimit ∧ C.b64Encode w.salt = some sb.pwsalt := by
  have hstr : ∀ k s, deString (member es k) = .ok s → Once (.obj es) k (.str s) := by
    intro k s hk
    refine once_member ?_ (fun h => by cases h)
    cases hi : member es k with
    | str t => rw [hi] at hk; cases hk; rfl
    | _ => rw [hi] at hk; cases hk
  simp only [read, deJson, deFields, bind, Except.bind] at h
  split at h
  · cases h
  rename_i json hj
  split at hj
  · cases hj
  rename_i a ha
  split at hj
  · cases hj
  rename_i b hb
  split at hj
  · cases hj
  rename_i c hc
  split at hj
  · cases hj
  rename_i d hd
  split at hj
  · cases hj
  rename_i e he
  split at hj
  · cases hj
  rename_i f hf
  cases hj
  unfold ofJson at h
  simp only at h
  split at h
  · cases h
  rename_i hbox
  split at h
  · cases h
  rename_i hpw
  simp only [bind, Except.bind] at h
  split at h
  · cases h
  rename_i saltBytes hsalt
  split at h
  · cases h
  rename_i salt hs
  split at h
  · cases h
  rename_i nonce hnn
  split at h
  · cases h
  rename_i ct hct
  have h := Except.ok.inj h
  subst h
  have hbox : a = "xsalsa20poly1305" := Decidable.not_not.mp hbox
  have hpw : b = "argon2i" := Decidable.not_not.mp hpw
  have hsalt := base58Decode_inv E _ _ hsalt
  have hnn := base58Decode_inv E _ _ hnn
  have hct := base58Decode_inv E _ _ hct
  have hpair : ∃ x y, member es "pwdiff" = .arr [.num x, .num y] ∧ e = (x, y) ∧ IsI64 x ∧ IsI64 y := by
    have hnum : ∀ j x, deI64 j = .ok x → j = .num x ∧ IsI64 x := by
      intro j x hx
      unfold deI64 at hx
      split at hx
      · split at hx
        · rename_i hr; cases hx; exact ⟨rfl, hr⟩
        · cases hx
      · cases hx
    unfold dePair at he
    split at he
    · rename_i p q hi
      simp only [bind, Except.bind] at he
      split at he
      · cases he
      rename_i x hx
      split at he
      · cases he
      rename_i y hy
      cases he
      obtain ⟨rfl, hx'⟩ := hnum _ _ hx
      obtain ⟨rfl, hy'⟩ := hnum _ _ hy
      exact ⟨x, y, hi, rfl, hx', hy'⟩
    · cases he
  obtain ⟨x, y, hi, rfl, hx, hy⟩ := hpair
  have hdiff : Once (.obj es) "pwdiff" (.arr [.num x, .num y]) := once_member hi (fun h => by cases h)
  refine ⟨⟨nonce, saltBytes, x, y, ct⟩, ⟨hbox ▸ hstr _ _ ha, hpw ▸ hstr _ _ hb, ?_, ?_, hdiff, ?_⟩, hx, hy, rfl, rfl, rfl, rfl, ?_⟩
  · have := hstr _ _ hc
    unfold text
    rw [← hnn, String.ofList_toList]
    exact this
  · have := hstr _ _ hd
    unfold text
    rw [← hsalt, String.ofList_toList]
    exact this
  · have := hstr _ _ hf
    unfold text
    rw [← hct, String.ofList_toList]
    exact this
  · exact saltOf_ok hs

/-- **C60 fails** for an operations limit outside 32 bits: the wallet is read, and written with another one. -/
theorem C60_ops_fails (E : Env) (C : Crypto) (w : Wallet) (h1 : IsI64 w.memLimit) (h2 : IsI64 w.opsLimit)
    (h3 : w.salt.length = 16) (hops : w.opsLimit < 0 ∨ 2 ^ 32 ≤ w.opsLimit) :
    ∃ sb ops, read E C (file E w) = .ok sb ∧ write E C sb = .ok (file E { w with opsLimit := ops }) ∧ ops ≠ w.opsLimit := by
  obtain ⟨s, hs, hs'⟩ := C.b64_16 w.salt h3
  refine ⟨_, (asU32 w.opsLimit).toNat, read_says E C _ w (says_file E w) h1 h2 s hs, ?_, ?_⟩
  · simp only [write, toJson, hs', bind, Except.bind]
    rfl
  · have := (asU32 w.opsLimit).toNat_lt
    omega

example : let w : Wallet := ⟨[], List.replicate 16 2, 134217728, 2 ^ 32 + 6, []⟩
    IsI64 w.memLimit ∧ IsI64 w.opsLimit ∧ w.salt.length = 16 ∧ (w.opsLimit < 0 ∨ 2 ^ 32 ≤ w.opsLimit) := by decide

/-- **C60 fails** for salts longer than 16 bytes: if the wallet is read, it cannot be written. -/
theorem C60_long_salt_fails (E : Env) (C : Crypto) (w : Wallet) (h1 : IsI64 w.memLimit) (h2 : IsI64 w.opsLimit)
    (h3 : 16 < w.salt.length) (s : C.Salt) (hs : C.b64Encode w.salt = some s) :
    ∃ sb, read E C (file E w) = .ok sb ∧ write E C sb = .error .err := by
  refine ⟨_, read_says E C _ w (says_file E w) h1 h2 s hs, ?_⟩
  simp only [write, toJson, C.b64_long _ _ hs h3, bind, Except.bind]

example : 16 < (List.replicate 32 (2 : UInt8)).length ∧ ∃ s, exCrypto.b64Encode (List.replicate 32 2) = some s :=
  ⟨by decide, _, rfl⟩

/-- **C60.** Reading and writing never panic, whatever the document, for a checksum whose value on no bytes does
not start with the version byte (that of the double SHA-256 starts with 0x5d). -/
theorem C60_read_no_panic (E : Env) (hE : (E.chk []).head? ≠ some 0x02) (C : Crypto) (j : J) :
    read E C j ≠ .error .panic ∧ ∀ sb, write E C sb ≠ .error .panic := by
  have hd := base58Decode_no_panic E hE
  have hstr : ∀ j, deString j ≠ .error .panic := by intro j; cases j <;> exact fun h => by cases h
  have hnum : ∀ j, deI64 j ≠ .error .panic := by
    intro j
    unfold deI64
    split
    · split <;> exact fun h => by cases h
    · exact fun h => by cases h
  have hpair : ∀ j, dePair j ≠ .error .panic := by
    intro j h
    unfold dePair at h
    split at h
    · simp only [bind, Except.bind] at h
      split at h
      · rename_i he; cases h; exact hnum _ he
      split at h
      · rename_i he; cases h; exact hnum _ he
      cases h
    · cases h
  have hf : ∀ f1 f2 f3 f4 f5 f6, deFields f1 f2 f3 f4 f5 f6 ≠ .error .panic := by
    intro f1 f2 f3 f4 f5 f6 h
    simp only [deFields, bind, Except.bind] at h
    split at h
    · rename_i he; cases h; exact hstr _ he
    split at h
    · rename_i he; cases h; exact hstr _ he
    split at h
    · rename_i he; cases h; exact hstr _ he
    split at h
    · rename_i he; cases h; exact hstr _ he
    split at h
    · rename_i he; cases h; exact hpair _ he
    split at h
    · rename_i he; cases h; exact hstr _ he
    cases h
  constructor
  · intro h
    simp only [read, bind, Except.bind] at h
    split at h
    · rename_i he
      cases h
      unfold deJson at he
      split at he
      · exact hf _ _ _ _ _ _ he
      · exact hf _ _ _ _ _ _ he
      · cases he
    rename_i json _
    unfold ofJson at h
    split at h
    · cases h
    split at h
    · cases h
    simp only [bind, Except.bind] at h
    split at h
    · rename_i he; cases h; exact hd _ he
    split at h
    · rename_i he
      cases h
      unfold saltOf at he
      split at he <;> cases he
    split at h
    · rename_i he; cases h; exact hd _ he
    split at h
    · rename_i he; cases h; exact hd _ he
    cases h
  · intro sb h
    simp only [write, toJson, bind, Except.bind] at h
    split at h
    · rename_i he
      split at he <;> (cases he; try cases h)
    · cases h

/-! ## C60: decryption -/

/-- **C60.** Decrypting with a nonce of 24 bytes panics for no password and no ciphertext whose plaintext, if there
is one, is not empty.  Missing: other nonces and empty plaintexts, which panic (see below). -/
theorem C60_decrypt_no_panic_partial (C : Crypto) (sb : SecretBox C.Salt) (password : Bytes) (hn : sb.nonce.length = 24)
    (hp : ∀ key, C.openBox key sb.nonce sb.ciphertext ≠ some []) :
    privateKeyBytes C sb password ≠ .error .panic ∧ keypair C sb password ≠ .error .panic := by
  have h1 : privateKeyBytes C sb password ≠ .error .panic := by
    intro h
    simp only [privateKeyBytes, genSecret, bind, Except.bind] at h
    split at h
    · rename_i he
      split at he <;> (cases he; try cases h)
    rename_i k hk
    have hk' : k.length = 32 := by
      split at hk
      · rename_i hk'; cases hk; exact C.argon2_length _ _ _ _ _ hk'
      · cases hk
    rw [if_neg (by simp [hk']), if_neg (by simp [hn])] at h
    split at h
    · cases h
    · rename_i he; exact hp _ he
    · cases h
  refine ⟨h1, ?_⟩
  intro h
  simp only [keypair, bind, Except.bind] at h
  split at h
  · rename_i he; cases h; exact h1 he
  · split at h <;> cases h

example : ∀ key, exCrypto.openBox key (List.replicate 24 0) [1, 2, 3] ≠ some [] := by
  intro key
  unfold exCrypto
  simp only
  split <;> simp

/-- **C60 fails**: whenever a password can be tried at all, a wallet with a nonce of another length panics, and one
whose plaintext is empty does. -/
theorem C60_decrypt_panics_fails (C : Crypto) (sb : SecretBox C.Salt) (password key : Bytes)
    (hk : C.argon2 (asU32 (sb.memLimit.tdiv 1024)) sb.opsLimit sb.pwsalt password = some key)
    (h : sb.nonce.length ≠ 24 ∨ C.openBox key sb.nonce sb.ciphertext = some []) :
    privateKeyBytes C sb password = .error .panic := by
  simp only [privateKeyBytes, genSecret, hk, bind, Except.bind]
  rw [if_neg (by simp [C.argon2_length _ _ _ _ _ hk])]
  split
  · rfl
  · rename_i hn
    rcases h with h | h
    · exact absurd h hn
    · rw [h]

/-- A file with a short nonce is read without complaint. -/
example (E : Env) : ∃ (j : J) (sb : SecretBox exCrypto.Salt) (key : Bytes), read E exCrypto j = .ok sb ∧
    exCrypto.argon2 (asU32 (sb.memLimit.tdiv 1024)) sb.opsLimit sb.pwsalt [1] = some key ∧ sb.nonce.length ≠ 24 := by
  refine ⟨_, _, List.replicate 32 1, read_says E exCrypto _ ⟨[7], List.replicate 16 2, 134217728, 6, [9, 9]⟩ (says_file E _)
    (by decide) (by decide) (List.replicate 16 2) rfl, rfl, by decide⟩

/-! ## C79: the private key that comes out -/

/-- **C79.** The wallet that holds a private key, encrypted under a password with the file's own limits and salt,
opens with that password to the same key: its 32 bytes, least significant first, and the key pair of the same
number.  Missing: memory limits of 2^42 bytes and more, and operations limits outside 32 bits. -/
theorem C79_key_partial (E : Env) (C : Crypto) (j : J) (w : Wallet) (hs : Says E j w) (hm : 0 ≤ w.memLimit ∧ w.memLimit < 2 ^ 42)
    (ho : 0 ≤ w.opsLimit ∧ w.opsLimit < 2 ^ 32) (hn : w.nonce.length = 24) (salt : C.Salt) (hsalt : C.b64Encode w.salt = some salt)
    (password key : Bytes) (version : UInt8) (n : Nat)
    (hkey : ∀ m t : UInt32, (m.toNat : Int) = w.memLimit / 1024 → (t.toNat : Int) = w.opsLimit → C.argon2 m t salt password = some key)
    (hct : C.openBox key w.nonce w.ciphertext = some (version :: leBytes 32 n)) :
    ∃ sb, read E C j = .ok sb ∧ privateKeyBytes C sb password = .ok (leBytes 32 n) ∧
      ∀ kp, keypair C sb password = .ok kp ↔ C.fromHex (hexBE n) = some kp := by
  have h1 : IsI64 w.memLimit := ⟨by omega, by omega⟩
  have h2 : IsI64 w.opsLimit := ⟨by omega, by omega⟩
  have hk := hkey (asU32 (w.memLimit.tdiv 1024)) (asU32 w.opsLimit)
    (by rw [Int.tdiv_eq_ediv_of_nonneg hm.1]; exact asU32_toNat (by omega) (by omega)) (asU32_toNat ho.1 ho.2)
  have hb : privateKeyBytes C ⟨"xsalsa20poly1305", "argon2i", w.nonce, salt, w.memLimit, asU32 w.opsLimit, w.ciphertext⟩ password =
      .ok (leBytes 32 n) := by
    simp only [privateKeyBytes, genSecret, hk, bind, Except.bind]
    rw [if_neg (by simp [C.argon2_length _ _ _ _ _ hk]), if_neg (by simp [hn]), hct]
  refine ⟨_, read_says E C j w hs h1 h2 salt hsalt, hb, ?_⟩
  intro kp
  simp only [keypair, hb, bind, Except.bind]
  show (match C.fromHex (hexBE n) with | some k => (Except.ok k : R C.Keypair) | none => .error .err) = .ok kp ↔ _
  cases C.fromHex (hexBE n) <;> simp

example (E : Env) : let w : Wallet := ⟨List.replicate 24 7, List.replicate 16 2, 134217728, 6, 1 :: 0 :: leBytes 32 12345⟩
    Says E (file E w) w ∧ (0 ≤ w.memLimit ∧ w.memLimit < 2 ^ 42) ∧ (0 ≤ w.opsLimit ∧ w.opsLimit < 2 ^ 32) ∧ w.nonce.length = 24 ∧
    exCrypto.b64Encode w.salt = some w.salt ∧
    (∀ m t : UInt32, (m.toNat : Int) = w.memLimit / 1024 → (t.toNat : Int) = w.opsLimit →
      exCrypto.argon2 m t w.salt [5] = some (List.replicate 32 1)) ∧
    exCrypto.openBox (List.replicate 32 1) w.nonce w.ciphertext = some (0 :: leBytes 32 12345) := by
  refine ⟨says_file E _, by decide, by decide, by decide, rfl, ?_, rfl⟩
  intro m t hm _
  have : m.toNat = 131072 := by simp at hm; omega
  show (if m < 8 then none else _) = _
  rw [if_neg (by rw [UInt32.lt_iff_toNat_lt, this]; decide)]
  rfl

/-- **C79.** With a password for which decryption fails there is an error and no key. -/
theorem C79_wrong_password (C : Crypto) (sb : SecretBox C.Salt) (password : Bytes) (hn : sb.nonce.length = 24)
    (h : ∀ key, C.argon2 (asU32 (sb.memLimit.tdiv 1024)) sb.opsLimit sb.pwsalt password = some key →
      C.openBox key sb.nonce sb.ciphertext = none) :
    privateKeyBytes C sb password = .error .err ∧ keypair C sb password = .error .err := by
  have h1 : privateKeyBytes C sb password = .error .err := by
    simp only [privateKeyBytes, genSecret, bind, Except.bind]
    cases hk : C.argon2 (asU32 (sb.memLimit.tdiv 1024)) sb.opsLimit sb.pwsalt password with
    | none => rfl
    | some key =>
      simp only
      rw [if_neg (by simp [C.argon2_length _ _ _ _ _ hk]), if_neg (by simp [hn]), h key hk]
  exact ⟨h1, by simp only [keypair, h1, bind, Except.bind]⟩

/-- A wrong password. -/
example : ∀ key, exCrypto.argon2 (asU32 ((134217728 : Int).tdiv 1024)) 6 (List.replicate 16 2 : Bytes) [5, 5] = some key →
    exCrypto.openBox key (List.replicate 24 7) (1 :: 0 :: leBytes 32 12345) = none := by
  intro key h
  have h' : exCrypto.argon2 (asU32 ((134217728 : Int).tdiv 1024)) 6 (List.replicate 16 2 : Bytes) [5, 5] =
      some (List.replicate 32 2) := rfl
  rw [h'] at h
  cases h
  rfl

/-- **C79 fails** for memory limits of 2^42 bytes and more, and for negative ones: they are silently reduced, so that
the password is hashed with another limit than the one in the file. -/
theorem C79_memory_fails (C : Crypto) (sb : SecretBox C.Salt) (password : Bytes) (k : Int) :
    genSecret C { sb with memLimit := 1024 * k + 2 ^ 42 } password = genSecret C { sb with memLimit := 1024 * k } password := by
  have e : asU32 ((1024 * k + 2 ^ 42).tdiv 1024) = asU32 ((1024 * k).tdiv 1024) := by
    have h1 : (1024 * k + 2 ^ 42 : Int) = 1024 * (k + 2 ^ 32) := by omega
    rw [h1, Int.mul_tdiv_cancel_left _ (by decide), Int.mul_tdiv_cancel_left _ (by decide)]
    unfold asU32 UInt32.ofInt
    congr 2
    omega
  simp only [genSecret, e]

end MinaRs.Secrets
