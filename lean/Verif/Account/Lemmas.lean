import Verif.Account.Model
import Verif.Account.Spec
import Verif.Block.FormWrite

/-! Descriptions of accounts against their layouts. -/

namespace MinaRs.Account

open Block (BTy BTys fields items plain)
open Block.Spec (Form FormAll FormVar AnyVersion Version1 InMemory Small)
open BinProt (IntKind)
open Json (u8s)
open Spec

/-! ## Structs and nested pairs -/

theorem toU64_ofU64 (n : UInt64) : toU64 (ofU64 n) = n := by simp [toU64, ofU64]
theorem toU32_ofU32 (n : UInt32) : toU32 (ofU32 n) = n := by simp [toU32, ofU32]

theorem ofU64_toU64 (n : {n : Int // IntKind.u64.range.holds n}) : ofU64 (toU64 n) = n := by
  obtain ⟨n, h⟩ := n
  have h : 0 ≤ n ∧ n ≤ 18446744073709551615 := h
  apply Subtype.ext
  simp only [ofU64, toU64, UInt64.toNat_ofNat']
  omega

theorem ofU32_toU32 (n : {n : Int // IntKind.u32.range.holds n}) : ofU32 (toU32 n) = n := by
  obtain ⟨n, h⟩ := n
  have h : 0 ≤ n ∧ n ≤ 4294967295 := h
  apply Subtype.ext
  simp only [ofU32, toU32, UInt32.toNat_ofNat']
  omega

theorem toB32_ofB32 (h : Hash.B32) : toB32 (ofB32 h) = h := by
  obtain ⟨bs, hl⟩ := h
  simp only [toB32, ofB32, Block.arrBytes_leArr]
  congr 1
  rw [← hl]
  exact leBytes_leNat bs

theorem ofB32_toB32 (v : (u8s 32).prod) : ofB32 (toB32 v) = v := Block.leArr_leNat v

theorem pair {α β : Type} {a a' : α} {b b' : β} (h : a = a') (h' : b = b') : (a, b) = (a', b') := by rw [h, h']

theorem authOf_parts (a : Hash.Auth) : authOf (authParts a) = a := by cases a <;> rfl
theorem authParts_of (v : auth.base) : authParts (authOf v) = v := by
  obtain _ | _ | _ | _ | _ | _ | v : Unit ⊕ Unit ⊕ Unit ⊕ Unit ⊕ Unit ⊕ Unit ⊕ Empty := v
  · rfl
  · rfl
  · rfl
  · rfl
  · rfl
  · rfl
  · exact nomatch v
theorem tokenOf_parts (a : Hash.TokenPermissions) : tokenOf (tokenParts a) = a := by cases a <;> rfl
theorem tokenParts_of (v : tokenPermissions.base) : tokenParts (tokenOf v) = v := by
  obtain _ | _ | v : (Bool × Unit) ⊕ (Bool × Unit) ⊕ Empty := v
  · rfl
  · rfl
  · exact nomatch v
theorem permissionsOf_parts (a : Hash.Permissions) : permissionsOf (permissionsParts a) = a := by
  simp only [permissionsOf, permissionsParts, authOf_parts]
theorem permissionsParts_of (v : permissions.base) : permissionsParts (permissionsOf v) = v := by
  obtain ⟨a, b, c, d, e, f, g, h, i, j, k, ⟨⟩⟩ := v
  exact pair (authParts_of _) (pair (authParts_of _) (pair (authParts_of _) (pair (authParts_of _) (pair (authParts_of _) (pair (authParts_of _) (pair (authParts_of _) (pair (authParts_of _) (pair (authParts_of _) (pair (authParts_of _) (pair (authParts_of _) rfl))))))))))
theorem legacyPermissionsOf_parts (a : Hash.PermissionsLegacy) : legacyPermissionsOf (legacyPermissionsParts a) = a := by
  simp only [legacyPermissionsOf, legacyPermissionsParts, authOf_parts]
theorem legacyPermissionsParts_of (v : permissionsLegacy.base) : legacyPermissionsParts (legacyPermissionsOf v) = v := by
  obtain ⟨a, b, c, d, e, f, g, ⟨⟩⟩ := v
  exact pair rfl (pair (authParts_of _) (pair (authParts_of _) (pair (authParts_of _) (pair (authParts_of _) (pair (authParts_of _) (pair (authParts_of _) rfl))))))
theorem timingOf_parts (a : Hash.Timing) : timingOf (timingParts a) = a := by
  cases a with
  | untimed => rfl
  | timed d => simp only [timingOf, timingParts, toU64_ofU64]
theorem timingParts_of (v : timing.base) : timingParts (timingOf v) = v := by
  obtain _ | ⟨a, b, c, d, e, ⟨⟩⟩ | v : Unit ⊕ timedData.base ⊕ Empty := v
  · rfl
  · exact congrArg (fun x => (.inr (.inl x) : Unit ⊕ timedData.base ⊕ Empty)) (pair (ofU64_toU64 _) (pair (ofU64_toU64 _) (pair (ofU64_toU64 _) (pair (ofU64_toU64 _) (pair (ofU64_toU64 _) rfl)))))
  · exact nomatch v
theorem timingV1Of_parts (a : Hash.Timing) : timingV1Of (timingV1Parts a) = a := by
  cases a with
  | untimed => rfl
  | timed d => simp only [timingV1Of, timingV1Parts, toU64_ofU64]
theorem timingV1Parts_of (v : timingV1.base) : timingV1Parts (timingV1Of v) = v := by
  obtain _ | ⟨a, b, c, d, e, ⟨⟩⟩ | v : Unit ⊕ timedDataV1.base ⊕ Empty := v
  · rfl
  · exact congrArg (fun x => (.inr (.inl x) : Unit ⊕ timedDataV1.base ⊕ Empty)) (pair (ofU64_toU64 _) (pair (ofU64_toU64 _) (pair (ofU64_toU64 _) (pair (ofU64_toU64 _) (pair (ofU64_toU64 _) rfl)))))
  · exact nomatch v

theorem ofParts_parts (a : Hash.Account) : ofParts (parts a) = a := by
  simp only [ofParts, parts, toU64_ofU64, toU32_ofU32, toB32_ofB32, tokenOf_parts, timingOf_parts, permissionsOf_parts]
theorem parts_ofParts (v : account.base) : parts (ofParts v) = v := by
  obtain ⟨pk, tid, tp, sym, bal, n, rch, dl, vf, tm, pm, z, zu, ⟨⟩⟩ := v
  exact pair rfl (pair (ofU64_toU64 _) (pair (tokenParts_of _) (pair (ofB32_toB32 _) (pair (ofU64_toU64 _) (pair (ofU32_toU32 _) (pair (ofB32_toB32 _) (pair rfl (pair (ofB32_toB32 _) (pair (timingParts_of _) (pair (permissionsParts_of _) (pair rfl (pair rfl rfl))))))))))))
theorem ofLegacyParts_parts (a : Hash.AccountLegacy) : ofLegacyParts (legacyParts a) = a := by
  simp only [ofLegacyParts, legacyParts, toU64_ofU64, toU32_ofU32, toB32_ofB32, tokenOf_parts, timingV1Of_parts,
    legacyPermissionsOf_parts]
theorem legacyParts_of (v : accountLegacy.base) : legacyParts (ofLegacyParts v) = v := by
  obtain ⟨pk, tid, tp, bal, n, rch, dl, vf, tm, pm, z, ⟨⟩⟩ := v
  exact pair rfl (pair (ofU64_toU64 _) (pair (tokenParts_of _) (pair (ofU64_toU64 _) (pair (ofU32_toU32 _) (pair (ofB32_toB32 _) (pair rfl (pair (ofB32_toB32 _) (pair (timingV1Parts_of _) (pair (legacyPermissionsParts_of _) (pair rfl rfl))))))))))

/-! ## Layouts -/

variable {ver : Layout}

theorem inOrder_append (ls ms : List Layout) (enc : Bytes) :
    inOrder (ls ++ ms) enc ↔ ∃ e₁ e₂, enc = e₁ ++ e₂ ∧ inOrder ls e₁ ∧ inOrder ms e₂ := by
  induction ls generalizing enc with
  | nil =>
    constructor
    · intro h
      exact ⟨[], enc, rfl, rfl, h⟩
    · rintro ⟨_, _, rfl, rfl, h⟩
      exact h
  | cons l ls ih =>
    constructor
    · rintro ⟨e₁, e₂, rfl, h1, h2⟩
      obtain ⟨e₃, e₄, rfl, h3, h4⟩ := (ih e₂).mp h2
      exact ⟨e₁ ++ e₃, e₄, (List.append_assoc _ _ _).symm, ⟨e₁, e₃, rfl, h1, h3⟩, h4⟩
    · rintro ⟨_, e₂, rfl, ⟨e₃, e₄, rfl, h3, h4⟩, h2⟩
      exact ⟨e₃, e₄ ++ e₂, List.append_assoc _ _ _, h3, (ih _).mpr ⟨e₄, e₂, rfl, h4, h2⟩⟩

theorem all_nil (enc : Bytes) : FormAll ver .nil enc () ↔ inOrder [] enc := Iff.rfl

theorem all_cons {n : String} {t : BTy} {ts : BTys} {a : t.base} {b : ts.prod} {l : Layout} {ls : List Layout}
    (h1 : ∀ e, Form ver t e a ↔ l e) (h2 : ∀ e, FormAll ver ts e b ↔ inOrder ls e) (enc : Bytes) :
    FormAll ver (.cons n t ts) enc ((a, b) : t.base × ts.prod) ↔ inOrder (l :: ls) enc := by
  constructor
  · rintro ⟨e₁, e₂, rfl, h3, h4⟩
    exact ⟨e₁, e₂, rfl, (h1 _).mp h3, (h2 _).mp h4⟩
  · rintro ⟨e₁, e₂, rfl, h3, h4⟩
    exact ⟨e₁, e₂, rfl, (h1 _).mpr h3, (h2 _).mpr h4⟩

theorem form_versioned {t : BTy} {b : t.base} {l : Layout} {k : Nat} (h : ∀ e, Form ver t e b ↔ behind ver k l e) (enc : Bytes) :
    Form ver (.versioned t) enc b ↔ behind ver (k + 1) l enc := by
  constructor
  · rintro ⟨e₁, e₂, rfl, h1, h2⟩
    exact ⟨e₁, e₂, rfl, h1, (h _).mp h2⟩
  · rintro ⟨e₁, e₂, rfl, h1, h2⟩
    exact ⟨e₁, e₂, rfl, h1, (h _).mpr h2⟩

theorem form_v1 {t : BTy} {b : t.base} {l : Layout} (h : ∀ e, Form ver t e b ↔ l e) (enc : Bytes) :
    Form ver (Block.v1 t) enc b ↔ behind ver 1 l enc := form_versioned (k := 0) h enc
theorem form_v2 {t : BTy} {b : t.base} {l : Layout} (h : ∀ e, Form ver t e b ↔ l e) (enc : Bytes) :
    Form ver (Block.v2 t) enc b ↔ behind ver 2 l enc := form_versioned (form_v1 h) enc
theorem form_v3 {t : BTy} {b : t.base} {l : Layout} (h : ∀ e, Form ver t e b ↔ l e) (enc : Bytes) :
    Form ver (Block.v3 t) enc b ↔ behind ver 3 l enc := form_versioned (form_v2 h) enc

theorem form_option {t : BTy} {l : t.base → Layout} (h : ∀ b e, Form ver t e b ↔ l b e) (o : Option t.base) (enc : Bytes) :
    Form ver (.option t) enc o ↔ maybe l o enc := by
  cases o with
  | none => exact Iff.rfl
  | some b =>
    constructor
    · rintro ⟨e, rfl, h1⟩
      exact ⟨e, rfl, (h b e).mp h1⟩
    · rintro ⟨e, rfl, h1⟩
      exact ⟨e, rfl, (h b e).mpr h1⟩

theorem form_u64 (n : UInt64) (enc : Bytes) : Form ver (.int .u64) enc (ofU64 n) ↔ number n.toNat enc := Iff.rfl
theorem form_u32 (n : UInt32) (enc : Bytes) : Form ver (.int .u32) enc (ofU32 n) ↔ number n.toNat enc := Iff.rfl
theorem form_bool (b : Bool) (enc : Bytes) : Form ver .bool enc b ↔ exactly (yesNo b) enc := Iff.rfl
theorem form_unit (enc : Bytes) : Form ver .unit enc () ↔ exactly [0x00] enc := Iff.rfl
theorem form_key (k : Hash.PubKey) (enc : Bytes) : Form ver .key enc k ↔ exactly (keyBytes k) enc := Iff.rfl
theorem form_b32 (h : Hash.B32) (enc : Bytes) : Form ver .bytes32 enc (ofB32 h) ↔ exactly h.bytes enc := by
  have : Json.arrBytes 32 (ofB32 h) = h.bytes := congrArg Hash.B32.bytes (toB32_ofB32 h)
  show enc = Json.arrBytes 32 (ofB32 h) ↔ _
  rw [this]
  exact Iff.rfl

/-- An enum tag and no data. -/
theorem tag_only {i : Nat} (hi : i < 256) (enc : Bytes) :
    (∃ (b : UInt8) (e : Bytes), enc = b :: e ∧ b.toNat = i ∧ e = []) ↔ enc = [UInt8.ofNat i] := by
  constructor
  · rintro ⟨b, e, rfl, rfl, rfl⟩
    simp
  · rintro rfl
    exact ⟨_, [], rfl, by simp; omega, rfl⟩

theorem tag_data {i : Nat} (hi : i < 256) (l : Layout) (enc : Bytes) :
    (∃ (b : UInt8) (e : Bytes), enc = b :: e ∧ b.toNat = i ∧ l e) ↔ ∃ e, enc = UInt8.ofNat i :: e ∧ l e := by
  constructor
  · rintro ⟨b, e, rfl, rfl, h⟩
    exact ⟨e, by simp, h⟩
  · rintro ⟨e, rfl, h⟩
    exact ⟨_, e, rfl, by simp; omega, h⟩

theorem form_auth (a : Hash.Auth) (enc : Bytes) : Form ver auth enc (authParts a) ↔ exactly (authBytes a) enc := by
  cases a
  · exact tag_only (i := 0) (by decide) enc
  · exact tag_only (i := 1) (by decide) enc
  · exact tag_only (i := 2) (by decide) enc
  · exact tag_only (i := 3) (by decide) enc
  · exact tag_only (i := 4) (by decide) enc
  · exact tag_only (i := 5) (by decide) enc

theorem one_bool (b : Bool) (enc : Bytes) : FormAll ver (fields [("x", .bool)]) enc ((b, ()) : Bool × Unit) ↔ enc = yesNo b := by
  constructor
  · rintro ⟨e₁, e₂, rfl, h1, h2⟩
    have h1 : e₁ = yesNo b := h1
    have h2 : e₂ = [] := h2
    rw [h1, h2, List.append_nil]
  · rintro rfl
    exact ⟨yesNo b, [], (List.append_nil _).symm, rfl, rfl⟩

theorem form_token (a : Hash.TokenPermissions) (enc : Bytes) :
    Form ver tokenPermissions enc (tokenParts a) ↔ exactly (tokenPermissionBytes a) enc := by
  cases a with
  | notOwned b =>
    refine (tag_data (i := 0) (by decide) (fun e => FormAll ver (fields [("account_disabled", .bool)]) e ((b, ()) : Bool × Unit)) enc).trans ?_
    constructor
    · rintro ⟨e, rfl, h⟩
      rw [(one_bool (ver := ver) b e).mp h]
      rfl
    · intro h
      exact ⟨_, h, (one_bool (ver := ver) b _).mpr rfl⟩
  | tokenOwned b =>
    refine (tag_data (i := 1) (by decide) (fun e => FormAll ver (fields [("disable_new_accounts", .bool)]) e ((b, ()) : Bool × Unit)) enc).trans ?_
    constructor
    · rintro ⟨e, rfl, h⟩
      rw [(one_bool (ver := ver) b e).mp h]
      rfl
    · intro h
      exact ⟨_, h, (one_bool (ver := ver) b _).mpr rfl⟩

/-- Fixed pieces one after the other are their concatenation. -/
theorem inOrder_exactly (bs : List Bytes) (enc : Bytes) : inOrder (bs.map exactly) enc ↔ enc = bs.flatten := by
  induction bs generalizing enc with
  | nil => exact Iff.rfl
  | cons b bs ih =>
    constructor
    · rintro ⟨e₁, e₂, rfl, h1, h2⟩
      rw [(ih e₂).mp h2, show e₁ = b from h1]
      rfl
    · rintro rfl
      exact ⟨b, bs.flatten, rfl, rfl, (ih _).mpr rfl⟩

theorem form_permissions (q : Hash.Permissions) (enc : Bytes) :
    Form ver permissions enc (permissionsParts q) ↔ exactly (permissionBytes q) enc := by
  refine (all_cons (form_auth _) (all_cons (form_auth _) (all_cons (form_auth _) (all_cons (form_auth _)
    (all_cons (form_auth _) (all_cons (form_auth _) (all_cons (form_auth _) (all_cons (form_auth _)
    (all_cons (form_auth _) (all_cons (form_auth _) (all_cons (form_auth _) all_nil)))))))))) enc).trans ?_
  refine (inOrder_exactly [authBytes q.editState, authBytes q.send, authBytes q.receive, authBytes q.setDelegate,
    authBytes q.setPermissions, authBytes q.setVerificationKey, authBytes q.setZkappUri, authBytes q.editSequenceState,
    authBytes q.setTokenSymbol, authBytes q.incrementNonce, authBytes q.setVotingFor] enc).trans ?_
  simp only [List.flatten_cons, List.flatten_nil, List.append_nil, ← List.append_assoc, exactly, permissionBytes]

theorem form_timing (a : Hash.Timing) (enc : Bytes) : Form ver timing enc (timingParts a) ↔ timingLayout a enc := by
  cases a with
  | untimed => exact tag_only (i := 0) (by decide) enc
  | timed d =>
    refine (tag_data (i := 1) (by decide) (fun e => FormAll ver _ e _) enc).trans ?_
    constructor
    · rintro ⟨e, rfl, h⟩
      exact ⟨[0x01], e, rfl, rfl, (all_cons (form_u64 _) (all_cons (form_u64 _) (all_cons (form_u64 _) (all_cons (form_u64 _)
        (all_cons (form_u64 _) all_nil)))) e).mp h⟩
    · rintro ⟨_, e, rfl, rfl, h⟩
      exact ⟨e, rfl, (all_cons (form_u64 _) (all_cons (form_u64 _) (all_cons (form_u64 _) (all_cons (form_u64 _)
        (all_cons (form_u64 _) all_nil)))) e).mpr h⟩

theorem form_account (a : Hash.Account) (enc : Bytes) : Form ver account enc (parts a) ↔ accountLayout a enc :=
  all_cons (form_key _) (all_cons (form_u64 _) (all_cons (form_token _) (all_cons (form_b32 _) (all_cons (form_u64 _)
    (all_cons (form_u32 _) (all_cons (form_b32 _) (all_cons (form_option (t := .key) form_key _) (all_cons (form_b32 _)
    (all_cons (form_timing _) (all_cons (form_permissions _) (all_cons (form_option (t := .unit) (fun _ => form_unit) _)
    (all_cons (form_option (t := .unit) (fun _ => form_unit) _) all_nil)))))))))))) enc

/-! ### The older format -/

theorem form_legacyPermissions (q : Hash.PermissionsLegacy) (enc : Bytes) :
    Form ver permissionsLegacy enc (legacyPermissionsParts q) ↔ legacyPermissionLayout ver q enc :=
  form_v2 (t := .struct (fields [("stake", .bool), ("edit_state", Block.v1 auth), ("send", Block.v1 auth), ("receive", Block.v1 auth),
      ("set_delegate", Block.v1 auth), ("set_permissions", Block.v1 auth), ("set_verification_key", Block.v1 auth)]))
    (all_cons (form_bool _) (all_cons (form_v1 (form_auth _)) (all_cons (form_v1 (form_auth _))
      (all_cons (form_v1 (form_auth _)) (all_cons (form_v1 (form_auth _)) (all_cons (form_v1 (form_auth _))
      (all_cons (form_v1 (form_auth _)) all_nil))))))) enc

theorem form_v2u64 (n : UInt64) (enc : Bytes) : Form ver Block.u64 enc (ofU64 n) ↔ behind ver 2 (number n.toNat) enc :=
  form_v2 (t := .int .u64) (form_u64 n) enc

theorem form_timingV1 (a : Hash.Timing) (enc : Bytes) : Form ver timingV1 enc (timingV1Parts a) ↔ legacyTimingLayout ver a enc := by
  cases a with
  | untimed =>
    refine form_v2 (t := .enum (.cons "Untimed" (.tuple .nil) (.cons "Timed" (.newtype timedDataV1) .nil)))
      (b := timingV1Parts .untimed) (l := exactly [0x00]) ?_ enc
    exact tag_only (i := 0) (by decide)
  | timed d =>
    refine form_v2 (t := .enum (.cons "Untimed" (.tuple .nil) (.cons "Timed" (.newtype timedDataV1) .nil)))
      (b := timingV1Parts (.timed d)) ?_ enc
    intro enc
    have hd : ∀ e, Form ver timedDataV1 e (ofU64 d.initialMinimumBalance, ofU64 d.cliffTime, ofU64 d.cliffAmount,
        ofU64 d.vestingIncrement, ofU64 d.vestingPeriod, ()) ↔ behind ver 1 (inOrder
          [behind ver 2 (number d.initialMinimumBalance.toNat), behind ver 2 (number d.cliffTime.toNat),
           behind ver 2 (number d.cliffAmount.toNat), behind ver 2 (number d.vestingIncrement.toNat),
           behind ver 2 (number d.vestingPeriod.toNat)]) e := fun e =>
      form_v1 (t := .struct (fields [("initial_minimum_balance", Block.u64), ("cliff_time", Block.u64),
          ("cliff_amount", Block.u64), ("vesting_increment", Block.u64), ("vesting_period", Block.u64)]))
        (all_cons (form_v2u64 _) (all_cons (form_v2u64 _) (all_cons (form_v2u64 _) (all_cons (form_v2u64 _)
          (all_cons (form_v2u64 _) all_nil))))) e
    refine (tag_data (i := 1) (by decide) (fun e => Form ver timedDataV1 e _) enc).trans ?_
    constructor
    · rintro ⟨e, rfl, h⟩
      exact ⟨[0x01], e, rfl, rfl, e, [], (List.append_nil _).symm, (hd e).mp h, rfl⟩
    · rintro ⟨_, _, rfl, rfl, e, _, rfl, h, rfl⟩
      exact ⟨e, by rw [List.append_nil]; rfl, (hd e).mpr h⟩

theorem form_publicKey (k : Hash.PubKey) (enc : Bytes) :
    Form ver Block.publicKey enc k ↔ behind ver 2 (exactly (keyBytes k)) enc :=
  form_v2 (t := .key) (form_key k) enc

theorem form_legacy (a : Hash.AccountLegacy) (enc : Bytes) :
    Form ver accountLegacy enc (legacyParts a) ↔ legacyLayout ver a enc :=
  form_v3 (t := .struct (fields
    [("public_key", .newtype (Block.v1 Block.publicKey)), ("token_id", Block.u64x3),
      ("token_permissions", Block.v2 tokenPermissions), ("balance", Block.u64), ("nonce", Block.v2 (.int .u32)),
      ("receipt_chain_hash", Block.hash), ("delegate", .option Block.publicKey), ("voting_for", Block.hash),
      ("timing", timingV1), ("permissions", permissionsLegacy), ("snapp", .option .unit)]))
    (all_cons (form_versioned (t := Block.publicKey) (form_publicKey _)) (all_cons (form_v3 (t := .int .u64) (form_u64 _))
      (all_cons (form_v2 (form_token _)) (all_cons (form_v2u64 _) (all_cons (form_v2 (t := .int .u32) (form_u32 _))
      (all_cons (form_v1 (form_b32 _)) (all_cons (form_option (t := Block.publicKey) form_publicKey _) (all_cons (form_v1 (form_b32 _))
      (all_cons (form_timingV1 _) (all_cons (form_legacyPermissions _)
      (all_cons (form_option (t := .unit) (fun _ => form_unit) _) all_nil))))))))))) enc

end MinaRs.Account
