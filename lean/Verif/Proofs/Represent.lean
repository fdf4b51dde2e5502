import Verif.Spec.Universe
import Verif.Proofs.Serde
import Verif.Proofs.Records
import Verif.Proofs.Lists
import Verif.Proofs.Base64
import Verif.Proofs.Recovery

/-!
# How a storage represents a table
-/

namespace Pfp

open Spec

/-! ## Ciphertexts -/

/-- The text stored for an encrypted text. -/
def sealText (P : Prims) (k nonce : Bytes) (text : Str) : Str :=
  Base64.encode nonce ++ '_' :: Base64.encode (P.gcmEncrypt k nonce (utf8 text))

/-- The text stored for a value. -/
def encText (P : Prims) (k nonce : Bytes) (j : Json) : Str :=
  Base64.encode nonce ++ '_' :: Base64.encode (P.gcmEncrypt k nonce (Serde.toVec j))

theorem encText_eq (P : Prims) (k nonce : Bytes) (j : Json) : encText P k nonce j = sealText P k nonce (Json.print j) := rfl

/-- `v` is an encryption of a text of which `m` holds, the text `own` unless it may be a foreign one. -/
def IsEnc (P : Prims) (F : Prop) (k : Bytes) (m : Str → Prop) (own : Json) (v : Str) : Prop :=
  ∃ (nonce : Bytes) (text : Str), nonce.length = 12 ∧ v = sealText P k nonce text ∧ m text ∧ (F ∨ text = Json.print own)

/-- `v` is an encryption of the record of a site. -/
def SiteEnc (P : Prims) (F : Prop) (k : Bytes) (x : Site) (v : Str) : Prop :=
  IsEnc P F k (SiteRecordText x) (Serde.siteToJson x) v

/-- `v` is an encryption of the record of a password. -/
def PasswordEnc (P : Prims) (F : Prop) (k : Bytes) (x : Password) (v : Str) : Prop :=
  IsEnc P F k (PasswordRecordText x) (Serde.passwordToJson x) v

theorem siteRecordText_print (x : Site) : SiteRecordText x (Json.print (Serde.siteToJson x)) := by
  obtain ⟨m, j, h1, h2, h3⟩ := Serde.fromSlice_iff.mp (Serde.site_roundtrip x)
  cases utf8_injective h1
  exact ⟨j, h2, Serde.site_iff.mp h3⟩

theorem passwordRecordText_print (x : Password) : PasswordRecordText x (Json.print (Serde.passwordToJson x)) := by
  obtain ⟨m, j, h1, h2, h3⟩ := Serde.fromSlice_iff.mp (Serde.password_roundtrip x)
  cases utf8_injective h1
  exact ⟨j, h2, Serde.password_iff.mp h3⟩

theorem site_read {x : Site} {m : Str} (h : SiteRecordText x m) : Serde.fromSlice Serde.siteFromJson (utf8 m) = some x := by
  obtain ⟨j, h1, h2⟩ := h
  exact Serde.fromSlice_iff.mpr ⟨m, j, rfl, h1, Serde.site_iff.mpr h2⟩

theorem password_read {x : Password} {m : Str} (h : PasswordRecordText x m) :
    Serde.fromSlice Serde.passwordFromJson (utf8 m) = some x := by
  obtain ⟨j, h1, h2⟩ := h
  exact Serde.fromSlice_iff.mpr ⟨m, j, rfl, h1, Serde.password_iff.mpr h2⟩

theorem siteEnc_own (P : Prims) (F : Prop) (k nonce : Bytes) (hn : nonce.length = 12) (x : Site) :
    SiteEnc P F k x (encText P k nonce (Serde.siteToJson x)) :=
  ⟨nonce, _, hn, rfl, siteRecordText_print x, .inr rfl⟩

theorem passwordEnc_own (P : Prims) (F : Prop) (k nonce : Bytes) (hn : nonce.length = 12) (x : Password) :
    PasswordEnc P F k x (encText P k nonce (Serde.passwordToJson x)) :=
  ⟨nonce, _, hn, rfl, passwordRecordText_print x, .inr rfl⟩

theorem randBytes_length (E : Env) (pos n : Nat) : (FileIO.randBytes E pos n).length = n := by
  simp [FileIO.randBytes]

theorem decryptData_sealText (P : Prims) (hP : P.Lawful) {k nonce : Bytes} (hk : k.length = 32) (hn : nonce.length = 12)
    (text : Str) : Crypto.decryptData P (sealText P k nonce text) k = .ok (utf8 text) := by
  unfold Crypto.decryptData sealText
  rw [if_neg (by simp [hk]), Crypto.splitOnce_append (Base64.underscore_not_mem _)]
  simp only [okOr_some, Res.bind_ok, Base64.decode_encode]
  rw [if_neg (by simp [hn]), hP.gcm_roundtrip k nonce _ hk hn]
  rfl

theorem decryptData_encText (P : Prims) (hP : P.Lawful) {k nonce : Bytes} (hk : k.length = 32) (hn : nonce.length = 12)
    (j : Json) : Crypto.decryptData P (encText P k nonce j) k = .ok (Serde.toVec j) :=
  decryptData_sealText P hP hk hn (Json.print j)

namespace Storage

theorem get_missing {α : Type} (E : Env) (w : World) (f : Json → Option α) (key : Str) (k : Bytes)
    (h : w.data.get? key = none) : get E w f key k = .err .keyMissing := by
  unfold get FileIO.get
  rw [h]; rfl

theorem get_enc {α : Type} (E : Env) (hP : E.prims.Lawful) (w : World) (f : Json → Option α) (key : Str) (k : Bytes)
    (hk : k.length = 32) {F : Prop} {v : Str} {m : Str → Prop} {own : Json} {x : α} (h : w.data.get? key = some v)
    (hv : IsEnc E.prims F k m own v) (hx : ∀ text, m text → Serde.fromSlice f (utf8 text) = some x) :
    get E w f key k = .ok x := by
  obtain ⟨nonce, text, hn, rfl, hm, _⟩ := hv
  unfold get FileIO.get
  rw [h]
  simp only [okOr_some, Res.bind_ok]
  rw [decryptData_sealText E.prims hP hk hn]
  simp only [Res.bind_ok, hx text hm, okOr_some]

/-- The world after a value has been set. -/
def setWorld (E : Env) (key : Str) (j : Json) (k : Bytes) (w : World) : World :=
  { w with data := w.data.insert key (encText E.prims k (FileIO.randBytes E w.rpos 12) j), epoch := w.epoch + 1,
           rpos := w.rpos + 12 }

theorem encrypt_eq (E : Env) (value k : Bytes) (hk : k.length = 32) (w : World) :
    encrypt E value k w = (.ok (Base64.encode (FileIO.randBytes E w.rpos 12) ++
      '_' :: Base64.encode (E.prims.gcmEncrypt k (FileIO.randBytes E w.rpos 12) value)), { w with rpos := w.rpos + 12 }) := by
  have : encrypt E value k w = (Crypto.encryptData E.prims (FileIO.randBytes E w.rpos 12) value k,
      { w with rpos := w.rpos + 12 }) := rfl
  rw [this, Crypto.encryptData, if_neg (by simp [hk, randBytes_length])]

theorem set_eq (E : Env) (key : Str) (j : Json) (k : Bytes) (hk : k.length = 32) (w : World) :
    set E key j k w = (.ok (), setWorld E key j k w) := by
  unfold set
  rw [M.bind_apply, encrypt_eq E _ k hk]
  rfl

/-! ## Reading all entries -/

/-- The value under a key, if it can be read. -/
def peek {α : Type} (E : Env) (w : World) (f : Json → Option α) (k : Bytes) (key : Str) : Option α :=
  match get E w f key k with
  | .ok a => some a
  | _ => none

/-- What an iterator over the keys yields. -/
def peekAll {α : Type} (E : Env) (w : World) (f : Json → Option α) (sel : Str → Bool) (k : Bytes) (keys : List Str) :
    List α :=
  (keys.filter sel).filterMap (peek E w f k)

theorem collect_eq {α : Type} (E : Env) (w : World) (f : Json → Option α) (sel : Str → Bool) (k : Bytes) :
    ∀ keys : List Str, (∀ key ∈ keys, sel key = true → get E w f key k ≠ .panic) →
      collect E w f sel k keys = .ok (peekAll E w f sel k keys)
  | [], _ => rfl
  | key :: rest, h => by
    have ih := collect_eq E w f sel k rest fun key' h' => h key' (List.mem_cons_of_mem _ h')
    rw [collect]
    by_cases hs : sel key = true
    · rw [if_pos hs]
      have hp := h key (by simp) hs
      unfold peekAll at ih ⊢
      rw [List.filter_cons_of_pos hs, List.filterMap_cons, peek]
      cases hg : get E w f key k with
      | ok a => simp [ih]
      | err e => simp [ih]
      | panic => exact absurd hg hp
    · rw [if_neg hs, ih]
      unfold peekAll
      rw [List.filter_cons_of_neg hs]

theorem first_eq {α : Type} (E : Env) (w : World) (f : Json → Option α) (sel : Str → Bool) (k : Bytes) :
    ∀ keys : List Str, (∀ key ∈ keys, sel key = true → get E w f key k ≠ .panic) →
      first E w f sel k keys = .ok (peekAll E w f sel k keys).head?
  | [], _ => rfl
  | key :: rest, h => by
    have ih := first_eq E w f sel k rest fun key' h' => h key' (List.mem_cons_of_mem _ h')
    rw [first]
    by_cases hs : sel key = true
    · rw [if_pos hs]
      have hp := h key (by simp) hs
      unfold peekAll at ih ⊢
      rw [List.filter_cons_of_pos hs, List.filterMap_cons, peek]
      cases hg : get E w f key k with
      | ok a => simp
      | err e => simp [ih]
      | panic => exact absurd hg hp
    · rw [if_neg hs, ih]
      unfold peekAll
      rw [List.filter_cons_of_neg hs]

/-! ## Keys -/

theorem siteKey_ne_salt (E : Env) (s : Str) (h : Bytes) : siteKey E s h ≠ SALT_KEY := by
  simp [siteKey, STORAGE_PREFIX, SALT_KEY]

theorem siteKey_ne_hmac (E : Env) (s : Str) (h : Bytes) : siteKey E s h ≠ HMAC_SECRET_KEY := by
  simp [siteKey, STORAGE_PREFIX, HMAC_SECRET_KEY]

theorem passwordKey_eq (E : Env) (i : PasswordId) (h : Bytes) : passwordKey E i h =
    STORAGE_PREFIX ++ (Crypto.getDigest E.prims h i.site ++ ':' :: Crypto.getDigest E.prims h (idText i)) := by
  simp [passwordKey, sitePrefix, siteKey, idText]

theorem passwordKey_ne_salt (E : Env) (i : PasswordId) (h : Bytes) : passwordKey E i h ≠ SALT_KEY := by
  simp [passwordKey_eq, STORAGE_PREFIX, SALT_KEY]

theorem passwordKey_ne_hmac (E : Env) (i : PasswordId) (h : Bytes) : passwordKey E i h ≠ HMAC_SECRET_KEY := by
  simp [passwordKey_eq, STORAGE_PREFIX, HMAC_SECRET_KEY]

theorem salt_ne_hmac : SALT_KEY ≠ HMAC_SECRET_KEY := by decide

theorem siteKey_ne_passwordKey (E : Env) (s : Str) (i : PasswordId) (h : Bytes) :
    siteKey E s h ≠ passwordKey E i h := by
  rw [passwordKey_eq, siteKey]
  intro hc
  exact ne_append_sep (Base64.colon_not_mem _) (List.append_cancel_left hc)

theorem siteKey_inj (E : Env) (U : Universe) {h : Bytes} (hc : CollisionFree E.prims U h) {s s' : Str}
    (hs : U.site s) (hs' : U.site s') (he : siteKey E s h = siteKey E s' h) : s = s' :=
  hc.site s s' hs hs' (Base64.encode_injective (List.append_cancel_left he))

theorem idText_inj {i i' : PasswordId} (hs : Char.ofNat 0 ∉ i.site) (hs' : Char.ofNat 0 ∉ i'.site)
    (hn : Char.ofNat 0 ∉ i.name) (hn' : Char.ofNat 0 ∉ i'.name) (h : idText i = idText i') : i = i' := by
  obtain ⟨h1, h2⟩ := append_sep_inj hs hs' h
  obtain ⟨h3, h4⟩ := append_sep_inj hn hn' h2
  cases i; cases i'; simp_all

theorem passwordKey_inj (E : Env) (U : Universe) {h : Bytes} (hc : CollisionFree E.prims U h) {i i' : PasswordId}
    (hi : U.id i) (hi' : U.id i') (he : passwordKey E i h = passwordKey E i' h) : i = i' := by
  rw [passwordKey_eq, passwordKey_eq] at he
  have := (append_sep_inj (Base64.colon_not_mem _) (Base64.colon_not_mem _) (List.append_cancel_left he)).2
  exact idText_inj (U.site_nul _ hi.1) (U.site_nul _ hi'.1) (U.name_nul _ hi.2.1) (U.name_nul _ hi'.2.1)
    (hc.id i i' hi hi' (Base64.encode_injective this))

/-- Which keys belong to a site's passwords. -/
theorem prefix_passwordKey (E : Env) (U : Universe) {h : Bytes} (hc : CollisionFree E.prims U h) {s : Str}
    {i : PasswordId} (hs : U.site s) (hi : U.id i) :
    (sitePrefix E s h).isPrefixOf (passwordKey E i h) = true ↔ i.site = s := by
  rw [List.isPrefixOf_iff_prefix]
  constructor
  · rintro ⟨t, ht⟩
    rw [passwordKey_eq, sitePrefix, siteKey, List.append_assoc, List.append_assoc] at ht
    have := (append_sep_inj (Base64.colon_not_mem _) (Base64.colon_not_mem _) (List.append_cancel_left ht)).1
    exact (hc.site s i.site hs hi.1 (Base64.encode_injective this)).symm
  · rintro rfl
    rw [passwordKey]
    exact List.prefix_append _ _

theorem prefix_siteKey (E : Env) (h : Bytes) (s s' : Str) :
    (sitePrefix E s h).isPrefixOf (siteKey E s' h) = false := by
  rw [Bool.eq_false_iff]
  intro hp
  rw [List.isPrefixOf_iff_prefix] at hp
  obtain ⟨t, ht⟩ := hp
  rw [sitePrefix, siteKey, siteKey, List.append_assoc, List.append_assoc] at ht
  exact ne_append_sep (Base64.colon_not_mem _) (List.append_cancel_left ht).symm

theorem prefix_salt (E : Env) (h : Bytes) (s : Str) : (sitePrefix E s h).isPrefixOf SALT_KEY = false := by
  simp [sitePrefix, siteKey, STORAGE_PREFIX, SALT_KEY, List.isPrefixOf]

theorem prefix_hmac (E : Env) (h : Bytes) (s : Str) : (sitePrefix E s h).isPrefixOf HMAC_SECRET_KEY = false := by
  simp [sitePrefix, siteKey, STORAGE_PREFIX, HMAC_SECRET_KEY, List.isPrefixOf]

theorem isSiteKey_siteKey (E : Env) (s : Str) (h : Bytes) : isSiteKey (siteKey E s h) = true := by
  unfold isSiteKey siteKey
  rw [Bool.and_eq_true, List.isPrefixOf_iff_prefix]
  refine ⟨List.prefix_append _ _, ?_⟩
  rw [List.drop_left]
  simp [Crypto.getDigest, Base64.colon_not_mem]

theorem isSiteKey_passwordKey (E : Env) (i : PasswordId) (h : Bytes) : isSiteKey (passwordKey E i h) = false := by
  unfold isSiteKey
  rw [passwordKey_eq, List.drop_left]
  simp

theorem isSiteKey_salt : isSiteKey SALT_KEY = false := by decide
theorem isSiteKey_hmac : isSiteKey HMAC_SECRET_KEY = false := by decide

end Storage

/-! ## Representation -/

/-- The data `d` hold the table `V` under the encryption key `k` and the HMAC secret `h`; `F` tells whether another program
may have written some of them. -/
structure RepVault (E : Env) (U : Universe) (F : Prop) (k h : Bytes) (d : Data) (V : Vault) : Prop where
  nodup : (d.map (·.1)).Nodup
  site_in : ∀ s t, V.sites s = some t → U.site s ∧ (∀ x, t = some x → U.site x) ∧
    ∃ v, d.get? (Storage.siteKey E s h) = some v ∧ SiteEnc E.prims F k ⟨s, t⟩ v
  revision : ∀ i e, V.passwords i = some e → i.revision ≠ c!"1"
  password_in : ∀ i e, V.passwords i = some e → U.id i ∧
    ∃ v, d.get? (Storage.passwordKey E i h) = some v ∧ PasswordEnc E.prims F k (Vault.record i e) v
  only : ∀ key v, d.get? key = some v → key = Storage.SALT_KEY ∨ key = Storage.HMAC_SECRET_KEY ∨
    (∃ s t, V.sites s = some t ∧ key = Storage.siteKey E s h) ∨
    (∃ i e, V.passwords i = some e ∧ key = Storage.passwordKey E i h)

/-- The data `d` are a storage holding the table `V`, created by a `reset` with primary password `p` at a position of the
random stream, or by another program. -/
structure RepStore (E : Env) (U : Universe) (o : Origin) (p : Str) (d : Data) (V : Vault) : Prop where
  vault : RepVault E U o.Foreign (keyFor E.prims p (saltAt E o)) (secretAt E o) d V
  primary : U.primary p
  origin : o.Within U
  salt : d.get? Storage.SALT_KEY = some (Base64.encode (saltAt E o))
  secret : d.get? Storage.HMAC_SECRET_KEY = some (sealText E.prims (keyFor E.prims p (saltAt E o)) (nonceAt E o)
    (secretTextAt E o))

theorem keyFor_length {P : Prims} (hP : P.Lawful) (p : Str) (salt : Bytes) : (keyFor P p salt).length = 32 :=
  hP.scrypt_length _ _ _

namespace RepVault
variable {E : Env} {U : Universe} {F : Prop} {k h : Bytes} {d : Data} {V : Vault}

theorem site_out (R : RepVault E U F k h d V) (hc : CollisionFree E.prims U h) {s : Str} (hs : U.site s)
    (hV : V.sites s = none) : d.get? (Storage.siteKey E s h) = none := by
  cases hg : d.get? (Storage.siteKey E s h) with
  | none => rfl
  | some v =>
    rcases R.only _ _ hg with h' | h' | ⟨s', t, h1, h2⟩ | ⟨i, e, _, h2⟩
    · exact absurd h' (Storage.siteKey_ne_salt E s h)
    · exact absurd h' (Storage.siteKey_ne_hmac E s h)
    · have := Storage.siteKey_inj E U hc hs (R.site_in s' t h1).1 h2
      subst this; rw [hV] at h1; cases h1
    · exact absurd h2 (Storage.siteKey_ne_passwordKey E s i h)

theorem password_out (R : RepVault E U F k h d V) (hc : CollisionFree E.prims U h) {i : PasswordId} (hi : U.id i)
    (hV : V.passwords i = none) : d.get? (Storage.passwordKey E i h) = none := by
  cases hg : d.get? (Storage.passwordKey E i h) with
  | none => rfl
  | some v =>
    rcases R.only _ _ hg with h' | h' | ⟨s', t, _, h2⟩ | ⟨i', e, h1, h2⟩
    · exact absurd h' (Storage.passwordKey_ne_salt E i h)
    · exact absurd h' (Storage.passwordKey_ne_hmac E i h)
    · exact absurd h2.symm (Storage.siteKey_ne_passwordKey E s' i h)
    · have := Storage.passwordKey_inj E U hc hi (R.password_in i' e h1).1 h2
      subst this; rw [hV] at h1; cases h1

theorem perm (R : RepVault E U F k h d V) {d' : Data} (hp : d.Perm d') : RepVault E U F k h d' V := by
  have hg := Data.get?_perm hp R.nodup
  refine ⟨(hp.map _).nodup_iff.mp R.nodup, ?_, R.revision, ?_, ?_⟩
  · intro s t hs; rw [← hg]; exact R.site_in s t hs
  · intro i e hi; rw [← hg]; exact R.password_in i e hi
  · intro key v hk; rw [← hg] at hk; exact R.only key v hk

/-- Setting a site entry. -/
theorem set_site (R : RepVault E U F k h d V) (hc : CollisionFree E.prims U h) {s : Str} {t : Option Str} {v : Str}
    (hs : U.site s) (ht : ∀ x, t = some x → U.site x) (hv : SiteEnc E.prims F k ⟨s, t⟩ v) :
    RepVault E U F k h (d.insert (Storage.siteKey E s h) v) { V with sites := update V.sites s (some t) } := by
  refine ⟨Data.insert_nodup _ _ R.nodup, ?_, R.revision, ?_, ?_⟩
  · intro s' t' h'
    simp only [update] at h'
    rw [Data.get?_insert]
    by_cases hss : s' = s
    · subst hss
      rw [if_pos rfl] at h' ⊢
      cases h'
      exact ⟨hs, ht, v, rfl, hv⟩
    · rw [if_neg hss] at h'
      obtain ⟨h1, h2, h3⟩ := R.site_in s' t' h'
      rw [if_neg fun he => hss (Storage.siteKey_inj E U hc h1 hs he)]
      exact ⟨h1, h2, h3⟩
  · intro i e hi
    rw [Data.get?_insert, if_neg (Storage.siteKey_ne_passwordKey E s i h).symm]
    exact R.password_in i e hi
  · intro key v' hk
    rw [Data.get?_insert] at hk
    by_cases hkk : key = Storage.siteKey E s h
    · exact .inr (.inr (.inl ⟨s, t, by simp [update], hkk⟩))
    · rw [if_neg hkk] at hk
      rcases R.only _ _ hk with h' | h' | ⟨s', t', h1, h2⟩ | h'
      · exact .inl h'
      · exact .inr (.inl h')
      · refine .inr (.inr (.inl ⟨s', t', ?_, h2⟩))
        have : s' ≠ s := by rintro rfl; exact hkk h2
        simp [update, this, h1]
      · exact .inr (.inr (.inr h'))

/-- Removing a site entry. -/
theorem remove_site (R : RepVault E U F k h d V) (hc : CollisionFree E.prims U h) {s : Str} (hs : U.site s) :
    RepVault E U F k h (d.erase (Storage.siteKey E s h)) (V.forget s) := by
  refine ⟨Data.erase_nodup _ R.nodup, ?_, R.revision, ?_, ?_⟩
  · intro s' t' h'
    rw [Vault.forget] at h'
    simp only [update] at h'
    rw [Data.get?_erase]
    by_cases hss : s' = s
    · subst hss; simp at h'
    · rw [if_neg hss] at h'
      obtain ⟨h1, h2, h3⟩ := R.site_in s' t' h'
      rw [if_neg fun he => hss (Storage.siteKey_inj E U hc h1 hs he)]
      exact ⟨h1, h2, h3⟩
  · intro i e hi
    rw [Data.get?_erase, if_neg (Storage.siteKey_ne_passwordKey E s i h).symm]
    exact R.password_in i e hi
  · intro key v' hk
    rw [Data.get?_erase] at hk
    by_cases hkk : key = Storage.siteKey E s h
    · simp [hkk] at hk
    · rw [if_neg hkk] at hk
      rcases R.only _ _ hk with h' | h' | ⟨s', t', h1, h2⟩ | h'
      · exact .inl h'
      · exact .inr (.inl h')
      · refine .inr (.inr (.inl ⟨s', t', ?_, h2⟩))
        have : s' ≠ s := by rintro rfl; exact hkk h2
        simp [Vault.forget, update, this, h1]
      · exact .inr (.inr (.inr h'))

/-- Setting a password entry. -/
theorem set_password (R : RepVault E U F k h d V) (hc : CollisionFree E.prims U h) {i : PasswordId} {e : Entry} {v : Str}
    (hi : U.id i) (hr : i.revision ≠ c!"1") (hv : PasswordEnc E.prims F k (Vault.record i e) v) :
    RepVault E U F k h (d.insert (Storage.passwordKey E i h) v) (V.put i e) := by
  refine ⟨Data.insert_nodup _ _ R.nodup, ?_, ?_, ?_, ?_⟩
  · intro s' t' h'
    rw [Data.get?_insert, if_neg (Storage.siteKey_ne_passwordKey E s' i h)]
    exact R.site_in s' t' h'
  · intro i' e' h'
    by_cases hii : i' = i
    · subst hii; exact hr
    · simp only [Vault.put, update, if_neg hii] at h'
      exact R.revision i' e' h'
  · intro i' e' h'
    rw [Vault.put] at h'
    simp only [update] at h'
    rw [Data.get?_insert]
    by_cases hii : i' = i
    · subst hii
      rw [if_pos rfl] at h' ⊢
      cases h'
      exact ⟨hi, v, rfl, hv⟩
    · rw [if_neg hii] at h'
      obtain ⟨h1, h2⟩ := R.password_in i' e' h'
      rw [if_neg fun he => hii (Storage.passwordKey_inj E U hc h1 hi he)]
      exact ⟨h1, h2⟩
  · intro key v' hk
    rw [Data.get?_insert] at hk
    by_cases hkk : key = Storage.passwordKey E i h
    · exact .inr (.inr (.inr ⟨i, e, by simp [Vault.put, update], hkk⟩))
    · rw [if_neg hkk] at hk
      rcases R.only _ _ hk with h' | h' | h' | ⟨i', e', h1, h2⟩
      · exact .inl h'
      · exact .inr (.inl h')
      · exact .inr (.inr (.inl h'))
      · refine .inr (.inr (.inr ⟨i', e', ?_, h2⟩))
        have : i' ≠ i := by rintro rfl; exact hkk h2
        simp [Vault.put, update, this, h1]

/-- Removing a password entry. -/
theorem remove_password (R : RepVault E U F k h d V) (hc : CollisionFree E.prims U h) {i : PasswordId} (hi : U.id i) :
    RepVault E U F k h (d.erase (Storage.passwordKey E i h)) (V.delete i) := by
  refine ⟨Data.erase_nodup _ R.nodup, ?_, ?_, ?_, ?_⟩
  · intro s' t' h'
    rw [Data.get?_erase, if_neg (Storage.siteKey_ne_passwordKey E s' i h)]
    exact R.site_in s' t' h'
  · intro i' e' h'
    by_cases hii : i' = i
    · subst hii; simp [Vault.delete, update] at h'
    · simp only [Vault.delete, update, if_neg hii] at h'
      exact R.revision i' e' h'
  · intro i' e' h'
    rw [Vault.delete] at h'
    simp only [update] at h'
    rw [Data.get?_erase]
    by_cases hii : i' = i
    · subst hii; simp at h'
    · rw [if_neg hii] at h'
      obtain ⟨h1, h2⟩ := R.password_in i' e' h'
      rw [if_neg fun he => hii (Storage.passwordKey_inj E U hc h1 hi he)]
      exact ⟨h1, h2⟩
  · intro key v' hk
    rw [Data.get?_erase] at hk
    by_cases hkk : key = Storage.passwordKey E i h
    · simp [hkk] at hk
    · rw [if_neg hkk] at hk
      rcases R.only _ _ hk with h' | h' | h' | ⟨i', e', h1, h2⟩
      · exact .inl h'
      · exact .inr (.inl h')
      · exact .inr (.inr (.inl h'))
      · refine .inr (.inr (.inr ⟨i', e', ?_, h2⟩))
        have : i' ≠ i := by rintro rfl; exact hkk h2
        simp [Vault.delete, update, this, h1]

/-! ### Reading -/

variable {w : World}

theorem get_site (R : RepVault E U F k h w.data V) (hP : E.prims.Lawful) (hk : k.length = 32)
    (hc : CollisionFree E.prims U h) {s : Str} (hs : U.site s) :
    Storage.get E w Serde.siteFromJson (Storage.siteKey E s h) k =
      match V.sites s with
      | some t => .ok ⟨s, t⟩
      | none => .err .keyMissing := by
  cases hV : V.sites s with
  | none => exact Storage.get_missing _ _ _ _ _ (R.site_out hc hs hV)
  | some t =>
    obtain ⟨_, _, v, h3, h4⟩ := R.site_in s t hV
    exact Storage.get_enc E hP w _ _ k hk h3 h4 fun _ => site_read

theorem getAlias_eq (R : RepVault E U F k h w.data V) (hP : E.prims.Lawful) (hk : k.length = 32)
    (hc : CollisionFree E.prims U h) {s : Str} (hs : U.site s) :
    Storage.getAlias E w s h k =
      match V.sites s with
      | some (some t) => .ok t
      | _ => .err .noSuchAlias := by
  unfold Storage.getAlias Storage.getSite
  rw [R.get_site hP hk hc hs]
  cases V.sites s with
  | none => rfl
  | some t => cases t <;> rfl

theorem normalizeSite_eq (s : Str) : Storage.normalizeSite s = canonical s := by
  unfold Storage.normalizeSite Storage.stripPrefix canonical
  have : (c!"www.").isPrefixOf s = true ↔ s.take 4 = c!"www." := by
    rw [List.isPrefixOf_iff_prefix, List.prefix_iff_eq_take]
    exact ⟨fun h => h.symm, fun h => h.symm⟩
  by_cases h : s.take 4 = c!"www."
  · rw [if_pos (this.mpr h), if_pos h]; rfl
  · rw [if_neg (fun h' => h (this.mp h')), if_neg h]; rfl

theorem resolve_eq (R : RepVault E U F k h w.data V) (hP : E.prims.Lawful) (hk : k.length = 32)
    (hc : CollisionFree E.prims U h) {s : Str} (hs : U.site s) :
    Storage.resolveSite E w s h k = .ok (V.resolve s) := by
  unfold Storage.resolveSite
  simp only [normalizeSite_eq]
  rw [R.getAlias_eq hP hk hc (U.site_canonical s hs), Vault.resolve]
  cases V.sites (canonical s) with
  | none => rfl
  | some t => cases t <;> rfl

theorem resolve_in (R : RepVault E U F k h d V) {s : Str} (hs : U.site s) : U.site (V.resolve s) := by
  unfold Vault.resolve
  cases hV : V.sites (canonical s) with
  | none => exact U.site_canonical s hs
  | some t =>
    cases t with
    | none => exact U.site_canonical s hs
    | some t => exact (R.site_in _ _ hV).2.1 t rfl

theorem idOf_in (R : RepVault E U F k h d V) {s n r : Str} (hs : U.site s) (hn : U.name n) (hr : U.revision r) :
    U.id (V.idOf s n r) := by
  refine ⟨R.resolve_in hs, hn, ?_⟩
  simp only [Vault.idOf, revisionOf]
  split
  · exact U.revision_nil
  · exact hr

theorem idOf_revision (V : Vault) (s n r : Str) : (V.idOf s n r).revision ≠ c!"1" := by
  simp only [Vault.idOf, revisionOf]
  split
  · simp
  · assumption

theorem new_eq (V : Vault) (s n r : Str) : PasswordId.new (V.resolve s) n r = V.idOf s n r := by
  unfold PasswordId.new Vault.idOf revisionOf
  by_cases h : r = c!"1"
  · rw [if_neg (by simp [h]), if_pos h]
  · rw [if_pos h, if_neg h]

theorem get_password (R : RepVault E U F k h w.data V) (hP : E.prims.Lawful) (hk : k.length = 32)
    (hc : CollisionFree E.prims U h) {i : PasswordId} (hi : U.id i) :
    Storage.getPassword E w i h k =
      match V.passwords i with
      | some e => .ok (Vault.record i e)
      | none => .err .keyMissing := by
  unfold Storage.getPassword
  cases hV : V.passwords i with
  | none => exact Storage.get_missing _ _ _ _ _ (R.password_out hc hi hV)
  | some e =>
    obtain ⟨_, v, h3, h4⟩ := R.password_in i e hV
    exact Storage.get_enc E hP w _ _ k hk h3 h4 fun _ => password_read

theorem has_password (R : RepVault E U F k h w.data V)
    (hc : CollisionFree E.prims U h) {i : PasswordId} (hi : U.id i) :
    Storage.hasPassword E w i h = (V.passwords i).isSome := by
  unfold Storage.hasPassword Storage.contains FileIO.containsKey Data.contains
  cases hV : V.passwords i with
  | none => rw [R.password_out hc hi hV]; rfl
  | some e =>
    obtain ⟨_, v, h3, h4⟩ := R.password_in i e hV
    rw [h3]; rfl

theorem record_id (i : PasswordId) (e : Entry) : (Vault.record i e).id = i := by
  unfold Vault.record; cases e.secret <;> rfl

theorem record_inj {i i' : PasswordId} {e e' : Entry} (h : Vault.record i e = Vault.record i' e') : i = i' ∧ e = e' := by
  refine ⟨by rw [← record_id i e, h, record_id], ?_⟩
  obtain ⟨s, n⟩ := e
  obtain ⟨s', n'⟩ := e'
  cases s <;> cases s' <;> simp_all [Vault.record]

/-! ### Listing -/

theorem mem_keys (hE : E.Lawful) (w : World) (key : Str) :
    key ∈ FileIO.keys E w ↔ ∃ v, w.data.get? key = some v := by
  unfold FileIO.keys FileIO.entries
  rw [((hE.order w.epoch w.data).map _).mem_iff, List.mem_map]
  constructor
  · rintro ⟨e, he, rfl⟩
    cases hg : w.data.get? e.1 with
    | none => exact absurd rfl (Data.lookup_eq_none.mp hg e he)
    | some v => exact ⟨v, rfl⟩
  · rintro ⟨v, hv⟩
    exact ⟨(key, v), Data.mem_of_get? hv, rfl⟩

theorem keys_nodup (R : RepVault E U F k h w.data V) (hE : E.Lawful) : (FileIO.keys E w).Nodup :=
  ((hE.order w.epoch w.data).map _).nodup_iff.mpr R.nodup

/-- The keys selected for a site's passwords. -/
theorem prefix_keys (R : RepVault E U F k h w.data V) (hE : E.Lawful) (hc : CollisionFree E.prims U h) {s : Str}
    (hs : U.site s) {key : Str} (hk : key ∈ FileIO.keys E w)
    (hp : (Storage.sitePrefix E s h).isPrefixOf key = true) :
    ∃ i e, V.passwords i = some e ∧ key = Storage.passwordKey E i h ∧ i.site = s := by
  obtain ⟨v, hv⟩ := (mem_keys hE w key).mp hk
  rcases R.only _ _ hv with h' | h' | ⟨s', t, _, h2⟩ | ⟨i, e, h1, h2⟩
  · rw [h', Storage.prefix_salt] at hp; cases hp
  · rw [h', Storage.prefix_hmac] at hp; cases hp
  · rw [h2, Storage.prefix_siteKey] at hp; cases hp
  · rw [h2, Storage.prefix_passwordKey E U hc hs (R.password_in i e h1).1] at hp
    exact ⟨i, e, h1, h2, hp⟩

theorem peek_password (R : RepVault E U F k h w.data V) (hE : E.Lawful) (hk : k.length = 32)
    (hc : CollisionFree E.prims U h) {i : PasswordId} {e : Entry} (hi : V.passwords i = some e) :
    Storage.get E w Serde.passwordFromJson (Storage.passwordKey E i h) k = .ok (Vault.record i e) := by
  have := R.get_password hE.prims hk hc (R.password_in i e hi).1
  rw [hi] at this
  exact this

theorem peekAll_passwords (R : RepVault E U F k h w.data V) (hE : E.Lawful) (hk : k.length = 32)
    (hc : CollisionFree E.prims U h) {s : Str} (hs : U.site s) (x : Password) :
    x ∈ Storage.peekAll E w Serde.passwordFromJson (Storage.sitePrefix E s h).isPrefixOf k (FileIO.keys E w) ↔
      ∃ i e, V.passwords i = some e ∧ x = Vault.record i e ∧ i.site = s := by
  unfold Storage.peekAll
  rw [List.mem_filterMap]
  constructor
  · rintro ⟨key, hkey, hx⟩
    rw [List.mem_filter] at hkey
    obtain ⟨i, e, h1, rfl, h3⟩ := R.prefix_keys hE hc hs hkey.1 hkey.2
    rw [Storage.peek, R.peek_password hE hk hc h1] at hx
    cases hx
    exact ⟨i, e, h1, rfl, h3⟩
  · rintro ⟨i, e, h1, rfl, rfl⟩
    refine ⟨Storage.passwordKey E i h, ?_, ?_⟩
    · rw [List.mem_filter, mem_keys hE]
      obtain ⟨hi, v, hv, _⟩ := R.password_in i e h1
      exact ⟨⟨v, hv⟩, (Storage.prefix_passwordKey E U hc hi.1 hi).mpr rfl⟩
    · rw [Storage.peek, R.peek_password hE hk hc h1]

theorem passwords_no_panic (R : RepVault E U F k h w.data V) (hE : E.Lawful) (hk : k.length = 32)
    (hc : CollisionFree E.prims U h) {s : Str} (hs : U.site s) :
    ∀ key ∈ FileIO.keys E w, (Storage.sitePrefix E s h).isPrefixOf key = true →
      Storage.get E w Serde.passwordFromJson key k ≠ .panic := by
  intro key hkey hp
  obtain ⟨i, e, h1, rfl, _⟩ := R.prefix_keys hE hc hs hkey hp
  rw [R.peek_password hE hk hc h1]
  simp

theorem listPasswords_eq (R : RepVault E U F k h w.data V) (hE : E.Lawful) (hk : k.length = 32)
    (hc : CollisionFree E.prims U h) {s : Str} (hs : U.site s) :
    ∃ l, Storage.listPasswords E w s h k = .ok l ∧ l.Nodup ∧
      ∀ x, x ∈ l ↔ ∃ i e, V.passwords i = some e ∧ x = Vault.record i e ∧ i.site = s := by
  refine ⟨_, Storage.collect_eq E w _ _ k _ (R.passwords_no_panic hE hk hc hs), ?_, R.peekAll_passwords hE hk hc hs⟩
  unfold Storage.peekAll List.Nodup
  rw [List.pairwise_filterMap]
  have hn : (List.filter (Storage.sitePrefix E s h).isPrefixOf (FileIO.keys E w)).Nodup :=
    (R.keys_nodup hE).sublist List.filter_sublist
  refine List.Pairwise.imp_of_mem ?_ hn
  intro a a' ha ha' hne b hb b' hb' hbb
  rw [List.mem_filter] at ha ha'
  obtain ⟨i, e, h1, rfl, _⟩ := R.prefix_keys hE hc hs ha.1 ha.2
  obtain ⟨i', e', h1', rfl, _⟩ := R.prefix_keys hE hc hs ha'.1 ha'.2
  rw [Storage.peek, R.peek_password hE hk hc h1] at hb
  rw [Storage.peek, R.peek_password hE hk hc h1'] at hb'
  cases hb; cases hb'
  exact hne (by rw [(record_inj hbb).1])

theorem firstPassword_eq (R : RepVault E U F k h w.data V) (hE : E.Lawful) (hk : k.length = 32)
    (hc : CollisionFree E.prims U h) {s : Str} (hs : U.site s) :
    ∃ o, Storage.firstPassword E w s h k = .ok o ∧ (o.isSome = true ↔ V.HasPasswords s) := by
  refine ⟨_, Storage.first_eq E w _ _ k _ (R.passwords_no_panic hE hk hc hs), ?_⟩
  have hm := R.peekAll_passwords hE hk hc hs
  cases hl : Storage.peekAll E w Serde.passwordFromJson (Storage.sitePrefix E s h).isPrefixOf k (FileIO.keys E w) with
  | nil =>
    rw [hl] at hm
    simp only [List.head?_nil, Option.isSome_none, Bool.false_eq_true, false_iff]
    rintro ⟨i, e, h1, h2⟩
    have := (hm (Vault.record i e)).mpr ⟨i, e, h1, rfl, h2⟩
    simp at this
  | cons x l =>
    rw [hl] at hm
    simp only [List.head?_cons, Option.isSome_some, true_iff]
    obtain ⟨i, e, h1, _, h3⟩ := (hm x).mp (by simp)
    exact ⟨i, e, h1, h3⟩

theorem site_keys (R : RepVault E U F k h w.data V) (hE : E.Lawful) {key : Str} (hk : key ∈ FileIO.keys E w)
    (hp : Storage.isSiteKey key = true) : ∃ s t, V.sites s = some t ∧ key = Storage.siteKey E s h := by
  obtain ⟨v, hv⟩ := (mem_keys hE w key).mp hk
  rcases R.only _ _ hv with h' | h' | h' | ⟨i, e, h1, h2⟩
  · rw [h', Storage.isSiteKey_salt] at hp; cases hp
  · rw [h', Storage.isSiteKey_hmac] at hp; cases hp
  · exact h'
  · rw [h2, Storage.isSiteKey_passwordKey] at hp; cases hp

theorem peek_site (R : RepVault E U F k h w.data V) (hE : E.Lawful) (hk : k.length = 32)
    (hc : CollisionFree E.prims U h) {s : Str} {t : Option Str} (hs : V.sites s = some t) :
    Storage.get E w Serde.siteFromJson (Storage.siteKey E s h) k = .ok ⟨s, t⟩ := by
  have := R.get_site hE.prims hk hc (R.site_in s t hs).1
  rw [hs] at this
  exact this

theorem listSites_eq (R : RepVault E U F k h w.data V) (hE : E.Lawful) (hk : k.length = 32)
    (hc : CollisionFree E.prims U h) :
    ∃ l, Storage.listSites E w k = .ok l ∧ l.Nodup ∧ ∀ x : Site, x ∈ l ↔ V.sites x.name = some x.alias := by
  refine ⟨_, Storage.collect_eq E w _ _ k _ ?_, ?_, ?_⟩
  · intro key hkey hp
    obtain ⟨s, t, h1, rfl⟩ := R.site_keys hE hkey hp
    rw [R.peek_site hE hk hc h1]
    simp
  · unfold Storage.peekAll List.Nodup
    rw [List.pairwise_filterMap]
    have hn : (List.filter Storage.isSiteKey (FileIO.keys E w)).Nodup :=
      (R.keys_nodup hE).sublist List.filter_sublist
    refine List.Pairwise.imp_of_mem ?_ hn
    intro a a' ha ha' hne b hb b' hb' hbb
    rw [List.mem_filter] at ha ha'
    obtain ⟨s, t, h1, rfl⟩ := R.site_keys hE ha.1 ha.2
    obtain ⟨s', t', h1', rfl⟩ := R.site_keys hE ha'.1 ha'.2
    rw [Storage.peek, R.peek_site hE hk hc h1] at hb
    rw [Storage.peek, R.peek_site hE hk hc h1'] at hb'
    cases hb; cases hb'
    simp only [Site.mk.injEq] at hbb
    exact hne (by rw [hbb.1])
  · intro x
    unfold Storage.peekAll
    rw [List.mem_filterMap]
    constructor
    · rintro ⟨key, hkey, hx⟩
      rw [List.mem_filter] at hkey
      obtain ⟨s, t, h1, rfl⟩ := R.site_keys hE hkey.1 hkey.2
      rw [Storage.peek, R.peek_site hE hk hc h1] at hx
      cases hx
      exact h1
    · intro hx
      refine ⟨Storage.siteKey E x.name h, ?_, ?_⟩
      · rw [List.mem_filter, mem_keys hE]
        obtain ⟨_, _, v, hv, _⟩ := R.site_in _ _ hx
        exact ⟨⟨v, hv⟩, Storage.isSiteKey_siteKey E _ h⟩
      · rw [Storage.peek, R.peek_site hE hk hc hx]

end RepVault
end Pfp
