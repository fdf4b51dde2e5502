import Verif.Proofs.Tampering
import Verif.Props.Corrupt
import Verif.Props.Files
import Verif.Props.Generic

/-!
# A file changed by somebody who does not know the primary password: C90

Records are encrypted one by one, without associated data: what is read was once entered by the owner, but nothing binds
a value to its name, to the other values or to a point in time.
-/

namespace Pfp.Props
open Spec Crypto

variable {E : Env} {U : Universe} {G : Op → Prop}

/-! ## Nothing is read that the owner has not entered -/

theorem carries_unique {v : Str} {n c n' c' : Bytes} (h : Carries v n c) (h' : Carries v n' c') : n = n' ∧ c = c' := by
  obtain ⟨a, b, rfl, ha, hb⟩ := h
  obtain ⟨a', b', e, ha', hb'⟩ := h'
  have h1 := splitOnce_append (sep := '_') (b := b) (base64Text_no_underscore ha)
  have h2 := splitOnce_append (sep := '_') (b := b') (base64Text_no_underscore ha')
  rw [e, h2] at h1
  cases h1
  rw [base64Text_iff] at ha hb ha' hb'
  rw [ha] at ha'; rw [hb] at hb'
  cases ha'; cases hb'
  exact ⟨rfl, rfl⟩

theorem carries_sealText (P : Prims) (k nonce : Bytes) (text : Str) :
    Carries (sealText P k nonce text) nonce (P.gcmEncrypt k nonce (utf8 text)) :=
  ⟨_, _, rfl, ⟨0, by simp⟩, ⟨0, by simp⟩⟩

theorem not_carries_base64 {b n c : Bytes} : ¬Carries (Base64.encode b) n c := by
  rintro ⟨x, y, e, -, -⟩
  refine Base64.underscore_not_mem b ?_
  rw [e]; simp

/-- What unlocking needs and leaves, whatever the storage is. -/
theorem unlock_ok (hP : E.prims.Lawful) {s : PState} {p : Str} (h : ask E s (.unlock p) = .ok .unit) :
    ∃ salt k hm, Storage.getSalt s.world = .ok salt ∧ k = keyFor E.prims p salt ∧ k.length = 32 ∧
      Storage.getHmacSecret E s.world k = .ok hm ∧
      after E s (.unlock p) = { s with key := some k, hmacSecret := some hm, primaryPassword := some p } := by
  simp only [ask, after, run, Passwords.unlock, M.bind_apply, M.get_apply, M.lift_apply] at h ⊢
  cases h1 : Storage.getSalt s.world with
  | err e => rw [h1] at h; cases h
  | panic => rw [h1] at h; cases h
  | ok salt =>
    simp only [h1, getEncryptionKey_keyFor] at h ⊢
    cases h2 : Storage.getHmacSecret E s.world (keyFor E.prims p salt) with
    | err e => rw [h2] at h; cases h
    | panic => rw [h2] at h; cases h
    | ok hm => exact ⟨salt, _, hm, rfl, rfl, keyFor_length hP _ _, h2, rfl⟩

/-- What the plaintext of a genuine value stands for. -/
inductive Meaning (E : Env) (G : Op → Prop) (u : PState) (p : Str) (m : Bytes) : Prop
  | secret {b : Str} {h : Bytes} (hs : Serde.fromSlice Serde.asStr m = some b) (hb : Base64.decode b = some h)
      (hu : (after E u (.unlock p)).hmacSecret = some h)
  | site {x : Site} (h : Serde.fromSlice Serde.siteFromJson m = some x) (hn : Named G x.name)
      (ha : ∀ t, x.alias = some t → Named G t)
  | password {x : Password} (h : Serde.fromSlice Serde.passwordFromJson m = some x) (hg : GivenRecord G x)

theorem meaning (hE : E.Lawful) (hS : Secure E U) {u : PState} (hu : Done E U G u) {p : Str} (hp : U.primary p) {k : Bytes}
    (ho : Unlocks E u p k) {key v : Str} (hv : u.world.data.get? key = some v) {nonce c m : Bytes} (hc : Carries v nonce c)
    (hm : E.prims.gcmDecrypt k nonce c = some m) : Meaning E G u p m := by
  obtain ⟨a, hrep, ha, hg⟩ := done_given hE hS hu
  have hmem := hrep.mem
  cases hma : a.mem with
  | torn => exact absurd hma ha.1
  | blank => rw [hma] at hmem; rw [hmem.1] at hv; cases hv
  | store q V =>
    rw [hma] at hmem
    obtain ⟨o, R, -⟩ := hmem
    have hV : GivenVault G V := by have := hg.1; rw [hma] at this; exact this
    have hun := unlock_eq hE hS R p hp
    obtain ⟨h1, h2⟩ := ho
    simp only [ask, after, run, hun] at h1 h2
    by_cases hpq : p = q
    swap
    · rw [if_neg hpq] at h1; cases h1
    subst hpq
    rw [if_pos rfl] at h2
    simp only [Option.some.injEq] at h2
    subst h2
    have hk := keyFor_length hE.prims p (saltAt E o)
    have hseal : ∀ {n : Bytes} {text : Str}, n.length = 12 → v = sealText E.prims (keyFor E.prims p (saltAt E o)) n text →
        m = utf8 text := by
      intro n text hn e
      rw [e] at hc
      obtain ⟨rfl, rfl⟩ := carries_unique hc (carries_sealText _ _ _ _)
      rw [hE.prims.gcm_roundtrip _ _ _ hk hn] at hm
      cases hm; rfl
    rcases R.vault.only key v hv with rfl | rfl | ⟨x, t, h3, rfl⟩ | ⟨i, e, h3, rfl⟩
    · rw [R.salt] at hv
      cases hv
      exact absurd hc not_carries_base64
    · rw [R.secret] at hv
      cases hv
      rw [hseal (nonceAt_length R.origin) rfl]
      refine .secret (secretText_read R.origin) (Base64.decode_encode _) ?_
      simp only [after, run, hun, if_pos]
    · obtain ⟨_, _, v', h4, h5⟩ := R.vault.site_in x t h3
      rw [h4] at hv
      cases hv
      obtain ⟨n, text, hn, e, htext, -⟩ := h5
      rw [hseal hn e]
      exact .site (site_read htext) (hV.sites _ _ h3).1 (hV.sites _ _ h3).2
    · obtain ⟨_, v', h4, h5⟩ := R.vault.password_in i e h3
      rw [h4] at hv
      cases hv
      obtain ⟨n, text, hn, e', htext, -⟩ := h5
      rw [hseal hn e']
      exact .password (password_read htext) (hV.passwords _ _ h3)

theorem asStr_object {m : Bytes} {b : Str} {α : Type} {f : Json → Option α} {x : α} (hb : Serde.fromSlice Serde.asStr m = some b)
    (hx : Serde.fromSlice f m = some x) : f (.str b) = some x := by
  obtain ⟨j, h1, h2⟩ := fromSlice_both hb hx
  cases j <;> simp [Serde.asStr] at h1
  subst h1
  exact h2

theorem carries_of_decrypts {P : Prims} {k m : Bytes} {v : Str} (h : Decrypts P k v m) :
    ∃ nonce c, Carries v nonce c ∧ P.gcmDecrypt k nonce c = some m := by
  obtain ⟨n, c, nonce, ct, e, h1, -, h2, h3⟩ := h
  exact ⟨nonce, ct, ⟨n, c, e, h1, h2⟩, h3⟩

section

variable {owner : PState → Prop} {p : Str} {t : PState} {k : Bytes}

theorem genuine (hE : E.Lawful) (hS : Secure E U) (howner : ∀ u, owner u → Done E U G u) (hp : U.primary p)
    (hn : NoForgery E owner p t) (hk : t.key = some k) {key v : Str} (hv : t.world.data.get? key = some v) {m : Bytes}
    (hm : Decrypts E.prims k v m) (hl : Legible m) : ∃ u, owner u ∧ Unlocks E u p k ∧ Meaning E G u p m := by
  obtain ⟨nonce, c, hc, hd⟩ := carries_of_decrypts hm
  obtain ⟨u, key', v', h1, h2, h3, h4⟩ := hn k key v nonce c m hk hv hc hd hl
  exact ⟨u, h1, h2, meaning hE hS (howner u h1) hp h2 h3 h4 hd⟩

theorem genuine_password (hE : E.Lawful) (hS : Secure E U) (howner : ∀ u, owner u → Done E U G u) (hp : U.primary p)
    (hn : NoForgery E owner p t) (hk : t.key = some k) {key v : Str} (hv : t.world.data.get? key = some v) {x : Password}
    (hx : ReadsAs E.prims k Serde.passwordFromJson v x) : GivenRecord G x := by
  obtain ⟨m, hm, hx⟩ := hx
  obtain ⟨u, -, -, hmean⟩ := genuine hE hS howner hp hn hk hv hm (.inr (.inr ⟨_, hx⟩))
  cases hmean with
  | secret hs => have := asStr_object hs hx; cases this
  | site h => exact (site_not_password h hx).elim
  | password h hg => rw [h] at hx; cases hx; exact hg

theorem genuine_site (hE : E.Lawful) (hS : Secure E U) (howner : ∀ u, owner u → Done E U G u) (hp : U.primary p)
    (hn : NoForgery E owner p t) (hk : t.key = some k) {key v : Str} (hv : t.world.data.get? key = some v) {x : Site}
    (hx : ReadsAs E.prims k Serde.siteFromJson v x) : Named G x.name ∧ ∀ y, x.alias = some y → Named G y := by
  obtain ⟨m, hm, hx⟩ := hx
  obtain ⟨u, -, -, hmean⟩ := genuine hE hS howner hp hn hk hv hm (.inr (.inl ⟨_, hx⟩))
  cases hmean with
  | secret hs => have := asStr_object hs hx; cases this
  | site h h1 h2 => rw [h] at hx; cases hx; exact ⟨h1, h2⟩
  | password h hg => exact (site_not_password hx h).elim

end

theorem load_nodup {disk : Option Bytes} {d : Data} (h : FileIO.load disk = .ok d) : (d.map (·.1)).Nodup := by
  cases disk with
  | none => cases h
  | some b =>
    obtain ⟨text, j, members, rfl, hj, hm, -⟩ := C38_only_storages_load b d h
    obtain ⟨d', h1, h2, -⟩ := storages_load text j members hj hm
    rw [h] at h1
    cases h1
    exact h2

/-- What opening a file needs and leaves. -/
theorem opens_iff (hP : E.prims.Lawful) {s : PState} {p : Str} (h : Opens E p s) :
    ∃ d salt k hm, FileIO.load s.world.disk = .ok d ∧ (opened E p s).world.data = d ∧
      Storage.getSalt (opened E p s).world = .ok salt ∧ k = keyFor E.prims p salt ∧ k.length = 32 ∧
      Storage.getHmacSecret E (opened E p s).world k = .ok hm ∧ (opened E p s).key = some k ∧
      (opened E p s).hmacSecret = some hm ∧ (opened E p s).primaryPassword = some p := by
  obtain ⟨h1, h2⟩ := h
  obtain ⟨salt, k, hm, h3, h4, h5, h6, h7⟩ := unlock_ok hP h2
  cases hl : FileIO.load s.world.disk with
  | err e => simp only [ask, run, reload, hl] at h1; cases h1
  | panic => simp only [ask, run, reload, hl] at h1; cases h1
  | ok d =>
    have e : opened E p s = { after E s .reload with key := some k, hmacSecret := some hm, primaryPassword := some p } := h7
    have e' : (after E s .reload).world.data = d := by simp only [after, run, reload, hl]; rfl
    exact ⟨d, salt, k, hm, rfl, by rw [e]; exact e', by rw [e]; exact h3, h4, h5, by rw [e]; exact h6, by rw [e], by rw [e],
      by rw [e]⟩

/-- If looking for the alias crashes, so does everything that has to look for it. -/
theorem alias_panic {t : PState} {k h : Bytes} {p : Str} (hk : t.key = some k) (hh : t.hmacSecret = some h)
    (hpp : t.primaryPassword = some p) {a : Str} (hc : ask E t (.getAlias a) = .panic) (n r q : Str) :
    ask E t (.get a n r) = .panic ∧ ask E t (.getNotes a n r) = .panic ∧ ask E t (.list a q) = .panic := by
  have hs : Passwords.secrets t = .ok (h, k) := by simp [Passwords.secrets, hk, hh, okOr]
  have hr : Storage.resolveSite E t.world a h k = .panic := by
    rcases resolve_siteMeant (E := E) hk hh a with ⟨-, h1⟩ | ⟨h1, -⟩
    · exact h1
    · exact absurd hc h1
  refine ⟨?_, ?_, ?_⟩
  · simp only [ask, run, Passwords.get, hs, hpp, okOr_some, Res.bind_ok, hr]; rfl
  · simp only [ask, run, Passwords.getNotes, hs, Res.bind_ok, hr]; rfl
  · simp only [ask, run, Passwords.list, hk, hh, Passwords.orPanic, Res.bind_ok, hr]; rfl

/-- **C90 (nothing foreign).** Whatever bytes somebody without the primary password puts into the file: if the file opens and
the cipher has not been broken, then every password shown is one that the owner entered or that results from generation
parameters entered by the owner, for a site named by the owner; and the same for notes, alias targets and listings.  The
names of entries are formed with an HMAC secret of the owner. -/
theorem C90_genuine (hE : E.Lawful) (hS : Secure E U) (owner : PState → Prop) (howner : ∀ u, owner u → Done E U G u) (p : Str)
    (hp : U.primary p) (s : PState) (ho : Opens E p s) (hn : NoForgery E owner p (opened E p s)) :
    (∀ a n r x, ask E (opened E p s) (.get a n r) = .ok (.text x) →
      (∃ a' n' r', G (.setStored a' n' r' x)) ∨
      ∃ a' n' r' len cs site, G (.setGenerated a' n' r' len cs) ∧ Named G site ∧
        deriveWith E.prims p ⟨site, n', revisionOf r'⟩ len cs = .ok x) ∧
    (∀ a n r x, ask E (opened E p s) (.getNotes a n r) = .ok (.text x) → x = [] ∨ ∃ a' n' r', G (.setNotes a' n' r' x)) ∧
    (∀ a x, ask E (opened E p s) (.getAlias a) = .ok (.text x) → Named G x) ∧
    (∀ a q l, ask E (opened E p s) (.list a q) = .ok (.passwords l) → ∀ x ∈ l, GivenRecord G x) ∧
    (∀ q l, ask E (opened E p s) (.listSites q) = .ok (.sites l) →
      ∀ x ∈ l, Named G x.name ∧ ∀ y, x.alias = some y → Named G y) ∧
    ∃ u k, owner u ∧ Unlocks E u p k ∧ (opened E p s).key = some k ∧
      (after E u (.unlock p)).hmacSecret = (opened E p s).hmacSecret := by
  obtain ⟨d, salt, k, h, hload, hdata, -, -, hl, hsec, hk, hh, hpp⟩ := opens_iff hE.prims ho
  have hd : Distinct (opened E p s).world := by
    unfold Distinct
    rw [hdata]
    exact load_nodup hload
  have hs : Passwords.secrets (opened E p s) = .ok (h, k) := by simp [Passwords.secrets, hk, hh, okOr]
  generalize hto : opened E p s = t at *
  have gp := fun {key v : Str} (hv : t.world.data.get? key = some v) {x : Password} =>
    genuine_password (x := x) hE hS howner hp hn hk hv
  have gs := fun {key v : Str} (hv : t.world.data.get? key = some v) {x : Site} =>
    genuine_site (x := x) hE hS howner hp hn hk hv
  refine ⟨fun a n r x hx => ?_, fun a n r x hx => ?_, fun a x hx => ?_, fun a q l hx => ?_, fun q l hx => ?_, ?_⟩
  · have hna : ask E t (.getAlias a) ≠ .panic := by
      intro hc
      rw [(alias_panic hk hh hpp hc n r []).1] at hx
      cases hx
    obtain ⟨v, y, hv, hy, hxy⟩ := ((C56_get E t k h p hk hl hh hpp a n r hna).2.2.1 x).mp hx
    obtain ⟨h1, -, h2⟩ := gp hv hy
    cases y with
    | stored z =>
      simp only at hxy h2
      subst hxy
      cases h2 with
      | stored hg => exact .inl ⟨_, _, _, hg⟩
    | generated g =>
      simp only at hxy h2
      generalize hlen : g.length = len at *
      generalize hcs : g.charset = cs at *
      cases h2 with
      | @generated a' r' len' cs' hg hr =>
        refine .inr ⟨_, _, _, _, _, g.id.site, hg, h1, ?_⟩
        rw [← hxy, ← hr]
  · have hna : ask E t (.getAlias a) ≠ .panic := by
      intro hc
      rw [(alias_panic hk hh hpp hc n r []).2.1] at hx
      cases hx
    obtain ⟨v, y, hv, hy, rfl⟩ := ((C56_get E t k h p hk hl hh hpp a n r hna).2.1 x).mp hx
    obtain ⟨-, h1, -⟩ := gp hv hy
    rcases h1 with h1 | ⟨a', r', h1, -⟩
    · exact .inl h1
    · exact .inr ⟨_, _, _, h1⟩
  · obtain ⟨v, y, hv, hy, hxy⟩ := ((C56_alias E t k h hk hl hh a).1 x).mp hx
    exact (gs hv hy).2 _ hxy
  · have hna : ask E t (.getAlias a) ≠ .panic := by
      intro hc
      rw [(alias_panic hk hh hpp hc [] [] q).2.2] at hx
      cases hx
    obtain ⟨h1, h2⟩ := C56_list hE t hd k h hk hl hh a q hna
    obtain ⟨rows, h3, -, h4⟩ := h1 fun key v hkey hv hb => by
      rw [h2 ⟨key, v, hkey, hv, hb⟩] at hx
      cases hx
    rw [hx] at h3
    cases h3
    intro x hxl
    obtain ⟨⟨key, x'⟩, hrow, rfl⟩ := List.mem_map.mp hxl
    obtain ⟨-, -, v, hv, hy⟩ := (h4 key x').mp hrow
    exact gp hv hy
  · obtain ⟨h1, h2⟩ := C56_list_sites hE t hd k hk hl q
    obtain ⟨rows, h3, -, h4⟩ := h1 fun rest v hrest hv hb => by
      rw [h2 ⟨rest, v, hrest, hv, hb⟩] at hx
      cases hx
    rw [hx] at h3
    cases h3
    intro x hxl
    obtain ⟨⟨key, x'⟩, hrow, rfl⟩ := List.mem_map.mp hxl
    obtain ⟨-, -, v, hv, hy⟩ := (h4 key x').mp hrow
    exact gs hv hy
  · unfold Storage.getHmacSecret FileIO.get at hsec
    cases hv : t.world.data.get? Storage.HMAC_SECRET_KEY with
    | none => rw [hv] at hsec; cases hsec
    | some v =>
      simp only [hv, okOr_some, Res.mapErr_ok, Res.bind_ok] at hsec
      cases hm : decryptData E.prims v k with
      | err e => rw [hm] at hsec; cases hsec
      | panic => rw [hm] at hsec; cases hsec
      | ok m =>
        simp only [hm, Res.bind_ok] at hsec
        cases hb : Serde.fromSlice Serde.asStr m with
        | none => rw [hb] at hsec; cases hsec
        | some b =>
          simp only [hb, okOr_some, Res.bind_ok] at hsec
          obtain ⟨u, h1, h2, h3⟩ := genuine hE hS howner hp hn hk hv (((C56_decrypt E.prims k hl v).1 m).mp hm)
            (.inl ⟨b, hb⟩)
          refine ⟨u, k, h1, h2, hk, ?_⟩
          cases h3 with
          | secret hs' hb' hu =>
            rw [hb] at hs'
            cases hs'
            rw [hb'] at hsec
            cases hsec
            rw [hu, hh]
          | site h => have := asStr_object hb h; cases this
          | password h => have := asStr_object hb h; cases this

/-! ## Nothing binds a value to its name or to a point in time -/

theorem get_same {α : Type} (f : Json → Option α) {w w' : World} {key key' : Str} (k : Bytes)
    (h : w.data.get? key = w'.data.get? key') : Storage.get E w f key k = Storage.get E w' f key' k := by
  unfold Storage.get FileIO.get
  rw [h]

theorem getSalt_same {w w' : World} (h : w.data.get? Storage.SALT_KEY = w'.data.get? Storage.SALT_KEY) :
    Storage.getSalt w = Storage.getSalt w' := by
  unfold Storage.getSalt FileIO.get
  rw [h]

theorem getHmacSecret_same {w w' : World} (k : Bytes)
    (h : w.data.get? Storage.HMAC_SECRET_KEY = w'.data.get? Storage.HMAC_SECRET_KEY) :
    Storage.getHmacSecret E w k = Storage.getHmacSecret E w' k := by
  unfold Storage.getHmacSecret FileIO.get
  rw [h]

theorem reload_ok {s : PState} {d : Data} (h : FileIO.load s.world.disk = .ok d) :
    ask E s .reload = .ok .unit ∧ (after E s .reload).world.data = d := by
  simp only [ask, after, run, reload, h]
  exact ⟨rfl, rfl⟩

theorem opened_data {s : PState} {d : Data} {p : Str} (hP : E.prims.Lawful) (ho : Opens E p s)
    (h : FileIO.load s.world.disk = .ok d) : (opened E p s).world.data = d := by
  obtain ⟨d', -, -, -, h1, h2, -⟩ := opens_iff hP ho
  rw [h] at h1
  cases h1
  exact h2

/-- **C90 (values are not bound).** A file which has the same salt and HMAC secret as another one that opens, opens too.
Beyond that every answer depends on the values of the entries concerned only, whatever the other entries are, under whatever
name the value was written and whenever that was. -/
theorem C90_unbound (hP : E.prims.Lawful) (p : Str) (s s' : PState) (ho : Opens E p s) (d d' : Data)
    (hd : FileIO.load s.world.disk = .ok d) (hd' : FileIO.load s'.world.disk = .ok d')
    (hsalt : d'.get? (c!"salt") = d.get? (c!"salt")) (hsecret : d'.get? (c!"hmac-secret") = d.get? (c!"hmac-secret")) :
    Opens E p s' ∧ (opened E p s').key = (opened E p s).key ∧ ∃ h, (opened E p s).hmacSecret = some h ∧
      (opened E p s').hmacSecret = some h ∧
      (∀ a a', d'.get? (siteEntry E.prims h (canonical a')) = d.get? (siteEntry E.prims h (canonical a)) →
        ask E (opened E p s') (.getAlias a') = ask E (opened E p s) (.getAlias a)) ∧
      ∀ a n r a' n' r', ask E (opened E p s) (.getAlias a) ≠ .panic → ask E (opened E p s') (.getAlias a') ≠ .panic →
        d'.get? (entryMeant E h (opened E p s') a' n' r') = d.get? (entryMeant E h (opened E p s) a n r) →
        ask E (opened E p s') (.has a' n' r') = ask E (opened E p s) (.has a n r) ∧
        ask E (opened E p s') (.get a' n' r') = ask E (opened E p s) (.get a n r) ∧
        ask E (opened E p s') (.getNotes a' n' r') = ask E (opened E p s) (.getNotes a n r) := by
  obtain ⟨h1, h2⟩ := reload_ok (E := E) hd
  obtain ⟨h1', h2'⟩ := reload_ok (E := E) hd'
  obtain ⟨salt, k, hm, h3, h4, h5, h6, h7⟩ := unlock_ok hP ho.2
  have h3' : Storage.getSalt (after E s' .reload).world = .ok salt := by
    rw [getSalt_same (w' := (after E s .reload).world) (by rw [h2, h2']; exact hsalt), h3]
  have h6' : Storage.getHmacSecret E (after E s' .reload).world k = .ok hm := by
    rw [getHmacSecret_same (w' := (after E s .reload).world) k (by rw [h2, h2']; exact hsecret), h6]
  have hun : Passwords.unlock E p (after E s' .reload) = (.ok (), { after E s' .reload with
      key := some k, hmacSecret := some hm, primaryPassword := some p }) := by
    simp only [Passwords.unlock, M.bind_apply, M.get_apply, M.lift_apply, h3', getEncryptionKey_keyFor, ← h4, h6',
      M.modify_apply]
  have ho' : Opens E p s' := ⟨h1', by simp only [ask, run, hun]; rfl⟩
  have e : opened E p s = { after E s .reload with key := some k, hmacSecret := some hm, primaryPassword := some p } := h7
  have e' : opened E p s' = { after E s' .reload with key := some k, hmacSecret := some hm, primaryPassword := some p } := by
    simp only [opened]
    show (run E (.unlock p) _).2 = _
    simp only [run, hun]
  have hdata : (opened E p s).world.data = d := by rw [e]; exact h2
  have hdata' : (opened E p s').world.data = d' := by rw [e']; exact h2'
  have hk : (opened E p s).key = some k := by rw [e]
  have hk' : (opened E p s').key = some k := by rw [e']
  have hh : (opened E p s).hmacSecret = some hm := by rw [e]
  have hh' : (opened E p s').hmacSecret = some hm := by rw [e']
  have hpp : (opened E p s).primaryPassword = some p := by rw [e]
  have hpp' : (opened E p s').primaryPassword = some p := by rw [e']
  refine ⟨ho', by rw [hk, hk'], hm, hh, hh', ?_, ?_⟩
  all_goals
    generalize opened E p s = t at *
    generalize opened E p s' = t' at *
  · intro a a' heq
    simp only [ask, run, Passwords.getAlias, Passwords.secrets, hk, hk', hh, hh', okOr_some, Res.bind_ok, Storage.getAlias,
      Storage.getSite, RepVault.normalizeSite_eq, siteKey_eq]
    rw [get_same Serde.siteFromJson (w := t'.world) (w' := t.world) k (by rw [hdata, hdata']; exact heq)]
  · intro a n r a' n' r' hna hna' heq
    have hr : Storage.resolveSite E t.world a hm k = .ok (siteMeant E t a) := by
      rcases resolve_siteMeant (E := E) hk hh a with ⟨h1, -⟩ | ⟨-, h1⟩
      · exact absurd h1 hna
      · exact h1
    have hr' : Storage.resolveSite E t'.world a' hm k = .ok (siteMeant E t' a') := by
      rcases resolve_siteMeant (E := E) hk' hh' a' with ⟨h1, -⟩ | ⟨-, h1⟩
      · exact absurd h1 hna'
      · exact h1
    have hid : ∀ x n r : Str, PasswordId.new x n r = ⟨x, n, revisionOf r⟩ := by
      intro x n r
      unfold PasswordId.new revisionOf; split <;> simp_all
    have hget := get_same (E := E) Serde.passwordFromJson (w := t'.world) (w' := t.world)
      (key := entryMeant E hm t' a' n' r') (key' := entryMeant E hm t a n r) k (by rw [hdata, hdata']; exact heq)
    unfold entryMeant at hget heq
    simp only [← passwordKey_entry] at hget heq
    refine ⟨?_, ?_, ?_⟩
    · simp only [ask, run, Passwords.has, Passwords.secrets, hk, hk', hh, hh', okOr_some, Res.bind_ok, hr, hr', hid,
        Storage.hasPassword, Storage.contains, FileIO.containsKey, Data.contains, hdata, hdata', heq]
    · simp only [ask, run, Passwords.get, Passwords.secrets, hk, hk', hh, hh', hpp, hpp', okOr_some, Res.bind_ok, hr, hr', hid,
        Storage.getPassword, hget]
    · simp only [ask, run, Passwords.getNotes, Passwords.secrets, hk, hk', hh, hh', okOr_some, Res.bind_ok, hr, hr', hid,
        Storage.getPassword, hget]

theorem lookup_map (f : Str → Str → Str) (key : Str) : ∀ d : Data,
    Data.get? (d.map fun e => (e.1, f e.1 e.2)) key = (d.get? key).map (f key)
  | [] => rfl
  | (a, b) :: d => by
    have ih := lookup_map f key d
    unfold Data.get? at ih ⊢
    simp only [List.map_cons, List.lookup_cons]
    by_cases h : key = a
    · subst h; simp
    · have : (key == a) = false := by simpa using h
      simp only [this, ih]

theorem exchanged_keys (d : Data) (x y : Str) : (exchanged d x y).map (·.1) = d.map (·.1) := by
  simp [exchanged, Function.comp_def]

theorem exchanged_get? {d : Data} {x y u v : Str} (hx : d.get? x = some u) (hy : d.get? y = some v) (key : Str) :
    (exchanged d x y).get? key = if key = x then some v else if key = y then some u else d.get? key := by
  unfold exchanged
  rw [lookup_map (fun a b => (d.get? (if a = x then y else if a = y then x else a)).getD b)]
  by_cases h1 : key = x
  · subst h1; rw [hx]; simp [hy]
  · by_cases h2 : key = y
    · subst h2; rw [hy]; simp [h1, hx]
    · cases hk : d.get? key <;> simp [h1, h2, hk]

/-- The file with given contents. -/
theorem load_any {d : Data} (hd : (d.map (·.1)).Nodup) :
    ∃ d', FileIO.load (some (FileIO.contents d)) = .ok d' ∧ ∀ k, d'.get? k = d.get? k := by
  obtain ⟨d', h1, -, h2⟩ := C38_file_roundtrip d d hd (List.Perm.refl d)
  exact ⟨d', h1, h2⟩

theorem has_true {t : PState} {k h : Bytes} (hk : t.key = some k) (hh : t.hmacSecret = some h) {a n r : Str}
    (hhas : ask E t (.has a n r) = .ok (.bool true)) :
    ask E t (.getAlias a) ≠ .panic ∧ ∃ v, t.world.data.get? (entryMeant E h t a n r) = some v := by
  have hs : Passwords.secrets t = .ok (h, k) := by simp [Passwords.secrets, hk, hh, okOr]
  simp only [ask, run, Passwords.has, hs, Res.bind_ok] at hhas
  rcases resolve_siteMeant (E := E) hk hh a with ⟨-, h1⟩ | ⟨h1, h2⟩
  · rw [h1] at hhas; cases hhas
  · refine ⟨h1, ?_⟩
    rw [h2] at hhas
    have hid : PasswordId.new (siteMeant E t a) n r = ⟨siteMeant E t a, n, revisionOf r⟩ := by
      unfold PasswordId.new revisionOf; split <;> simp_all
    simp only [Res.bind_ok, Res.map_ok, Res.ok.injEq, Out.bool.injEq, hid, Storage.hasPassword, Storage.contains,
      FileIO.containsKey, Data.contains, passwordKey_entry] at hhas
    exact Option.isSome_iff_exists.mp hhas

theorem siteEntry_ne_meant (h : Bytes) (x : Str) (t : PState) (a n r : Str) :
    siteEntry E.prims h x ≠ entryMeant E h t a n r := by
  unfold entryMeant
  rw [← siteKey_eq, ← passwordKey_entry]
  exact Storage.siteKey_ne_passwordKey E _ _ _

/-- What remains the same when entries of passwords have been changed in a file. -/
theorem passwords_changed (hP : E.prims.Lawful) (p : Str) (s s' : PState) (ho : Opens E p s) (d d' : Data)
    (hd : FileIO.load s.world.disk = .ok d) (hd' : FileIO.load s'.world.disk = .ok d') (h : Bytes)
    (hh : (opened E p s).hmacSecret = some h) (keys : List Str)
    (hkeys : ∀ key ∈ keys, ∃ i, key = passwordEntry E.prims h i)
    (hothers : ∀ key, key ∉ keys → d'.get? key = d.get? key) :
    Opens E p s' ∧ (opened E p s').hmacSecret = some h ∧
      (∀ a, ask E (opened E p s') (.getAlias a) = ask E (opened E p s) (.getAlias a)) ∧
      ∀ a n r a' n' r', ask E (opened E p s) (.getAlias a) ≠ .panic → ask E (opened E p s) (.getAlias a') ≠ .panic →
        d'.get? (entryMeant E h (opened E p s) a' n' r') = d.get? (entryMeant E h (opened E p s) a n r) →
        ask E (opened E p s') (.has a' n' r') = ask E (opened E p s) (.has a n r) ∧
        ask E (opened E p s') (.get a' n' r') = ask E (opened E p s) (.get a n r) ∧
        ask E (opened E p s') (.getNotes a' n' r') = ask E (opened E p s) (.getNotes a n r) := by
  have h1 : c!"salt" ∉ keys := by
    intro hm
    obtain ⟨i, hi⟩ := hkeys _ hm
    rw [← passwordKey_entry] at hi
    exact Storage.passwordKey_ne_salt E i h hi.symm
  have h2 : c!"hmac-secret" ∉ keys := by
    intro hm
    obtain ⟨i, hi⟩ := hkeys _ hm
    rw [← passwordKey_entry] at hi
    exact Storage.passwordKey_ne_hmac E i h hi.symm
  obtain ⟨g1, -, h', g2, g3, g4, g5⟩ := C90_unbound hP p s s' ho d d' hd hd' (hothers _ h1) (hothers _ h2)
  rw [hh] at g2
  cases g2
  have g6 : ∀ a, ask E (opened E p s') (.getAlias a) = ask E (opened E p s) (.getAlias a) := by
    intro a
    refine g4 a a (hothers _ fun hm => ?_)
    obtain ⟨i, hi⟩ := hkeys _ hm
    rw [← siteKey_eq, ← passwordKey_entry] at hi
    exact Storage.siteKey_ne_passwordKey E _ _ _ hi
  refine ⟨g1, g3, g6, fun a n r a' n' r' e1 e2 e3 => g5 a n r a' n' r' e1 (by rw [g6]; exact e2) ?_⟩
  have : entryMeant E h (opened E p s') a' n' r' = entryMeant E h (opened E p s) a' n' r' := by
    unfold entryMeant siteMeant
    rw [g6]
  rw [this]
  exact e3

/-- **C90 (exchange).** Exchanging the values of two passwords in a file is not noticed: the file opens, each of the two is
shown in the place of the other, and everything else is as before. -/
theorem C90_exchange (hP : E.prims.Lawful) (p : Str) (s : PState) (ho : Opens E p s) (d : Data)
    (hd : FileIO.load s.world.disk = .ok d) (h : Bytes) (hh : (opened E p s).hmacSecret = some h) (a n r a' n' r' : Str)
    (h1 : ask E (opened E p s) (.has a n r) = .ok (.bool true)) (h2 : ask E (opened E p s) (.has a' n' r') = .ok (.bool true))
    (s' : PState) (hs' : s'.world.disk = some (FileIO.contents (exchanged d (entryMeant E h (opened E p s) a n r)
      (entryMeant E h (opened E p s) a' n' r')))) :
    Opens E p s' ∧ ask E (opened E p s') (.get a n r) = ask E (opened E p s) (.get a' n' r') ∧
      ask E (opened E p s') (.get a' n' r') = ask E (opened E p s) (.get a n r) ∧
      (∀ x, ask E (opened E p s') (.getAlias x) = ask E (opened E p s) (.getAlias x)) ∧
      ∀ x m q, ask E (opened E p s) (.getAlias x) ≠ .panic →
        entryMeant E h (opened E p s) x m q ≠ entryMeant E h (opened E p s) a n r →
        entryMeant E h (opened E p s) x m q ≠ entryMeant E h (opened E p s) a' n' r' →
        ask E (opened E p s') (.has x m q) = ask E (opened E p s) (.has x m q) ∧
        ask E (opened E p s') (.get x m q) = ask E (opened E p s) (.get x m q) ∧
        ask E (opened E p s') (.getNotes x m q) = ask E (opened E p s) (.getNotes x m q) := by
  obtain ⟨_, _, k, _, _, _, -, -, -, -, hk, -, -⟩ := opens_iff hP ho
  have hdata := opened_data hP ho hd
  obtain ⟨e1, u, hu⟩ := has_true hk hh h1
  obtain ⟨e2, v, hv⟩ := has_true hk hh h2
  rw [hdata] at hu hv
  generalize hx : entryMeant E h (opened E p s) a n r = x at *
  generalize hy : entryMeant E h (opened E p s) a' n' r' = y at *
  obtain ⟨d', hl, hget⟩ := load_any (d := exchanged d x y) (by rw [exchanged_keys]; exact load_nodup hd)
  have hget' : ∀ key, d'.get? key = if key = x then some v else if key = y then some u else d.get? key :=
    fun key => by rw [hget, exchanged_get? hu hv]
  obtain ⟨g1, -, g2, g3⟩ := passwords_changed hP p s s' ho d d' hd (by rw [hs']; exact hl) h hh [x, y]
    (by
      intro key hm
      simp only [List.mem_cons, List.not_mem_nil, or_false] at hm
      rcases hm with rfl | rfl
      · exact ⟨_, hx.symm⟩
      · exact ⟨_, hy.symm⟩)
    (by
      intro key hm
      simp only [List.mem_cons, List.not_mem_nil, or_false, not_or] at hm
      rw [hget', if_neg hm.1, if_neg hm.2])
  refine ⟨g1, (g3 a' n' r' a n r e2 e1 ?_).2.1, (g3 a n r a' n' r' e1 e2 ?_).2.1, g2, fun z m q e3 n1 n2 => ?_⟩
  · rw [hx, hy, hget', if_pos rfl, hv]
  · rw [hx, hy, hget']
    by_cases hxy : y = x
    · rw [if_pos hxy, ← hv, hxy]
    · rw [if_neg hxy, if_pos rfl, hu]
  · refine g3 z m q z m q e3 e3 ?_
    rw [hget', if_neg n1, if_neg n2]

/-- **C90 (removal).** Removing the entry of a password from a file is not noticed either. -/
theorem C90_removal (hP : E.prims.Lawful) (p : Str) (s : PState) (ho : Opens E p s) (d : Data)
    (hd : FileIO.load s.world.disk = .ok d) (h : Bytes) (hh : (opened E p s).hmacSecret = some h) (a n r : Str)
    (h1 : ask E (opened E p s) (.has a n r) = .ok (.bool true)) (s' : PState)
    (hs' : s'.world.disk = some (FileIO.contents (d.erase (entryMeant E h (opened E p s) a n r)))) :
    Opens E p s' ∧ ask E (opened E p s') (.has a n r) = .ok (.bool false) ∧
      ask E (opened E p s') (.get a n r) = .err .keyMissing ∧
      (∀ x, ask E (opened E p s') (.getAlias x) = ask E (opened E p s) (.getAlias x)) ∧
      ∀ x m q, ask E (opened E p s) (.getAlias x) ≠ .panic →
        entryMeant E h (opened E p s) x m q ≠ entryMeant E h (opened E p s) a n r →
        ask E (opened E p s') (.has x m q) = ask E (opened E p s) (.has x m q) ∧
        ask E (opened E p s') (.get x m q) = ask E (opened E p s) (.get x m q) ∧
        ask E (opened E p s') (.getNotes x m q) = ask E (opened E p s) (.getNotes x m q) := by
  obtain ⟨_, _, k, _, _, _, -, -, -, -, hk, -, -⟩ := opens_iff hP ho
  obtain ⟨e1, u, hu⟩ := has_true hk hh h1
  generalize hx : entryMeant E h (opened E p s) a n r = x at *
  obtain ⟨d', hl, hget⟩ := load_any (d := d.erase x) (Data.erase_nodup _ (load_nodup hd))
  have hl' : FileIO.load s'.world.disk = .ok d' := by rw [hs']; exact hl
  obtain ⟨g1, g0, g2, g3⟩ := passwords_changed hP p s s' ho d d' hd hl' h hh [x]
    (by
      intro key hm
      simp only [List.mem_cons, List.not_mem_nil, or_false] at hm
      subst hm
      exact ⟨_, hx.symm⟩)
    (by
      intro key hm
      simp only [List.mem_cons, List.not_mem_nil, or_false] at hm
      rw [hget, Data.get?_erase, if_neg hm])
  obtain ⟨_, _, k', _, _, _, -, -, -, -, hk', -, hp'⟩ := opens_iff hP g1
  have hdata' := opened_data hP g1 hl'
  have hna : ask E (opened E p s') (.getAlias a) ≠ .panic := by rw [g2]; exact e1
  have hx' : entryMeant E h (opened E p s') a n r = x := by
    rw [← hx]
    unfold entryMeant siteMeant
    rw [g2]
  have hnone : (opened E p s').world.data.get? (entryMeant E h (opened E p s') a n r) = none := by
    rw [hx', hdata', hget, Data.get?_erase, if_pos rfl]
  have hs : Passwords.secrets (opened E p s') = .ok (h, k') := by simp [Passwords.secrets, hk', g0, okOr]
  have hr : Storage.resolveSite E (opened E p s').world a h k' = .ok (siteMeant E (opened E p s') a) := by
    rcases resolve_siteMeant (E := E) hk' g0 a with ⟨h1, -⟩ | ⟨-, h1⟩
    · exact absurd h1 hna
    · exact h1
  have hid : PasswordId.new (siteMeant E (opened E p s') a) n r = ⟨siteMeant E (opened E p s') a, n, revisionOf r⟩ := by
    unfold PasswordId.new revisionOf; split <;> simp_all
  unfold entryMeant at hnone
  rw [← passwordKey_entry] at hnone
  refine ⟨g1, ?_, ?_, g2, fun z m q e3 n1 => ?_⟩
  · simp only [ask, run, Passwords.has, hs, Res.bind_ok, hr, hid, Storage.hasPassword, Storage.contains, FileIO.containsKey,
      Data.contains, hnone]
    rfl
  · simp only [ask, run, Passwords.get, hs, hp', okOr_some, Res.bind_ok, hr, hid, Storage.getPassword,
      Storage.get_missing _ _ _ _ _ hnone]
    rfl
  · refine g3 z m q z m q e3 e3 ?_
    rw [hget, Data.get?_erase, if_neg n1]

/-- **C90 (old files).** A file that could once be opened with a primary password can be opened with it whatever has been
done since, and shows what it showed. -/
theorem C90_old_file (hP : E.prims.Lawful) (p : Str) (s s' : PState) (ho : Opens E p s)
    (hs' : s'.world.disk = s.world.disk) :
    Opens E p s' ∧ ∀ a, ask E (opened E p s') (.getAlias a) = ask E (opened E p s) (.getAlias a) ∧
      (ask E (opened E p s) (.getAlias a) ≠ .panic → ∀ n r,
        ask E (opened E p s') (.has a n r) = ask E (opened E p s) (.has a n r) ∧
        ask E (opened E p s') (.get a n r) = ask E (opened E p s) (.get a n r) ∧
        ask E (opened E p s') (.getNotes a n r) = ask E (opened E p s) (.getNotes a n r)) := by
  obtain ⟨d, _, _, h, hd, _, _, _, _, _, _, hh, _⟩ := opens_iff hP ho
  obtain ⟨g1, -, g2, g3⟩ := passwords_changed hP p s s' ho d d hd (by rw [hs']; exact hd) h hh [] (by simp) (fun _ _ => rfl)
  exact ⟨g1, fun a => ⟨g2 a, fun e n r => g3 a n r a n r e e rfl⟩⟩

/-! ## Examples -/

section Examples

/-- The operations of an owner. -/
def owned : Op → Prop := fun op => op = .reset (c!"secret1") ∨ op = .setStored (c!"a") (c!"u") [] (c!"x") ∨
  op = .setStored (c!"b") (c!"u") [] (c!"y")

/-- Their state with two stored passwords. -/
def twoStored : PState := after Toy.env Toy.one (.setStored (c!"b") (c!"u") [] (c!"y"))

theorem twoStored_done : Done Toy.env Toy.univ owned twoStored := by
  have h1 : Done Toy.env Toy.univ owned Toy.fresh :=
    .step (.start Toy.start_initial) _ (.inl rfl) (by show _ ∈ Toy.primaries; decide) (fun _ _ => .inl Toy.reset_ok)
  have h2 : Done Toy.env Toy.univ owned Toy.one :=
    .step h1 _ (.inr (.inl rfl)) ⟨Toy.site_a, Toy.name_u, Toy.revision_nil⟩ (by simp)
  exact .step h2 _ (.inr (.inr rfl)) ⟨Toy.site_b, Toy.name_u, Toy.revision_nil⟩ (by simp)

theorem twoStored_opens : Opens Toy.env (c!"secret1") twoStored := ⟨by decide +kernel, by decide +kernel⟩

/-- The contents of the file. -/
def twoData : Data := (opened Toy.env (c!"secret1") twoStored).world.data

theorem twoStored_load : FileIO.load twoStored.world.disk = .ok twoData := by decide +kernel

/-- The HMAC secret. -/
def twoSecret : Bytes := FileIO.randBytes Toy.env 16 32

/-- The file with the two passwords exchanged. -/
def swapped : PState := Passwords.new { Toy.start.world with disk := some (FileIO.contents (exchanged twoData
  (entryMeant Toy.env twoSecret (opened Toy.env (c!"secret1") twoStored) (c!"a") (c!"u") [])
  (entryMeant Toy.env twoSecret (opened Toy.env (c!"secret1") twoStored) (c!"b") (c!"u") []))) }

theorem twoStored_values : ask Toy.env (opened Toy.env (c!"secret1") twoStored) (.get (c!"a") (c!"u") []) = .ok (.text (c!"x")) ∧
    ask Toy.env (opened Toy.env (c!"secret1") twoStored) (.get (c!"b") (c!"u") []) = .ok (.text (c!"y")) :=
  ⟨by decide +kernel, by decide +kernel⟩

/-- The password of `b` is shown for `a`. -/
example : Opens Toy.env (c!"secret1") swapped ∧
    ask Toy.env (opened Toy.env (c!"secret1") swapped) (.get (c!"a") (c!"u") []) = .ok (.text (c!"y")) := by
  obtain ⟨h1, h2, -⟩ := C90_exchange Toy.env_lawful.prims (c!"secret1") twoStored twoStored_opens twoData twoStored_load twoSecret
    (by decide +kernel) (c!"a") (c!"u") [] (c!"b") (c!"u") [] (by decide +kernel) (by decide +kernel) swapped rfl
  exact ⟨h1, h2.trans twoStored_values.2⟩

/-- The password of `a` is gone, that of `b` is not. -/
example (s' : PState) (hs' : s'.world.disk = some (FileIO.contents (twoData.erase (entryMeant Toy.env twoSecret
    (opened Toy.env (c!"secret1") twoStored) (c!"a") (c!"u") [])))) :
    ask Toy.env (opened Toy.env (c!"secret1") s') (.get (c!"a") (c!"u") []) = .err .keyMissing ∧
      ask Toy.env (opened Toy.env (c!"secret1") s') (.get (c!"b") (c!"u") []) = .ok (.text (c!"y")) := by
  obtain ⟨-, -, h1, -, h2⟩ := C90_removal Toy.env_lawful.prims (c!"secret1") twoStored twoStored_opens twoData twoStored_load
    twoSecret (by decide +kernel) (c!"a") (c!"u") [] (by decide +kernel) s' hs'
  exact ⟨h1, (h2 (c!"b") (c!"u") [] (by decide +kernel) (by decide +kernel)).2.1.trans twoStored_values.2⟩

/-- An old file is as good as the current one: `b` has no password there. -/
example (s' : PState) (hs' : s'.world.disk = Toy.one.world.disk) :
    ask Toy.env (opened Toy.env (c!"secret1") s') (.has (c!"b") (c!"u") []) = .ok (.bool false) := by
  refine (((C90_old_file Toy.env_lawful.prims (c!"secret1") Toy.one s' ⟨by decide +kernel, by decide +kernel⟩ hs').2
    (c!"b")).2 (by decide +kernel) (c!"u") []).1.trans ?_
  decide +kernel

theorem swapped_opens : Opens Toy.env (c!"secret1") swapped := ⟨by decide +kernel, by decide +kernel⟩

/-- All its values stem from the owner. -/
theorem swapped_noForgery : NoForgery Toy.env (· = twoStored) (c!"secret1") (opened Toy.env (c!"secret1") swapped) := by
  intro k key v nonce c m hk hv hc _ _
  have h1 : ∀ e ∈ (opened Toy.env (c!"secret1") swapped).world.data, ∃ e' ∈ twoStored.world.data,
      e'.2 = e.2 ∧ twoStored.world.data.get? e'.1 = some e'.2 := by decide +kernel
  have h2 : (after Toy.env twoStored (.unlock (c!"secret1"))).key = (opened Toy.env (c!"secret1") swapped).key := by decide +kernel
  obtain ⟨e', -, h3, h4⟩ := h1 (key, v) (Data.mem_of_get? hv)
  exact ⟨twoStored, e'.1, v, rfl, ⟨by decide +kernel, h2.trans hk⟩, h4.trans (by rw [h3]), hc⟩

/-- What is shown was entered by the owner, though for another site. -/
example : ∃ a n r, owned (.setStored a n r (c!"y")) := by
  obtain ⟨h, -⟩ := C90_genuine Toy.env_lawful Toy.secure (· = twoStored) (by rintro u rfl; exact twoStored_done) (c!"secret1")
    (by show _ ∈ Toy.primaries; decide) swapped swapped_opens swapped_noForgery
  rcases h (c!"a") (c!"u") [] (c!"y") (by decide +kernel) with h | ⟨a, n, r, len, cs, site, h, -⟩
  · exact h
  · rcases h with h | h | h <;> cases h

end Examples

end Pfp.Props
