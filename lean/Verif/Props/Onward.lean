import Verif.Spec.Onward
import Verif.Props.Tampering

/-!
# Working on with storage files that somebody else keeps changing: C106
-/

namespace Pfp.Props
open Spec Crypto

variable {E : Env} {U : Universe} {G : Op → Prop} {owner : PState → Prop} {p : Str} {k : Bytes} {o : Data}

theorem own_of_given {x : Password} (h : GivenRecord G x) : OwnRecord G x := by
  obtain ⟨h1, h2, h3⟩ := h
  refine ⟨h1, ?_, h3⟩
  rcases h2 with h2 | ⟨a, r, h2, -⟩
  · exact .inl h2
  · exact .inr ⟨_, _, _, h2⟩

/-- What can be read in the table comes from the owner. -/
structure Clean (E : Env) (owner : PState → Prop) (G : Op → Prop) (p : Str) (k : Bytes) (d : Data) : Prop where
  password : ∀ {key v : Str}, d.get? key = some v → ∀ {x}, ReadsAs E.prims k Serde.passwordFromJson v x → OwnRecord G x
  site : ∀ {key v : Str}, d.get? key = some v → ∀ {x}, ReadsAs E.prims k Serde.siteFromJson v x →
    Named G x.name ∧ ∀ y, x.alias = some y → Named G y
  secret : ∀ {key v : Str}, d.get? key = some v → ∀ {b}, ReadsAs E.prims k Serde.asStr v b →
    ∃ u h, owner u ∧ Unlocks E u p k ∧ Base64.decode b = some h ∧ (after E u (.unlock p)).hmacSecret = some h

theorem decrypts_unique {P : Prims} {v : Str} {m m' : Bytes} (hk : k.length = 32) (h : Decrypts P k v m) (h' : Decrypts P k v m') :
    m = m' := by
  have h := ((C56_decrypt P k hk v).1 m).mpr h
  rw [((C56_decrypt P k hk v).1 m').mpr h'] at h
  cases h
  rfl

theorem Clean.same {d d' : Data} (h : Clean E owner G p k d) (hd : ∀ key v, d'.get? key = some v → ∃ key', d.get? key' = some v) :
    Clean E owner G p k d' where
  password hv := let ⟨_, hv⟩ := hd _ _ hv; h.password hv
  site hv := let ⟨_, hv⟩ := hd _ _ hv; h.site hv
  secret hv := let ⟨_, hv⟩ := hd _ _ hv; h.secret hv

theorem Clean.insert {d : Data} (h : Clean E owner G p k d) {key v : Str}
    (h1 : ∀ {x}, ReadsAs E.prims k Serde.passwordFromJson v x → OwnRecord G x)
    (h2 : ∀ {x}, ReadsAs E.prims k Serde.siteFromJson v x → Named G x.name ∧ ∀ y, x.alias = some y → Named G y)
    (h3 : ∀ {b}, ¬ReadsAs E.prims k Serde.asStr v b) : Clean E owner G p k (d.insert key v) := by
  have hget : ∀ {key' v' : Str}, (d.insert key v).get? key' = some v' → v' = v ∨ d.get? key' = some v' := by
    intro key' v' h'
    rw [Data.get?_insert] at h'
    split at h'
    · cases h'; exact .inl rfl
    · exact .inr h'
  refine ⟨fun hv x hx => ?_, fun hv x hx => ?_, fun hv b hb => ?_⟩
  · rcases hget hv with rfl | hv
    · exact h1 hx
    · exact h.password hv hx
  · rcases hget hv with rfl | hv
    · exact h2 hx
    · exact h.site hv hx
  · rcases hget hv with rfl | hv
    · exact (h3 hb).elim
    · exact h.secret hv hb

theorem Clean.erase {d : Data} (h : Clean E owner G p k d) (key : Str) : Clean E owner G p k (d.erase key) := by
  refine h.same fun key' v hv => ?_
  rw [Data.get?_erase] at hv
  split at hv
  · cases hv
  · exact ⟨_, hv⟩

/-- A value just written. -/
theorem reads_enc (hP : E.prims.Lawful) (hk : k.length = 32) {α : Type} {f : Json → Option α} (w : World) (key : Str) (j : Json) {x : α}
    (hx : Serde.fromSlice f (Serde.toVec j) = some x) {v : Str} (hv : (Storage.setWorld E key j k w).data.get? key = some v) :
    ReadsAs E.prims k f v x := by
  obtain ⟨v', h1, h2⟩ := (get_ok_iff f _ key k hk x).mp (get_setWorld hP f w key j k hk hx)
  rw [hv] at h1
  cases h1
  exact h2

theorem setWorld_own (w : World) (key : Str) (j : Json) : ∃ v, (Storage.setWorld E key j k w).data = w.data.insert key v ∧
    (Storage.setWorld E key j k w).data.get? key = some v := by
  refine ⟨_, rfl, ?_⟩
  simp only [Storage.setWorld, Data.get?_insert, if_true]

theorem Clean.setPassword (hP : E.prims.Lawful) (hk : k.length = 32) {w : World} (h : Clean E owner G p k w.data) (key : Str) {x : Password}
    (hx : OwnRecord G x) : Clean E owner G p k (Storage.setWorld E key (Serde.passwordToJson x) k w).data := by
  obtain ⟨v, h1, h2⟩ := setWorld_own (E := E) (k := k) w key (Serde.passwordToJson x)
  obtain ⟨m, hm, hr⟩ := reads_enc hP hk w key _ (Serde.password_roundtrip x) h2
  rw [h1]
  refine h.insert ?_ ?_ ?_
  · rintro y ⟨m', hm', hy⟩
    rw [decrypts_unique hk hm' hm, hr] at hy
    cases hy
    exact hx
  · rintro y ⟨m', hm', hy⟩
    rw [decrypts_unique hk hm' hm] at hy
    exact (site_not_password hy hr).elim
  · rintro y ⟨m', hm', hy⟩
    rw [decrypts_unique hk hm' hm] at hy
    have := asStr_object hy hr
    cases this

theorem Clean.setSite (hP : E.prims.Lawful) (hk : k.length = 32) {w : World} (h : Clean E owner G p k w.data) (key : Str) {x : Site}
    (hx : Named G x.name ∧ ∀ y, x.alias = some y → Named G y) :
    Clean E owner G p k (Storage.setWorld E key (Serde.siteToJson x) k w).data := by
  obtain ⟨v, h1, h2⟩ := setWorld_own (E := E) (k := k) w key (Serde.siteToJson x)
  obtain ⟨m, hm, hr⟩ := reads_enc hP hk w key _ (Serde.site_roundtrip x) h2
  rw [h1]
  refine h.insert ?_ ?_ ?_
  · rintro y ⟨m', hm', hy⟩
    rw [decrypts_unique hk hm' hm] at hy
    exact (site_not_password hr hy).elim
  · rintro y ⟨m', hm', hy⟩
    rw [decrypts_unique hk hm' hm, hr] at hy
    cases hy
    exact hx
  · rintro y ⟨m', hm', hy⟩
    rw [decrypts_unique hk hm' hm] at hy
    have := asStr_object hy hr
    cases this

/-! ## Operations -/

/-- The table fits together with the secrets, and salt and HMAC secret are those of the table `o`. -/
structure Fit (E : Env) (owner : PState → Prop) (G : Op → Prop) (p : Str) (k h : Bytes) (o : Data) (w : World) : Prop where
  salt : ∃ salt, Storage.getSalt w = .ok salt ∧ k = keyFor E.prims p salt
  secret : Storage.getHmacSecret E w k = .ok h
  clean : Clean E owner G p k w.data
  nodup : (w.data.map (·.1)).Nodup
  same : w.data.get? Storage.SALT_KEY = o.get? Storage.SALT_KEY ∧ w.data.get? Storage.HMAC_SECRET_KEY = o.get? Storage.HMAC_SECRET_KEY

theorem Fit.length (hP : E.prims.Lawful) {h : Bytes} {w : World} (f : Fit E owner G p k h o w) : k.length = 32 := by
  obtain ⟨salt, -, rfl⟩ := f.salt
  exact keyFor_length hP _ _

theorem Fit.change {h : Bytes} {w w' : World} (f : Fit E owner G p k h o w) (h1 : Clean E owner G p k w'.data)
    (h2 : (w'.data.map (·.1)).Nodup) (h3 : w'.data.get? Storage.SALT_KEY = w.data.get? Storage.SALT_KEY)
    (h4 : w'.data.get? Storage.HMAC_SECRET_KEY = w.data.get? Storage.HMAC_SECRET_KEY) : Fit E owner G p k h o w' :=
  ⟨by rw [getSalt_same h3]; exact f.salt, by rw [getHmacSecret_same k h4]; exact f.secret, h1, h2,
    by rw [h3, h4]; exact f.same⟩

theorem Fit.data {h : Bytes} {w w' : World} (f : Fit E owner G p k h o w) (h1 : w'.data = w.data) : Fit E owner G p k h o w' :=
  f.change (by rw [h1]; exact f.clean) (by rw [h1]; exact f.nodup) (by rw [h1]) (by rw [h1])

/-- The computation keeps the table fit. -/
def Fits (E : Env) (owner : PState → Prop) (G : Op → Prop) (p : Str) (k h : Bytes) (o : Data) {α : Type} (m : M World α) : Prop :=
  ∀ w, Fit E owner G p k h o w → Fit E owner G p k h o (m w).2

section

variable {h : Bytes} {α β : Type}

theorem fits_bind {m : M World α} {f : α → M World β} (hm : Fits E owner G p k h o m) (hf : ∀ a, Fits E owner G p k h o (f a)) :
    Fits E owner G p k h o (m >>= f) := by
  intro w hw
  have := hm w hw
  rw [M.bind_apply]
  revert this
  rcases m w with ⟨r, w'⟩
  intro h'
  cases r with
  | ok a => exact hf a w' h'
  | err e => exact h'
  | panic => exact h'

theorem fits_flush : Fits E owner G p k h o (Storage.flush E) := fun w hw => hw.data (flush_data E w)

theorem fits_remove {key : Str} (h1 : Storage.SALT_KEY ≠ key) (h2 : Storage.HMAC_SECRET_KEY ≠ key) :
    Fits E owner G p k h o (Storage.remove key) := by
  intro w hw
  unfold Storage.remove FileIO.remove
  split
  · refine hw.change (hw.clean.erase _) (Data.erase_nodup _ hw.nodup) ?_ ?_
    · simp only [Data.get?_erase, if_neg h1]
    · simp only [Data.get?_erase, if_neg h2]
  · exact hw

theorem fits_set (hP : E.prims.Lawful) {key : Str} {j : Json} (h1 : Storage.SALT_KEY ≠ key) (h2 : Storage.HMAC_SECRET_KEY ≠ key)
    (hj : (∃ x, j = Serde.passwordToJson x ∧ OwnRecord G x) ∨
      ∃ x : Site, j = Serde.siteToJson x ∧ Named G x.name ∧ ∀ y, x.alias = some y → Named G y) :
    Fits E owner G p k h o (Storage.set E key j k) := by
  intro w hw
  have hk := hw.length hP
  rw [Storage.set_eq E key j k hk w]
  refine hw.change ?_ (Data.insert_nodup _ _ hw.nodup) ?_ ?_
  · rcases hj with ⟨x, rfl, hx⟩ | ⟨x, rfl, hx⟩
    · exact hw.clean.setPassword hP hk key hx
    · exact hw.clean.setSite hP hk key hx
  · exact get?_setWorld_ne w j k h1
  · exact get?_setWorld_ne w j k h2

theorem fits_ensure (hP : E.prims.Lawful) {site : Str} (hn : Named G site) :
    Fits E owner G p k h o (Storage.ensureSiteData E site h k) := by
  intro w hw
  unfold Storage.ensureSiteData
  rw [M.bind_apply]
  simp only [M.get_apply]
  cases Storage.get E w Serde.siteFromJson (Storage.siteKey E site h) k with
  | err e =>
    exact fits_set hP (Storage.siteKey_ne_salt E _ _).symm (Storage.siteKey_ne_hmac E _ _).symm (.inr ⟨_, rfl, hn, by simp⟩) w hw
  | ok x => exact hw
  | panic => exact hw

theorem fits_password (hP : E.prims.Lawful) {x : Password} (hx : OwnRecord G x) (i : PasswordId) :
    Fits E owner G p k h o (Storage.set E (Storage.passwordKey E i h) (Serde.passwordToJson x) k) :=
  fits_set hP (Storage.passwordKey_ne_salt E _ _).symm (Storage.passwordKey_ne_hmac E _ _).symm (.inl ⟨x, rfl, hx⟩)

theorem resolve_named {w : World} (hP : E.prims.Lawful) (hw : Fit E owner G p k h o w) {a x : Str} (hn : Named G (canonical a))
    (hr : Storage.resolveSite E w a h k = .ok x) : Named G x := by
  unfold Storage.resolveSite at hr
  simp only [RepVault.normalizeSite_eq] at hr
  cases hg : Storage.getAlias E w (canonical a) h k with
  | panic => rw [hg] at hr; cases hr
  | err e => rw [hg] at hr; cases hr; exact hn
  | ok y =>
    rw [hg] at hr
    cases hr
    unfold Storage.getAlias Storage.getSite at hg
    cases hs : Storage.get E w Serde.siteFromJson (Storage.siteKey E (canonical a) h) k with
    | panic => rw [hs] at hg; cases hg
    | err e => rw [hs] at hg; cases hg
    | ok z =>
      simp only [hs, Res.mapErr_ok, Res.bind_ok] at hg
      obtain ⟨v, hv, hz⟩ := (get_ok_iff Serde.siteFromJson w _ k (hw.length hP) z).mp hs
      cases hy : z.alias with
      | none => rw [hy] at hg; cases hg
      | some y' => rw [hy] at hg; cases hg; exact (hw.clean.site hv hz).2 _ hy

/-- The state of a process. -/
def Holds (E : Env) (owner : PState → Prop) (G : Op → Prop) (p : Str) (k h : Bytes) (o : Data) (u : PState) : Prop :=
  Fit E owner G p k h o u.world ∧ ((u.key = none ∧ u.hmacSecret = none ∧ u.primaryPassword = none) ∨
    (u.key = some k ∧ u.hmacSecret = some h ∧ u.primaryPassword = some p))

/-- The computation keeps it. -/
def Kept (E : Env) (owner : PState → Prop) (G : Op → Prop) (p : Str) (k h : Bytes) (o : Data) {α : Type} (m : M PState α) : Prop :=
  ∀ u, Holds E owner G p k h o u → Holds E owner G p k h o (m u).2

theorem kept_bind {m : M PState α} {f : α → M PState β} (hm : Kept E owner G p k h o m) (hf : ∀ a, Kept E owner G p k h o (f a)) :
    Kept E owner G p k h o (m >>= f) := by
  intro w hw
  have := hm w hw
  rw [M.bind_apply]
  revert this
  rcases m w with ⟨r, w'⟩
  intro h'
  cases r with
  | ok a => exact hf a w' h'
  | err e => exact h'
  | panic => exact h'

theorem kept_onWorld {m : M World α} (hm : Fits E owner G p k h o m) : Kept E owner G p k h o (Passwords.onWorld m) :=
  fun _ hu => ⟨hm _ hu.1, hu.2⟩

/-- Operations that need the secrets. -/
theorem kept_secrets {f : PState → Bytes × Bytes → M PState α}
    (hf : ∀ u, Holds E owner G p k h o u → Holds E owner G p k h o (f u (h, k) u).2) :
    Kept E owner G p k h o (do let s ← M.get; let x ← M.lift (Passwords.secrets s); f s x) := by
  intro u hu
  rw [M.bind_apply]
  simp only [M.get_apply]
  rw [M.bind_apply]
  simp only [M.lift_apply]
  rcases hu.2 with ⟨h1, h2, -⟩ | ⟨h1, h2, -⟩
  · have : Passwords.secrets u = .err .passwordsLocked := by simp [Passwords.secrets, h2, okOr]
    rw [this]
    exact hu
  · have : Passwords.secrets u = .ok (h, k) := by simp [Passwords.secrets, h1, h2, okOr]
    rw [this]
    exact hf u hu

/-- Looking for something first. -/
theorem kept_lift {u : PState} (hu : Holds E owner G p k h o u) (r : Res α) {f : α → M PState β}
    (hf : ∀ a, r = .ok a → Holds E owner G p k h o (f a u).2) : Holds E owner G p k h o ((M.lift r >>= f) u).2 := by
  rw [M.bind_apply]
  simp only [M.lift_apply]
  cases r with
  | ok a => exact hf a rfl
  | err e => exact hu
  | panic => exact hu

theorem new_id (x n r : Str) : PasswordId.new x n r = ⟨x, n, revisionOf r⟩ := by
  unfold PasswordId.new revisionOf; split <;> simp_all

theorem kept_setStored (hP : E.prims.Lawful) {a n r v : Str} (hg : G (.setStored a n r v)) :
    Kept E owner G p k h o (Passwords.setStored E a n r v) := by
  unfold Passwords.setStored
  refine kept_secrets (f := fun s x => do
    let siteResolved ← M.lift (Storage.resolveSite E s.world a x.1 x.2)
    Passwords.onWorld (Storage.ensureSiteData E siteResolved x.1 x.2)
    Passwords.onWorld (Storage.setStored E (.new siteResolved n r v) x.1 x.2)
    Passwords.onWorld (Storage.flush E)) fun u hu => kept_lift hu _ fun x hx => ?_
  have hn := resolve_named hP hu.1 ⟨_, hg, a, by simp [Op.siteArguments], rfl⟩ hx
  refine kept_bind (kept_onWorld (fits_ensure hP hn)) (fun _ => kept_bind (kept_onWorld (fits_password hP ⟨?_, .inl rfl, ?_⟩ _))
    fun _ => kept_onWorld fits_flush) u hu
  · simp only [StoredPassword.new, new_id, Password.id]; exact hn
  · simp only [StoredPassword.new, new_id]; exact .stored hg rfl

theorem kept_setGenerated (hP : E.prims.Lawful) {a n r : Str} {len : UInt64} {cs : CharacterSet}
    (hg : G (.setGenerated a n r len cs)) : Kept E owner G p k h o (Passwords.setGenerated E a n r len cs) := by
  unfold Passwords.setGenerated
  refine kept_secrets (f := fun s x => do
    let siteResolved ← M.lift (Storage.resolveSite E s.world a x.1 x.2)
    Passwords.onWorld (Storage.ensureSiteData E siteResolved x.1 x.2)
    Passwords.onWorld (Storage.setGenerated E (.new siteResolved n r len cs) x.1 x.2)
    Passwords.onWorld (Storage.flush E)) fun u hu => kept_lift hu _ fun x hx => ?_
  have hn := resolve_named hP hu.1 ⟨_, hg, a, by simp [Op.siteArguments], rfl⟩ hx
  refine kept_bind (kept_onWorld (fits_ensure hP hn)) (fun _ => kept_bind (kept_onWorld (fits_password hP ⟨?_, .inl rfl, ?_⟩ _))
    fun _ => kept_onWorld fits_flush) u hu
  · simp only [GeneratedPassword.new, new_id, Password.id]; exact hn
  · simp only [GeneratedPassword.new, new_id]; exact .generated hg rfl

theorem own_setNotes {x : Password} (hx : OwnRecord G x) {a n r v : Str} (hg : G (.setNotes a n r v)) : OwnRecord G (x.setNotes v) := by
  cases x with
  | stored z => exact ⟨hx.1, .inr ⟨_, _, _, hg⟩, hx.2.2⟩
  | generated g => exact ⟨hx.1, .inr ⟨_, _, _, hg⟩, hx.2.2⟩

theorem kept_setNotes (hP : E.prims.Lawful) {a n r v : Str} (hg : G (.setNotes a n r v)) :
    Kept E owner G p k h o (Passwords.setNotes E a n r v) := by
  unfold Passwords.setNotes
  refine kept_secrets (f := fun s x => do
    let siteResolved ← M.lift (Storage.resolveSite E s.world a x.1 x.2)
    let password ← M.lift (Storage.getPassword E s.world (.new siteResolved n r) x.1 x.2)
    Passwords.onWorld (Storage.setPassword E (password.setNotes v) x.1 x.2)
    Passwords.onWorld (Storage.flush E)) fun u hu => kept_lift hu _ fun x hx => kept_lift hu _ fun y hy => ?_
  obtain ⟨t, ht, hy⟩ := (get_ok_iff Serde.passwordFromJson _ _ k (hu.1.length hP) y).mp hy
  exact kept_bind (kept_onWorld (fits_password hP (own_setNotes (hu.1.clean.password ht hy) hg) _))
    (fun _ => kept_onWorld fits_flush) u hu

theorem kept_remove (a n r : Str) : Kept E owner G p k h o (Passwords.remove E a n r) := by
  unfold Passwords.remove
  refine kept_secrets (f := fun s x => do
    let siteResolved ← M.lift (Storage.resolveSite E s.world a x.1 x.2)
    Passwords.onWorld (Storage.removePassword E (.new siteResolved n r) x.1)
    Passwords.onWorld (Storage.flush E)) fun u hu => kept_lift hu _ fun x hx => ?_
  exact kept_bind (kept_onWorld (fits_remove (Storage.passwordKey_ne_salt E _ _).symm (Storage.passwordKey_ne_hmac E _ _).symm))
    (fun _ => kept_onWorld fits_flush) u hu

theorem kept_setAlias (hP : E.prims.Lawful) {a b : Str} (hg : G (.setAlias a b)) :
    Kept E owner G p k h o (Passwords.setAlias E a b) := by
  unfold Passwords.setAlias
  refine kept_secrets (f := fun s x => do
    let siteNormalized := Storage.normalizeSite a
    let aliasResolved ← M.lift (Storage.resolveSite E s.world b x.1 x.2)
    let first ← M.lift (Storage.firstPassword E s.world siteNormalized x.1 x.2)
    if first.isSome then M.lift (.err .siteHasPasswords)
    else do
      Passwords.onWorld (Storage.setAlias E siteNormalized aliasResolved x.1 x.2)
      Passwords.onWorld (Storage.flush E)) fun u hu => kept_lift hu _ fun x hx => kept_lift hu _ fun y hy => ?_
  have hn := resolve_named hP hu.1 ⟨_, hg, b, by simp [Op.siteArguments], rfl⟩ hx
  have hn' : Named G (canonical a) := ⟨_, hg, a, by simp [Op.siteArguments], rfl⟩
  split
  · exact hu
  · refine kept_bind (kept_onWorld ?_) (fun _ => kept_onWorld fits_flush) u hu
    unfold Storage.setAlias
    rw [RepVault.normalizeSite_eq]
    split
    · exact fun w hw => hw
    · exact fits_set hP (Storage.siteKey_ne_salt E _ _).symm (Storage.siteKey_ne_hmac E _ _).symm
        (.inr ⟨_, rfl, hn', by rintro y ⟨⟩; exact hn⟩)

theorem kept_removeAlias (a : Str) : Kept E owner G p k h o (Passwords.removeAlias E a) := by
  unfold Passwords.removeAlias
  refine kept_secrets (f := fun s x => do
    Passwords.onWorld (Storage.removeAlias E (Storage.normalizeSite a) x.1 x.2)
    Passwords.onWorld (Storage.flush E)) fun u hu => ?_
  refine kept_bind (kept_onWorld ?_) (fun _ => kept_onWorld fits_flush) u hu
  unfold Storage.removeAlias
  refine fits_bind (fun w hw => hw) fun w => fits_bind (fun w hw => hw) fun x => ?_
  split
  · exact fun w hw => hw
  · exact fits_remove (Storage.siteKey_ne_salt E _ _).symm (Storage.siteKey_ne_hmac E _ _).symm

theorem fits_removeSites (h' : Bytes) : ∀ l : List Str, Fits E owner G p k h o (Passwords.removeSitesLoop E h' l)
  | [] => fun _ hw => hw
  | _ :: l => fits_bind (fits_remove (Storage.siteKey_ne_salt E _ _).symm (Storage.siteKey_ne_hmac E _ _).symm)
      fun _ => fits_removeSites h' l

theorem kept_removeSites (l : List Str) : Kept E owner G p k h o (Passwords.removeSites E l) := by
  unfold Passwords.removeSites
  split
  · exact fun _ hu => hu
  · exact kept_bind (fun _ hu => hu) fun _ => kept_bind (fun _ hu => hu) fun _ =>
      kept_bind (kept_onWorld (fits_removeSites _ l)) fun _ => kept_onWorld fits_flush

theorem kept_code (z : StoredPassword) : Kept E owner G p k h o (Passwords.getRecoveryCode E z) := by
  unfold Passwords.getRecoveryCode
  exact kept_bind (fun _ hu => hu) fun _ => kept_bind (fun _ hu => hu) fun _ => kept_bind (fun _ hu => hu) fun _ =>
    kept_bind (kept_onWorld fun w hw => hw.data rfl) fun _ => fun _ hu => hu

theorem kept_unlock : Kept E owner G p k h o (Passwords.unlock E p) := by
  intro u hu
  obtain ⟨salt, h1, h2⟩ := hu.1.salt
  simp only [Passwords.unlock, M.bind_apply, M.get_apply, M.lift_apply, h1, getEncryptionKey_keyFor, ← h2, hu.1.secret, M.modify_apply]
  exact ⟨hu.1, .inr ⟨rfl, rfl, rfl⟩⟩

theorem kept_run (hP : E.prims.Lawful) {op : Op} (hg : G op) (hop : Continues p op) {u : PState} (hu : Holds E owner G p k h o u) :
    Holds E owner G p k h o (after E u op) := by
  unfold after
  cases op with
  | reset q => exact hop.elim
  | reload => exact hop.elim
  | unlock q => cases hop; exact kept_unlock u hu
  | lock => exact ⟨hu.1, .inl ⟨rfl, rfl, rfl⟩⟩
  | setAlias a b => exact kept_setAlias hP hg u hu
  | removeAlias a => exact kept_removeAlias a u hu
  | removeSites l => exact kept_removeSites l u hu
  | setGenerated a n r len cs => exact kept_setGenerated hP hg u hu
  | setStored a n r v => exact kept_setStored hP hg u hu
  | setNotes a n r v => exact kept_setNotes hP hg u hu
  | remove a n r => exact kept_remove a n r u hu
  | getRecoveryCode z => exact kept_code z u hu
  | _ => exact hu

end

/-! ## Opening files -/

theorem unlocks_key (hP : E.prims.Lawful) {k' h : Bytes} {u : PState} (hu : Fit E owner G p k h o u.world) (hk : Unlocks E u p k') : k' = k := by
  obtain ⟨salt, k1, hm, h1, h2, -, -, h3⟩ := unlock_ok hP hk.1
  obtain ⟨salt', h4, h5⟩ := hu.salt
  rw [h1] at h4
  cases h4
  have := hk.2
  rw [h3] at this
  cases this
  rw [h2, h5]

/-- What is not forged was in a table of the owner at first, or later. -/
theorem clean_file (hE : E.Lawful) (hS : Secure E U) (howner : ∀ u, owner u → Done E U G u) (hp : U.primary p) {l : List PState}
    (hl : ∀ u ∈ l, ∃ k h o, Holds E owner G p k h o u) {t : PState} (hn : NoForgery E (fun u => owner u ∨ u ∈ l) p t) (hk : t.key = some k) :
    Clean E owner G p k t.world.data := by
  have key : ∀ {key v : Str}, t.world.data.get? key = some v → ∀ {m}, Decrypts E.prims k v m → Legible m →
      (∃ u, owner u ∧ Unlocks E u p k ∧ Meaning E G u p m) ∨
      ∃ d key' v', Clean E owner G p k d ∧ d.get? key' = some v' ∧ Decrypts E.prims k v' m := by
    intro key v hv m hm hleg
    obtain ⟨n, c, nonce, ct, e, h1, h2, h3, h4⟩ := hm
    obtain ⟨u, key', v', hu, hun, hv', hc⟩ := hn k key v nonce ct m hk hv ⟨n, c, e, h1, h3⟩ h4 hleg
    rcases hu with hu | hu
    · exact .inl ⟨u, hu, hun, meaning hE hS (howner u hu) hp hun hv' hc h4⟩
    · obtain ⟨k', h', o', hh⟩ := hl u hu
      cases unlocks_key hE.prims hh.1 hun
      obtain ⟨n', c', e', g1, g2⟩ := hc
      exact .inr ⟨_, key', v', hh.1.clean, hv', n', c', nonce, ct, e', g1, h2, g2, h4⟩
  refine ⟨?_, ?_, ?_⟩
  · rintro _ v hv x ⟨m, hm, hx⟩
    rcases key hv hm (.inr (.inr ⟨_, hx⟩)) with ⟨u, -, -, hmean⟩ | ⟨d, key', v', hc, hv', hm'⟩
    · cases hmean with
      | secret hs => have := asStr_object hs hx; cases this
      | site h => exact (site_not_password h hx).elim
      | password h hg => rw [h] at hx; cases hx; exact own_of_given hg
    · exact hc.password hv' ⟨m, hm', hx⟩
  · rintro _ v hv x ⟨m, hm, hx⟩
    rcases key hv hm (.inr (.inl ⟨_, hx⟩)) with ⟨u, -, -, hmean⟩ | ⟨d, key', v', hc, hv', hm'⟩
    · cases hmean with
      | secret hs => have := asStr_object hs hx; cases this
      | site h h1 h2 => rw [h] at hx; cases hx; exact ⟨h1, h2⟩
      | password h hg => exact (site_not_password hx h).elim
    · exact hc.site hv' ⟨m, hm', hx⟩
  · rintro _ v hv x ⟨m, hm, hx⟩
    rcases key hv hm (.inl ⟨_, hx⟩) with ⟨u, h1, h2, hmean⟩ | ⟨d, key', v', hc, hv', hm'⟩
    · cases hmean with
      | secret hs hb hu => rw [hs] at hx; cases hx; exact ⟨u, _, h1, h2, hb, hu⟩
      | site h => have := asStr_object hx h; cases this
      | password h => have := asStr_object hx h; cases this
    · exact hc.secret hv' ⟨m, hm', hx⟩

theorem working_holds (hE : E.Lawful) (hS : Secure E U) (howner : ∀ u, owner u → Done E U G u) (hp : U.primary p) {l : List PState}
    (hl : Working E owner G p l) : ∀ u ∈ l, ∃ k h o, Holds E owner G p k h o u := by
  induction hl with
  | start => simp
  | @file l _ s ho hn ih =>
    intro u hu
    rcases List.mem_cons.mp hu with rfl | hu
    · obtain ⟨d, salt, k, h, hload, hdata, h1, h2, -, h3, hk, hh, hpp⟩ := opens_iff hE.prims ho
      exact ⟨k, h, _, ⟨⟨salt, h1, h2⟩, h3, clean_file hE hS howner hp ih hn hk, by rw [hdata]; exact load_nodup hload, rfl, rfl⟩,
        .inr ⟨hk, hh, hpp⟩⟩
    · exact ih u hu
  | @step l _ u hu op hg hop ih =>
    intro v hv
    rcases List.mem_cons.mp hv with rfl | hv
    · obtain ⟨k, h, o, hh⟩ := ih u hu
      exact ⟨k, h, o, kept_run hE.prims hg hop hh⟩
    · exact ih v hv
  | @changed l _ u hu disk ih =>
    intro v hv
    rcases List.mem_cons.mp hv with rfl | hv
    · obtain ⟨k, h, o, hh⟩ := ih u hu
      exact ⟨k, h, o, hh.1.data rfl, hh.2⟩
    · exact ih v hv

/-- What a process answers. -/
theorem holds_answers (hE : E.Lawful) {h : Bytes} {t : PState} (ht : Holds E owner G p k h o t) :
    (∀ a n r x, ask E t (.get a n r) = .ok (.text x) →
      (∃ a' n' r', G (.setStored a' n' r' x)) ∨
      ∃ a' n' r' len cs site, G (.setGenerated a' n' r' len cs) ∧ Named G site ∧
        deriveWith E.prims p ⟨site, n', revisionOf r'⟩ len cs = .ok x) ∧
    (∀ a n r x, ask E t (.getNotes a n r) = .ok (.text x) → x = [] ∨ ∃ a' n' r', G (.setNotes a' n' r' x)) ∧
    (∀ a x, ask E t (.getAlias a) = .ok (.text x) → Named G x) ∧
    (∀ a q l, ask E t (.list a q) = .ok (.passwords l) → ∀ x ∈ l, OwnRecord G x) ∧
    (∀ q l, ask E t (.listSites q) = .ok (.sites l) → ∀ x ∈ l, Named G x.name ∧ ∀ y, x.alias = some y → Named G y) := by
  obtain ⟨hf, ⟨hk, hh, hpp⟩ | ⟨hk, hh, hpp⟩⟩ := ht
  · have hs : Passwords.secrets t = .err .passwordsLocked := by simp [Passwords.secrets, hh, okOr]
    refine ⟨fun a n r x hx => ?_, fun a n r x hx => ?_, fun a x hx => ?_, fun a q l hx => ?_, fun q l hx => ?_⟩
    · simp only [ask, run, Passwords.get, hs] at hx; cases hx
    · simp only [ask, run, Passwords.getNotes, hs] at hx; cases hx
    · simp only [ask, run, Passwords.getAlias, hs] at hx; cases hx
    · simp only [ask, run, Passwords.list, hk] at hx; cases hx
    · simp only [ask, run, Passwords.listSites, hk] at hx; cases hx
  have hl := hf.length hE.prims
  have hd : Distinct t.world := hf.nodup
  refine ⟨fun a n r x hx => ?_, fun a n r x hx => ?_, fun a x hx => ?_, fun a q l hx => ?_, fun q l hx => ?_⟩
  · have hna : ask E t (.getAlias a) ≠ .panic := by
      intro hc
      rw [(alias_panic hk hh hpp hc n r []).1] at hx
      cases hx
    obtain ⟨v, y, hv, hy, hxy⟩ := ((C56_get E t k h p hk hl hh hpp a n r hna).2.2.1 x).mp hx
    obtain ⟨h1, -, h2⟩ := hf.clean.password hv hy
    cases y with
    | stored z =>
      simp only at hxy h2
      subst hxy
      cases h2 with
      | stored hg => exact .inl ⟨_, _, _, hg⟩
    | generated g =>
      simp only at hxy h2
      generalize hlen : g.length = len at *
      generalize hcs : g.charset = cs at *
      cases h2 with
      | @generated a' r' len' cs' hg hr =>
        refine .inr ⟨_, _, _, _, _, g.id.site, hg, h1, ?_⟩
        rw [← hxy, ← hr]
  · have hna : ask E t (.getAlias a) ≠ .panic := by
      intro hc
      rw [(alias_panic hk hh hpp hc n r []).2.1] at hx
      cases hx
    obtain ⟨v, y, hv, hy, rfl⟩ := ((C56_get E t k h p hk hl hh hpp a n r hna).2.1 x).mp hx
    exact (hf.clean.password hv hy).2.1
  · obtain ⟨v, y, hv, hy, hxy⟩ := ((C56_alias E t k h hk hl hh a).1 x).mp hx
    exact (hf.clean.site hv hy).2 _ hxy
  · have hna : ask E t (.getAlias a) ≠ .panic := by
      intro hc
      rw [(alias_panic hk hh hpp hc [] [] q).2.2] at hx
      cases hx
    obtain ⟨h1, h2⟩ := C56_list hE t hd k h hk hl hh a q hna
    obtain ⟨rows, h3, -, h4⟩ := h1 fun key v hkey hv hb => by
      rw [h2 ⟨key, v, hkey, hv, hb⟩] at hx
      cases hx
    rw [hx] at h3
    cases h3
    intro x hxl
    obtain ⟨⟨key, x'⟩, hrow, rfl⟩ := List.mem_map.mp hxl
    obtain ⟨-, -, v, hv, hy⟩ := (h4 key x').mp hrow
    exact hf.clean.password hv hy
  · obtain ⟨h1, h2⟩ := C56_list_sites hE t hd k hk hl q
    obtain ⟨rows, h3, -, h4⟩ := h1 fun rest v hrest hv hb => by
      rw [h2 ⟨rest, v, hrest, hv, hb⟩] at hx
      cases hx
    rw [hx] at h3
    cases h3
    intro x hxl
    obtain ⟨⟨key, x'⟩, hrow, rfl⟩ := List.mem_map.mp hxl
    obtain ⟨-, -, v, hv, hy⟩ := (h4 key x').mp hrow
    exact hf.clean.site hv hy

theorem fit_secret (hP : E.prims.Lawful) {h : Bytes} {w : World} (hf : Fit E owner G p k h o w) :
    ∃ u, owner u ∧ Unlocks E u p k ∧ (after E u (.unlock p)).hmacSecret = some h := by
  have hsec := hf.secret
  unfold Storage.getHmacSecret FileIO.get at hsec
  cases hv : w.data.get? Storage.HMAC_SECRET_KEY with
  | none => rw [hv] at hsec; cases hsec
  | some v =>
    simp only [hv, okOr_some, Res.mapErr_ok, Res.bind_ok] at hsec
    cases hm : decryptData E.prims v k with
    | err e => rw [hm] at hsec; cases hsec
    | panic => rw [hm] at hsec; cases hsec
    | ok m =>
      simp only [hm, Res.bind_ok] at hsec
      cases hb : Serde.fromSlice Serde.asStr m with
      | none => rw [hb] at hsec; cases hsec
      | some b =>
        simp only [hb, okOr_some, Res.bind_ok] at hsec
        obtain ⟨u, h', h1, h2, h3, h4⟩ := hf.clean.secret hv ⟨m, ((C56_decrypt E.prims k (hf.length hP) v).1 m).mp hm, hb⟩
        rw [h3] at hsec
        cases hsec
        exact ⟨u, h1, h2, h4⟩

/-- **C106 (nothing foreign, ever).** The owner keeps working with files that somebody without the primary password keeps changing:
processes open whatever is there, add, change and remove passwords, notes and aliases, and save it; values taken from what they had in
memory may come back in other files.  If the cipher is never broken, everything that any of the processes shows has been entered by the
owner at some time. -/
theorem C106_genuine (hE : E.Lawful) (hS : Secure E U) (owner : PState → Prop) (howner : ∀ u, owner u → Done E U G u) (p : Str)
    (hp : U.primary p) (l : List PState) (hl : Working E owner G p l) (t : PState) (ht : t ∈ l) :
    (∀ a n r x, ask E t (.get a n r) = .ok (.text x) →
      (∃ a' n' r', G (.setStored a' n' r' x)) ∨
      ∃ a' n' r' len cs site, G (.setGenerated a' n' r' len cs) ∧ Named G site ∧
        deriveWith E.prims p ⟨site, n', revisionOf r'⟩ len cs = .ok x) ∧
    (∀ a n r x, ask E t (.getNotes a n r) = .ok (.text x) → x = [] ∨ ∃ a' n' r', G (.setNotes a' n' r' x)) ∧
    (∀ a x, ask E t (.getAlias a) = .ok (.text x) → Named G x) ∧
    (∀ a q l, ask E t (.list a q) = .ok (.passwords l) → ∀ x ∈ l, OwnRecord G x) ∧
    (∀ q l, ask E t (.listSites q) = .ok (.sites l) → ∀ x ∈ l, Named G x.name ∧ ∀ y, x.alias = some y → Named G y) := by
  obtain ⟨k, h, o, hh⟩ := working_holds hE hS howner hp hl t ht
  exact holds_answers hE hh

/-- C106: none of the processes can be brought to use a key or an HMAC secret which is not of the owner, nor another primary password,
and each can be unlocked again. -/
theorem C106_secrets (hE : E.Lawful) (hS : Secure E U) (owner : PState → Prop) (howner : ∀ u, owner u → Done E U G u) (p : Str)
    (hp : U.primary p) (l : List PState) (hl : Working E owner G p l) (t : PState) (ht : t ∈ l) :
    ∃ u k h, owner u ∧ Unlocks E u p k ∧ (after E u (.unlock p)).hmacSecret = some h ∧ Unlocks E t p k ∧
      (after E t (.unlock p)).hmacSecret = some h ∧
      (t.key = none ∧ t.hmacSecret = none ∧ t.primaryPassword = none ∨
        t.key = some k ∧ t.hmacSecret = some h ∧ t.primaryPassword = some p) := by
  obtain ⟨k, h, o, hh⟩ := working_holds hE hS howner hp hl t ht
  obtain ⟨u, h1, h2, h3⟩ := fit_secret hE.prims hh.1
  obtain ⟨salt, g1, g2⟩ := hh.1.salt
  have hun : Passwords.unlock E p t = (.ok (), { t with key := some k, hmacSecret := some h, primaryPassword := some p }) := by
    simp only [Passwords.unlock, M.bind_apply, M.get_apply, M.lift_apply, g1, getEncryptionKey_keyFor, ← g2, hh.1.secret, M.modify_apply]
  refine ⟨u, k, h, h1, h2, h3, ⟨?_, ?_⟩, ?_, hh.2⟩
  · simp only [ask, run, hun]; rfl
  · simp only [after, run, hun]
  · simp only [after, run, hun]

/-- Salt and HMAC secret stay. -/
theorem working_same (hE : E.Lawful) (hS : Secure E U) (howner : ∀ u, owner u → Done E U G u) (hp : U.primary p) {l : List PState}
    (hl : Working E owner G p l) {u : PState} (hu : u ∈ l) {op : Op} (hg : G op) (hop : Continues p op) :
    (after E u op).world.data.get? Storage.SALT_KEY = u.world.data.get? Storage.SALT_KEY ∧
    (after E u op).world.data.get? Storage.HMAC_SECRET_KEY = u.world.data.get? Storage.HMAC_SECRET_KEY := by
  obtain ⟨k, h, o, hh⟩ := working_holds hE hS howner hp hl u hu
  have : Holds E owner G p k h u.world.data u := ⟨⟨hh.1.salt, hh.1.secret, hh.1.clean, hh.1.nodup, rfl, rfl⟩, hh.2⟩
  exact (kept_run hE.prims hg hop this).1.same

/-- C106: the files that the processes write themselves are among those which they may open. -/
theorem C106_saved (hE : E.Lawful) (hS : Secure E U) (owner : PState → Prop) (howner : ∀ u, owner u → Done E U G u) (p : Str)
    (hp : U.primary p) (l : List PState) (hl : Working E owner G p l) (u : PState) (hu : u ∈ l) (op : Op) (hg : G op)
    (hop : Continues p op) (hc : op.changes = true) (o : Out) (hok : ask E u op = .ok o) :
    Opens E p (after E u op) ∧ Working E owner G p (opened E p (after E u op) :: after E u op :: l) := by
  have hl' : Working E owner G p (after E u op :: l) := .step hl hu op hg hop
  obtain ⟨k, h, o', hh⟩ := working_holds hE hS howner hp hl' (after E u op) (List.mem_cons_self ..)
  obtain ⟨-, h1, -⟩ := changes_written E u op hc o hok
  obtain ⟨h2, h3⟩ := load_flushed hE (w := (after E u op).world) hh.1.nodup h1
  generalize after E u op = t at *
  generalize (FileIO.entries E t.world).reverse = d at *
  have hnd : (d.map (·.1)).Nodup := (h3.map _).nodup_iff.mpr hh.1.nodup
  have hget : ∀ key, Data.get? d key = t.world.data.get? key := Data.get?_perm h3 hnd
  obtain ⟨r1, r2⟩ := reload_ok (E := E) h2
  have hf : Fit E owner G p k h o' (after E t .reload).world := by
    refine hh.1.change ?_ ?_ ?_ ?_
    · rw [r2]
      exact hh.1.clean.same fun key v hv => ⟨key, by rw [← hget]; exact hv⟩
    · rw [r2]; exact hnd
    · rw [r2, hget]
    · rw [r2, hget]
  have hun : ∀ {s : PState}, Fit E owner G p k h o' s.world →
      Passwords.unlock E p s = (.ok (), { s with key := some k, hmacSecret := some h, primaryPassword := some p }) := by
    intro s hs
    obtain ⟨salt, g1, g2⟩ := hs.salt
    simp only [Passwords.unlock, M.bind_apply, M.get_apply, M.lift_apply, g1, getEncryptionKey_keyFor, ← g2, hs.secret, M.modify_apply]
  have ho : Opens E p t := ⟨r1, by simp only [ask, run, hun hf]; rfl⟩
  have hopen : opened E p t = { after E t .reload with key := some k, hmacSecret := some h, primaryPassword := some p } := by
    show (run E (.unlock p) _).2 = _
    simp only [run, hun hf]
  refine ⟨ho, .file hl' ho fun k' key v nonce c m hk hv hcar _ _ => ?_⟩
  rw [hopen] at hk hv
  cases hk
  refine ⟨t, key, v, .inr (List.mem_cons_self ..), ⟨?_, ?_⟩, ?_, hcar⟩
  · simp only [ask, run, hun hh.1]; rfl
  · simp only [after, run, hun hh.1]
  · rw [← hget, ← r2]; exact hv

/-! ## Notes go where the record belongs -/

/-- C106: what `set_notes` does if the entry asked for holds the record of another password: the entry asked for stays as it is, and
whatever was in the entry of the other password is replaced. -/
theorem C106_notes (hP : E.prims.Lawful) (t : PState) (k h : Bytes) (hk : t.key = some k) (hl : k.length = 32) (hh : t.hmacSecret = some h)
    (a n r v y : Str) (x : Password) (hna : ask E t (.getAlias a) ≠ .panic)
    (hv : t.world.data.get? (entryMeant E h t a n r) = some v) (hx : ReadsAs E.prims k Serde.passwordFromJson v x) :
    ∃ v', ReadsAs E.prims k Serde.passwordFromJson v' (x.setNotes y) ∧
      (∀ key, (after E t (.setNotes a n r y)).world.data.get? key =
        if key = passwordEntry E.prims h x.id then some v' else t.world.data.get? key) ∧
      (after E t (.setNotes a n r y)).key = t.key ∧ (after E t (.setNotes a n r y)).hmacSecret = t.hmacSecret ∧
      (after E t (.setNotes a n r y)).primaryPassword = t.primaryPassword := by
  have hs : Passwords.secrets t = .ok (h, k) := by simp [Passwords.secrets, hk, hh, okOr]
  have hr : Storage.resolveSite E t.world a h k = .ok (siteMeant E t a) := by
    rcases resolve_siteMeant (E := E) hk hh a with ⟨h1, -⟩ | ⟨-, h1⟩
    · exact absurd h1 hna
    · exact h1
  have hg : Storage.getPassword E t.world (.new (siteMeant E t a) n r) h k = .ok x := by
    unfold Storage.getPassword
    rw [new_id, passwordKey_entry]
    exact (get_ok_iff Serde.passwordFromJson _ _ k hl x).mpr ⟨v, hv, hx⟩
  have hid : (x.setNotes y).id = x.id := by cases x <;> rfl
  obtain ⟨v', h1, h2⟩ := setWorld_own (E := E) (k := k) t.world (Storage.passwordKey E x.id h) (Serde.passwordToJson (x.setNotes y))
  have e : Passwords.setNotes E a n r y t = (do
      Passwords.onWorld (Storage.setPassword E (x.setNotes y) h k)
      Passwords.onWorld (Storage.flush E)) t := by
    unfold Passwords.setNotes
    rw [M.bind_apply]; simp only [M.get_apply]
    rw [M.bind_apply]; simp only [M.lift_apply, hs]
    rw [M.bind_apply]; simp only [M.lift_apply, hr]
    rw [M.bind_apply]; simp only [M.lift_apply, hg]
  have e' : Passwords.setNotes E a n r y t = ((Storage.flush E (Storage.setWorld E (Storage.passwordKey E x.id h)
      (Serde.passwordToJson (x.setNotes y)) k t.world)).1, { t with world := (Storage.flush E (Storage.setWorld E
      (Storage.passwordKey E x.id h) (Serde.passwordToJson (x.setNotes y)) k t.world)).2 }) := by
    rw [e]
    unfold Storage.setPassword
    rw [hid, onWorld_then_flush (Storage.set_eq E _ _ _ hl _)]
  simp only [after, run, e']
  refine ⟨v', reads_enc hP hl t.world _ _ (Serde.password_roundtrip _) h2, fun key => ?_, trivial, trivial, trivial⟩
  rw [flush_data, h1, Data.get?_insert, passwordKey_entry]

/-- **C106 (a password can get lost).** Somebody exchanges two passwords in the file.  When the owner then enters notes for the first, the
second is put back into its place and shown for both; the value of the first is no longer in the storage. -/
theorem C106_lost (hP : E.prims.Lawful) (p : Str) (s : PState) (ho : Opens E p s) (d : Data) (hd : FileIO.load s.world.disk = .ok d)
    (k h : Bytes) (hk : (opened E p s).key = some k) (hh : (opened E p s).hmacSecret = some h) (a n r a' n' r' : Str)
    (hna : ask E (opened E p s) (.getAlias a) ≠ .panic) (hna' : ask E (opened E p s) (.getAlias a') ≠ .panic)
    (hdiff : entryMeant E h (opened E p s) a n r ≠ entryMeant E h (opened E p s) a' n' r') (u v : Str) (x : Password)
    (hu : d.get? (entryMeant E h (opened E p s) a n r) = some u) (hv : d.get? (entryMeant E h (opened E p s) a' n' r') = some v)
    (hx : ReadsAs E.prims k Serde.passwordFromJson v x) (hid : x.id = ⟨siteMeant E (opened E p s) a', n', revisionOf r'⟩)
    (honce : ∀ key, d.get? key = some u → key = entryMeant E h (opened E p s) a n r)
    (s' : PState) (hs' : s'.world.disk = some (FileIO.contents (exchanged d (entryMeant E h (opened E p s) a n r)
      (entryMeant E h (opened E p s) a' n' r')))) (y : Str) :
    Opens E p s' ∧ (∀ z, ask E (opened E p s) (.get a' n' r') = .ok (.text z) →
      ask E (after E (opened E p s') (.setNotes a n r y)) (.get a n r) = .ok (.text z) ∧
      ask E (after E (opened E p s') (.setNotes a n r y)) (.get a' n' r') = .ok (.text z)) ∧
      ask E (after E (opened E p s') (.setNotes a n r y)) (.getNotes a n r) = .ok (.text x.notes) ∧
      ask E (after E (opened E p s') (.setNotes a n r y)) (.getNotes a' n' r') = .ok (.text y) ∧
      ∀ key w, (after E (opened E p s') (.setNotes a n r y)).world.data.get? key = some w →
        ReadsAs E.prims k Serde.passwordFromJson w (x.setNotes y) ∨ ∃ key', d.get? key' = some w ∧ w ≠ u := by
  obtain ⟨d0, salt, k0, h0, e1, e2, e3, e4, hlen, e5, e6, e7, hpp⟩ := opens_iff hP ho
  rw [hd] at e1
  cases e1
  rw [hk] at e6
  cases e6
  rw [hh] at e7
  cases e7
  generalize hX : entryMeant E h (opened E p s) a n r = X at *
  generalize hY : entryMeant E h (opened E p s) a' n' r' = Y at *
  obtain ⟨d', hl, hget⟩ := load_any (d := exchanged d X Y) (by rw [exchanged_keys]; exact load_nodup hd)
  have hl' : FileIO.load s'.world.disk = .ok d' := by rw [hs']; exact hl
  have hget' : ∀ key, d'.get? key = if key = X then some v else if key = Y then some u else d.get? key :=
    fun key => by rw [hget, exchanged_get? hu hv]
  obtain ⟨g1, g3, g2, -⟩ := passwords_changed hP p s s' ho d d' hd hl' h hh [X, Y]
    (by
      intro key hm
      simp only [List.mem_cons, List.not_mem_nil, or_false] at hm
      rcases hm with rfl | rfl
      · exact ⟨_, hX.symm⟩
      · exact ⟨_, hY.symm⟩)
    (by
      intro key hm
      simp only [List.mem_cons, List.not_mem_nil, or_false, not_or] at hm
      rw [hget', if_neg hm.1, if_neg hm.2])
  have hsalt : c!"salt" ≠ X ∧ c!"salt" ≠ Y := by
    constructor
    · rw [← hX]; unfold entryMeant; rw [← passwordKey_entry]; exact (Storage.passwordKey_ne_salt E _ _).symm
    · rw [← hY]; unfold entryMeant; rw [← passwordKey_entry]; exact (Storage.passwordKey_ne_salt E _ _).symm
  have hsec : c!"hmac-secret" ≠ X ∧ c!"hmac-secret" ≠ Y := by
    constructor
    · rw [← hX]; unfold entryMeant; rw [← passwordKey_entry]; exact (Storage.passwordKey_ne_hmac E _ _).symm
    · rw [← hY]; unfold entryMeant; rw [← passwordKey_entry]; exact (Storage.passwordKey_ne_hmac E _ _).symm
  obtain ⟨-, hkk, -⟩ := C90_unbound hP p s s' ho d d' hd hl' (by rw [hget', if_neg hsalt.1, if_neg hsalt.2])
    (by rw [hget', if_neg hsec.1, if_neg hsec.2])
  obtain ⟨_, _, k1, h1', _, _, _, _, _, _, hk1, hh1, hpp1⟩ := opens_iff hP g1
  have hk1' : k1 = k := by rw [hk, hk1] at hkk; cases hkk; rfl
  subst hk1'
  have hh1' : h1' = h := by rw [g3] at hh1; cases hh1; rfl
  subst hh1'
  have hmeant : ∀ x, siteMeant E (opened E p s') x = siteMeant E (opened E p s) x := fun x => by unfold siteMeant; rw [g2]
  have hdata := opened_data hP g1 hl'
  have hX' : entryMeant E h1' (opened E p s') a n r = X := by rw [← hX]; unfold entryMeant; rw [hmeant]
  have hY' : passwordEntry E.prims h1' x.id = Y := by rw [hid, ← hY]; rfl
  obtain ⟨v', hv', hafter, t1, t2, t3⟩ := C106_notes hP (opened E p s') k1 h1' hk1 hlen g3 a n r v y x (by rw [g2]; exact hna)
    (by rw [hX', hdata, hget', if_pos rfl]) hx
  rw [hY'] at hafter
  generalize hT : after E (opened E p s') (.setNotes a n r y) = T at *
  have hTk : T.key = some k1 := t1.trans hk1
  have hTh : T.hmacSecret = some h1' := t2.trans g3
  have hTp : T.primaryPassword = some p := t3.trans hpp1
  have hTalias : ∀ z, ask E T (.getAlias z) = ask E (opened E p s) (.getAlias z) := by
    intro z
    rw [← g2 z]
    simp only [ask, run, Passwords.getAlias, Passwords.secrets, hTk, hTh, hk1, g3, okOr_some, Res.bind_ok, Storage.getAlias,
      Storage.getSite, RepVault.normalizeSite_eq, siteKey_eq]
    rw [get_same Serde.siteFromJson (w := T.world) (w' := (opened E p s').world) (key' := siteEntry E.prims h1' (canonical z)) k1 (by
      rw [hafter, if_neg]
      rw [← hY]
      exact siteEntry_ne_meant _ _ _ _ _ _)]
  have hTmeant : ∀ z m q, passwordEntry E.prims h1' ⟨siteMeant E T z, m, revisionOf q⟩ = entryMeant E h1' (opened E p s) z m q := by
    intro z m q
    unfold entryMeant siteMeant
    rw [hTalias]
  have hTX : T.world.data.get? X = some v := by rw [hafter, if_neg hdiff, hdata, hget', if_pos rfl]
  have hTY : T.world.data.get? Y = some v' := by rw [hafter, if_pos rfl]
  obtain ⟨-, c2, c3, -⟩ := C56_get E T k1 h1' p hTk hlen hTh hTp a n r (by rw [hTalias]; exact hna)
  obtain ⟨-, c2', c3', -⟩ := C56_get E T k1 h1' p hTk hlen hTh hTp a' n' r' (by rw [hTalias]; exact hna')
  rw [hTmeant, hX] at c2 c3
  rw [hTmeant, hY] at c2' c3'
  refine ⟨g1, fun z hz => ?_, (c2 _).mpr ⟨v, x, hTX, hx, rfl⟩, (c2' _).mpr ⟨v', _, hTY, hv', by cases x <;> rfl⟩, fun key w hw => ?_⟩
  · obtain ⟨v0, x0, i1, i2, i3⟩ := ((C56_get E (opened E p s) k1 h1' p hk hlen hh hpp a' n' r' hna').2.2.1 z).mp hz
    have i1 : d.get? Y = some v0 := by rw [← hY, ← e2]; exact i1
    rw [hv] at i1
    cases i1
    obtain ⟨m, j1, j2⟩ := hx
    obtain ⟨m', j3, j4⟩ := i2
    rw [decrypts_unique hlen j3 j1, j2] at j4
    cases j4
    refine ⟨(c3 z).mpr ⟨v, x, hTX, ⟨m, j1, j2⟩, i3⟩, (c3' z).mpr ⟨v', _, hTY, hv', ?_⟩⟩
    cases x <;> exact i3
  · rw [hafter] at hw
    by_cases hk : key = Y
    · rw [if_pos hk] at hw
      cases hw
      exact .inl hv'
    · rw [if_neg hk, hdata, hget', if_neg hk] at hw
      by_cases hkx : key = X
      · rw [if_pos hkx] at hw
        cases hw
        exact .inr ⟨Y, hv, fun e => hdiff (honce Y (e ▸ hv)).symm⟩
      · rw [if_neg hkx] at hw
        exact .inr ⟨key, hw, fun e => hkx (honce key (e ▸ hw))⟩

/-! ## Examples -/

section Examples

theorem done_mono {G' : Op → Prop} (h : ∀ op, G op → G' op) {u : PState} (hu : Done E U G u) : Done E U G' u := by
  induction hu with
  | start h => exact .start h
  | meanwhile _ _ hm ih1 ih2 => exact .meanwhile ih1 ih2 hm
  | step _ op hg hop hreset ih => exact .step ih op (h op hg) hop hreset

/-- The operations of the owner of `swapped`, who enters notes afterwards. -/
def ownedLater : Op → Prop := fun op => owned op ∨ op = .setNotes (c!"a") (c!"u") [] (c!"z")

/-- A process with the changed file. -/
def laterOne : PState := opened Toy.env (c!"secret1") swapped

/-- The notes have been entered. -/
def laterTwo : PState := after Toy.env laterOne (.setNotes (c!"a") (c!"u") [] (c!"z"))

theorem laterOne_working : Working Toy.env (· = twoStored) ownedLater (c!"secret1") [laterOne] := by
  refine .file .start swapped_opens fun k key v nonce c m hk hv hc hm hl => ?_
  obtain ⟨u, key', v', g1, g2, g3, g4⟩ := swapped_noForgery k key v nonce c m hk hv hc hm hl
  exact ⟨u, key', v', .inl g1, g2, g3, g4⟩

theorem twoStored_later : ∀ u, u = twoStored → Done Toy.env Toy.univ ownedLater u := by
  rintro u rfl
  exact done_mono (fun _ => .inl) twoStored_done

theorem secret1_primary : Toy.univ.primary (c!"secret1") := by show _ ∈ Toy.primaries; decide

/-- Another process opens the file written. -/
theorem later_working : Working Toy.env (· = twoStored) ownedLater (c!"secret1")
    [opened Toy.env (c!"secret1") laterTwo, laterTwo, laterOne] :=
  (C106_saved Toy.env_lawful Toy.secure (· = twoStored) twoStored_later (c!"secret1") secret1_primary _ laterOne_working laterOne
    (by simp) (.setNotes (c!"a") (c!"u") [] (c!"z")) (.inr rfl) trivial rfl .unit (by decide +kernel)).2

/-- What the processes show has been entered by the owner. -/
example : ∃ a n r, ownedLater (.setNotes a n r (c!"z")) := by
  obtain ⟨-, h2, -⟩ := C106_genuine Toy.env_lawful Toy.secure (· = twoStored) twoStored_later (c!"secret1") secret1_primary _ later_working
    laterTwo (by simp)
  rcases h2 (c!"b") (c!"u") [] (c!"z") (by decide +kernel) with h | h
  · cases h
  · exact h

example : ∃ u k h, u = twoStored ∧ Unlocks Toy.env u (c!"secret1") k ∧
    (after Toy.env u (.unlock (c!"secret1"))).hmacSecret = some h ∧ Unlocks Toy.env laterTwo (c!"secret1") k ∧
    (after Toy.env laterTwo (.unlock (c!"secret1"))).hmacSecret = some h ∧
    (laterTwo.key = none ∧ laterTwo.hmacSecret = none ∧ laterTwo.primaryPassword = none ∨
      laterTwo.key = some k ∧ laterTwo.hmacSecret = some h ∧ laterTwo.primaryPassword = some (c!"secret1")) :=
  C106_secrets Toy.env_lawful Toy.secure (· = twoStored) twoStored_later (c!"secret1") secret1_primary _ later_working laterTwo (by simp)

/-- The key of the example. -/
def twoKey : Bytes := (opened Toy.env (c!"secret1") twoStored).key.getD []

/-- The hypotheses of `C106_lost`: after entering notes for `a` its password, `x`, is lost. -/
example : ask Toy.env laterTwo (.get (c!"a") (c!"u") []) = .ok (.text (c!"y")) ∧
    ask Toy.env laterTwo (.get (c!"b") (c!"u") []) = .ok (.text (c!"y")) := by
  have hlen : twoKey.length = 32 := by decide +kernel
  obtain ⟨v, hv, hx⟩ := (get_ok_iff (E := Toy.env) Serde.passwordFromJson (opened Toy.env (c!"secret1") twoStored).world
    (entryMeant Toy.env twoSecret (opened Toy.env (c!"secret1") twoStored) (c!"b") (c!"u") []) twoKey hlen
    (.stored ⟨⟨c!"b", c!"u", []⟩, c!"y", []⟩)).mp (by decide +kernel)
  have hone : ∀ e ∈ twoData, some e.2 = twoData.get? (entryMeant Toy.env twoSecret (opened Toy.env (c!"secret1") twoStored) (c!"a") (c!"u") []) →
      e.1 = entryMeant Toy.env twoSecret (opened Toy.env (c!"secret1") twoStored) (c!"a") (c!"u") [] := by decide +kernel
  have hsome : (twoData.get? (entryMeant Toy.env twoSecret (opened Toy.env (c!"secret1") twoStored) (c!"a") (c!"u") [])).isSome = true := by
    decide +kernel
  obtain ⟨u, hu⟩ := Option.isSome_iff_exists.mp hsome
  exact (C106_lost Toy.env_lawful.prims (c!"secret1") twoStored twoStored_opens twoData twoStored_load twoKey twoSecret (by decide +kernel)
    (by decide +kernel) (c!"a") (c!"u") [] (c!"b") (c!"u") [] (by decide +kernel) (by decide +kernel) (by decide +kernel) u v _ hu hv hx
    (by decide +kernel) (fun key h => hone (key, u) (Data.mem_of_get? h) hu.symm) swapped rfl (c!"z")).2.1 _ twoStored_values.2

end Examples

end Pfp.Props
