import Verif.Spec.Locality
import Verif.Proofs.Traces

/-!
# Proofs for C112: results depend only on the entries looked at
-/

namespace Pfp.Proofs.Locality
open Spec Proofs.Traces

variable {α β : Type} {E : Env} {K : Str → Prop}

/-- Storages that agree on the entries `K`. -/
structure Near (K : Str → Prop) (w w' : World) : Prop where
  rpos : w.rpos = w'.rpos
  fpos : w.fpos = w'.fpos
  data : ∀ k, K k → w.data.get? k = w'.data.get? k

/-- States that agree on the entries `K`. -/
structure NearP (K : Str → Prop) (u v : PState) : Prop where
  world : Near K u.world v.world
  key : u.key = v.key
  hmacSecret : u.hmacSecret = v.hmacSecret
  primaryPassword : u.primaryPassword = v.primaryPassword

/-- The same result, and agreement is kept. -/
def Both (K : Str → Prop) (x y : Res α × PState) : Prop := x.1 = y.1 ∧ NearP K x.2 y.2

def Par (K : Str → Prop) (m : M World α) : Prop := ∀ w w', Near K w w' → (m w).1 = (m w').1 ∧ Near K (m w).2 (m w').2

def ParP (K : Str → Prop) (m : M PState α) : Prop := ∀ u v, NearP K u v → Both K (m u) (m v)

theorem par_pure (a : α) : Par K (pure a : M World α) := fun _ _ h => ⟨rfl, h⟩
theorem par_lift (r : Res α) : Par K (M.lift r : M World α) := fun _ _ h => ⟨rfl, h⟩

theorem par_bind {m : M World α} {f : α → M World β} (hm : Par K m) (hf : ∀ a, Par K (f a)) : Par K (m >>= f) := by
  intro w w' h
  have := hm w w' h
  revert this
  rw [M.bind_apply, M.bind_apply]
  rcases m w with ⟨r, x⟩
  rcases m w' with ⟨r', x'⟩
  rintro ⟨h1, h2⟩
  dsimp only at h1
  subst h1
  cases r with
  | ok a => exact hf a _ _ h2
  | err e => exact ⟨rfl, h2⟩
  | panic => exact ⟨rfl, h2⟩

theorem parP_pure (a : α) : ParP K (pure a : M PState α) := fun _ _ h => ⟨rfl, h⟩
theorem parP_lift (r : Res α) : ParP K (M.lift r : M PState α) := fun _ _ h => ⟨rfl, h⟩

theorem parP_bind {m : M PState α} {f : α → M PState β} (hm : ParP K m) (hf : ∀ a, ParP K (f a)) : ParP K (m >>= f) := by
  intro w w' h
  have := hm w w' h
  revert this
  unfold Both
  rw [M.bind_apply, M.bind_apply]
  rcases m w with ⟨r, x⟩
  rcases m w' with ⟨r', x'⟩
  rintro ⟨h1, h2⟩
  dsimp only at h1
  subst h1
  cases r with
  | ok a => exact hf a _ _ h2
  | err e => exact ⟨rfl, h2⟩
  | panic => exact ⟨rfl, h2⟩

theorem parP_onWorld {m : M World α} (h : Par K m) : ParP K (Passwords.onWorld m) := by
  intro u v hn
  obtain ⟨h1, h2⟩ := h _ _ hn.world
  exact ⟨h1, h2, hn.key, hn.hmacSecret, hn.primaryPassword⟩

theorem par_gen (n : Nat) : Par K (FileIO.gen E n) := by
  intro w w' h
  refine ⟨?_, ?_, h.fpos, h.data⟩
  · show Res.ok (FileIO.randBytes E w.rpos n) = .ok (FileIO.randBytes E w'.rpos n)
    rw [h.rpos]
  · show w.rpos + n = w'.rpos + n
    rw [h.rpos]

theorem par_put (k v : Str) : Par K (FileIO.set k v) := by
  intro w w' h
  refine ⟨rfl, h.rpos, h.fpos, fun k' hk' => ?_⟩
  show (w.data.insert k v).get? k' = (w'.data.insert k v).get? k'
  rw [Data.get?_insert, Data.get?_insert, h.data k' hk']

theorem par_set (key : Str) (j : Json) (k : Bytes) : Par K (Storage.set E key j k) :=
  par_bind (par_bind (par_gen 12) fun _ => par_lift _) fun v => par_put key v

theorem contains_eq {w w' : World} (h : Near K w w') {k : Str} (hk : K k) : w.data.contains k = w'.data.contains k := by
  have := h.data k hk
  unfold Data.contains
  rw [this]

theorem par_remove (key : Str) (hk : K key) : Par K (Storage.remove key) := by
  intro w w' h
  unfold Storage.remove FileIO.remove
  rw [contains_eq h hk]
  split
  · refine ⟨rfl, h.rpos, h.fpos, fun k' hk' => ?_⟩
    show (w.data.erase key).get? k' = (w'.data.erase key).get? k'
    rw [Data.get?_erase, Data.get?_erase, h.data k' hk']
  · exact ⟨rfl, h⟩

theorem par_flush : Par K (Storage.flush E) := by
  intro w w' h
  have hd : ∀ x : World, (Storage.flush E x).2.data = x.data := fun x => flush_data E x
  have hr : ∀ x : World, (Storage.flush E x).2.rpos = x.rpos ∧ (Storage.flush E x).2.fpos = x.fpos + 1 := by
    intro x
    unfold Storage.flush FileIO.flush
    cases E.fs x.fpos <;> exact ⟨rfl, rfl⟩
  refine ⟨?_, ?_, ?_, ?_⟩
  · unfold Storage.flush FileIO.flush
    rw [h.fpos]
    cases E.fs w'.fpos <;> rfl
  · rw [(hr w).1, (hr w').1, h.rpos]
  · rw [(hr w).2, (hr w').2, h.fpos]
  · intro k hk
    rw [hd, hd, h.data k hk]

theorem get_eq {w w' : World} (h : Near K w w') {f : Json → Option α} {key : Str} (hk : K key) (e : Bytes) :
    Storage.get E w f key e = Storage.get E w' f key e := by
  unfold Storage.get FileIO.get
  rw [h.data key hk]

theorem par_ensure (site : Str) (h k : Bytes) (hk : K (Storage.siteKey E site h)) : Par K (Storage.ensureSiteData E site h k) := by
  intro w w' hn
  unfold Storage.ensureSiteData
  simp only [M.bind_apply, M.get_apply]
  rw [get_eq hn hk]
  cases Storage.get E w' Serde.siteFromJson (Storage.siteKey E site h) k with
  | err e => exact par_set _ _ _ _ _ hn
  | ok x => exact ⟨rfl, hn⟩
  | panic => exact ⟨rfl, hn⟩

theorem par_removeSites (h : Bytes) : ∀ l : List Str, (∀ site ∈ l, K (Storage.siteKey E site h)) →
    Par K (Passwords.removeSitesLoop E h l)
  | [], _ => par_pure _
  | site :: l, hl => par_bind (par_remove _ (hl site (by simp))) fun _ =>
      par_removeSites h l fun x hx => hl x (List.mem_cons_of_mem _ hx)

theorem secrets_eq' {u v : PState} (h : NearP K u v) : Passwords.secrets u = Passwords.secrets v := by
  unfold Passwords.secrets
  rw [h.hmacSecret, h.key]

theorem alias_eq {w w' : World} (h : Near K w w') {site : Str} {s k : Bytes} (hk : K (Storage.siteKey E site s)) :
    Storage.getAlias E w site s k = Storage.getAlias E w' site s k := by
  unfold Storage.getAlias Storage.getSite
  rw [get_eq h hk]

theorem resolve_eq {w w' : World} (h : Near K w w') {a : Str} {s k : Bytes} (hk : K (siteName E.prims s (canonical a))) :
    Storage.resolveSite E w a s k = Storage.resolveSite E w' a s k := by
  unfold Storage.resolveSite
  dsimp only
  rw [alias_eq h (by rw [RepVault.normalizeSite_eq]; exact hk)]

/-- Operations which look up the secrets and the site first. -/
theorem both_resolved {u v : PState} (hn : NearP K u v) {a : Str} {f : PState → Bytes → Bytes → Str → M PState Unit}
    (hK : ∀ h, u.hmacSecret = some h → K (siteName E.prims h (canonical a)))
    (hf : ∀ h key, u.hmacSecret = some h → Both K (f u h key (siteMeant E u a) u) (f v h key (siteMeant E u a) v)) :
    Both K ((do
      let s ← M.get
      let (hmacSecret, key) ← M.lift (Passwords.secrets s)
      let siteResolved ← M.lift (Storage.resolveSite E s.world a hmacSecret key)
      f s hmacSecret key siteResolved : M PState Unit) u) ((do
      let s ← M.get
      let (hmacSecret, key) ← M.lift (Passwords.secrets s)
      let siteResolved ← M.lift (Storage.resolveSite E s.world a hmacSecret key)
      f s hmacSecret key siteResolved : M PState Unit) v) := by
  simp only [M.bind_apply, M.get_apply, M.lift_apply]
  rw [← secrets_eq' hn]
  cases hs : Passwords.secrets u with
  | err e => exact ⟨rfl, hn⟩
  | panic => exact ⟨rfl, hn⟩
  | ok x =>
    obtain ⟨h, key⟩ := x
    dsimp only
    rw [← resolve_eq hn.world (hK h (secrets_ok hs))]
    cases hr : Storage.resolveSite E u.world a h key with
    | err e => exact ⟨rfl, hn⟩
    | panic => exact ⟨rfl, hn⟩
    | ok site =>
      dsimp only
      rw [resolve_meant hs hr]
      exact hf h key (secrets_ok hs)

theorem both_map {γ : Type} {x y : Res α × PState} (f : α → γ) (h : Both K x y) :
    Both K (x.1.map f, x.2) (y.1.map f, y.2) := ⟨by show x.1.map f = y.1.map f; rw [h.1], h.2⟩

theorem initialized_eq {u v : PState} (hn : NearP K u v) (h1 : K (c!"salt")) (h2 : K (c!"hmac-secret")) :
    Passwords.initialized u = Passwords.initialized v := by
  unfold Passwords.initialized Storage.initialized FileIO.containsKey
  rw [contains_eq hn.world (k := Storage.SALT_KEY) h1, contains_eq hn.world (k := Storage.HMAC_SECRET_KEY) h2]

theorem getSalt_eq {u v : PState} (hn : NearP K u v) (h1 : K (c!"salt")) : Storage.getSalt u.world = Storage.getSalt v.world := by
  unfold Storage.getSalt FileIO.get
  rw [hn.world.data Storage.SALT_KEY h1]

theorem unlock_both {u v : PState} (hn : NearP K u v) (h1 : K (c!"salt")) (h2 : K (c!"hmac-secret")) (p : Str) :
    Both K (Passwords.unlock E p u) (Passwords.unlock E p v) := by
  unfold Passwords.unlock
  simp only [M.bind_apply, M.get_apply, M.lift_apply]
  rw [← getSalt_eq hn h1]
  cases Storage.getSalt u.world with
  | err e => exact ⟨rfl, hn⟩
  | panic => exact ⟨rfl, hn⟩
  | ok salt =>
    dsimp only
    cases getEncryptionKey E.prims p salt with
    | err e => exact ⟨rfl, hn⟩
    | panic => exact ⟨rfl, hn⟩
    | ok key =>
      dsimp only
      have : Storage.getHmacSecret E u.world key = Storage.getHmacSecret E v.world key := by
        unfold Storage.getHmacSecret FileIO.get
        rw [hn.world.data Storage.HMAC_SECRET_KEY h2]
      rw [← this]
      cases Storage.getHmacSecret E u.world key with
      | err e => exact ⟨rfl, hn⟩
      | panic => exact ⟨rfl, hn⟩
      | ok secret => exact ⟨rfl, hn.world, rfl, rfl, rfl⟩

/-- The questions about one password look up the secrets and the site first. -/
theorem resolved_eq {u v : PState} (hn : NearP K u v) {a : Str} {f : PState → Bytes → Bytes → Str → Res α}
    (hK : ∀ h, u.hmacSecret = some h → K (siteName E.prims h (canonical a)))
    (hf : ∀ h key, u.hmacSecret = some h → f u h key (siteMeant E u a) = f v h key (siteMeant E u a)) :
    (do
      let (hmacSecret, key) ← Passwords.secrets u
      let siteResolved ← Storage.resolveSite E u.world a hmacSecret key
      f u hmacSecret key siteResolved : Res α) = (do
      let (hmacSecret, key) ← Passwords.secrets v
      let siteResolved ← Storage.resolveSite E v.world a hmacSecret key
      f v hmacSecret key siteResolved : Res α) := by
  rw [← secrets_eq' hn]
  cases hs : Passwords.secrets u with
  | err e => rfl
  | panic => rfl
  | ok x =>
    obtain ⟨h, key⟩ := x
    show (do let siteResolved ← Storage.resolveSite E u.world a h key; f u h key siteResolved : Res α) =
      (do let siteResolved ← Storage.resolveSite E v.world a h key; f v h key siteResolved : Res α)
    rw [← resolve_eq hn.world (hK h (secrets_ok hs))]
    cases hr : Storage.resolveSite E u.world a h key with
    | err e => rfl
    | panic => rfl
    | ok site =>
      show f u h key site = f v h key site
      rw [resolve_meant hs hr]
      exact hf h key (secrets_ok hs)

theorem getPassword_eq {u v : PState} (hn : NearP K u v) {site n r : Str} {h : Bytes} (hK : K (passwordName E.prims h site n r))
    (key : Bytes) : Storage.getPassword E u.world (.new site n r) h key = Storage.getPassword E v.world (.new site n r) h key := by
  unfold Storage.getPassword
  exact get_eq hn.world (by rw [← passwordName_eq]; exact hK) key

theorem get_both {u v : PState} (hn : NearP K u v) {a n r : Str} (hK : ∀ k, Needs E u (.get a n r) k → K k) :
    Passwords.get E u a n r = Passwords.get E v a n r := by
  unfold Passwords.get
  rw [← secrets_eq' hn]
  cases hs : Passwords.secrets u with
  | err e => rfl
  | panic => rfl
  | ok x =>
    obtain ⟨h, key⟩ := x
    simp only [Res.bind_ok]
    rw [← hn.primaryPassword]
    cases okOr u.primaryPassword Err.passwordsLocked with
    | err e => rfl
    | panic => rfl
    | ok pp =>
      simp only [Res.bind_ok]
      rw [← resolve_eq hn.world (hK _ ⟨h, secrets_ok hs, .inl rfl⟩)]
      cases hr : Storage.resolveSite E u.world a h key with
      | err e => rfl
      | panic => rfl
      | ok site =>
        simp only [Res.bind_ok]
        rw [resolve_meant hs hr, getPassword_eq hn (hK _ ⟨h, secrets_ok hs, .inr rfl⟩)]

theorem getNotes_both {u v : PState} (hn : NearP K u v) {a n r : Str} (hK : ∀ k, Needs E u (.getNotes a n r) k → K k) :
    Passwords.getNotes E u a n r = Passwords.getNotes E v a n r :=
  resolved_eq hn (f := fun s h key site => do
    let password ← Storage.getPassword E s.world (.new site n r) h key
    .ok password.notes) (fun h hh => hK _ ⟨h, hh, .inl rfl⟩) fun h key hh => by
      rw [getPassword_eq hn (hK _ ⟨h, hh, .inr rfl⟩)]

theorem has_both {u v : PState} (hn : NearP K u v) {a n r : Str} (hK : ∀ k, Needs E u (.has a n r) k → K k) :
    Passwords.has E u a n r = Passwords.has E v a n r :=
  resolved_eq hn (f := fun s h key site => .ok (Storage.hasPassword E s.world (.new site n r) h))
    (fun h hh => hK _ ⟨h, hh, .inl rfl⟩) fun h key hh => by
      unfold Storage.hasPassword Storage.contains FileIO.containsKey
      rw [contains_eq hn.world]
      rw [← passwordName_eq]
      exact hK _ ⟨h, hh, .inr rfl⟩

theorem getAlias_both {u v : PState} (hn : NearP K u v) {a : Str} (hK : ∀ k, Needs E u (.getAlias a) k → K k) :
    Passwords.getAlias E u a = Passwords.getAlias E v a := by
  unfold Passwords.getAlias
  rw [← secrets_eq' hn]
  cases hs : Passwords.secrets u with
  | err e => rfl
  | panic => rfl
  | ok x =>
    obtain ⟨h, key⟩ := x
    simp only [Res.bind_ok]
    exact alias_eq hn.world (by rw [RepVault.normalizeSite_eq]; exact hK _ ⟨h, secrets_ok hs, rfl⟩)

theorem run_both {u v : PState} (hn : NearP K u v) (op : Op) (hK : ∀ k, Needs E u op k → K k) (h1 : op ≠ .reload)
    (h2 : ∀ a b, op ≠ .setAlias a b) (h3 : ∀ a q, op ≠ .list a q) (h4 : ∀ q, op ≠ .listSites q) :
    Both K (run E op u) (run E op v) := by
  cases op with
  | reload => exact absurd rfl h1
  | setAlias a b => exact absurd rfl (h2 a b)
  | list a q => exact absurd rfl (h3 a q)
  | listSites q => exact absurd rfl (h4 q)
  | lock => exact ⟨rfl, hn.world, rfl, rfl, rfl⟩
  | unlocked => exact ⟨by show Res.ok (Out.bool u.key.isSome) = .ok (Out.bool v.key.isSome); rw [hn.key], hn⟩
  | initialized =>
    refine ⟨?_, hn⟩
    show Res.ok (Out.bool (Passwords.initialized u)) = .ok (Out.bool (Passwords.initialized v))
    rw [initialized_eq hn (hK _ (.inl rfl)) (hK _ (.inr rfl))]
  | unlock p => exact both_map _ (unlock_both hn (hK _ (.inl rfl)) (hK _ (.inr rfl)) p)
  | reset p =>
    refine both_map _ (?_ : Both K (Passwords.reset E p u) (Passwords.reset E p v))
    refine parP_bind (parP_onWorld (par_gen 16)) (fun salt => parP_bind (parP_lift _) fun key =>
      parP_bind (parP_onWorld (par_gen 32)) fun secret => parP_bind (parP_onWorld ?_) fun _ =>
      parP_bind (parP_onWorld par_flush) fun _ => fun u v h => ⟨rfl, h.world, rfl, rfl, rfl⟩) u v hn
    refine par_bind (fun w w' h => ⟨rfl, h.rpos, h.fpos, fun _ _ => rfl⟩) fun _ => par_bind (par_put _ _) fun _ =>
      par_bind (par_bind (par_gen 12) fun _ => par_lift _) fun v => par_put _ v
  | getAlias a => exact ⟨by show (Passwords.getAlias E u a).map Out.text = _; rw [getAlias_both hn hK]; rfl, hn⟩
  | has a n r => exact ⟨by show (Passwords.has E u a n r).map Out.bool = _; rw [has_both hn hK]; rfl, hn⟩
  | get a n r => exact ⟨by show (Passwords.get E u a n r).map Out.text = _; rw [get_both hn hK]; rfl, hn⟩
  | getNotes a n r => exact ⟨by show (Passwords.getNotes E u a n r).map Out.text = _; rw [getNotes_both hn hK]; rfl, hn⟩
  | getRecoveryCode q =>
    refine both_map _ (?_ : Both K (Passwords.getRecoveryCode E q u) (Passwords.getRecoveryCode E q v))
    unfold Passwords.getRecoveryCode
    simp only [M.bind_apply (m := M.get), M.get_apply, M.bind_apply (m := M.lift _), M.lift_apply]
    rw [← getSalt_eq hn (hK _ rfl), ← hn.key]
    cases Storage.getSalt u.world with
    | err e => exact ⟨rfl, hn⟩
    | panic => exact ⟨rfl, hn⟩
    | ok salt =>
      dsimp only
      cases okOr u.key Err.passwordsLocked with
      | err e => exact ⟨rfl, hn⟩
      | panic => exact ⟨rfl, hn⟩
      | ok key => exact parP_bind (parP_onWorld (par_gen 12)) (fun _ => parP_lift _) u v hn
  | removeAlias a =>
    refine both_map _ (?_ : Both K (Passwords.removeAlias E a u) (Passwords.removeAlias E a v))
    unfold Passwords.removeAlias
    simp only [M.bind_apply (m := M.get), M.get_apply, M.bind_apply (m := M.lift _), M.lift_apply]
    rw [← secrets_eq' hn]
    cases hs : Passwords.secrets u with
    | err e => exact ⟨rfl, hn⟩
    | panic => exact ⟨rfl, hn⟩
    | ok x =>
      obtain ⟨h, key⟩ := x
      dsimp only
      have hk : K (Storage.siteKey E (Storage.normalizeSite a) h) := by
        rw [RepVault.normalizeSite_eq]; exact hK _ ⟨h, secrets_ok hs, rfl⟩
      refine parP_bind (parP_onWorld fun w w' hw => ?_) (fun _ => parP_onWorld par_flush) u v hn
      unfold Storage.removeAlias
      simp only [M.bind_apply, M.get_apply, M.lift_apply]
      rw [get_eq hw hk]
      cases (Storage.get E w' Serde.siteFromJson (Storage.siteKey E (Storage.normalizeSite a) h) key).mapErr .noSuchAlias with
      | err e => exact ⟨rfl, hw⟩
      | panic => exact ⟨rfl, hw⟩
      | ok site =>
        dsimp only
        split
        · exact ⟨rfl, hw⟩
        · exact par_remove _ hk _ _ hw
  | removeSites l =>
    refine both_map _ (?_ : Both K (Passwords.removeSites E l u) (Passwords.removeSites E l v))
    unfold Passwords.removeSites
    split
    · exact ⟨rfl, hn⟩
    · simp only [M.bind_apply (m := M.get), M.get_apply, M.bind_apply (m := M.lift _), M.lift_apply]
      rw [← hn.hmacSecret]
      cases hs : u.hmacSecret with
      | none => exact ⟨rfl, hn⟩
      | some h =>
        exact parP_bind (parP_onWorld (par_removeSites h l fun site hm => hK _ ⟨h, hs, site, hm, rfl⟩))
          (fun _ => parP_onWorld par_flush) u v hn
  | setGenerated a n r len cs =>
    exact both_map _ (both_resolved hn (a := a) (f := fun _ h key site => do
      Passwords.onWorld (Storage.ensureSiteData E site h key)
      Passwords.onWorld (Storage.setGenerated E (.new site n r len cs) h key)
      Passwords.onWorld (Storage.flush E)) (fun h hh => hK _ ⟨h, hh, .inl rfl⟩) fun h key hh =>
        parP_bind (parP_onWorld (par_ensure _ h key (hK _ ⟨h, hh, .inr rfl⟩))) (fun _ =>
          parP_bind (parP_onWorld (par_set _ _ _)) fun _ => parP_onWorld par_flush) u v hn)
  | setStored a n r x =>
    exact both_map _ (both_resolved hn (a := a) (f := fun _ h key site => do
      Passwords.onWorld (Storage.ensureSiteData E site h key)
      Passwords.onWorld (Storage.setStored E (.new site n r x) h key)
      Passwords.onWorld (Storage.flush E)) (fun h hh => hK _ ⟨h, hh, .inl rfl⟩) fun h key hh =>
        parP_bind (parP_onWorld (par_ensure _ h key (hK _ ⟨h, hh, .inr rfl⟩))) (fun _ =>
          parP_bind (parP_onWorld (par_set _ _ _)) fun _ => parP_onWorld par_flush) u v hn)
  | setNotes a n r t =>
    refine both_map _ (both_resolved hn (a := a) (f := fun s h key site => do
      let password ← M.lift (Storage.getPassword E s.world (.new site n r) h key)
      Passwords.onWorld (Storage.setPassword E (password.setNotes t) h key)
      Passwords.onWorld (Storage.flush E)) (fun h hh => hK _ ⟨h, hh, .inl rfl⟩) fun h key hh => ?_)
    rw [← getPassword_eq hn (hK _ ⟨h, hh, .inr rfl⟩)]
    exact parP_bind (parP_lift _) (fun _ => parP_bind (parP_onWorld (par_set _ _ _)) fun _ => parP_onWorld par_flush) u v hn
  | remove a n r =>
    exact both_map _ (both_resolved hn (a := a) (f := fun _ h key site => do
      Passwords.onWorld (Storage.removePassword E (.new site n r) h)
      Passwords.onWorld (Storage.flush E)) (fun h hh => hK _ ⟨h, hh, .inl rfl⟩) fun h key hh =>
        parP_bind (parP_onWorld (par_remove _ (by rw [← passwordName_eq]; exact hK _ ⟨h, hh, .inr rfl⟩)))
          (fun _ => parP_onWorld par_flush) u v hn)

/-! ## Listings -/

theorem mem_keys (hE : E.Lawful) (w : World) (k : Str) : k ∈ FileIO.keys E w ↔ w.data.get? k ≠ none := by
  have hp : (FileIO.keys E w).Perm (w.data.map (·.1)) := (hE.order w.epoch w.data).map _
  rw [hp.mem_iff, Ne, Data.lookup_eq_none]
  simp only [List.mem_map, not_forall, not_not]
  constructor
  · rintro ⟨e, h1, h2⟩; exact ⟨e, h1, h2⟩
  · rintro ⟨e, h1, h2⟩; exact ⟨e, h1, h2⟩

theorem collect_filter (w : World) (f : Json → Option α) (sel : Str → Bool) (key : Bytes) : ∀ l : List Str,
    Storage.collect E w f sel key l = Storage.collect E w f (fun _ => true) key (l.filter sel)
  | [] => rfl
  | k :: l => by
    by_cases h : sel k = true
    · rw [List.filter_cons_of_pos h]
      simp only [Storage.collect, h, if_true]
      rw [collect_filter w f sel key l]
    · rw [List.filter_cons_of_neg h]
      simp only [Storage.collect, if_neg h]
      exact collect_filter w f sel key l

theorem collect_near {w w' : World} (hw : Near K w w') (f : Json → Option α) (key : Bytes) : ∀ l : List Str, (∀ k ∈ l, K k) →
    Storage.collect E w f (fun _ => true) key l = Storage.collect E w' f (fun _ => true) key l
  | [], _ => rfl
  | k :: l, h => by
    simp only [Storage.collect, if_true]
    rw [get_eq hw (h k (by simp)), collect_near hw f key l fun k hk => h k (List.mem_cons_of_mem _ hk)]

/-- Both not a result, or both a list with the same items. -/
def PermRes : Res (List α) → Res (List α) → Prop
  | .ok l, .ok l' => l.Perm l'
  | .panic, .panic => True
  | _, _ => False

theorem permRes_cons {x : Res (Option α)} (hx : ∀ e, x ≠ .err e) {r r' : Res (List α)} (h : PermRes r r') :
    PermRes (do let v ← x; let tail ← r; .ok (v.toList ++ tail)) (do let v ← x; let tail ← r'; .ok (v.toList ++ tail)) := by
  cases x with
  | err e => exact absurd rfl (hx e)
  | panic => trivial
  | ok v =>
    cases r <;> cases r' <;> first | exact h.elim | trivial | exact List.Perm.append_left _ h

theorem toOption_err (r : Res α) : ∀ e, r.toOption? ≠ .err e := by
  intro e; cases r <;> simp [Res.toOption?]

theorem permRes_refl {r : Res (List α)} (h : ∀ e, r ≠ .err e) : PermRes r r := by
  cases r with
  | ok l => exact List.Perm.refl l
  | err e => exact absurd rfl (h e)
  | panic => trivial

theorem permRes_trans {r r' r'' : Res (List α)} (h : PermRes r r') (h' : PermRes r' r'') : PermRes r r'' := by
  cases r <;> cases r' <;> cases r'' <;> first | exact h.elim | exact h'.elim | trivial | exact List.Perm.trans h h'

theorem collect_err (w : World) (f : Json → Option α) (key : Bytes) : ∀ (l : List Str) (e : Err),
    Storage.collect E w f (fun _ => true) key l ≠ .err e
  | [], e => by simp [Storage.collect]
  | k :: l, e => by
    simp only [Storage.collect, if_true]
    have h1 := toOption_err (Storage.get E w f k key)
    have h2 := collect_err w f key l
    revert h1 h2
    cases (Storage.get E w f k key).toOption? <;> cases Storage.collect E w f (fun _ => true) key l <;> intro h1 h2 <;>
      first | exact absurd rfl (h1 _) | exact absurd rfl (h2 _) | (intro h; cases h)

theorem collect_perm (w : World) (f : Json → Option α) (key : Bytes) {l l' : List Str} (h : l.Perm l') :
    PermRes (Storage.collect E w f (fun _ => true) key l) (Storage.collect E w f (fun _ => true) key l') := by
  induction h with
  | nil => exact List.Perm.refl _
  | cons k h ih =>
    simp only [Storage.collect, if_true]
    exact permRes_cons (toOption_err _) ih
  | swap a b l =>
    simp only [Storage.collect, if_true]
    have h1 := toOption_err (Storage.get E w f a key)
    have h2 := toOption_err (Storage.get E w f b key)
    have h3 := collect_err (E := E) w f key l
    revert h1 h2 h3
    cases (Storage.get E w f a key).toOption? <;> cases (Storage.get E w f b key).toOption? <;>
      cases Storage.collect E w f (fun _ => true) key l <;> intro h1 h2 h3 <;>
      first
      | exact absurd rfl (h1 _)
      | exact absurd rfl (h2 _)
      | exact absurd rfl (h3 _)
      | trivial
      | (show List.Perm _ _
         simp only [← List.append_assoc]
         exact List.Perm.append_right _ List.perm_append_comm)
  | trans _ _ ih ih' => exact permRes_trans ih ih'

theorem filter_keys_perm (hE : E.Lawful) {w w' : World} (hw : Near K w w') (hd : Distinct w) (hd' : Distinct w') (sel : Str → Bool)
    (hs : ∀ k, sel k = true → K k) : ((FileIO.keys E w).filter sel).Perm ((FileIO.keys E w').filter sel) := by
  have hnd : ∀ x : World, Distinct x → (FileIO.keys E x).Nodup := fun x h => ((hE.order x.epoch x.data).map _).nodup_iff.mpr h
  rw [List.perm_ext_iff_of_nodup ((hnd w hd).filter _) ((hnd w' hd').filter _)]
  intro k
  simp only [List.mem_filter, mem_keys hE]
  constructor
  · rintro ⟨h1, h2⟩; exact ⟨by rw [← hw.data k (hs k h2)]; exact h1, h2⟩
  · rintro ⟨h1, h2⟩; exact ⟨by rw [hw.data k (hs k h2)]; exact h1, h2⟩

theorem collect_both (hE : E.Lawful) {w w' : World} (hw : Near K w w') (hd : Distinct w) (hd' : Distinct w') (f : Json → Option α)
    (sel : Str → Bool) (hs : ∀ k, sel k = true → K k) (key : Bytes) :
    PermRes (Storage.collect E w f sel key (FileIO.keys E w)) (Storage.collect E w' f sel key (FileIO.keys E w')) := by
  rw [collect_filter w, collect_filter w', ← collect_near hw f key ((FileIO.keys E w').filter sel)
    fun k hk => hs k (List.mem_filter.mp hk).2]
  exact collect_perm w f key (filter_keys_perm hE hw hd hd' sel hs)

theorem prefix_iff (p k : Str) : p.isPrefixOf k = true ↔ ∃ rest, k = p ++ rest := by
  rw [List.isPrefixOf_iff_prefix]
  constructor
  · rintro ⟨t, rfl⟩; exact ⟨t, rfl⟩
  · rintro ⟨t, rfl⟩; exact ⟨t, rfl⟩

theorem list_both (hE : E.Lawful) {u v : PState} (hn : NearP K u v) (hd : Distinct u.world) (hd' : Distinct v.world) (a q : Str)
    (hK : ∀ k, Needs E u (.list a q) k → K k) : SameUpToOrder (ask E u (.list a q)) (ask E v (.list a q)) := by
  simp only [ask, run, Passwords.list]
  rw [← hn.key, ← hn.hmacSecret]
  cases hk : u.key with
  | none => rfl
  | some key =>
    cases hh : u.hmacSecret with
    | none => rfl
    | some h =>
      simp only [Passwords.orPanic, Res.bind_ok]
      have hs : Passwords.secrets u = .ok (h, key) := by simp [Passwords.secrets, hk, hh, okOr]
      rw [← resolve_eq hn.world (hK _ ⟨h, hh, .inl rfl⟩)]
      cases hr : Storage.resolveSite E u.world a h key with
      | err e => rfl
      | panic => rfl
      | ok site =>
        simp only [Res.bind_ok]
        rw [resolve_meant hs hr]
        have := collect_both hE hn.world hd hd' Serde.passwordFromJson (Storage.sitePrefix E (siteMeant E u a) h).isPrefixOf
          (fun k hk => hK _ ⟨h, hh, .inr ((prefix_iff _ k).mp hk)⟩) key
        unfold Storage.listPasswords
        revert this
        cases Storage.collect E u.world Serde.passwordFromJson (Storage.sitePrefix E (siteMeant E u a) h).isPrefixOf key
            (FileIO.keys E u.world) <;>
          cases Storage.collect E v.world Serde.passwordFromJson (Storage.sitePrefix E (siteMeant E u a) h).isPrefixOf key
            (FileIO.keys E v.world) <;> intro h' <;>
          first | exact h'.elim | rfl | exact List.Perm.filter _ h'

theorem listSites_both (hE : E.Lawful) {u v : PState} (hn : NearP K u v) (hd : Distinct u.world) (hd' : Distinct v.world) (q : Str)
    (hK : ∀ k, Needs E u (.listSites q) k → K k) : SameUpToOrder (ask E u (.listSites q)) (ask E v (.listSites q)) := by
  simp only [ask, run, Passwords.listSites]
  rw [← hn.key]
  cases hk : u.key with
  | none => rfl
  | some key =>
    simp only [Passwords.orPanic, Res.bind_ok]
    have := collect_both hE hn.world hd hd' Serde.siteFromJson Storage.isSiteKey (fun k hk => by
      unfold Storage.isSiteKey at hk
      rw [Bool.and_eq_true] at hk
      obtain ⟨rest, rfl⟩ := (prefix_iff _ k).mp hk.1
      refine hK _ ⟨rest, rfl, ?_⟩
      have := hk.2
      simpa [Storage.STORAGE_PREFIX] using this) key
    unfold Storage.listSites
    revert this
    cases Storage.collect E u.world Serde.siteFromJson Storage.isSiteKey key (FileIO.keys E u.world) <;>
      cases Storage.collect E v.world Serde.siteFromJson Storage.isSiteKey key (FileIO.keys E v.world) <;> intro h' <;>
      first | exact h'.elim | rfl | exact List.Perm.filter _ h'

/-! ## Setting an alias -/

theorem first_some (w : World) (f : Json → Option α) (sel : Str → Bool) (key : Bytes) : ∀ (l : List Str) (o : Option α),
    Storage.first E w f sel key l = .ok o →
    (o.isSome = true ↔ ∃ k ∈ l, sel k = true ∧ ∃ x, Storage.get E w f k key = .ok x)
  | [], o, h => by cases h; simp
  | k :: l, o, h => by
    unfold Storage.first at h
    by_cases hs : sel k = true
    · rw [if_pos hs] at h
      cases hg : Storage.get E w f k key with
      | ok x =>
        rw [hg] at h
        cases h
        simp only [Option.isSome_some, true_iff]
        exact ⟨k, by simp, hs, x, hg⟩
      | err e =>
        rw [hg] at h
        rw [first_some w f sel key l o h]
        constructor
        · rintro ⟨k', h1, h2⟩; exact ⟨k', List.mem_cons_of_mem _ h1, h2⟩
        · rintro ⟨k', h1, h2, x, h3⟩
          rcases List.mem_cons.mp h1 with rfl | h1
          · rw [hg] at h3; cases h3
          · exact ⟨k', h1, h2, x, h3⟩
      | panic => rw [hg] at h; cases h
    · rw [if_neg hs] at h
      rw [first_some w f sel key l o h]
      constructor
      · rintro ⟨k', h1, h2⟩; exact ⟨k', List.mem_cons_of_mem _ h1, h2⟩
      · rintro ⟨k', h1, h2, x, h3⟩
        rcases List.mem_cons.mp h1 with rfl | h1
        · exact absurd h2 hs
        · exact ⟨k', h1, h2, x, h3⟩

theorem first_err (w : World) (f : Json → Option α) (sel : Str → Bool) (key : Bytes) : ∀ (l : List Str) (e : Err),
    Storage.first E w f sel key l ≠ .err e
  | [], e => by simp [Storage.first]
  | k :: l, e => by
    unfold Storage.first
    by_cases hs : sel k = true
    · rw [if_pos hs]
      cases hg : Storage.get E w f k key with
      | ok x => intro h; cases h
      | err e' => exact first_err w f sel key l e
      | panic => intro h; cases h
    · rw [if_neg hs]; exact first_err w f sel key l e

theorem first_both (hE : E.Lawful) {w w' : World} (hw : Near K w w') {f : Json → Option α} {sel : Str → Bool}
    (hs : ∀ k, sel k = true → K k) {key : Bytes} {o o' : Option α} (h : Storage.first E w f sel key (FileIO.keys E w) = .ok o)
    (h' : Storage.first E w' f sel key (FileIO.keys E w') = .ok o') : o.isSome = o'.isSome := by
  rw [Bool.eq_iff_iff, first_some w f sel key _ o h, first_some w' f sel key _ o' h']
  simp only [mem_keys hE]
  constructor
  · rintro ⟨k, h1, h2, x, h3⟩
    exact ⟨k, by rw [← hw.data k (hs k h2)]; exact h1, h2, x, by rw [← get_eq hw (hs k h2)]; exact h3⟩
  · rintro ⟨k, h1, h2, x, h3⟩
    exact ⟨k, by rw [hw.data k (hs k h2)]; exact h1, h2, x, by rw [get_eq hw (hs k h2)]; exact h3⟩

theorem setAlias_both (hE : E.Lawful) {u v : PState} (hn : NearP K u v) (a b : Str) (hK : ∀ k, Needs E u (.setAlias a b) k → K k)
    (hu : ask E u (.setAlias a b) ≠ .panic) (hv : ask E v (.setAlias a b) ≠ .panic) :
    Both K (run E (.setAlias a b) u) (run E (.setAlias a b) v) := by
  refine both_map _ (?_ : Both K (Passwords.setAlias E a b u) (Passwords.setAlias E a b v))
  have hu' : (Passwords.setAlias E a b u).1 ≠ .panic := fun h => hu (by simp only [ask, run, h]; rfl)
  have hv' : (Passwords.setAlias E a b v).1 ≠ .panic := fun h => hv (by simp only [ask, run, h]; rfl)
  revert hu' hv'
  unfold Passwords.setAlias
  simp only [M.bind_apply (m := M.get), M.get_apply, M.bind_apply (m := M.lift _), M.lift_apply]
  rw [← secrets_eq' hn]
  cases hs : Passwords.secrets u with
  | err e => exact fun _ _ => ⟨rfl, hn⟩
  | panic => exact fun _ _ => ⟨rfl, hn⟩
  | ok x =>
    obtain ⟨h, key⟩ := x
    dsimp only
    rw [← resolve_eq hn.world (hK _ ⟨h, secrets_ok hs, .inl rfl⟩)]
    cases Storage.resolveSite E u.world b h key with
    | err e => exact fun _ _ => ⟨rfl, hn⟩
    | panic => exact fun _ _ => ⟨rfl, hn⟩
    | ok site =>
      dsimp only
      have hsel : ∀ k, (Storage.sitePrefix E (Storage.normalizeSite a) h).isPrefixOf k = true → K k := fun k hk => by
        refine hK _ ⟨h, secrets_ok hs, .inr ?_⟩
        rw [RepVault.normalizeSite_eq] at hk
        exact (prefix_iff _ k).mp hk
      have he := first_err (E := E) u.world Serde.passwordFromJson (Storage.sitePrefix E (Storage.normalizeSite a) h).isPrefixOf key
        (FileIO.keys E u.world)
      have he' := first_err (E := E) v.world Serde.passwordFromJson (Storage.sitePrefix E (Storage.normalizeSite a) h).isPrefixOf key
        (FileIO.keys E v.world)
      unfold Storage.firstPassword
      cases h1 : Storage.first E u.world Serde.passwordFromJson (Storage.sitePrefix E (Storage.normalizeSite a) h).isPrefixOf key
          (FileIO.keys E u.world) with
      | err e => exact absurd h1 (he e)
      | panic => exact fun h _ => absurd rfl h
      | ok o =>
        cases h2 : Storage.first E v.world Serde.passwordFromJson (Storage.sitePrefix E (Storage.normalizeSite a) h).isPrefixOf key
            (FileIO.keys E v.world) with
        | err e => exact absurd h2 (he' e)
        | panic => exact fun _ h => absurd rfl h
        | ok o' =>
          intro _ _
          dsimp only
          rw [first_both hE hn.world hsel h1 h2]
          split
          · exact ⟨rfl, hn⟩
          · refine parP_bind (parP_onWorld ?_) (fun _ => parP_onWorld par_flush) u v hn
            unfold Storage.setAlias
            split
            · exact par_lift _
            · exact par_set _ _ _

end Pfp.Proofs.Locality
