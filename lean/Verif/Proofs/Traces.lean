import Verif.Spec.Traces
import Verif.Proofs.Effects

/-!
# Which entries an operation concerns (C109)
-/

namespace Pfp.Proofs.Traces

open Spec

variable {α β : Type} {E : Env} {P : Str → Prop}

/-- Entries not meant by `P` stay. -/
def Spares (P : Str → Prop) (m : M World α) : Prop := ∀ w k, ¬P k → (m w).2.data.get? k = w.data.get? k

theorem spares_pure (a : α) : Spares P (pure a : M World α) := fun _ _ _ => rfl
theorem spares_lift (r : Res α) : Spares P (M.lift r : M World α) := fun _ _ _ => rfl
theorem spares_get : Spares P (M.get : M World World) := fun _ _ _ => rfl

theorem spares_bind {m : M World α} {f : α → M World β} (hm : Spares P m) (hf : ∀ a, Spares P (f a)) : Spares P (m >>= f) := by
  intro w k hk
  rw [M.bind_apply]
  have := hm w k hk
  revert this
  rcases m w with ⟨r, w'⟩
  intro this
  cases r with
  | ok a => exact (hf a w' k hk).trans this
  | err e => exact this
  | panic => exact this

theorem spares_set (key : Str) (j : Json) (k : Bytes) (h : P key) : Spares P (Storage.set E key j k) := by
  refine spares_bind (spares_bind (fun _ _ _ => rfl) fun _ => spares_lift _) fun v w k' hk' => ?_
  show (w.data.insert key v).get? k' = _
  rw [Data.get?_insert, if_neg (by rintro rfl; exact hk' h)]

theorem spares_remove (key : Str) (h : P key) : Spares P (Storage.remove key) := by
  intro w k' hk'
  unfold Storage.remove FileIO.remove
  split
  · show (w.data.erase key).get? k' = _
    rw [Data.get?_erase, if_neg (by rintro rfl; exact hk' h)]
  · rfl

theorem spares_flush : Spares P (Storage.flush E) := fun w k _ => by rw [flush_data]

theorem spares_ensure (site : Str) (h k : Bytes) (hk : P (Storage.siteKey E site h)) : Spares P (Storage.ensureSiteData E site h k) := by
  unfold Storage.ensureSiteData
  refine spares_bind spares_get fun w => ?_
  cases Storage.get E w Serde.siteFromJson (Storage.siteKey E site h) k with
  | err e => exact spares_set _ _ _ hk
  | ok x => exact spares_pure _
  | panic => exact spares_lift _

theorem spares_removeSites (h : Bytes) : ∀ l : List Str, (∀ site ∈ l, P (Storage.siteKey E site h)) →
    Spares P (Passwords.removeSitesLoop E h l)
  | [], _ => spares_pure _
  | site :: l, hl => spares_bind (spares_remove _ (hl site (by simp))) fun _ =>
      spares_removeSites h l fun x hx => hl x (List.mem_cons_of_mem _ hx)

theorem after_world {m : M World α} (u : PState) (k : Str) (h : Spares P m) (hk : ¬P k) :
    (Passwords.onWorld m u).2.world.data.get? k = u.world.data.get? k := h u.world k hk

theorem spares_onWorld {m : M World Unit} {f : Unit → M PState Unit} (u : PState) (k : Str) (hm : Spares P m) (hk : ¬P k)
    (hf : ∀ v, (f () v).2.world.data.get? k = v.world.data.get? k) :
    ((Passwords.onWorld m >>= f) u).2.world.data.get? k = u.world.data.get? k := by
  rw [M.bind_apply]
  have := after_world u k hm hk
  revert this
  rcases Passwords.onWorld m u with ⟨r, u'⟩
  intro this
  cases r with
  | ok a => exact (hf u').trans this
  | err e => exact this
  | panic => exact this

theorem flushed (u : PState) (k : Str) : (Passwords.onWorld (Storage.flush E) u).2.world.data.get? k = u.world.data.get? k :=
  after_world (P := fun _ => False) u k spares_flush (fun h => h)

theorem siteName_eq (h : Bytes) (site : Str) : siteName E.prims h site = Storage.siteKey E site h := rfl

theorem passwordName_eq (h : Bytes) (site n r : Str) :
    passwordName E.prims h site n r = Storage.passwordKey E (PasswordId.new site n r) h := by
  have e : (PasswordId.new site n r) = ⟨site, n, revisionOf r⟩ := by
    unfold PasswordId.new revisionOf
    by_cases hr : r = c!"1"
    · rw [if_neg (by simp [hr]), if_pos hr]
    · rw [if_pos hr, if_neg hr]
  rw [e]
  show siteName E.prims h site ++ [':'] ++ Base64.encode _ = _
  unfold Storage.passwordKey Storage.sitePrefix Crypto.getDigest
  dsimp only
  have : site ++ ['\x00'] ++ n ++ ['\x00'] ++ revisionOf r = site ++ Char.ofNat 0 :: (n ++ Char.ofNat 0 :: revisionOf r) := by simp
  rw [this]
  rfl

/-- What is resolved is what is meant. -/
theorem resolve_meant {u : PState} {h k : Bytes} (hs : Passwords.secrets u = .ok (h, k)) {a site : Str}
    (hr : Storage.resolveSite E u.world a h k = .ok site) : site = siteMeant E u a := by
  unfold siteMeant
  simp only [ask, run, Passwords.getAlias, hs, Res.bind_ok]
  revert hr
  unfold Storage.resolveSite
  dsimp only
  cases Storage.getAlias E u.world (Storage.normalizeSite a) h k with
  | ok t => intro hr; cases hr; rfl
  | err e => intro hr; cases hr; exact RepVault.normalizeSite_eq a
  | panic => intro hr; cases hr

theorem secrets_ok {u : PState} {x : Bytes × Bytes} (h : Passwords.secrets u = .ok x) : u.hmacSecret = some x.1 := by
  unfold Passwords.secrets at h
  cases hh : u.hmacSecret with
  | none => rw [hh] at h; cases h
  | some v =>
    cases hk : u.key with
    | none => rw [hh, hk] at h; cases h
    | some w => rw [hh, hk] at h; cases h; rfl

/-- A password or a site's passwords: operations which look up the secrets and the site first. -/
theorem spares_resolved {u : PState} {a : Str} {f : Bytes → Bytes → Str → M PState Unit} {k : Str}
    (hf : ∀ h key, Passwords.secrets u = .ok (h, key) → u.hmacSecret = some h →
      (f h key (siteMeant E u a) u).2.world.data.get? k = u.world.data.get? k) :
    ((do
      let s ← M.get
      let (hmacSecret, key) ← M.lift (Passwords.secrets s)
      let siteResolved ← M.lift (Storage.resolveSite E s.world a hmacSecret key)
      f hmacSecret key siteResolved : M PState Unit) u).2.world.data.get? k = u.world.data.get? k := by
  simp only [M.bind_apply, M.get_apply, M.lift_apply]
  cases hs : Passwords.secrets u with
  | err e => rfl
  | panic => rfl
  | ok x =>
    obtain ⟨h, key⟩ := x
    dsimp only
    cases hr : Storage.resolveSite E u.world a h key with
    | err e => rfl
    | panic => rfl
    | ok site =>
      dsimp only
      rw [resolve_meant hs hr]
      exact hf h key hs (secrets_ok hs)

/-- Setting a password. -/
theorem spares_put {u : PState} {h key : Bytes} {site n r k : Str} {m : M World Unit}
    (hk : ¬(k = siteName E.prims h site ∨ k = passwordName E.prims h site n r))
    (hm : Spares (fun x => x = siteName E.prims h site ∨ x = passwordName E.prims h site n r) m) :
    ((do
      Passwords.onWorld (Storage.ensureSiteData E site h key)
      Passwords.onWorld m
      Passwords.onWorld (Storage.flush E) : M PState Unit) u).2.world.data.get? k = u.world.data.get? k :=
  spares_onWorld (P := fun x => x = siteName E.prims h site ∨ x = passwordName E.prims h site n r) u k
    (spares_ensure site h key (.inl (siteName_eq h site).symm)) hk fun v => spares_onWorld v k hm hk fun v' => flushed v' k

/-- Setting a password of a known site. -/
theorem spares_put_known {u : PState} {h key : Bytes} {site n r k : Str} {m : M World Unit} {x : Site}
    (hx : Storage.get E u.world Serde.siteFromJson (Storage.siteKey E site h) key = .ok x)
    (hk : k ≠ passwordName E.prims h site n r) (hm : Spares (fun x => x = passwordName E.prims h site n r) m) :
    ((do
      Passwords.onWorld (Storage.ensureSiteData E site h key)
      Passwords.onWorld m
      Passwords.onWorld (Storage.flush E) : M PState Unit) u).2.world.data.get? k = u.world.data.get? k := by
  have : Passwords.onWorld (Storage.ensureSiteData E site h key) u = (.ok (), u) := by
    unfold Passwords.onWorld Storage.ensureSiteData
    simp only [M.bind_apply, M.get_apply, hx, M.pure_apply]
  rw [M.bind_apply, this]
  exact spares_onWorld u k hm hk fun v => flushed v k

/-- Only the entries meant by an operation change, whatever the storage and whatever happens. -/
theorem spares_run (u : PState) (op : Op) (k : Str) (hk : ¬Touches E u op k) (hn : ∀ a n r t, op ≠ .setNotes a n r t) :
    (run E op u).2.world.data.get? k = u.world.data.get? k := by
  cases op with
  | setNotes a n r t => exact absurd rfl (hn a n r t)
  | reset p => exact absurd trivial hk
  | reload => exact absurd trivial hk
  | setStored a n r v =>
    refine spares_resolved (a := a) (f := fun h key site => do
      Passwords.onWorld (Storage.ensureSiteData E site h key)
      Passwords.onWorld (Storage.setStored E (.new site n r v) h key)
      Passwords.onWorld (Storage.flush E)) fun h key hs hh => ?_
    refine spares_put (r := r) (n := n) (fun hk' => hk ⟨h, hh, hk'⟩) ?_
    exact spares_set _ _ _ (.inr (passwordName_eq h _ n r).symm)
  | setGenerated a n r len cs =>
    refine spares_resolved (a := a) (f := fun h key site => do
      Passwords.onWorld (Storage.ensureSiteData E site h key)
      Passwords.onWorld (Storage.setGenerated E (.new site n r len cs) h key)
      Passwords.onWorld (Storage.flush E)) fun h key hs hh => ?_
    refine spares_put (r := r) (n := n) (fun hk' => hk ⟨h, hh, hk'⟩) ?_
    exact spares_set _ _ _ (.inr (passwordName_eq h _ n r).symm)
  | remove a n r =>
    refine spares_resolved (a := a) (f := fun h key site => do
      Passwords.onWorld (Storage.removePassword E (.new site n r) h)
      Passwords.onWorld (Storage.flush E)) fun h key hs hh => ?_
    exact spares_onWorld (P := fun x => x = passwordName E.prims h (siteMeant E u a) n r) u k
      (spares_remove _ (passwordName_eq h _ n r).symm) (fun hk' => hk ⟨h, hh, hk'⟩) fun v => flushed v k
  | setAlias a t =>
    show (Passwords.setAlias E a t u).2.world.data.get? k = _
    unfold Passwords.setAlias
    simp only [M.bind_apply, M.get_apply, M.lift_apply]
    cases hs : Passwords.secrets u with
    | err e => rfl
    | panic => rfl
    | ok x =>
      obtain ⟨h, key⟩ := x
      dsimp only
      cases Storage.resolveSite E u.world t h key with
      | err e => rfl
      | panic => rfl
      | ok site =>
        dsimp only
        cases Storage.firstPassword E u.world (Storage.normalizeSite a) h key with
        | err e => rfl
        | panic => rfl
        | ok first =>
          dsimp only
          split
          · rfl
          · refine spares_onWorld (P := fun x => x = siteName E.prims h (canonical a)) u k ?_
              (fun hk' => hk ⟨h, secrets_ok hs, hk'⟩) fun v => flushed v k
            unfold Storage.setAlias
            split
            · exact spares_lift _
            · exact spares_set _ _ _ (by rw [RepVault.normalizeSite_eq]; rfl)
  | removeAlias a =>
    show (Passwords.removeAlias E a u).2.world.data.get? k = _
    unfold Passwords.removeAlias
    simp only [M.bind_apply, M.get_apply, M.lift_apply]
    cases hs : Passwords.secrets u with
    | err e => rfl
    | panic => rfl
    | ok x =>
      obtain ⟨h, key⟩ := x
      dsimp only
      refine spares_onWorld (P := fun x => x = siteName E.prims h (canonical a)) u k ?_
        (fun hk' => hk ⟨h, secrets_ok hs, hk'⟩) fun v => flushed v k
      unfold Storage.removeAlias
      refine spares_bind spares_get fun w => spares_bind (spares_lift _) fun x => ?_
      split
      · exact spares_lift _
      · exact spares_remove _ (by rw [RepVault.normalizeSite_eq]; rfl)
  | removeSites l =>
    show (Passwords.removeSites E l u).2.world.data.get? k = _
    unfold Passwords.removeSites
    split
    · rfl
    · simp only [M.bind_apply, M.get_apply, M.lift_apply]
      cases hh : u.hmacSecret with
      | none => rfl
      | some h =>
        simp only [okOr]
        exact spares_onWorld (P := fun x => ∃ site ∈ l, x = siteName E.prims h site) u k
          (spares_removeSites h l fun site hs => ⟨site, hs, rfl⟩) (fun hk' => hk ⟨h, hh, hk'⟩) fun v => flushed v k
  | unlock p =>
    show (Passwords.unlock E p u).2.world.data.get? k = _
    unfold Passwords.unlock
    simp only [M.bind_apply, M.get_apply, M.lift_apply]
    cases Storage.getSalt u.world with
    | err e => rfl
    | panic => rfl
    | ok salt =>
      dsimp only
      cases getEncryptionKey E.prims p salt with
      | err e => rfl
      | panic => rfl
      | ok key =>
        dsimp only
        cases Storage.getHmacSecret E u.world key with
        | err e => rfl
        | panic => rfl
        | ok h => rfl
  | getRecoveryCode q =>
    show (Passwords.getRecoveryCode E q u).2.world.data.get? k = _
    unfold Passwords.getRecoveryCode
    simp only [M.bind_apply, M.get_apply, M.lift_apply]
    cases Storage.getSalt u.world with
    | err e => rfl
    | panic => rfl
    | ok salt =>
      dsimp only
      cases okOr u.key .passwordsLocked with
      | err e => rfl
      | panic => rfl
      | ok key => rfl
  | _ => rfl

end Pfp.Proofs.Traces
