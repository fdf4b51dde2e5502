import Verif.Spec.Generic

/-! # The generic library -/

namespace Pfp.Generic
open Pfp Spec

/-! ## With `FileIO` it is the library of the model -/

section File
variable (E : Env)

theorem collect_file {γ : Type} (w : World) (f : Json → Option γ) (sel : Str → Bool) (k : Bytes) :
    ∀ l, Storage.collect (FileIO.io E) E w f sel k l = Pfp.Storage.collect E w f sel k l
  | [] => rfl
  | x :: l => by
    unfold Storage.collect Pfp.Storage.collect
    rw [collect_file w f sel k l]
    rfl

theorem first_file {γ : Type} (w : World) (f : Json → Option γ) (sel : Str → Bool) (k : Bytes) :
    ∀ l, Storage.first (FileIO.io E) E w f sel k l = Pfp.Storage.first E w f sel k l
  | [] => rfl
  | x :: l => by
    unfold Storage.first Pfp.Storage.first
    rw [first_file w f sel k l]
    rfl

theorem removeSitesLoop_file (h : Bytes) :
    ∀ l, Passwords.removeSitesLoop (FileIO.io E) E h l = Pfp.Passwords.removeSitesLoop E h l
  | [] => rfl
  | x :: l => by
    unfold Passwords.removeSitesLoop Pfp.Passwords.removeSitesLoop
    rw [removeSitesLoop_file h l]
    rfl

theorem removeSites_file (l : List Str) : Passwords.removeSites (FileIO.io E) E l = Pfp.Passwords.removeSites E l := by
  unfold Passwords.removeSites Pfp.Passwords.removeSites
  simp only [removeSitesLoop_file]
  rfl

theorem setAlias_file (x y : Str) : Passwords.setAlias (FileIO.io E) E x y = Pfp.Passwords.setAlias E x y := by
  have : ∀ w site h k, Storage.firstPassword (FileIO.io E) E w site h k = Pfp.Storage.firstPassword E w site h k :=
    fun w site h k => first_file ..
  unfold Passwords.setAlias Pfp.Passwords.setAlias
  simp only [this]
  rfl

theorem list_file (s : PState) (x n : Str) : Passwords.list (FileIO.io E) E s x n = Pfp.Passwords.list E s x n := by
  have : ∀ w site h k, Storage.listPasswords (FileIO.io E) E w site h k = Pfp.Storage.listPasswords E w site h k :=
    fun w site h k => collect_file ..
  unfold Passwords.list Pfp.Passwords.list
  simp only [this]
  rfl

theorem listSites_file (s : PState) (x : Str) : Passwords.listSites (FileIO.io E) E s x = Pfp.Passwords.listSites E s x := by
  have : ∀ w k, Storage.listSites (FileIO.io E) E w k = Pfp.Storage.listSites E w k := fun w k => collect_file ..
  unfold Passwords.listSites Pfp.Passwords.listSites
  simp only [this]
  rfl

theorem runOn_file (op : Op) (h : op ≠ .reload) (s : PState) : runOn (FileIO.io E) E op s = run E op s := by
  cases op with
  | reload => exact absurd rfl h
  | setAlias x y => unfold runOn run; dsimp only; rw [setAlias_file]
  | removeSites l => unfold runOn run; dsimp only; rw [removeSites_file]
  | list x n => unfold runOn run; dsimp only; rw [list_file]
  | listSites x => unfold runOn run; dsimp only; rw [listSites_file]
  | _ => rfl

end File

/-! ## With accesses that agree it is the same -/

section Agree
variable {σ τ α β : Type} {I : StorageIO σ} {J : StorageIO τ} {R : σ → τ → Prop} {E : Env}

theorem same_pure (a : α) : Same R (pure a : M σ α) (pure a : M τ α) := fun _ _ h => ⟨rfl, h⟩

theorem same_lift (r : Res α) : Same R (M.lift r : M σ α) (M.lift r : M τ α) := fun _ _ h => ⟨rfl, h⟩

theorem same_bind {m : M σ α} {m' : M τ α} {f : α → M σ β} {f' : α → M τ β} (h : Same R m m')
    (hf : ∀ x, Same R (f x) (f' x)) : Same R (m >>= f) (m' >>= f') := by
  intro a b hab
  obtain ⟨h1, h2⟩ := h a b hab
  rw [M.bind_apply, M.bind_apply]
  cases hm : m a with
  | mk r a' =>
    cases hm' : m' b with
    | mk r' b' =>
      rw [hm, hm'] at h1 h2
      dsimp only at h1 h2
      subst h1
      cases r with
      | ok x => exact hf x a' b' h2
      | err e => exact ⟨rfl, h2⟩
      | panic => exact ⟨rfl, h2⟩

theorem same_get {f : σ → M σ β} {f' : τ → M τ β} (h : ∀ a b, R a b → Same R (f a) (f' b)) :
    Same R (M.get >>= f) (M.get >>= f') := fun a b hab => h a b hab a b hab

theorem same_if {c : Prop} [Decidable c] {m n : M σ α} {m' n' : M τ α} (h : Same R m m') (h' : Same R n n') :
    Same R (if c then m else n) (if c then m' else n') := by
  split
  · exact h
  · exact h'

variable (hA : Agree I J R)
include hA

theorem get_agree {γ : Type} {a : σ} {b : τ} (h : R a b) (f : Json → Option γ) (k : Str) (e : Bytes) :
    Storage.get I E a f k e = Storage.get J E b f k e := by
  unfold Storage.get
  rw [hA.get a b h]

theorem getSalt_agree {a : σ} {b : τ} (h : R a b) : Storage.getSalt I a = Storage.getSalt J b := by
  unfold Storage.getSalt
  rw [hA.get a b h]

theorem getHmacSecret_agree {a : σ} {b : τ} (h : R a b) (e : Bytes) :
    Storage.getHmacSecret I E a e = Storage.getHmacSecret J E b e := by
  unfold Storage.getHmacSecret
  rw [hA.get a b h]

theorem getAlias_agree {a : σ} {b : τ} (h : R a b) (x : Str) (s k : Bytes) :
    Storage.getAlias I E a x s k = Storage.getAlias J E b x s k := by
  unfold Storage.getAlias Storage.getSite
  rw [get_agree hA h]

theorem resolveSite_agree {a : σ} {b : τ} (h : R a b) (x : Str) (s k : Bytes) :
    Storage.resolveSite I E a x s k = Storage.resolveSite J E b x s k := by
  unfold Storage.resolveSite
  dsimp only
  rw [getAlias_agree hA h]

theorem getPassword_agree {a : σ} {b : τ} (h : R a b) (i : PasswordId) (s k : Bytes) :
    Storage.getPassword I E a i s k = Storage.getPassword J E b i s k := get_agree hA h _ _ _

theorem collect_agree {γ : Type} {a : σ} {b : τ} (h : R a b) (f : Json → Option γ) (sel : Str → Bool) (k : Bytes) :
    ∀ l, Storage.collect I E a f sel k l = Storage.collect J E b f sel k l
  | [] => rfl
  | x :: l => by
    unfold Storage.collect
    rw [collect_agree h f sel k l, get_agree hA h]

theorem first_agree {γ : Type} {a : σ} {b : τ} (h : R a b) (f : Json → Option γ) (sel : Str → Bool) (k : Bytes) :
    ∀ l, Storage.first I E a f sel k l = Storage.first J E b f sel k l
  | [] => rfl
  | x :: l => by
    unfold Storage.first
    rw [first_agree h f sel k l, get_agree hA h]

theorem set_agree (k : Str) (v : Json) (e : Bytes) : Same R (Storage.set I E k v e) (Storage.set J E k v e) :=
  same_bind (same_bind (hA.gen 12) fun _ => same_lift _) fun _ => hA.set _ _

theorem clear_agree (salt secret key : Bytes) : Same R (Storage.clear I E salt secret key) (Storage.clear J E salt secret key) :=
  same_bind hA.clear fun _ => same_bind (hA.set _ _) fun _ =>
    same_bind (same_bind (hA.gen 12) fun _ => same_lift _) fun _ => hA.set _ _

theorem ensureSiteData_agree (x : Str) (s k : Bytes) :
    Same R (Storage.ensureSiteData I E x s k) (Storage.ensureSiteData J E x s k) := by
  unfold Storage.ensureSiteData
  refine same_get fun a b h => ?_
  rw [get_agree hA h]
  cases Storage.get J E b Serde.siteFromJson (Pfp.Storage.siteKey E x s) k with
  | ok v => exact same_pure _
  | err e => exact set_agree hA _ _ _
  | panic => exact same_lift _

theorem setAlias_agree (x y : Str) (s k : Bytes) : Same R (Storage.setAlias I E x y s k) (Storage.setAlias J E x y s k) :=
  same_if (same_lift _) (set_agree hA _ _ _)

theorem removeAlias_agree (x : Str) (s k : Bytes) : Same R (Storage.removeAlias I E x s k) (Storage.removeAlias J E x s k) := by
  unfold Storage.removeAlias
  refine same_get fun a b h => ?_
  rw [get_agree hA h]
  exact same_bind (same_lift _) fun _ => same_if (same_lift _) (hA.remove _)

theorem removeSitesLoop_agree (s : Bytes) :
    ∀ l, Same R (Passwords.removeSitesLoop I E s l) (Passwords.removeSitesLoop J E s l)
  | [] => same_pure _
  | _ :: l => same_bind (hA.remove _) fun _ => removeSitesLoop_agree s l

omit hA in
theorem same_onWorld {m : M σ α} {m' : M τ α} (h : Same R m m') :
    Same (Alongside R) (Passwords.onWorld m) (Passwords.onWorld m') := by
  intro s t ⟨h1, h2⟩
  obtain ⟨g1, g2⟩ := h s.world t.world h1
  exact ⟨g1, g2, h2⟩

omit hA in
theorem secrets_agree {s : PStateOf σ} {t : PStateOf τ} (h : Alongside R s t) : Passwords.secrets s = Passwords.secrets t := by
  unfold Passwords.secrets
  rw [h.2.1, h.2.2.1]

omit hA in
theorem same_unlocked (k h : Bytes) (p : Str) : Same (Alongside R)
    (M.modify fun s => { s with key := some k, hmacSecret := some h, primaryPassword := some p })
    (M.modify fun s => { s with key := some k, hmacSecret := some h, primaryPassword := some p }) :=
  fun _ _ hs => ⟨rfl, hs.1, rfl, rfl, rfl⟩

theorem flush_agree : Same (Alongside R) (Passwords.onWorld (Storage.flush I)) (Passwords.onWorld (Storage.flush J)) :=
  same_onWorld hA.flush

theorem reset_agree (p : Str) : Same (Alongside R) (Passwords.reset I E p) (Passwords.reset J E p) :=
  same_bind (same_onWorld (hA.gen 16)) fun _ => same_bind (same_lift _) fun _ => same_bind (same_onWorld (hA.gen 32)) fun _ =>
    same_bind (same_onWorld (clear_agree hA _ _ _)) fun _ => same_bind (flush_agree hA) fun _ => same_unlocked _ _ _

theorem unlock_agree (p : Str) : Same (Alongside R) (Passwords.unlock I E p) (Passwords.unlock J E p) := by
  unfold Passwords.unlock
  refine same_get fun s t h => ?_
  rw [getSalt_agree hA h.1]
  refine same_bind (same_lift _) fun salt => same_bind (same_lift _) fun key => ?_
  rw [getHmacSecret_agree hA h.1]
  exact same_bind (same_lift _) fun _ => same_unlocked _ _ _

theorem set_alias_agree (x y : Str) : Same (Alongside R) (Passwords.setAlias I E x y) (Passwords.setAlias J E x y) := by
  unfold Passwords.setAlias
  refine same_get fun s t h => ?_
  rw [secrets_agree h]
  refine same_bind (same_lift _) fun q => ?_
  obtain ⟨a, k⟩ := q
  dsimp only
  rw [resolveSite_agree hA h.1]
  refine same_bind (same_lift _) fun _ => ?_
  unfold Storage.firstPassword
  rw [hA.keys _ _ h.1, first_agree hA h.1]
  exact same_bind (same_lift _) fun _ => same_if (same_lift _) (same_bind (same_onWorld (setAlias_agree hA _ _ _ _))
    fun _ => flush_agree hA)

theorem remove_alias_agree (x : Str) : Same (Alongside R) (Passwords.removeAlias I E x) (Passwords.removeAlias J E x) := by
  unfold Passwords.removeAlias
  refine same_get fun s t h => ?_
  rw [secrets_agree h]
  refine same_bind (same_lift _) fun q => ?_
  exact same_bind (same_onWorld (removeAlias_agree hA _ _ _)) fun _ => flush_agree hA

theorem removeSites_agree (l : List Str) : Same (Alongside R) (Passwords.removeSites I E l) (Passwords.removeSites J E l) := by
  unfold Passwords.removeSites
  refine same_if (same_pure _) (same_get fun s t h => ?_)
  rw [h.2.2.1]
  exact same_bind (same_lift _) fun _ => same_bind (same_onWorld (removeSitesLoop_agree hA _ _)) fun _ => flush_agree hA

theorem setGenerated_agree (a n r : Str) (len : UInt64) (cs : CharacterSet) :
    Same (Alongside R) (Passwords.setGenerated I E a n r len cs) (Passwords.setGenerated J E a n r len cs) := by
  unfold Passwords.setGenerated
  refine same_get fun s t h => ?_
  rw [secrets_agree h]
  refine same_bind (same_lift _) fun q => ?_
  obtain ⟨x, k⟩ := q
  dsimp only
  rw [resolveSite_agree hA h.1]
  exact same_bind (same_lift _) fun _ => same_bind (same_onWorld (ensureSiteData_agree hA _ _ _)) fun _ =>
    same_bind (same_onWorld (set_agree hA _ _ _)) fun _ => flush_agree hA

theorem setStored_agree (a n r v : Str) :
    Same (Alongside R) (Passwords.setStored I E a n r v) (Passwords.setStored J E a n r v) := by
  unfold Passwords.setStored
  refine same_get fun s t h => ?_
  rw [secrets_agree h]
  refine same_bind (same_lift _) fun q => ?_
  obtain ⟨x, k⟩ := q
  dsimp only
  rw [resolveSite_agree hA h.1]
  exact same_bind (same_lift _) fun _ => same_bind (same_onWorld (ensureSiteData_agree hA _ _ _)) fun _ =>
    same_bind (same_onWorld (set_agree hA _ _ _)) fun _ => flush_agree hA

theorem setNotes_agree (a n r v : Str) :
    Same (Alongside R) (Passwords.setNotes I E a n r v) (Passwords.setNotes J E a n r v) := by
  unfold Passwords.setNotes
  refine same_get fun s t h => ?_
  rw [secrets_agree h]
  refine same_bind (same_lift _) fun q => ?_
  obtain ⟨x, k⟩ := q
  dsimp only
  rw [resolveSite_agree hA h.1]
  refine same_bind (same_lift _) fun _ => ?_
  rw [getPassword_agree hA h.1]
  exact same_bind (same_lift _) fun _ => same_bind (same_onWorld (set_agree hA _ _ _)) fun _ => flush_agree hA

theorem remove_agree (a n r : Str) : Same (Alongside R) (Passwords.remove I E a n r) (Passwords.remove J E a n r) := by
  unfold Passwords.remove
  refine same_get fun s t h => ?_
  rw [secrets_agree h]
  refine same_bind (same_lift _) fun q => ?_
  obtain ⟨x, k⟩ := q
  dsimp only
  rw [resolveSite_agree hA h.1]
  exact same_bind (same_lift _) fun _ => same_bind (same_onWorld (hA.remove _)) fun _ => flush_agree hA

theorem getRecoveryCode_agree (z : StoredPassword) :
    Same (Alongside R) (Passwords.getRecoveryCode I E z) (Passwords.getRecoveryCode J E z) := by
  unfold Passwords.getRecoveryCode
  refine same_get fun s t h => ?_
  rw [getSalt_agree hA h.1, h.2.1]
  exact same_bind (same_lift _) fun _ => same_bind (same_lift _) fun _ => same_bind (same_onWorld (hA.gen 12)) fun _ => same_lift _

theorem runOn_agree (op : Op) : Same (Alongside R) (runOn I E op) (runOn J E op) := by
  have hu : ∀ {γ : Type} (f : γ → Out) {m : M (PStateOf σ) γ} {m' : M (PStateOf τ) γ}, Same (Alongside R) m m' →
      Same (Alongside R) (fun s => ((m s).1.map f, (m s).2) : M (PStateOf σ) Out) (fun t => ((m' t).1.map f, (m' t).2)) := by
    intro γ f m m' h s t hst
    obtain ⟨h1, h2⟩ := h s t hst
    exact ⟨by show (m s).1.map f = (m' t).1.map f; rw [h1], h2⟩
  have hq : ∀ {γ : Type} (f : γ → Out) {q : PStateOf σ → Res γ} {q' : PStateOf τ → Res γ},
      (∀ s t, Alongside R s t → q s = q' t) →
      Same (Alongside R) (fun s => ((q s).map f, s) : M (PStateOf σ) Out) (fun t => ((q' t).map f, t)) := by
    intro γ f q q' h s t hst
    exact ⟨by show (q s).map f = (q' t).map f; rw [h s t hst], hst⟩
  cases op with
  | reset p => exact hu _ (reset_agree hA p)
  | unlock p => exact hu _ (unlock_agree hA p)
  | lock => exact fun s t h => ⟨rfl, h.1, rfl, rfl, rfl⟩
  | reload => exact fun s t h => ⟨rfl, h⟩
  | setAlias a b => exact hu _ (set_alias_agree hA a b)
  | removeAlias a => exact hu _ (remove_alias_agree hA a)
  | removeSites l => exact hu _ (removeSites_agree hA l)
  | setGenerated a n r len cs => exact hu _ (setGenerated_agree hA a n r len cs)
  | setStored a n r v => exact hu _ (setStored_agree hA a n r v)
  | setNotes a n r v => exact hu _ (setNotes_agree hA a n r v)
  | remove a n r => exact hu _ (remove_agree hA a n r)
  | getRecoveryCode z => exact hu _ (getRecoveryCode_agree hA z)
  | initialized =>
    intro s t h
    refine ⟨?_, h⟩
    show Res.ok (Out.bool (I.containsKey s.world _ && I.containsKey s.world _)) = _
    rw [hA.containsKey _ _ h.1, hA.containsKey _ _ h.1]
    rfl
  | unlocked =>
    intro s t h
    refine ⟨?_, h⟩
    show Res.ok (Out.bool s.key.isSome) = _
    rw [h.2.1]
    rfl
  | getAlias a =>
    refine hq _ fun s t h => ?_
    unfold Passwords.getAlias
    rw [secrets_agree h]
    simp only [getAlias_agree hA h.1]
  | has a n r =>
    refine hq _ fun s t h => ?_
    unfold Passwords.has Storage.hasPassword Storage.contains
    rw [secrets_agree h]
    simp only [resolveSite_agree hA h.1, hA.containsKey _ _ h.1]
  | get a n r =>
    refine hq _ fun s t h => ?_
    unfold Passwords.get
    rw [secrets_agree h, h.2.2.2]
    simp only [resolveSite_agree hA h.1, getPassword_agree hA h.1]
  | getNotes a n r =>
    refine hq _ fun s t h => ?_
    unfold Passwords.getNotes
    rw [secrets_agree h]
    simp only [resolveSite_agree hA h.1, getPassword_agree hA h.1]
  | list a p =>
    refine hq _ fun s t h => ?_
    unfold Passwords.list Storage.listPasswords
    rw [h.2.1, h.2.2.1, hA.keys _ _ h.1]
    simp only [resolveSite_agree hA h.1, collect_agree hA h.1]
  | listSites p =>
    refine hq _ fun s t h => ?_
    unfold Passwords.listSites Storage.listSites
    rw [h.2.1, hA.keys _ _ h.1]
    simp only [collect_agree hA h.1]

end Agree

end Pfp.Generic
