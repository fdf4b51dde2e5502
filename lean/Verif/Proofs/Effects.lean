import Verif.Proofs.Keep

/-!
# The effect of each operation on a reachable unlocked state, and operations that fail
-/

namespace Pfp

open Spec

/-! ## Failing operations, in every state -/

section Failing
variable {σ α β : Type} {E : Env}

/-- Errors other than write errors leave the state as it was. -/
def Careful (m : M σ α) : Prop := ∀ s e, (m s).1 = .err e → ¬WriteError e → (m s).2 = s

/-- Only write errors occur. -/
def OnlyWrite (m : M σ α) : Prop := ∀ s e, (m s).1 = .err e → WriteError e

theorem OnlyWrite.careful {m : M σ α} (h : OnlyWrite m) : Careful m := fun s e he hw => absurd (h s e he) hw

theorem careful_lift (r : Res α) : Careful (M.lift r : M σ α) := fun _ _ _ _ => rfl

theorem careful_get_bind {f : σ → M σ β} (h : ∀ a, Careful (f a)) : Careful (M.get >>= f) := by
  intro s e
  rw [M.bind_apply]
  exact h s s e

theorem careful_lift_bind {r : Res α} {f : α → M σ β} (h : ∀ a, Careful (f a)) : Careful (M.lift r >>= f) := by
  intro s e
  rw [M.bind_apply]
  cases r with
  | ok a => exact h a s e
  | err e' => exact fun _ _ => rfl
  | panic => exact fun _ _ => rfl

theorem careful_then {m : M σ α} {f : α → M σ β} (hm : Careful m) (hf : ∀ a, OnlyWrite (f a)) : Careful (m >>= f) := by
  intro s e
  rw [M.bind_apply]
  have := hm s
  revert this
  cases m s with
  | mk r s' =>
    intro this
    cases r with
    | ok a => exact fun he hw => absurd (hf a s' e he) hw
    | err e' =>
      intro he hw
      simp only [Res.err.injEq] at he
      subst he
      exact this _ rfl hw
    | panic => exact fun he => by cases he

theorem onlyWrite_then {m : M σ α} {f : α → M σ β} (hm : OnlyWrite m) (hf : ∀ a, OnlyWrite (f a)) :
    OnlyWrite (m >>= f) := by
  intro s e
  rw [M.bind_apply]
  have := hm s
  revert this
  cases m s with
  | mk r s' =>
    intro this
    cases r with
    | ok a => exact fun he => hf a s' e he
    | err e' =>
      intro he
      simp only [Res.err.injEq] at he
      subst he
      exact this _ rfl
    | panic => exact fun he => by cases he

theorem careful_onWorld {m : M World α} (h : Careful m) : Careful (Passwords.onWorld m) := by
  intro s e he hw
  have := h s.world e he hw
  show { s with world := (m s.world).2 } = s
  rw [this]

theorem onlyWrite_onWorld {m : M World α} (h : OnlyWrite m) : OnlyWrite (Passwords.onWorld m) :=
  fun s e he => h s.world e he

theorem flush_onlyWrite (E : Env) : OnlyWrite (Storage.flush E) := by
  intro w e
  unfold Storage.flush FileIO.flush
  simp only
  split <;> simp only [Res.err.injEq, reduceCtorEq, false_implies]
  all_goals (rintro rfl; trivial)

theorem gen_onlyWrite (E : Env) (n : Nat) : OnlyWrite (FileIO.gen E n) := by
  intro w e he; cases he

theorem encryptData_noErr (P : Prims) (nonce value k : Bytes) (e : Err) : Crypto.encryptData P nonce value k ≠ .err e := by
  unfold Crypto.encryptData
  split <;> simp

theorem set_onlyWrite (E : Env) (key : Str) (j : Json) (k : Bytes) : OnlyWrite (Storage.set E key j k) := by
  apply onlyWrite_then
  · apply onlyWrite_then (gen_onlyWrite E 12)
    intro nonce w e he
    exact absurd he (encryptData_noErr _ _ _ _ _)
  · intro a w e he; cases he

theorem ensureSiteData_onlyWrite (E : Env) (site : Str) (h k : Bytes) : OnlyWrite (Storage.ensureSiteData E site h k) := by
  unfold Storage.ensureSiteData
  intro w e
  rw [M.bind_apply]
  simp only [M.get_apply]
  cases Storage.get E w Serde.siteFromJson (Storage.siteKey E site h) k with
  | err _ => exact set_onlyWrite E _ _ _ w e
  | ok _ => intro he; cases he
  | panic => intro he; cases he

theorem remove_careful (key : Str) : Careful (Storage.remove key) := by
  intro w e
  unfold Storage.remove FileIO.remove
  split
  · intro he; cases he
  · exact fun _ _ => rfl

theorem flush_onWorld (E : Env) : ∀ _ : Unit, OnlyWrite (Passwords.onWorld (Storage.flush E)) :=
  fun _ => onlyWrite_onWorld (flush_onlyWrite E)

theorem setAlias_careful (E : Env) (a b : Str) : Careful (Passwords.setAlias E a b) := by
  unfold Passwords.setAlias
  refine careful_get_bind fun s => careful_lift_bind fun x => careful_lift_bind fun r => careful_lift_bind fun o => ?_
  split
  · exact careful_lift _
  · refine careful_then (careful_onWorld ?_) (flush_onWorld E)
    unfold Storage.setAlias
    split
    · exact careful_lift _
    · exact (set_onlyWrite E _ _ _).careful

theorem removeAlias_careful (E : Env) (a : Str) : Careful (Passwords.removeAlias E a) := by
  unfold Passwords.removeAlias
  refine careful_get_bind fun s => careful_lift_bind fun x => careful_then (careful_onWorld ?_) (flush_onWorld E)
  unfold Storage.removeAlias
  refine careful_get_bind fun w => careful_lift_bind fun x => ?_
  split
  · exact careful_lift _
  · exact remove_careful _

theorem setGenerated_careful (E : Env) (a n r : Str) (len : UInt64) (cs : CharacterSet) :
    Careful (Passwords.setGenerated E a n r len cs) := by
  unfold Passwords.setGenerated
  refine careful_get_bind fun s => careful_lift_bind fun x => careful_lift_bind fun t => OnlyWrite.careful ?_
  exact onlyWrite_then (onlyWrite_onWorld (ensureSiteData_onlyWrite E _ _ _)) fun _ =>
    onlyWrite_then (onlyWrite_onWorld (set_onlyWrite E _ _ _)) (flush_onWorld E)

theorem setStored_careful (E : Env) (a n r v : Str) : Careful (Passwords.setStored E a n r v) := by
  unfold Passwords.setStored
  refine careful_get_bind fun s => careful_lift_bind fun x => careful_lift_bind fun t => OnlyWrite.careful ?_
  exact onlyWrite_then (onlyWrite_onWorld (ensureSiteData_onlyWrite E _ _ _)) fun _ =>
    onlyWrite_then (onlyWrite_onWorld (set_onlyWrite E _ _ _)) (flush_onWorld E)

theorem setNotes_careful (E : Env) (a n r v : Str) : Careful (Passwords.setNotes E a n r v) := by
  unfold Passwords.setNotes
  refine careful_get_bind fun s => careful_lift_bind fun x => careful_lift_bind fun t => careful_lift_bind fun q =>
    OnlyWrite.careful ?_
  exact onlyWrite_then (onlyWrite_onWorld (set_onlyWrite E _ _ _)) (flush_onWorld E)

theorem remove_passwords_careful (E : Env) (a n r : Str) : Careful (Passwords.remove E a n r) := by
  unfold Passwords.remove
  refine careful_get_bind fun s => careful_lift_bind fun x => careful_lift_bind fun t => ?_
  exact careful_then (careful_onWorld (remove_careful _)) (flush_onWorld E)

theorem unlock_careful (E : Env) (p : Str) : Careful (Passwords.unlock E p) := by
  unfold Passwords.unlock
  refine careful_get_bind fun s => careful_lift_bind fun x => careful_lift_bind fun t => careful_lift_bind fun q => ?_
  intro s e he; cases he

theorem getEncryptionKey_noErr (P : Prims) (p : Str) (salt : Bytes) (e : Err) : getEncryptionKey P p salt ≠ .err e := by
  rw [getEncryptionKey_keyFor]; simp

theorem reset_onlyWrite (E : Env) (p : Str) : OnlyWrite (Passwords.reset E p) := by
  unfold Passwords.reset
  refine onlyWrite_then (onlyWrite_onWorld (gen_onlyWrite E _)) fun salt => onlyWrite_then ?_ fun k =>
    onlyWrite_then (onlyWrite_onWorld (gen_onlyWrite E _)) fun h => onlyWrite_then (onlyWrite_onWorld ?_) fun _ =>
      onlyWrite_then (onlyWrite_onWorld (flush_onlyWrite E)) fun _ => ?_
  · intro s e he; exact absurd he (getEncryptionKey_noErr _ _ _ _)
  · unfold Storage.clear
    refine onlyWrite_then (fun w e he => by cases he) fun _ => onlyWrite_then (fun w e he => by cases he) fun _ => ?_
    apply onlyWrite_then
    · apply onlyWrite_then (gen_onlyWrite E 12)
      intro nonce w e he
      exact absurd he (encryptData_noErr _ _ _ _ _)
    · intro a w e he; cases he
  · intro s e he; cases he

theorem map_err_iff {r : Res α} {f : α → β} {e : Err} : r.map f = .err e ↔ r = .err e := by
  cases r <;> simp

end Failing

/-! ## Effects in reachable states -/

variable {E : Env} {U : Universe}

/-- A reachable unlocked state, as seen through an operation that succeeded. -/
theorem open_of_ok (hE : E.Lawful) (hS : Secure E U) {s : PState} (hs : Reachable E U s) {op : Op}
    (hsp : special op = false) (hrs : ∀ l, op ≠ .removeSites l) {o : Out} (hok : ask E s op = .ok o) :
    s.key.isSome = true := by
  obtain ⟨a, hrep, ha⟩ := reach hE hS hs
  by_contra hu
  have hkn : s.key = none := by simpa using hu
  have hh : s.hmacSecret = none := by
    have hmem := hrep.mem
    cases hm : a.mem with
    | blank => rw [hm] at hmem; exact hmem.2.2.2.1
    | torn => exact absurd hm ha.1
    | store p V =>
      rw [hm] at hmem
      obtain ⟨pos, _, hses⟩ := hmem
      cases h : a.unlocked with
      | false => rw [h] at hses; exact hses.2.1
      | true => rw [h] at hses; rw [hses.1] at hkn; cases hkn
  have := run_locked E s hkn hh op hsp
  rw [ask, this] at hok
  cases op with
  | removeSites l => exact hrs l rfl
  | getRecoveryCode c =>
    simp only at hok
    revert hok
    cases Storage.getSalt s.world <;> simp
  | _ => cases hok

theorem open_of_ok' (hE : E.Lawful) (hS : Secure E U) {s : PState} (hs : Reachable E U s) {op : Op}
    (hsp : special op = false) (hrs : ∀ l, op ≠ .removeSites l) {o : Out} (hok : ask E s op = .ok o) :
    ∃ a pos p V, Open E U s a pos p V := reach_open hE hS hs (open_of_ok hE hS hs hsp hrs hok)

namespace Open
variable {s : PState} {a : AState} {pos : Origin} {p : Str} {V : Vault}

/-- The change `V'` is made in memory and an attempt is made to write it. -/
def Changes (E : Env) (U : Universe) (s : PState) (a : AState) (p : Str) (op : Op) (V' : Vault) : Prop :=
  ∃ wr, WriteFor (E.fs s.world.fpos) wr ∧ ask E s op = wr.result ∧
    ∃ pos', Open E U (after E s op) (a.commit p V' wr).2 pos' p V'

theorem changes (ho : Open E U s a pos p V) {op : Op} {V' : Vault}
    (h : StepOk E U s (run E op s) fun wr => a.commit p V' wr) : Changes E U s a p op V' := by
  obtain ⟨wr, h1, h2, h3⟩ := h
  exact ⟨wr, h1, h2, ho.committed h3⟩

theorem stepOk (ho : Open E U s a pos p V) (hE : E.Lawful) (hS : Secure E U) (op : Op) (hop : op.Within U)
    (hsp : special op = false) :
    StepOk E U s (run E op s) fun wr => astepUnlocked (deriveWith E.prims) E.wild a p V wr op :=
  step_unlocked hE hS ho.unlocked ho.mem ho.store ho.session ho.rep.disk op hop hsp

theorem setStored (ho : Open E U s a pos p V) (hE : E.Lawful) (hS : Secure E U) {x n r : Str} (v : Str)
    (hw : U.site x ∧ U.name n ∧ U.revision r) :
    Changes E U s a p (.setStored x n r v) ((V.know (V.resolve x)).put (V.idOf x n r) ⟨.stored v, []⟩) :=
  ho.changes (ho.stepOk hE hS (.setStored x n r v) hw rfl)

theorem setGenerated (ho : Open E U s a pos p V) (hE : E.Lawful) (hS : Secure E U) {x n r : Str} (len : UInt64)
    (cs : CharacterSet) (hw : U.site x ∧ U.name n ∧ U.revision r) :
    Changes E U s a p (.setGenerated x n r len cs)
      ((V.know (V.resolve x)).put (V.idOf x n r) ⟨.generated len cs, []⟩) :=
  ho.changes (ho.stepOk hE hS (.setGenerated x n r len cs) hw rfl)

theorem setNotes (ho : Open E U s a pos p V) (hE : E.Lawful) (hS : Secure E U) {x n r : Str} (t : Str)
    (hw : U.site x ∧ U.name n ∧ U.revision r) {e : Entry} (he : V.passwords (V.idOf x n r) = some e) :
    Changes E U s a p (.setNotes x n r t) (V.put (V.idOf x n r) { e with notes := t }) := by
  have := ho.stepOk hE hS (.setNotes x n r t) hw rfl
  simp only [astepUnlocked, he] at this
  exact ho.changes this

theorem setNotes_missing (ho : Open E U s a pos p V) (hE : E.Lawful) (hS : Secure E U) {x n r : Str} (t : Str)
    (hw : U.site x ∧ U.name n ∧ U.revision r) (he : V.passwords (V.idOf x n r) = none) :
    ask E s (.setNotes x n r t) = .err .keyMissing := by
  have := ho.stepOk hE hS (.setNotes x n r t) hw rfl
  simp only [astepUnlocked, he] at this
  obtain ⟨_, _, h, _⟩ := this
  exact h

theorem remove (ho : Open E U s a pos p V) (hE : E.Lawful) (hS : Secure E U) {x n r : Str}
    (hw : U.site x ∧ U.name n ∧ U.revision r) {e : Entry} (he : V.passwords (V.idOf x n r) = some e) :
    Changes E U s a p (.remove x n r) (V.delete (V.idOf x n r)) := by
  have := ho.stepOk hE hS (.remove x n r) hw rfl
  simp only [astepUnlocked, he] at this
  exact ho.changes this

theorem remove_missing (ho : Open E U s a pos p V) (hE : E.Lawful) (hS : Secure E U) {x n r : Str}
    (hw : U.site x ∧ U.name n ∧ U.revision r) (he : V.passwords (V.idOf x n r) = none) :
    ask E s (.remove x n r) = .err .keyMissing := by
  have := ho.stepOk hE hS (.remove x n r) hw rfl
  simp only [astepUnlocked, he] at this
  obtain ⟨_, _, h, _⟩ := this
  exact h

theorem removeAlias (ho : Open E U s a pos p V) (hE : E.Lawful) (hS : Secure E U) {x t : Str}
    (hw : U.site x) (he : V.sites (canonical x) = some (some t)) :
    Changes E U s a p (.removeAlias x) (V.forget (canonical x)) := by
  have := ho.stepOk hE hS (.removeAlias x) hw rfl
  simp only [astepUnlocked, he] at this
  exact ho.changes this

theorem removeAlias_missing (ho : Open E U s a pos p V) (hE : E.Lawful) (hS : Secure E U) {x : Str}
    (hw : U.site x) (he : ∀ t, V.sites (canonical x) ≠ some (some t)) :
    ask E s (.removeAlias x) = .err .noSuchAlias := by
  have := ho.stepOk hE hS (.removeAlias x) hw rfl
  obtain ⟨_, _, h, _⟩ := this
  simp only [astepUnlocked] at h
  exact h

theorem setAlias (ho : Open E U s a pos p V) (hE : E.Lawful) (hS : Secure E U) {x y : Str}
    (hw : U.site x ∧ U.site y) (h1 : ¬V.HasPasswords (canonical x)) (h2 : canonical x ≠ V.resolve y) :
    Changes E U s a p (.setAlias x y) (V.link (canonical x) (V.resolve y)) := by
  have := ho.stepOk hE hS (.setAlias x y) hw rfl
  simp only [astepUnlocked, if_neg h1, if_neg h2] at this
  exact ho.changes this

theorem setAlias_passwords (ho : Open E U s a pos p V) (hE : E.Lawful) (hS : Secure E U) {x y : Str}
    (hw : U.site x ∧ U.site y) (h1 : V.HasPasswords (canonical x)) :
    ask E s (.setAlias x y) = .err .siteHasPasswords := by
  have := ho.stepOk hE hS (.setAlias x y) hw rfl
  simp only [astepUnlocked, if_pos h1] at this
  obtain ⟨_, _, h, _⟩ := this
  exact h

theorem setAlias_self (ho : Open E U s a pos p V) (hE : E.Lawful) (hS : Secure E U) {x y : Str}
    (hw : U.site x ∧ U.site y) (h1 : ¬V.HasPasswords (canonical x)) (h2 : canonical x = V.resolve y) :
    ask E s (.setAlias x y) = .err .aliasToSelf := by
  have := ho.stepOk hE hS (.setAlias x y) hw rfl
  simp only [astepUnlocked, if_neg h1, if_pos h2] at this
  obtain ⟨_, _, h, _⟩ := this
  exact h

theorem list (ho : Open E U s a pos p V) (hE : E.Lawful) (hS : Secure E U) {x : Str} (q : Str) (hw : U.site x) :
    ∃ l, ask E s (.list x q) = .ok (.passwords l) ∧ l.Nodup ∧ ∀ y, y ∈ l ↔ ∃ id e, V.passwords id = some e ∧
      y = Vault.record id e ∧ id.site = V.resolve x ∧ E.wild q id.name = true := by
  obtain ⟨_, _, h, _⟩ := ho.stepOk hE hS (.list x q) hw rfl
  exact h

theorem listSites (ho : Open E U s a pos p V) (hE : E.Lawful) (hS : Secure E U) (q : Str) :
    ∃ l, ask E s (.listSites q) = .ok (.sites l) ∧ l.Nodup ∧ ∀ x : Site, x ∈ l ↔ V.sites x.name = some x.alias ∧
      (E.wild q x.name = true ∨ ∃ target, x.alias = some target ∧ E.wild q target = true) := by
  obtain ⟨_, _, h, _⟩ := ho.stepOk hE hS (.listSites q) trivial rfl
  exact h

end Open
theorem arun_of_rep (hE : E.Lawful) (hS : Secure E U) : ∀ (ops : List Op) (s : PState) (a : AState), Rep E U s a →
    (∀ op ∈ ops, op.Within U) →
    ∃ a', ARun (deriveWith E.prims) E.wild (fun w => ∃ n, WriteFor (E.fs n) w) ops a (runAll E ops s).1 a'
  | [], _, a, _, _ => ⟨a, .nil a⟩
  | op :: ops, s, a, hrep, h => by
    obtain ⟨wr, h1, h2, h3⟩ := step hE hS hrep op (h op (by simp))
    obtain ⟨a', ht⟩ := arun_of_rep hE hS ops _ _ h3 fun o ho => h o (List.mem_cons_of_mem _ ho)
    exact ⟨a', .cons wr ⟨_, h1⟩ h2 ht⟩

theorem keepA_commit {p : Str} {V : Vault} {A : AState} {a : Str} {i : PasswordId} {sec : Secret}
    (h : Good a i sec V) : KeepA p a i sec (A.commit p V .ok).2 :=
  ⟨⟨V, rfl, h⟩, .inr ⟨V, rfl, h⟩⟩

theorem good_put (V : Vault) (a n r : Str) (sec : Secret) :
    Good a (V.idOf a n r) sec ((V.know (V.resolve a)).put (V.idOf a n r) ⟨sec, []⟩) :=
  ⟨⟨[], by simp [Vault.put, update]⟩, by rw [resolve_put, resolve_know]; rfl⟩

theorem locked_unchanged {s : PState} (hE : E.Lawful) (hS : Secure E U) (hs : Reachable E U s) (hk : s.key = none)
    {op : Op} (hsp : special op = false) : after E s op = s := by
  obtain ⟨a, hrep, ha⟩ := reach hE hS hs
  have hh : s.hmacSecret = none := by
    have hmem := hrep.mem
    cases hm : a.mem with
    | blank => rw [hm] at hmem; exact hmem.2.2.2.1
    | torn => exact absurd hm ha.1
    | store p V =>
      rw [hm] at hmem
      obtain ⟨pos, _, hses⟩ := hmem
      cases h : a.unlocked with
      | false => rw [h] at hses; exact hses.2.1
      | true => rw [h] at hses; rw [hses.1] at hk; cases hk
  rw [after, run_locked E s hk hh op hsp]

/-- The entries of a table other than the given one, and all sites, are the same. -/
def SameExcept (i : PasswordId) (V V' : Vault) : Prop :=
  (∀ j, j ≠ i → V'.passwords j = V.passwords j) ∧ (∀ x, V'.resolve x = V.resolve x) ∧
    ∀ x t, V'.sites x = some (some t) ↔ V.sites x = some (some t)

theorem know_alias {V : Vault} {x y t : Str} : (V.know x).sites y = some (some t) ↔ V.sites y = some (some t) := by
  unfold Vault.know
  split
  · rename_i h
    simp only [update]
    by_cases hy : y = x
    · subst hy; rw [h]; simp
    · rw [if_neg hy]
  · rfl

theorem sameExcept_put (V : Vault) (x : Str) (i : PasswordId) (e : Entry) : SameExcept i V ((V.know x).put i e) :=
  ⟨fun j hj => by simp [Vault.put, update, hj, know_passwords], fun y => by rw [resolve_put, resolve_know],
    fun y t => know_alias⟩

theorem sameExcept_put' (V : Vault) (i : PasswordId) (e : Entry) : SameExcept i V (V.put i e) :=
  ⟨fun j hj => by simp [Vault.put, update, hj], fun y => rfl, fun y t => Iff.rfl⟩

theorem sameExcept_delete (V : Vault) (i : PasswordId) : SameExcept i V (V.delete i) :=
  ⟨fun j hj => by simp [Vault.delete, update, hj], fun y => rfl, fun y t => Iff.rfl⟩

theorem sameAlias (hE : E.Lawful) (hS : Secure E U) {s s' : PState} {A A' : AState} {pos pos' : Origin} {p : Str}
    {V V' : Vault} (ho : Open E U s A pos p V) (ho' : Open E U s' A' pos' p V') {a : Str} (ha : U.site a)
    (h3 : ∀ t, V'.sites (canonical a) = some (some t) ↔ V.sites (canonical a) = some (some t)) :
    ask E s' (.getAlias a) = ask E s (.getAlias a) := by
  rw [ho'.ask_getAlias hE hS ha, ho.ask_getAlias hE hS ha]
  cases hV : V.sites (canonical a) with
  | some t =>
    cases t with
    | some t => rw [(h3 t).mpr hV]
    | none =>
      cases hV' : V'.sites (canonical a) with
      | none => rfl
      | some t' =>
        cases t' with
        | none => rfl
        | some t' => rw [(h3 t').mp hV'] at hV; cases hV
  | none =>
    cases hV' : V'.sites (canonical a) with
    | none => rfl
    | some t' =>
      cases t' with
      | none => rfl
      | some t' => rw [(h3 t').mp hV'] at hV; cases hV

theorem sameAnswers (hE : E.Lawful) (hS : Secure E U) {s s' : PState} {A A' : AState} {pos pos' : Origin} {p : Str}
    {V V' : Vault} (ho : Open E U s A pos p V) (ho' : Open E U s' A' pos' p V') {a n r : Str}
    (ha : U.site a) (hn : U.name n) (hr : U.revision r)
    (h1 : V'.passwords (V.idOf a n r) = V.passwords (V.idOf a n r)) (h2 : V'.resolve a = V.resolve a) :
    ask E s' (.has a n r) = ask E s (.has a n r) ∧ ask E s' (.get a n r) = ask E s (.get a n r) ∧
      ask E s' (.getNotes a n r) = ask E s (.getNotes a n r) := by
  have hid : V'.idOf a n r = V.idOf a n r := by simp only [Vault.idOf, h2]
  refine ⟨?_, ?_, ?_⟩
  · rw [ho'.ask_has hE hS ha hn hr, ho.ask_has hE hS ha hn hr, hid, h1]
  · rw [ho'.ask_get hE hS ha hn hr, ho.ask_get hE hS ha hn hr, hid, h1]
  · rw [ho'.ask_getNotes hE hS ha hn hr, ho.ask_getNotes hE hS ha hn hr, hid, h1]

/-- The effect of an operation on one entry of an open storage. -/
theorem entry_effect (hE : E.Lawful) (hS : Secure E U) {s : PState} {A : AState} {pos : Origin} {p : Str} {V : Vault}
    (ho : Open E U s A pos p V) {op : Op} (hop : op.Within U) {a n r : Str} (he : op.entry = some (a, n, r)) :
    after E s op = s ∨ ∃ A' pos' V', Open E U (after E s op) A' pos' p V' ∧ SameExcept (V.idOf a n r) V V' := by
  cases op with
  | setGenerated x n' r' len cs =>
    cases he
    obtain ⟨wr, _, _, pos', ho'⟩ := ho.setGenerated hE hS len cs hop
    exact .inr ⟨_, pos', _, ho', sameExcept_put _ _ _ _⟩
  | setStored x n' r' v =>
    cases he
    obtain ⟨wr, _, _, pos', ho'⟩ := ho.setStored hE hS v hop
    exact .inr ⟨_, pos', _, ho', sameExcept_put _ _ _ _⟩
  | setNotes x n' r' t =>
    cases he
    cases hV : V.passwords (V.idOf a n r) with
    | none =>
      have := ho.setNotes_missing hE hS t hop hV
      exact .inl (setNotes_careful E a n r t s _ (map_err_iff.mp this) (by simp [WriteError]))
    | some e =>
      obtain ⟨wr, _, _, pos', ho'⟩ := ho.setNotes hE hS t hop hV
      exact .inr ⟨_, pos', _, ho', sameExcept_put' _ _ _⟩
  | remove x n' r' =>
    cases he
    cases hV : V.passwords (V.idOf a n r) with
    | none =>
      have := ho.remove_missing hE hS hop hV
      exact .inl (remove_passwords_careful E a n r s _ (map_err_iff.mp this) (by simp [WriteError]))
    | some e =>
      obtain ⟨wr, _, _, pos', ho'⟩ := ho.remove hE hS hop hV
      exact .inr ⟨_, pos', _, ho', sameExcept_delete _ _⟩
  | _ => cases he

/-- If writing works, a change succeeds. -/
theorem Open.Changes.ok {s : PState} {a : AState} {p : Str} {op : Op} {V' : Vault} (h : Open.Changes E U s a p op V')
    (hfs : E.fs s.world.fpos = .ok) : ask E s op = .ok .unit ∧ ∃ a' pos', Open E U (after E s op) a' pos' p V' := by
  obtain ⟨wr, h1, h2, pos', ho⟩ := h
  rw [hfs] at h1
  have : wr = .ok := h1
  subst this
  exact ⟨h2, _, pos', ho⟩

/-- A change succeeds or reports a write error. -/
theorem Open.Changes.result {s : PState} {a : AState} {p : Str} {op : Op} {V' : Vault}
    (h : Open.Changes E U s a p op V') : ask E s op = .ok .unit ∨ ∃ e, ask E s op = .err e ∧ WriteError e := by
  obtain ⟨wr, h1, h2, _⟩ := h
  rw [h2]
  cases wr
  · exact .inl rfl
  · exact .inr ⟨_, rfl, trivial⟩
  · exact .inr ⟨_, rfl, trivial⟩
  · exact .inr ⟨_, rfl, trivial⟩
  · exact .inr ⟨_, rfl, trivial⟩

theorem toPasswordLoop_noErr (cs : CharacterSet) (len : Nat) (e : Err) : ∀ (bytes : Bytes) (i : Nat) (seen : CharacterSet),
    Crypto.toPasswordLoop cs len i seen bytes ≠ .err e
  | [], _, _ => by simp [Crypto.toPasswordLoop]
  | byte :: bytes, i, seen => by
    rw [Crypto.toPasswordLoop]
    split
    · simp
    · dsimp only
      generalize (if cs.len - seen.len ≥ len - i then cs.diff seen else cs) = allowed
      split
      · simp
      · split
        · intro h; exact toPasswordLoop_noErr cs len e bytes _ _ (map_err_iff.mp h)
        · exact toPasswordLoop_noErr cs len e bytes _ _

theorem derivePassword_noErr (P : Prims) (p salt : Str) (len : Nat) (cs : CharacterSet) (e : Err) :
    Crypto.derivePassword P p salt len cs ≠ .err e := by
  unfold Crypto.derivePassword Crypto.deriveBits
  split
  · simp
  · exact toPasswordLoop_noErr _ _ _ _ _ _

/-- A site that is not an alias and whose passwords are all absent has no passwords. -/
theorem Open.noPasswords {s : PState} {a : AState} {pos : Origin} {p : Str} {V : Vault} (ho : Open E U s a pos p V)
    (hE : E.Lawful) (hS : Secure E U) {x : Str} (hx : U.site x) (hself : siteMeant E s x = canonical x) :
    V.HasPasswords (canonical x) ↔
      ∃ n r, U.name n ∧ U.revision r ∧ ask E s (.has x n r) = .ok (.bool true) := by
  rw [ho.siteMeant_eq hE hS hx] at hself
  constructor
  · rintro ⟨i, e, h1, h2⟩
    obtain ⟨hi, _⟩ := ho.store.vault.password_in i e h1
    refine ⟨i.name, i.revision, hi.2.1, hi.2.2, ?_⟩
    have : V.idOf x i.name i.revision = i := by
      obtain ⟨y, n, r⟩ := i
      simp only [Vault.idOf, hself] at h2 ⊢
      rw [h2, revisionOf, if_neg (ho.store.vault.revision _ _ h1)]
    rw [ho.ask_has hE hS hx hi.2.1 hi.2.2, this, h1]
    rfl
  · rintro ⟨n, r, hn, hr, h⟩
    rw [ho.ask_has hE hS hx hn hr] at h
    simp only [Res.ok.injEq, Out.bool.injEq] at h
    obtain ⟨e, he⟩ := Option.isSome_iff_exists.mp h
    exact ⟨_, e, he, hself⟩

theorem new_revisionOf (site n r : Str) : PasswordId.new site n (revisionOf r) = PasswordId.new site n r := by
  unfold PasswordId.new revisionOf
  by_cases h : r = c!"1"
  · rw [if_pos h, if_pos (by simp), if_neg (by simp [h])]
  · rw [if_neg h]

theorem normalize_canonical {x : Str} (h : canonical (canonical x) = canonical x) :
    Storage.normalizeSite (canonical x) = Storage.normalizeSite x := by
  rw [RepVault.normalizeSite_eq, RepVault.normalizeSite_eq, h]

theorem resolve_canonical {x : Str} (h : canonical (canonical x) = canonical x) (w : World) (hs k : Bytes) :
    Storage.resolveSite E w (canonical x) hs k = Storage.resolveSite E w x hs k := by
  unfold Storage.resolveSite
  rw [normalize_canonical h]

end Pfp
