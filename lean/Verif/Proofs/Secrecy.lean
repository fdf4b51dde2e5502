import Verif.Spec.Secrecy
import Verif.Proofs.Writes

/-!
# Abstract states that differ in the values of stored passwords only
-/

namespace Pfp
open Spec

variable {E : Env} {U : Universe}

/-! ## Hiding values -/

/-- The secret without the value stored. -/
def Secret.hide : Secret → Secret
  | .stored _ => .stored []
  | .generated l c => .generated l c

/-- The entry without the value stored. -/
def Entry.hide (e : Entry) : Entry := ⟨Secret.hide e.secret, e.notes⟩

/-- The contents without the values stored. -/
def Vault.hide (V : Vault) : Vault := ⟨V.sites, fun i => (V.passwords i).map Entry.hide⟩

/-- The memory without the values stored. -/
def Mem.hide : Mem → Mem
  | .store p V => .store p (Vault.hide V)
  | m => m

/-- The file without the values stored. -/
def Disk.hide : Disk → Disk
  | .store p V => .store p (Vault.hide V)
  | d => d

/-- Files that can be read at the same time only if they differ in the values only. -/
def DiskAlike (d d' : Disk) : Prop := Disk.hide d = Disk.hide d' ∨ d = .unreadable ∨ d' = .unreadable

/-- Abstract states that differ in the values only. -/
structure Alike (a a' : AState) : Prop where
  unlocked : a'.unlocked = a.unlocked
  mem : Mem.hide a'.mem = Mem.hide a.mem
  disk : DiskAlike a'.disk a.disk

theorem hide_put (V : Vault) (i : PasswordId) (e : Entry) : Vault.hide (V.put i e) = (Vault.hide V).put i (Entry.hide e) := by
  unfold Vault.hide Vault.put update
  simp only [Vault.mk.injEq, true_and]
  funext j
  split <;> rfl

theorem hide_delete (V : Vault) (i : PasswordId) : Vault.hide (V.delete i) = (Vault.hide V).delete i := by
  unfold Vault.hide Vault.delete update
  simp only [Vault.mk.injEq, true_and]
  funext j
  split <;> rfl

theorem hide_know (V : Vault) (x : Str) : Vault.hide (V.know x) = (Vault.hide V).know x := by
  unfold Vault.know
  have : (Vault.hide V).sites x = V.sites x := rfl
  rw [this]
  split <;> rfl

theorem hide_link (V : Vault) (x y : Str) : Vault.hide (V.link x y) = (Vault.hide V).link x y := rfl
theorem hide_forget (V : Vault) (x : Str) : Vault.hide (V.forget x) = (Vault.hide V).forget x := rfl
theorem hide_resolve (V : Vault) (x : Str) : (Vault.hide V).resolve x = V.resolve x := rfl
theorem hide_idOf (V : Vault) (x n r : Str) : (Vault.hide V).idOf x n r = V.idOf x n r := rfl
theorem hide_sites (V : Vault) : (Vault.hide V).sites = V.sites := rfl

theorem hide_forgetAll : ∀ (l : List Str) (V : Vault),
    (Vault.hide V).forgetAll l = ((V.forgetAll l).1, Vault.hide (V.forgetAll l).2)
  | [], V => rfl
  | x :: l, V => by
    simp only [Vault.forgetAll, hide_sites]
    by_cases h : V.sites x = none
    · simp only [h, if_true]
    · simp only [h, if_false]
      rw [← hide_forget]
      exact hide_forgetAll l _

theorem hide_hasPasswords (V : Vault) (x : Str) : (Vault.hide V).HasPasswords x ↔ V.HasPasswords x := by
  unfold Vault.HasPasswords Vault.hide
  constructor
  · rintro ⟨i, e, h, hi⟩
    simp only [Option.map_eq_some_iff] at h
    obtain ⟨e', h, -⟩ := h
    exact ⟨i, e', h, hi⟩
  · rintro ⟨i, e, h, hi⟩
    exact ⟨i, Entry.hide e, by simp [h], hi⟩

/-- What equal contents up to values have in common. -/
structure SameShape (V V' : Vault) : Prop where
  sites : V'.sites = V.sites
  entry : ∀ i, (V'.passwords i).map Entry.hide = (V.passwords i).map Entry.hide

theorem sameShape {V V' : Vault} (h : Vault.hide V' = Vault.hide V) : SameShape V V' :=
  ⟨by injection h, fun i => by injection h with _ h; exact congrFun h i⟩

theorem SameShape.hide {V V' : Vault} (h : SameShape V V') : Vault.hide V' = Vault.hide V := by
  unfold Vault.hide
  rw [h.sites]
  congr 1
  funext i
  exact h.entry i

theorem SameShape.resolve {V V' : Vault} (h : SameShape V V') (x : Str) : V'.resolve x = V.resolve x := by
  unfold Vault.resolve
  rw [h.sites]

theorem SameShape.idOf {V V' : Vault} (h : SameShape V V') (x n r : Str) : V'.idOf x n r = V.idOf x n r := by
  unfold Vault.idOf
  rw [h.resolve]

theorem SameShape.hasPasswords {V V' : Vault} (h : SameShape V V') (x : Str) : V'.HasPasswords x ↔ V.HasPasswords x := by
  rw [← hide_hasPasswords V', h.hide, hide_hasPasswords]

theorem SameShape.isSome {V V' : Vault} (h : SameShape V V') (i : PasswordId) :
    (V'.passwords i).isSome = (V.passwords i).isSome := by
  have := congrArg Option.isSome (h.entry i)
  simpa using this

theorem SameShape.some {V V' : Vault} (h : SameShape V V') {i : PasswordId} {e : Entry} (he : V.passwords i = some e) :
    ∃ e', V'.passwords i = some e' ∧ Entry.hide e' = Entry.hide e := by
  have := h.entry i
  rw [he] at this
  simpa using this

theorem SameShape.none {V V' : Vault} (h : SameShape V V') {i : PasswordId} (he : V.passwords i = none) :
    V'.passwords i = none := by
  have := h.entry i
  rw [he] at this
  simpa using this

theorem record_hide (i : PasswordId) (e : Entry) : withoutValue (Vault.record i e) = Vault.record i (Entry.hide e) := by
  unfold Vault.record Entry.hide Secret.hide
  cases e.secret <;> rfl

/-! ## Writing -/

theorem writeFor_result {o : FlushOutcome} {w w' : Write} (h : WriteFor o w) (h' : WriteFor o w') :
    w'.result = w.result ∧ (w' = .ok ↔ w = .ok) := by
  cases o with
  | ok => cases h; cases h'; exact ⟨rfl, Iff.rfl⟩
  | createDirFailure => cases h; cases h'; exact ⟨rfl, Iff.rfl⟩
  | openFailure => cases h; cases h'; exact ⟨rfl, Iff.rfl⟩
  | writeFailure n => rcases h with rfl | rfl <;> rcases h' with rfl | rfl <;> simp [Write.result]

theorem writeFor_disk {o : FlushOutcome} {w w' : Write} (h : WriteFor o w) (h' : WriteFor o w') {old old' new new' : Disk}
    (ho : DiskAlike old' old) (hn : Disk.hide new' = Disk.hide new) : DiskAlike (w'.disk old' new') (w.disk old new) := by
  cases o with
  | ok => cases h; cases h'; exact .inl hn
  | createDirFailure => cases h; cases h'; exact ho
  | openFailure => cases h; cases h'; exact ho
  | writeFailure n =>
    rcases h with rfl | rfl <;> rcases h' with rfl | rfl
    · exact .inl rfl
    · exact .inr (.inr rfl)
    · exact .inr (.inl rfl)
    · exact .inl hn

theorem commit_alike {a a' : AState} (h : Alike a a') {o : FlushOutcome} {w w' : Write} (hw : WriteFor o w)
    (hw' : WriteFor o w') (p : Str) {V V' : Vault} (hV : Vault.hide V' = Vault.hide V) :
    (a'.commit p V' w').1 = (a.commit p V w).1 ∧ Alike (a.commit p V w).2 (a'.commit p V' w').2 := by
  refine ⟨?_, h.unlocked, ?_, writeFor_disk hw hw' h.disk ?_⟩
  · simp only [AState.commit, (writeFor_result hw hw').1]
  · simp only [AState.commit, Mem.hide, hV]
  · simp only [Disk.hide, hV]

/-! ## One step -/

/-- The same operation, up to the value stored. -/
inductive SameOp : Op → Op → Prop
  | same (op : Op) : SameOp op op
  | value (a n r v v' : Str) : SameOp (.setStored a n r v) (.setStored a n r v')

/-- Operations whose result tells no value and is the same for the same contents. -/
def plainOp : Op → Bool
  | .get _ _ _ => false
  | .list _ _ => false
  | .listSites _ => false
  | .getRecoveryCode _ => false
  | .reload => false
  | _ => true

theorem astepUnlocked_alike {derive : Str → PasswordId → UInt64 → CharacterSet → Res Str} {wild : Str → Str → Bool}
    {a a' : AState} (h : Alike a a') {o : FlushOutcome} {w w' : Write} (hw : WriteFor o w) (hw' : WriteFor o w') (p : Str)
    {V V' : Vault} (hV : SameShape V V') {op op' : Op} (hop : SameOp op op') :
    (plainOp op = true → (astepUnlocked derive wild a' p V' w' op').1 = (astepUnlocked derive wild a p V w op).1) ∧
    Alike (astepUnlocked derive wild a p V w op).2 (astepUnlocked derive wild a' p V' w' op').2 := by
  have hc := fun {W W' : Vault} (hW : Vault.hide W' = Vault.hide W) => commit_alike h hw hw' p hW
  cases hop with
  | value x n r v v' =>
    have := hc (W := (V.know (V.resolve x)).put (V.idOf x n r) ⟨.stored v, []⟩)
      (W' := (V'.know (V'.resolve x)).put (V'.idOf x n r) ⟨.stored v', []⟩)
      (by rw [hide_put, hide_put, hide_know, hide_know, hV.hide, hV.resolve, hV.idOf]; rfl)
    exact ⟨fun _ => this.1, this.2⟩
  | same op =>
    cases op with
    | setAlias x y =>
      simp only [astepUnlocked, hV.resolve]
      by_cases h1 : V.HasPasswords (canonical x)
      · rw [if_pos h1, if_pos ((hV.hasPasswords _).mpr h1)]
        exact ⟨fun _ => rfl, h⟩
      · rw [if_neg h1, if_neg fun h => h1 ((hV.hasPasswords _).mp h)]
        by_cases h2 : canonical x = V.resolve y
        · rw [if_pos h2, if_pos h2]
          exact ⟨fun _ => rfl, h⟩
        · rw [if_neg h2, if_neg h2]
          have := hc (W := V.link (canonical x) (V.resolve y)) (W' := V'.link (canonical x) (V.resolve y))
            (by rw [hide_link, hide_link, hV.hide])
          exact ⟨fun _ => this.1, this.2⟩
    | removeAlias x =>
      simp only [astepUnlocked, hV.sites]
      split
      · have := hc (W := V.forget (canonical x)) (W' := V'.forget (canonical x)) (by rw [hide_forget, hide_forget, hV.hide])
        exact ⟨fun _ => this.1, this.2⟩
      · exact ⟨fun _ => rfl, h⟩
    | removeSites l =>
      have hf : (V'.forgetAll l).1 = (V.forgetAll l).1 ∧ Vault.hide (V'.forgetAll l).2 = Vault.hide (V.forgetAll l).2 := by
        have h1 := hide_forgetAll l V
        have h2 := hide_forgetAll l V'
        rw [hV.hide, h1] at h2
        exact ⟨(congrArg Prod.fst h2).symm, (congrArg Prod.snd h2).symm⟩
      simp only [astepUnlocked, hf.1]
      split
      · exact ⟨fun _ => rfl, h⟩
      · split
        · have := hc (W := (V.forgetAll l).2) (W' := (V'.forgetAll l).2) hf.2
          exact ⟨fun _ => this.1, this.2⟩
        · exact ⟨fun _ => rfl, h.unlocked, by simp only [Mem.hide, hf.2], h.disk⟩
    | setGenerated x n r len cs =>
      have := hc (W := (V.know (V.resolve x)).put (V.idOf x n r) ⟨.generated len cs, []⟩)
        (W' := (V'.know (V'.resolve x)).put (V'.idOf x n r) ⟨.generated len cs, []⟩)
        (by rw [hide_put, hide_put, hide_know, hide_know, hV.hide, hV.resolve, hV.idOf])
      exact ⟨fun _ => this.1, this.2⟩
    | setStored x n r v =>
      have := hc (W := (V.know (V.resolve x)).put (V.idOf x n r) ⟨.stored v, []⟩)
        (W' := (V'.know (V'.resolve x)).put (V'.idOf x n r) ⟨.stored v, []⟩)
        (by rw [hide_put, hide_put, hide_know, hide_know, hV.hide, hV.resolve, hV.idOf])
      exact ⟨fun _ => this.1, this.2⟩
    | setNotes x n r t =>
      simp only [astepUnlocked, hV.idOf]
      cases he : V.passwords (V.idOf x n r) with
      | none => rw [hV.none he]; exact ⟨fun _ => rfl, h⟩
      | some e =>
        obtain ⟨e', he', hee⟩ := hV.some he
        rw [he']
        have := hc (W := V.put (V.idOf x n r) { e with notes := t }) (W' := V'.put (V.idOf x n r) { e' with notes := t })
          (by
            rw [hide_put, hide_put, hV.hide]
            simp only [Entry.hide, Entry.mk.injEq] at hee ⊢
            rw [hee.1])
        exact ⟨fun _ => this.1, this.2⟩
    | remove x n r =>
      simp only [astepUnlocked, hV.idOf]
      cases he : V.passwords (V.idOf x n r) with
      | none => rw [hV.none he]; exact ⟨fun _ => rfl, h⟩
      | some e =>
        obtain ⟨e', he', hee⟩ := hV.some he
        rw [he']
        have := hc (W := V.delete (V.idOf x n r)) (W' := V'.delete (V.idOf x n r)) (by rw [hide_delete, hide_delete, hV.hide])
        exact ⟨fun _ => this.1, this.2⟩
    | getAlias x =>
      simp only [astepUnlocked, hV.sites]
      split <;> exact ⟨fun _ => rfl, h⟩
    | has x n r =>
      refine ⟨fun _ => ?_, h⟩
      simp only [astepUnlocked, hV.idOf, hV.isSome]
    | getNotes x n r =>
      simp only [astepUnlocked, hV.idOf]
      cases he : V.passwords (V.idOf x n r) with
      | none => rw [hV.none he]; exact ⟨fun _ => rfl, h⟩
      | some e =>
        obtain ⟨e', he', hee⟩ := hV.some he
        rw [he']
        simp only [Entry.hide, Entry.mk.injEq] at hee
        refine ⟨fun _ => ?_, h⟩
        simp only [hee.2]
    | get x n r =>
      simp only [astepUnlocked]
      refine ⟨fun hp => (by cases hp), ?_⟩
      split <;> split <;> exact h
    | list x q => exact ⟨fun hp => (by cases hp), h⟩
    | listSites q => exact ⟨fun hp => (by cases hp), h⟩
    | getRecoveryCode z => exact ⟨fun hp => (by cases hp), h⟩
    | reload => exact ⟨fun hp => (by cases hp), h⟩
    | _ => exact ⟨fun _ => rfl, h⟩

theorem mem_hide_blank {m m' : Mem} (h : Mem.hide m' = Mem.hide m) (hm : m = .blank) : m' = .blank := by
  subst hm
  cases m' <;> simp_all [Mem.hide]

theorem mem_hide_store {m m' : Mem} {p : Str} {V : Vault} (h : Mem.hide m' = Mem.hide m) (hm : m = .store p V) :
    ∃ V', m' = .store p V' ∧ SameShape V V' := by
  subst hm
  cases m' with
  | blank => simp [Mem.hide] at h
  | torn => simp [Mem.hide] at h
  | store p' V' =>
    simp only [Mem.hide, Mem.store.injEq] at h
    obtain ⟨rfl, h⟩ := h
    exact ⟨V', rfl, sameShape h⟩

/-- Files that can be loaded. -/
def Disk.isStore : Disk → Bool
  | .store _ _ => true
  | _ => false

theorem astep_alike {derive : Str → PasswordId → UInt64 → CharacterSet → Res Str} {wild : Str → Str → Bool}
    {a a' : AState} (h : Alike a a') (hi : Intact a) (hi' : Intact a') {o : FlushOutcome} {w w' : Write} (hw : WriteFor o w)
    (hw' : WriteFor o w') {op op' : Op} (hop : SameOp op op')
    (hreload : op = .reload → (Disk.isStore a.disk = true ↔ Disk.isStore a'.disk = true)) :
    (plainOp op = true → (astep derive wild w' a' op').1 = (astep derive wild w a op).1) ∧
    Alike (astep derive wild w a op).2 (astep derive wild w' a' op').2 := by
  by_cases hsp : special op = true
  · cases hop with
    | value => cases hsp
    | same op =>
      cases op with
      | reset p =>
        refine ⟨fun _ => by simp only [astep, (writeFor_result hw hw').1], ?_⟩
        simp only [astep]
        unfold AState.afterReset
        simp only [(writeFor_result hw hw').2]
        split
        · exact ⟨rfl, rfl, .inl rfl⟩
        · refine ⟨h.unlocked, ?_, writeFor_disk hw hw' h.disk rfl⟩
          simp only [AState.afterFailedReset, h.unlocked]
          cases hm : a.mem with
          | blank => rw [mem_hide_blank h.mem hm]
          | torn => exact absurd hm hi.1
          | store q V =>
            obtain ⟨V', hm', -⟩ := mem_hide_store h.mem hm
            rw [hm']
      | reload =>
        refine ⟨fun hp => (by cases hp), ?_⟩
        have hr := hreload rfl
        have hd := h.disk
        simp only [astep]
        cases hda : a.disk with
        | store p V =>
          have : Disk.isStore a'.disk = true := hr.mp (by rw [hda]; rfl)
          cases hda' : a'.disk with
          | store p' V' =>
            rw [hda, hda'] at hd
            have hd' : Disk.hide (.store p' V') = Disk.hide (.store p V) := by
              rcases hd with hd | hd | hd
              · exact hd
              · cases hd
              · cases hd
            simp only [Disk.hide, Disk.store.injEq] at hd'
            refine ⟨rfl, ?_, .inl ?_⟩
            · simp only [Mem.hide, hd'.1, hd'.2]
            · simp only [Disk.hide, hd'.1, hd'.2]
          | _ => rw [hda'] at this; cases this
        | torn => exact absurd hda hi.2
        | missing =>
          have : Disk.isStore a'.disk ≠ true := fun h => by have := hr.mpr h; rw [hda] at this; cases this
          cases hda' : a'.disk with
          | store p' V' => rw [hda'] at this; exact absurd rfl this
          | torn => exact absurd hda' hi'.2
          | missing => exact h
          | unreadable => exact h
        | unreadable =>
          have : Disk.isStore a'.disk ≠ true := fun h => by have := hr.mpr h; rw [hda] at this; cases this
          cases hda' : a'.disk with
          | store p' V' => rw [hda'] at this; exact absurd rfl this
          | torn => exact absurd hda' hi'.2
          | missing => exact h
          | unreadable => exact h
      | lock => exact ⟨fun _ => rfl, rfl, h.mem, h.disk⟩
      | unlock p =>
        cases hm : a.mem with
        | torn => exact absurd hm hi.1
        | blank =>
          have hm' := mem_hide_blank h.mem hm
          simp only [astep, hm, hm']
          exact ⟨fun _ => trivial, h⟩
        | store q V =>
          obtain ⟨V', hm', -⟩ := mem_hide_store h.mem hm
          simp only [astep, hm, hm']
          split
          · exact ⟨fun _ => rfl, rfl, by simpa [hm, hm'] using h.mem, h.disk⟩
          · exact ⟨fun _ => rfl, h⟩
      | initialized =>
        cases hm : a.mem with
        | torn => exact absurd hm hi.1
        | blank =>
          have hm' := mem_hide_blank h.mem hm
          simp only [astep, hm, hm']
          exact ⟨fun _ => trivial, h⟩
        | store q V =>
          obtain ⟨V', hm', -⟩ := mem_hide_store h.mem hm
          simp only [astep, hm, hm']
          exact ⟨fun _ => trivial, h⟩
      | unlocked =>
        cases hm : a.mem with
        | torn => exact absurd hm hi.1
        | blank =>
          have hm' := mem_hide_blank h.mem hm
          simp only [astep, hm, hm', h.unlocked]
          exact ⟨fun _ => trivial, h⟩
        | store q V =>
          obtain ⟨V', hm', -⟩ := mem_hide_store h.mem hm
          simp only [astep, hm, hm', h.unlocked]
          exact ⟨fun _ => trivial, h⟩
      | _ => cases hsp
  · have hsp : special op = false := by simpa using hsp
    have hsp' : special op' = false := by cases hop <;> exact hsp
    have hb : ∀ (w : Write) (a : AState) (op : Op), special op = false → a.mem = .blank →
        astep derive wild w a op = astepLocked a op := by
      intro w a op hsp hm
      cases op <;> first | exact Bool.noConfusion hsp | simp only [astep, hm]
    have hst : ∀ (w : Write) (a : AState) (op : Op) (p : Str) (V : Vault), special op = false → a.mem = .store p V →
        astep derive wild w a op = if a.unlocked then astepUnlocked derive wild a p V w op else astepLocked a op := by
      intro w a op p V hsp hm
      cases op <;> first | exact Bool.noConfusion hsp | simp only [astep, hm]
    have hl : (plainOp op = true → (astepLocked a' op').1 = (astepLocked a op).1) ∧
        Alike (astepLocked a op).2 (astepLocked a' op').2 := by
      rw [astepLocked_state, astepLocked_state]
      refine ⟨fun hp => ?_, h⟩
      cases hop with
      | value => rfl
      | same => cases op <;> first | rfl | cases hp
    cases hm : a.mem with
    | torn => exact absurd hm hi.1
    | blank =>
      rw [hb w a op hsp hm, hb w' a' op' hsp' (mem_hide_blank h.mem hm)]
      exact hl
    | store p V =>
      obtain ⟨V', hm', hV⟩ := mem_hide_store h.mem hm
      rw [hst w a op p V hsp hm, hst w' a' op' p V' hsp' hm', h.unlocked]
      split
      · exact astepUnlocked_alike h hw hw' p hV hop
      · exact hl

/-! ## How often the file is written -/

/-- A result that does not blame writing. -/
def NoWrite {α : Type} (r : Res α) : Prop := ∀ e, r = .err e → ¬WriteError e

theorem noWrite_bind {α β : Type} {r : Res α} {f : α → Res β} (h : NoWrite r) (hf : ∀ a, NoWrite (f a)) : NoWrite (r >>= f) := by
  cases r with
  | ok a => exact hf a
  | err e => intro e' he'; cases he'; exact h e rfl
  | panic => intro e' he'; cases he'

theorem noWrite_okOr {α : Type} {o : Option α} {e : Err} (h : ¬WriteError e) : NoWrite (okOr o e) := by
  cases o with
  | none => intro e' he'; cases he'; exact h
  | some => intro e' he'; cases he'

theorem noWrite_mapErr {α : Type} {r : Res α} {e : Err} (h : ¬WriteError e) : NoWrite (r.mapErr e) := by
  cases r with
  | err => intro e' he'; cases he'; exact h
  | ok => intro e' he'; cases he'
  | panic => intro e' he'; cases he'

theorem noWrite_panic {α : Type} : NoWrite (.panic : Res α) := fun _ h => by cases h
theorem noWrite_ok {α : Type} (a : α) : NoWrite (.ok a : Res α) := fun _ h => by cases h

theorem noWrite_unwrapOr {α : Type} {r : Res α} {d : α} : NoWrite (r.unwrapOr d) := by
  cases r <;> intro e he <;> cases he

theorem noWrite_toOption {α : Type} {r : Res α} : NoWrite r.toOption? := by
  cases r <;> intro e he <;> cases he

theorem noWrite_decrypt (P : Prims) (v : Str) (k : Bytes) : NoWrite (Crypto.decryptData P v k) := by
  unfold Crypto.decryptData
  split
  · exact noWrite_panic
  · refine noWrite_bind (noWrite_okOr (by simp [WriteError])) fun x => noWrite_bind (noWrite_okOr (by simp [WriteError])) fun y => ?_
    split
    · exact noWrite_panic
    · exact noWrite_bind (noWrite_okOr (by simp [WriteError])) fun z => noWrite_okOr (by simp [WriteError])

theorem noWrite_get {α : Type} (E : Env) (w : World) (f : Json → Option α) (key : Str) (k : Bytes) :
    NoWrite (Storage.get E w f key k) :=
  noWrite_bind (noWrite_okOr (by simp [WriteError])) fun _ => noWrite_bind (noWrite_decrypt _ _ _) fun _ =>
    noWrite_okOr (by simp [WriteError])

theorem noWrite_first (E : Env) (w : World) (f : Json → Option Password) (sel : Str → Bool) (k : Bytes) :
    ∀ l, NoWrite (Storage.first E w f sel k l)
  | [] => noWrite_ok _
  | x :: l => by
    rw [Storage.first]
    split
    · refine noWrite_bind noWrite_toOption fun o => ?_
      cases o with
      | some v => exact noWrite_ok _
      | none => exact noWrite_first E w f sel k l
    · exact noWrite_first E w f sel k l

/-- A computation whose result does not blame writing. -/
def NoWriteM {σ α : Type} (m : M σ α) : Prop := ∀ s, NoWrite (m s).1

theorem noWriteM_lift {σ α : Type} {r : Res α} (h : NoWrite r) : NoWriteM (M.lift r : M σ α) := fun _ => h
theorem noWriteM_get {σ : Type} : NoWriteM (M.get : M σ σ) := fun _ => noWrite_ok _
theorem noWriteM_pure {σ α : Type} (a : α) : NoWriteM (pure a : M σ α) := fun _ => noWrite_ok _

theorem noWriteM_bind {σ α β : Type} {m : M σ α} {f : α → M σ β} (hm : NoWriteM m) (hf : ∀ a, NoWriteM (f a)) :
    NoWriteM (m >>= f) := by
  intro s
  have h := hm s
  rw [M.bind_apply]
  revert h
  cases m s with
  | mk r s' =>
    intro h
    cases r with
    | ok a => exact hf a s'
    | err e => intro e' he'; cases he'; exact h e rfl
    | panic => exact noWrite_panic

theorem noWriteM_onWorld {α : Type} {m : M World α} (h : NoWriteM m) : NoWriteM (Passwords.onWorld m) := fun s => h s.world

theorem noWriteM_set (E : Env) (key : Str) (j : Json) (k : Bytes) : NoWriteM (Storage.set E key j k) := by
  refine noWriteM_bind (noWriteM_bind (fun _ => noWrite_ok _) fun n => noWriteM_lift ?_) fun _ => fun _ => noWrite_ok _
  unfold Crypto.encryptData
  split
  · exact noWrite_panic
  · exact noWrite_ok _

theorem noWriteM_remove (key : Str) : NoWriteM (Storage.remove key) := by
  intro w
  unfold Storage.remove FileIO.remove
  split
  · exact noWrite_ok _
  · intro e he; cases he; simp [WriteError]

theorem noWriteM_ensure (E : Env) (site : Str) (h k : Bytes) : NoWriteM (Storage.ensureSiteData E site h k) := by
  refine noWriteM_bind noWriteM_get fun w => ?_
  cases Storage.get E w Serde.siteFromJson (Storage.siteKey E site h) k with
  | err _ => exact noWriteM_set E _ _ _
  | ok _ => exact noWriteM_pure ()
  | panic => exact noWriteM_lift noWrite_panic

theorem noWriteM_removeSites (E : Env) (h : Bytes) : ∀ l, NoWriteM (Passwords.removeSitesLoop E h l)
  | [] => noWriteM_pure ()
  | x :: l => by
    rw [Passwords.removeSitesLoop]
    exact noWriteM_bind (noWriteM_remove _) fun _ => noWriteM_removeSites E h l

theorem noWrite_secrets (s : PState) : NoWrite (Passwords.secrets s) :=
  noWrite_bind (noWrite_okOr (by simp [WriteError])) fun _ => noWrite_bind (noWrite_okOr (by simp [WriteError])) fun _ =>
    noWrite_ok _

theorem noWrite_pre (E : Env) (op : Op) : NoWriteM (pre E op) := by
  cases op with
  | setAlias a b =>
    refine noWriteM_bind noWriteM_get fun s => noWriteM_bind (noWriteM_lift (noWrite_secrets s)) fun x =>
      noWriteM_bind (noWriteM_lift noWrite_unwrapOr) fun y => noWriteM_bind (noWriteM_lift (noWrite_first E _ _ _ _ _)) fun o => ?_
    split
    · exact noWriteM_lift (fun e he => by cases he; simp [WriteError])
    · apply noWriteM_onWorld
      unfold Storage.setAlias
      split
      · exact noWriteM_lift (fun e he => by cases he; simp [WriteError])
      · exact noWriteM_set E _ _ _
  | removeAlias a =>
    refine noWriteM_bind noWriteM_get fun s => noWriteM_bind (noWriteM_lift (noWrite_secrets s)) fun x => noWriteM_onWorld ?_
    refine noWriteM_bind noWriteM_get fun w => noWriteM_bind (noWriteM_lift (noWrite_mapErr (by simp [WriteError]))) fun x => ?_
    split
    · exact noWriteM_lift (fun e he => by cases he; simp [WriteError])
    · exact noWriteM_remove _
  | removeSites l =>
    exact noWriteM_bind noWriteM_get fun s => noWriteM_bind (noWriteM_lift (noWrite_okOr (by simp [WriteError]))) fun x =>
      noWriteM_onWorld (noWriteM_removeSites E _ _)
  | setGenerated a n r len cs =>
    exact noWriteM_bind noWriteM_get fun s => noWriteM_bind (noWriteM_lift (noWrite_secrets s)) fun x =>
      noWriteM_bind (noWriteM_lift noWrite_unwrapOr) fun y =>
      noWriteM_bind (noWriteM_onWorld (noWriteM_ensure E _ _ _)) fun _ => noWriteM_onWorld (noWriteM_set E _ _ _)
  | setStored a n r v =>
    exact noWriteM_bind noWriteM_get fun s => noWriteM_bind (noWriteM_lift (noWrite_secrets s)) fun x =>
      noWriteM_bind (noWriteM_lift noWrite_unwrapOr) fun y =>
      noWriteM_bind (noWriteM_onWorld (noWriteM_ensure E _ _ _)) fun _ => noWriteM_onWorld (noWriteM_set E _ _ _)
  | setNotes a n r v =>
    exact noWriteM_bind noWriteM_get fun s => noWriteM_bind (noWriteM_lift (noWrite_secrets s)) fun x =>
      noWriteM_bind (noWriteM_lift noWrite_unwrapOr) fun y =>
      noWriteM_bind (noWriteM_lift (noWrite_get E _ _ _ _)) fun _ => noWriteM_onWorld (noWriteM_set E _ _ _)
  | remove a n r =>
    exact noWriteM_bind noWriteM_get fun s => noWriteM_bind (noWriteM_lift (noWrite_secrets s)) fun x =>
      noWriteM_bind (noWriteM_lift noWrite_unwrapOr) fun y => noWriteM_onWorld (noWriteM_remove _)
  | _ => exact noWriteM_pure ()

theorem flush_fpos (E : Env) (w : World) : (Storage.flush E w).2.fpos = w.fpos + 1 := by
  unfold Storage.flush FileIO.flush
  cases E.fs w.fpos <;> rfl

theorem flush_results (E : Env) (w : World) : (Storage.flush E w).1 = .ok () ∨ ∃ e, (Storage.flush E w).1 = .err e ∧ WriteError e := by
  by_cases h : E.fs w.fpos = .ok
  · left
    unfold Storage.flush FileIO.flush
    simp only [h]
  · exact .inr (flush_not_ok h)

/-- A result showing that the file was written or that this was tried. -/
def Tried : Res Out → Prop
  | .ok _ => True
  | .err e => WriteError e
  | .panic => False

theorem fpos_changing (E : Env) (op : Op) (h : op.changes = true) (s : PState) :
    (Tried (ask E s op) ∧ (after E s op).world.fpos = s.world.fpos + 1) ∨
    (¬Tried (ask E s op) ∧ (after E s op).world.fpos = s.world.fpos) := by
  have hq := (quiet_pre E op s).1.2.1
  have hn := noWrite_pre E op s
  unfold ask after
  rcases run_changing E op h s with ⟨e, hp, hr⟩ | ⟨hp, hr⟩ | ⟨hp, hr⟩
  · right
    rw [hr]
    exact ⟨hn e (by rw [hp]), hq⟩
  · right
    rw [hr]
    exact ⟨fun h => h, hq⟩
  · left
    rw [hr]
    refine ⟨?_, by rw [← hq]; exact flush_fpos E _⟩
    rcases flush_results E (pre E op s).2.world with h | ⟨e, h, he⟩
    · rw [h]; trivial
    · rw [h]; exact he

theorem fpos_reset (hE : E.Lawful) (p : Str) (s : PState) : (after E s (.reset p)).world.fpos = s.world.fpos + 1 := by
  have := flush_fpos E (clearedWorld E p s.world)
  unfold after
  simp only [run, reset_eq hE p s]
  revert this
  cases Storage.flush E (clearedWorld E p s.world) with
  | mk r w => intro h; cases r <;> exact h

theorem fpos_quiet (E : Env) (op : Op) (h : op.changes = false) (hr : ∀ p, op ≠ .reset p) (s : PState) :
    (after E s op).world.fpos = s.world.fpos := by
  unfold after
  cases op with
  | reset p => exact absurd rfl (hr p)
  | unlock p =>
    simp only [run, Passwords.unlock, M.bind_apply, M.get_apply, M.lift_apply]
    cases Storage.getSalt s.world with
    | err => rfl
    | panic => rfl
    | ok salt =>
      simp only
      cases getEncryptionKey E.prims p salt with
      | err => rfl
      | panic => rfl
      | ok key =>
        simp only
        cases Storage.getHmacSecret E s.world key <;> rfl
  | reload =>
    simp only [run, reload]
    split <;> rfl
  | removeSites l =>
    have hl : l = [] := by simpa [Op.changes] using h
    subst hl
    rfl
  | getRecoveryCode z =>
    simp only [run, Passwords.getRecoveryCode, M.bind_apply, M.get_apply, M.lift_apply]
    cases Storage.getSalt s.world with
    | err => rfl
    | panic => rfl
    | ok salt =>
      simp only
      cases okOr s.key .passwordsLocked <;> rfl
  | _ => first | rfl | cases h

/-! ## Twins -/

/-- States that differ in the values only. -/
def Paired (E : Env) (U : Universe) (s s' : PState) : Prop :=
  ∃ a a', Rep E U s a ∧ Rep E U s' a' ∧ Intact a ∧ Intact a' ∧ Alike a a' ∧ s'.world.fpos = s.world.fpos

theorem unlocked_of_rep {s : PState} {a : AState} (hrep : Rep E U s a) (ha : Intact a) (h : s.key = none) :
    a.unlocked = false := by
  have hmem := hrep.mem
  cases hm : a.mem with
  | blank => rw [hm] at hmem; exact hmem.2.1
  | torn => exact absurd hm ha.1
  | store q V =>
    rw [hm] at hmem
    obtain ⟨pos, _, hses⟩ := hmem
    cases hu : a.unlocked with
    | false => rfl
    | true => rw [hu] at hses; rw [hses.1] at h; cases h

theorem reload_isStore (hE : E.Lawful) (hS : Secure E U) {s : PState} {a : AState} (hrep : Rep E U s a) (ha : Intact a) :
    ask E s .reload = .ok .unit ↔ Disk.isStore a.disk = true := by
  obtain ⟨wr, _, h1, -⟩ := step hE hS hrep .reload trivial
  change (astep _ _ wr a .reload).1 (ask E s .reload) at h1
  simp only [astep] at h1
  cases hd : a.disk with
  | missing =>
    rw [hd] at h1
    have h1 : ask E s .reload = _ := h1
    rw [h1]; simp [Disk.isStore]
  | unreadable =>
    rw [hd] at h1
    rcases h1 with h1 | h1 <;> (rw [h1]; simp [Disk.isStore])
  | store p V =>
    rw [hd] at h1
    have h1 : ask E s .reload = _ := h1
    rw [h1]; simp [Disk.isStore]
  | torn => exact absurd hd ha.2

/-- Every plain operation has one possible result. -/
theorem plain_exactly {derive : Str → PasswordId → UInt64 → CharacterSet → Res Str} {wild : Str → Str → Bool} {w : Write}
    {a : AState} (ha : Intact a) {op : Op} (h : plainOp op = true) {r r' : Res Out}
    (h1 : (astep derive wild w a op).1 r) (h2 : (astep derive wild w a op).1 r') : r' = r := by
  have hx : ∃ x, (astep derive wild w a op).1 = exactly x := by
    have hlocked : ∀ op, plainOp op = true → special op = false → ∃ x, (astepLocked a op).1 = exactly x := by
      intro op h hsp
      cases op with
      | list => cases h
      | listSites => cases h
      | _ => first | exact Bool.noConfusion hsp | exact ⟨_, rfl⟩
    have hunlocked : ∀ p V op, plainOp op = true → special op = false → ∃ x, (astepUnlocked derive wild a p V w op).1 = exactly x := by
      intro p V op h hsp
      cases op with
      | setAlias x y =>
        simp only [astepUnlocked]
        split
        · exact ⟨_, rfl⟩
        · split <;> exact ⟨_, rfl⟩
      | removeSites l =>
        simp only [astepUnlocked]
        split
        · exact ⟨_, rfl⟩
        · split <;> exact ⟨_, rfl⟩
      | get => cases h
      | list => cases h
      | listSites => cases h
      | getRecoveryCode => cases h
      | _ => first | exact Bool.noConfusion hsp | exact ⟨_, rfl⟩ | (simp only [astepUnlocked]; split <;> exact ⟨_, rfl⟩)
    by_cases hsp : special op = true
    · cases op with
      | reload => cases h
      | reset => exact ⟨_, rfl⟩
      | lock => exact ⟨_, rfl⟩
      | unlock q =>
        cases hm : a.mem with
        | torn => exact absurd hm ha.1
        | blank => simp only [astep, hm]; exact ⟨_, rfl⟩
        | store p V => simp only [astep, hm]; split <;> exact ⟨_, rfl⟩
      | initialized =>
        cases hm : a.mem with
        | torn => exact absurd hm ha.1
        | blank => simp only [astep, hm]; exact ⟨_, rfl⟩
        | store p V => simp only [astep, hm]; exact ⟨_, rfl⟩
      | unlocked =>
        cases hm : a.mem with
        | torn => exact absurd hm ha.1
        | blank => simp only [astep, hm]; exact ⟨_, rfl⟩
        | store p V => simp only [astep, hm]; exact ⟨_, rfl⟩
      | _ => cases hsp
    · have hsp : special op = false := by simpa using hsp
      cases hm : a.mem with
      | torn => exact absurd hm ha.1
      | blank =>
        have : astep derive wild w a op = astepLocked a op := by
          cases op <;> first | exact Bool.noConfusion hsp | simp only [astep, hm]
        rw [this]
        exact hlocked op h hsp
      | store p V =>
        have : astep derive wild w a op = if a.unlocked then astepUnlocked derive wild a p V w op else astepLocked a op := by
          cases op <;> first | exact Bool.noConfusion hsp | simp only [astep, hm]
        rw [this]
        split
        · exact hunlocked p V op h hsp
        · exact hlocked op h hsp
  obtain ⟨x, hx⟩ := hx
  rw [hx] at h1 h2
  exact h2.trans h1.symm

/-- One step of both. -/
theorem Paired.step (hE : E.Lawful) (hS : Secure E U) {s s' : PState} (h : Paired E U s s') {op op' : Op} (hop : SameOp op op')
    (hw : op.Within U) (hw' : op'.Within U)
    (hreset : ∀ p, op = .reset p → ask E s op = .ok .unit ∨ s.key = none)
    (hreload : op = .reload → (ask E s op = .ok .unit ↔ ask E s' op = .ok .unit)) :
    (plainOp op = true → ask E s' op' = ask E s op) ∧ Paired E U (after E s op) (after E s' op') := by
  obtain ⟨a, a', hr, hr', hi, hi', hal, hf⟩ := h
  obtain ⟨w, hwf, h1, h2⟩ := Pfp.step hE hS hr op hw
  obtain ⟨w', hwf', h1', h2'⟩ := Pfp.step hE hS hr' op' hw'
  rw [hf] at hwf'
  have hal' := astep_alike (derive := deriveWith E.prims) (wild := E.wild) hal hi hi' hwf hwf' hop (by
    rintro rfl
    rw [← reload_isStore hE hS hr hi, ← reload_isStore hE hS hr' hi']
    exact hreload rfl)
  have hplain : plainOp op = true → ask E s' op' = ask E s op := by
    intro hp
    refine plain_exactly hi hp h1 ?_
    rw [← hal'.1 hp]
    exact h1'
  have hres : ∀ p, op = .reset p → w = .ok ∨ a.unlocked = false := by
    rintro p rfl
    rcases hreset p rfl with h | h
    · left
      have h1 : ask E s (.reset p) = _ := h1
      rw [h] at h1
      exact result_ok h1.symm
    · exact .inr (unlocked_of_rep hr hi h)
  refine ⟨hplain, _, _, h2, h2', astep_intact hi op hres, astep_intact hi' op' ?_, hal'.2, ?_⟩
  · rintro p hp
    cases hop with
    | value => cases hp
    | same =>
      rcases hres p hp with h | h
      · exact .inl ((writeFor_result hwf hwf').2.mpr h)
      · exact .inr (hal.unlocked.trans h)
  · by_cases hc : op.changes = true
    · have hc' : op'.changes = true := by cases hop <;> exact hc
      have hp : plainOp op = true := by cases op <;> first | rfl | cases hc
      have he := hplain hp
      rcases fpos_changing E op hc s with ⟨t, e⟩ | ⟨t, e⟩ <;> rcases fpos_changing E op' hc' s' with ⟨t', e'⟩ | ⟨t', e'⟩
      · rw [e, e', hf]
      · rw [he] at t'; exact absurd t t'
      · rw [he] at t'; exact absurd t' t
      · rw [e, e', hf]
    · have hc : op.changes = false := by simpa using hc
      have hc' : op'.changes = false := by cases hop <;> exact hc
      by_cases hrs : ∃ p, op = .reset p
      · obtain ⟨p, rfl⟩ := hrs
        cases hop
        rw [fpos_reset hE, fpos_reset hE, hf]
      · have hn : ∀ p, op ≠ .reset p := fun p h => hrs ⟨p, h⟩
        have hn' : ∀ p, op' ≠ .reset p := by
          intro p h
          cases hop with
          | same => exact hn p h
          | value => cases h
        rw [fpos_quiet E op hc hn, fpos_quiet E op' hc' hn', hf]

theorem Twins.paired (hE : E.Lawful) (hS : Secure E U) {s s' : PState} (h : Twins E U s s') : Paired E U s s' := by
  induction h with
  | same h =>
    obtain ⟨a, hr, hi⟩ := reach hE hS h
    exact ⟨a, a, hr, hr, hi, hi, ⟨rfl, rfl, .inl rfl⟩, rfl⟩
  | meanwhile h ho hm hm' hf ih iho =>
    obtain ⟨a, a', hr, hr', hi, hi', hal, -⟩ := ih
    obtain ⟨b, b', hrb, hrb', hib, hib', halb, -⟩ := iho
    obtain ⟨d, hd, hd'⟩ := rep_meanwhile hr hrb hm
    obtain ⟨e, he, he'⟩ := rep_meanwhile hr' hrb' hm'
    refine ⟨_, _, hd, he, ⟨hi.1, ?_⟩, ⟨hi'.1, ?_⟩, ⟨hal.unlocked, hal.mem, ?_⟩, hf⟩
    · rcases hd' with rfl | rfl
      · exact hib.2
      · simp
    · rcases he' with rfl | rfl
      · exact hib'.2
      · simp
    · rcases hd' with rfl | rfl <;> rcases he' with rfl | rfl
      · exact halb.disk
      · exact .inr (.inl rfl)
      · exact .inr (.inr rfl)
      · exact .inl rfl
  | step h op hop hreset hreload ih => exact (ih.step hE hS (.same op) hop hop hreset hreload).2
  | value h a n r v v' ha hn hr ih =>
    exact (ih.step hE hS (.value a n r v v') ⟨ha, hn, hr⟩ ⟨ha, hn, hr⟩ (fun _ h => by cases h) (fun h => by cases h)).2

end Pfp
