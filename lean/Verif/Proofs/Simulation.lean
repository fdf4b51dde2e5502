import Verif.Proofs.Represent

/-!
# The code simulates the abstract machine
-/

namespace Pfp

open Spec

variable {E : Env} {U : Universe}

/-! ## Storages -/

namespace RepStore
variable {pos : Origin} {p : Str} {d : Data} {V : Vault}

theorem perm (R : RepStore E U pos p d V) {d' : Data} (hp : d.Perm d') : RepStore E U pos p d' V := by
  have hg := Data.get?_perm hp R.vault.nodup
  exact ⟨R.vault.perm hp, R.primary, R.origin, by rw [← hg]; exact R.salt, by rw [← hg]; exact R.secret⟩

theorem set_site (R : RepStore E U pos p d V) (hS : Secure E U) {s : Str} {t : Option Str} {v : Str}
    (hs : U.site s) (ht : ∀ x, t = some x → U.site x)
    (hv : SiteEnc E.prims pos.Foreign (keyFor E.prims p (saltAt E pos)) ⟨s, t⟩ v) :
    RepStore E U pos p (d.insert (Storage.siteKey E s (secretAt E pos)) v)
      { V with sites := update V.sites s (some t) } := by
  refine ⟨R.vault.set_site (hS.collisionFree pos R.origin) hs ht hv, R.primary, R.origin, ?_, ?_⟩
  · rw [Data.get?_insert, if_neg (Storage.siteKey_ne_salt _ _ _).symm]; exact R.salt
  · rw [Data.get?_insert, if_neg (Storage.siteKey_ne_hmac _ _ _).symm]; exact R.secret

theorem remove_site (R : RepStore E U pos p d V) (hS : Secure E U) {s : Str} (hs : U.site s) :
    RepStore E U pos p (d.erase (Storage.siteKey E s (secretAt E pos))) (V.forget s) := by
  refine ⟨R.vault.remove_site (hS.collisionFree pos R.origin) hs, R.primary, R.origin, ?_, ?_⟩
  · rw [Data.get?_erase, if_neg (Storage.siteKey_ne_salt _ _ _).symm]; exact R.salt
  · rw [Data.get?_erase, if_neg (Storage.siteKey_ne_hmac _ _ _).symm]; exact R.secret

theorem set_password (R : RepStore E U pos p d V) (hS : Secure E U) {i : PasswordId} {e : Entry} {v : Str}
    (hi : U.id i) (hr : i.revision ≠ c!"1")
    (hv : PasswordEnc E.prims pos.Foreign (keyFor E.prims p (saltAt E pos)) (Vault.record i e) v) :
    RepStore E U pos p (d.insert (Storage.passwordKey E i (secretAt E pos)) v) (V.put i e) := by
  refine ⟨R.vault.set_password (hS.collisionFree pos R.origin) hi hr hv, R.primary, R.origin, ?_, ?_⟩
  · rw [Data.get?_insert, if_neg (Storage.passwordKey_ne_salt _ _ _).symm]; exact R.salt
  · rw [Data.get?_insert, if_neg (Storage.passwordKey_ne_hmac _ _ _).symm]; exact R.secret

theorem remove_password (R : RepStore E U pos p d V) (hS : Secure E U) {i : PasswordId} (hi : U.id i) :
    RepStore E U pos p (d.erase (Storage.passwordKey E i (secretAt E pos))) (V.delete i) := by
  refine ⟨R.vault.remove_password (hS.collisionFree pos R.origin) hi, R.primary, R.origin, ?_, ?_⟩
  · rw [Data.get?_erase, if_neg (Storage.passwordKey_ne_salt _ _ _).symm]; exact R.salt
  · rw [Data.get?_erase, if_neg (Storage.passwordKey_ne_hmac _ _ _).symm]; exact R.secret

theorem initialized {w : World} (R : RepStore E U pos p w.data V) : Storage.initialized w = true := by
  unfold Storage.initialized FileIO.containsKey Data.contains
  rw [R.salt, R.secret]; rfl

theorem getSalt_eq {w : World} (R : RepStore E U pos p w.data V) : Storage.getSalt w = .ok (saltAt E pos) := by
  unfold Storage.getSalt FileIO.get
  rw [R.salt]
  simp [Base64.decode_encode]

end RepStore

theorem getEncryptionKey_keyFor (P : Prims) (p : Str) (salt : Bytes) : getEncryptionKey P p salt = .ok (keyFor P p salt) :=
  RecoveryCodes.getEncryptionKey_eq P p salt

/-! ## States -/

/-- The file holds what the abstract file says. -/
def DiskRep (E : Env) (U : Universe) (disk : Option Bytes) : Disk → Prop
  | .missing => disk = none
  | .unreadable => FileIO.load disk = .err .fileReadFailure ∨ FileIO.load disk = .err .invalidJson
  | .store p V => ∃ pos d, FileIO.load disk = .ok d ∧ RepStore E U pos p d V
  | .torn => True

/-- The secrets held are those of the storage, or none. -/
def Session (E : Env) (pos : Origin) (p : Str) (s : PState) : Bool → Prop
  | true => s.key = some (keyFor E.prims p (saltAt E pos)) ∧ s.hmacSecret = some (secretAt E pos) ∧
      s.primaryPassword = some p
  | false => s.key = none ∧ s.hmacSecret = none ∧ s.primaryPassword = none

/-- The memory holds what the abstract memory says. -/
def MemRep (E : Env) (U : Universe) (s : PState) (unlocked : Bool) : Mem → Prop
  | .blank => s.world.data = [] ∧ unlocked = false ∧ s.key = none ∧ s.hmacSecret = none ∧ s.primaryPassword = none
  | .store p V => ∃ pos, RepStore E U pos p s.world.data V ∧ Session E pos p s unlocked
  | .torn => True

/-- A state and an abstract state correspond. -/
structure Rep (E : Env) (U : Universe) (s : PState) (a : AState) : Prop where
  mem : MemRep E U s a.unlocked a.mem
  disk : DiskRep E U s.world.disk a.disk

theorem exists_write (o : FlushOutcome) : ∃ wr, WriteFor o wr := by
  cases o with
  | ok => exact ⟨.ok, rfl⟩
  | createDirFailure => exact ⟨.noDirectory, rfl⟩
  | openFailure => exact ⟨.notOpened, rfl⟩
  | writeFailure n => exact ⟨.lost, .inl rfl⟩

/-! ## Writing the file -/

theorem flush_data (E : Env) (w : World) : (Storage.flush E w).2.data = w.data := by
  unfold Storage.flush FileIO.flush
  simp only
  split <;> rfl

theorem flush_rep {w : World} {pos : Origin} {p : Str} {V : Vault} {D : Disk} (hE : E.Lawful)
    (R : RepStore E U pos p w.data V) (hD : DiskRep E U w.disk D) :
    ∃ wr, WriteFor (E.fs w.fpos) wr ∧ (Storage.flush E w).1.map (fun _ => Out.unit) = wr.result ∧
      DiskRep E U (Storage.flush E w).2.disk (wr.disk D (.store p V)) := by
  have hperm : w.data.Perm (FileIO.entries E w).reverse :=
    (hE.order w.epoch w.data).symm.trans (List.reverse_perm _).symm
  have hnd : ((FileIO.entries E w).map (·.1)).Nodup :=
    ((hE.order w.epoch w.data).map _).nodup_iff.mpr R.vault.nodup
  have hfull : DiskRep E U (some (FileIO.contents (FileIO.entries E w))) (.store p V) :=
    ⟨pos, _, FileIO.load_contents _ hnd, R.perm hperm⟩
  unfold Storage.flush FileIO.flush
  cases hfs : E.fs w.fpos with
  | ok => exact ⟨.ok, rfl, rfl, hfull⟩
  | createDirFailure => exact ⟨.noDirectory, rfl, rfl, hD⟩
  | openFailure => exact ⟨.notOpened, rfl, rfl, hD⟩
  | writeFailure n =>
    by_cases hn : n < (FileIO.contents (FileIO.entries E w)).length
    · exact ⟨.lost, .inl rfl, rfl, FileIO.load_prefix _ n hn⟩
    · refine ⟨.written, .inr rfl, rfl, ?_⟩
      simp only
      rw [List.take_of_length_le (by omega)]
      exact hfull

/-- A change of the contents followed by writing the file. -/
theorem finish {w1 : World} {s : PState} {a : AState} {pos : Origin} {p : Str} {V' : Vault} (hE : E.Lawful)
    (hmem : Session E pos p s a.unlocked) (hdisk : DiskRep E U s.world.disk a.disk)
    (R : RepStore E U pos p w1.data V') (hd : w1.disk = s.world.disk) (hf : w1.fpos = s.world.fpos) :
    ∃ wr, WriteFor (E.fs s.world.fpos) wr ∧
      (a.commit p V' wr).1 ((Storage.flush E w1).1.map fun _ => Out.unit) ∧
      Rep E U { s with world := (Storage.flush E w1).2 } (a.commit p V' wr).2 := by
  rw [← hd] at hdisk
  obtain ⟨wr, h1, h2, h3⟩ := flush_rep hE R hdisk
  refine ⟨wr, by rw [← hf]; exact h1, h2, ⟨⟨pos, ?_, ?_⟩, ?_⟩⟩
  · simp only [flush_data]; exact R
  · simp only [AState.commit]
    cases hu : a.unlocked <;> (rw [hu] at hmem; exact hmem)
  · exact h3

theorem onWorld_then_flush {m : M World Unit} {s : PState} {w1 : World} (hm : m s.world = (.ok (), w1)) :
    (do Passwords.onWorld m; Passwords.onWorld (Storage.flush E)) s =
      ((Storage.flush E w1).1, { s with world := (Storage.flush E w1).2 }) := by
  rw [M.bind_apply]
  simp only [Passwords.onWorld, hm]

theorem onWorld_ok {α : Type} {m : M World Unit} {f : Unit → M PState α} {s : PState} {w1 : World}
    (hm : m s.world = (.ok (), w1)) : (Passwords.onWorld m >>= f) s = f () { s with world := w1 } := by
  rw [M.bind_apply]
  simp only [Passwords.onWorld, hm]

/-! ## Operations on an unlocked storage -/

section Unlocked
variable {s : PState} {a : AState} {pos : Origin} {p : Str} {V : Vault}

theorem secrets_eq (h : Session E pos p s true) :
    Passwords.secrets s = .ok (secretAt E pos, keyFor E.prims p (saltAt E pos)) := by
  unfold Passwords.secrets
  rw [h.1, h.2.1]; rfl

/-- What a step on an unlocked storage has to show. -/
def StepOk (E : Env) (U : Universe) (s : PState) (r : Res Out × PState) (f : Write → Outcomes × AState) : Prop :=
  ∃ wr, WriteFor (E.fs s.world.fpos) wr ∧ (f wr).1 r.1 ∧ Rep E U r.2 (f wr).2

theorem StepOk.same {r : Res Out} (hrep : Rep E U s a) {o : Outcomes} (ho : o r) :
    StepOk E U s (r, s) fun _ => (o, a) := by
  obtain ⟨wr, h⟩ := exists_write (E.fs s.world.fpos)
  exact ⟨wr, h, ho, hrep⟩

theorem siteEnc_setWorld (E : Env) (F : Prop) (x : Site) (k : Bytes) (w : World) :
    SiteEnc E.prims F k x (encText E.prims k (FileIO.randBytes E w.rpos 12) (Serde.siteToJson x)) :=
  siteEnc_own _ _ _ _ (randBytes_length _ _ _) _

theorem passwordEnc_setWorld (E : Env) (F : Prop) (x : Password) (k : Bytes) (w : World) :
    PasswordEnc E.prims F k x (encText E.prims k (FileIO.randBytes E w.rpos 12) (Serde.passwordToJson x)) :=
  passwordEnc_own _ _ _ _ (randBytes_length _ _ _) _

/-- `ensure_site_data` makes the site known. -/
theorem ensureSiteData_eq {w : World} (hE : E.Lawful) (hS : Secure E U) (R : RepStore E U pos p w.data V) {site : Str}
    (hs : U.site site) :
    ∃ w1, Storage.ensureSiteData E site (secretAt E pos) (keyFor E.prims p (saltAt E pos)) w = (.ok (), w1) ∧
      RepStore E U pos p w1.data (V.know site) ∧ w1.disk = w.disk ∧ w1.fpos = w.fpos := by
  have hk := keyFor_length hE.prims p (saltAt E pos)
  unfold Storage.ensureSiteData
  rw [M.bind_apply]
  simp only [M.get_apply]
  rw [R.vault.get_site hE.prims hk (hS.collisionFree pos R.origin) hs]
  cases hV : V.sites site with
  | none =>
    simp only
    rw [Storage.set_eq E _ _ _ hk]
    refine ⟨_, rfl, ?_, rfl, rfl⟩
    rw [Vault.know, if_pos hV]
    exact R.set_site hS hs (fun x hx => by cases hx) (siteEnc_setWorld E _ _ _ _)
  | some t =>
    refine ⟨w, rfl, ?_, rfl, rfl⟩
    rw [Vault.know, if_neg (by simp [hV])]
    exact R

theorem know_passwords (V : Vault) (x : Str) : (V.know x).passwords = V.passwords := by
  unfold Vault.know; split <;> rfl

/-- Entering a password. -/
theorem step_put (hE : E.Lawful) (hS : Secure E U) (hu : a.unlocked = true)
    (R : RepStore E U pos p s.world.data V) (hses : Session E pos p s true)
    (hdisk : DiskRep E U s.world.disk a.disk) {site name revision : Str} (hs : U.site site) (hn : U.name name)
    (hr : U.revision revision) (sec : Secret) :
    StepOk E U s
      (((do
          Passwords.onWorld (Storage.ensureSiteData E (V.resolve site) (secretAt E pos) (keyFor E.prims p (saltAt E pos)))
          Passwords.onWorld (Storage.set E (Storage.passwordKey E (V.idOf site name revision) (secretAt E pos))
            (Serde.passwordToJson (Vault.record (V.idOf site name revision) ⟨sec, []⟩)) (keyFor E.prims p (saltAt E pos)))
          Passwords.onWorld (Storage.flush E) : M PState Unit) s).1.map (fun _ => Out.unit),
        ((do
          Passwords.onWorld (Storage.ensureSiteData E (V.resolve site) (secretAt E pos) (keyFor E.prims p (saltAt E pos)))
          Passwords.onWorld (Storage.set E (Storage.passwordKey E (V.idOf site name revision) (secretAt E pos))
            (Serde.passwordToJson (Vault.record (V.idOf site name revision) ⟨sec, []⟩)) (keyFor E.prims p (saltAt E pos)))
          Passwords.onWorld (Storage.flush E) : M PState Unit) s).2)
      fun wr => a.commit p ((V.know (V.resolve site)).put (V.idOf site name revision) ⟨sec, []⟩) wr := by
  have hk := keyFor_length hE.prims p (saltAt E pos)
  obtain ⟨w1, h1, R1, hd1, hf1⟩ := ensureSiteData_eq hE hS R (R.vault.resolve_in hs)
  rw [onWorld_ok h1]
  rw [onWorld_then_flush (Storage.set_eq E _ _ _ hk _)]
  rw [← hu] at hses
  exact finish hE hses hdisk (w1 := Storage.setWorld E _ _ _ w1)
    (R1.set_password hS (R.vault.idOf_in hs hn hr) (RepVault.idOf_revision _ _ _ _) (passwordEnc_setWorld E _ _ _ _)) hd1 hf1

theorem removeSitesLoop_eq (hS : Secure E U) : ∀ (l : List Str) (w : World) (V : Vault),
    RepStore E U pos p w.data V → (∀ x ∈ l, U.site x) →
    ∃ w1, Passwords.removeSitesLoop E (secretAt E pos) l w =
        (if (V.forgetAll l).1 then .ok () else .err .keyMissing, w1) ∧
      RepStore E U pos p w1.data (V.forgetAll l).2 ∧ w1.disk = w.disk ∧ w1.fpos = w.fpos
  | [], w, V, R, _ => ⟨w, rfl, R, rfl, rfl⟩
  | x :: l, w, V, R, h => by
    have hx := h x (by simp)
    rw [Passwords.removeSitesLoop, M.bind_apply, Storage.removeSite, Storage.remove, FileIO.remove]
    cases hV : V.sites x with
    | none =>
      have := R.vault.site_out (hS.collisionFree pos R.origin) hx hV
      have hc : w.data.contains (Storage.siteKey E x (secretAt E pos)) = false := by
        rw [Data.contains, this]; rfl
      rw [if_neg (by simp [hc]), Vault.forgetAll, if_pos hV]
      exact ⟨w, rfl, R, rfl, rfl⟩
    | some t =>
      obtain ⟨_, _, v, hv, _⟩ := R.vault.site_in x t hV
      have hc : w.data.contains (Storage.siteKey E x (secretAt E pos)) = true := by
        rw [Data.contains, hv]; rfl
      have hf : V.forgetAll (x :: l) = (V.forget x).forgetAll l := by rw [Vault.forgetAll, if_neg (by simp [hV])]
      rw [if_pos hc, hf]
      exact removeSitesLoop_eq hS l { w with data := _, epoch := w.epoch + 1 } _ (R.remove_site hS hx) fun y hy => h y (List.mem_cons_of_mem _ hy)

theorem record_setNotes (i : PasswordId) (e : Entry) (notes : Str) :
    (Vault.record i e).setNotes notes = Vault.record i { e with notes } := by
  obtain ⟨sec, n⟩ := e
  cases sec <;> rfl

theorem record_notes (i : PasswordId) (e : Entry) : (Vault.record i e).notes = e.notes := by
  obtain ⟨sec, n⟩ := e
  cases sec <;> rfl

theorem salt_eq (g : GeneratedPassword) : g.salt = saltText g.id := by
  unfold GeneratedPassword.salt saltText
  by_cases h : g.id.revision = []
  · rw [if_neg (by simp [h]), if_pos h]
  · rw [if_pos h, if_neg h]

/-- The operations that do not need an unlocked storage. -/
def special : Op → Bool
  | .reset _ => true
  | .reload => true
  | .lock => true
  | .unlock _ => true
  | .initialized => true
  | .unlocked => true
  | _ => false

/-- One step on an unlocked storage. -/
theorem step_unlocked (hE : E.Lawful) (hS : Secure E U) (hu : a.unlocked = true) (hm : a.mem = .store p V)
    (R : RepStore E U pos p s.world.data V) (hses : Session E pos p s true)
    (hdisk : DiskRep E U s.world.disk a.disk) (op : Op) (hop : op.Within U)
    (hspecial : special op = false) :
    StepOk E U s (run E op s) fun wr => astepUnlocked (deriveWith E.prims) E.wild a p V wr op := by
  have hk := keyFor_length hE.prims p (saltAt E pos)
  have hc := hS.collisionFree pos R.origin
  have hsec := secrets_eq hses
  have hrep : Rep E U s a := ⟨by rw [hm, hu]; exact ⟨pos, R, hses⟩, hdisk⟩
  have hses' : Session E pos p s a.unlocked := by rw [hu]; exact hses
  cases op with
  | reset => cases hspecial
  | reload => cases hspecial
  | lock => cases hspecial
  | unlock => cases hspecial
  | initialized => cases hspecial
  | unlocked => cases hspecial
  | setAlias site target =>
    obtain ⟨hs, ht⟩ := hop
    obtain ⟨o, ho, hiff⟩ := R.vault.firstPassword_eq hE hk hc (U.site_canonical site hs)
    have hrun : Passwords.setAlias E site target s =
        if o.isSome then (.err .siteHasPasswords, s)
        else (do
          Passwords.onWorld (Storage.setAlias E (canonical site) (V.resolve target) (secretAt E pos)
            (keyFor E.prims p (saltAt E pos)))
          Passwords.onWorld (Storage.flush E) : M PState Unit) s := by
      unfold Passwords.setAlias
      simp only [M.bind_apply, M.get_apply, M.lift_apply, hsec, RepVault.normalizeSite_eq,
        R.vault.resolve_eq hE.prims hk hc ht, ho]
      cases o <;> rfl
    simp only [run]
    rw [hrun]
    by_cases hp : V.HasPasswords (canonical site)
    · rw [if_pos (hiff.mpr hp)]
      simp only [astepUnlocked, if_pos hp]
      exact StepOk.same hrep rfl
    · rw [if_neg fun h => hp (hiff.mp h)]
      simp only [astepUnlocked, if_neg hp]
      by_cases he : canonical site = V.resolve target
      · simp only [if_pos he]
        have : (do
          Passwords.onWorld (Storage.setAlias E (canonical site) (V.resolve target) (secretAt E pos)
            (keyFor E.prims p (saltAt E pos)))
          Passwords.onWorld (Storage.flush E) : M PState Unit) s = (.err .aliasToSelf, s) := by
          rw [M.bind_apply]
          simp only [Passwords.onWorld, Storage.setAlias, if_pos he, M.lift_apply]
        rw [this]
        exact StepOk.same hrep rfl
      · simp only [if_neg he]
        have hset : Storage.setAlias E (canonical site) (V.resolve target) (secretAt E pos)
            (keyFor E.prims p (saltAt E pos)) s.world = (.ok (), Storage.setWorld E
              (Storage.siteKey E (canonical site) (secretAt E pos))
              (Serde.siteToJson ⟨canonical site, some (V.resolve target)⟩)
              (keyFor E.prims p (saltAt E pos)) s.world) := by
          unfold Storage.setAlias
          rw [if_neg he]
          exact Storage.set_eq E _ _ _ hk _
        rw [onWorld_then_flush hset]
        exact finish hE hses' hdisk (w1 := Storage.setWorld E _ _ _ s.world)
          (R.set_site hS (U.site_canonical site hs) (fun x hx => by cases hx; exact R.vault.resolve_in ht)
            (siteEnc_setWorld E _ _ _ _)) rfl rfl
  | removeAlias site =>
    have hs := U.site_canonical site hop
    have hget := R.vault.get_site hE.prims hk hc hs
    cases hV : V.sites (canonical site) with
    | none =>
      have : Passwords.removeAlias E site s = (.err .noSuchAlias, s) := by
        rw [hV] at hget
        unfold Passwords.removeAlias
        simp only [M.bind_apply, M.get_apply, M.lift_apply, hsec, RepVault.normalizeSite_eq, Passwords.onWorld,
          Storage.removeAlias, hget, Res.mapErr_err]
      simp only [run, this, astepUnlocked, hV]
      exact StepOk.same hrep rfl
    | some t =>
      cases t with
      | none =>
        have : Passwords.removeAlias E site s = (.err .noSuchAlias, s) := by
          rw [hV] at hget
          unfold Passwords.removeAlias
          simp only [M.bind_apply, M.get_apply, M.lift_apply, hsec, RepVault.normalizeSite_eq, Passwords.onWorld,
            Storage.removeAlias, hget, Res.mapErr_ok]
          rfl
        simp only [run, this, astepUnlocked, hV]
        exact StepOk.same hrep rfl
      | some t =>
        have hrem : Storage.removeAlias E (canonical site) (secretAt E pos) (keyFor E.prims p (saltAt E pos)) s.world =
            (.ok (), { s.world with data := s.world.data.erase (Storage.siteKey E (canonical site) (secretAt E pos)),
                                    epoch := s.world.epoch + 1 }) := by
          rw [hV] at hget
          unfold Storage.removeAlias
          simp only [M.bind_apply, M.get_apply, M.lift_apply, hget, Res.mapErr_ok]
          obtain ⟨_, _, v, hv, _⟩ := R.vault.site_in _ _ hV
          have hcon : s.world.data.contains (Storage.siteKey E (canonical site) (secretAt E pos)) = true := by
            rw [Data.contains, hv]; rfl
          simp only [Option.isNone_some, Bool.false_eq_true, if_false, Storage.remove, FileIO.remove, hcon, if_true]
        have : Passwords.removeAlias E site s = (do
            Passwords.onWorld (Storage.removeAlias E (canonical site) (secretAt E pos) (keyFor E.prims p (saltAt E pos)))
            Passwords.onWorld (Storage.flush E) : M PState Unit) s := by
          unfold Passwords.removeAlias
          simp only [M.bind_apply, M.get_apply, M.lift_apply, hsec, RepVault.normalizeSite_eq]
        simp only [run, this, astepUnlocked, hV]
        rw [onWorld_then_flush hrem]
        exact finish hE hses' hdisk (w1 := { s.world with data := _, epoch := _ }) (R.remove_site hS hs) rfl rfl
  | removeSites l =>
    by_cases hl : l = []
    · subst hl
      simp only [run, astepUnlocked, if_true]
      exact StepOk.same hrep rfl
    · obtain ⟨w1, h1, R1, hd1, hf1⟩ := removeSitesLoop_eq (p := p) hS l s.world V R hop
      have : Passwords.removeSites E l s = (do
            Passwords.onWorld (Passwords.removeSitesLoop E (secretAt E pos) l)
            Passwords.onWorld (Storage.flush E) : M PState Unit) s := by
        unfold Passwords.removeSites
        rw [if_neg hl]
        simp only [M.bind_apply, M.get_apply, M.lift_apply, hses.2.1, okOr_some]
      simp only [run, this, astepUnlocked, if_neg hl]
      by_cases hf : (V.forgetAll l).1 = true
      · simp only [hf, if_true] at h1
        rw [onWorld_then_flush h1]
        simp only [hf, if_true]
        exact finish hE hses' hdisk R1 hd1 hf1
      · simp only [hf] at h1
        rw [M.bind_apply]
        simp only [Passwords.onWorld, h1, hf]
        obtain ⟨wr, hwr⟩ := exists_write (E.fs s.world.fpos)
        refine ⟨wr, hwr, rfl, ⟨⟨pos, R1, ?_⟩, ?_⟩⟩
        · show Session E pos p _ a.unlocked
          rw [hu]; exact hses
        · show DiskRep E U w1.disk a.disk
          rw [hd1]; exact hdisk
  | setGenerated site name revision length charset =>
    obtain ⟨hs, hn, hr⟩ := hop
    have : Passwords.setGenerated E site name revision length charset s = (do
          Passwords.onWorld (Storage.ensureSiteData E (V.resolve site) (secretAt E pos) (keyFor E.prims p (saltAt E pos)))
          Passwords.onWorld (Storage.set E (Storage.passwordKey E (V.idOf site name revision) (secretAt E pos))
            (Serde.passwordToJson (Vault.record (V.idOf site name revision) ⟨.generated length charset, []⟩))
            (keyFor E.prims p (saltAt E pos)))
          Passwords.onWorld (Storage.flush E) : M PState Unit) s := by
      unfold Passwords.setGenerated
      simp only [M.bind_apply, M.get_apply, M.lift_apply, hsec, R.vault.resolve_eq hE.prims hk hc hs,
        Storage.setGenerated, GeneratedPassword.new, RepVault.new_eq, Vault.record]
    simp only [run, this, astepUnlocked]
    exact step_put hE hS hu R hses hdisk hs hn hr (.generated length charset)
  | setStored site name revision value =>
    obtain ⟨hs, hn, hr⟩ := hop
    have : Passwords.setStored E site name revision value s = (do
          Passwords.onWorld (Storage.ensureSiteData E (V.resolve site) (secretAt E pos) (keyFor E.prims p (saltAt E pos)))
          Passwords.onWorld (Storage.set E (Storage.passwordKey E (V.idOf site name revision) (secretAt E pos))
            (Serde.passwordToJson (Vault.record (V.idOf site name revision) ⟨.stored value, []⟩))
            (keyFor E.prims p (saltAt E pos)))
          Passwords.onWorld (Storage.flush E) : M PState Unit) s := by
      unfold Passwords.setStored
      simp only [M.bind_apply, M.get_apply, M.lift_apply, hsec, R.vault.resolve_eq hE.prims hk hc hs,
        Storage.setStored, StoredPassword.new, RepVault.new_eq, Vault.record]
    simp only [run, this, astepUnlocked]
    exact step_put hE hS hu R hses hdisk hs hn hr (.stored value)
  | setNotes site name revision notes =>
    obtain ⟨hs, hn, hr⟩ := hop
    have hi := R.vault.idOf_in hs hn hr
    have hget := R.vault.get_password hE.prims hk hc hi
    cases hV : V.passwords (V.idOf site name revision) with
    | none =>
      rw [hV] at hget
      have : Passwords.setNotes E site name revision notes s = (.err .keyMissing, s) := by
        unfold Passwords.setNotes
        simp only [M.bind_apply, M.get_apply, M.lift_apply, hsec, R.vault.resolve_eq hE.prims hk hc hs,
          RepVault.new_eq, hget]
      simp only [run, this, astepUnlocked, hV]
      exact StepOk.same hrep rfl
    | some e =>
      rw [hV] at hget
      have : Passwords.setNotes E site name revision notes s = (do
          Passwords.onWorld (Storage.set E (Storage.passwordKey E (V.idOf site name revision) (secretAt E pos))
            (Serde.passwordToJson (Vault.record (V.idOf site name revision) { e with notes }))
            (keyFor E.prims p (saltAt E pos)))
          Passwords.onWorld (Storage.flush E) : M PState Unit) s := by
        unfold Passwords.setNotes
        simp only [M.bind_apply, M.get_apply, M.lift_apply, hsec, R.vault.resolve_eq hE.prims hk hc hs,
          RepVault.new_eq, hget, Storage.setPassword, record_setNotes, RepVault.record_id]
      simp only [run, this, astepUnlocked, hV]
      rw [onWorld_then_flush (Storage.set_eq E _ _ _ hk _)]
      exact finish hE hses' hdisk (w1 := Storage.setWorld E _ _ _ s.world)
        (R.set_password hS hi (RepVault.idOf_revision _ _ _ _) (passwordEnc_setWorld E _ _ _ _)) rfl rfl
  | remove site name revision =>
    obtain ⟨hs, hn, hr⟩ := hop
    have hi := R.vault.idOf_in hs hn hr
    have hrun : Passwords.remove E site name revision s = (do
          Passwords.onWorld (Storage.removePassword E (V.idOf site name revision) (secretAt E pos))
          Passwords.onWorld (Storage.flush E) : M PState Unit) s := by
      unfold Passwords.remove
      simp only [M.bind_apply, M.get_apply, M.lift_apply, hsec, R.vault.resolve_eq hE.prims hk hc hs, RepVault.new_eq]
    cases hV : V.passwords (V.idOf site name revision) with
    | none =>
      have hcon : s.world.data.contains (Storage.passwordKey E (V.idOf site name revision) (secretAt E pos)) = false := by
        rw [Data.contains, R.vault.password_out hc hi hV]; rfl
      have : Passwords.remove E site name revision s = (.err .keyMissing, s) := by
        rw [hrun, M.bind_apply]
        simp only [Passwords.onWorld, Storage.removePassword, Storage.remove, FileIO.remove, hcon]
        rfl
      simp only [run, this, astepUnlocked, hV]
      exact StepOk.same hrep rfl
    | some e =>
      have hcon : s.world.data.contains (Storage.passwordKey E (V.idOf site name revision) (secretAt E pos)) = true := by
        obtain ⟨_, v, hv, _⟩ := R.vault.password_in _ _ hV
        rw [Data.contains, hv]; rfl
      have hrem : Storage.removePassword E (V.idOf site name revision) (secretAt E pos) s.world = (.ok (),
          { s.world with data := s.world.data.erase (Storage.passwordKey E (V.idOf site name revision) (secretAt E pos)),
                         epoch := s.world.epoch + 1 }) := by
        simp only [Storage.removePassword, Storage.remove, FileIO.remove, hcon, if_true]
      simp only [run, hrun, astepUnlocked, hV]
      rw [onWorld_then_flush hrem]
      exact finish hE hses' hdisk (w1 := { s.world with data := _, epoch := _ }) (R.remove_password hS hi) rfl rfl
  | getAlias site =>
    have : Passwords.getAlias E s site = Storage.getAlias E s.world (canonical site) (secretAt E pos)
        (keyFor E.prims p (saltAt E pos)) := by
      unfold Passwords.getAlias
      simp only [hsec, Res.bind_ok, RepVault.normalizeSite_eq]
    simp only [run, this, astepUnlocked]
    rw [R.vault.getAlias_eq hE.prims hk hc (U.site_canonical site hop)]
    cases hV : V.sites (canonical site) with
    | none => exact StepOk.same hrep rfl
    | some t => cases t <;> exact StepOk.same hrep rfl
  | has site name revision =>
    obtain ⟨hs, hn, hr⟩ := hop
    have : Passwords.has E s site name revision = .ok (V.passwords (V.idOf site name revision)).isSome := by
      unfold Passwords.has
      simp only [hsec, Res.bind_ok, R.vault.resolve_eq hE.prims hk hc hs, RepVault.new_eq,
        R.vault.has_password hc (R.vault.idOf_in hs hn hr)]
    simp only [run, this, astepUnlocked]
    exact StepOk.same hrep rfl
  | get site name revision =>
    obtain ⟨hs, hn, hr⟩ := hop
    have hget := R.vault.get_password hE.prims hk hc (R.vault.idOf_in hs hn hr)
    cases hV : V.passwords (V.idOf site name revision) with
    | none =>
      rw [hV] at hget
      have : Passwords.get E s site name revision = .err .keyMissing := by
        unfold Passwords.get
        simp only [hsec, hses.2.2, okOr_some, Res.bind_ok, R.vault.resolve_eq hE.prims hk hc hs, RepVault.new_eq, hget,
          Res.bind_err]
      simp only [run, this, astepUnlocked, hV]
      exact StepOk.same hrep rfl
    | some e =>
      rw [hV] at hget
      have : Passwords.get E s site name revision = valueOf (deriveWith E.prims) p (V.idOf site name revision) e := by
        unfold Passwords.get
        simp only [hsec, hses.2.2, okOr_some, Res.bind_ok, R.vault.resolve_eq hE.prims hk hc hs, RepVault.new_eq, hget]
        obtain ⟨sec, notes⟩ := e
        cases sec with
        | generated length charset =>
          simp only [Vault.record, valueOf, deriveWith, salt_eq]
        | stored value => rfl
      simp only [run, this, astepUnlocked, hV]
      exact StepOk.same hrep rfl
  | getNotes site name revision =>
    obtain ⟨hs, hn, hr⟩ := hop
    have hget := R.vault.get_password hE.prims hk hc (R.vault.idOf_in hs hn hr)
    have : Passwords.getNotes E s site name revision =
        (match V.passwords (V.idOf site name revision) with
        | some e => .ok (Vault.record (V.idOf site name revision) e)
        | none => .err .keyMissing : Res Password).bind fun x => .ok x.notes := by
      unfold Passwords.getNotes
      simp only [hsec, Res.bind_ok, R.vault.resolve_eq hE.prims hk hc hs, RepVault.new_eq, hget]
      rfl
    simp only [run, this, astepUnlocked]
    cases hV : V.passwords (V.idOf site name revision) with
    | none => exact StepOk.same hrep rfl
    | some e =>
      simp only [Res.bind, record_notes]
      exact StepOk.same hrep rfl
  | list site pattern =>
    obtain ⟨l, hl, hnd, hmem⟩ := R.vault.listPasswords_eq hE hk hc (R.vault.resolve_in hop)
    have : Passwords.list E s site pattern = .ok (l.filter fun x => E.wild pattern x.id.name) := by
      unfold Passwords.list
      simp only [hses.1, hses.2.1, Passwords.orPanic, Res.bind_ok, R.vault.resolve_eq hE.prims hk hc hop, hl]
    simp only [run, this, astepUnlocked]
    refine StepOk.same hrep ⟨_, rfl, hnd.sublist List.filter_sublist, ?_⟩
    intro x
    rw [List.mem_filter, hmem]
    constructor
    · rintro ⟨⟨i, e, h1, rfl, h3⟩, h4⟩
      rw [RepVault.record_id] at h4
      exact ⟨i, e, h1, rfl, h3, h4⟩
    · rintro ⟨i, e, h1, rfl, h3, h4⟩
      exact ⟨⟨i, e, h1, rfl, h3⟩, by rw [RepVault.record_id]; exact h4⟩
  | listSites pattern =>
    obtain ⟨l, hl, hnd, hmem⟩ := R.vault.listSites_eq hE hk hc
    simp only [run, Passwords.listSites, hses.1, Passwords.orPanic, Res.bind_ok, hl, astepUnlocked]
    refine StepOk.same hrep ⟨_, rfl, hnd.sublist List.filter_sublist, ?_⟩
    intro x
    rw [List.mem_filter, hmem]
    refine and_congr_right fun _ => ?_
    cases hx : x.alias with
    | none => simp
    | some t => simp [or_comm]
  | getRecoveryCode q =>
    obtain ⟨wr, hwr⟩ := exists_write (E.fs s.world.fpos)
    refine ⟨wr, hwr, trivial, ?_⟩
    simp only [run, astepUnlocked]
    have : ∃ rpos, (Passwords.getRecoveryCode E q s).2 = { s with world := { s.world with rpos } } := by
      unfold Passwords.getRecoveryCode
      simp only [M.bind_apply, M.get_apply, M.lift_apply, R.getSalt_eq, hses.1, okOr_some, Passwords.onWorld, FileIO.gen]
      exact ⟨_, rfl⟩
    obtain ⟨rpos, hr⟩ := this
    rw [hr]
    exact ⟨by rw [hm, hu]; exact ⟨pos, R, hses⟩, hdisk⟩

end Unlocked

/-! ## Operations on a locked storage -/

section Locked
variable {s : PState} {a : AState}

theorem secrets_none (hh : s.hmacSecret = none) : Passwords.secrets s = .err .passwordsLocked := by
  unfold Passwords.secrets
  rw [hh]; rfl

/-- Without secrets every operation needing them fails and changes nothing. -/
theorem run_locked (E : Env) (s : PState) (hk : s.key = none) (hh : s.hmacSecret = none)
    (op : Op) (hspecial : special op = false) :
    run E op s = ((match op with
      | .removeSites l => if l = [] then .ok .unit else .err .passwordsLocked
      | .list _ _ => .panic
      | .listSites _ => .panic
      | .getRecoveryCode _ =>
        match Storage.getSalt s.world with
        | .ok _ => .err .passwordsLocked
        | .err e => .err e
        | .panic => .panic
      | _ => .err .passwordsLocked), s) := by
  have hsec := secrets_none hh
  cases op with
  | reset => cases hspecial
  | reload => cases hspecial
  | lock => cases hspecial
  | unlock => cases hspecial
  | initialized => cases hspecial
  | unlocked => cases hspecial
  | setAlias => simp only [run, Passwords.setAlias, M.bind_apply, M.get_apply, M.lift_apply, hsec, Res.map_err]
  | removeAlias => simp only [run, Passwords.removeAlias, M.bind_apply, M.get_apply, M.lift_apply, hsec, Res.map_err]
  | removeSites l =>
    simp only [run]
    unfold Passwords.removeSites
    by_cases hl : l = []
    · rw [if_pos hl, if_pos hl]; rfl
    · rw [if_neg hl, if_neg hl]
      simp only [M.bind_apply, M.get_apply, M.lift_apply, hh, okOr_none, Res.map_err]
  | setGenerated => simp only [run, Passwords.setGenerated, M.bind_apply, M.get_apply, M.lift_apply, hsec, Res.map_err]
  | setStored => simp only [run, Passwords.setStored, M.bind_apply, M.get_apply, M.lift_apply, hsec, Res.map_err]
  | setNotes => simp only [run, Passwords.setNotes, M.bind_apply, M.get_apply, M.lift_apply, hsec, Res.map_err]
  | remove => simp only [run, Passwords.remove, M.bind_apply, M.get_apply, M.lift_apply, hsec, Res.map_err]
  | getAlias => simp only [run, Passwords.getAlias, hsec, Res.bind_err, Res.map_err]
  | has => simp only [run, Passwords.has, hsec, Res.bind_err, Res.map_err]
  | get => simp only [run, Passwords.get, hsec, Res.bind_err, Res.map_err]
  | getNotes => simp only [run, Passwords.getNotes, hsec, Res.bind_err, Res.map_err]
  | list => simp only [run, Passwords.list, hk, Passwords.orPanic, Res.bind_panic, Res.map_panic]
  | listSites => simp only [run, Passwords.listSites, hk, Passwords.orPanic, Res.bind_panic, Res.map_panic]
  | getRecoveryCode q =>
    simp only [run, Passwords.getRecoveryCode, M.bind_apply, M.get_apply, M.lift_apply]
    cases Storage.getSalt s.world with
    | ok b => simp only [hk, okOr_none, Res.map_err]
    | err e => rfl
    | panic => rfl

theorem step_locked (hrep : Rep E U s a) (hl : a.unlocked = false) (hm : a.mem ≠ .torn) (op : Op)
    (hspecial : special op = false) : StepOk E U s (run E op s) fun _ => astepLocked a op := by
  have hkey : s.key = none ∧ s.hmacSecret = none ∧ Storage.getSalt s.world =
      (match a.mem with | .blank => .err .storageNotInitialized | _ => Storage.getSalt s.world) ∧
      (a.mem ≠ .blank → ∃ b, Storage.getSalt s.world = .ok b) := by
    have hmem := hrep.mem
    cases ha : a.mem with
    | blank =>
      rw [ha] at hmem
      refine ⟨hmem.2.2.1, hmem.2.2.2.1, ?_, fun h => absurd rfl h⟩
      simp only [Storage.getSalt, FileIO.get]
      rw [hmem.1]; rfl
    | store p V =>
      rw [ha, hl] at hmem
      obtain ⟨pos, R, hses⟩ := hmem
      exact ⟨hses.1, hses.2.1, rfl, fun _ => ⟨_, R.getSalt_eq⟩⟩
    | torn => exact absurd ha hm
  obtain ⟨hk, hh, hsalt, hsalt'⟩ := hkey
  rw [run_locked E s hk hh op hspecial]
  cases op with
  | reset => cases hspecial
  | reload => cases hspecial
  | lock => cases hspecial
  | unlock => cases hspecial
  | initialized => cases hspecial
  | unlocked => cases hspecial
  | getRecoveryCode q =>
    simp only [astepLocked]
    cases ha : a.mem with
    | blank =>
      rw [ha] at hsalt
      rw [hsalt]
      exact StepOk.same hrep rfl
    | store p V =>
      obtain ⟨b, hb⟩ := hsalt' (by rw [ha]; simp)
      rw [hb]
      exact StepOk.same hrep rfl
    | torn => exact absurd ha hm
  | _ => exact StepOk.same hrep rfl

end Locked

/-! ## Reset, unlock, reload -/

section Special
variable {s : PState} {a : AState}

/-- The world after the storage has been cleared by a `reset`. -/
def clearedWorld (E : Env) (p : Str) (w : World) : World :=
  { data := Data.insert (Data.insert [] Storage.SALT_KEY (Base64.encode (saltAt E w.rpos))) Storage.HMAC_SECRET_KEY
      (encText E.prims (keyFor E.prims p (saltAt E w.rpos)) (nonceAt E w.rpos)
        (.str (Base64.encode (secretAt E w.rpos))))
    epoch := w.epoch + 1 + 1 + 1
    disk := w.disk
    rpos := w.rpos + 16 + 32 + 12
    fpos := w.fpos }

theorem reset_eq (hE : E.Lawful) (p : Str) (s : PState) :
    Passwords.reset E p s =
      match Storage.flush E (clearedWorld E p s.world) with
      | (.ok (), w) => (.ok (), { world := w, key := some (keyFor E.prims p (saltAt E s.world.rpos)),
                                  hmacSecret := some (secretAt E s.world.rpos), primaryPassword := some p })
      | (.err e, w) => (.err e, { s with world := w })
      | (.panic, w) => (.panic, { s with world := w }) := by
  have hk := keyFor_length hE.prims p (saltAt E s.world.rpos)
  have hclear : ∀ w : World, w = { s.world with rpos := s.world.rpos + 16 + 32 } →
      Storage.clear E (saltAt E s.world.rpos) (secretAt E s.world.rpos) (keyFor E.prims p (saltAt E s.world.rpos)) w =
        (.ok (), clearedWorld E p s.world) := by
    rintro w rfl
    unfold Storage.clear Storage.setHmacSecret
    simp only [M.bind_apply, FileIO.clear, M.modify_apply, Storage.setSalt, FileIO.set, Storage.encrypt_eq E _ _ hk]
    rfl
  unfold Passwords.reset
  simp only [M.bind_apply, Passwords.onWorld, FileIO.gen, M.lift_apply]
  have h1 : FileIO.randBytes E s.world.rpos 16 = saltAt E s.world.rpos := rfl
  have h2 : FileIO.randBytes E (s.world.rpos + 16) 32 = secretAt E s.world.rpos := rfl
  rw [h1, getEncryptionKey_keyFor]
  simp only [h2]
  rw [hclear _ rfl]
  cases hf : Storage.flush E (clearedWorld E p s.world) with
  | mk r w => cases r <;> simp only [hf, M.modify_apply]

theorem cleared_rep (p : Str) (hp : U.primary p) (w : World) :
    RepStore E U w.rpos p (clearedWorld E p w).data .empty := by
  have hget : ∀ key, (clearedWorld E p w).data.get? key =
      if key = Storage.HMAC_SECRET_KEY then some (encText E.prims (keyFor E.prims p (saltAt E w.rpos)) (nonceAt E w.rpos)
        (.str (Base64.encode (secretAt E w.rpos))))
      else if key = Storage.SALT_KEY then some (Base64.encode (saltAt E w.rpos)) else none := by
    intro key
    simp only [clearedWorld]
    rw [Data.get?_insert, Data.get?_insert]
    rfl
  refine ⟨⟨?_, ?_, ?_, ?_, ?_⟩, hp, trivial, ?_, ?_⟩
  · exact Data.insert_nodup _ _ (Data.insert_nodup _ _ (by simp))
  · intro s t h; cases h
  · intro i e h; cases h
  · intro i e h; cases h
  · intro key v h
    rw [hget] at h
    by_cases h1 : key = Storage.HMAC_SECRET_KEY
    · exact .inr (.inl h1)
    · rw [if_neg h1] at h
      by_cases h2 : key = Storage.SALT_KEY
      · exact .inl h2
      · rw [if_neg h2] at h; cases h
  · rw [hget, if_neg Storage.salt_ne_hmac, if_pos rfl]
  · rw [hget, if_pos rfl]; rfl

theorem step_reset (hE : E.Lawful) (hrep : Rep E U s a) (p : Str) (hp : U.primary p)
    (derive : Str → PasswordId → UInt64 → CharacterSet → Res Str) (wild : Str → Str → Bool) :
    StepOk E U s (run E (.reset p) s) fun wr => astep derive wild wr a (.reset p) := by
  have R : RepStore E U s.world.rpos p (clearedWorld E p s.world).data .empty := cleared_rep p hp s.world
  obtain ⟨wr, h1, h2, h3⟩ := flush_rep (w := clearedWorld E p s.world) hE R hrep.disk
  refine ⟨wr, h1, ?_⟩
  have hdata := flush_data E (clearedWorld E p s.world)
  simp only [run, astep, reset_eq hE p s]
  cases hf : Storage.flush E (clearedWorld E p s.world) with
  | mk r w =>
    rw [hf] at h2 h3 hdata
    simp only at h2 h3 hdata
    have R' : RepStore E U s.world.rpos p w.data .empty := by rw [hdata]; exact R
    cases r with
    | ok u =>
      have hwr : wr = .ok := by
        cases wr <;> simp_all [Write.result]
      subst hwr
      exact ⟨rfl, ⟨⟨_, R', rfl, rfl, rfl⟩, h3⟩⟩
    | err e =>
      have hwr : wr ≠ .ok := by
        rintro rfl; simp [Write.result] at h2
      rw [AState.afterReset, if_neg hwr]
      refine ⟨h2, ⟨?_, h3⟩⟩
      have hmem := hrep.mem
      show MemRep E U { s with world := w } a.unlocked (a.afterFailedReset p)
      unfold AState.afterFailedReset
      cases ha : a.mem with
      | torn => exact trivial
      | blank =>
        rw [ha] at hmem
        rw [hmem.2.1]
        exact ⟨_, R', hmem.2.2.1, hmem.2.2.2.1, hmem.2.2.2.2⟩
      | store q V =>
        rw [ha] at hmem
        cases hu : a.unlocked with
        | true => exact trivial
        | false =>
          rw [hu] at hmem
          obtain ⟨pos, _, hses⟩ := hmem
          exact ⟨_, R', hses⟩
    | panic => cases wr <;> simp [Write.result] at h2

theorem step_reload (hrep : Rep E U s a)
    (derive : Str → PasswordId → UInt64 → CharacterSet → Res Str) (wild : Str → Str → Bool) :
    StepOk E U s (run E .reload s) fun wr => astep derive wild wr a .reload := by
  obtain ⟨wr, hwr⟩ := exists_write (E.fs s.world.fpos)
  refine ⟨wr, hwr, ?_⟩
  have hdisk := hrep.disk
  simp only [run, reload, astep]
  cases ha : a.disk with
  | missing =>
    rw [ha] at hdisk
    simp only [DiskRep] at hdisk
    rw [hdisk]
    exact ⟨rfl, hrep⟩
  | unreadable =>
    rw [ha] at hdisk
    rcases hdisk with h | h
    · rw [h]; exact ⟨.inl rfl, hrep⟩
    · rw [h]; exact ⟨.inr rfl, hrep⟩
  | store p V =>
    rw [ha] at hdisk
    obtain ⟨pos, d, hl, R⟩ := hdisk
    rw [hl]
    exact ⟨rfl, ⟨⟨pos, R, rfl, rfl, rfl⟩, ⟨pos, d, hl, R⟩⟩⟩
  | torn =>
    refine ⟨trivial, ⟨trivial, trivial⟩⟩

theorem saltAt_length {o : Origin} (h : o.Within U) : (saltAt E o).length = 16 := by
  cases o with
  | drawn pos => exact randBytes_length _ _ _
  | foreign f => exact h.2.salt

theorem nonceAt_length {o : Origin} (h : o.Within U) : (nonceAt E o).length = 12 := by
  cases o with
  | drawn pos => exact randBytes_length _ _ _
  | foreign f => exact h.2.nonce

theorem secretText_read {o : Origin} (h : o.Within U) :
    Serde.fromSlice Serde.asStr (utf8 (secretTextAt E o)) = some (Base64.encode (secretAt E o)) := by
  cases o with
  | drawn pos =>
    have := Serde.fromSlice_toVec_str Serde.asStr (Base64.encode (secretAt E (.drawn pos)))
    exact this
  | foreign f =>
    obtain ⟨b, h1, h2⟩ := h.2.text
    rw [isBase64_iff] at h1
    subst h1
    exact Serde.fromSlice_iff.mpr ⟨_, _, rfl, h2, rfl⟩

theorem secretText_json {o : Origin} (h : o.Within U) : JsonText (.str (Base64.encode (secretAt E o))) (secretTextAt E o) := by
  obtain ⟨m, j, h1, h2, h3⟩ := Serde.fromSlice_iff.mp (secretText_read (E := E) h)
  cases utf8_injective h1
  cases j <;> simp [Serde.asStr] at h3
  subst h3
  exact h2

theorem unlock_eq {pos : Origin} {p : Str} {V : Vault} (hE : E.Lawful) (hS : Secure E U)
    (R : RepStore E U pos p s.world.data V) (p' : Str) (hp' : U.primary p') :
    Passwords.unlock E p' s =
      if p' = p then (.ok (), { s with key := some (keyFor E.prims p (saltAt E pos)), hmacSecret := some (secretAt E pos),
                                       primaryPassword := some p })
      else (.err .decryptionFailure, s) := by
  have hn : (nonceAt E pos).length = 12 := nonceAt_length R.origin
  unfold Passwords.unlock
  simp only [M.bind_apply, M.get_apply, M.lift_apply, R.getSalt_eq, getEncryptionKey_keyFor]
  unfold Storage.getHmacSecret FileIO.get
  rw [R.secret]
  simp only [okOr_some, Res.mapErr_ok, Res.bind_ok]
  by_cases h : p' = p
  · subst h
    rw [if_pos rfl, decryptData_sealText E.prims hE.prims (keyFor_length hE.prims _ _) hn]
    simp only [Res.bind_ok, secretText_read R.origin, okOr_some, Base64.decode_encode, M.modify_apply]
  · rw [if_neg h]
    have hk := keyFor_length hE.prims p' (saltAt E pos)
    have : Crypto.decryptData E.prims (sealText E.prims (keyFor E.prims p (saltAt E pos)) (nonceAt E pos)
        (secretTextAt E pos)) (keyFor E.prims p' (saltAt E pos)) = .err .decryptionFailure := by
      unfold Crypto.decryptData sealText
      rw [if_neg (by simp [hk]), Crypto.splitOnce_append (Base64.underscore_not_mem _)]
      simp only [okOr_some, Res.bind_ok, Base64.decode_encode]
      rw [if_neg (by simp [hn]), hS.wrongPassword pos R.origin p p' R.primary hp' (fun h' => h h'.symm)]
      rfl
    rw [this]
    simp only [Res.bind_err]

end Special

/-- **One step.** -/
theorem step (hE : E.Lawful) (hS : Secure E U) {s : PState} {a : AState} (hrep : Rep E U s a) (op : Op)
    (hop : op.Within U) :
    StepOk E U s (run E op s) fun wr => astep (deriveWith E.prims) E.wild wr a op := by
  obtain ⟨wr0, hwr0⟩ := exists_write (E.fs s.world.fpos)
  have hmem := hrep.mem
  by_cases hsp : special op = true
  · cases op with
    | reset p => exact step_reset hE hrep p hop _ _
    | reload => exact step_reload hrep _ _
    | lock =>
      refine ⟨wr0, hwr0, rfl, ⟨?_, hrep.disk⟩⟩
      simp only [astep]
      cases ha : a.mem with
      | blank => rw [ha] at hmem; exact ⟨hmem.1, rfl, rfl, rfl, rfl⟩
      | store p V => rw [ha] at hmem; obtain ⟨pos, R, _⟩ := hmem; exact ⟨pos, R, rfl, rfl, rfl⟩
      | torn => trivial
    | unlock p' =>
      cases ha : a.mem with
      | blank =>
        rw [ha] at hmem
        have : Passwords.unlock E p' s = (.err .storageNotInitialized, s) := by
          unfold Passwords.unlock
          simp only [M.bind_apply, M.get_apply, M.lift_apply]
          have : Storage.getSalt s.world = .err .storageNotInitialized := by
            unfold Storage.getSalt FileIO.get
            rw [hmem.1]; rfl
          rw [this]
        simp only [run, this, astep, ha]
        exact StepOk.same hrep rfl
      | store p V =>
        rw [ha] at hmem
        obtain ⟨pos, R, hses⟩ := hmem
        have := unlock_eq hE hS R p' hop
        simp only [run, this, astep, ha]
        by_cases hp : p' = p
        · simp only [if_pos hp]
          refine ⟨wr0, hwr0, rfl, ⟨?_, hrep.disk⟩⟩
          exact ⟨pos, R, rfl, rfl, rfl⟩
        · simp only [if_neg hp]
          exact StepOk.same hrep rfl
      | torn =>
        refine ⟨wr0, hwr0, ?_⟩
        simp only [astep, ha]
        exact ⟨trivial, ⟨trivial, trivial⟩⟩
    | initialized =>
      simp only [run, Passwords.initialized]
      cases ha : a.mem with
      | blank =>
        rw [ha] at hmem
        have : Storage.initialized s.world = false := by
          unfold Storage.initialized FileIO.containsKey
          rw [hmem.1]; rfl
        simp only [astep, ha, this]
        exact StepOk.same hrep rfl
      | store p V =>
        rw [ha] at hmem
        obtain ⟨pos, R, _⟩ := hmem
        simp only [astep, ha, R.initialized]
        exact StepOk.same hrep rfl
      | torn =>
        refine ⟨wr0, hwr0, ?_⟩
        simp only [astep, ha]
        exact ⟨trivial, ⟨trivial, trivial⟩⟩
    | unlocked =>
      simp only [run, Passwords.unlocked]
      cases ha : a.mem with
      | blank =>
        rw [ha] at hmem
        simp only [astep, ha, hmem.2.1, hmem.2.2.1]
        exact StepOk.same hrep rfl
      | store p V =>
        rw [ha] at hmem
        obtain ⟨pos, R, hses⟩ := hmem
        simp only [astep, ha]
        cases hu : a.unlocked <;> rw [hu] at hses <;> simp only [hses.1] <;> exact StepOk.same hrep rfl
      | torn =>
        refine ⟨wr0, hwr0, ?_⟩
        simp only [astep, ha]
        exact ⟨trivial, ⟨trivial, trivial⟩⟩
    | _ => cases hsp
  · have hsp : special op = false := by simpa using hsp
    cases ha : a.mem with
    | blank =>
      rw [ha] at hmem
      have : (fun wr => astep (deriveWith E.prims) E.wild wr a op) = fun _ => astepLocked a op := by
        funext wr
        cases op <;> first | exact Bool.noConfusion hsp | simp only [astep, ha]
      rw [this]
      exact step_locked hrep hmem.2.1 (by rw [ha]; simp) op hsp
    | torn =>
      have : (fun wr => astep (deriveWith E.prims) E.wild wr a op) = fun _ => (anything, { a with disk := .torn }) := by
        funext wr
        cases op <;> first | exact Bool.noConfusion hsp | simp only [astep, ha]
      rw [this]
      exact ⟨wr0, hwr0, trivial, ⟨by simp only [ha]; trivial, trivial⟩⟩
    | store p V =>
      rw [ha] at hmem
      obtain ⟨pos, R, hses⟩ := hmem
      cases hu : a.unlocked with
      | true =>
        rw [hu] at hses
        have : (fun wr => astep (deriveWith E.prims) E.wild wr a op) =
            fun wr => astepUnlocked (deriveWith E.prims) E.wild a p V wr op := by
          funext wr
          cases op <;> first | exact Bool.noConfusion hsp | simp only [astep, ha, hu, if_true]
        rw [this]
        exact step_unlocked hE hS hu ha R hses hrep.disk op hop hsp
      | false =>
        have : (fun wr => astep (deriveWith E.prims) E.wild wr a op) = fun _ => astepLocked a op := by
          funext wr
          cases op <;> first | exact Bool.noConfusion hsp | simp [astep, ha, hu]
        rw [this]
        exact step_locked hrep hu (by rw [ha]; simp) op hsp

end Pfp
