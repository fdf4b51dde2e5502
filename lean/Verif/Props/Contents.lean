import Verif.Proofs.Nonces
import Verif.Props.Vault
import Verif.Props.Session

/-!
# Contents of the storage, nonces and listings (C06, C41–C45)
-/

namespace Pfp.Props
open Spec

variable {E : Env} {U : Universe}

/-! ## C41 -/

theorem sealed_of_store {pos : Origin} {p : Str} {d : Data} {V : Vault} (R : RepStore E U pos p d V) :
    ∀ key v, d.get? key = some v → Sealed E.prims (keyFor E.prims p (saltAt E pos)) (secretAt E pos) key v := by
  intro key v h
  rcases R.vault.only key v h with rfl | rfl | ⟨x, t, h1, rfl⟩ | ⟨i, e, h1, rfl⟩
  · rw [R.salt] at h
    cases h
    exact .salt _
  · rw [R.secret] at h
    cases h
    exact .secret (secretText_json R.origin) ⟨_, nonceAt_length R.origin, rfl⟩
  · obtain ⟨_, _, v', h2, h3⟩ := R.vault.site_in x t h1
    rw [h2] at h
    cases h
    obtain ⟨nonce, m, h4, rfl, h5, _⟩ := h3
    exact .site ⟨x, t⟩ h5 ⟨nonce, h4, rfl⟩
  · obtain ⟨_, v', h2, h3⟩ := R.vault.password_in i e h1
    rw [h2] at h
    cases h
    obtain ⟨nonce, m, h4, rfl, h5, _⟩ := h3
    have := Sealed.password (P := E.prims) (k := keyFor E.prims p (saltAt E pos)) (h := secretAt E pos) (Vault.record i e) h5
      ⟨nonce, h4, rfl⟩
    have hid : (Vault.record i e).id = i := by
      obtain ⟨sec, notes⟩ := e
      cases sec <;> rfl
    rw [hid] at this
    rw [Storage.passwordKey_eq]
    have he : Storage.STORAGE_PREFIX ++ (Crypto.getDigest E.prims (secretAt E pos) i.site ++
        ':' :: Crypto.getDigest E.prims (secretAt E pos) (idText i)) =
        c!"site:" ++ digest E.prims (secretAt E pos) i.site ++ ':' :: digest E.prims (secretAt E pos)
          (i.site ++ Char.ofNat 0 :: (i.name ++ Char.ofNat 0 :: i.revision)) := by
      simp [digest, Crypto.getDigest, Storage.STORAGE_PREFIX, idText]
    rw [he]
    exact this

/-- **C41 (memory).** In every reachable state everything in memory that may be written to the file is either the salt,
or a value encrypted under the key derived from the primary password, stored under digests. -/
theorem C41_memory (hE : E.Lawful) (hS : Secure E U) (s : PState) (hs : Reachable E U s) :
    s.world.data = [] ∨ ∃ p salt h, (∀ key v, s.world.data.get? key = some v → Sealed E.prims (keyFor E.prims p salt) h key v) ∧
      s.world.data.get? (c!"salt") = some (Base64.encode salt) ∧
      (s.key.isSome = true → s.key = some (keyFor E.prims p salt) ∧ s.hmacSecret = some h ∧
        s.primaryPassword = some p) := by
  obtain ⟨a, hrep, ha⟩ := reach hE hS hs
  have hmem := hrep.mem
  cases hm : a.mem with
  | blank => rw [hm] at hmem; exact .inl hmem.1
  | torn => exact absurd hm ha.1
  | store p V =>
    rw [hm] at hmem
    obtain ⟨pos, R, hses⟩ := hmem
    refine .inr ⟨p, saltAt E pos, secretAt E pos, sealed_of_store R, R.salt, fun hu => ?_⟩
    cases hul : a.unlocked with
    | true => rw [hul] at hses; exact hses
    | false => rw [hul] at hses; rw [hses.1] at hu; cases hu

/-- **C41 (file).** The same of the file, whenever it can be loaded. -/
theorem C41_file (hE : E.Lawful) (hS : Secure E U) (s : PState) (hs : Reachable E U s) (d : Data)
    (hd : FileIO.load s.world.disk = .ok d) :
    ∃ p salt h, (∀ key v, d.get? key = some v → Sealed E.prims (keyFor E.prims p salt) h key v) ∧
      d.get? (c!"salt") = some (Base64.encode salt) := by
  obtain ⟨a, hrep, ha⟩ := reach hE hS hs
  have hdisk := hrep.disk
  cases hm : a.disk with
  | missing =>
    rw [hm] at hdisk
    have : s.world.disk = none := hdisk
    rw [this] at hd
    cases hd
  | unreadable =>
    rw [hm] at hdisk
    rcases hdisk with h | h <;> · rw [h] at hd; cases hd
  | torn => exact absurd hm ha.2
  | store p V =>
    rw [hm] at hdisk
    obtain ⟨pos, d', h1, R⟩ := hdisk
    rw [hd] at h1
    cases h1
    exact ⟨p, saltAt E pos, secretAt E pos, sealed_of_store R, R.salt⟩

example : Reachable Toy.env Toy.univ Toy.two ∧ Toy.two.world.data ≠ [] ∧ Toy.two.key.isSome = true := by
  refine ⟨Toy.two_reachable, ?_, Toy.two_unlocked⟩
  obtain ⟨_, a, pos, ho⟩ := Toy.two_effect
  intro h
  have := ho.store.salt
  rw [h] at this
  cases this

/-! ## C42 -/

/-- **C42 (operations).** In every state whatever: everything an operation writes has a nonce made of random bytes drawn
during this operation, and the nonces of two entries do not share any of these bytes.  (`reset` is treated below; starting
over draws nothing.) -/
theorem C42_fresh_nonces (E : Env) (s : PState) (op : Op) (h1 : ∀ p, op ≠ .reset p) (h2 : op ≠ .reload) :
    Fresh E s.world (after E s op).world := by
  by_cases hc : op.changes = true
  · rw [after, run_pre E op hc s]
    exact freshP_bind (freshP_pre E op) (fun _ => freshP_onWorld (freshM_flush E)) s
  · cases op with
    | reset p => exact absurd rfl (h1 p)
    | reload => exact absurd rfl h2
    | removeSites l =>
      have hl : l = [] := by simpa [Op.changes] using hc
      subst hl
      exact fresh_refl _
    | unlock p =>
      refine freshP_bind freshP_get (fun s' => freshP_bind (freshP_lift _) fun _ => freshP_bind (freshP_lift _) fun _ =>
        freshP_bind (freshP_lift _) fun _ => ?_) s
      exact fun s => fresh_refl s.world
    | getRecoveryCode q =>
      refine freshP_bind freshP_get (fun s' => freshP_bind (freshP_lift _) fun _ => freshP_bind (freshP_lift _) fun _ =>
        freshP_bind (freshP_onWorld ?_) fun _ => freshP_lift _) s
      exact fun w => fresh_of_none (Nat.le_add_right _ _) fun key v h => h.2 h.1
    | _ => first | exact fresh_refl _ | exact absurd rfl hc

theorem reset_world (hE : E.Lawful) (s : PState) (p : Str) :
    (after E s (.reset p)).world = (Storage.flush E (clearedWorld E p s.world)).2 := by
  simp only [after, run, reset_eq hE]
  cases Storage.flush E (clearedWorld E p s.world) with
  | mk r w => cases r <;> rfl

/-- **C42 (reset).** `reset` takes sixteen random bytes for the salt, the next thirty-two for the HMAC secret, and the next
twelve for the nonce it is encrypted with. -/
theorem C42_reset (hE : E.Lawful) (s : PState) (p : Str) :
    (after E s (.reset p)).world.rpos = s.world.rpos + 60 ∧
    ∀ key v, (after E s (.reset p)).world.data.get? key = some v →
      (key = c!"salt" ∧ v = Base64.encode (FileIO.randBytes E s.world.rpos 16)) ∨
      (key = c!"hmac-secret" ∧ v = Base64.encode (FileIO.randBytes E (s.world.rpos + 48) 12) ++
        '_' :: Base64.encode (E.prims.gcmEncrypt (keyFor E.prims p (FileIO.randBytes E s.world.rpos 16))
          (FileIO.randBytes E (s.world.rpos + 48) 12)
          (Serde.toVec (.str (Base64.encode (FileIO.randBytes E (s.world.rpos + 16) 32)))))) := by
  rw [reset_world hE]
  refine ⟨by rw [flush_rpos]; rfl, ?_⟩
  intro key v h
  rw [flush_data] at h
  simp only [clearedWorld] at h
  rw [Data.get?_insert] at h
  split at h
  · rename_i he
    exact .inr ⟨he, (Option.some.inj h).symm⟩
  · rw [Data.get?_insert] at h
    split at h
    · rename_i he
      exact .inl ⟨he, (Option.some.inj h).symm⟩
    · cases h

/-- Everything written by a step, except the salt, has a nonce drawn during the step. -/
theorem written_step (hE : E.Lawful) (s : PState) (op : Op) (hop : op ≠ .reload) {key v : Str}
    (h : Written s.world (after E s op).world key v) (hk : key ≠ c!"salt") :
    ∃ q, s.world.rpos ≤ q ∧ q + 12 ≤ (after E s op).world.rpos ∧ NonceAt E q v := by
  by_cases hr : ∃ p, op = .reset p
  · obtain ⟨p, rfl⟩ := hr
    obtain ⟨h1, h2⟩ := C42_reset hE s p
    rcases h2 key v h.1 with ⟨h', _⟩ | ⟨_, rfl⟩
    · exact absurd h' hk
    · exact ⟨s.world.rpos + 48, by omega, by omega, _, rfl⟩
  · obtain ⟨_, q, h1, _⟩ := C42_fresh_nonces E s op (fun p hp => hr ⟨p, hp⟩) hop
    exact ⟨q key, h1 key v h⟩

/-- **C42 (progress).** No operation goes back in the stream of random bytes. -/
theorem C42_progress (hE : E.Lawful) (ops : List Op) : ∀ s : PState, s.world.rpos ≤ (runAll E ops s).2.world.rpos := by
  have hstep : ∀ (op : Op) (s : PState), s.world.rpos ≤ (after E s op).world.rpos := by
    intro op s
    by_cases hr : ∃ p, op = .reset p
    · obtain ⟨p, rfl⟩ := hr
      rw [(C42_reset hE s p).1]; omega
    · by_cases hl : op = .reload
      · subst hl
        simp only [after, run, reload]
        cases FileIO.load s.world.disk <;> exact Nat.le_refl _
      · exact (C42_fresh_nonces E s op (fun p hp => hr ⟨p, hp⟩) hl).1
  induction ops with
  | nil => exact fun s => Nat.le_refl _
  | cons op ops ih => exact fun s => Nat.le_trans (hstep op s) (ih _)

/-- **C42 (histories).** Whatever the state and whatever happens in between: the nonces of entries written by two
operations one after the other come from different sections of the stream of random bytes. -/
theorem C42_histories (hE : E.Lawful) (s : PState) (op op' : Op) (between : List Op) (h1 : op ≠ .reload)
    (h2 : op' ≠ .reload) (key v key' v' : Str) (hk : key ≠ c!"salt") (hk' : key' ≠ c!"salt")
    (hw : Written s.world (after E s op).world key v)
    (hw' : Written (runAll E between (after E s op)).2.world (after E (runAll E between (after E s op)).2 op').world key' v') :
    ∃ q q', q + 12 ≤ q' ∧ NonceAt E q v ∧ NonceAt E q' v' := by
  obtain ⟨q, _, hq2, hq3⟩ := written_step hE s op h1 hw hk
  obtain ⟨q', hq1', _, hq3'⟩ := written_step hE _ op' h2 hw' hk'
  have := C42_progress hE between (after E s op)
  exact ⟨q, q', by omega, hq3, hq3'⟩

/-- **C42 (recovery codes).** A recovery code uses a nonce of its own, too. -/
theorem C42_recovery_code (E : Env) (s : PState) (x : StoredPassword) (c : Bytes)
    (h : ask E s (.getRecoveryCode x) = .ok (.code c)) :
    (after E s (.getRecoveryCode x)).world.rpos = s.world.rpos + 12 ∧
    ∃ salt k, s.key = some k ∧
      RecoveryCodes.generate E.prims E.overflowChecks (FileIO.randBytes E s.world.rpos 12) x.password salt k = .ok c := by
  simp only [ask, after, run, Passwords.getRecoveryCode, M.bind_apply, M.get_apply, M.lift_apply] at h ⊢
  cases hs : Storage.getSalt s.world with
  | err e => rw [hs] at h; cases h
  | panic => rw [hs] at h; cases h
  | ok salt =>
    rw [hs] at h
    simp only at h ⊢
    cases hk : s.key with
    | none => rw [hk] at h; cases h
    | some k =>
      rw [hk] at h
      simp only [okOr_some, Passwords.onWorld, FileIO.gen] at h ⊢
      refine ⟨trivial, salt, k, rfl, ?_⟩
      cases hg : RecoveryCodes.generate E.prims E.overflowChecks (FileIO.randBytes E s.world.rpos 12) x.password salt k with
      | err e => rw [hg] at h; cases h
      | panic => rw [hg] at h; cases h
      | ok c' => rw [hg] at h; cases h; rfl

example : ∃ key v, key ≠ c!"salt" ∧ Written Toy.start.world Toy.fresh.world key v := by
  obtain ⟨a, pos, ho⟩ := Toy.fresh_open
  exact ⟨c!"hmac-secret", _, by decide, ho.store.secret, by show Data.get? _ _ ≠ _; simp [Toy.start, Passwords.new, Data.get?]⟩

/-! ## C43 -/

theorem record_id (i : PasswordId) (e : Entry) : (Vault.record i e).id = i := by
  obtain ⟨sec, notes⟩ := e
  cases sec <;> rfl

theorem record_notes (i : PasswordId) (e : Entry) : (Vault.record i e).notes = e.notes := by
  obtain ⟨sec, notes⟩ := e
  cases sec <;> rfl

/-- **C43 (sound).** In every reachable unlocked state listing the passwords of a site works.  What it shows are the
passwords of the site meant, each once, with name matching the pattern, and with the value and notes that `get` and
`get_notes` return. -/
theorem C43_sound (hE : E.Lawful) (hS : Secure E U) (s : PState) (hs : Reachable E U s) (hu : s.key.isSome = true)
    (a q : Str) (ha : U.site a) :
    ∃ l p, ask E s (.list a q) = .ok (.passwords l) ∧ s.primaryPassword = some p ∧ (l.map Password.id).Nodup ∧
      ∀ x ∈ l, x.id.site = siteMeant E s a ∧ E.wild q x.id.name = true ∧
        ask E s (.has a x.id.name x.id.revision) = .ok (.bool true) ∧
        ask E s (.getNotes a x.id.name x.id.revision) = .ok (.text x.notes) ∧
        ask E s (.get a x.id.name x.id.revision) =
          match x with
          | .stored y => .ok (.text y.password)
          | .generated y => (Crypto.derivePassword E.prims p (saltText y.id) y.length.toNat y.charset).map .text := by
  obtain ⟨A, pos, p, V, ho⟩ := reach_open hE hS hs hu
  obtain ⟨l, h1, h2, h3⟩ := ho.list hE hS q ha
  refine ⟨l, p, h1, ho.session.2.2, ?_, ?_⟩
  · refine List.Nodup.map_on ?_ h2
    intro x hx y hy hxy
    obtain ⟨i, e, g1, rfl, _⟩ := (h3 x).mp hx
    obtain ⟨j, e', g1', rfl, _⟩ := (h3 y).mp hy
    rw [record_id, record_id] at hxy
    subst hxy
    rw [g1] at g1'
    cases g1'
    rfl
  · intro x hx
    obtain ⟨i, e, g1, rfl, g2, g3⟩ := (h3 x).mp hx
    obtain ⟨hi, _⟩ := ho.store.vault.password_in i e g1
    have hid : V.idOf a i.name i.revision = i := by
      obtain ⟨y, n, r⟩ := i
      simp only [Vault.idOf] at g2 ⊢
      rw [g2, revisionOf, if_neg (ho.store.vault.revision _ _ g1)]
    rw [record_id, record_notes]
    refine ⟨by rw [ho.siteMeant_eq hE hS ha]; exact g2, g3, ?_, ?_, ?_⟩
    · rw [ho.ask_has hE hS ha hi.2.1 hi.2.2, hid, g1]; rfl
    · rw [ho.ask_getNotes hE hS ha hi.2.1 hi.2.2, hid, g1]
    · rw [ho.ask_get hE hS ha hi.2.1 hi.2.2, hid, g1]
      obtain ⟨sec, notes⟩ := e
      cases sec <;> rfl

/-- **C43 (complete).** Every password that exists is listed if its name matches the pattern. -/
theorem C43_complete (hE : E.Lawful) (hS : Secure E U) (s : PState) (hs : Reachable E U s)
    (a n r q : Str) (ha : U.site a) (hn : U.name n) (hr : U.revision r)
    (hhas : ask E s (.has a n r) = .ok (.bool true)) (hq : E.wild q n = true) :
    ∃ l, ask E s (.list a q) = .ok (.passwords l) ∧ ∃ x ∈ l, x.id = ⟨siteMeant E s a, n, revisionOf r⟩ := by
  obtain ⟨A, pos, p, V, ho⟩ := open_of_ok' hE hS hs rfl (by simp) hhas
  obtain ⟨l, h1, h2, h3⟩ := ho.list hE hS q ha
  rw [ho.ask_has hE hS ha hn hr] at hhas
  simp only [Res.ok.injEq, Out.bool.injEq] at hhas
  obtain ⟨e, he⟩ := Option.isSome_iff_exists.mp hhas
  refine ⟨l, h1, Vault.record (V.idOf a n r) e, (h3 _).mpr ⟨_, e, he, rfl, rfl, hq⟩, ?_⟩
  rw [record_id, ho.siteMeant_eq hE hS ha]
  rfl

example : ask Toy.env Toy.one (.has (c!"a") (c!"u") []) = .ok (.bool true) ∧ Toy.env.wild (c!"*") (c!"u") = true :=
  ⟨Toy.one_has, rfl⟩

/-! ## C44 -/

/-- **C44.** In every reachable unlocked state the listings of sites for all patterns show the same table of sites: a
site entry is listed, once, exactly if its name or the site it is an alias of matches.  The aliases in this table are
the ones `get_alias` returns. -/
theorem C44_sites (hE : E.Lawful) (hS : Secure E U) (s : PState) (hs : Reachable E U s) (hu : s.key.isSome = true) :
    ∃ table : Str → Option (Option Str),
      (∀ q, ∃ l, ask E s (.listSites q) = .ok (.sites l) ∧ (l.map Site.name).Nodup ∧
        ∀ x : Site, x ∈ l ↔ table x.name = some x.alias ∧ Matches E q x) ∧
      ∀ a t, U.site a → (ask E s (.getAlias a) = .ok (.text t) ↔ table (canonical a) = some (some t)) := by
  obtain ⟨A, pos, p, V, ho⟩ := reach_open hE hS hs hu
  refine ⟨V.sites, fun q => ?_, fun a t ha => ?_⟩
  · obtain ⟨l, h1, h2, h3⟩ := ho.listSites hE hS q
    refine ⟨l, h1, List.Nodup.map_on ?_ h2, h3⟩
    intro x hx y hy hxy
    have h4 := ((h3 x).mp hx).1
    have h5 := ((h3 y).mp hy).1
    obtain ⟨xn, xa⟩ := x
    obtain ⟨yn, ya⟩ := y
    cases hxy
    rw [h4] at h5
    cases h5
    rfl
  · rw [ho.ask_getAlias hE hS ha]
    cases hV : V.sites (canonical a) with
    | none => simp
    | some x => cases x <;> simp

theorem Open.known {s : PState} {A : AState} {pos : Origin} {p : Str} {V : Vault} (ho : Open E U s A pos p V) (hE : E.Lawful)
    (hS : Secure E U) {x : Str} (h : Known E s x) : V.sites x ≠ none := by
  obtain ⟨q, l, h1, y, h2, rfl⟩ := h
  obtain ⟨l', h1', _, h3⟩ := ho.listSites hE hS q
  rw [h1'] at h1
  cases h1
  rw [((h3 y).mp h2).1]
  simp

theorem Open.unknown {s : PState} {A : AState} {pos : Origin} {p : Str} {V : Vault} (ho : Open E U s A pos p V) (hE : E.Lawful)
    (hS : Secure E U) {x : Str} (h : Unknown E s x) : V.sites x = none := by
  obtain ⟨q, l, h1, h2, h4⟩ := h
  obtain ⟨l', h1', _, h3⟩ := ho.listSites hE hS q
  rw [h1'] at h1
  cases h1
  cases hV : V.sites x with
  | none => rfl
  | some t => exact absurd rfl (h4 ⟨x, t⟩ ((h3 _).mpr ⟨hV, .inl h2⟩))

/-- The site a password has been entered for is known. -/
theorem know_sites (V : Vault) (x : Str) : (V.know x).sites x ≠ none := by
  unfold Vault.know
  split
  · simp [update]
  · assumption

theorem Open.lists {s : PState} {A : AState} {pos : Origin} {p : Str} {V : Vault} (ho : Open E U s A pos p V) (hE : E.Lawful)
    (hS : Secure E U) {x : Str} {t : Option Str} (h : V.sites x = some t) {q : Str} (hq : E.wild q x = true) :
    ∃ l, ask E s (.listSites q) = .ok (.sites l) ∧ ⟨x, t⟩ ∈ l := by
  obtain ⟨l, h1, _, h3⟩ := ho.listSites hE hS q
  exact ⟨l, h1, (h3 ⟨x, t⟩).mpr ⟨h, .inl hq⟩⟩

/-- **C44 (passwords make sites known).** After storing or entering a password, or making a site an alias, the site meant
is listed. -/
theorem C44_stored_is_listed (hE : E.Lawful) (hS : Secure E U) (s : PState) (hs : Reachable E U s) (op : Op)
    (a n r : Str) (hop : (∃ v, op = .setStored a n r v) ∨ ∃ len cs, op = .setGenerated a n r len cs)
    (ha : U.site a) (hn : U.name n) (hr : U.revision r) (hok : ask E s op = .ok .unit) (q : Str)
    (hq : E.wild q (siteMeant E s a) = true) :
    ∃ l, ask E (after E s op) (.listSites q) = .ok (.sites l) ∧ ∃ x ∈ l, x.name = siteMeant E s a := by
  obtain ⟨A, pos, p, V, ho⟩ : ∃ a pos p V, Open E U s a pos p V := by
    rcases hop with ⟨v, rfl⟩ | ⟨len, cs, rfl⟩ <;> exact open_of_ok' hE hS hs rfl (by simp) hok
  rw [ho.siteMeant_eq hE hS ha] at hq ⊢
  have key : ∀ {A' pos' e}, Open E U (after E s op) A' pos' p ((V.know (V.resolve a)).put (V.idOf a n r) e) →
      ∃ l, ask E (after E s op) (.listSites q) = .ok (.sites l) ∧ ∃ x ∈ l, x.name = V.resolve a := by
    intro A' pos' e ho'
    obtain ⟨t, ht⟩ := Option.ne_none_iff_exists'.mp (know_sites V (V.resolve a))
    obtain ⟨l, h1, h2⟩ := Open.lists ho' hE hS (t := t) (x := V.resolve a) ht hq
    exact ⟨l, h1, _, h2, rfl⟩
  rcases hop with ⟨v, rfl⟩ | ⟨len, cs, rfl⟩
  · obtain ⟨wr, _, _, pos', ho'⟩ := ho.setStored hE hS v ⟨ha, hn, hr⟩
    exact key ho'
  · obtain ⟨wr, _, _, pos', ho'⟩ := ho.setGenerated hE hS len cs ⟨ha, hn, hr⟩
    exact key ho'

example : Toy.env.wild (c!"*") (siteMeant Toy.env Toy.fresh (c!"a")) = true ∧
    ask Toy.env Toy.fresh (.setStored (c!"a") (c!"u") [] (c!"x")) = .ok .unit := ⟨rfl, Toy.one_ok⟩

/-! ## C45 -/

theorem forgetAll_append (l l' : List Str) : ∀ V : Vault, (V.forgetAll l).1 = true →
    V.forgetAll (l ++ l') = (V.forgetAll l).2.forgetAll l' := by
  induction l with
  | nil => intro V _; rfl
  | cons x l ih =>
    intro V h
    simp only [Vault.forgetAll, List.cons_append] at h ⊢
    split at h
    · cases h
    · rename_i hx
      rw [if_neg hx, if_neg hx]
      exact ih _ h

theorem forgetAll_known (l : List Str) : ∀ V : Vault, l.Nodup → (∀ x ∈ l, V.sites x ≠ none) →
    (V.forgetAll l).1 = true ∧ (V.forgetAll l).2.passwords = V.passwords ∧
      ∀ y, (V.forgetAll l).2.sites y = if y ∈ l then none else V.sites y := by
  induction l with
  | nil => intro V _ _; simp [Vault.forgetAll]
  | cons x l ih =>
    intro V hn h
    obtain ⟨hx, hn⟩ := List.nodup_cons.mp hn
    obtain ⟨h1, h2, h3⟩ := ih (V.forget x) hn (by
      intro y hy
      have : y ≠ x := fun he => hx (he ▸ hy)
      simp only [Vault.forget, update, if_neg this]
      exact h y (by simp [hy]))
    simp only [Vault.forgetAll, if_neg (h x (by simp))]
    refine ⟨h1, h2, fun y => ?_⟩
    rw [h3]
    by_cases hy : y ∈ l
    · simp [hy]
    · by_cases hyx : y = x
      · simp [hyx, Vault.forget, update]
      · simp [hy, hyx, Vault.forget, update]

theorem sitesRemoved (hE : E.Lawful) (hS : Secure E U) {s s' : PState} {A A' : AState} {pos pos' : Origin} {p : Str}
    {V V' : Vault} (ho : Open E U s A pos p V) (ho' : Open E U s' A' pos' p V') {l : List Str}
    (h1 : V'.passwords = V.passwords) (h2 : ∀ y, V'.sites y = if y ∈ l then none else V.sites y) :
    SitesRemoved E U l s s' where
  listings q := by
    obtain ⟨before, g1, _, g3⟩ := ho.listSites hE hS q
    obtain ⟨afterwards, g1', _, g3'⟩ := ho'.listSites hE hS q
    refine ⟨before, afterwards, g1, g1', fun x => ?_⟩
    rw [g3, g3', h2]
    by_cases hx : x.name ∈ l <;> simp [hx]
  noAlias a ha hal := by rw [ho'.ask_getAlias hE hS ha, h2, if_pos hal]
  others a ha hal := by rw [ho'.ask_getAlias hE hS ha, ho.ask_getAlias hE hS ha, h2, if_neg hal]
  passwords a n r ha hn hr hor := by
    refine sameAnswers hE hS ho ho' ha hn hr (by rw [h1]) ?_
    unfold Vault.resolve
    rw [h2]
    by_cases hal : canonical a ∈ l
    · rcases hor with h | h
      · exact absurd hal h
      · rw [ho.siteMeant_eq hE hS ha] at h
        unfold Vault.resolve at h
        rw [if_pos hal]
        exact h.symm
    · rw [if_neg hal]

/-- **C45.** `remove_sites` on distinct known sites succeeds if the file can be written, and removes exactly the entries
of these sites.  No password is lost: entries of sites that are not aliases are answered as before, even for the
sites removed. -/
theorem C45_remove_sites (hE : E.Lawful) (hS : Secure E U) (s : PState) (hs : Reachable E U s) (hu : s.key.isSome = true)
    (l : List Str) (hl : ∀ x ∈ l, U.site x) (hne : l ≠ []) (hnd : l.Nodup) (hk : ∀ x ∈ l, Known E s x) :
    (ask E s (.removeSites l) = .ok .unit ∨ ∃ e, ask E s (.removeSites l) = .err e ∧ WriteError e) ∧
    (E.fs s.world.fpos = .ok → ask E s (.removeSites l) = .ok .unit) ∧
    SitesRemoved E U l s (after E s (.removeSites l)) := by
  obtain ⟨A, pos, p, V, ho⟩ := reach_open hE hS hs hu
  obtain ⟨g1, g2, g3⟩ := forgetAll_known l V hnd fun x hx => Open.known ho hE hS (hk x hx)
  have hstep := ho.stepOk hE hS (.removeSites l) hl rfl
  simp only [astepUnlocked, if_neg hne, if_pos g1] at hstep
  have hc := ho.changes hstep
  refine ⟨hc.result, fun h => (hc.ok h).1, ?_⟩
  obtain ⟨_, _, _, pos', ho'⟩ := hc
  exact sitesRemoved hE hS ho ho' g2 g3

theorem flush_noKeyMissing (w : World) : (Storage.flush E w).1 ≠ .err .keyMissing := by
  unfold Storage.flush FileIO.flush
  cases E.fs w.fpos <;> simp

/-- **C45 (missing).** If a site in the list is not known (or occurs for the second time), the call fails with a missing
key; the sites before it have been removed, but only in memory. -/
theorem C45_missing (hE : E.Lawful) (hS : Secure E U) (s : PState) (hs : Reachable E U s) (hu : s.key.isSome = true)
    (l₁ l₂ : List Str) (x : Str) (hl : ∀ y ∈ l₁ ++ x :: l₂, U.site y) (hnd : l₁.Nodup) (hk : ∀ y ∈ l₁, Known E s y)
    (hx : x ∈ l₁ ∨ Unknown E s x) :
    ask E s (.removeSites (l₁ ++ x :: l₂)) = .err .keyMissing ∧
    (after E s (.removeSites (l₁ ++ x :: l₂))).world.disk = s.world.disk ∧
    SitesRemoved E U l₁ s (after E s (.removeSites (l₁ ++ x :: l₂))) := by
  obtain ⟨A, pos, p, V, ho⟩ := reach_open hE hS hs hu
  obtain ⟨g1, g2, g3⟩ := forgetAll_known l₁ V hnd fun x hx => Open.known ho hE hS (hk x hx)
  have hxn : (V.forgetAll l₁).2.sites x = none := by
    rw [g3]
    rcases hx with hx | hx
    · rw [if_pos hx]
    · rw [Open.unknown ho hE hS hx]; simp
  have hall : V.forgetAll (l₁ ++ x :: l₂) = (false, (V.forgetAll l₁).2) := by
    rw [forgetAll_append _ _ _ g1, Vault.forgetAll, if_pos hxn]
  have hstep := ho.stepOk hE hS (.removeSites (l₁ ++ x :: l₂)) hl rfl
  simp only [astepUnlocked, if_neg (show l₁ ++ x :: l₂ ≠ [] by simp), hall] at hstep
  obtain ⟨wr, _, h2, h3⟩ := hstep
  simp only [Bool.false_eq_true, if_false] at h2 h3
  have hask : ask E s (.removeSites (l₁ ++ x :: l₂)) = .err .keyMissing := h2
  refine ⟨hask, ?_, ?_⟩
  · rcases run_changing E (.removeSites (l₁ ++ x :: l₂)) (by simp [Op.changes]) s with ⟨e, _, h⟩ | ⟨_, h⟩ | ⟨_, h⟩
    · rw [after, h]
      exact (quiet_pre E _ s).1.1
    · rw [ask, h] at hask; cases hask
    · rw [ask, h] at hask
      exact absurd (map_err_iff.mp hask) (flush_noKeyMissing _)
  · obtain ⟨pos', R, hses⟩ := h3.mem
    have ho' : Open E U (after E s (.removeSites (l₁ ++ x :: l₂))) _ pos' p (V.forgetAll l₁).2 :=
      ⟨h3, ⟨by simp, ho.intact.2⟩, ho.unlocked, rfl, R, by rw [ho.unlocked] at hses; exact hses⟩
    exact sitesRemoved hE hS ho ho' g2 g3

theorem toy_two_known : Known Toy.env Toy.two (c!"a") ∧ Known Toy.env Toy.two (c!"b") ∧ Unknown Toy.env Toy.two (c!"c") := by
  obtain ⟨_, a, pos, ho⟩ := Toy.two_effect
  obtain ⟨l, h1, h2, h3⟩ := ho.listSites Toy.env_lawful Toy.secure (c!"*")
  refine ⟨⟨c!"*", l, h1, ⟨c!"a", none⟩, (h3 _).mpr ⟨?_, .inl rfl⟩, rfl⟩,
    ⟨c!"*", l, h1, ⟨c!"b", some (c!"a")⟩, (h3 _).mpr ⟨?_, .inl rfl⟩, rfl⟩, ⟨c!"*", l, h1, rfl, ?_⟩⟩
  · rfl
  · rfl
  · intro x hx hn
    have := ((h3 x).mp hx).1
    rw [hn] at this
    cases this

example : SitesRemoved Toy.env Toy.univ [c!"b", c!"a"] Toy.two (after Toy.env Toy.two (.removeSites [c!"b", c!"a"])) := by
  refine (C45_remove_sites Toy.env_lawful Toy.secure _ Toy.two_reachable Toy.two_unlocked _ ?_ (by decide) (by decide)
    ?_).2.2
  · intro x hx
    simp only [List.mem_cons, List.not_mem_nil, or_false] at hx
    rcases hx with rfl | rfl
    · exact Toy.site_b
    · exact Toy.site_a
  · intro x hx
    simp only [List.mem_cons, List.not_mem_nil, or_false] at hx
    rcases hx with rfl | rfl
    · exact toy_two_known.2.1
    · exact toy_two_known.1

example : ask Toy.env Toy.two (.removeSites [c!"a", c!"c", c!"b"]) = .err .keyMissing := by
  refine (C45_missing Toy.env_lawful Toy.secure _ Toy.two_reachable Toy.two_unlocked [c!"a"] [c!"b"] (c!"c") ?_ (by decide)
    ?_ (.inr toy_two_known.2.2)).1
  · intro x hx
    simp only [List.cons_append, List.nil_append, List.mem_cons, List.not_mem_nil, or_false] at hx
    rcases hx with rfl | rfl | rfl
    · exact Toy.site_a
    · exact Toy.site_c
    · exact Toy.site_b
  · intro x hx
    simp only [List.mem_cons, List.not_mem_nil, or_false] at hx
    subst hx
    exact toy_two_known.1

/-! ## C06 -/

theorem derivePassword_scrypt {P P' : Prims} (h : P.scrypt = P'.scrypt) (p salt : Str) (len : Nat) (cs : CharacterSet) :
    Crypto.derivePassword P p salt len cs = Crypto.derivePassword P' p salt len cs := by
  unfold Crypto.derivePassword Crypto.deriveBits
  rw [h]

/-- **C06 (histories).** Two storages with the same primary password, in environments that have nothing but the key
derivation function in common: if a generated password is entered with the same parameters for the same site, then the
same value is retrieved from both, whatever else is done in either before or after. -/
theorem C06_deterministic {E' : Env} {U' : Universe} (hE : E.Lawful) (hS : Secure E U) (hE' : E'.Lawful)
    (hS' : Secure E' U') (hsc : E.prims.scrypt = E'.prims.scrypt) (s s' : PState) (hs : Reachable E U s)
    (hs' : Reachable E' U' s') (hp : s.primaryPassword = s'.primaryPassword) (a a' n r r' : Str)
    (ha : U.site a) (hn : U.name n) (hr : U.revision r) (ha' : U'.site a') (hn' : U'.name n) (hr' : U'.revision r')
    (hsite : siteMeant E s a = siteMeant E' s' a') (hrev : revisionOf r = revisionOf r')
    (len : UInt64) (cs : CharacterSet)
    (hok : ask E s (.setGenerated a n r len cs) = .ok .unit)
    (hok' : ask E' s' (.setGenerated a' n r' len cs) = .ok .unit)
    (ops ops' : List Op) (hops : ∀ op ∈ ops, op.Within U) (hops' : ∀ op ∈ ops', op.Within U')
    (hleave : LeavesAll E a n r ops (after E s (.setGenerated a n r len cs)))
    (hleave' : LeavesAll E' a' n r' ops' (after E' s' (.setGenerated a' n r' len cs)))
    (hu : (runAll E ops (after E s (.setGenerated a n r len cs))).2.key.isSome = true)
    (hu' : (runAll E' ops' (after E' s' (.setGenerated a' n r' len cs))).2.key.isSome = true) :
    ask E (runAll E ops (after E s (.setGenerated a n r len cs))).2 (.get a n r) =
      ask E' (runAll E' ops' (after E' s' (.setGenerated a' n r' len cs))).2 (.get a' n r') := by
  obtain ⟨p, h1, h2, _⟩ := C20_generated hE hS s hs a n r len cs ha hn hr hok ops hops hleave
  obtain ⟨p', h1', h2', _⟩ := C20_generated hE' hS' s' hs' a' n r' len cs ha' hn' hr' hok' ops' hops' hleave'
  rw [h1, h1'] at hp
  cases hp
  rw [h2 hu, h2' hu', hsite, hrev, derivePassword_scrypt hsc]

/-- **C06 (contents).** The same for any two storages in which such an entry is listed, however it came to be there. -/
theorem C06_listed {E' : Env} {U' : Universe} (hE : E.Lawful) (hS : Secure E U) (hE' : E'.Lawful)
    (hS' : Secure E' U') (hsc : E.prims.scrypt = E'.prims.scrypt) (s s' : PState) (hs : Reachable E U s)
    (hs' : Reachable E' U' s') (hu : s.key.isSome = true) (hu' : s'.key.isSome = true)
    (hp : s.primaryPassword = s'.primaryPassword) (a a' q q' : Str) (ha : U.site a) (ha' : U'.site a')
    (l l' : List Password) (hl : ask E s (.list a q) = .ok (.passwords l))
    (hl' : ask E' s' (.list a' q') = .ok (.passwords l')) (x x' : GeneratedPassword) (hx : .generated x ∈ l)
    (hx' : .generated x' ∈ l') (hid : x.id = x'.id) (hlen : x.length = x'.length) (hcs : x.charset = x'.charset) :
    ask E s (.get a x.id.name x.id.revision) = ask E' s' (.get a' x'.id.name x'.id.revision) := by
  obtain ⟨m, p, h1, h2, _, h3⟩ := C43_sound hE hS s hs hu a q ha
  obtain ⟨m', p', h1', h2', _, h3'⟩ := C43_sound hE' hS' s' hs' hu' a' q' ha'
  rw [hl] at h1
  rw [hl'] at h1'
  cases h1
  cases h1'
  have g := (h3 _ hx).2.2.2.2
  have g' := (h3' _ hx').2.2.2.2
  simp only [Password.id] at g g'
  rw [g, g', derivePassword_scrypt hsc, hid, hlen, hcs]
  rw [h2, h2'] at hp
  cases hp
  rfl

/-- The toy environment with other random bytes, another order of the storage, and other outcomes of writes. -/
def toyOther : Env := { Toy.env with rand := fun n => UInt8.ofNat (3 * n + 1), order := fun _ d => d }

example : toyOther.Lawful ∧ Toy.env.prims.scrypt = toyOther.prims.scrypt ∧
    Toy.env.rand 0 ≠ toyOther.rand 0 ∧
    ask Toy.env Toy.fresh (.setGenerated (c!"a") (c!"u") [] 8 ⟨true, true, true, true⟩) = .ok .unit := by
  refine ⟨⟨toyPrims_lawful, fun _ d => .refl d⟩, rfl, by decide, ?_⟩
  obtain ⟨a, pos, ho⟩ := Toy.fresh_open
  exact ((ho.setGenerated Toy.env_lawful Toy.secure _ _ ⟨Toy.site_a, Toy.name_u, Toy.revision_nil⟩).ok rfl).1

end Pfp.Props
