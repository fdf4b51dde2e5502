import Verif.Proofs.Writes
import Verif.Proofs.ToyEnv

/-!
# Locking, resetting and writing (C32–C36)
-/

namespace Pfp.Props
open Spec

variable {E : Env} {U : Universe}

/-! ## C32 -/

/-- **C32 (refused).** In every state without secrets, every operation that needs the primary password changes nothing
at all and gives no information: it fails with `PasswordsLocked`.  The exceptions give none either: `remove_sites` of
nothing does nothing, the listings panic, and `get_recovery_code` may report instead that the salt is missing or not
Base64. -/
theorem C32_refused (E : Env) (s : PState) (hk : s.key = none) (hh : s.hmacSecret = none) (op : Op)
    (hop : op.always = false) :
    after E s op = s ∧
    (ask E s op = .err .passwordsLocked ∨ (op = .removeSites [] ∧ ask E s op = .ok .unit) ∨
      (((∃ x q, op = .list x q) ∨ ∃ q, op = .listSites q) ∧ ask E s op = .panic) ∨
      ((∃ q, op = .getRecoveryCode q) ∧
        (ask E s op = .err .storageNotInitialized ∨ ask E s op = .err .invalidBase64))) := by
  have hsp : special op = false := by cases op <;> first | exact Bool.noConfusion hop | rfl
  have h := run_locked E s hk hh op hsp
  refine ⟨by rw [after, h], ?_⟩
  rw [ask, h]
  cases op with
  | removeSites l =>
    by_cases hl : l = []
    · subst hl; exact .inr (.inl ⟨rfl, rfl⟩)
    · exact .inl (if_neg hl)
  | list x q => exact .inr (.inr (.inl ⟨.inl ⟨x, q, rfl⟩, rfl⟩))
  | listSites q => exact .inr (.inr (.inl ⟨.inr ⟨q, rfl⟩, rfl⟩))
  | getRecoveryCode q =>
    unfold Storage.getSalt FileIO.get
    cases s.world.data.get? Storage.SALT_KEY with
    | none => exact .inr (.inr (.inr ⟨⟨q, rfl⟩, .inl rfl⟩))
    | some v =>
      cases hb : Base64.decode v with
      | none => refine .inr (.inr (.inr ⟨⟨q, rfl⟩, .inr ?_⟩)); simp [hb, Res.mapErr]
      | some b => left; simp [hb, Res.mapErr]
  | reset => cases hop
  | reload => cases hop
  | lock => cases hop
  | unlock => cases hop
  | initialized => cases hop
  | unlocked => cases hop
  | _ => exact .inl rfl

/-- The three secrets are all there or none is. -/
def Together (s : PState) : Prop :=
  (s.key.isSome = true ∧ s.hmacSecret.isSome = true ∧ s.primaryPassword.isSome = true) ∨
  (s.key = none ∧ s.hmacSecret = none ∧ s.primaryPassword = none)

/-- A computation not touching the secrets. -/
def SameSession {α : Type} (m : M PState α) : Prop := ∀ s,
  (m s).2.key = s.key ∧ (m s).2.hmacSecret = s.hmacSecret ∧ (m s).2.primaryPassword = s.primaryPassword

theorem sameSession_bind {α β : Type} {m : M PState α} {f : α → M PState β} (hm : SameSession m)
    (hf : ∀ a, SameSession (f a)) : SameSession (m >>= f) := by
  intro s
  have h := hm s
  rw [M.bind_apply]
  revert h
  cases m s with
  | mk r s' =>
    intro h
    cases r with
    | ok a =>
      obtain ⟨h4, h5, h6⟩ := hf a s'
      exact ⟨h4.trans h.1, h5.trans h.2.1, h6.trans h.2.2⟩
    | err e => exact h
    | panic => exact h

theorem sameSession_onWorld {α : Type} (m : M World α) : SameSession (Passwords.onWorld m) := fun _ => ⟨rfl, rfl, rfl⟩
theorem sameSession_lift {α : Type} (r : Res α) : SameSession (M.lift r) := fun _ => ⟨rfl, rfl, rfl⟩
theorem sameSession_get : SameSession (M.get) := fun _ => ⟨rfl, rfl, rfl⟩

/-- Operations other than `reset`, `unlock`, `lock` and starting over do not touch the secrets. -/
theorem run_sameSession (E : Env) (op : Op) (h : op.always = false) (s : PState) :
    (after E s op).key = s.key ∧ (after E s op).hmacSecret = s.hmacSecret ∧
      (after E s op).primaryPassword = s.primaryPassword := by
  by_cases hc : op.changes = true
  · rw [after, run_pre E op hc]
    have hq : SameSession (pre E op) := fun s => (quiet_pre E op s).2
    exact sameSession_bind hq (fun _ => sameSession_onWorld _) s
  · cases op with
    | removeSites l =>
      have hl : l = [] := by simpa [Op.changes] using hc
      subst hl
      exact ⟨rfl, rfl, rfl⟩
    | getRecoveryCode q =>
      exact sameSession_bind sameSession_get (fun _ => sameSession_bind (sameSession_lift _) fun _ =>
        sameSession_bind (sameSession_lift _) fun _ => sameSession_bind (sameSession_onWorld _) fun _ =>
        sameSession_lift _) s
    | getAlias => exact ⟨rfl, rfl, rfl⟩
    | has => exact ⟨rfl, rfl, rfl⟩
    | get => exact ⟨rfl, rfl, rfl⟩
    | getNotes => exact ⟨rfl, rfl, rfl⟩
    | list => exact ⟨rfl, rfl, rfl⟩
    | listSites => exact ⟨rfl, rfl, rfl⟩
    | _ => first | exact Bool.noConfusion h | exact absurd rfl hc

/-- If the last step of a computation installs secrets, they are installed together. -/
theorem together_bind {α : Type} {m : M PState α} {f : α → M PState Unit} (hm : SameSession m)
    (hf : ∀ a s, Together s → Together (f a s).2) (s : PState) (hs : Together s) : Together ((m >>= f) s).2 := by
  have h := hm s
  rw [M.bind_apply]
  revert h
  cases m s with
  | mk r s' =>
    intro h
    have hs' : Together s' := by
      unfold Together at hs ⊢
      rw [h.1, h.2.1, h.2.2]
      exact hs
    cases r with
    | ok a => exact hf a s' hs'
    | err e => exact hs'
    | panic => exact hs'

theorem together_step (E : Env) (op : Op) (s : PState) (hs : Together s) : Together (after E s op) := by
  by_cases ha : op.always = true
  · cases op with
    | reset p =>
      refine together_bind (sameSession_onWorld _) (fun salt => ?_) s hs
      refine together_bind (sameSession_lift _) fun key => ?_
      refine together_bind (sameSession_onWorld _) fun secret => ?_
      refine together_bind (sameSession_onWorld _) fun _ => ?_
      refine together_bind (sameSession_onWorld _) fun _ => ?_
      exact fun _ _ => .inl ⟨rfl, rfl, rfl⟩
    | unlock p =>
      refine together_bind sameSession_get (fun s' => ?_) s hs
      refine together_bind (sameSession_lift _) fun salt => ?_
      refine together_bind (sameSession_lift _) fun key => ?_
      refine together_bind (sameSession_lift _) fun secret => ?_
      exact fun _ _ => .inl ⟨rfl, rfl, rfl⟩
    | lock => exact .inr ⟨rfl, rfl, rfl⟩
    | reload =>
      simp only [after, run, reload]
      cases FileIO.load s.world.disk with
      | ok d => exact .inr ⟨rfl, rfl, rfl⟩
      | err e => exact hs
      | panic => exact hs
    | initialized => exact hs
    | unlocked => exact hs
    | _ => cases ha
  · obtain ⟨h1, h2, h3⟩ := run_sameSession E op (by simpa using ha) s
    unfold Together at hs ⊢
    rw [h1, h2, h3]
    exact hs

/-- **C32 (together).** From a program start with whatever data, whatever is done: encryption key, HMAC secret and
primary password are held all three, or none of them is. -/
theorem C32_together (E : Env) (w : World) (ops : List Op) : Together (runAll E ops (Passwords.new w)).2 := by
  have : ∀ (ops : List Op) (s : PState), Together s → Together (runAll E ops s).2 := by
    intro ops
    induction ops with
    | nil => exact fun s hs => hs
    | cons op ops ih => exact fun s hs => ih _ (together_step E op s hs)
  exact this ops _ (.inr ⟨rfl, rfl, rfl⟩)

/-- **C32 (histories).** From a program start with whatever data, whatever has been done: when the program considers
itself locked, then every operation that needs the primary password changes nothing and gives no information (see
above), and recovery codes cannot be decoded either.  And it is locked after `lock`. -/
theorem C32_locked (E : Env) (w : World) (ops : List Op) (s : PState) (hs : s = (runAll E ops (Passwords.new w)).2) :
    (ask E s .unlocked = .ok (.bool false) →
      (∀ code, Passwords.decodeRecoveryCode E s code = .err .passwordsLocked) ∧
      ∀ op, op.always = false → after E s op = s ∧
        (ask E s op = .err .passwordsLocked ∨ (op = .removeSites [] ∧ ask E s op = .ok .unit) ∨
          (((∃ x q, op = .list x q) ∨ ∃ q, op = .listSites q) ∧ ask E s op = .panic) ∨
          ((∃ q, op = .getRecoveryCode q) ∧
            (ask E s op = .err .storageNotInitialized ∨ ask E s op = .err .invalidBase64)))) ∧
    ask E (after E s .lock) .unlocked = .ok (.bool false) := by
  refine ⟨fun hu => ?_, rfl⟩
  have hk : s.key = none := by
    cases h : s.key with
    | none => rfl
    | some k =>
      simp only [ask, run, Passwords.unlocked, h] at hu
      cases hu
  have ht : Together s := hs ▸ C32_together E w ops
  rcases ht with ⟨h1, -, -⟩ | ⟨-, h2, h3⟩
  · rw [hk] at h1; cases h1
  · refine ⟨fun code => ?_, fun op hop => C32_refused E s hk h2 op hop⟩
    unfold Passwords.decodeRecoveryCode
    rw [h3]; rfl

example : (Passwords.lock Toy.two).key = none ∧ (Passwords.lock Toy.two).hmacSecret = none ∧
    Op.always (.get (c!"a") (c!"u") []) = false ∧ (Passwords.lock Toy.two).world.data ≠ [] := by
  refine ⟨rfl, rfl, rfl, ?_⟩
  obtain ⟨_, a, pos, ho⟩ := Toy.two_effect
  intro h
  have := ho.store.salt
  rw [show Toy.two.world.data = [] from h] at this
  cases this

/-! ## C33 -/

/-- **C33 (lock and unlock).** Locking and unlocking again with the primary password gives back exactly the state there
was before. -/
theorem C33_lock_unlock (hE : E.Lawful) (hS : Secure E U) (s : PState) (hs : Reachable E U s)
    (hu : s.key.isSome = true) :
    ∃ p, s.primaryPassword = some p ∧ run E (.unlock p) (after E s .lock) = (.ok .unit, s) := by
  obtain ⟨a, pos, p, V, ho⟩ := reach_open hE hS hs hu
  refine ⟨p, ho.session.2.2, ?_⟩
  have h := unlock_eq (s := after E s .lock) hE hS (p := p) (pos := pos) (V := V) ho.store p ho.store.primary
  rw [if_pos rfl] at h
  simp only [run, h, Res.map_ok]
  obtain ⟨h1, h2, h3⟩ := ho.session
  cases s
  simp_all [after, run, Passwords.lock]

/-- The state after a successful `reset`, whatever the state before. -/
theorem reset_ok_keep (hE : E.Lawful) (s : PState) (p : Str) (hp : U.primary p)
    (hok : ask E s (.reset p) = .ok .unit) : ∃ A, Rep E U (after E s (.reset p)) A ∧ KeepG p (fun _ => True) A := by
  have hrep : Rep E U s ⟨.torn, .torn, true⟩ := ⟨trivial, trivial⟩
  obtain ⟨wr, h1, h2, h3⟩ := step_reset hE hrep p hp (deriveWith E.prims) E.wild
  refine ⟨_, h3, ?_⟩
  have hw : wr = .ok := result_ok (h2.symm.trans hok)
  subst hw
  exact ⟨⟨_, rfl, trivial⟩, .inr ⟨_, rfl, trivial⟩⟩

theorem keep_true_all (hE : E.Lawful) (hS : Secure E U) {p : Str} : ∀ (ops : List Op) (s : PState) (A : AState),
    Rep E U s A → KeepG p (fun _ => True) A → (∀ op ∈ ops, op.Within U) → (∀ op ∈ ops, ∀ q, op ≠ .reset q) →
    ∃ A', Rep E U (runAll E ops s).2 A' ∧ KeepG p (fun _ => True) A'
  | [], s, A, hrep, hK, _, _ => ⟨A, hrep, hK⟩
  | op :: ops, s, A, hrep, hK, hw, hl => by
    obtain ⟨A1, h1, h2⟩ := keepG_step hE hS hrep hK op (hw op (by simp)) (hl op (by simp)) fun _ _ _ _ _ => trivial
    exact keep_true_all hE hS ops _ A1 h1 h2 (fun o ho => hw o (List.mem_cons_of_mem _ ho))
      fun o ho => hl o (List.mem_cons_of_mem _ ho)

/-- **C33 (exactly the password).** Whatever the state before: after a successful `reset` with a primary password and
any other operations except `reset` — including starting over from the file, failing writes and wrong passwords —
unlocking works with this password and with no other one in use; a failed attempt leaves everything as it was. -/
theorem C33_exactly_the_password (hE : E.Lawful) (hS : Secure E U) (s : PState) (p : Str) (hp : U.primary p)
    (hok : ask E s (.reset p) = .ok .unit) (ops : List Op) (hops : ∀ op ∈ ops, op.Within U)
    (hnr : ∀ op ∈ ops, ∀ q, op ≠ .reset q) :
    ask E (runAll E ops (after E s (.reset p))).2 (.unlock p) = .ok .unit ∧
    (after E (runAll E ops (after E s (.reset p))).2 (.unlock p)).key.isSome = true ∧
    ∀ p', U.primary p' → p' ≠ p →
      run E (.unlock p') (runAll E ops (after E s (.reset p))).2 =
        (.err .decryptionFailure, (runAll E ops (after E s (.reset p))).2) := by
  obtain ⟨A, hrep, hK⟩ := reset_ok_keep hE s p hp hok
  obtain ⟨A', hrep', hK'⟩ := keep_true_all hE hS ops _ A hrep hK hops hnr
  obtain ⟨V, hm, _⟩ := hK'.1
  have hmem := hrep'.mem
  rw [hm] at hmem
  obtain ⟨pos, R, _⟩ := hmem
  have h := unlock_eq hE hS R
  refine ⟨?_, ?_, ?_⟩
  · rw [ask, run, h p hp, if_pos rfl]; rfl
  · rw [after, run, h p hp, if_pos rfl]; rfl
  · intro p' hp' hne
    rw [run, h p' hp', if_neg hne]; rfl

example : ask Toy.env Toy.start (.reset (c!"secret1")) = .ok .unit ∧ Toy.univ.primary (c!"secret2") ∧
    (c!"secret2") ≠ (c!"secret1") ∧ ∀ op ∈ [Op.setStored (c!"a") (c!"u") [] (c!"x"), .unlock (c!"secret2"), .reload],
      op.Within Toy.univ ∧ ∀ q, op ≠ .reset q := by
  refine ⟨Toy.reset_ok, by show _ ∈ Toy.primaries; decide, by decide, ?_⟩
  intro op hop
  simp only [List.mem_cons, List.not_mem_nil, or_false] at hop
  rcases hop with rfl | rfl | rfl
  · exact ⟨⟨Toy.site_a, Toy.name_u, Toy.revision_nil⟩, by simp⟩
  · exact ⟨by show _ ∈ Toy.primaries; decide, by simp⟩
  · exact ⟨trivial, by simp⟩

/-- **C33 (failure).** In every state whatever: an `unlock` that does not succeed changes nothing. -/
theorem C33_failure_changes_nothing (E : Env) (s : PState) (p : Str) (h : ask E s (.unlock p) ≠ .ok .unit) :
    after E s (.unlock p) = s := by
  simp only [ask, run, after] at h ⊢
  revert h
  unfold Passwords.unlock
  simp only [M.bind_apply, M.get_apply, M.lift_apply]
  cases Storage.getSalt s.world with
  | err e => exact fun _ => rfl
  | panic => exact fun _ => rfl
  | ok salt =>
    dsimp only
    cases getEncryptionKey E.prims p salt with
    | err e => exact fun _ => rfl
    | panic => exact fun _ => rfl
    | ok key =>
      dsimp only
      cases Storage.getHmacSecret E s.world key with
      | err e => exact fun _ => rfl
      | panic => exact fun _ => rfl
      | ok secret => exact fun h => absurd rfl h

theorem splitOnce_some : ∀ (v a b : Str), Crypto.splitOnce '_' v = some (a, b) → v = a ++ '_' :: b
  | [], a, b, h => by simp [Crypto.splitOnce] at h
  | c :: v, a, b, h => by
    rw [Crypto.splitOnce] at h
    split at h
    · rename_i hc
      simp only [Option.some.injEq, Prod.mk.injEq] at h
      rw [← h.1, ← h.2, hc]; rfl
    · cases hv : Crypto.splitOnce '_' v with
      | none => rw [hv] at h; cases h
      | some ab =>
        obtain ⟨a', b'⟩ := ab
        rw [hv] at h
        simp only [Option.map_some, Option.some.injEq, Prod.mk.injEq] at h
        rw [← h.1, ← h.2, splitOnce_some v a' b' hv]; rfl

theorem decryptData_ok {P : Prims} {v : Str} {k m : Bytes} (h : Crypto.decryptData P v k = .ok m) :
    ∃ nonce64 nonce ciphertext64 ciphertext, v = nonce64 ++ '_' :: ciphertext64 ∧
      Base64.decode nonce64 = some nonce ∧ Base64.decode ciphertext64 = some ciphertext ∧
      P.gcmDecrypt k nonce ciphertext = some m := by
  unfold Crypto.decryptData at h
  split at h
  · cases h
  · cases h4 : Crypto.splitOnce '_' v with
    | none => rw [h4] at h; cases h
    | some ab =>
      obtain ⟨n64, c64⟩ := ab
      rw [h4] at h
      simp only [okOr_some, Res.bind_ok] at h
      cases h5 : Base64.decode n64 with
      | none => rw [h5] at h; cases h
      | some n =>
        rw [h5] at h
        simp only [okOr_some, Res.bind_ok] at h
        split at h
        · cases h
        · cases h6 : Base64.decode c64 with
          | none => rw [h6] at h; cases h
          | some c =>
            rw [h6] at h
            simp only [okOr_some, Res.bind_ok] at h
            cases h7 : P.gcmDecrypt k n c with
            | none => rw [h7] at h; cases h
            | some m' =>
              rw [h7] at h
              cases h
              exact ⟨n64, n, c64, c, splitOnce_some _ _ _ h4, h5, h6, h7⟩

/-- **C33 (authentication).** In every state whatever: for `unlock` to succeed the cipher has to accept the stored HMAC
secret under the key derived from the primary password given. -/
theorem C33_authenticated (E : Env) (s : PState) (p : Str) (h : ask E s (.unlock p) = .ok .unit) :
    ∃ salt64 salt nonce64 nonce ciphertext64 ciphertext plaintext,
      s.world.data.get? (c!"salt") = some salt64 ∧ Base64.decode salt64 = some salt ∧
      s.world.data.get? (c!"hmac-secret") = some (nonce64 ++ '_' :: ciphertext64) ∧
      Base64.decode nonce64 = some nonce ∧ Base64.decode ciphertext64 = some ciphertext ∧
      E.prims.gcmDecrypt (keyFor E.prims p salt) nonce ciphertext = some plaintext := by
  simp only [ask, run] at h
  unfold Passwords.unlock at h
  simp only [M.bind_apply, M.get_apply, M.lift_apply] at h
  unfold Storage.getSalt FileIO.get at h
  cases h1 : s.world.data.get? Storage.SALT_KEY with
  | none => rw [h1] at h; cases h
  | some salt64 =>
    rw [h1] at h
    simp only [okOr_some, Res.mapErr, Res.bind_ok] at h
    cases h2 : Base64.decode salt64 with
    | none => rw [h2] at h; cases h
    | some salt =>
      rw [h2] at h
      simp only [okOr_some, getEncryptionKey_keyFor] at h
      unfold Storage.getHmacSecret FileIO.get at h
      cases h3 : s.world.data.get? Storage.HMAC_SECRET_KEY with
      | none => rw [h3] at h; cases h
      | some v =>
        rw [h3] at h
        simp only [okOr_some, Res.mapErr, Res.bind_ok] at h
        cases h4 : Crypto.decryptData E.prims v (keyFor E.prims p salt) with
        | err e => rw [h4] at h; cases h
        | panic => rw [h4] at h; cases h
        | ok m =>
          obtain ⟨n64, n, c64, c, hv, h5, h6, h7⟩ := decryptData_ok h4
          exact ⟨salt64, salt, n64, n, c64, c, m, h1, h2, by rw [← hv]; exact h3, h5, h6, h7⟩

example : ask Toy.env (after Toy.env Toy.two .lock) (.unlock (c!"secret1")) = .ok .unit := by
  obtain ⟨_, a, pos, ho⟩ := Toy.two_effect
  obtain ⟨p, h1, h2⟩ := C33_lock_unlock Toy.env_lawful Toy.secure _ Toy.two_reachable Toy.two_unlocked
  rw [ho.session.2.2] at h1
  cases h1
  exact congrArg Prod.fst h2

/-! ## C34 -/

theorem reset_ok_state (hE : E.Lawful) {s : PState} {p : Str} (hok : ask E s (.reset p) = .ok .unit) :
    after E s (.reset p) =
      { world := (Storage.flush E (clearedWorld E p s.world)).2, key := some (keyFor E.prims p (saltAt E s.world.rpos)),
        hmacSecret := some (secretAt E s.world.rpos), primaryPassword := some p } ∧
    (Storage.flush E (clearedWorld E p s.world)).1 = .ok () := by
  simp only [ask, after, run, reset_eq hE] at hok ⊢
  cases hf : Storage.flush E (clearedWorld E p s.world) with
  | mk r w =>
    cases r with
    | ok u => exact ⟨rfl, rfl⟩
    | err e => rw [hf] at hok; cases hok
    | panic => rw [hf] at hok; cases hok

theorem collect_none {α : Type} (E : Env) (w : World) (f : Json → Option α) (sel : Str → Bool) (k : Bytes) :
    ∀ keys : List Str, (∀ key ∈ keys, sel key = false) → Storage.collect E w f sel k keys = .ok []
  | [], _ => rfl
  | key :: keys, h => by
    rw [Storage.collect, if_neg (by simp [h key (by simp)])]
    exact collect_none E w f sel k keys fun x hx => h x (List.mem_cons_of_mem _ hx)

/-- **C34.** Whatever the state before: after a successful `reset` the storage is initialized and unlocked with the new
primary password, it contains no site, no alias and no password, the file can be loaded and contains two entries, the
salt and the HMAC secret, and a new process can unlock it with the new primary password. -/
theorem C34_reset (hE : E.Lawful) (s : PState) (p : Str) (hok : ask E s (.reset p) = .ok .unit) :
    ask E (after E s (.reset p)) .initialized = .ok (.bool true) ∧
    ask E (after E s (.reset p)) .unlocked = .ok (.bool true) ∧
    (after E s (.reset p)).primaryPassword = some p ∧
    (∀ x q, ask E (after E s (.reset p)) (.list x q) = .ok (.passwords [])) ∧
    (∀ q, ask E (after E s (.reset p)) (.listSites q) = .ok (.sites [])) ∧
    (∀ x, ask E (after E s (.reset p)) (.getAlias x) = .err .noSuchAlias) ∧
    (∀ x n r, ask E (after E s (.reset p)) (.has x n r) = .ok (.bool false)) ∧
    (∀ x n r, ask E (after E s (.reset p)) (.get x n r) = .err .keyMissing) ∧
    (∃ d, FileIO.load (after E s (.reset p)).world.disk = .ok d ∧ (d.map (·.1)).Perm [c!"salt", c!"hmac-secret"]) ∧
    ask E (after E s (.reset p)) .reload = .ok .unit ∧
    ask E (after E (after E s (.reset p)) .reload) (.unlock p) = .ok .unit := by
  obtain ⟨hs, hf⟩ := reset_ok_state hE hok
  have hkeys : ((clearedWorld E p s.world).data.map (·.1)) = [Storage.HMAC_SECRET_KEY, Storage.SALT_KEY] := rfl
  have hdata := flush_data E (clearedWorld E p s.world)
  have hk' : ∀ key ∈ FileIO.keys E (Storage.flush E (clearedWorld E p s.world)).2,
      key = Storage.HMAC_SECRET_KEY ∨ key = Storage.SALT_KEY := by
    intro key hkey
    unfold FileIO.keys FileIO.entries at hkey
    have := ((hE.order (Storage.flush E (clearedWorld E p s.world)).2.epoch
      (Storage.flush E (clearedWorld E p s.world)).2.data).map (·.1)).mem_iff.mp hkey
    rw [hdata, hkeys] at this
    simpa using this
  have hget : ∀ key, key ≠ Storage.HMAC_SECRET_KEY → key ≠ Storage.SALT_KEY →
      (Storage.flush E (clearedWorld E p s.world)).2.data.get? key = none := by
    intro key h1 h2
    rw [hdata]
    simp only [clearedWorld]
    rw [Data.get?_insert, if_neg h1, Data.get?_insert, if_neg h2]
    rfl
  have hsite : ∀ x h k, Storage.get E (Storage.flush E (clearedWorld E p s.world)).2 Serde.siteFromJson
      (Storage.siteKey E x h) k = .err .keyMissing := fun x h k =>
    Storage.get_missing _ _ _ _ _ (hget _ (Storage.siteKey_ne_hmac _ _ _) (Storage.siteKey_ne_salt _ _ _))
  have hpass : ∀ i h k, Storage.get E (Storage.flush E (clearedWorld E p s.world)).2 Serde.passwordFromJson
      (Storage.passwordKey E i h) k = .err .keyMissing := fun i h k =>
    Storage.get_missing _ _ _ _ _ (hget _ (Storage.passwordKey_ne_hmac _ _ _) (Storage.passwordKey_ne_salt _ _ _))
  have halias : ∀ x h k, Storage.getAlias E (Storage.flush E (clearedWorld E p s.world)).2 x h k = .err .noSuchAlias := by
    intro x h k
    unfold Storage.getAlias Storage.getSite
    rw [hsite]; rfl
  have hres : ∀ x h k, Storage.resolveSite E (Storage.flush E (clearedWorld E p s.world)).2 x h k =
      .ok (Storage.normalizeSite x) := by
    intro x h k
    unfold Storage.resolveSite
    simp only [halias]; rfl
  have hload : FileIO.load (Storage.flush E (clearedWorld E p s.world)).2.disk =
      .ok (FileIO.entries E (Storage.flush E (clearedWorld E p s.world)).2).reverse := by
    rw [(flush_ok hf).2]
    apply FileIO.load_contents
    unfold FileIO.entries
    refine ((hE.order _ _).map _).nodup_iff.mpr ?_
    rw [hdata, hkeys]
    decide
  have hperm : ((FileIO.entries E (Storage.flush E (clearedWorld E p s.world)).2).reverse).Perm
      (clearedWorld E p s.world).data := by
    refine (List.reverse_perm _).trans ?_
    unfold FileIO.entries
    rw [← hdata]
    exact hE.order _ _
  rw [hs]
  refine ⟨?_, rfl, rfl, ?_, ?_, ?_, ?_, ?_, ⟨_, hload, ?_⟩, ?_, ?_⟩
  · simp only [ask, run, Passwords.initialized, Storage.initialized, FileIO.containsKey, Data.contains, hdata]
    rfl
  · intro x q
    simp only [ask, run, Passwords.list, Passwords.orPanic, Res.bind_ok, hres, Storage.listPasswords]
    rw [collect_none]
    · rfl
    · intro key hkey
      rcases hk' key hkey with rfl | rfl
      · exact Storage.prefix_hmac _ _ _
      · exact Storage.prefix_salt _ _ _
  · intro q
    simp only [ask, run, Passwords.listSites, Passwords.orPanic, Res.bind_ok, Storage.listSites]
    rw [collect_none]
    · rfl
    · intro key hkey
      rcases hk' key hkey with rfl | rfl
      · exact Storage.isSiteKey_hmac
      · exact Storage.isSiteKey_salt
  · intro x
    simp only [ask, run, Passwords.getAlias, Passwords.secrets, okOr_some, Res.bind_ok, halias, Res.map_err]
  · intro x n r
    simp only [ask, run, Passwords.has, Passwords.secrets, okOr_some, Res.bind_ok, hres, Storage.hasPassword,
      Storage.contains, FileIO.containsKey, Data.contains]
    rw [hget _ (Storage.passwordKey_ne_hmac _ _ _) (Storage.passwordKey_ne_salt _ _ _)]
    rfl
  · intro x n r
    simp only [ask, run, Passwords.get, Passwords.secrets, okOr_some, Res.bind_ok, hres, Storage.getPassword, hpass,
      Res.bind_err, Res.map_err]
  · refine (hperm.map _).trans ?_
    rw [hkeys]
    exact List.Perm.swap _ _ _
  · simp only [ask, run, reload, hload]
    rfl
  · -- unlocking again
    let U' : Universe := ⟨fun _ => False, fun _ => False, fun r => r = [], fun q => q = p, fun _ h => h.elim,
      fun _ h => h.elim, fun _ h => h.elim, rfl, fun _ => False⟩
    have R : RepStore E U' s.world.rpos p (FileIO.entries E (Storage.flush E (clearedWorld E p s.world)).2).reverse
        .empty := (cleared_rep (U := U') p rfl s.world).perm hperm.symm
    have hS' : Secure E U' := ⟨fun _ _ => ⟨fun _ _ h => h.elim, fun _ _ h => h.1.elim⟩,
      fun _ _ _ _ h h' hne => absurd (h.trans (Eq.symm h')) hne⟩
    simp only [after, run, reload, hload]
    have := unlock_eq (s := Passwords.new { (Storage.flush E (clearedWorld E p s.world)).2 with
      data := (FileIO.entries E (Storage.flush E (clearedWorld E p s.world)).2).reverse
      epoch := (Storage.flush E (clearedWorld E p s.world)).2.epoch + 1 }) hE hS' R p rfl
    simp only [ask, run, this, if_pos]
    rfl

example : ask Toy.env Toy.start (.reset (c!"secret1")) = .ok .unit := Toy.reset_ok

/-! ## C35 -/

theorem flush_epoch (w : World) : (Storage.flush E w).2.epoch = w.epoch := by
  unfold Storage.flush FileIO.flush
  simp only
  split <;> rfl

/-- What is written can be loaded again. -/
theorem load_flushed (hE : E.Lawful) {w : World} (hd : Distinct w) (hdisk : w.disk = some (FileIO.contents (FileIO.entries E w))) :
    FileIO.load w.disk = .ok (FileIO.entries E w).reverse ∧ ((FileIO.entries E w).reverse).Perm w.data := by
  have hp : (FileIO.entries E w).Perm w.data := hE.order _ _
  refine ⟨?_, (List.reverse_perm _).trans hp⟩
  rw [hdisk]
  exact FileIO.load_contents _ ((hp.map _).nodup_iff.mpr hd)

theorem changes_written (E : Env) (s : PState) (op : Op) (hc : op.changes = true) (o : Out) (hok : ask E s op = .ok o) :
    E.fs s.world.fpos = .ok ∧
    (after E s op).world.disk = some (FileIO.contents (FileIO.entries E (after E s op).world)) ∧
    (Distinct s.world → Distinct (after E s op).world) := by
  have hq := quiet_pre E op s
  rcases run_changing E op hc s with ⟨e, _, h⟩ | ⟨_, h⟩ | ⟨_, h⟩
  · rw [ask, h] at hok; cases hok
  · rw [ask, h] at hok; cases hok
  · rw [ask, h] at hok
    rw [after, h]
    cases hf : (Storage.flush E (pre E op s).2.world).1 with
    | err e => rw [hf] at hok; cases hok
    | panic => rw [hf] at hok; cases hok
    | ok u =>
      have := flush_ok hf
      rw [hq.1.2.1] at this
      refine ⟨this.1, this.2, fun hd => ?_⟩
      have := hq.1.2.2.2 hd
      unfold Distinct at this ⊢
      rw [flush_data]
      exact this

theorem reset_written (hE : E.Lawful) (s : PState) (p : Str) (hok : ask E s (.reset p) = .ok .unit) :
    E.fs s.world.fpos = .ok ∧
    (after E s (.reset p)).world.disk = some (FileIO.contents (FileIO.entries E (after E s (.reset p)).world)) ∧
    Distinct (after E s (.reset p)).world := by
  obtain ⟨h1, h2⟩ := reset_ok_state hE hok
  have := flush_ok h2
  rw [h1]
  refine ⟨this.1, this.2, ?_⟩
  unfold Distinct
  rw [flush_data]
  exact Data.insert_nodup _ _ (Data.insert_nodup _ _ (by simp))

/-- **C35 (written).** In every state whatever: if an operation that changes the storage succeeds, the file can be loaded
and contains exactly the entries in memory. -/
theorem C35_written (hE : E.Lawful) (s : PState) (hd : Distinct s.world) (op : Op)
    (hop : op.changes = true ∨ ∃ p, op = .reset p) (hok : ask E s op = .ok .unit) :
    ∃ d, FileIO.load (after E s op).world.disk = .ok d ∧ d.Perm (after E s op).world.data := by
  have : (after E s op).world.disk = some (FileIO.contents (FileIO.entries E (after E s op).world)) ∧
      Distinct (after E s op).world := by
    rcases hop with hc | ⟨p, rfl⟩
    · obtain ⟨_, h1, h2⟩ := changes_written E s op hc _ hok
      exact ⟨h1, h2 hd⟩
    · exact (reset_written hE s p hok).2
  exact ⟨_, load_flushed hE this.2 this.1⟩

theorem locked_secret (hE : E.Lawful) (hS : Secure E U) {s : PState} (hs : Reachable E U s) (hk : s.key = none) :
    s.hmacSecret = none := by
  obtain ⟨a, hrep, ha⟩ := reach hE hS hs
  have hmem := hrep.mem
  cases hm : a.mem with
  | blank => rw [hm] at hmem; exact hmem.2.2.2.1
  | torn => exact absurd hm ha.1
  | store p V =>
    rw [hm] at hmem
    obtain ⟨pos, _, hses⟩ := hmem
    cases hul : a.unlocked with
    | true => rw [hul] at hses; rw [hses.1] at hk; cases hk
    | false => rw [hul] at hses; exact hses.2.1

/-- A query about a single site or password. -/
def Query : Op → Bool
  | .getAlias _ => true
  | .has _ _ _ => true
  | .get _ _ _ => true
  | .getNotes _ _ _ => true
  | .initialized => true
  | .unlocked => true
  | _ => false

/-- Queries depend only on the entries and the secrets. -/
theorem query_eq (E : Env) {s t : PState} (hdata : ∀ k, s.world.data.get? k = t.world.data.get? k) (hk : s.key = t.key)
    (hh : s.hmacSecret = t.hmacSecret) (hp : s.primaryPassword = t.primaryPassword) (op : Op) (hop : Query op = true) :
    ask E s op = ask E t op := by
  have hget : ∀ {α : Type} (f : Json → Option α) key k, Storage.get E s.world f key k = Storage.get E t.world f key k := by
    intro α f key k
    unfold Storage.get FileIO.get
    rw [hdata]
  have hsec : Passwords.secrets s = Passwords.secrets t := by unfold Passwords.secrets; rw [hh, hk]
  have halias : ∀ x h k, Storage.getAlias E s.world x h k = Storage.getAlias E t.world x h k := by
    intro x h k
    unfold Storage.getAlias Storage.getSite
    rw [hget]
  have hres : ∀ x h k, Storage.resolveSite E s.world x h k = Storage.resolveSite E t.world x h k := by
    intro x h k
    unfold Storage.resolveSite
    simp only [halias]
  have hcont : ∀ x, s.world.data.contains x = t.world.data.contains x := by
    intro x; unfold Data.contains; rw [hdata]
  cases op with
  | getAlias x => simp only [ask, run, Passwords.getAlias, hsec, halias]
  | has x n r =>
    simp only [ask, run, Passwords.has, hsec, hres, Storage.hasPassword, Storage.contains, FileIO.containsKey, hcont]
  | get x n r => simp only [ask, run, Passwords.get, hsec, hp, hres, Storage.getPassword, hget]
  | getNotes x n r => simp only [ask, run, Passwords.getNotes, hsec, hres, Storage.getPassword, hget]
  | initialized => simp only [ask, run, Passwords.initialized, Storage.initialized, FileIO.containsKey, hcont]
  | unlocked => simp only [ask, run, Passwords.unlocked, hk]
  | _ => cases hop

theorem perm_of_mem {α : Type} {l l' : List α} (h : l.Nodup) (h' : l'.Nodup) (hm : ∀ x, x ∈ l ↔ x ∈ l') : l.Perm l' :=
  (List.perm_ext_iff_of_nodup h h').mpr hm

/-- **C35 (durable).** In every reachable state: if an operation that changes the storage succeeds, a new process can load
the file and unlock it with the primary password in use, and then every query is answered as it would have been without
starting over; listings show the same items. -/
theorem C35_durable (hE : E.Lawful) (hS : Secure E U) (s : PState) (hs : Reachable E U s) (op : Op) (hw : op.Within U)
    (hop : op.changes = true ∨ ∃ p, op = .reset p) (hok : ask E s op = .ok .unit) :
    ∃ p, (after E s op).primaryPassword = some p ∧
      ask E (after E s op) .reload = .ok .unit ∧
      ask E (after E (after E s op) .reload) (.unlock p) = .ok .unit ∧
      (∀ q, Query q = true →
        ask E (after E (after E (after E s op) .reload) (.unlock p)) q = ask E (after E s op) q) ∧
      (∀ x q, U.site x → ∃ l l', ask E (after E s op) (.list x q) = .ok (.passwords l) ∧
        ask E (after E (after E (after E s op) .reload) (.unlock p)) (.list x q) = .ok (.passwords l') ∧ l'.Perm l) ∧
      (∀ q, ∃ l l', ask E (after E s op) (.listSites q) = .ok (.sites l) ∧
        ask E (after E (after E (after E s op) .reload) (.unlock p)) (.listSites q) = .ok (.sites l') ∧ l'.Perm l) := by
  have hs' : Reachable E U (after E s op) := .step hs op hw fun q _ => .inl hok
  have hwritten : (after E s op).world.disk = some (FileIO.contents (FileIO.entries E (after E s op).world)) := by
    rcases hop with hc | ⟨p, rfl⟩
    · exact (changes_written E s op hc _ hok).2.1
    · exact (reset_written hE s p hok).2.1
  have hu : (after E s op).key.isSome = true := by
    rcases hop with hc | ⟨p, rfl⟩
    · have hal : op.always = false := by cases op <;> first | exact Bool.noConfusion hc | rfl
      rw [(run_sameSession E op hal s).1]
      by_contra hk
      have hk : s.key = none := by simpa using hk
      have hh := locked_secret hE hS hs hk
      rcases (C32_refused E s hk hh op hal).2 with h | ⟨h, _⟩ | ⟨_, h⟩ | ⟨_, h | h⟩
      · rw [hok] at h; cases h
      · rw [h] at hc; cases hc
      · rw [hok] at h; cases h
      · rw [hok] at h; cases h
      · rw [hok] at h; cases h
    · rw [(reset_ok_state hE hok).1]; rfl
  generalize after E s op = s' at *
  obtain ⟨a, pos, p, V, ho⟩ := reach_open hE hS hs' hu
  obtain ⟨hload, hperm⟩ := load_flushed hE ho.store.vault.nodup hwritten
  have R := ho.store.perm hperm.symm
  refine ⟨p, ho.session.2.2, by simp only [ask, run, reload, hload]; rfl, ?_⟩
  have hr : after E s' .reload = Passwords.new { s'.world with
      data := (FileIO.entries E s'.world).reverse, epoch := s'.world.epoch + 1 } := by
    simp only [after, run, reload, hload]
  rw [hr]
  have hunlock := unlock_eq (s := Passwords.new { s'.world with
      data := (FileIO.entries E s'.world).reverse, epoch := s'.world.epoch + 1 }) hE hS R p R.primary
  rw [if_pos rfl] at hunlock
  refine ⟨by rw [ask, run, hunlock]; rfl, ?_⟩
  have ht : after E (Passwords.new { s'.world with
      data := (FileIO.entries E s'.world).reverse, epoch := s'.world.epoch + 1 }) (.unlock p) =
      { world := { s'.world with data := (FileIO.entries E s'.world).reverse, epoch := s'.world.epoch + 1 }
        key := some (keyFor E.prims p (saltAt E pos)), hmacSecret := some (secretAt E pos)
        primaryPassword := some p } := by
    rw [after, run, hunlock]; rfl
  rw [ht]
  generalize hst : ({ world := { s'.world with data := (FileIO.entries E s'.world).reverse, epoch := s'.world.epoch + 1 }
                      key := some (keyFor E.prims p (saltAt E pos)), hmacSecret := some (secretAt E pos)
                      primaryPassword := some p } : PState) = t
  have hot : Open E U t ⟨.store p V, .store p V, true⟩ pos p V := by
    subst hst
    refine ⟨⟨⟨pos, R, rfl, rfl, rfl⟩, ⟨pos, _, hload, R⟩⟩, ⟨by simp, by simp⟩, rfl, rfl, R, rfl, rfl, rfl⟩
  refine ⟨fun q hq => ?_, fun x q hx => ?_, fun q => ?_⟩
  · refine query_eq E ?_ (hot.session.1.trans ho.session.1.symm) (hot.session.2.1.trans ho.session.2.1.symm)
      (hot.session.2.2.trans ho.session.2.2.symm) q hq
    intro k
    subst hst
    exact (Data.get?_perm hperm.symm ho.store.vault.nodup k).symm
  · obtain ⟨l, h1, h2, h3⟩ := ho.list hE hS q hx
    obtain ⟨l', h1', h2', h3'⟩ := hot.list hE hS q hx
    exact ⟨l, l', h1, h1', perm_of_mem h2' h2 fun y => (h3' y).trans (h3 y).symm⟩
  · obtain ⟨l, h1, h2, h3⟩ := ho.listSites hE hS q
    obtain ⟨l', h1', h2', h3'⟩ := hot.listSites hE hS q
    exact ⟨l, l', h1, h1', perm_of_mem h2' h2 fun y => (h3' y).trans (h3 y).symm⟩

example : ask Toy.env Toy.one (.setAlias (c!"b") (c!"a")) = .ok .unit ∧ Reachable Toy.env Toy.univ Toy.one ∧
    Op.Within Toy.univ (.setAlias (c!"b") (c!"a")) := ⟨Toy.two_effect.1, Toy.one_reachable, Toy.site_b, Toy.site_a⟩

/-! ## C36 -/

/-- **C36 (reported).** In every state whatever: if the file cannot be written, no operation that has to write it
succeeds. -/
theorem C36_reported (hE : E.Lawful) (s : PState) (op : Op) (hop : op.changes = true ∨ ∃ p, op = .reset p)
    (hfail : E.fs s.world.fpos ≠ .ok) (o : Out) : ask E s op ≠ .ok o := by
  intro hok
  rcases hop with hc | ⟨p, rfl⟩
  · exact hfail (changes_written E s op hc _ hok).1
  · have : o = .unit := by
      simp only [ask, run] at hok
      revert hok
      cases (Passwords.reset E p s).1 <;> intro hok <;> cases hok
      rfl
    subst this
    exact hfail (reset_written hE s p hok).1

/-- The same environment in which writing the file works. -/
def writable (E : Env) : Env := { E with fs := fun _ => .ok }

theorem writable_lawful (hE : E.Lawful) : (writable E).Lawful := ⟨hE.prims, hE.order⟩

/-- **C36 (which error).** If the operation would have succeeded otherwise, the error is the one about the directory or
the file; if it would have failed anyway, the result is the same. -/
theorem C36_which_error (hE : E.Lawful) (s : PState) (op : Op) (hop : op.changes = true ∨ ∃ p, op = .reset p)
    (hfail : E.fs s.world.fpos ≠ .ok) :
    (ask (writable E) s op = .ok .unit → ∃ e, ask E s op = .err e ∧ WriteError e) ∧
    (ask (writable E) s op ≠ .ok .unit → run E op s = run (writable E) op s) := by
  rcases hop with hc | ⟨p, rfl⟩
  · have hpre : pre (writable E) op = pre E op := pre_fs E _ op
    have hq := quiet_pre E op s
    have h' := run_changing (writable E) op hc s
    rw [hpre] at h'
    rcases run_changing E op hc s with ⟨e, h1, h⟩ | ⟨h1, h⟩ | ⟨h1, h⟩
    · rcases h' with ⟨e', h1', h'⟩ | ⟨h1', h'⟩ | ⟨h1', h'⟩
      · rw [h1] at h1'
        simp only [Prod.mk.injEq, Res.err.injEq, and_true] at h1'
        subst h1'
        refine ⟨fun hok => ?_, fun _ => by rw [h, h']⟩
        rw [ask, h'] at hok; cases hok
      · rw [h1] at h1'; simp at h1'
      · rw [h1] at h1'; simp at h1'
    · rcases h' with ⟨e', h1', h'⟩ | ⟨h1', h'⟩ | ⟨h1', h'⟩
      · rw [h1] at h1'; simp at h1'
      · refine ⟨fun hok => ?_, fun _ => by rw [h, h']⟩
        rw [ask, h'] at hok; cases hok
      · rw [h1] at h1'; simp at h1'
    · obtain ⟨e, he1, he2⟩ := flush_not_ok (E := E) (w := (pre E op s).2.world) (by rw [hq.1.2.1]; exact hfail)
      refine ⟨fun _ => ⟨e, by rw [ask, h, he1]; rfl, he2⟩, fun hno => absurd ?_ hno⟩
      rcases h' with ⟨e', h1', h'⟩ | ⟨h1', h'⟩ | ⟨h1', h'⟩
      · rw [h1] at h1'; simp at h1'
      · rw [h1] at h1'; simp at h1'
      · rw [ask, h']; rfl
  · refine ⟨fun _ => ?_, fun hno => absurd ?_ hno⟩
    · obtain ⟨e, he1, he2⟩ := flush_not_ok (E := E) (w := clearedWorld E p s.world) hfail
      refine ⟨e, ?_, he2⟩
      simp only [ask, run, reset_eq hE]
      revert he1
      cases Storage.flush E (clearedWorld E p s.world) with
      | mk r w => intro he1; cases he1; rfl
    · simp only [ask, run, reset_eq (writable_lawful hE)]
      rfl

/-- **C36 (memory).** The change in memory is made regardless: in every state whatever, what becomes of the data in
memory does not depend on whether files can be written. -/
theorem C36_memory (hE : E.Lawful) (s : PState) (op : Op) (hop : op.changes = true ∨ ∃ p, op = .reset p) :
    (after E s op).world.data = (after (writable E) s op).world.data ∧
    (op.changes = true → (after E s op).key = (after (writable E) s op).key ∧
      (after E s op).hmacSecret = (after (writable E) s op).hmacSecret ∧
      (after E s op).primaryPassword = (after (writable E) s op).primaryPassword) := by
  refine ⟨?_, fun hc => ?_⟩
  · rcases hop with hc | ⟨p, rfl⟩
    · have key : ∀ E' : Env, (after E' s op).world.data = (pre E' op s).2.world.data := by
        intro E'
        rcases run_changing E' op hc s with ⟨e, h1, h⟩ | ⟨h1, h⟩ | ⟨h1, h⟩
        · rw [after, h]
        · rw [after, h]
        · rw [after, h]; exact flush_data E' _
      rw [key, key, show pre (writable E) op = pre E op from pre_fs E _ op]
    · have key : ∀ E' : Env, E'.Lawful → (after E' s (.reset p)).world.data = (clearedWorld E' p s.world).data := by
        intro E' hE'
        rw [← flush_data E' (clearedWorld E' p s.world)]
        simp only [after, run, reset_eq hE']
        cases Storage.flush E' (clearedWorld E' p s.world) with
        | mk r w => cases r <;> rfl
      rw [key E hE, key _ (writable_lawful hE)]
      rfl
  · have hal : op.always = false := by cases op <;> first | exact Bool.noConfusion hc | rfl
    obtain ⟨h1, h2, h3⟩ := run_sameSession E op hal s
    obtain ⟨h1', h2', h3'⟩ := run_sameSession (writable E) op hal s
    exact ⟨h1.trans h1'.symm, h2.trans h2'.symm, h3.trans h3'.symm⟩

/-- An environment in which the second write fails. -/
def toyFailing : Env := { Toy.env with fs := fun n => if n = 1 then .openFailure else .ok }

theorem toyFailing_lawful : toyFailing.Lawful := ⟨Toy.env_lawful.prims, Toy.env_lawful.order⟩

example : toyFailing.Lawful ∧ toyFailing.fs (after toyFailing Toy.start (.reset (c!"secret1"))).world.fpos ≠ .ok := by
  refine ⟨toyFailing_lawful, ?_⟩
  obtain ⟨h, _⟩ := reset_ok_state toyFailing_lawful (s := Toy.start) (p := c!"secret1") (by
    simp only [ask, run]; rw [reset_eq toyFailing_lawful]; rfl)
  rw [h]
  decide

/-- The memory after an operation on an unlocked storage. -/
theorem astepUnlocked_mem {derive : Str → PasswordId → UInt64 → CharacterSet → Res Str} {wild : Str → Str → Bool}
    {A : AState} {p : Str} {V : Vault} (hm : A.mem = .store p V) (op : Op) (wr : Write) :
    (astepUnlocked derive wild A p V wr op).2.mem = .store p (vaultAfter V op) := by
  cases op with
  | setAlias x y =>
    simp only [vaultAfter, astepUnlocked]
    split
    · rename_i h; rw [if_pos (.inl h)]; exact hm
    · split
      · rename_i h; rw [if_pos (.inr h)]; exact hm
      · rename_i h1 h2
        rw [if_neg (by simp [h1, h2])]; rfl
  | removeAlias x =>
    simp only [vaultAfter, astepUnlocked]
    cases V.sites (canonical x) with
    | none => exact hm
    | some t => cases t <;> first | rfl | exact hm
  | removeSites l =>
    simp only [vaultAfter, astepUnlocked]
    split
    · rename_i h; subst h; exact hm
    · split <;> rfl
  | setNotes x n' r' t =>
    simp only [vaultAfter, astepUnlocked]
    cases V.passwords (V.idOf x n' r') <;> first | rfl | exact hm
  | remove x n' r' =>
    simp only [vaultAfter, astepUnlocked]
    cases V.passwords (V.idOf x n' r') <;> first | rfl | exact hm
  | setGenerated x n' r' => rfl
  | setStored x n' r' => rfl
  | getAlias => simp only [astepUnlocked, vaultAfter]; split <;> exact hm
  | get => simp only [astepUnlocked, vaultAfter]; split <;> exact hm
  | getNotes => simp only [astepUnlocked, vaultAfter]; split <;> exact hm
  | _ => exact hm

theorem _root_.Pfp.Open.afterwards {s : PState} {A : AState} {pos : Origin} {p : Str} {V : Vault} (ho : Open E U s A pos p V)
    (hE : E.Lawful) (hS : Secure E U) (op : Op) (hw : op.Within U) (hal : op.always = false) (hsp : special op = false) :
    ∃ A' pos', Open E U (after E s op) A' pos' p (vaultAfter V op) := by
  obtain ⟨wr, _, _, hrep⟩ := ho.step hE hS op hw hsp
  have hmem' := astepUnlocked_mem (derive := deriveWith E.prims) (wild := E.wild) ho.mem op wr
  have hint := astepUnlocked_intact (derive := deriveWith E.prims) (wild := E.wild) (p := p) (V := V) (w := wr)
    ho.intact op
  generalize (astepUnlocked (deriveWith E.prims) E.wild A p V wr op).2 = A' at hrep hmem' hint
  have hmem := hrep.mem
  rw [hmem'] at hmem
  obtain ⟨pos', R, hses⟩ := hmem
  have hu : (after E s op).key.isSome = true := by
    rw [(run_sameSession E op hal s).1, ho.session.1]; rfl
  have hunl : A'.unlocked = true := by
    cases hul : A'.unlocked with
    | true => rfl
    | false => rw [hul] at hses; rw [hses.1] at hu; cases hu
  rw [hunl] at hses
  exact ⟨A', pos', hrep, hint, hunl, hmem', R, hses⟩

/-- **C36 (next write).** A password whose storing failed because of the file is not lost: if the next change — of
something else — is written, a new process finds the password in the file. -/
theorem C36_next_write (hE : E.Lawful) (hS : Secure E U) (s : PState) (hs : Reachable E U s) (a n r v : Str)
    (ha : U.site a) (hn : U.name n) (hr : U.revision r) (e : Err) (he : WriteError e)
    (hfail : ask E s (.setStored a n r v) = .err e)
    (op : Op) (hw : op.Within U) (hop : op.changes = true) (hl : Leaves E (after E s (.setStored a n r v)) a n r op)
    (hok : ask E (after E s (.setStored a n r v)) op = .ok .unit) :
    ∃ p, s.primaryPassword = some p ∧
      ask E (after E (after E s (.setStored a n r v)) op) .reload = .ok .unit ∧
      ask E (after E (after E (after E s (.setStored a n r v)) op) .reload) (.unlock p) = .ok .unit ∧
      ask E (after E (after E (after E (after E s (.setStored a n r v)) op) .reload) (.unlock p)) (.get a n r) =
        .ok (.text v) := by
  have hu : s.key.isSome = true := by
    by_contra hk
    have hk : s.key = none := by simpa using hk
    rw [ask, run_locked E s hk (locked_secret hE hS hs hk) _ rfl] at hfail
    cases hfail
    exact he
  obtain ⟨A, pos, p, V, ho⟩ := reach_open hE hS hs hu
  obtain ⟨wr, _, _, pos', ho'⟩ := ho.setStored hE hS v ⟨ha, hn, hr⟩
  have hs' : Reachable E U (after E s (.setStored a n r v)) := .step hs _ ⟨ha, hn, hr⟩ (by simp)
  obtain ⟨p', hp', h1, h2, h3, _⟩ := C35_durable hE hS _ hs' op hw (.inl hop) hok
  have hal : op.always = false := by cases op <;> first | exact Bool.noConfusion hop | rfl
  have hsp : special op = false := by cases op <;> first | exact Bool.noConfusion hop | rfl
  rw [(run_sameSession E op hal _).2.2, (run_sameSession E (.setStored a n r v) rfl s).2.2] at hp'
  refine ⟨p', hp', h1, h2, ?_⟩
  rw [h3 _ rfl]
  have hg := good_after hE hS ho' ha (i := V.idOf a n r) rfl rfl (good_put V a n r (.stored v)) op hw hl
  obtain ⟨A2, pos2, ho2⟩ := ho'.afterwards hE hS op hw hal hsp
  rw [ho2.ask_get hE hS ha hn hr]
  obtain ⟨⟨notes, hg1⟩, hg2⟩ := hg
  have : (vaultAfter ((V.know (V.resolve a)).put (V.idOf a n r) ⟨.stored v, []⟩) op).idOf a n r = V.idOf a n r := by
    unfold Vault.idOf at hg2 ⊢
    rw [hg2]
  rw [this, hg1]
  rfl

set_option maxRecDepth 100000 in
example : (runAll toyFailing [.reset (c!"secret1"), .setStored (c!"a") (c!"u") [] (c!"x"),
    .setStored (c!"a") (c!"v") [] (c!"y")] Toy.start).1 = [.ok .unit, .err .fileWriteFailure, .ok .unit] ∧
    Secure toyFailing Toy.univ ∧ WriteError .fileWriteFailure ∧
    Leaves toyFailing (runAll toyFailing [.reset (c!"secret1"), .setStored (c!"a") (c!"u") [] (c!"x")] Toy.start).2
      (c!"a") (c!"u") [] (.setStored (c!"a") (c!"v") [] (c!"y")) :=
  ⟨rfl, ⟨Toy.secure.collisionFree, Toy.secure.wrongPassword⟩, trivial, fun _ h => absurd h.2.1 (by decide)⟩

/-- **C36 (failed reset).** A `reset` that cannot write the file has nevertheless replaced the storage in memory: all
previous entries are gone, while the secrets still are the previous ones. -/
theorem C36_failed_reset (hE : E.Lawful) (s : PState) (p : Str) (e : Err) (h : ask E s (.reset p) = .err e) :
    WriteError e ∧ (after E s (.reset p)).world.data.map (·.1) = [c!"hmac-secret", c!"salt"] ∧
    (after E s (.reset p)).key = s.key ∧ (after E s (.reset p)).hmacSecret = s.hmacSecret ∧
    (after E s (.reset p)).primaryPassword = s.primaryPassword := by
  have hfs : E.fs s.world.fpos ≠ .ok := by
    intro hfs
    simp only [ask, run, reset_eq hE] at h
    have : Storage.flush E (clearedWorld E p s.world) = (.ok (), (Storage.flush E (clearedWorld E p s.world)).2) := by
      unfold Storage.flush FileIO.flush
      have : E.fs (clearedWorld E p s.world).fpos = .ok := hfs
      rw [this]
    rw [this] at h
    cases h
  obtain ⟨e', he1, he2⟩ := flush_not_ok (E := E) (w := clearedWorld E p s.world) hfs
  have hd := flush_data E (clearedWorld E p s.world)
  simp only [ask, run, reset_eq hE] at h
  simp only [after, run, reset_eq hE]
  cases hf : Storage.flush E (clearedWorld E p s.world) with
  | mk r w =>
    rw [hf] at he1 h hd
    simp only at he1 hd
    subst he1
    cases h
    refine ⟨he2, ?_, rfl, rfl, rfl⟩
    show w.data.map _ = _
    rw [hd]
    rfl

set_option maxRecDepth 100000 in
/-- **C36 (data loss).** Continuing after such a failure loses data although everything is reported as successful: the
password stored and read back afterwards cannot be read by a new process, with either primary password. -/
theorem C36_data_loss : ∃ (E : Env) (s : PState) (x n v p1 p2 : Str), E.Lawful ∧ Initial s ∧
    (runAll E [.reset p1, .reset p2, .setStored x n [] v, .get x n [], .reload, .unlock p1, .unlock p2, .get x n []] s).1 =
      [.ok .unit, .err .fileWriteFailure, .ok .unit, .ok (.text v), .ok .unit, .err .decryptionFailure, .ok .unit,
        .err .decryptionFailure] :=
  ⟨toyFailing, Toy.start, c!"a", c!"u", c!"x", c!"secret1", c!"secret2", toyFailing_lawful, Toy.start_initial, rfl⟩

end Pfp.Props
