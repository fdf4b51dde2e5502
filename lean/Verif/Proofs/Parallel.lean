import Verif.Proofs.Secrecy
import Verif.Props.CliOrder
import Verif.Props.CliReach

/-!
# The application on states that differ in the values of stored passwords only
-/

namespace Pfp
open Spec Cli

variable {E : Env} {U : Universe} {R : PState → PState → Prop}

/-- States of the application with related storages, otherwise equal. -/
structure Sync (U : Universe) (R : PState → PState → Prop) (cs cs' : CState) : Prop where
  storage : R cs.ps cs'.ps
  secrets : cs'.secrets = cs.secrets
  garbled : cs'.garbled = cs.garbled
  confirms : cs'.confirms = cs.confirms
  answers : cs'.answers = cs.answers
  out : cs'.out = cs.out
  errors : cs'.errors = cs.errors
  lines : LinesWithin U cs.secrets

/-- Computations that do the same on related states. -/
def Par (U : Universe) (R : PState → PState → Prop) {α : Type} (m m' : CM α) : Prop :=
  ∀ cs cs', Sync U R cs cs' → (m' cs').1 = (m cs).1 ∧ Sync U R (m cs).2 (m' cs').2

section
variable {α β : Type}

theorem par_bind {m m' : CM α} {f f' : α → CM β} (hm : Par U R m m') (hf : ∀ a, Par U R (f a) (f' a)) :
    Par U R (m >>= f) (m' >>= f') := by
  intro cs cs' h
  have h := hm cs cs' h
  rw [CM.bind_apply, CM.bind_apply]
  revert h
  cases m cs with
  | mk r t =>
    cases m' cs' with
    | mk r' t' =>
      rintro ⟨h1, h2⟩
      have h1 : r' = r := h1
      subst h1
      cases r' with
      | ok a => exact hf a t t' h2
      | err e => exact ⟨rfl, h2⟩
      | panic => exact ⟨rfl, h2⟩
      | blocked => exact ⟨rfl, h2⟩

theorem par_pure (a : α) : Par U R (pure a : CM α) (pure a) := fun _ _ h => ⟨rfl, h⟩
theorem par_fail (e : CErr) : Par U R (CM.fail e : CM α) (CM.fail e) := fun _ _ h => ⟨rfl, h⟩
theorem par_block : Par U R (CM.block : CM α) CM.block := fun _ _ h => ⟨rfl, h⟩
theorem par_crash : Par U R (CM.crash : CM α) CM.crash := fun _ _ h => ⟨rfl, h⟩

theorem par_print (t : Str) : Par U R (print t) (print t) := fun cs cs' h =>
  ⟨rfl, ⟨h.storage, h.secrets, h.garbled, h.confirms, h.answers, by show cs'.out ++ t = cs.out ++ t; rw [h.out], h.errors, h.lines⟩⟩

theorem par_println (t : Str) : Par U R (println t) (println t) := par_print _

theorem par_report (m : Message) : Par U R (report m) (report m) := fun cs cs' h =>
  ⟨rfl, ⟨h.storage, h.secrets, h.garbled, h.confirms, h.answers, h.out, by show cs'.errors ++ [m] = cs.errors ++ [m]; rw [h.errors], h.lines⟩⟩

theorem par_ite {c : Prop} [Decidable c] {m m' n n' : CM α} (h : Par U R m m') (h' : Par U R n n') :
    Par U R (if c then m else n) (if c then m' else n') := by
  split
  · exact h
  · exact h'

theorem par_query {f f' : PState → Res α} (h : ∀ s s', R s s' → f' s' = f s) : Par U R (query f) (query f') :=
  fun cs cs' hs => ⟨by show convert (f' cs'.ps) = convert (f cs.ps); rw [h _ _ hs.storage], hs⟩

theorem par_call {m m' : M PState α} (h : ∀ s s', R s s' → (m' s').1 = (m s).1 ∧ R (m s).2 (m' s').2) :
    Par U R (call m) (call m') := by
  intro cs cs' hs
  obtain ⟨h1, h2⟩ := h _ _ hs.storage
  exact ⟨by show convert (m' cs'.ps).1 = convert (m cs.ps).1; rw [h1],
    ⟨h2, hs.secrets, hs.garbled, hs.confirms, hs.answers, hs.out, hs.errors, hs.lines⟩⟩

theorem par_confirm (t : Str) : Par U R (confirm t) (confirm t) := by
  intro cs cs' h
  unfold confirm
  simp only [h.confirms]
  cases hc : cs.confirms with
  | nil => exact ⟨rfl, ⟨h.storage, h.secrets, h.garbled, rfl, h.answers, by simp only [h.out], h.errors, h.lines⟩⟩
  | cons a l => exact ⟨rfl, ⟨h.storage, h.secrets, h.garbled, rfl, h.answers, by simp only [h.out], h.errors, h.lines⟩⟩

theorem par_promptSecretText (t : Str) : Par U R (promptSecretText t) (promptSecretText t) := by
  intro cs cs' h
  cases hc : cs.secrets with
  | nil =>
    rw [promptSecretText_nil hc, promptSecretText_nil (h.secrets.trans hc)]
    exact ⟨by simp only [h.garbled], ⟨h.storage, h.secrets, h.garbled, h.confirms, h.answers, by simp only [h.out], h.errors, h.lines⟩⟩
  | cons a l =>
    rw [promptSecretText_cons hc, promptSecretText_cons (h.secrets.trans hc)]
    exact ⟨rfl, ⟨h.storage, rfl, h.garbled, h.confirms, h.answers, by simp only [h.out], h.errors,
      fun x hx => h.lines x (by rw [hc]; exact List.mem_cons_of_mem _ hx)⟩⟩

theorem par_promptPassword (t : Str) (b : Bool) : Par U R (promptPassword t b) (promptPassword t b) := by
  intro cs cs' h
  unfold promptPassword
  rw [CM.bind_apply, CM.bind_apply]
  simp only [CM.get_apply, h.secrets, h.garbled]
  exact par_ite (par_bind (par_print t) fun _ => par_block) (par_bind (par_promptSecretText t) fun _ => par_pure _) cs cs' h

end

/-! ## Unlocking -/

theorem Twins.plain (hE : E.Lawful) (hS : Secure E U) {s s' : PState} (h : Twins E U s s') (op : Op) (hop : op.Within U)
    (hp : plainOp op = true) (hreset : ∀ p, op = .reset p → ask E s op = .ok .unit ∨ s.key = none) :
    ask E s' op = ask E s op ∧ Twins E U (after E s op) (after E s' op) := by
  have hre : op = .reload → (ask E s op = .ok .unit ↔ ask E s' op = .ok .unit) := by rintro rfl; cases hp
  exact ⟨((Twins.paired hE hS h).step hE hS (.same op) hop hop hreset hre).1 hp, h.step op hop hreset hre⟩

theorem Twins.initialized (hE : E.Lawful) (hS : Secure E U) {s s' : PState} (h : Twins E U s s') :
    Passwords.initialized s' = Passwords.initialized s := by
  have := (Twins.plain hE hS h .initialized trivial rfl (fun _ h => by cases h)).1
  simpa [ask, run] using this

theorem Twins.key (hE : E.Lawful) (hS : Secure E U) {s s' : PState} (h : Twins E U s s') :
    s'.key.isSome = s.key.isSome := by
  have := (Twins.plain hE hS h .unlocked trivial rfl (fun _ h => by cases h)).1
  simpa [ask, run, Passwords.unlocked] using this

theorem Twins.key_none (hE : E.Lawful) (hS : Secure E U) {s s' : PState} (h : Twins E U s s') (hk : s.key = none) :
    s'.key = none := by
  have := Twins.key hE hS h
  rw [hk] at this
  cases hk' : s'.key with
  | none => rfl
  | some => rw [hk'] at this; cases this

theorem res_of_map {α : Type} {f : α → Out} (hf : Function.Injective f) {r r' : Res α} (h : r'.map f = r.map f) : r' = r := by
  cases r <;> cases r' <;> simp_all [Res.map]
  exact hf h

theorem par_op (hE : E.Lawful) (hS : Secure E U) {m : M PState Unit} (op : Op) (hop : op.Within U) (hp : plainOp op = true)
    (hr : ∀ p, op ≠ .reset p) (hm : ∀ s, run E op s = ((m s).1.map fun _ => .unit, (m s).2)) :
    Par U (Twins E U) (call m) (call m) := by
  refine par_call fun s s' h => ?_
  obtain ⟨h1, h2⟩ := Twins.plain hE hS h op hop hp (fun p h => absurd h (hr p))
  unfold ask at h1
  unfold after at h2
  rw [hm, hm] at h1 h2
  refine ⟨?_, h2⟩
  revert h1
  cases (m s).1 <;> cases (m s').1 <;> simp [Res.map]

theorem par_unlockLoop (hE : E.Lawful) (hS : Secure E U) : ∀ l : List Str, LinesWithin U l →
    Par U (Twins E U) (unlockLoop E l) (unlockLoop E l)
  | [], _ => by
    intro cs cs' h
    have hk := Twins.key hE hS h.storage
    cases hc : cs.ps.key with
    | some k =>
      rw [unlockLoop_unlocked (s := cs) (by rw [hc]; rfl), unlockLoop_unlocked (s := cs') (by rw [hk, hc]; rfl)]
      exact ⟨rfl, h⟩
    | none =>
      rw [unlockLoop_nil hc, unlockLoop_nil (Twins.key_none hE hS h.storage hc)]
      exact ⟨by simp only [h.garbled], ⟨h.storage, h.secrets, h.garbled, h.confirms, h.answers, by simp only [h.out], h.errors, h.lines⟩⟩
  | line :: rest, hl => by
    have hl' : LinesWithin U rest := fun x hx => hl x (List.mem_cons_of_mem _ hx)
    intro cs cs' h
    have hk := Twins.key hE hS h.storage
    cases hc : cs.ps.key with
    | some k =>
      rw [unlockLoop_unlocked (s := cs) (by rw [hc]; rfl), unlockLoop_unlocked (s := cs') (by rw [hk, hc]; rfl)]
      exact ⟨rfl, h⟩
    | none =>
      rw [unlockLoop_cons hc, unlockLoop_cons (Twins.key_none hE hS h.storage hc)]
      split
      · exact par_unlockLoop hE hS rest hl' _ _ ⟨h.storage, rfl, h.garbled, h.confirms, h.answers, by simp only [h.out], by simp only [h.errors], hl'⟩
      · rename_i h6
        obtain ⟨h1, h2⟩ := Twins.plain hE hS h.storage (.unlock (trim line)) (hl line (by simp) (Nat.not_lt.mp h6)) rfl
          (fun _ h => by cases h)
        simp only [ask, after, run] at h1 h2
        revert h1 h2
        cases Passwords.unlock E (trim line) cs.ps with
        | mk r t =>
          cases Passwords.unlock E (trim line) cs'.ps with
          | mk r' t' =>
            cases r with
            | ok u =>
              cases r' <;> simp only [Res.map, reduceCtorEq, IsEmpty.forall_iff, forall_const]
              intro ht
              exact par_unlockLoop hE hS rest hl' _ _ ⟨ht, rfl, h.garbled, h.confirms, h.answers, by simp only [h.out], h.errors, hl'⟩
            | err e =>
              cases r' <;> simp only [Res.map, reduceCtorEq, IsEmpty.forall_iff, Res.err.injEq]
              rintro rfl ht
              exact par_unlockLoop hE hS rest hl' _ _ ⟨ht, rfl, h.garbled, h.confirms, h.answers, by simp only [h.out], by simp only [h.errors], hl'⟩
            | panic =>
              cases r' <;> simp only [Res.map, reduceCtorEq, IsEmpty.forall_iff, forall_const]
              intro ht
              exact ⟨trivial, ht, rfl, h.garbled, h.confirms, h.answers, by simp only [h.out], h.errors, hl'⟩

theorem par_ensure (hE : E.Lawful) (hS : Secure E U) : Par U (Twins E U) (ensureUnlocked E) (ensureUnlocked E) := by
  intro cs cs' h
  have hi := Twins.initialized hE hS h.storage
  cases hc : Passwords.initialized cs.ps with
  | false =>
    rw [ensureUnlocked_not hc, ensureUnlocked_not (hi.trans hc)]
    exact ⟨rfl, h⟩
  | true =>
    rw [ensureUnlocked_eq hc, ensureUnlocked_eq (hi.trans hc), h.secrets]
    exact par_unlockLoop hE hS _ h.lines cs cs' h

/-! ## Questions -/

theorem Twins.primaryPassword (hE : E.Lawful) (hS : Secure E U) {s s' : PState} (h : Twins E U s s') :
    s'.primaryPassword = s.primaryPassword := by
  obtain ⟨a, a', hr, hr', hi, hi', hal, -⟩ := Twins.paired hE hS h
  have hm := hr.mem
  have hm' := hr'.mem
  cases ha : a.mem with
  | torn => exact absurd ha hi.1
  | blank =>
    rw [ha] at hm
    rw [mem_hide_blank hal.mem ha] at hm'
    rw [hm.2.2.2.2, hm'.2.2.2.2]
  | store p V =>
    obtain ⟨V', ha', -⟩ := mem_hide_store hal.mem ha
    rw [ha] at hm
    rw [ha', hal.unlocked] at hm'
    obtain ⟨pos, -, hses⟩ := hm
    obtain ⟨pos', -, hses'⟩ := hm'
    cases hu : a.unlocked with
    | false => rw [hu] at hses hses'; rw [hses.2.2, hses'.2.2]
    | true => rw [hu] at hses hses'; rw [hses.2.2, hses'.2.2]

theorem par_mayOverwrite (hE : E.Lawful) (hS : Secure E U) {d n r : Str} (hd : U.site d) (hn : U.name n) (hr : U.revision r) (y : Bool) :
    Par U (Twins E U) (mayOverwrite E d n r y) (mayOverwrite E d n r y) := by
  unfold mayOverwrite
  refine par_ite (par_pure _) ?_
  intro cs cs' h
  rw [CM.bind_apply, CM.bind_apply]
  simp only [CM.get_apply]
  have : Passwords.has E cs'.ps d n r = Passwords.has E cs.ps d n r :=
    res_of_map (fun a b h => by injection h) (Twins.plain hE hS h.storage (.has d n r) ⟨hd, hn, hr⟩ rfl (fun _ h => by cases h)).1
  rw [this]
  cases (Passwords.has E cs.ps d n r).unwrapOr false with
  | ok b =>
    cases b
    · exact par_pure _ cs cs' h
    · exact par_confirm _ cs cs' h
  | err e => exact par_crash cs cs' h
  | panic => exact par_crash cs cs' h

theorem par_recoveryLoop (hE : E.Lawful) (hS : Secure E U) : ∀ (l : List (Option Str)) (acc : Bytes),
    Par U (Twins E U) (recoveryLoop E acc l) (recoveryLoop E acc l)
  | [], acc => fun cs cs' h =>
    ⟨rfl, ⟨h.storage, h.secrets, h.garbled, h.confirms, h.answers, by simp only [recoveryLoop, h.out], h.errors, h.lines⟩⟩
  | none :: rest, acc => fun cs cs' h => by
    simp only [recoveryLoop]
    exact par_recoveryLoop hE hS rest acc _ _
      ⟨h.storage, h.secrets, h.garbled, h.confirms, rfl, by simp only [h.out], h.errors, h.lines⟩
  | some line :: rest, acc => fun cs cs' h => by
    have hp := Twins.primaryPassword hE hS h.storage
    have hs : Sync U (Twins E U) { cs with answers := rest, out := cs.out ++ RECOVERY_PROMPT }
        { cs' with answers := rest, out := cs'.out ++ RECOVERY_PROMPT } :=
      ⟨h.storage, h.secrets, h.garbled, h.confirms, rfl, by simp only [h.out], h.errors, h.lines⟩
    simp only [recoveryLoop, hp]
    split
    · exact ⟨rfl, hs⟩
    · cases okOr cs.ps.primaryPassword .passwordsLocked with
      | err e => exact ⟨rfl, hs⟩
      | panic => exact ⟨rfl, hs⟩
      | ok q =>
        simp only
        split
        · exact ⟨rfl, hs⟩
        · exact ⟨rfl, hs⟩
        · rename_i n _
          cases firstLines (RecoveryCodes.formatCode (acc ++ utf8 line) true) n with
          | none => exact ⟨rfl, hs⟩
          | some ac =>
            obtain ⟨h1, h2⟩ := par_confirm (extraQuestion ac) _ _ hs
            revert h1 h2
            simp only
            cases confirm (extraQuestion ac) { cs with answers := rest, out := cs.out ++ RECOVERY_PROMPT } with
            | mk r t =>
              cases confirm (extraQuestion ac) { cs' with answers := rest, out := cs'.out ++ RECOVERY_PROMPT } with
              | mk r' t' =>
                rintro h1 h2
                have h1 : r' = r := h1
                subst h1
                cases r' with
                | ok b => cases b <;> exact ⟨rfl, h2⟩
                | err => exact ⟨rfl, h2⟩
                | panic => exact ⟨rfl, h2⟩
                | blocked => exact ⟨rfl, h2⟩
        · rename_i n _
          cases firstLines (RecoveryCodes.formatCode (acc ++ utf8 line) true) n with
          | none => exact ⟨rfl, hs⟩
          | some ac =>
            exact par_recoveryLoop hE hS rest ac _ _
              ⟨h.storage, h.secrets, h.garbled, h.confirms, rfl, by simp only [h.out], by simp only [h.errors], h.lines⟩
        · exact par_recoveryLoop hE hS rest _ _ _
            ⟨h.storage, h.secrets, h.garbled, h.confirms, rfl, by simp only [h.out], by simp only [h.errors], h.lines⟩
        · exact ⟨rfl, hs⟩

theorem par_promptRecoveryCode (hE : E.Lawful) (hS : Secure E U) : Par U (Twins E U) (promptRecoveryCode E) (promptRecoveryCode E) := by
  intro cs cs' h
  unfold promptRecoveryCode
  rw [CM.bind_apply, CM.bind_apply]
  simp only [CM.get_apply, h.answers]
  exact par_recoveryLoop hE hS _ _ cs cs' h

/-! ## Listing -/

theorem withoutValue_line (p : Password) : passwordLine (withoutValue p) = passwordLine p := by cases p <;> rfl

theorem withoutValue_details (p : Password) : printDetails (withoutValue p) = printDetails p := by cases p <;> rfl

theorem printPasswords_hidden (E : Env) (site : Str) (c : Bool) : ∀ l : List Password,
    printPasswords E site false false c l = printPasswords E site false false c (l.map withoutValue)
  | [] => rfl
  | p :: rest => by
    rw [List.map_cons, printPasswords_cons, printPasswords_cons, ← printPasswords_hidden E site c rest, withoutValue_line,
      withoutValue_details, if_neg (Bool.false_ne_true), if_neg (Bool.false_ne_true), if_neg (Bool.false_ne_true), if_neg (Bool.false_ne_true)]

theorem sortPasswords_hidden (l : List Password) :
    (sortPasswords l).map withoutValue = sortPasswords (l.map withoutValue) := by
  unfold sortPasswords sortByKey
  refine List.map_mergeSort fun a _ b _ => ?_
  cases a <;> cases b <;> rfl

theorem SameShape.symm {V V' : Vault} (h : SameShape V V') : SameShape V' V := sameShape h.hide.symm

/-- Both storages opened. -/
theorem Twins.opened (hE : E.Lawful) (hS : Secure E U) {s s' : PState} (h : Twins E U s s') (hk : s.key.isSome = true) :
    ∃ a a' pos pos' p V V', Open E U s a pos p V ∧ Open E U s' a' pos' p V' ∧ SameShape V V' := by
  have hk' := (Twins.key hE hS h).trans hk
  obtain ⟨a, a', hr, hr', hi, hi', hal, -⟩ := Twins.paired hE hS h
  obtain ⟨pos, p, V, ho⟩ := open_of_rep hr hi hk
  obtain ⟨pos', p', V', ho'⟩ := open_of_rep hr' hi' hk'
  obtain ⟨V'', hm, hsh⟩ := mem_hide_store hal.mem ho.mem
  rw [ho'.mem] at hm
  cases hm
  exact ⟨a, a', pos, pos', p, V, V', ho, ho', hsh⟩

theorem record_id (i : PasswordId) (e : Entry) : (Vault.record i e).id = i := by
  obtain ⟨sec, notes⟩ := e
  cases sec <;> rfl

theorem withoutValue_id (x : Password) : (withoutValue x).id = x.id := by cases x <;> rfl

/-- Listings of both. -/
theorem Twins.rows (hE : E.Lawful) (hS : Secure E U) {s s' : PState} {a a' : AState} {pos pos' : Origin} {p : Str} {V V' : Vault}
    (ho : Open E U s a pos p V) (ho' : Open E U s' a' pos' p V') (hsh : SameShape V V') {y : Str} (q : Str) (hy : U.site y) :
    ∃ l l', ask E s (.list y q) = .ok (.passwords l) ∧ ask E s' (.list y q) = .ok (.passwords l') ∧
      (l'.map withoutValue).Perm (l.map withoutValue) ∧
      ∀ x ∈ l.map withoutValue, ∀ z ∈ l.map withoutValue, x.id = z.id → x = z := by
  obtain ⟨l, h1, h2, h3⟩ := ho.list hE hS q hy
  obtain ⟨l', h1', h2', h3'⟩ := ho'.list hE hS q hy
  have inj : ∀ {W : Vault} {l : List Password}, l.Nodup → (∀ x, x ∈ l ↔ ∃ id e, W.passwords id = some e ∧
      x = Vault.record id e ∧ id.site = W.resolve y ∧ E.wild q id.name = true) →
      (∀ x ∈ l, ∀ z ∈ l, x.id = z.id → x = z) := by
    intro W l _ h3 x hx z hz hid
    obtain ⟨i, e, g1, rfl, -⟩ := (h3 x).mp hx
    obtain ⟨j, f, k1, rfl, -⟩ := (h3 z).mp hz
    rw [record_id, record_id] at hid
    subst hid
    rw [g1] at k1
    cases k1
    rfl
  have hi := inj h2 h3
  have hi' := inj h2' h3'
  have nd : ∀ {l : List Password}, l.Nodup → (∀ x ∈ l, ∀ z ∈ l, x.id = z.id → x = z) → (l.map withoutValue).Nodup := by
    intro l h2 hi
    refine List.Nodup.map_on (fun x hx z hz h => hi x hx z hz ?_) h2
    rw [← withoutValue_id x, h, withoutValue_id]
  have mem : ∀ {W W' : Vault} {l l' : List Password}, SameShape W W' →
      (∀ x, x ∈ l ↔ ∃ id e, W.passwords id = some e ∧ x = Vault.record id e ∧ id.site = W.resolve y ∧ E.wild q id.name = true) →
      (∀ x, x ∈ l' ↔ ∃ id e, W'.passwords id = some e ∧ x = Vault.record id e ∧ id.site = W'.resolve y ∧ E.wild q id.name = true) →
      ∀ x, x ∈ l.map withoutValue → x ∈ l'.map withoutValue := by
    intro W W' l l' hsh h3 h3' x hx
    obtain ⟨z, hz, rfl⟩ := List.mem_map.mp hx
    obtain ⟨i, e, g1, rfl, g2, g3⟩ := (h3 z).mp hz
    obtain ⟨e', k1, k2⟩ := hsh.some g1
    refine List.mem_map.mpr ⟨Vault.record i e', (h3' _).mpr ⟨i, e', k1, rfl, by rw [hsh.resolve]; exact g2, g3⟩, ?_⟩
    rw [record_hide, record_hide, k2]
  refine ⟨l, l', h1, h1', ?_, ?_⟩
  · rw [List.perm_ext_iff_of_nodup (nd h2' hi') (nd h2 hi)]
    exact fun x => ⟨mem hsh.symm h3' h3 x, mem hsh h3 h3' x⟩
  · intro x hx z hz hid
    obtain ⟨x', hx', rfl⟩ := List.mem_map.mp hx
    obtain ⟨z', hz', rfl⟩ := List.mem_map.mp hz
    rw [withoutValue_id, withoutValue_id] at hid
    rw [hi x' hx' z' hz' hid]

theorem list_of_ask {s : PState} {y q : Str} {l : List Password} (h : ask E s (.list y q) = .ok (.passwords l)) :
    Passwords.list E s y q = .ok l := by
  simp only [ask, run] at h
  cases hl : Passwords.list E s y q with
  | ok l' => rw [hl] at h; cases h; rfl
  | err e => rw [hl] at h; cases h
  | panic => rw [hl] at h; cases h

theorem par_printPasswords (E : Env) (site : Str) (c : Bool) : ∀ l : List Password,
    Par U R (printPasswords E site false false c l) (printPasswords E site false false c l)
  | [] => par_pure _
  | p :: rest => by
    rw [printPasswords_cons]
    refine par_bind (par_println _) fun _ => par_bind (par_pure _) fun _ => par_bind (par_pure _) fun _ =>
      par_bind (par_ite ?_ (par_pure _)) fun _ => par_printPasswords E site c rest
    unfold printDetails
    dsimp only
    have h : Par U R (match p with
      | .generated p => printParameters p
      | .stored _ => pure ()) (match p with
      | .generated p => printParameters p
      | .stored _ => pure ()) := by
      cases p with
      | generated p => exact par_bind (par_println _) fun _ => par_println _
      | stored p => exact par_pure _
    exact par_ite (par_bind (par_println _) fun _ => h) h

theorem par_listLoop {s s' : PState} (name : Str) (c : Bool) (cands : List Site) : ∀ l : List Str,
    (∀ y ∈ l, ∃ r r', Passwords.list E s y name = .ok r ∧ Passwords.list E s' y name = .ok r' ∧
      (r'.map withoutValue).Perm (r.map withoutValue) ∧
      ∀ x ∈ r.map withoutValue, ∀ z ∈ r.map withoutValue, sortText x = sortText z → x = z) →
    Par U (fun t t' => t = s ∧ t' = s') (listLoop E name false false c cands l) (listLoop E name false false c cands l)
  | [], _ => par_pure _
  | y :: l, hl => by
    have ih := par_listLoop name c cands l fun z hz => hl z (List.mem_cons_of_mem _ hz)
    obtain ⟨r, r', h1, h2, h3, h4⟩ := hl y (by simp)
    rw [listLoop_cons]
    intro cs cs' h
    have hq : (query fun s => Passwords.list E s y name) cs = (.ok r, cs) := by
      show (convert (Passwords.list E cs.ps y name), cs) = _
      rw [h.storage.1, h1]; rfl
    have hq' : (query fun s => Passwords.list E s y name) cs' = (.ok r', cs') := by
      show (convert (Passwords.list E cs'.ps y name), cs') = _
      rw [h.storage.2, h2]; rfl
    rw [CM.bind_apply, CM.bind_apply, hq, hq']
    simp only
    have hn : r' = [] ↔ r = [] := by
      have := h3.length_eq
      simp only [List.length_map] at this
      rw [← List.length_eq_zero_iff, ← List.length_eq_zero_iff, this]
    have hp : printPasswords E y false false c (sortPasswords r') = printPasswords E y false false c (sortPasswords r) := by
      rw [printPasswords_hidden, sortPasswords_hidden, sortPasswords_perm_eq h3 h4, ← sortPasswords_hidden, ← printPasswords_hidden]
    by_cases he : r = []
    · rw [if_pos he, if_pos (hn.mpr he)]
      exact par_bind ih (fun _ => par_pure _) cs cs' h
    · rw [if_neg he, if_neg fun h => he (hn.mp h), hp]
      exact par_bind (par_println _) (fun _ => par_bind (par_ite (par_println _) (par_pure _)) fun _ =>
        par_bind (par_printPasswords _ _ _ _) fun _ => par_bind ih fun _ => par_pure _) cs cs' h

/-- Combine computations where the second follows a successful first on particular states. -/
theorem par_bind_at {α β : Type} {R' : PState → PState → Prop} {m m' : CM α} {f f' : α → CM β} {cs cs' : CState}
    (hm : (m' cs').1 = (m cs).1 ∧ Sync U R' (m cs).2 (m' cs').2) (hR : ∀ s s', R' s s' → R s s')
    (hf : ∀ a, (m cs).1 = .ok a → (f' a (m' cs').2).1 = (f a (m cs).2).1 ∧ Sync U R (f a (m cs).2).2 (f' a (m' cs').2).2) :
    ((m' >>= f') cs').1 = ((m >>= f) cs).1 ∧ Sync U R ((m >>= f) cs).2 ((m' >>= f') cs').2 := by
  rw [CM.bind_apply, CM.bind_apply]
  revert hm hf
  cases m cs with
  | mk r t =>
    cases m' cs' with
    | mk r' t' =>
      rintro ⟨h1, h2⟩ hf
      have h1 : r' = r := h1
      subst h1
      have h2' : Sync U R t t' := ⟨hR _ _ h2.storage, h2.secrets, h2.garbled, h2.confirms, h2.answers, h2.out, h2.errors, h2.lines⟩
      cases r' with
      | ok a => exact hf a rfl
      | err e => exact ⟨rfl, h2'⟩
      | panic => exact ⟨rfl, h2'⟩
      | blocked => exact ⟨rfl, h2'⟩

theorem par_ensure_then (hE : E.Lawful) (hS : Secure E U) {α : Type} {f : Unit → CM α}
    (hf : ∀ cs cs', Sync U (Twins E U) cs cs' → cs.ps.key.isSome = true →
      (f () cs').1 = (f () cs).1 ∧ Sync U (Twins E U) (f () cs).2 (f () cs').2) :
    Par U (Twins E U) (ensureUnlocked E >>= f) (ensureUnlocked E >>= f) := by
  intro cs cs' h
  have hu := par_ensure hE hS cs cs' h
  refine par_bind_at hu (fun _ _ h => h) fun _ ha => ?_
  exact hf _ _ hu.2 (((Props.C48_no_effect E cs).2.2.2 ha).2)

theorem par_list (hE : E.Lawful) (hS : Secure E U) (hT : Tieless U) (d n : Str) (c : Bool) :
    Par U (Twins E U) (Cli.list E d n false false c) (Cli.list E d n false false c) := by
  unfold Cli.list
  refine par_ensure_then hE hS fun cs cs' h hk => ?_
  obtain ⟨a, a', pos, pos', p, V, V', ho, ho', hsh⟩ := Twins.opened hE hS h.storage hk
  obtain ⟨m, h1, h2, h3⟩ := ho.listSites hE hS d
  obtain ⟨m', h1', h2', h3'⟩ := ho'.listSites hE hS d
  have hnd : (m.map Site.name).Nodup := by
    refine List.Nodup.map_on ?_ h2
    intro x hx y hy hxy
    have h4 := ((h3 x).mp hx).1
    have h5 := ((h3 y).mp hy).1
    obtain ⟨xn, xa⟩ := x
    obtain ⟨yn, ya⟩ := y
    cases hxy
    rw [h4] at h5
    cases h5
    rfl
  have hperm : m'.Perm m := by
    rw [List.perm_ext_iff_of_nodup h2' h2]
    intro x
    rw [h3, h3', hsh.sites]
  have hsites : ∀ {s : PState} {m : List Site}, ask E s (.listSites d) = .ok (.sites m) → Passwords.listSites E s d = .ok m := by
    intro s m h1
    simp only [ask, run] at h1
    cases hl : Passwords.listSites E s d with
    | ok l' => rw [hl] at h1; cases h1; rfl
    | err e => rw [hl] at h1; cases h1
    | panic => rw [hl] at h1; cases h1
  have hq : (query fun s => Passwords.listSites E s d) cs = (.ok m, cs) := by
    show (convert (Passwords.listSites E cs.ps d), cs) = _
    rw [hsites h1]; rfl
  have hq' : (query fun s => Passwords.listSites E s d) cs' = (.ok m', cs') := by
    show (convert (Passwords.listSites E cs'.ps d), cs') = _
    rw [hsites h1']; rfl
  have hsite : ∀ y ∈ listedSites (candidateSites m), U.site y := by
    intro y hy
    rcases (mem_listed_iff hnd y).mp hy with h | ⟨⟨x, hx, ha⟩, -⟩
    · exact (ho.store.vault.site_in _ _ ((h3 _).mp h).1).1
    · exact (ho.store.vault.site_in _ _ ((h3 x).mp hx).1).2.1 y ha
  rw [CM.bind_apply _ _ cs, hq, CM.bind_apply _ _ cs', hq']
  simp only [candidateSites_perm hnd hperm]
  have hloop := par_listLoop (E := E) (U := U) (s := cs.ps) (s' := cs'.ps) n c (candidateSites m)
    (listedSites (candidateSites m)) (by
      intro y hy
      obtain ⟨l, l', g1, g2, g3, g4⟩ := Twins.rows hE hS ho ho' hsh n (hsite y hy)
      obtain ⟨l₀, k1, -, k3⟩ := ho.list hE hS n (hsite y hy)
      rw [g1] at k1
      cases k1
      refine ⟨l, l', list_of_ask g1, list_of_ask g2, g3, fun x hx z hz hxz => g4 x hx z hz ?_⟩
      obtain ⟨x', hx', rfl⟩ := List.mem_map.mp hx
      obtain ⟨z', hz', rfl⟩ := List.mem_map.mp hz
      obtain ⟨i, e, j1, rfl, j2, -⟩ := (k3 x').mp hx'
      obtain ⟨i', e', j1', rfl, j2', -⟩ := (k3 z').mp hz'
      unfold sortText at hxz
      simp only [withoutValue_id, record_id] at hxz ⊢
      have hU := (ho.store.vault.password_in _ _ j1).1
      have hU' := (ho.store.vault.password_in _ _ j1').1
      obtain ⟨q1, q2⟩ := hT _ _ _ _ hU.2.1 hU.2.2 hU'.2.1 hU'.2.2 hxz
      obtain ⟨x1, x2, x3⟩ := i
      obtain ⟨z1, z2, z3⟩ := i'
      simp only at q1 q2 j2 j2'
      rw [q1, q2, j2, j2']) cs cs'
    ⟨⟨rfl, rfl⟩, h.secrets, h.garbled, h.confirms, h.answers, h.out, h.errors, h.lines⟩
  refine par_bind_at hloop (by rintro _ _ ⟨rfl, rfl⟩; exact h.storage) fun r hr => ?_
  have hsub : ∀ x ∈ r.2, U.site x := fun x hx => hsite x (listLoop_sub _ _ _ _ _ _ r.1 r.2 hr x hx)
  refine par_bind (par_op hE hS (.removeSites r.2) hsub rfl (by simp) fun s => rfl) (fun _ => par_ite (par_pure _) (par_println _)) _ _ ?_
  exact ⟨by rw [hloop.2.storage.1, hloop.2.storage.2]; exact h.storage, hloop.2.secrets, hloop.2.garbled, hloop.2.confirms, hloop.2.answers,
    hloop.2.out, hloop.2.errors, hloop.2.lines⟩

/-! ## Commands -/

theorem promptPassword_within {t : Str} {b : Bool} {cs : CState} {v : Str} (hl : LinesWithin U cs.secrets)
    (h : (promptPassword t b cs).1 = .ok v) (h6 : 6 ≤ (utf8 v).length) : U.primary v := by
  cases hs : cs.secrets with
  | nil =>
    cases b with
    | false => rw [promptPassword_blocked hs] at h; cases hg : cs.garbled <;> rw [hg] at h <;> cases h
    | true =>
      rw [promptPassword_empty hs] at h
      cases hg : cs.garbled <;> rw [hg] at h <;> cases h
      exact absurd h6 (by decide)
  | cons a l =>
    rw [promptPassword_cons hs] at h
    cases h
    exact hl a (by rw [hs]; simp) h6

theorem par_setPrimary (C : CEnv) (hE : C.env.Lawful) (hS : Secure C.env U) (b : Bool) {cs cs' : CState}
    (h : Sync U (Twins C.env U) cs cs') (hk : cs.ps.key = none) :
    (setPrimary C b cs').1 = (setPrimary C b cs).1 ∧ Sync U (Twins C.env U) (setPrimary C b cs).2 (setPrimary C b cs').2 := by
  have h0 : Sync U (fun t t' => Twins C.env U t t' ∧ t.key = none) cs cs' :=
    ⟨⟨h.storage, hk⟩, h.secrets, h.garbled, h.confirms, h.answers, h.out, h.errors, h.lines⟩
  have weak : ∀ {t t'}, Sync U (fun t t' => Twins C.env U t t' ∧ t.key = none) t t' → Sync U (Twins C.env U) t t' :=
    fun h => ⟨h.storage.1, h.secrets, h.garbled, h.confirms, h.answers, h.out, h.errors, h.lines⟩
  unfold setPrimary
  have h1 := par_promptPassword (c!"New primary password: ") b cs cs' h0
  refine par_bind_at h1 (fun _ _ h => h.1) fun v hv => ?_
  by_cases h6 : (utf8 v).length < 6
  · rw [if_pos h6]
    exact ⟨rfl, weak h1.2⟩
  · rw [if_neg h6]
    have h2 := par_promptPassword (c!"Repeat primary password: ") b _ _ h1.2
    refine par_bind_at h2 (fun _ _ h => h.1) fun v' _ => ?_
    by_cases he : v ≠ v'
    · rw [if_pos he]
      exact ⟨rfl, weak h2.2⟩
    · rw [if_neg he]
      have hp : U.primary v := promptPassword_within h.lines hv (Nat.not_lt.mp h6)
      refine par_bind_at (m := call _) (m' := call _) (R' := Twins C.env U) ?_ (fun _ _ h => h) fun _ _ => par_println _ _ _ ?_
      all_goals
        have h3 := h2.2
        revert h3
        generalize (promptPassword (c!"Repeat primary password: ") b (promptPassword (c!"New primary password: ") b cs).2).2 = t
        generalize (promptPassword (c!"Repeat primary password: ") b (promptPassword (c!"New primary password: ") b cs').2).2 = t'
        intro h3
        obtain ⟨g1, g2⟩ := Twins.plain hE hS h3.storage.1 (.reset v) hp rfl (fun _ _ => .inr h3.storage.2)
        simp only [ask, after, run] at g1 g2
        have g1 : (Passwords.reset C.env v t'.ps).1 = (Passwords.reset C.env v t.ps).1 := by
          revert g1
          cases (Passwords.reset C.env v t'.ps).1 <;> cases (Passwords.reset C.env v t.ps).1 <;> simp [Res.map]
        have g3 : Sync U (Twins C.env U) (call (Passwords.reset C.env v) t).2 (call (Passwords.reset C.env v) t').2 :=
          ⟨g2, h3.secrets, h3.garbled, h3.confirms, h3.answers, h3.out, h3.errors, h3.lines⟩
        first
        | exact g3
        | exact ⟨congrArg convert g1, g3⟩

theorem par_command (C : CEnv) (hE : C.env.Lawful) (hS : Secure C.env U) (hT : Tieless U) (b : Bool) (c : Command)
    (hw : Command.Within U c) (hd : Command.Discreet c) (hn : ∀ y, c ≠ .setPrimary y) :
    Par U (Twins C.env U) (processCommand C b c) (processCommand C b c) := by
  have hen := par_ensure hE hS
  cases c with
  | setPrimary y => exact absurd rfl (hn y)
  | add d n r len f1 f2 f3 f4 y =>
    refine par_bind hen fun _ => par_ite (par_fail _) (par_bind (par_mayOverwrite hE hS hw.1 hw.2.1 hw.2.2.1 y) fun allow =>
      par_ite (par_bind (par_op hE hS (.setGenerated d n r len (charsetOf f1 f2 f3 f4)) ⟨hw.1, hw.2.1, hw.2.2.1⟩ rfl (by simp) fun s => rfl)
        fun _ => par_println _) (par_pure _))
  | addStored d n r rec y =>
    refine par_bind hen fun _ => par_bind (par_mayOverwrite hE hS hw.1 hw.2.1 hw.2.2 y) fun allow => par_ite ?_ (par_pure _)
    have hput : ∀ v, Par U (Twins C.env U) (call (Passwords.setStored C.env d n r v) >>= fun _ => println (c!"Password added."))
        (call (Passwords.setStored C.env d n r v) >>= fun _ => println (c!"Password added.")) := fun v =>
      par_bind (par_op hE hS (.setStored d n r v) hw rfl (by simp) fun s => rfl) fun _ => par_println _
    cases rec with
    | true => exact par_bind (par_promptRecoveryCode hE hS) hput
    | false => exact par_bind (par_promptPassword _ _) hput
  | remove d n r =>
    exact par_bind hen fun _ => par_bind (par_op hE hS (.remove d n r) hw rfl (by simp) fun s => rfl) fun _ => par_println _
  | «show» d n r q => exact absurd hd (by simp [Command.Discreet])
  | notes d n r set =>
    have hget : ∀ s s', Twins C.env U s s' → Passwords.getNotes C.env s' d n r = Passwords.getNotes C.env s d n r := fun s s' h =>
      res_of_map (fun a b h => by injection h) (Twins.plain hE hS h (.getNotes d n r) hw rfl (fun _ h => by cases h)).1
    have hset : Par U (Twins C.env U) (if set then (do
        let notes ← promptSecretText (c!"Please enter new notes to be stored:")
        call (Passwords.setNotes C.env d n r notes)
        if notes = [] then println (c!"Notes removed.") else println (c!"Notes stored.")) else pure ())
        (if set then (do
        let notes ← promptSecretText (c!"Please enter new notes to be stored:")
        call (Passwords.setNotes C.env d n r notes)
        if notes = [] then println (c!"Notes removed.") else println (c!"Notes stored.")) else pure ()) :=
      par_ite (par_bind (par_promptSecretText _) fun t => par_bind (par_op hE hS (.setNotes d n r t) hw rfl (by simp) fun s => rfl)
        fun _ => par_ite (par_println _) (par_println _)) (par_pure _)
    refine par_bind hen fun _ => par_bind (par_query hget) fun t => ?_
    exact par_ite (par_bind (par_println _) fun _ => hset) (par_bind (par_println _) fun _ => hset)
  | list d n v rc verbose =>
    obtain ⟨rfl, rfl⟩ := hd
    exact par_list hE hS hT d n verbose
  | «alias» d t rm =>
    refine par_bind hen fun _ => ?_
    cases t with
    | some t => exact par_bind (par_op hE hS (.setAlias d t) ⟨hw.1, hw.2 t rfl⟩ rfl (by simp) fun s => rfl) fun _ => par_println _
    | none =>
      refine par_ite (par_bind (par_op hE hS (.removeAlias d) hw.1 rfl (by simp) fun s => rfl) fun _ => par_println _)
        (par_bind (par_query fun s s' h => ?_) fun _ => par_println _)
      exact res_of_map (fun a b h => by injection h) (Twins.plain hE hS h (.getAlias d) hw.1 rfl (fun _ h => by cases h)).1
  | shell => exact par_pure _

theorem Sync.report {cs cs' : CState} (h : Sync U R cs cs') (m : Message) :
    Sync U R { cs with errors := cs.errors ++ [m] } { cs' with errors := cs'.errors ++ [m] } :=
  ⟨h.storage, h.secrets, h.garbled, h.confirms, h.answers, h.out, by simp only [h.errors], h.lines⟩

theorem par_shell (C : CEnv) (hE : C.env.Lawful) (hS : Secure C.env U) (hT : Tieless U) (b : Bool) : ∀ events : List ShellEvent,
    (∀ e ∈ events, ShellEvent.Within U e) → (∀ e ∈ events, ShellEvent.Discreet e) →
    Par U (Twins C.env U) (shellLoop C b events) (shellLoop C b events)
  | [], _, _ => par_pure _
  | e :: rest, hw, hd => by
    have ih := par_shell C hE hS hT b rest (fun x hx => hw x (List.mem_cons_of_mem _ hx)) fun x hx => hd x (List.mem_cons_of_mem _ hx)
    intro cs cs' h
    cases e with
    | noCommand => exact ih _ _ (h.report _)
    | exit => exact ⟨rfl, h⟩
    | lock =>
      refine ih { cs with ps := Passwords.lock cs.ps, out := cs.out ++ c!"Passwords locked.\n" }
        { cs' with ps := Passwords.lock cs'.ps, out := cs'.out ++ c!"Passwords locked.\n" } ⟨?_, h.secrets, h.garbled, h.confirms, h.answers, by simp only [h.out], h.errors, h.lines⟩
      exact (Twins.plain hE hS h.storage .lock trivial rfl (fun _ h => by cases h)).2
    | command c =>
      by_cases h1 : c = .shell
      · subst h1
        exact ih _ _ (h.report _)
      · by_cases h2 : ∃ y, c = .setPrimary y
        · obtain ⟨y, rfl⟩ := h2
          exact ih _ _ (h.report _)
        · have h2 : ∀ y, c ≠ .setPrimary y := fun y h => h2 ⟨y, h⟩
          rw [shellLoop_command C b c rest cs h1 h2, shellLoop_command C b c rest cs' h1 h2]
          obtain ⟨g1, g2⟩ := par_command C hE hS hT b c (hw (.command c) (by simp)) (hd (.command c) (by simp)) h2 cs cs' h
          revert g1 g2
          cases processCommand C b c cs with
          | mk r t =>
            cases processCommand C b c cs' with
            | mk r' t' =>
              intro g1 g2
              have g1 : r' = r := g1
              subst g1
              cases r' with
              | ok u => exact ih _ _ g2
              | err e => exact ih _ _ (g2.report _)
              | panic => exact ⟨rfl, g2⟩
              | blocked => exact ⟨rfl, g2⟩

theorem Twins.fpos (hE : E.Lawful) (hS : Secure E U) {s s' : PState} (h : Twins E U s s') : s'.world.fpos = s.world.fpos := by
  obtain ⟨_, _, -, -, -, -, -, hf⟩ := Twins.paired hE hS h
  exact hf

/-- Programs started on both files. -/
theorem Twins.load {s s' : PState} (h : Twins E U s s') {data data' : Data} (h1 : FileIO.load s.world.disk = .ok data)
    (h2 : FileIO.load s'.world.disk = .ok data') : Twins E U (openWith s.world data) (openWith s'.world data') := by
  have := Twins.step h .reload trivial (fun _ h => by cases h) (fun _ => by simp [ask, run, reload, h1, h2, Res.map])
  simp only [after, run, reload, h1, h2] at this
  exact this

/-- Programs started without a file that can be read. -/
theorem Twins.blank (hE : E.Lawful) (hS : Secure E U) {s s' : PState} (h : Twins E U s s') {e e' : Err}
    (h1 : FileIO.load s.world.disk = .err e) (h2 : FileIO.load s'.world.disk = .err e') :
    Twins E U (openWith s.world []) (openWith s'.world []) := by
  have hi : Reachable E U (openWith s.world []) := .start ⟨rfl, rfl, rfl, rfl, Props.load_errors h1⟩
  exact .meanwhile (.same hi) (.same hi) ⟨rfl, rfl, rfl, rfl, .inl rfl⟩ ⟨rfl, rfl, rfl, rfl, .inr (Props.load_errors h2)⟩
    (show s'.world.fpos = s.world.fpos from Twins.fpos hE hS h)

theorem par_process (C : CEnv) (hE : C.env.Lawful) (hS : Secure C.env U) (hT : Tieless U) (b : Bool) (events : List ShellEvent)
    (c : Command) (hw : Command.Within U c) (hd : Command.Discreet c) (he : ∀ e ∈ events, ShellEvent.Within U e)
    (hed : ∀ e ∈ events, ShellEvent.Discreet e) (hn : ∀ y, c ≠ .setPrimary y) :
    Par U (Twins C.env U) (process C b events c) (process C b events c) := by
  cases c with
  | shell => exact par_bind (par_println _) fun _ => par_shell C hE hS hT b events he hed
  | _ => exact par_command C hE hS hT b _ hw hd hn

theorem par_main (C : CEnv) (hE : C.env.Lawful) (hS : Secure C.env U) (hT : Tieless U) (b : Bool) (events : List ShellEvent)
    (c : Command) (hw : Command.Within U c) (hd : Command.Discreet c) (he : ∀ e ∈ events, ShellEvent.Within U e)
    (hed : ∀ e ∈ events, ShellEvent.Discreet e) {cs cs' : CState} (h : Sync U (Twins C.env U) cs cs')
    (hl : LoadAlike cs.ps.world.disk cs'.ps.world.disk) :
    (mainInner C b events c cs').1 = (mainInner C b events c cs).1 ∧
      Sync U (Twins C.env U) (mainInner C b events c cs).2 (mainInner C b events c cs').2 := by
  by_cases hn : ∀ y, c ≠ .setPrimary y
  · rw [Props.mainInner_eq C b events c cs hn, Props.mainInner_eq C b events c cs' hn]
    rcases hl with ⟨data, data', h1, h2⟩ | ⟨e, h1, h2⟩
    · rw [h1, h2]
      exact par_process C hE hS hT b events c hw hd he hed hn _ _
        ⟨Twins.load h.storage h1 h2, h.secrets, h.garbled, h.confirms, h.answers, h.out, h.errors, h.lines⟩
    · rw [h1, h2]
      exact ⟨rfl, h⟩
  · have : ∃ y, c = .setPrimary y := by
      cases c with
      | setPrimary y => exact ⟨y, rfl⟩
      | _ => exact absurd (by simp) hn
    obtain ⟨y, rfl⟩ := this
    unfold mainInner
    dsimp only
    rcases hl with ⟨data, data', h1, h2⟩ | ⟨e, h1, h2⟩
    · rw [h1, h2]
      dsimp only
      have ht := Twins.load h.storage h1 h2
      cases y with
      | true => exact par_setPrimary C hE hS b ⟨ht, h.secrets, h.garbled, h.confirms, h.answers, h.out, h.errors, h.lines⟩ rfl
      | false =>
        simp only [Bool.false_eq_true, if_false]
        unfold confirm
        rw [h.confirms]
        cases cs.confirms with
        | nil => exact ⟨rfl, h.storage, h.secrets, h.garbled, rfl, h.answers, by simp only [h.out], h.errors, h.lines⟩
        | cons x l =>
          cases x with
          | false => exact ⟨rfl, h.storage, h.secrets, h.garbled, rfl, h.answers, by simp only [h.out], h.errors, h.lines⟩
          | true => exact par_setPrimary C hE hS b ⟨ht, h.secrets, h.garbled, rfl, h.answers, by simp only [h.out], h.errors, h.lines⟩ rfl
    · rw [h1, h2]
      exact par_setPrimary C hE hS b ⟨Twins.blank hE hS h.storage h1 h2, h.secrets, h.garbled, h.confirms, h.answers, h.out, h.errors, h.lines⟩ rfl

end Pfp
