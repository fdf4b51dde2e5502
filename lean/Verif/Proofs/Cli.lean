import Verif.Model.Cli
import Verif.Proofs.Effects
import Verif.Props.Session
import Verif.Spec.Cli

/-!
# Lemmas about the command line application
-/

namespace Pfp.Cli
open Spec

variable {E : Env} {α β : Type}

theorem CM.bind_ok {m : CM α} {f : α → CM β} {s s' : CState} {a : α} (h : m s = (.ok a, s')) : (m >>= f) s = f a s' := by
  rw [CM.bind_apply, h]

theorem CM.bind_err {m : CM α} {f : α → CM β} {s s' : CState} {e : CErr} (h : m s = (.err e, s')) :
    (m >>= f) s = (.err e, s') := by
  rw [CM.bind_apply, h]

theorem CM.bind_panic {m : CM α} {f : α → CM β} {s s' : CState} (h : m s = (.panic, s')) :
    (m >>= f) s = (.panic, s') := by
  rw [CM.bind_apply, h]

theorem CM.bind_blocked {m : CM α} {f : α → CM β} {s s' : CState} (h : m s = (.blocked, s')) :
    (m >>= f) s = (.blocked, s') := by
  rw [CM.bind_apply, h]

/-! ## Unlocking -/

theorem unlock_locked {ps : PState} {p : Str} (h : (Passwords.unlock E p ps).1 ≠ .ok ()) :
    (Passwords.unlock E p ps).2 = ps := by
  have := Props.C33_failure_changes_nothing E ps p (by
    intro h'
    apply h
    simp only [ask, run] at h'
    cases hr : (Passwords.unlock E p ps).1 with
    | ok u => rfl
    | err e => rw [hr] at h'; cases h'
    | panic => rw [hr] at h'; cases h')
  exact this

theorem unlock_ok {ps : PState} {p : Str} (h : (Passwords.unlock E p ps).1 = .ok ()) :
    (Passwords.unlock E p ps).2.world = ps.world ∧ (Passwords.unlock E p ps).2.key.isSome = true ∧
      (Passwords.unlock E p ps).2.primaryPassword = some p := by
  unfold Passwords.unlock at h ⊢
  simp only [M.bind_apply, M.get_apply, M.lift_apply] at h ⊢
  cases hs : Storage.getSalt ps.world with
  | err e => rw [hs] at h; cases h
  | panic => rw [hs] at h; cases h
  | ok salt =>
    rw [hs] at h
    simp only at h ⊢
    cases hk : getEncryptionKey E.prims p salt with
    | err e => rw [hk] at h; cases h
    | panic => rw [hk] at h; cases h
    | ok k =>
      rw [hk] at h
      simp only at h ⊢
      cases hm : Storage.getHmacSecret E ps.world k with
      | err e => rw [hm] at h; cases h
      | panic => rw [hm] at h; cases h
      | ok x => exact ⟨rfl, rfl, rfl⟩

theorem unlockLoop_unlocked {s : CState} (h : s.ps.key.isSome = true) (l : List Str) : unlockLoop E l s = (.ok (), s) := by
  cases l with
  | nil => rw [unlockLoop, CM.bind_apply]; simp [Passwords.unlocked, h]
  | cons a l => rw [unlockLoop, CM.bind_apply]; simp [Passwords.unlocked, h]

theorem unlockLoop_nil {s : CState} (h : s.ps.key = none) : unlockLoop E [] s =
    (if s.garbled then .panic else .blocked, { s with out := s.out ++ PRIMARY_PROMPT }) := by
  rw [unlockLoop, CM.bind_apply]
  simp only [CM.get_apply, Passwords.unlocked, h, Option.isSome_none, Bool.false_eq_true, if_false, CM.bind_apply, print]
  cases s.garbled <;> rfl

theorem unlockLoop_cons {s : CState} (h : s.ps.key = none) (line : Str) (rest : List Str) :
    unlockLoop E (line :: rest) s =
      if (utf8 (trim line)).length < 6 then unlockLoop E rest { s with
        secrets := rest, out := s.out ++ PRIMARY_PROMPT, errors := s.errors ++ [.error .primaryTooShort] }
      else
        match Passwords.unlock E (trim line) s.ps with
        | (.panic, ps) => (.panic, { s with ps, secrets := rest, out := s.out ++ PRIMARY_PROMPT })
        | (.err e, ps) => unlockLoop E rest { s with
            ps, secrets := rest, out := s.out ++ PRIMARY_PROMPT, errors := s.errors ++ [.error (.lib e)] }
        | (.ok _, ps) => unlockLoop E rest { s with ps, secrets := rest, out := s.out ++ PRIMARY_PROMPT } := by
  rw [unlockLoop, CM.bind_apply]
  simp only [CM.get_apply, Passwords.unlocked, h, Option.isSome_none, Bool.false_eq_true, if_false, CM.bind_apply, print]
  by_cases h6 : (utf8 (trim line)).length < 6
  · rw [if_pos h6]
    exact congrFun (if_pos (α := CState → COut Unit × CState) h6) _
  · rw [if_neg h6]
    exact congrFun (if_neg (α := CState → COut Unit × CState) h6) _

theorem ensureUnlocked_not {s : CState} (h : Passwords.initialized s.ps = false) :
    ensureUnlocked E s = (.err (.lib .storageNotInitialized), s) := by
  unfold ensureUnlocked
  rw [CM.bind_apply]
  simp [h]

theorem ensureUnlocked_eq {s : CState} (h : Passwords.initialized s.ps = true) :
    ensureUnlocked E s = unlockLoop E s.secrets s := by
  unfold ensureUnlocked
  rw [CM.bind_apply]
  simp [h]

/-- What unlocking leaves as it is, whatever its outcome. -/
theorem unlockLoop_keeps : ∀ (l : List Str) (s : CState), (unlockLoop E l s).2.ps.world = s.ps.world ∧
    (unlockLoop E l s).2.confirms = s.confirms ∧ (unlockLoop E l s).2.answers = s.answers ∧
    ((unlockLoop E l s).1 = .ok () → (unlockLoop E l s).2.ps.key.isSome = true) ∧
    ∀ e, (unlockLoop E l s).1 ≠ .err e
  | l, s => by
    cases hk : s.ps.key with
    | some k =>
      have : s.ps.key.isSome = true := by rw [hk]; rfl
      rw [unlockLoop_unlocked this]
      simp [this]
    | none =>
      match l with
      | [] => rw [unlockLoop_nil hk]; cases s.garbled <;> simp
      | line :: rest =>
        rw [unlockLoop_cons hk]
        split
        · exact unlockLoop_keeps rest _
        · cases hu : Passwords.unlock E (trim line) s.ps with
          | mk r ps =>
            have hw : ps.world = s.ps.world := by
              by_cases hr : (Passwords.unlock E (trim line) s.ps).1 = .ok ()
              · have := (unlock_ok hr).1; rw [hu] at this; exact this
              · have := unlock_locked hr; rw [hu] at this; exact congrArg PStateOf.world this
            cases r with
            | panic => simp [hw]
            | ok u =>
              obtain ⟨h1, h2, h3, h4, h5⟩ := unlockLoop_keeps rest
                { s with ps := ps, secrets := rest, out := s.out ++ PRIMARY_PROMPT }
              exact ⟨h1.trans hw, h2, h3, h4, h5⟩
            | err e =>
              obtain ⟨h1, h2, h3, h4, h5⟩ := unlockLoop_keeps rest { s with
                ps := ps, secrets := rest, out := s.out ++ PRIMARY_PROMPT, errors := s.errors ++ [.error (.lib e)] }
              exact ⟨h1.trans hw, h2, h3, h4, h5⟩

theorem ensureUnlocked_keeps (s : CState) : (ensureUnlocked E s).2.ps.world = s.ps.world ∧
    (ensureUnlocked E s).2.confirms = s.confirms ∧ (ensureUnlocked E s).2.answers = s.answers ∧
    ((ensureUnlocked E s).1 = .ok () → (ensureUnlocked E s).2.ps.key.isSome = true) := by
  cases h : Passwords.initialized s.ps with
  | false => rw [ensureUnlocked_not h]; simp
  | true =>
    rw [ensureUnlocked_eq h]
    obtain ⟨h1, h2, h3, h4, _⟩ := unlockLoop_keeps (E := E) s.secrets s
    exact ⟨h1, h2, h3, h4⟩

/-- A command that starts by unlocking: either it gets stuck there, without any change, or it continues unlocked. -/
theorem ensureUnlocked_cases (s : CState) (f : Unit → CM α) :
    ((∃ e, ensureUnlocked E s = (.err e, (ensureUnlocked E s).2) ∧ (ensureUnlocked E >>= f) s = (.err e, (ensureUnlocked E s).2)) ∨
      (ensureUnlocked E s = (.panic, (ensureUnlocked E s).2) ∧ (ensureUnlocked E >>= f) s = (.panic, (ensureUnlocked E s).2)) ∨
      (ensureUnlocked E s = (.blocked, (ensureUnlocked E s).2) ∧ (ensureUnlocked E >>= f) s = (.blocked, (ensureUnlocked E s).2))) ∨
    (ensureUnlocked E s = (.ok (), (ensureUnlocked E s).2) ∧ (ensureUnlocked E >>= f) s = f () (ensureUnlocked E s).2) := by
  rw [CM.bind_apply]
  cases h : ensureUnlocked E s with
  | mk r s' => cases r <;> simp

theorem promptSecretText_nil {t : Str} {s : CState} (h : s.secrets = []) :
    promptSecretText t s = (if s.garbled then .panic else .ok [], { s with out := s.out ++ t }) := by
  unfold promptSecretText
  simp only [h]
  cases s.garbled <;> rfl

theorem promptSecretText_cons {t a : Str} {l : List Str} {s : CState} (h : s.secrets = a :: l) :
    promptSecretText t s = (.ok a, { s with secrets := l, out := s.out ++ t }) := by
  unfold promptSecretText
  simp only [h]

theorem promptPassword_blocked {t : Str} {s : CState} (h : s.secrets = []) :
    promptPassword t false s = (if s.garbled then .panic else .blocked, { s with out := s.out ++ t }) := by
  unfold promptPassword
  rw [CM.bind_apply]
  cases hg : s.garbled with
  | false =>
    simp only [CM.get_apply, h, hg, and_self, if_true, CM.bind_apply, print]
    rfl
  | true =>
    simp only [CM.get_apply, h, hg, Bool.true_eq_false, and_false, if_false, CM.bind_apply, promptSecretText_nil h, if_true]

theorem promptPassword_empty {t : Str} {s : CState} (h : s.secrets = []) :
    promptPassword t true s = (if s.garbled then .panic else .ok [], { s with out := s.out ++ t }) := by
  unfold promptPassword
  rw [CM.bind_apply]
  simp only [CM.get_apply, Bool.true_eq_false, false_and, if_false]
  rw [CM.bind_apply, promptSecretText_nil h]
  cases s.garbled <;> rfl

theorem promptPassword_clear {t : Str} {s : CState} (h : s.secrets = []) (hg : s.garbled = false) :
    promptPassword t true s = (.ok [], { s with out := s.out ++ t }) := by
  rw [promptPassword_empty h, hg]
  rfl

theorem promptPassword_garbled {t : Str} {b : Bool} {s : CState} (h : s.secrets = []) (hg : s.garbled = true) :
    promptPassword t b s = (.panic, { s with out := s.out ++ t }) := by
  cases b
  · rw [promptPassword_blocked h, hg]; rfl
  · rw [promptPassword_empty h, hg]; rfl

theorem promptPassword_cons {t a : Str} {l : List Str} {b : Bool} {s : CState} (h : s.secrets = a :: l) :
    promptPassword t b s = (.ok (trim a), { s with secrets := l, out := s.out ++ t }) := by
  unfold promptPassword
  rw [CM.bind_apply]
  simp only [CM.get_apply, h, reduceCtorEq, and_false, false_and, if_false]
  rw [CM.bind_apply, promptSecretText_cons h]
  rfl

/-! ## Commands as sequences of library operations -/

theorem runAll_append (E : Env) : ∀ (l l' : List Op) (s : PState),
    (runAll E (l ++ l') s).2 = (runAll E l' (runAll E l s).2).2
  | [], _, _ => rfl
  | op :: l, l', s => runAll_append E l l' (run E op s).2

/-- From a state satisfying `I`, which is kept by the operations satisfying `A`, the state is only changed by such
operations, provided that the lines entered satisfy `Q`. -/
def Via (E : Env) (A : Op → Prop) (Q : Str → Prop) (I : PState → Prop) (m : CM α) : Prop :=
  (∀ op ps, A op → I ps → I (run E op ps).2) → ∀ s : CState, I s.ps → (∀ l ∈ s.secrets, Q l) →
  (∃ ops : List Op, (∀ op ∈ ops, A op) ∧ (m s).2.ps = (runAll E ops s.ps).2) ∧ ∀ l ∈ (m s).2.secrets, l ∈ s.secrets

section Via
variable {A : Op → Prop} {Q : Str → Prop} {I : PState → Prop}

theorem runAll_keeps (hI : ∀ op ps, A op → I ps → I (run E op ps).2) : ∀ (ops : List Op) (ps : PState), (∀ op ∈ ops, A op) →
    I ps → I (runAll E ops ps).2
  | [], _, _, h => h
  | op :: ops, ps, ha, h => runAll_keeps hI ops _ (fun x hx => ha x (List.mem_cons_of_mem _ hx)) (hI op ps (ha op (by simp)) h)

theorem via_same {m : CM α} (h : ∀ s, (m s).2.ps = s.ps ∧ ∀ l ∈ (m s).2.secrets, l ∈ s.secrets) : Via E A Q I m :=
  fun _ s _ _ => ⟨⟨[], by simp, (h s).1⟩, (h s).2⟩

theorem via_bind' {m : CM α} {f : α → CM β} (hm : Via E A Q I m) (hf : ∀ a, (∃ s, I s.ps ∧ (m s).1 = .ok a) → Via E A Q I (f a)) :
    Via E A Q I (m >>= f) := by
  intro hI s hi hs
  obtain ⟨⟨ops, h1, h2⟩, h3⟩ := hm hI s hi hs
  rw [CM.bind_apply]
  cases hr : m s with
  | mk r s' =>
    rw [hr] at h2 h3
    cases r with
    | ok a =>
      obtain ⟨⟨ops', h1', h2'⟩, h3'⟩ := hf a ⟨s, hi, by rw [hr]⟩ hI s'
        (h2 ▸ runAll_keeps hI ops s.ps h1 hi) fun l hl => hs l (h3 l hl)
      refine ⟨⟨ops ++ ops', ?_, ?_⟩, fun l hl => h3 l (h3' l hl)⟩
      · intro op hop
        rcases List.mem_append.mp hop with h | h
        · exact h1 op h
        · exact h1' op h
      · rw [runAll_append, ← h2]; exact h2'
    | err e => exact ⟨⟨ops, h1, h2⟩, h3⟩
    | panic => exact ⟨⟨ops, h1, h2⟩, h3⟩
    | blocked => exact ⟨⟨ops, h1, h2⟩, h3⟩

theorem via_bind {m : CM α} {f : α → CM β} (hm : Via E A Q I m) (hf : ∀ a, Via E A Q I (f a)) : Via E A Q I (m >>= f) :=
  via_bind' hm fun a _ => hf a

theorem via_pure (a : α) : Via E A Q I (pure a : CM α) := via_same fun _ => ⟨rfl, fun _ h => h⟩
theorem via_fail (e : CErr) : Via E A Q I (CM.fail e : CM α) := via_same fun _ => ⟨rfl, fun _ h => h⟩
theorem via_get : Via E A Q I CM.get := via_same fun _ => ⟨rfl, fun _ h => h⟩
theorem via_blocked : Via E A Q I (CM.block : CM α) := via_same fun _ => ⟨rfl, fun _ h => h⟩
theorem via_panic : Via E A Q I (CM.crash : CM α) := via_same fun _ => ⟨rfl, fun _ h => h⟩
theorem via_query (f : PState → Res α) : Via E A Q I (query f) := via_same fun _ => ⟨rfl, fun _ h => h⟩
theorem via_print (t : Str) : Via E A Q I (print t) := via_same fun _ => ⟨rfl, fun _ h => h⟩
theorem via_println (t : Str) : Via E A Q I (println t) := via_print _

theorem via_ite {c : Prop} [Decidable c] {m m' : CM α} (h : Via E A Q I m) (h' : Via E A Q I m') :
    Via E A Q I (if c then m else m') := by
  by_cases hc : c
  · rw [if_pos hc]; exact h
  · rw [if_neg hc]; exact h'

theorem via_confirm (t : Str) : Via E A Q I (confirm t) := via_same fun s => by
  unfold confirm
  dsimp only
  cases s.confirms <;> exact ⟨rfl, fun _ h => h⟩

theorem via_prompt (t : Str) : Via E A Q I (promptSecretText t) := via_same fun s => by
  unfold promptSecretText
  cases h : s.secrets with
  | nil => cases s.garbled <;> simp
  | cons a l => exact ⟨rfl, fun x hx => List.mem_cons_of_mem _ hx⟩

theorem via_promptPassword (t : Str) (b : Bool) : Via E A Q I (promptPassword t b) := by
  exact via_bind via_get fun s => via_ite (via_bind (via_print t) fun _ => via_blocked) (via_bind (via_prompt t) fun _ => via_pure _)

theorem via_bindPrompt {t : Str} {f : Str → CM β} (h : ∀ line, Q line ∨ line = [] → Via E A Q I (f line)) :
    Via E A Q I (promptSecretText t >>= f) := by
  intro hI s hi hs
  rw [CM.bind_apply]
  cases hl : s.secrets with
  | nil =>
    rw [promptSecretText_nil hl]
    cases hg : s.garbled with
    | true => exact ⟨⟨[], by simp, rfl⟩, fun x hx => hl ▸ hx⟩
    | false =>
      have := h [] (Or.inr rfl) hI { s with out := s.out ++ t } hi hs
      rw [hl, hg] at this
      simp only [Bool.false_eq_true, if_false]
      rw [hl]
      exact this
  | cons a l =>
    rw [promptSecretText_cons hl]
    rw [hl] at hs
    obtain ⟨h1, h2⟩ := h a (Or.inl (hs a (by simp))) hI { s with out := s.out ++ t, secrets := l } hi
      fun x hx => hs x (List.mem_cons_of_mem _ hx)
    exact ⟨h1, fun x hx => List.mem_cons_of_mem _ (h2 x hx)⟩

theorem via_bindPassword {t : Str} {b : Bool} {f : Str → CM β} (h : ∀ line, Q line ∨ line = [] → Via E A Q I (f (trim line))) :
    Via E A Q I (promptPassword t b >>= f) := by
  intro hI s hi hs
  have := via_bindPrompt (t := t) h hI s hi hs
  rw [CM.bind_apply] at this ⊢
  cases hl : s.secrets with
  | nil =>
    cases b with
    | false =>
      rw [promptPassword_blocked hl]
      cases s.garbled <;> exact ⟨⟨[], by simp, rfl⟩, fun x hx => hl ▸ hx⟩
    | true =>
      rw [promptPassword_empty hl]
      rw [promptSecretText_nil hl] at this
      cases hg : s.garbled <;> rw [hg] at this <;> exact hl ▸ this
  | cons a l => rw [promptPassword_cons hl]; rw [promptSecretText_cons hl] at this; exact hl ▸ this

theorem via_call {m : M PState α} (op : Op) (hop : A op) (h : ∀ ps, (m ps).2 = (run E op ps).2) : Via E A Q I (call m) :=
  fun _ s _ _ => ⟨⟨[op], by simpa using hop, h s.ps⟩, fun _ h => h⟩

theorem via_unlockLoop (hA : ∀ line, Q line → 6 ≤ (utf8 (trim line)).length → A (.unlock (trim line))) : ∀ (l : List Str) (s : CState), (∀ x ∈ l, Q x) →
    (∃ ops : List Op, (∀ op ∈ ops, A op) ∧ (unlockLoop E l s).2.ps = (runAll E ops s.ps).2) ∧
      (l = s.secrets → ∀ x ∈ (unlockLoop E l s).2.secrets, x ∈ l)
  | l, s, hl => by
    cases hk : s.ps.key with
    | some k =>
      have : s.ps.key.isSome = true := by rw [hk]; rfl
      rw [unlockLoop_unlocked this]
      exact ⟨⟨[], by simp, rfl⟩, fun h x hx => h ▸ hx⟩
    | none =>
      match l with
      | [] => rw [unlockLoop_nil hk]; exact ⟨⟨[], by simp, rfl⟩, fun h x hx => h ▸ hx⟩
      | line :: rest =>
        rw [unlockLoop_cons hk]
        have hrest : ∀ x ∈ rest, Q x := fun x hx => hl x (List.mem_cons_of_mem _ hx)
        split <;> rename_i h6
        · obtain ⟨h1, h2⟩ := via_unlockLoop hA rest { s with
            secrets := rest, out := s.out ++ PRIMARY_PROMPT, errors := s.errors ++ [.error .primaryTooShort] } hrest
          exact ⟨h1, fun _ x hx => List.mem_cons_of_mem _ (h2 rfl x hx)⟩
        · cases hu : Passwords.unlock E (trim line) s.ps with
          | mk r ps =>
            have hrun : (run E (.unlock (trim line)) s.ps).2 = ps := by
              show (Passwords.unlock E (trim line) s.ps).2 = ps
              rw [hu]
            have key : ∀ t : CState, t.ps = ps → t.secrets = rest →
                (∃ ops : List Op, (∀ op ∈ ops, A op) ∧ (unlockLoop E rest t).2.ps = (runAll E ops s.ps).2) ∧
                  ∀ x ∈ (unlockLoop E rest t).2.secrets, x ∈ line :: rest := by
              intro t ht hsec
              obtain ⟨⟨ops, h1, h2⟩, h3⟩ := via_unlockLoop hA rest t hrest
              refine ⟨⟨.unlock (trim line) :: ops, ?_, ?_⟩, fun x hx => List.mem_cons_of_mem _ (h3 hsec.symm x hx)⟩
              · intro op hop
                rcases List.mem_cons.mp hop with h | h
                · subst h; exact hA line (hl line (by simp)) (Nat.le_of_not_lt h6)
                · exact h1 op h
              · rw [h2, ht, ← hrun]; rfl
            cases r with
            | panic =>
              refine ⟨⟨[.unlock (trim line)], ?_, ?_⟩, fun _ x hx => List.mem_cons_of_mem _ hx⟩
              · intro op hop
                rw [List.mem_singleton.mp hop]
                exact hA line (hl line (by simp)) (Nat.le_of_not_lt h6)
              · show ps = (runAll E [.unlock (trim line)] s.ps).2
                rw [← hrun]; rfl
            | ok u =>
              obtain ⟨h1, h2⟩ := key { s with ps, secrets := rest, out := s.out ++ PRIMARY_PROMPT } rfl rfl
              exact ⟨h1, fun _ => h2⟩
            | err e =>
              obtain ⟨h1, h2⟩ := key { s with
                ps, secrets := rest, out := s.out ++ PRIMARY_PROMPT, errors := s.errors ++ [.error (.lib e)] } rfl rfl
              exact ⟨h1, fun _ => h2⟩

theorem via_ensure (hA : ∀ line, Q line → 6 ≤ (utf8 (trim line)).length → A (.unlock (trim line))) : Via E A Q I (ensureUnlocked E) := by
  intro hI s hi hs
  cases h : Passwords.initialized s.ps with
  | false => rw [ensureUnlocked_not h]; exact ⟨⟨[], by simp, rfl⟩, fun _ h => h⟩
  | true =>
    rw [ensureUnlocked_eq h]
    obtain ⟨h1, h2⟩ := via_unlockLoop (E := E) hA s.secrets s hs
    exact ⟨h1, h2 rfl⟩

theorem recoveryLoop_same : ∀ (l : List (Option Str)) (acc : Bytes) (s : CState),
    (recoveryLoop E acc l s).2.ps = s.ps ∧ (recoveryLoop E acc l s).2.secrets = s.secrets
  | [], _, _ => ⟨rfl, rfl⟩
  | none :: rest, acc, s => by
    rw [recoveryLoop]
    exact recoveryLoop_same rest acc { s with answers := rest, out := s.out ++ RECOVERY_PROMPT }
  | some line :: rest, acc, s => by
    rw [recoveryLoop]
    dsimp only
    by_cases hl : line = []
    · rw [if_pos hl]; exact ⟨rfl, rfl⟩
    · rw [if_neg hl]
      cases s.ps.primaryPassword with
      | none => exact ⟨rfl, rfl⟩
      | some p =>
        simp only [okOr_some]
        cases hd : RecoveryCodes.decode E.prims E.overflowChecks (acc ++ utf8 line) p with
        | ok v => exact ⟨rfl, rfl⟩
        | panic => exact ⟨rfl, rfl⟩
        | err e =>
          cases e with
          | recoveryCodeExtraData n =>
            simp only
            cases firstLines (RecoveryCodes.formatCode (acc ++ utf8 line) true) n with
            | none => exact ⟨rfl, rfl⟩
            | some acc' =>
              simp only
              unfold confirm
              dsimp only
              cases s.confirms with
              | nil => exact ⟨rfl, rfl⟩
              | cons b l => cases b <;> exact ⟨rfl, rfl⟩
          | recoveryCodeChecksumMismatch n =>
            simp only
            cases firstLines (RecoveryCodes.formatCode (acc ++ utf8 line) true) n with
            | none => exact ⟨rfl, rfl⟩
            | some acc' => exact recoveryLoop_same rest acc' { s with
                answers := rest, out := s.out ++ RECOVERY_PROMPT, errors := s.errors ++ [.typo acc'] }
          | recoveryCodeIncomplete =>
            exact recoveryLoop_same rest (RecoveryCodes.formatCode (acc ++ utf8 line) true) { s with
              answers := rest, out := s.out ++ RECOVERY_PROMPT, errors := s.errors ++ [.incomplete] }
          | _ => exact ⟨rfl, rfl⟩

theorem via_recovery : Via E A Q I (promptRecoveryCode E) := by
  refine via_same fun s => ?_
  unfold promptRecoveryCode
  rw [CM.bind_apply]
  simp only [CM.get_apply]
  obtain ⟨h1, h2⟩ := recoveryLoop_same (E := E) s.answers [] s
  exact ⟨h1, fun l hl => h2 ▸ hl⟩

theorem via_mayOverwrite (d n r : Str) (y : Bool) : Via E A Q I (mayOverwrite E d n r y) := by
  unfold mayOverwrite
  split
  · exact via_pure _
  · refine via_bind via_get fun s => ?_
    cases (Passwords.has E s.ps d n r).unwrapOr false with
    | ok b => cases b <;> first | exact via_confirm _ | exact via_pure _
    | err e => exact via_panic
    | panic => exact via_panic

theorem via_printParameters (p : GeneratedPassword) : Via E A Q I (printParameters p) :=
  via_bind (via_println _) fun _ => via_println _

theorem via_printValue (site : Str) (p : Password) : Via E A Q I (printValue E site p) :=
  via_bind (via_print _) fun _ => via_bind (via_query _) fun _ => via_println _

theorem via_printRecovery (p : Password) (hA : ∀ p, A (.getRecoveryCode p)) : Via E A Q I (printRecovery E p) := by
  cases p with
  | stored p =>
    exact via_bind (via_println _) fun _ => via_bind (via_call (.getRecoveryCode _) (hA p) fun ps => by
      show _ = (run E (.getRecoveryCode p) ps).2
      rw [run]) fun _ => via_print _
  | generated p => exact via_pure _

theorem via_printDetails (p : Password) : Via E A Q I (printDetails p) := by
  unfold printDetails
  dsimp only
  have h : Via E A Q I (match p with
    | .generated p => printParameters p
    | .stored _ => pure ()) := by
    cases p with
    | generated p => exact via_printParameters p
    | stored p => exact via_pure _
  exact via_ite (via_bind (via_println _) fun _ => h) h

theorem via_printPasswords (site : Str) (a b c : Bool) (hA : b = true → ∀ p, A (.getRecoveryCode p)) :
    ∀ l, Via E A Q I (printPasswords E site a b c l)
  | [] => via_pure _
  | p :: rest => by
    rw [printPasswords]
    dsimp only
    have h0 := via_printPasswords site a b c hA rest
    have h1 := via_ite (c := c = true) (via_bind (via_printDetails (E := E) p) fun _ => h0) h0
    have h2 : Via E A Q I (if b = true then do printRecovery E p; (if c = true then do printDetails p; printPasswords E site a b c rest else printPasswords E site a b c rest) else (if c = true then do printDetails p; printPasswords E site a b c rest else printPasswords E site a b c rest)) := by
      cases b with
      | true => exact via_bind (via_printRecovery (E := E) p (hA rfl)) fun _ => h1
      | false => exact h1
    exact via_bind (via_println _) fun _ => via_ite (via_bind (via_printValue (E := E) site p) fun _ => h2) h2

theorem via_listLoop (name : Str) (a b c : Bool) (cands : List Site) (hA : b = true → ∀ p, A (.getRecoveryCode p)) :
    ∀ l, Via E A Q I (listLoop E name a b c cands l)
  | [] => via_pure _
  | site :: rest => by
    rw [listLoop]
    have h0 := via_listLoop name a b c cands hA rest
    have h1 : ∀ list, Via E A Q I (do
      printPasswords E site a b c (sortPasswords list)
      let (_, empty) ← listLoop E name a b c cands rest
      pure (true, empty)) := fun list =>
      via_bind (via_printPasswords _ _ _ _ hA _) fun _ => via_bind h0 fun _ => via_pure _
    exact via_bind (via_query _) fun list => via_ite (via_bind h0 fun _ => via_pure _)
      (via_bind (via_println _) fun _ => via_ite (via_bind (via_println _) fun _ => h1 _) (h1 _))

/-! ### The commands -/

theorem via_setPrimary (C : CEnv) (b : Bool) (hA : ∀ line, Q line → 6 ≤ (utf8 (trim line)).length → A (.reset (trim line))) :
    Via C.env A Q I (setPrimary C b) := by
  refine via_bindPassword fun line hl => ?_
  by_cases h6 : (utf8 (trim line)).length < 6
  · rw [if_pos h6]; exact via_fail _
  · rw [if_neg h6]
    refine via_bind (via_promptPassword _ _) fun p2 => via_ite (via_fail _) ?_
    refine via_bind (via_call (.reset (trim line)) ?_ fun ps => ?_) fun _ => via_println _
    · rcases hl with hl | hl
      · exact hA line hl (Nat.le_of_not_lt h6)
      · subst hl; exact absurd (by decide : (utf8 (trim [])).length < 6) h6
    · rfl

theorem via_add (d n r : Str) (len : UInt64) (cs : CharacterSet) (y : Bool)
    (hu : ∀ line, Q line → 6 ≤ (utf8 (trim line)).length → A (.unlock (trim line)))
    (hA : cs.isEmpty = false → A (.setGenerated d n r len cs)) : Via E A Q I (add E d n r len cs y) := by
  refine via_bind (via_ensure hu) fun _ => ?_
  cases hc : cs.isEmpty with
  | true => exact via_fail _
  | false =>
    exact via_bind (via_mayOverwrite _ _ _ _) fun _ => via_ite
      (via_bind (via_call (.setGenerated d n r len cs) (hA hc) fun _ => rfl) fun _ => via_println _) (via_pure _)

theorem via_addStored (b : Bool) (d n r : Str) (rec y : Bool)
    (hu : ∀ line, Q line → 6 ≤ (utf8 (trim line)).length → A (.unlock (trim line)))
    (hA : ∀ v, (rec = false → ∃ line, (Q line ∨ line = []) ∧ v = trim line) → A (.setStored d n r v)) :
    Via E A Q I (addStored E b d n r rec y) := by
  refine via_bind (via_ensure hu) fun _ => via_bind (via_mayOverwrite _ _ _ _) fun _ => via_ite ?_ (via_pure _)
  have h : ∀ v, (rec = false → ∃ line, (Q line ∨ line = []) ∧ v = trim line) → Via E A Q I (do
      call (Passwords.setStored E d n r v)
      println (c!"Password added.")) :=
    fun v hv => via_bind (via_call (.setStored d n r v) (hA v hv) fun _ => rfl) fun _ => via_println _
  cases rec with
  | true => exact via_bind via_recovery fun v => h v (by simp)
  | false => exact via_bindPassword fun line hl => h _ fun _ => ⟨line, hl, rfl⟩

theorem via_remove (d n r : Str) (hu : ∀ line, Q line → 6 ≤ (utf8 (trim line)).length → A (.unlock (trim line)))
    (hA : A (.remove d n r)) : Via E A Q I (remove E d n r) :=
  via_bind (via_ensure hu) fun _ => via_bind (via_call (.remove d n r) hA fun _ => rfl) fun _ => via_println _

theorem via_show (C : CEnv) (d n r : Str) (q : Bool)
    (hu : ∀ line, Q line → 6 ≤ (utf8 (trim line)).length → A (.unlock (trim line))) :
    Via C.env A Q I («show» C d n r q) := by
  refine via_bind (via_ensure hu) fun _ => via_bind (via_query _) fun p => via_bind (via_print _) fun _ => ?_
  refine via_ite ?_ (via_println _)
  cases C.qr p with
  | some c => exact via_print _
  | none => exact via_fail _

theorem via_notes (d n r : Str) (b : Bool) (hu : ∀ line, Q line → 6 ≤ (utf8 (trim line)).length → A (.unlock (trim line)))
    (hA : b = true → ∀ t, Q t ∨ t = [] → A (.setNotes d n r t)) : Via E A Q I (notes E d n r b) := by
  refine via_bind (via_ensure hu) fun _ => via_bind (via_query _) fun old => ?_
  have h : Via E A Q I (if b = true then do
      let notes ← promptSecretText (c!"Please enter new notes to be stored:")
      call (Passwords.setNotes E d n r notes)
      if notes = [] then println (c!"Notes removed.") else println (c!"Notes stored.")
    else pure ()) := by
    cases b with
    | false => exact via_pure _
    | true =>
      exact via_bindPrompt fun t ht => via_bind (via_call (.setNotes d n r t) (hA rfl t ht) fun _ => rfl) fun _ =>
        via_ite (via_println _) (via_println _)
  exact via_ite (via_bind (via_println _) fun _ => h) (via_bind (via_println _) fun _ => h)

theorem via_alias (d : Str) (t : Option Str) (b : Bool)
    (hu : ∀ line, Q line → 6 ≤ (utf8 (trim line)).length → A (.unlock (trim line)))
    (hA : ∀ t', t = some t' → A (.setAlias d t')) (hA' : t = none → b = true → A (.removeAlias d)) :
    Via E A Q I (Cli.alias E d t b) := by
  refine via_bind (via_ensure hu) fun _ => ?_
  cases t with
  | some t' => exact via_bind (via_call (.setAlias d t') (hA t' rfl) fun _ => rfl) fun _ => via_println _
  | none =>
    cases b with
    | true => exact via_bind (via_call (.removeAlias d) (hA' rfl rfl) fun _ => rfl) fun _ => via_println _
    | false => exact via_bind (via_query _) fun _ => via_println _

/-- The result of a sequence that ends well. -/
theorem CM.bind_ok_inv {m : CM α} {f : α → CM β} {s : CState} {b : β} (h : ((m >>= f) s).1 = .ok b) :
    ∃ a s', m s = (.ok a, s') ∧ (f a s').1 = .ok b := by
  rw [CM.bind_apply] at h
  cases hm : m s with
  | mk r s' =>
    rw [hm] at h
    cases r with
    | ok a => exact ⟨a, s', rfl, h⟩
    | err e => cases h
    | panic => cases h
    | blocked => cases h

theorem listLoop_noStar {name : Str} (hn : name ≠ c!"*") (a b c : Bool) (cands : List Site) :
    ∀ (l : List Str) (s : CState) (found : Bool) (empty : List Str),
      (listLoop E name a b c cands l s).1 = .ok (found, empty) → empty = []
  | [], s, found, empty, h => by
    rw [listLoop] at h
    cases h; rfl
  | site :: rest, s, found, empty, h => by
    rw [listLoop] at h
    obtain ⟨list, s', -, h⟩ := CM.bind_ok_inv h
    by_cases hl : list = []
    · rw [if_pos hl] at h
      obtain ⟨⟨f, e⟩, s'', h1, h⟩ := CM.bind_ok_inv h
      simp only [hn, if_false, CM.pure_apply] at h
      have := listLoop_noStar hn a b c cands rest s' f e (by rw [h1])
      cases h; exact this
    · rw [if_neg hl] at h
      obtain ⟨_, s1, -, h⟩ := CM.bind_ok_inv h
      have key : ∀ s2, ((do
          printPasswords E site a b c (sortPasswords list)
          let (_, empty) ← listLoop E name a b c cands rest
          pure (true, empty) : CM (Bool × List Str)) s2).1 = .ok (found, empty) → empty = [] := by
        intro s2 h
        obtain ⟨_, s3, -, h⟩ := CM.bind_ok_inv h
        obtain ⟨⟨f, e⟩, s4, h1, h⟩ := CM.bind_ok_inv h
        have := listLoop_noStar hn a b c cands rest s3 f e (by rw [h1])
        cases h; exact this
      dsimp only at h
      split at h
      · obtain ⟨_, s2, -, h⟩ := CM.bind_ok_inv h
        exact key _ h
      · exact key _ h

theorem listLoop_sub {name : Str} (a b c : Bool) (cands : List Site) :
    ∀ (l : List Str) (s : CState) (found : Bool) (empty : List Str),
      (listLoop E name a b c cands l s).1 = .ok (found, empty) → ∀ x ∈ empty, x ∈ l
  | [], s, found, empty, h => by
    rw [listLoop] at h
    cases h; simp
  | site :: rest, s, found, empty, h => by
    rw [listLoop] at h
    obtain ⟨list, s', -, h⟩ := CM.bind_ok_inv h
    by_cases hl : list = []
    · rw [if_pos hl] at h
      obtain ⟨⟨f, e⟩, s'', h1, h⟩ := CM.bind_ok_inv h
      have := listLoop_sub a b c cands rest s' f e (by rw [h1])
      cases h
      intro x hx
      split at hx
      · rcases List.mem_cons.mp hx with hx | hx
        · simp [hx]
        · exact List.mem_cons_of_mem _ (this x hx)
      · exact List.mem_cons_of_mem _ (this x hx)
    · rw [if_neg hl] at h
      obtain ⟨_, s1, -, h⟩ := CM.bind_ok_inv h
      have key : ∀ s2, ((do
          printPasswords E site a b c (sortPasswords list)
          let (_, empty) ← listLoop E name a b c cands rest
          pure (true, empty) : CM (Bool × List Str)) s2).1 = .ok (found, empty) → ∀ x ∈ empty, x ∈ rest := by
        intro s2 h
        obtain ⟨_, s3, -, h⟩ := CM.bind_ok_inv h
        obtain ⟨⟨f, e⟩, s4, h1, h⟩ := CM.bind_ok_inv h
        have := listLoop_sub a b c cands rest s3 f e (by rw [h1])
        cases h; exact this
      dsimp only at h
      intro x hx
      refine List.mem_cons_of_mem _ ?_
      split at h
      · obtain ⟨_, s2, -, h⟩ := CM.bind_ok_inv h
        exact key _ h x hx
      · exact key _ h x hx

theorem mem_dedupLoop {α : Type} {key : α → Str} {x : α} : ∀ (l : List α) (last : Str), x ∈ dedupLoop key last l → x ∈ l
  | [], _, h => by simp [dedupLoop] at h
  | a :: l, last, h => by
    rw [dedupLoop] at h
    split at h
    · exact List.mem_cons_of_mem _ (mem_dedupLoop l last h)
    · rcases List.mem_cons.mp h with h | h
      · simp [h]
      · exact List.mem_cons_of_mem _ (mem_dedupLoop l _ h)

theorem mem_dedupByKey {α : Type} {key : α → Str} {x : α} {l : List α} (h : x ∈ dedupByKey key l) : x ∈ l := by
  cases l with
  | nil => simp [dedupByKey] at h
  | cons a l =>
    rcases List.mem_cons.mp h with h | h
    · simp [h]
    · exact List.mem_cons_of_mem _ (mem_dedupLoop l _ h)

theorem mem_sortByKey {α : Type} {key : α → Str} {x : α} {l : List α} : x ∈ sortByKey key l ↔ x ∈ l :=
  List.mem_mergeSort

theorem mem_candidates {m : List Site} {x : Site} (h : x ∈ candidateSites m) :
    x ∈ m ∨ (x.alias = none ∧ ∃ y ∈ m, y.alias = some x.name) := by
  have h := mem_dedupByKey h
  rw [mem_sortByKey, List.mem_append] at h
  rcases h with h | h
  · exact Or.inl h
  · obtain ⟨y, hy, h⟩ := List.mem_filterMap.mp h
    cases ha : y.alias with
    | none => rw [ha] at h; cases h
    | some t => rw [ha] at h; cases h; exact Or.inr ⟨rfl, y, hy, ha⟩

theorem mem_listed {m : List Site} {x : Str} (h : x ∈ listedSites (candidateSites m)) :
    ∃ y ∈ m, (y.name = x ∧ y.alias = none) ∨ y.alias = some x := by
  obtain ⟨z, hz, rfl⟩ := List.mem_map.mp h
  obtain ⟨hz, hn⟩ := List.mem_filter.mp hz
  rcases mem_candidates hz with h | ⟨-, y, hy, h⟩
  · exact ⟨z, h, Or.inl ⟨rfl, by simpa using hn⟩⟩
  · exact ⟨y, hy, Or.inr h⟩

/-- A site name occurring in the listing of sites of a state satisfying `I`. -/
def Seen (E : Env) (I : PState → Prop) (x : Str) : Prop :=
  ∃ ps q m, I ps ∧ Passwords.listSites E ps q = .ok m ∧ ∃ y ∈ m, (y.name = x ∧ y.alias = none) ∨ y.alias = some x

theorem via_list (d n : Str) (a b c : Bool) (hu : ∀ line, Q line → 6 ≤ (utf8 (trim line)).length → A (.unlock (trim line)))
    (hA : b = true → ∀ p, A (.getRecoveryCode p))
    (hA' : ∀ l, n = c!"*" ∨ l = [] → (∀ x ∈ l, Seen E I x) → A (.removeSites l)) :
    Via E A Q I (Cli.list E d n a b c) := by
  refine via_bind (via_ensure hu) fun _ => via_bind' (via_query _) fun m hm => ?_
  refine via_bind' (via_listLoop _ _ _ _ _ hA _) fun r hr => ?_
  obtain ⟨found, empty⟩ := r
  obtain ⟨s, -, hs⟩ := hr
  refine via_bind (via_call (.removeSites empty) (hA' _ ?_ fun x hx => ?_) fun _ => rfl) fun _ => via_ite (via_pure _) (via_println _)
  · by_cases hn : n = c!"*"
    · exact Or.inl hn
    · exact Or.inr (listLoop_noStar hn _ _ _ _ _ s _ _ hs)
  · obtain ⟨s', hi, hq⟩ := hm
    refine ⟨s'.ps, d, m, hi, ?_, mem_listed (listLoop_sub _ _ _ _ _ s _ _ hs x hx)⟩
    have hq : convert (Passwords.listSites E s'.ps d) = .ok m := hq
    cases hr : Passwords.listSites E s'.ps d with
    | ok v => rw [hr] at hq; cases hq; rfl
    | err e => rw [hr] at hq; cases hq
    | panic => rw [hr] at hq; cases hq

theorem via_command (C : CEnv) (b : Bool) (c : Command) (lines : List Str) (hA : ∀ op, May lines c op → (∀ l, op = .removeSites l → ∀ x ∈ l, Seen C.env I x) → A op) :
    Via C.env A (· ∈ lines) I (processCommand C b c) := by
  have hu : ∀ c', c' = c → ∀ line ∈ lines, 6 ≤ (utf8 (trim line)).length → A (.unlock (trim line)) :=
    fun c' hc line hl h6 => hA _ (by subst hc; cases c' <;> exact ⟨line, hl, rfl, h6⟩) (by simp)
  cases c with
  | setPrimary y => exact via_setPrimary C b fun line hl h6 => hA _ ⟨line, hl, rfl, h6⟩ (by simp)
  | add d n r len l u dg sy y =>
    refine via_add d n r len _ y (hu _ rfl) fun h => hA _ ⟨rfl, rfl, rfl, rfl, ?_, ?_⟩ (by simp)
    · cases l <;> cases u <;> cases dg <;> cases sy <;> rfl
    · rintro ⟨rfl, rfl, rfl, rfl⟩
      cases h
  | addStored d n r rec y => exact via_addStored b d n r rec y (hu _ rfl) fun v hv => hA _ ⟨rfl, rfl, rfl, hv⟩ (by simp)
  | remove d n r => exact via_remove d n r (hu _ rfl) (hA _ ⟨rfl, rfl, rfl⟩ (by simp))
  | «show» d n r q => exact via_show C d n r q (hu _ rfl)
  | notes d n r st =>
    refine via_notes d n r st (hu _ rfl) fun hs t ht => hA _ ?_ (by simp)
    subst hs
    exact ⟨rfl, rfl, rfl, ht⟩
  | list d n a b' c =>
    refine via_list d n a b' c (hu _ rfl) (fun hb p => hA _ ?_ (by simp)) (fun l hl hx => hA _ hl fun l' h => by cases h; exact hx)
    subst hb; trivial
  | «alias» d t r =>
    refine via_alias d t r (hu _ rfl) (fun t' ht => hA _ ?_ (by simp)) (fun ht hr => hA _ ?_ (by simp))
    · subst ht; exact ⟨rfl, rfl⟩
    · subst ht; subst hr; exact rfl
  | shell => exact via_pure _

theorem shellLoop_command (C : CEnv) (b : Bool) (c : Command) (rest : List ShellEvent) (s : CState)
    (h1 : c ≠ .shell) (h2 : ∀ y, c ≠ .setPrimary y) : shellLoop C b (.command c :: rest) s =
      match processCommand C b c s with
      | (.ok _, s') => shellLoop C b rest s'
      | (.err e, s') => shellLoop C b rest { s' with errors := s'.errors ++ [.error e] }
      | (.panic, s') => (.panic, s')
      | (.blocked, s') => (.blocked, s') := by
  cases c with
  | setPrimary y => exact absurd rfl (h2 y)
  | shell => exact absurd rfl h1
  | _ => rfl

theorem shellLoop_lock (C : CEnv) (b : Bool) (rest : List ShellEvent) (s : CState) :
    shellLoop C b (.lock :: rest) s =
      shellLoop C b rest { s with ps := Passwords.lock s.ps, out := s.out ++ c!"Passwords locked.\n" } := rfl

theorem via_shell (C : CEnv) (b : Bool) (lines : List Str) (hlock : A .lock) : ∀ (events : List ShellEvent)
    (_ : ∀ c, .command c ∈ events → c ≠ .shell → (∀ y, c ≠ .setPrimary y) → ∀ op, May lines c op →
      (∀ l, op = .removeSites l → ∀ x ∈ l, Seen C.env I x) → A op),
    Via C.env A (· ∈ lines) I (shellLoop C b events)
  | [], _ => via_pure _
  | .noCommand :: rest, hA => fun hI s hi hs =>
    via_shell C b lines hlock rest (fun c hc => hA c (List.mem_cons_of_mem _ hc)) hI
      { s with errors := s.errors ++ [.notUnderstood] } hi hs
  | .exit :: _, _ => via_pure _
  | .lock :: rest, hA => fun hI s hi hs => by
    rw [shellLoop_lock]
    obtain ⟨⟨ops, h1, h2⟩, h3⟩ := via_shell C b lines hlock rest (fun c hc => hA c (List.mem_cons_of_mem _ hc))
      hI { s with ps := Passwords.lock s.ps, out := s.out ++ c!"Passwords locked.\n" }
      (hI .lock _ hlock hi) hs
    refine ⟨⟨.lock :: ops, ?_, h2⟩, h3⟩
    intro op hop
    rcases List.mem_cons.mp hop with h | h
    · exact h ▸ hlock
    · exact h1 op h
  | .command c :: rest, hA => by
    have ih := via_shell C b lines hlock rest fun c hc => hA c (List.mem_cons_of_mem _ hc)
    by_cases h1 : c = .shell
    · subst h1; exact fun hI s hi hs => ih hI { s with errors := s.errors ++ [.noShell] } hi hs
    by_cases h2 : ∃ y, c = .setPrimary y
    · obtain ⟨y, rfl⟩ := h2; exact fun hI s hi hs => ih hI { s with errors := s.errors ++ [.noSetPrimary] } hi hs
    have h2' : ∀ y, c ≠ .setPrimary y := fun y h => h2 ⟨y, h⟩
    intro hI s hi hs
    rw [shellLoop_command C b c rest s h1 h2']
    obtain ⟨⟨ops, g1, g2⟩, g3⟩ := via_command (A := A) C b c lines (hA c (by simp) h1 h2') hI s hi hs
    cases hp : processCommand C b c s with
    | mk r s' =>
      rw [hp] at g2 g3
      have key : ∀ errors, (∃ ops, (∀ op ∈ ops, A op) ∧
          (shellLoop C b rest { s' with errors }).2.ps = (runAll C.env ops s.ps).2) ∧
          ∀ l ∈ (shellLoop C b rest { s' with errors }).2.secrets, l ∈ s.secrets := by
        intro errors
        obtain ⟨⟨ops', k1, k2⟩, k3⟩ := ih hI { s' with errors } (g2 ▸ runAll_keeps hI ops s.ps g1 hi) fun l hl => hs l (g3 l hl)
        refine ⟨⟨ops ++ ops', ?_, ?_⟩, fun l hl => g3 l (k3 l hl)⟩
        · intro op hop
          rcases List.mem_append.mp hop with h | h
          · exact g1 op h
          · exact k1 op h
        · rw [runAll_append, ← g2]; exact k2
      cases r with
      | ok u => exact key s'.errors
      | err e => exact key _
      | panic => exact ⟨⟨ops, g1, g2⟩, g3⟩
      | blocked => exact ⟨⟨ops, g1, g2⟩, g3⟩

end Via

/-! ## Texts -/

theorem dropWhile_append_all {p : Char → Bool} : ∀ (l : Str), ∃ a, l = a ++ l.dropWhile p ∧ ∀ c ∈ a, p c = true
  | [] => ⟨[], rfl, by simp⟩
  | c :: l => by
    by_cases h : p c = true
    · obtain ⟨a, h1, h2⟩ := dropWhile_append_all (p := p) l
      refine ⟨c :: a, ?_, ?_⟩
      · rw [List.dropWhile_cons_of_pos h, List.cons_append, ← h1]
      · intro x hx
        rcases List.mem_cons.mp hx with hx | hx
        · exact hx ▸ h
        · exact h2 x hx
    · exact ⟨[], by rw [List.dropWhile_cons_of_neg h]; rfl, by simp⟩

theorem head_dropWhile {p : Char → Bool} {c : Char} : ∀ (l : Str), (l.dropWhile p).head? = some c → p c = false
  | [], h => by cases h
  | d :: l, h => by
    by_cases hd : p d = true
    · rw [List.dropWhile_cons_of_pos hd] at h; exact head_dropWhile l h
    · rw [List.dropWhile_cons_of_neg hd] at h
      cases h
      simpa using hd

/-- `trim` removes exactly the whitespace at both ends. -/
theorem trim_spec (s : Str) : (∃ a b, s = a ++ trim s ++ b ∧ (∀ c ∈ a, isWhitespace c = true) ∧
    ∀ c ∈ b, isWhitespace c = true) ∧ (∀ c, (trim s).head? = some c → isWhitespace c = false) ∧
    ∀ c, (trim s).getLast? = some c → isWhitespace c = false := by
  unfold trim
  obtain ⟨a, h1, h2⟩ := dropWhile_append_all (p := isWhitespace) s
  obtain ⟨b, h3, h4⟩ := dropWhile_append_all (p := isWhitespace) (s.dropWhile isWhitespace).reverse
  generalize hm : (s.dropWhile isWhitespace).reverse.dropWhile isWhitespace = m at *
  have h5 : s.dropWhile isWhitespace = m.reverse ++ b.reverse := by
    rw [← List.reverse_append, ← h3, List.reverse_reverse]
  refine ⟨⟨a, b.reverse, ?_, h2, fun c hc => h4 c (by simpa using hc)⟩, ?_, ?_⟩
  · rw [List.append_assoc, ← h5]; exact h1
  · intro c hc
    refine head_dropWhile s (c := c) ?_
    rw [h5, List.head?_append, hc]
    rfl
  · intro c hc
    rw [List.getLast?_reverse] at hc
    exact head_dropWhile _ (hm ▸ hc)

end Pfp.Cli
