import Verif.Proofs.Pairs
import Verif.Props.Locality
import Verif.Props.CliOrder

/-!
# C113: runs of the program on storage files with different entries
-/

namespace Pfp.Props
open Spec Cli Proofs.Locality Proofs.Pairs

/-- Two states of the program, the first one reached from `u` by operations `A`, that differ in the storage only. -/
structure Side (E : Env) (K : Str → Prop) (u : PState) (A : Op → Prop) (lines : List Str) (s t : CState) : Prop where
  near : NearP K s.ps t.ps
  files : Files K s.ps t.ps
  rest : t = { s with ps := t.ps }
  reached : ∃ ops, (∀ o ∈ ops, A o) ∧ s.ps = (runAll E ops u).2
  secrets : ∀ x ∈ s.secrets, x ∈ lines

/-- The same outcome, and the states differ in the storage only; or one of them has crashed. -/
def Same (E : Env) (K : Str → Prop) (u : PState) (A : Op → Prop) (lines : List Str) (crash : Prop) {α : Type} (x y : COut α × CState) :
    Prop := crash ∧ (x.1 = .panic ∨ y.1 = .panic) ∨ x.1 = y.1 ∧ Side E K u A lines x.2 y.2

variable {E : Env} {K : Str → Prop} {u : PState} {A : Op → Prop} {lines : List Str} {crash : Prop} {α β : Type}

theorem same_bind {m : CM α} {f : α → CM β} {s t : CState} (hm : Same E K u A lines crash (m s) (m t))
    (hf : ∀ a s' t', Side E K u A lines s' t' → Same E K u A lines crash (f a s') (f a t')) :
    Same E K u A lines crash ((m >>= f) s) ((m >>= f) t) := by
  rw [CM.bind_apply, CM.bind_apply]
  revert hm
  rcases m s with ⟨r, x⟩
  rcases m t with ⟨r', y⟩
  rintro (⟨hc, h⟩ | ⟨h1, h2⟩)
  · refine .inl ⟨hc, ?_⟩
    rcases h with h | h <;> dsimp only at h <;> subst h
    · exact .inl rfl
    · exact .inr rfl
  · dsimp only at h1 h2
    subst h1
    cases r with
    | ok a => exact hf a _ _ h2
    | err e => exact .inr ⟨rfl, h2⟩
    | panic => exact .inr ⟨rfl, h2⟩
    | blocked => exact .inr ⟨rfl, h2⟩

/-- Something that does not concern the storage. -/
theorem same_input {m : CM α} {s t : CState} (h : Side E K u A lines s t)
    (hm : ∀ (x : CState) ps, m { x with ps } = ((m x).1, { (m x).2 with ps })) (hps : (m s).2.ps = s.ps)
    (hl : ∀ x ∈ (m s).2.secrets, x ∈ s.secrets) : Same E K u A lines crash (m s) (m t) := by
  have ht : m t = ((m s).1, { (m s).2 with ps := t.ps }) := by
    have := hm s t.ps
    rwa [← h.rest] at this
  rw [ht]
  refine .inr ⟨rfl, ?_, ?_, rfl, ?_, fun x hx => h.secrets x (hl x hx)⟩
  · rw [hps]; exact h.near
  · rw [hps]; exact h.files
  · rw [hps]; exact h.reached

theorem same_print {s t : CState} (h : Side E K u A lines s t) (x : Str) : Same E K u A lines crash (print x s) (print x t) :=
  same_input h (fun _ _ => rfl) rfl fun _ h => h

theorem same_println {s t : CState} (h : Side E K u A lines s t) (x : Str) : Same E K u A lines crash (println x s) (println x t) :=
  same_print h _

theorem same_fail {s t : CState} (h : Side E K u A lines s t) (e : CErr) :
    Same E K u A lines crash ((CM.fail e : CM α) s) ((CM.fail e : CM α) t) := .inr ⟨rfl, h⟩

theorem same_pure {s t : CState} (h : Side E K u A lines s t) (a : α) :
    Same E K u A lines crash ((pure a : CM α) s) ((pure a : CM α) t) := .inr ⟨rfl, h⟩

theorem same_secretText {s t : CState} (h : Side E K u A lines s t) (x : Str) :
    Same E K u A lines crash (promptSecretText x s) (promptSecretText x t) := by
  refine same_input h (fun y ps => ?_) ?_ ?_
  · simp only [promptSecretText]
    cases y.secrets with
    | nil => cases y.garbled <;> rfl
    | cons => rfl
  · simp only [promptSecretText]
    cases s.secrets with
    | nil => cases s.garbled <;> rfl
    | cons => rfl
  · simp only [promptSecretText]
    cases hs : s.secrets with
    | nil => cases s.garbled <;> simp
    | cons a l => intro y hy; exact List.mem_cons_of_mem _ hy

theorem same_password {s t : CState} (h : Side E K u A lines s t) (x : Str) (b : Bool) :
    Same E K u A lines crash (promptPassword x b s) (promptPassword x b t) := by
  unfold promptPassword
  rw [CM.bind_apply, CM.bind_apply, CM.get_apply, CM.get_apply]
  dsimp only
  rw [show t.secrets = s.secrets by rw [h.rest], show t.garbled = s.garbled by rw [h.rest]]
  split
  · exact same_bind (same_print h _) fun _ _ _ h => .inr ⟨rfl, h⟩
  · exact same_bind (same_secretText h _) fun _ _ _ h => same_pure h _

theorem same_confirm {s t : CState} (h : Side E K u A lines s t) (x : Str) :
    Same E K u A lines crash (confirm x s) (confirm x t) := by
  refine same_input h (fun y ps => ?_) ?_ ?_
  · simp only [confirm]
    cases y.confirms <;> rfl
  · simp only [confirm]
    cases s.confirms <;> rfl
  · simp only [confirm]
    cases s.confirms <;> exact fun _ h => h

theorem recoveryLoop_side (E' : Env) : ∀ (l : List (Option Str)) (b : Bytes) (s t : CState), Side E K u A lines s t →
    Same E K u A lines crash (recoveryLoop E' b l s) (recoveryLoop E' b l t) := by
  intro l
  induction l with
  | nil =>
    intro b s t h
    exact same_input (m := recoveryLoop E' b []) h (fun _ _ => rfl) rfl fun _ h => h
  | cons x l ih =>
    intro b s t h
    have h' : Side E K u A lines { s with answers := l, out := s.out ++ RECOVERY_PROMPT }
        { t with answers := l, out := t.out ++ RECOVERY_PROMPT } :=
      ⟨h.near, h.files, by rw [h.rest], h.reached, h.secrets⟩
    cases x with
    | none => exact ih b _ _ h'
    | some line =>
      simp only [recoveryLoop]
      rw [← h.near.primaryPassword]
      by_cases hline : line = []
      · rw [if_pos hline, if_pos hline]; exact .inr ⟨rfl, h'⟩
      rw [if_neg hline, if_neg hline]
      cases okOr s.ps.primaryPassword Err.passwordsLocked with
      | err e => exact .inr ⟨rfl, h'⟩
      | panic => exact .inr ⟨rfl, h'⟩
      | ok p =>
        dsimp only
        cases RecoveryCodes.decode E'.prims E'.overflowChecks (b ++ utf8 line) p with
        | ok v => exact .inr ⟨rfl, h'⟩
        | panic => exact .inr ⟨rfl, h'⟩
        | err e =>
          cases e with
          | recoveryCodeExtraData n =>
            dsimp only
            cases firstLines (RecoveryCodes.formatCode (b ++ utf8 line) true) n with
            | none => exact .inr ⟨rfl, h'⟩
            | some acc =>
              dsimp only
              have hc := same_confirm (crash := False) h' (extraQuestion acc)
              revert hc
              rcases confirm (extraQuestion acc) { s with answers := l, out := s.out ++ RECOVERY_PROMPT } with ⟨r, x⟩
              rcases confirm (extraQuestion acc) { t with answers := l, out := t.out ++ RECOVERY_PROMPT } with ⟨r', y⟩
              rintro (⟨hc, -⟩ | ⟨h1, h2⟩)
              · exact hc.elim
              · dsimp only at h1 h2
                subst h1
                rcases r with (_ | _) | _ | _ | _ <;> exact .inr ⟨rfl, h2⟩
          | recoveryCodeChecksumMismatch n =>
            dsimp only
            cases firstLines (RecoveryCodes.formatCode (b ++ utf8 line) true) n with
            | none => exact .inr ⟨rfl, h'⟩
            | some acc => exact ih _ _ _ ⟨h.near, h.files, by rw [h.rest], h.reached, h.secrets⟩
          | recoveryCodeIncomplete => exact ih _ _ _ ⟨h.near, h.files, by rw [h.rest], h.reached, h.secrets⟩
          | _ => exact .inr ⟨rfl, h'⟩

theorem same_recoveryCode {s t : CState} (E' : Env) (h : Side E K u A lines s t) :
    Same E K u A lines crash (promptRecoveryCode E' s) (promptRecoveryCode E' t) := by
  unfold promptRecoveryCode
  rw [CM.bind_apply, CM.bind_apply, CM.get_apply, CM.get_apply]
  dsimp only
  rw [show t.answers = s.answers by rw [h.rest]]
  exact recoveryLoop_side E' _ _ _ _ h

theorem reached_run {s : PState} {op : Op} (ha : A op) (h : ∃ ops, (∀ o ∈ ops, A o) ∧ s = (runAll E ops u).2) :
    ∃ ops, (∀ o ∈ ops, A o) ∧ (run E op s).2 = (runAll E ops u).2 := by
  obtain ⟨ops, h1, rfl⟩ := h
  refine ⟨ops ++ [op], ?_, ?_⟩
  · intro o ho
    rcases List.mem_append.mp ho with ho | ho
    · exact h1 o ho
    · rw [List.mem_singleton.mp ho]; exact ha
  · rw [runAll_append]; rfl

/-- An operation that changes the state. -/
theorem side_run (hE : E.Lawful) {s t : CState} (h : Side E K u A lines s t) {op : Op} (ha : A op) (hr : ∀ p, op ≠ .reset p)
    (hre : op ≠ .reload) (hn : NearP K (run E op s.ps).2 (run E op t.ps).2) :
    Side E K u A lines { s with ps := (run E op s.ps).2 } { t with ps := (run E op t.ps).2 } :=
  ⟨hn, files_run hE h.files h.near op hn hr hre, by rw [h.rest], reached_run ha h.reached, h.secrets⟩

theorem same_call' (hE : E.Lawful) {s t : CState} (h : Side E K u A lines s t) {op : Op} {m : M PState α} {f : α → Out}
    (hf : ∀ a b, f a = f b → a = b) (hm : ∀ ps, run E op ps = ((m ps).1.map f, (m ps).2)) (ha : A op) (hr : ∀ p, op ≠ .reset p)
    (hre : op ≠ .reload) (hb : Both K (run E op s.ps) (run E op t.ps)) : Same E K u A lines crash (call m s) (call m t) := by
  have hs := side_run hE h ha hr hre hb.2
  have h1 : (run E op s.ps).1 = (run E op t.ps).1 := hb.1
  rw [hm, hm] at hs h1
  refine .inr ⟨?_, hs⟩
  show convert (m s.ps).1 = convert (m t.ps).1
  revert h1
  rcases (m s.ps).1 with x | x | _ <;> rcases (m t.ps).1 with y | y | _ <;> intro h1 <;> first | rfl | cases h1 | skip
  · rw [hf x y (Res.ok.inj h1)]
  · rfl

theorem same_call (hE : E.Lawful) {s t : CState} (h : Side E K u A lines s t) {op : Op} {m : M PState Unit}
    (hm : ∀ ps, run E op ps = ((m ps).1.map fun _ => Out.unit, (m ps).2)) (ha : A op) (hr : ∀ p, op ≠ .reset p)
    (hre : op ≠ .reload) (hb : Both K (run E op s.ps) (run E op t.ps)) : Same E K u A lines crash (call m s) (call m t) :=
  same_call' hE h (fun _ _ _ => rfl) hm ha hr hre hb

theorem same_query {s t : CState} (h : Side E K u A lines s t) {q : PState → Res α} (hq : q s.ps = q t.ps) :
    Same E K u A lines crash (query q s) (query q t) :=
  .inr ⟨by show convert (q s.ps) = convert (q t.ps); rw [hq], h⟩

theorem runAll_nil (s : PState) : (runAll E [] s).2 = s := rfl

theorem side_ensure (hE : E.Lawful) (h1 : K (c!"salt")) (h2 : K (c!"hmac-secret")) {s t : CState} (h : Side E K u A lines s t)
    (ha : ∀ line ∈ lines, A (.unlock (trim line))) : Same E K u A lines crash (ensureUnlocked E s) (ensureUnlocked E t) := by
  have hi := initialized_eq h.near h1 h2
  cases hs : Passwords.initialized s.ps with
  | false =>
    rw [ensureUnlocked_not hs, ensureUnlocked_not (hi ▸ hs)]
    exact .inr ⟨rfl, h⟩
  | true =>
    rw [ensureUnlocked_eq hs, ensureUnlocked_eq (hi ▸ hs), show t.secrets = s.secrets by rw [h.rest]]
    have hl := h.secrets
    revert hl
    generalize hx : s.secrets = l
    clear hx hs hi
    induction l generalizing s t with
    | nil =>
      intro _
      cases hk : s.ps.key with
      | some k =>
        rw [unlockLoop_unlocked (s := s) (by rw [hk]; rfl), unlockLoop_unlocked (s := t) (by rw [← h.near.key, hk]; rfl)]
        exact .inr ⟨rfl, h⟩
      | none =>
        rw [unlockLoop_nil hk, unlockLoop_nil (h.near.key ▸ hk)]
        refine .inr ⟨?_, h.near, h.files, by rw [h.rest], h.reached, h.secrets⟩
        rw [h.rest]
    | cons line l ih =>
      intro hl
      cases hk : s.ps.key with
      | some k =>
        rw [unlockLoop_unlocked (s := s) (by rw [hk]; rfl), unlockLoop_unlocked (s := t) (by rw [← h.near.key, hk]; rfl)]
        exact .inr ⟨rfl, h⟩
      | none =>
        have hl' : ∀ x ∈ l, x ∈ lines := fun x hx => hl x (List.mem_cons_of_mem _ hx)
        rw [unlockLoop_cons hk, unlockLoop_cons (h.near.key ▸ hk)]
        split
        · exact ih ⟨h.near, h.files, by rw [h.rest], h.reached, hl'⟩ hl'
        · have hb := unlock_both (E := E) h.near h1 h2 (trim line)
          have hop : A (.unlock (trim line)) := ha _ (hl _ List.mem_cons_self)
          have hs := side_run hE h hop (by simp) (by simp) hb.2
          revert hb hs
          simp only [run]
          rcases Passwords.unlock E (trim line) s.ps with ⟨r, x⟩
          rcases Passwords.unlock E (trim line) t.ps with ⟨r', y⟩
          rintro ⟨g1, -⟩ hs
          dsimp only at g1 hs
          subst g1
          cases r with
          | ok z => exact ih ⟨hs.near, hs.files, by rw [h.rest], hs.reached, hl'⟩ hl'
          | err e => exact ih ⟨hs.near, hs.files, by rw [h.rest], hs.reached, hl'⟩ hl'
          | panic => exact .inr ⟨rfl, hs.near, hs.files, by rw [h.rest], hs.reached, hl'⟩

/-- The entries which a command looks at are among `K`, whatever has been done before. -/
def Enough (E : Env) (K : Str → Prop) (u : PState) (A : Op → Prop) (c : Command) : Prop :=
  ∀ ops, (∀ o ∈ ops, A o) → ∀ op, Uses c op → ∀ k, Needs E (runAll E ops u).2 op k → K k

theorem enough {s t : CState} (h : Side E K u A lines s t) {c : Command} (hk : Enough E K u A c) {op : Op} (hu : Uses c op) :
    ∀ k, Needs E s.ps op k → K k := by
  obtain ⟨ops, h1, h2⟩ := h.reached
  rw [h2]
  exact hk ops h1 op hu

theorem same_mayOverwrite {s t : CState} (h : Side E K u A lines s t) {a n r : Str} {b : Bool}
    (hk : ∀ k, Needs E s.ps (.has a n r) k → K k) :
    Same E K u A lines crash (mayOverwrite E a n r b s) (mayOverwrite E a n r b t) := by
  unfold mayOverwrite
  cases b with
  | true => exact same_pure h _
  | false =>
    simp only [Bool.false_eq_true, if_false]
    rw [CM.bind_apply, CM.bind_apply, CM.get_apply, CM.get_apply]
    dsimp only
    rw [← has_both h.near hk]
    rcases (Passwords.has E s.ps a n r).unwrapOr false with (_ | _) | _ | _
    · exact same_pure h _
    · exact same_confirm h _
    · exact .inr ⟨rfl, h⟩
    · exact .inr ⟨rfl, h⟩

/-- A listing, up to order. -/
theorem list_perm {q q' : Res (List Password)} (h : Spec.SameUpToOrder (q.map Out.passwords) (q'.map Out.passwords)) :
    (∃ l l', q = .ok l ∧ q' = .ok l' ∧ l.Perm l') ∨ q = q' := by
  cases q <;> cases q' <;> simp only [Res.map, Spec.SameUpToOrder] at h
  all_goals first | exact .inl ⟨_, _, rfl, rfl, h⟩ | (cases h; exact .inr rfl) | cases h

theorem sites_perm {q q' : Res (List Site)} (h : Spec.SameUpToOrder (q.map Out.sites) (q'.map Out.sites)) :
    (∃ l l', q = .ok l ∧ q' = .ok l' ∧ l.Perm l') ∨ q = q' := by
  cases q <;> cases q' <;> simp only [Res.map, Spec.SameUpToOrder] at h
  all_goals first | exact .inl ⟨_, _, rfl, rfl, h⟩ | (cases h; exact .inr rfl) | cases h

theorem same_details {s t : CState} (h : Side E K u A lines s t) (p : Password) :
    Same E K u A lines crash (printDetails p s) (printDetails p t) := by
  unfold printDetails
  have cont : ∀ (_ : Unit) (s t : CState), Side E K u A lines s t → Same E K u A lines crash
      ((match p with | .generated p => printParameters p | .stored _ => pure ()) s)
      ((match p with | .generated p => printParameters p | .stored _ => pure ()) t) := by
    intro _ s t h
    cases p with
    | generated p => exact same_bind (same_println h _) fun _ s t h => same_println h _
    | stored p => exact same_pure h ()
  by_cases hn : p.notes ≠ []
  · rw [if_pos hn]; exact same_bind (same_println h _) cont
  · rw [if_neg hn]; exact cont () _ _ h

theorem same_printPasswords (hE : E.Lawful) (site d n : Str) (a b c : Bool) (hA : ∀ op, Uses (.list d n a b c) op → A op)
    (hK : Enough E K u A (.list d n a b c)) : ∀ (l : List Password) {s t : CState}, Side E K u A lines s t →
    Same E K u A lines crash (printPasswords E site a b c l s) (printPasswords E site a b c l t) := by
  intro l
  induction l with
  | nil => exact fun h => same_pure h ()
  | cons p l ih =>
    intro s t h
    refine same_bind (same_println h _) fun _ s t h => ?_
    have details : ∀ (_ : Unit) (s t : CState), Side E K u A lines s t → Same E K u A lines crash
        ((if c = true then printDetails p >>= fun _ => printPasswords E site a b c l else printPasswords E site a b c l) s)
        ((if c = true then printDetails p >>= fun _ => printPasswords E site a b c l else printPasswords E site a b c l) t) := by
      intro _ s t h
      cases c with
      | true => exact same_bind (same_details h p) fun _ s t h => ih h
      | false => exact ih h
    have recovery : ∀ (_ : Unit) (s t : CState), Side E K u A lines s t → Same E K u A lines crash
        ((if b = true then printRecovery E p >>= fun _ => if c = true then printDetails p >>= fun _ => printPasswords E site a b c l
          else printPasswords E site a b c l else if c = true then printDetails p >>= fun _ => printPasswords E site a b c l
          else printPasswords E site a b c l) s)
        ((if b = true then printRecovery E p >>= fun _ => if c = true then printDetails p >>= fun _ => printPasswords E site a b c l
          else printPasswords E site a b c l else if c = true then printDetails p >>= fun _ => printPasswords E site a b c l
          else printPasswords E site a b c l) t) := by
      intro _ s t h
      cases b with
      | false => exact details () s t h
      | true =>
        rw [if_pos rfl]
        refine same_bind ?_ details
        cases p with
        | generated p => exact same_pure h ()
        | stored p =>
          refine same_bind (same_println h _) fun _ s t h => ?_
          have hu : Uses (.list d n a true c) (.getRecoveryCode p) := .inr (.inr (.inr (.inl ⟨rfl, p, rfl⟩)))
          exact same_bind (same_call' (op := .getRecoveryCode p) (f := .code) hE h (fun a b h => Out.code.inj h) (fun _ => rfl) (hA _ hu) (by simp) (by simp)
            (run_both h.near _ (enough h hK hu) (by simp) (by simp) (by simp) (by simp))) fun _ s t h => same_print h _
    cases a with
    | false => exact recovery () s t h
    | true =>
      rw [if_pos rfl]
      refine same_bind ?_ recovery
      refine same_bind (same_print h _) fun _ s t h => ?_
      exact same_bind (same_query h (get_both h.near (enough h hK (.inr (.inr (.inl ⟨rfl, _, _, _, rfl⟩)))))) fun _ s t h =>
        same_println h _

theorem same_listLoop (hE : E.Lawful) (d n : Str) (a b c : Bool) (cands : List Site) (hA : ∀ op, Uses (.list d n a b c) op → A op)
    (hK : Enough E K u A (.list d n a b c)) (hT : ∀ ops, (∀ o ∈ ops, A o) → Untied E (runAll E ops u).2 (.list d n a b c)) :
    ∀ (l : List Str) {s t : CState}, Side E K u A lines s t →
    Same E K u A lines crash (listLoop E n a b c cands l s) (listLoop E n a b c cands l t) := by
  intro l
  induction l with
  | nil => exact fun h => same_pure h _
  | cons y l ih =>
    intro s t h
    have hp := list_perm (list_both hE h.near h.files.left h.files.right y n (enough h hK (.inr (.inl ⟨y, rfl⟩))))
    have cont : ∀ l₀ l₁ : List Password, sortPasswords l₀ = sortPasswords l₁ → (l₀ = [] ↔ l₁ = []) → Same E K u A lines crash
        ((if l₀ = [] then listLoop E n a b c cands l >>= fun x => pure (x.1, if n = c!"*" then y :: x.2 else x.2)
          else println (c!"Passwords for " ++ y ++ c!":") >>= fun _ =>
            if c = true ∧ aliasesOf cands y ≠ [] then
              println (c!"    Aliases: " ++ join (c!",\n             ") (aliasesOf cands y)) >>= fun _ =>
                printPasswords E y a b c (sortPasswords l₀) >>= fun _ => listLoop E n a b c cands l >>= fun x => pure (true, x.2)
            else printPasswords E y a b c (sortPasswords l₀) >>= fun _ => listLoop E n a b c cands l >>= fun x => pure (true, x.2)) s)
        ((if l₁ = [] then listLoop E n a b c cands l >>= fun x => pure (x.1, if n = c!"*" then y :: x.2 else x.2)
          else println (c!"Passwords for " ++ y ++ c!":") >>= fun _ =>
            if c = true ∧ aliasesOf cands y ≠ [] then
              println (c!"    Aliases: " ++ join (c!",\n             ") (aliasesOf cands y)) >>= fun _ =>
                printPasswords E y a b c (sortPasswords l₁) >>= fun _ => listLoop E n a b c cands l >>= fun x => pure (true, x.2)
            else printPasswords E y a b c (sortPasswords l₁) >>= fun _ => listLoop E n a b c cands l >>= fun x => pure (true, x.2)) t) := by
      intro l₀ l₁ hs he
      by_cases h0 : l₀ = []
      · rw [if_pos h0, if_pos (he.mp h0)]
        exact same_bind (ih h) fun x s t h => same_pure h _
      rw [if_neg h0, if_neg (fun h1 => h0 (he.mpr h1)), hs]
      refine same_bind (same_println h _) fun _ s t h => ?_
      have rest : ∀ (_ : Unit) (s t : CState), Side E K u A lines s t → Same E K u A lines crash
          ((printPasswords E y a b c (sortPasswords l₁) >>= fun _ => listLoop E n a b c cands l >>= fun x => pure (true, x.2)) s)
          ((printPasswords E y a b c (sortPasswords l₁) >>= fun _ => listLoop E n a b c cands l >>= fun x => pure (true, x.2)) t) :=
        fun _ s t h => same_bind (same_printPasswords hE y d n a b c hA hK _ h) fun _ s t h =>
          same_bind (ih h) fun x s t h => same_pure h _
      by_cases hc : c = true ∧ aliasesOf cands y ≠ []
      · rw [if_pos hc]; exact same_bind (same_println h _) rest
      · rw [if_neg hc]; exact rest () _ _ h
    have hloop : ∀ s : CState, listLoop E n a b c cands (y :: l) s = match Passwords.list E s.ps y n with
        | .ok l₀ => (if l₀ = [] then listLoop E n a b c cands l >>= fun x => pure (x.1, if n = c!"*" then y :: x.2 else x.2)
          else println (c!"Passwords for " ++ y ++ c!":") >>= fun _ =>
            if c = true ∧ aliasesOf cands y ≠ [] then
              println (c!"    Aliases: " ++ join (c!",\n             ") (aliasesOf cands y)) >>= fun _ =>
                printPasswords E y a b c (sortPasswords l₀) >>= fun _ => listLoop E n a b c cands l >>= fun x => pure (true, x.2)
            else printPasswords E y a b c (sortPasswords l₀) >>= fun _ => listLoop E n a b c cands l >>= fun x => pure (true, x.2)) s
        | .err e => (.err (.lib e), s)
        | .panic => (.panic, s) := by
      intro s
      show (query _ >>= _) s = _
      rw [CM.bind_apply]
      simp only [query]
      cases Passwords.list E s.ps y n <;> rfl
    rw [hloop, hloop]
    obtain ⟨ops, g1, g2⟩ := h.reached
    rcases hp with ⟨l₀, l₁, h0, h1, hp⟩ | hp
    · rw [h0, h1]
      have ht := (hT ops g1).2 y l₀ (by rw [← g2]; simp only [ask, run, h0]; rfl)
      exact cont l₀ l₁ (sortPasswords_perm_eq hp.symm ht).symm ⟨fun h => by subst h; exact hp.nil_eq.symm, fun h => by subst h; exact hp.eq_nil⟩
    · rw [← hp]
      cases Passwords.list E s.ps y n with
      | ok l₀ => exact cont l₀ l₀ rfl Iff.rfl
      | err e => exact .inr ⟨rfl, h⟩
      | panic => exact .inr ⟨rfl, h⟩

theorem same_list (hE : E.Lawful) (d n : Str) (a b c : Bool) (hA : ∀ op, Uses (.list d n a b c) op → A op)
    (hK : Enough E K u A (.list d n a b c)) (hT : ∀ ops, (∀ o ∈ ops, A o) → Untied E (runAll E ops u).2 (.list d n a b c))
    {s t : CState} (he : Same E K u A lines crash (ensureUnlocked E s) (ensureUnlocked E t)) :
    Same E K u A lines crash (Cli.list E d n a b c s) (Cli.list E d n a b c t) := by
  refine same_bind he fun _ s t h => ?_
  have hp := sites_perm (listSites_both hE h.near h.files.left h.files.right d (enough h hK (.inl rfl)))
  have cont : ∀ m m' : List Site, candidateSites m = candidateSites m' → Same E K u A lines crash
      ((listLoop E n a b c (candidateSites m) (listedSites (candidateSites m)) >>= fun x =>
        call (Passwords.removeSites E x.2) >>= fun _ => if x.1 = true then pure () else println (c!"No matching passwords found.")) s)
      ((listLoop E n a b c (candidateSites m') (listedSites (candidateSites m')) >>= fun x =>
        call (Passwords.removeSites E x.2) >>= fun _ => if x.1 = true then pure () else println (c!"No matching passwords found.")) t) := by
    intro m m' hm
    rw [hm]
    refine same_bind (same_listLoop hE d n a b c _ hA hK hT _ h) fun x s t h => ?_
    have hu : Uses (.list d n a b c) (.removeSites x.2) := .inr (.inr (.inr (.inr ⟨x.2, rfl⟩)))
    refine same_bind (same_call hE h (fun _ => rfl) (hA _ hu) (by simp) (by simp)
      (run_both h.near _ (enough h hK hu) (by simp) (by simp) (by simp) (by simp))) fun _ s t h => ?_
    cases x.1 with
    | true => exact same_pure h ()
    | false => exact same_println h _
  show Same _ _ _ _ _ _ ((query _ >>= _) s) ((query _ >>= _) t)
  rw [CM.bind_apply, CM.bind_apply]
  simp only [query]
  obtain ⟨ops, g1, g2⟩ := h.reached
  rcases hp with ⟨m, m', h0, h1, hp⟩ | hp
  · rw [h0, h1]
    exact cont m m' (candidateSites_perm ((hT ops g1).1 m (by rw [← g2]; simp only [ask, run, h0]; rfl)) hp.symm).symm
  · rw [← hp]
    cases Passwords.listSites E s.ps d with
    | ok m => exact cont m m rfl
    | err e => exact .inr ⟨rfl, h⟩
    | panic => exact .inr ⟨rfl, h⟩

theorem command_side (C : CEnv) (hE : C.env.Lawful) (b : Bool) (c : Command) (h1 : K (c!"salt")) (h2 : K (c!"hmac-secret")) {s t : CState}
    (h : Side C.env K u A lines s t) (hl : ∀ line ∈ lines, A (.unlock (trim line))) (hA : ∀ op, Uses c op → A op)
    (hK : Enough C.env K u A c) (hT : ∀ ops, (∀ o ∈ ops, A o) → Untied C.env (runAll C.env ops u).2 c) (hset : ∀ y, c ≠ .setPrimary y)
    (hcrash : ∀ a d r, c = .alias a (some d) r → crash) :
    Same C.env K u A lines crash (processCommand C b c s) (processCommand C b c t) := by
  have he := side_ensure (crash := crash) hE h1 h2 h hl
  cases c with
  | setPrimary y => exact absurd rfl (hset y)
  | list a n x y z => exact same_list hE a n x y z hA hK hT he
  | shell => exact same_pure h ()
  | add a n r len lower upper digit symbol yes =>
    refine same_bind (m := ensureUnlocked C.env) he fun _ s t h => ?_
    by_cases hcs : (charsetOf lower upper digit symbol).isEmpty = true
    · rw [if_pos hcs]; exact same_fail h _
    rw [if_neg hcs]
    refine same_bind (same_mayOverwrite h (enough h hK (.inl rfl))) fun allow s t h => ?_
    cases allow with
    | false => exact same_pure h ()
    | true =>
      have hcs' : charsetOf lower upper digit symbol = ⟨!lower, !upper, !digit, !symbol⟩ := by
        cases lower <;> cases upper <;> cases digit <;> cases symbol <;> rfl
      rw [hcs']
      have hu : Uses (.add a n r len lower upper digit symbol yes) (.setGenerated a n r len ⟨!lower, !upper, !digit, !symbol⟩) := .inr rfl
      exact same_bind (same_call hE h (fun _ => rfl) (hA _ hu) (by simp) (by simp)
        (run_both h.near _ (enough h hK hu) (by simp) (by simp) (by simp) (by simp))) fun _ s t h => same_println h _
  | addStored a n r recovery yes =>
    refine same_bind (m := ensureUnlocked C.env) he fun _ s t h => ?_
    refine same_bind (same_mayOverwrite h (enough h hK (.inl rfl))) fun allow s t h => ?_
    cases allow with
    | false => exact same_pure h ()
    | true =>
      have cont : ∀ (v : Str) (s t : CState), Side C.env K u A lines s t → Same C.env K u A lines crash
          ((call (Passwords.setStored C.env a n r v) >>= fun _ => println (c!"Password added.")) s)
          ((call (Passwords.setStored C.env a n r v) >>= fun _ => println (c!"Password added.")) t) := by
        intro v s t h
        have hu : Uses (.addStored a n r recovery yes) (.setStored a n r v) := .inr ⟨v, rfl⟩
        exact same_bind (same_call hE h (fun _ => rfl) (hA _ hu) (by simp) (by simp)
          (run_both h.near _ (enough h hK hu) (by simp) (by simp) (by simp) (by simp))) fun _ s t h => same_println h _
      rw [if_pos rfl]
      cases recovery with
      | true => exact same_bind (same_recoveryCode C.env h) cont
      | false => exact same_bind (same_password h _ _) cont
  | remove a n r =>
    refine same_bind (m := ensureUnlocked C.env) he fun _ s t h => ?_
    have hu : Uses (.remove a n r) (.remove a n r) := rfl
    exact same_bind (same_call hE h (fun _ => rfl) (hA _ hu) (by simp) (by simp)
      (run_both h.near _ (enough h hK hu) (by simp) (by simp) (by simp) (by simp))) fun _ s t h => same_println h _
  | «show» a n r qr =>
    refine same_bind (m := ensureUnlocked C.env) he fun _ s t h => ?_
    refine same_bind (same_query h (get_both h.near (enough h hK rfl))) fun v s t h => ?_
    refine same_bind (same_print h _) fun _ s t h => ?_
    cases qr with
    | false => exact same_println h _
    | true =>
      simp only [if_true]
      cases C.qr v with
      | none => exact same_fail h _
      | some q => exact same_print h _
  | notes a n r set =>
    refine same_bind (m := ensureUnlocked C.env) he fun _ s t h => ?_
    refine same_bind (same_query h (getNotes_both h.near (enough h hK (.inl rfl)))) fun v s t h => ?_
    by_cases hv : v = []
    all_goals
      first | rw [if_pos hv] | rw [if_neg hv]
      refine same_bind (same_println h _) fun _ s t h => ?_
      cases set with
      | false => exact same_pure h ()
      | true =>
        rw [if_pos rfl]
        refine same_bind (same_secretText h _) fun text s t h => ?_
        have hu : Uses (.notes a n r true) (.setNotes a n r text) := .inr ⟨rfl, text, rfl⟩
        refine same_bind (same_call hE h (fun _ => rfl) (hA _ hu) (by simp) (by simp)
          (run_both h.near _ (enough h hK hu) (by simp) (by simp) (by simp) (by simp))) fun _ s t h => ?_
        split <;> exact same_println h _
  | «alias» a target rm =>
    refine same_bind (m := ensureUnlocked C.env) he fun _ s t h => ?_
    cases target with
    | some d =>
      have hu : Uses (.alias a (some d) rm) (.setAlias a d) := rfl
      refine same_bind ?_ fun _ s t h => same_println h _
      by_cases hp : ask C.env s.ps (.setAlias a d) = .panic
      · refine .inl ⟨hcrash a d rm rfl, .inl ?_⟩
        show convert (Passwords.setAlias C.env a d s.ps).1 = .panic
        simp only [ask, run] at hp
        revert hp
        rcases (Passwords.setAlias C.env a d s.ps).1 with x | x | _ <;> intro hp <;> first | rfl | cases hp
      · by_cases hq : ask C.env t.ps (.setAlias a d) = .panic
        · refine .inl ⟨hcrash a d rm rfl, .inr ?_⟩
          show convert (Passwords.setAlias C.env a d t.ps).1 = .panic
          simp only [ask, run] at hq
          revert hq
          rcases (Passwords.setAlias C.env a d t.ps).1 with x | x | _ <;> intro hq <;> first | rfl | cases hq
        · exact same_call hE h (fun _ => rfl) (hA _ hu) (by simp) (by simp)
            (setAlias_both hE h.near a d (enough h hK hu) hp hq)
    | none =>
      cases rm with
      | true =>
        have hu : Uses (.alias a none true) (.removeAlias a) := rfl
        exact same_bind (same_call hE h (fun _ => rfl) (hA _ hu) (by simp) (by simp)
          (run_both h.near _ (enough h hK hu) (by simp) (by simp) (by simp) (by simp))) fun _ s t h => same_println h _
      | false =>
        exact same_bind (same_query h (getAlias_both h.near (enough h hK rfl))) fun v s t h => same_println h _

theorem shell_side (C : CEnv) (hE : C.env.Lawful) (b : Bool) (h1 : K (c!"salt")) (h2 : K (c!"hmac-secret"))
    (hl : ∀ line ∈ lines, A (.unlock (trim line))) (hlock : A .lock) : ∀ (events : List ShellEvent)
    (_ : ∀ c ∈ commandsOf .shell events, (∀ op, Uses c op → A op) ∧ Enough C.env K u A c ∧
      (∀ ops, (∀ o ∈ ops, A o) → Untied C.env (runAll C.env ops u).2 c) ∧
      (∀ y, c ≠ .setPrimary y) ∧ ∀ a d r, c = .alias a (some d) r → crash) (s t : CState), Side C.env K u A lines s t →
    Same C.env K u A lines crash (shellLoop C b events s) (shellLoop C b events t) := by
  intro events
  induction events with
  | nil => exact fun _ s t h => .inr ⟨rfl, h⟩
  | cons e rest ih =>
    intro hc s t h
    have hrest : ∀ c ∈ commandsOf .shell rest, c ∈ commandsOf .shell (e :: rest) := by
      intro c hc
      obtain ⟨x, hx, hx'⟩ := List.mem_filterMap.mp hc
      exact List.mem_filterMap.mpr ⟨x, List.mem_cons_of_mem _ hx, hx'⟩
    have ih := ih fun c hm => hc c (hrest c hm)
    cases e with
    | noCommand => exact ih _ _ ⟨h.near, h.files, by rw [h.rest], h.reached, h.secrets⟩
    | exit => exact .inr ⟨rfl, h⟩
    | lock =>
      have hs := side_run hE h hlock (by simp) (by simp) (run_both h.near .lock (by intro k hk; exact hk.elim) (by simp) (by simp) (by simp) (by simp)).2
      exact ih _ _ ⟨hs.near, hs.files, by rw [h.rest], hs.reached, hs.secrets⟩
    | command c =>
      by_cases hs : c = .shell
      · subst hs; exact ih _ _ ⟨h.near, h.files, by rw [h.rest], h.reached, h.secrets⟩
      by_cases hp : ∃ y, c = .setPrimary y
      · obtain ⟨y, rfl⟩ := hp
        exact ih _ _ ⟨h.near, h.files, by rw [h.rest], h.reached, h.secrets⟩
      have hp' : ∀ y, c ≠ .setPrimary y := fun y hy => hp ⟨y, hy⟩
      obtain ⟨g1, g2, g3, g4, g5⟩ := hc c (mem_commandsOf_shell List.mem_cons_self hs hp')
      have hb := command_side C hE b c h1 h2 h hl g1 g2 g3 g4 g5
      have hloop : ∀ s : CState, shellLoop C b (.command c :: rest) s = match processCommand C b c s with
          | (.ok _, s') => shellLoop C b rest s'
          | (.err e, s') => shellLoop C b rest { s' with errors := s'.errors ++ [.error e] }
          | (.panic, s') => (.panic, s')
          | (.blocked, s') => (.blocked, s') := by
        intro s
        cases c with
        | shell => exact absurd rfl hs
        | setPrimary y => exact absurd rfl (hp' y)
        | _ => rfl
      rw [hloop, hloop]
      revert hb
      rcases processCommand C b c s with ⟨r, x⟩
      rcases processCommand C b c t with ⟨r', y⟩
      rintro (⟨hc, hx⟩ | ⟨g1, g2⟩)
      · refine .inl ⟨hc, ?_⟩
        rcases hx with hx | hx <;> dsimp only at hx <;> subst hx
        · exact .inl rfl
        · exact .inr rfl
      · dsimp only at g1 g2
        subst g1
        cases r with
        | ok z => exact ih _ _ g2
        | err e => exact ih _ _ ⟨g2.near, g2.files, by rw [g2.rest], g2.reached, g2.secrets⟩
        | panic => exact .inr ⟨rfl, g2⟩
        | blocked => exact .inr ⟨rfl, g2⟩

/-- **C113.** A run of the program with any commands other than `set-primary`, in a shell or not, on two storage files, whoever wrote them,
that agree on the salt, the encrypted secret and every entry which one of the commands looks at after some of what the run may do: it
ends in the same way, writes the same to standard output and standard error, and the files left agree on every entry on which they
agreed before (if both can be read).  If an alias is set, then one of the runs may crash instead (C56); what is listed must not be put
in order by equal texts (C51). -/
theorem C113_run (C : CEnv) (hE : C.env.Lawful) (argv : List Str) (prompted : List Prompted) (m : Machine) (files : Str → Option Bytes)
    (args : Args) (hp : parseArgs argv = some args) (hset : ∀ y, args.command ≠ .setPrimary y)
    (hh : args.command = .shell → args.history.getD m.defaultHistory ≠ args.storage.getD m.defaultPath) (before before' : Data)
    (hb : FileIO.load (m.files (args.storage.getD m.defaultPath)) = .ok before)
    (hb' : FileIO.load (files (args.storage.getD m.defaultPath)) = .ok before')
    (hlist : ∀ ops, (∀ o ∈ ops, Steps m.state.secrets (commandsOf args.command (prompted.filterMap Prompted.event)) o) →
      ∀ c ∈ commandsOf args.command (prompted.filterMap Prompted.event),
      Untied C.env (runAll C.env ops (startedWith m (args.storage.getD m.defaultPath) before)).2 c)
    (hsalt : before.get? (c!"salt") = before'.get? (c!"salt"))
    (hsecret : before.get? (c!"hmac-secret") = before'.get? (c!"hmac-secret"))
    (hk : ∀ ops, (∀ o ∈ ops, Steps m.state.secrets (commandsOf args.command (prompted.filterMap Prompted.event)) o) →
      ∀ c ∈ commandsOf args.command (prompted.filterMap Prompted.event), ∀ op, Uses c op → ∀ k,
      Needs C.env (runAll C.env ops (startedWith m (args.storage.getD m.defaultPath) before)).2 op k → before.get? k = before'.get? k) :
    SetsAlias (commandsOf args.command (prompted.filterMap Prompted.event)) ∧
      ((Cli.main C argv prompted m).1 = .panic ∨ (Cli.main C argv prompted { m with files }).1 = .panic) ∨
    (Cli.main C argv prompted m).1 = (Cli.main C argv prompted { m with files }).1 ∧
    (Cli.main C argv prompted m).2.state.out = (Cli.main C argv prompted { m with files }).2.state.out ∧
    (Cli.main C argv prompted m).2.state.errors = (Cli.main C argv prompted { m with files }).2.state.errors ∧
    ∀ after after', FileIO.load ((Cli.main C argv prompted m).2.files (args.storage.getD m.defaultPath)) = .ok after →
      FileIO.load ((Cli.main C argv prompted { m with files }).2.files (args.storage.getD m.defaultPath)) = .ok after' →
      ∀ k, before.get? k = before'.get? k → after.get? k = after'.get? k := by
  let path := args.storage.getD m.defaultPath
  let events := prompted.filterMap Prompted.event
  let C' : CEnv := { C with storagePath := path }
  let s : CState := { m.state with ps := startedWith m path before }
  let t : CState := { m.state with ps := startedWith { m with files } path before' }
  let K : Str → Prop := fun k => before.get? k = before'.get? k
  let A := Steps m.state.secrets (commandsOf args.command events)
  have hs : Side C'.env K (startedWith m path before) A m.state.secrets s t :=
    ⟨⟨⟨rfl, rfl, fun _ h => h⟩, rfl, rfl, rfl⟩, ⟨load_nodup hb, load_nodup hb', fun d d' h h' k hk => by
      rw [show s.ps.world.disk = m.files path from rfl, hb] at h
      rw [show t.ps.world.disk = files path from rfl, hb'] at h'
      cases h; cases h'; exact hk⟩, rfl, ⟨[], by simp, rfl⟩, fun _ h => h⟩
  have hl : ∀ line ∈ m.state.secrets, A (.unlock (trim line)) := fun line h => .inr (.inl ⟨line, h, rfl⟩)
  have hcs : ∀ c ∈ commandsOf args.command events, (∀ op, Uses c op → A op) ∧ Enough C'.env K (startedWith m path before) A c ∧
      (∀ ops, (∀ o ∈ ops, A o) → Untied C'.env (runAll C'.env ops (startedWith m path before)).2 c) ∧ ∀ a d r, c = .alias a (some d) r → SetsAlias (commandsOf args.command events) :=
    fun c hc => ⟨fun op hop => .inr (.inr ⟨c, hc, hop⟩), fun ops h op hop => hk ops h c hc op hop,
      fun ops h => hlist ops h c hc, fun a d r h => ⟨a, d, r, h ▸ hc⟩⟩
  have hb2 : Same C'.env K (startedWith m path before) A m.state.secrets (SetsAlias (commandsOf args.command events))
      (process C' args.stdinPasswords events args.command s) (process C' args.stdinPasswords events args.command t) := by
    by_cases hc : args.command = .shell
    · rw [hc]
      refine same_bind (same_println hs _) fun _ s t h => ?_
      refine shell_side C' hE args.stdinPasswords hsalt hsecret hl (.inl rfl) events (fun c hm => ?_) s t h
      obtain ⟨g1, g2, g3, g4⟩ := hcs c (by rw [hc]; exact hm)
      refine ⟨g1, g2, g3, ?_, fun a d r h => by have := g4 a d r h; rwa [hc] at this⟩
      rintro y rfl
      obtain ⟨x, -, hx⟩ := List.mem_filterMap.mp hm
      rcases x with _ | _ | _ | c
      · cases hx
      · cases hx
      · cases hx
      · cases c <;> simp at hx
    · have hpr : process C' args.stdinPasswords events args.command = processCommand C' args.stdinPasswords args.command := by
        cases hcc : args.command with
        | shell => exact absurd hcc hc
        | _ => rfl
      rw [hpr]
      have hm : args.command ∈ commandsOf args.command events := by
        cases hcc : args.command with
        | shell => exact absurd hcc hc
        | _ => exact List.mem_singleton.mpr rfl
      obtain ⟨g1, g2, g3, g4⟩ := hcs _ hm
      exact command_side C' hE args.stdinPasswords args.command hsalt hsecret hs hl g1 g2 g3 hset g4
  have hf := main_file C argv prompted m args hp hh
  have hf' := main_file C argv prompted { m with files } args hp hh
  have hi : ∀ (m' : Machine) (d : Data), FileIO.load (m'.files path) = .ok d →
      mainInner C' args.stdinPasswords events args.command { m'.state with ps := { m'.state.ps with
          world := { m'.state.ps.world with disk := m'.files path } } } =
      process C' args.stdinPasswords events args.command { m'.state with ps := startedWith m' path d } := by
    intro m' d hd
    rw [mainInner_eq _ _ _ _ _ hset]
    simp only [hd]
    rfl
  have hm : ∀ (m' : Machine) (d : Data), FileIO.load (m'.files path) = .ok d → m'.defaultPath = m.defaultPath →
      Cli.main C argv prompted m' = mainEnd C args prompted m'
        (process C' args.stdinPasswords events args.command { m'.state with ps := startedWith m' path d }).1
        (process C' args.stdinPasswords events args.command { m'.state with ps := startedWith m' path d }).2 := by
    intro m' d hd hdef
    rw [← hi m' d hd]
    simp only [Cli.main, hp, hdef]
    rfl
  rw [hi m before hb] at hf
  rw [hi { m with files } before' hb'] at hf'
  rw [hf, hf', hm m before hb rfl, hm { m with files } before' hb' rfl]
  clear hf hf' hm hi
  change Same _ _ _ _ _ _ (process C' args.stdinPasswords events args.command s) (process C' args.stdinPasswords events args.command t) at hb2
  revert hb2
  show _ → _ ∧ ((mainEnd C args prompted m (process C' args.stdinPasswords events args.command s).1
    (process C' args.stdinPasswords events args.command s).2).1 = _ ∨ (mainEnd C args prompted { m with files }
    (process C' args.stdinPasswords events args.command t).1 (process C' args.stdinPasswords events args.command t).2).1 = _) ∨
    (mainEnd C args prompted m (process C' args.stdinPasswords events args.command s).1
    (process C' args.stdinPasswords events args.command s).2).1 = (mainEnd C args prompted { m with files }
    (process C' args.stdinPasswords events args.command t).1 (process C' args.stdinPasswords events args.command t).2).1 ∧
    (mainEnd C args prompted m (process C' args.stdinPasswords events args.command s).1
    (process C' args.stdinPasswords events args.command s).2).2.state.out = (mainEnd C args prompted { m with files }
    (process C' args.stdinPasswords events args.command t).1 (process C' args.stdinPasswords events args.command t).2).2.state.out ∧
    (mainEnd C args prompted m (process C' args.stdinPasswords events args.command s).1
    (process C' args.stdinPasswords events args.command s).2).2.state.errors = (mainEnd C args prompted { m with files }
    (process C' args.stdinPasswords events args.command t).1 (process C' args.stdinPasswords events args.command t).2).2.state.errors ∧
    ∀ after after', FileIO.load (process C' args.stdinPasswords events args.command s).2.ps.world.disk = .ok after →
      FileIO.load (process C' args.stdinPasswords events args.command t).2.ps.world.disk = .ok after' → ∀ k, K k → _
  rcases process C' args.stdinPasswords events args.command s with ⟨r, s'⟩
  rcases process C' args.stdinPasswords events args.command t with ⟨r', t'⟩
  rintro (⟨hc, h⟩ | ⟨h1, h2⟩)
  · refine .inl ⟨hc, ?_⟩
    rcases h with h | h <;> dsimp only at h <;> subst h
    · exact .inl rfl
    · exact .inr rfl
  · dsimp only at h1 h2
    subst h1
    refine .inr ⟨?_, ?_, ?_, h2.files.files⟩
    · by_cases hsh : args.command = .shell <;> cases r <;> simp [mainEnd, hsh]
    · rw [h2.rest]
      by_cases hsh : args.command = .shell <;> cases r <;> simp [mainEnd, hsh, Machine.write]
    · rw [h2.rest]
      by_cases hsh : args.command = .shell <;> cases r <;> simp [mainEnd, hsh, Machine.write]

theorem needs_site {c : Command} {op : Op} (hu : Uses c op) {E : Env} {u : PState} {k : Str} (h : Needs E u op k) :
    k = c!"salt" ∨ ∃ rest, k = c!"site:" ++ rest := by
  have hs : ∀ (x : Bytes) (site : Str), ∃ rest, siteName E.prims x site = c!"site:" ++ rest := fun _ _ => ⟨_, rfl⟩
  have hp : ∀ (x : Bytes) (site n r : Str), ∃ rest, passwordName E.prims x site n r = c!"site:" ++ rest := by
    intro x site n r
    exact ⟨_, by simp only [passwordName, siteName, List.append_assoc]; rfl⟩
  have two : ∀ {a n r : Str}, (∃ h, u.hmacSecret = some h ∧
      (k = siteName E.prims h (canonical a) ∨ k = passwordName E.prims h (siteMeant E u a) n r)) → ∃ rest, k = c!"site:" ++ rest := by
    rintro a n r ⟨x, -, rfl | rfl⟩
    · exact hs _ _
    · exact hp _ _ _ _
  have one : ∀ {a : Str}, (∃ h, u.hmacSecret = some h ∧
      (k = siteName E.prims h (canonical a) ∨ k = siteName E.prims h (siteMeant E u a))) → ∃ rest, k = c!"site:" ++ rest := by
    rintro a ⟨x, -, rfl | rfl⟩ <;> exact hs _ _
  cases c with
  | add a n r len l1 l2 l3 l4 y =>
    rcases hu with rfl | rfl
    · exact .inr (two h)
    · exact .inr (one h)
  | addStored a n r x y =>
    rcases hu with rfl | ⟨v, rfl⟩
    · exact .inr (two h)
    · exact .inr (one h)
  | remove a n r => cases hu; exact .inr (two h)
  | «show» a n r q => cases hu; exact .inr (two h)
  | notes a n r set =>
    rcases hu with rfl | ⟨-, v, rfl⟩
    · exact .inr (two h)
    · exact .inr (two h)
  | «alias» a target rm =>
    cases target with
    | some b =>
      cases hu
      obtain ⟨x, -, rfl | ⟨rest, rfl⟩⟩ := h
      · exact .inr (hs _ _)
      · exact .inr ⟨_, by simp only [siteName, List.append_assoc]; rfl⟩
    | none =>
      cases rm <;> cases hu <;> obtain ⟨x, -, rfl⟩ := h <;> exact .inr (hs _ _)
  | list d n a b c =>
    rcases hu with rfl | ⟨y, rfl⟩ | ⟨-, y, n', r, rfl⟩ | ⟨-, p, rfl⟩ | ⟨l, rfl⟩
    · obtain ⟨rest, rfl, -⟩ := h; exact .inr ⟨rest, rfl⟩
    · obtain ⟨x, -, rfl | ⟨rest, rfl⟩⟩ := h
      · exact .inr (hs _ _)
      · exact .inr ⟨_, by simp only [siteName, List.append_assoc]; rfl⟩
    · exact .inr (two h)
    · exact .inl h
    · obtain ⟨x, -, site, -, rfl⟩ := h; exact .inr (hs _ _)
  | _ => exact hu.elim

/-- **C113** (other entries).  In particular, entries other than the salt, the encrypted secret and those whose names begin with `site:`
make no difference to such runs, whatever is entered. -/
theorem C113_others (C : CEnv) (hE : C.env.Lawful) (argv : List Str) (prompted : List Prompted) (m : Machine) (files : Str → Option Bytes)
    (args : Args) (hp : parseArgs argv = some args) (hset : ∀ y, args.command ≠ .setPrimary y)
    (hh : args.command = .shell → args.history.getD m.defaultHistory ≠ args.storage.getD m.defaultPath) (before before' : Data)
    (hb : FileIO.load (m.files (args.storage.getD m.defaultPath)) = .ok before)
    (hb' : FileIO.load (files (args.storage.getD m.defaultPath)) = .ok before')
    (hlist : ∀ ops, (∀ o ∈ ops, Steps m.state.secrets (commandsOf args.command (prompted.filterMap Prompted.event)) o) →
      ∀ c ∈ commandsOf args.command (prompted.filterMap Prompted.event),
      Untied C.env (runAll C.env ops (startedWith m (args.storage.getD m.defaultPath) before)).2 c)
    (hk : ∀ k, k = c!"salt" ∨ k = c!"hmac-secret" ∨ (∃ rest, k = c!"site:" ++ rest) → before.get? k = before'.get? k) :
    SetsAlias (commandsOf args.command (prompted.filterMap Prompted.event)) ∧
      ((Cli.main C argv prompted m).1 = .panic ∨ (Cli.main C argv prompted { m with files }).1 = .panic) ∨
    (Cli.main C argv prompted m).1 = (Cli.main C argv prompted { m with files }).1 ∧
    (Cli.main C argv prompted m).2.state.out = (Cli.main C argv prompted { m with files }).2.state.out ∧
    (Cli.main C argv prompted m).2.state.errors = (Cli.main C argv prompted { m with files }).2.state.errors ∧
    ∀ after after', FileIO.load ((Cli.main C argv prompted m).2.files (args.storage.getD m.defaultPath)) = .ok after →
      FileIO.load ((Cli.main C argv prompted { m with files }).2.files (args.storage.getD m.defaultPath)) = .ok after' →
      ∀ k, before.get? k = before'.get? k → after.get? k = after'.get? k :=
  C113_run C hE argv prompted m files args hp hset hh before before' hb hb' hlist (hk _ (.inl rfl)) (hk _ (.inr (.inl rfl)))
    fun _ _ _ _ _ hu k hn => hk k ((needs_site hu hn).imp id .inr)

/-! ## Examples -/

/-- The hypotheses of `C113_run` and `C113_others` are met by a file into which somebody has put something, and a shell in which a password
is removed and entered again. -/
example : let argv := [c!"shell"]; let prompted := [Prompted.line (c!"remove a u"), .line (c!"add-stored a u")]
    ∃ args before before', parseArgs argv = some args ∧ (∀ y, args.command ≠ .setPrimary y) ∧
    commandsOf args.command (prompted.filterMap Prompted.event) = [.remove (c!"a") (c!"u") (c!"1"), .addStored (c!"a") (c!"u") (c!"1") false false] ∧
    FileIO.load ((touchedMachine [c!"secret1", c!"new"]).files (args.storage.getD (touchedMachine [c!"secret1", c!"new"]).defaultPath)) = .ok before ∧
    args.history.getD (touchedMachine [c!"secret1", c!"new"]).defaultHistory ≠
      args.storage.getD (touchedMachine [c!"secret1", c!"new"]).defaultPath ∧
    (∃ file, FileIO.load (some file) = .ok before') ∧ before ≠ before' ∧
    (∀ k, k = c!"salt" ∨ k = c!"hmac-secret" ∨ (∃ rest, k = c!"site:" ++ rest) → before.get? k = before'.get? k) ∧
    (Cli.main Toy.cenv argv prompted (touchedMachine [c!"secret1", c!"new"])).1 = .success := by
  intro argv prompted
  cases hl : FileIO.load Toy.one.world.disk with
  | ok before =>
    have hj : before.get? (c!"junk") = none := by
      have h : (match FileIO.load Toy.one.world.disk with | .ok d => d.get? (c!"junk") | _ => none) = none := by decide +kernel
      rw [hl] at h
      exact h
    obtain ⟨h1, -, -, h4⟩ := junk_added before hl hj
    refine ⟨⟨none, false, false, .shell, none⟩, before, _, by decide +kernel, by simp, by decide +kernel, hl, by decide +kernel, ⟨_, h1⟩, ?_, ?_,
      by decide +kernel⟩
    · intro h
      have := congrArg List.length h
      simp at this
    · rintro k (rfl | rfl | ⟨rest, rfl⟩) <;> exact h4 _ (by simp)
  | _ =>
    have h : (match FileIO.load Toy.one.world.disk with | .ok _ => true | _ => false) = true := by decide +kernel
    rw [hl] at h
    cases h

/-- Operations of a run that only lists passwords do not add entries. -/
theorem listing_shrinks {lines : List Str} {d n : Str} {a b c : Bool} : ∀ (ops : List Op) (s : PState),
    (∀ o ∈ ops, Steps lines [.list d n a b c] o) → (runAll E ops s).2.world.data.Sublist s.world.data := by
  intro ops
  induction ops with
  | nil => exact fun s _ => List.Sublist.refl _
  | cons op ops ih =>
    intro s h
    refine (ih _ fun o ho => h o (List.mem_cons_of_mem _ ho)).trans ?_
    have unl : ∀ p, (Passwords.unlock E p s).2.world.data = s.world.data := by
      intro p
      by_cases h' : (Passwords.unlock E p s).1 = .ok ()
      · rw [(Cli.unlock_ok h').1]
      · rw [Cli.unlock_locked h']
    rcases h op List.mem_cons_self with rfl | ⟨line, -, rfl⟩ | ⟨c', hc', hu⟩
    · exact List.Sublist.refl _
    · show (Passwords.unlock E _ s).2.world.data.Sublist _
      rw [unl]
    · cases List.mem_singleton.mp hc'
      rcases hu with rfl | ⟨y, rfl⟩ | ⟨-, y, n', r, rfl⟩ | ⟨-, p, rfl⟩ | ⟨l, rfl⟩
      · exact List.Sublist.refl _
      · exact List.Sublist.refl _
      · exact List.Sublist.refl _
      · show (Passwords.getRecoveryCode E p s).2.world.data.Sublist _
        unfold Passwords.getRecoveryCode
        simp only [M.bind_apply, M.get_apply, M.lift_apply]
        cases Storage.getSalt s.world with
        | err e => exact List.Sublist.refl _
        | panic => exact List.Sublist.refl _
        | ok salt =>
          dsimp only
          cases okOr s.key Err.passwordsLocked with
          | err e => exact List.Sublist.refl _
          | panic => exact List.Sublist.refl _
          | ok key => exact List.Sublist.refl _
      · show (Passwords.removeSites E l s).2.world.data.Sublist _
        have loop : ∀ (x : Bytes) (l : List Str) (w : World), (Passwords.removeSitesLoop E x l w).2.data.Sublist w.data := by
          intro x l
          induction l with
          | nil => exact fun w => List.Sublist.refl _
          | cons site l ihl =>
            intro w
            rw [Passwords.removeSitesLoop, M.bind_apply]
            have h1 : (Storage.removeSite E site x w).2.data.Sublist w.data := by
              simp only [Storage.removeSite, Storage.remove, FileIO.remove]
              split
              · exact List.filter_sublist
              · exact List.Sublist.refl _
            revert h1
            rcases Storage.removeSite E site x w with ⟨r, w'⟩
            intro h1
            cases r with
            | ok _ => exact (ihl w').trans h1
            | err e => exact h1
            | panic => exact h1
        unfold Passwords.removeSites
        split
        · exact List.Sublist.refl _
        · simp only [M.bind_apply, M.get_apply, M.lift_apply]
          cases okOr s.hmacSecret Err.passwordsLocked with
          | err e => exact List.Sublist.refl _
          | panic => exact List.Sublist.refl _
          | ok x =>
            dsimp only [Passwords.onWorld]
            have h1 := loop x l s.world
            revert h1
            rcases Passwords.removeSitesLoop E x l s.world with ⟨r, w'⟩
            intro h1
            cases r with
            | ok _ =>
              dsimp only
              rw [Proofs.Touched.flush_data]
              exact h1
            | err e => exact h1
            | panic => exact h1

theorem collect_length (w : World) (f : Json → Option α) (sel : Str → Bool) (key : Bytes) : ∀ (l : List Str) (r : List α),
    Storage.collect E w f sel key l = .ok r → r.length ≤ (l.filter sel).length
  | [], r, h => by cases h; exact Nat.le_refl _
  | x :: l, r, h => by
    rw [Storage.collect] at h
    by_cases hx : sel x = true
    · rw [if_pos hx] at h
      rw [List.filter_cons_of_pos hx]
      revert h
      cases (Storage.get E w f x key).toOption? with
      | err e => intro h; cases h
      | panic => intro h; cases h
      | ok v =>
        cases ht : Storage.collect E w f sel key l with
        | err e => intro h; cases h
        | panic => intro h; cases h
        | ok t =>
          intro h
          have h : v.toList ++ t = r := Res.ok.inj h
          have := collect_length w f sel key l t ht
          rw [← h]
          cases v <;> simp <;> omega
    · rw [if_neg hx] at h
      rw [List.filter_cons_of_neg hx]
      exact collect_length w f sel key l r h

/-- Names of entries of passwords. -/
def namesPassword (k : Str) : Bool := (c!"site:").isPrefixOf k && (k.drop 5).contains ':'

/-- With one password of one site, whatever a run that lists passwords may have done, there is nothing to put in order. -/
theorem untied_one (hE : E.Lawful) {s u : PState} (h : s.world.data.Sublist u.world.data) {d n : Str} {a b c : Bool}
    (h1 : (u.world.data.filter fun e => Storage.isSiteKey e.1).length ≤ 1)
    (h2 : (u.world.data.filter fun e => namesPassword e.1).length ≤ 1) : Untied E s (.list d n a b c) := by
  have count : ∀ {α : Type} (f : Json → Option α) (sel sel' : Str → Bool) (key : Bytes) (r : List α), (∀ k, sel k = true → sel' k = true) →
      (u.world.data.filter fun e => sel' e.1).length ≤ 1 → Storage.collect E s.world f sel key (FileIO.keys E s.world) = .ok r →
      r.length ≤ 1 := by
    intro α f sel sel' key r hs hu hr
    have g1 := collect_length _ _ _ _ _ _ hr
    have hp : (FileIO.keys E s.world).Perm (s.world.data.map (·.1)) := (hE.order _ _).map _
    have g2 : ((FileIO.keys E s.world).filter sel).length = ((s.world.data.map (·.1)).filter sel).length := (hp.filter _).length_eq
    have g3 : ((s.world.data.map (·.1)).filter sel).length = (s.world.data.filter fun e => sel e.1).length := by
      rw [List.filter_map, List.length_map]; rfl
    have g4 : (s.world.data.filter fun e => sel e.1).length ≤ (s.world.data.filter fun e => sel' e.1).length := by
      rw [← List.countP_eq_length_filter, ← List.countP_eq_length_filter]
      exact List.countP_mono_left fun e _ he => hs _ he
    have g5 := (h.filter fun e => sel' e.1).length_le
    omega
  constructor
  · intro l hl
    simp only [ask, run] at hl
    unfold Passwords.listSites at hl
    revert hl
    cases Passwords.orPanic s.key with
    | err e => intro hl; cases hl
    | panic => intro hl; cases hl
    | ok key =>
      rw [Res.bind_ok]
      cases hs : Storage.listSites E s.world key with
      | err e => intro hl; cases hl
      | panic => intro hl; cases hl
      | ok all =>
        intro hl
        have hall := count _ _ _ _ _ (fun _ h => h) h1 hs
        injection hl with hl
        injection hl with hl
        have : l.length ≤ 1 := by rw [← hl]; exact (List.length_filter_le _ _).trans hall
        match l, this with
        | [], _ => exact List.nodup_nil
        | [x], _ => simp
  · intro y l hl x hx z hz _
    simp only [ask, run] at hl
    unfold Passwords.list at hl
    revert hl
    cases Passwords.orPanic s.key with
    | err e => intro hl; cases hl
    | panic => intro hl; cases hl
    | ok key =>
      rw [Res.bind_ok]
      cases Passwords.orPanic s.hmacSecret with
      | err e => intro hl; cases hl
      | panic => intro hl; cases hl
      | ok secret =>
        rw [Res.bind_ok]
        cases Storage.resolveSite E s.world y secret key with
        | err e => intro hl; cases hl
        | panic => intro hl; cases hl
        | ok site =>
          rw [Res.bind_ok]
          cases hs : Storage.listPasswords E s.world site secret key with
          | err e => intro hl; cases hl
          | panic => intro hl; cases hl
          | ok all =>
            intro hl
            have hall := count _ _ namesPassword _ _ (fun k hk => ?_) h2 hs
            · injection hl with hl
              injection hl with hl
              have : l.length ≤ 1 := by rw [← hl]; exact (List.length_filter_le _ _).trans hall
              match l, this with
              | [], _ => cases hx
              | [w], _ => rw [List.mem_singleton.mp hx, List.mem_singleton.mp hz]
            · obtain ⟨rest, rfl⟩ := List.isPrefixOf_iff_prefix.mp hk
              simp [namesPassword, Storage.sitePrefix, Storage.siteKey, Storage.STORAGE_PREFIX]

/-- The hypotheses of `C113_others` are met by a run that lists everything. -/
example : let argv := [c!"list"]
    ∃ args before, parseArgs argv = some args ∧ commandsOf args.command [] = [.list (c!"*") (c!"*") false false false] ∧
    FileIO.load ((touchedMachine [c!"secret1"]).files (args.storage.getD (touchedMachine [c!"secret1"]).defaultPath)) = .ok before ∧
    (∀ ops, (∀ o ∈ ops, Steps (touchedMachine [c!"secret1"]).state.secrets (commandsOf args.command []) o) →
      ∀ c ∈ commandsOf args.command [], Untied Toy.env (runAll Toy.env ops
        (startedWith (touchedMachine [c!"secret1"]) (args.storage.getD (touchedMachine [c!"secret1"]).defaultPath) before)).2 c) ∧
    (Cli.main Toy.cenv argv [] (touchedMachine [c!"secret1"])).2.state.out =
      c!"Your primary password: Passwords for a:\n    u (stored)\n" := by
  intro argv
  cases hl : FileIO.load Toy.one.world.disk with
  | ok before =>
    have h1 : (match FileIO.load Toy.one.world.disk with
        | .ok d => decide ((d.filter fun e => Storage.isSiteKey e.1).length ≤ 1 ∧ (d.filter fun e => namesPassword e.1).length ≤ 1)
        | _ => false) = true := by decide +kernel
    rw [hl] at h1
    have h1 := of_decide_eq_true h1
    refine ⟨⟨none, false, false, .list (c!"*") (c!"*") false false false, none⟩, before, by decide +kernel, rfl, hl, ?_, by decide +kernel⟩
    intro ops hops c hc
    cases List.mem_singleton.mp hc
    exact untied_one Toy.env_lawful (listing_shrinks ops _ hops) h1.1 h1.2
  | _ =>
    have h : (match FileIO.load Toy.one.world.disk with | .ok _ => true | _ => false) = true := by decide +kernel
    rw [hl] at h
    cases h

end Pfp.Props
