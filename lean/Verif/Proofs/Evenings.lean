import Verif.Spec.Evenings
import Verif.Proofs.Shown
import Verif.Proofs.Prompt

/-!
# Lemmas about whole runs at a terminal
-/

namespace Pfp.Proofs.Evenings

open Cli Terminal Spec Proofs Proofs.Shown RecoveryCodes

variable {α β : Type} {T : Dialog} {C : CEnv} {G : Op → Prop} {p : Str} {t base : PState} {ran : Command → Prop} {lines : List Str}
  {W I : PState → Prop} {c : Command}

/-- The texts of a run. -/
def Screen (T : Dialog) (C : CEnv) (G : Op → Prop) (p : Str) (t : PState) (ran : Command → Prop) (lines : List Str) (x : Str) : Prop :=
  x ∈ plainTexts ∨ x ∈ moreTexts ∨ (∃ c, ran c ∧ Tells C G p t c x) ∨ Repeats T ran lines x

/-- What is known of the states after unlocking, `W`, for a storage which is `base` at first. -/
structure Ground (T : Dialog) (C : CEnv) (G : Op → Prop) (p : Str) (t base : PState) (ran : Command → Prop) (lines : List Str)
    (W : PState → Prop) : Prop where
  good : ∀ u, W u → Shown.Good C G p u
  step : ∀ u op, W u → Commanded T C.env p ran lines op → (∀ q, op ≠ .unlock q) → W (after C.env u op)
  first : ∀ line ∈ lines, ∀ u, Passwords.unlock C.env (trim line) base = (.ok (), u) → W u
  again : ∀ line ∈ lines, ∀ v u, W v → Passwords.unlock C.env (trim line) v = (.ok (), u) → W u
  code : ∀ u q b, W u → (Passwords.getRecoveryCode C.env q u).1 = .ok b →
    ask C.env (drawn t u.world.rpos) (.getRecoveryCode q) = .ok (.code b)
  locked : Passwords.lock base = base
  primary : ∀ u q, W u → u.primaryPassword = some q → q = p
  lawful : C.env.prims.Lawful

/-- What holds at any time. -/
structure Held (T : Dialog) (C : CEnv) (G : Op → Prop) (p : Str) (t base : PState) (ran : Command → Prop) (lines : List Str)
    (W : PState → Prop) (s : TState) : Prop where
  input : ∀ l ∈ s.input, l ∈ lines
  now : s.ps = base ∨ W s.ps
  texts : ∀ x ∈ textsOf s.trace, Screen T C G p t ran lines x
  moments : ∀ u ∈ s.moments, u = base ∨ W u

theorem Held.log {s : TState} (h : Held T C G p t base ran lines W s) {e : Event} (he : ∀ x ∈ textsOf [e], Screen T C G p t ran lines x) :
    Held T C G p t base ran lines W (s.log e) := by
  refine ⟨h.input, h.now, fun x hx => ?_, fun u hu => ?_⟩
  · simp only [TState.log, textsOf_append, List.mem_append] at hx
    exact hx.elim (h.texts x) (he x)
  · simp only [TState.log, List.mem_append, List.mem_singleton] at hu
    exact hu.elim (h.moments u) fun e => e ▸ h.now

theorem Held.silent {s : TState} (h : Held T C G p t base ran lines W s) {e : Event} (he : textsOf [e] = []) :
    Held T C G p t base ran lines W (s.log e) := h.log (by rw [he]; simp)

theorem Held.take {s : TState} (h : Held T C G p t base ran lines W s) (k : Kind) {line : Str} {rest : List Str}
    (hr : ∀ l ∈ rest, l ∈ lines) : Held T C G p t base ran lines W (s.take k line rest) := by
  have := h.silent (e := .read k line) rfl
  exact ⟨hr, this.now, this.texts, this.moments⟩

theorem Held.put {s : TState} (h : Held T C G p t base ran lines W s) {u : PState} (hu : u = base ∨ W u) :
    Held T C G p t base ran lines W { s with ps := u } := ⟨h.input, hu, h.texts, h.moments⟩

/-- The computation keeps what holds at any time; started with a storage in `I` the result and the storage then are in `K`. -/
def Runs (T : Dialog) (C : CEnv) (G : Op → Prop) (p : Str) (t base : PState) (ran : Command → Prop) (lines : List Str)
    (W I : PState → Prop) (m : TM α) (K : α → PState → Prop) : Prop :=
  ∀ s, Held T C G p t base ran lines W s → I s.ps →
    Held T C G p t base ran lines W (m s).2 ∧ ∀ a, (m s).1 = .ok a → K a (m s).2.ps

theorem runs_bind {m : TM α} {f : α → TM β} {K : α → PState → Prop} {L : β → PState → Prop}
    (h : Runs T C G p t base ran lines W I m K) (h' : ∀ a, Runs T C G p t base ran lines W (K a) (f a) L) :
    Runs T C G p t base ran lines W I (m >>= f) L := by
  intro s hs hI
  obtain ⟨h1, h3⟩ := h s hs hI
  show Held T C G p t base ran lines W (TM.bind m f s).2 ∧ ∀ a, (TM.bind m f s).1 = _ → L a (TM.bind m f s).2.ps
  unfold TM.bind
  revert h1 h3
  rcases m s with ⟨out, s'⟩
  intro h1 h3
  cases out with
  | ok a => exact h' a s' h1 (h3 a rfl)
  | err e => exact ⟨h1, by simp⟩
  | panic => exact ⟨h1, by simp⟩
  | blocked => exact ⟨h1, by simp⟩

theorem runs_imp {m : TM α} {J : PState → Prop} {K L : α → PState → Prop} (h : Runs T C G p t base ran lines W I m K)
    (hI : ∀ s, J s → I s) (hK : ∀ a s, K a s → L a s) : Runs T C G p t base ran lines W J m L := fun s hs hJ =>
  let ⟨h1, h2⟩ := h s hs (hI _ hJ)
  ⟨h1, fun a ha => hK _ _ (h2 a ha)⟩

theorem runs_pure (a : α) : Runs T C G p t base ran lines W I (pure a : TM α) fun _ => I :=
  fun _ hs hI => ⟨hs, fun _ _ => hI⟩

theorem runs_fail (e : CErr) {K : α → PState → Prop} : Runs T C G p t base ran lines W I (TM.fail e : TM α) K :=
  fun _ hs _ => ⟨hs, fun b hb => by cases hb⟩

theorem runs_print {x : Str} (h : Screen T C G p t ran lines x) : Runs T C G p t base ran lines W I (Terminal.print x) fun _ => I :=
  fun _ hs hI => ⟨hs.log (by simpa [textsOf] using h), fun _ _ => hI⟩

theorem runs_println {x : Str} (h : Screen T C G p t ran lines (x ++ ['\n'])) :
    Runs T C G p t base ran lines W I (Terminal.println x) fun _ => I := runs_print h

theorem runs_write {x : Str} (h : Screen T C G p t ran lines x) : Runs T C G p t base ran lines W I (Terminal.write x) fun _ => I :=
  fun _ hs hI => ⟨hs.log (by simpa [textsOf] using h), fun _ _ => hI⟩

theorem runs_flush : Runs T C G p t base ran lines W I Terminal.flush fun _ => I :=
  fun _ hs hI => ⟨hs.silent rfl, fun _ _ => hI⟩

theorem runs_ite {c : Prop} [Decidable c] {m m' : TM α} {K : α → PState → Prop} (h : c → Runs T C G p t base ran lines W I m K)
    (h' : ¬c → Runs T C G p t base ran lines W I m' K) : Runs T C G p t base ran lines W I (if c then m else m') K := by
  split
  · exact h ‹_›
  · exact h' ‹_›

/-- Something is looked up. -/
theorem runs_ask {f : PState → Res α} {g : α → TM β} {L : β → PState → Prop}
    (h : ∀ a, (∃ u, I u ∧ f u = .ok a) → Runs T C G p t base ran lines W I (g a) L) :
    Runs T C G p t base ran lines W I (Terminal.query f >>= g) L := by
  refine runs_bind (K := fun a u => I u ∧ f u = .ok a) (fun s hs hI => ⟨hs, fun a ha => ⟨hI, convert_ok ha⟩⟩) fun a => ?_
  rintro s hs ⟨h1, h2⟩
  exact h a ⟨_, h1, h2⟩ s hs h1

/-- Something is changed. -/
theorem runs_call {m : M PState α} (h : ∀ u, I u → W (m u).2) :
    Runs T C G p t base ran lines W I (Terminal.call m) fun a u => W u ∧ ∃ v, I v ∧ m v = (.ok a, u) := by
  intro s hs hI
  have := h _ hI
  unfold Terminal.call
  refine ⟨hs.put (.inr this), fun a ha => ⟨this, s.ps, hI, ?_⟩⟩
  dsimp only at ha ⊢
  rw [← convert_ok ha]

theorem runs_secret {x : Str} (h : Screen T C G p t ran lines x) {g : Str → TM β} {L : β → PState → Prop}
    (hg : ∀ line, line ∈ lines ∨ line = [] → Runs T C G p t base ran lines W I (g line) L) :
    Runs T C G p t base ran lines W I (Terminal.promptSecretText x >>= g) L := by
  refine runs_bind (K := fun line u => I u ∧ (line ∈ lines ∨ line = [])) ?_ fun line => fun s hs hI => hg line hI.2 s hs hI.1
  intro s hs hI
  have hs' := hs.log (e := .out .direct x) (by simpa [textsOf] using h)
  unfold Terminal.promptSecretText
  dsimp only
  cases hi : (s.log (.out .direct x)).input with
  | nil => exact ⟨hs', fun a ha => by cases ha; exact ⟨hI, .inr rfl⟩⟩
  | cons line rest =>
    have hm := hs'.input
    rw [hi] at hm
    exact ⟨hs'.take _ fun l hl => hm l (List.mem_cons_of_mem _ hl), fun a ha => by cases ha; exact ⟨hI, .inl (hm _ (by simp))⟩⟩

theorem runs_password {x : Str} (h : Screen T C G p t ran lines x) (b : Bool) {g : Str → TM β} {L : β → PState → Prop}
    (hg : ∀ line, line ∈ lines ∨ line = [] → Runs T C G p t base ran lines W I (g (trim line)) L) :
    Runs T C G p t base ran lines W I (Terminal.promptPassword x b >>= g) L := by
  refine runs_bind (K := fun v u => I u ∧ ∃ line, (line ∈ lines ∨ line = []) ∧ v = trim line) ?_ ?_
  · intro s hs hI
    have hs' := hs.log (e := .out .direct x) (by simpa [textsOf] using h)
    unfold Terminal.promptPassword
    dsimp only
    cases hi : (s.log (.out .direct x)).input with
    | nil =>
      cases b with
      | true => exact ⟨hs', fun a ha => by cases ha; exact ⟨hI, [], .inr rfl, rfl⟩⟩
      | false => exact ⟨hs', fun a ha => by cases ha⟩
    | cons line rest =>
      have hm := hs'.input
      rw [hi] at hm
      exact ⟨hs'.take _ fun l hl => hm l (List.mem_cons_of_mem _ hl),
        fun a ha => by cases ha; exact ⟨hI, line, .inl (hm _ (by simp)), rfl⟩⟩
  · rintro v s hs ⟨h1, line, h2, rfl⟩
    exact hg line h2 s hs h1

theorem confirmLoop_runs {q : Str} (hq : Screen T C G p t ran lines q) : ∀ (l : List Str), (∀ x ∈ l, x ∈ lines) → ∀ s : TState,
    Held T C G p t base ran lines W s → I s.ps →
      Held T C G p t base ran lines W (Terminal.confirmLoop T q l s).2 ∧ I (Terminal.confirmLoop T q l s).2.ps
  | [], _, s, hs, hI => ⟨hs, hI⟩
  | line :: rest, hl, s, hs, hI => by
    have hr : ∀ x ∈ rest, x ∈ lines := fun x hx => hl x (List.mem_cons_of_mem _ hx)
    have hs' := hs.take (.yesNo q) (line := line) hr
    unfold Terminal.confirmLoop
    dsimp only
    cases T.reply q line with
    | some b => exact ⟨hs', hI⟩
    | none => exact confirmLoop_runs hq rest hr _ (hs'.log (by simpa [textsOf] using hq)) hI

theorem runs_mayOverwrite (d n r : Str) (b : Bool) :
    Runs T C G p t base ran lines W I (Terminal.mayOverwrite T C.env d n r b) fun _ => I := by
  have hq : Screen T C G p t ran lines OVERWRITE_QUESTION := .inr (.inl (by decide))
  intro s hs hI
  unfold Terminal.mayOverwrite
  cases b with
  | true => exact ⟨hs, fun _ _ => hI⟩
  | false =>
    rw [if_neg (by simp)]
    split
    · unfold Terminal.confirm
      obtain ⟨h1, h2⟩ := confirmLoop_runs (I := I) hq s.input hs.input (s.log (.out .asked OVERWRITE_QUESTION))
        (hs.log (by simpa [textsOf] using hq)) hI
      exact ⟨h1, fun _ _ => h2⟩
    · exact ⟨hs, fun _ _ => hI⟩
    · exact ⟨hs, fun _ _ => hI⟩

/-! ## Unlocking -/

theorem unlockLoop_runs (hg : Ground T C G p t base ran lines W) : ∀ (l : List Str), (∀ x ∈ l, x ∈ lines) → ∀ s : TState,
    Held T C G p t base ran lines W s → Held T C G p t base ran lines W (Terminal.unlockLoop C.env l s).2 ∧
      ((Terminal.unlockLoop C.env l s).1 = .ok () → W (Terminal.unlockLoop C.env l s).2.ps) := by
  have hp : Screen T C G p t ran lines PRIMARY_PROMPT := .inl (by decide)
  have hdone : ∀ s : TState, Held T C G p t base ran lines W s → Passwords.unlocked s.ps = true → W s.ps := by
    intro s hs hu
    rcases hs.now with h | h
    · rw [h] at hu
      rw [← hg.locked] at hu
      simp [Passwords.unlocked, Passwords.lock] at hu
    · exact h
  intro l
  induction l with
  | nil =>
    intro _ s hs
    unfold Terminal.unlockLoop
    split
    · exact ⟨hs, fun _ => hdone s hs ‹_›⟩
    · exact ⟨hs.log (by simpa [textsOf] using hp), by simp⟩
  | cons line rest ih =>
    intro hl s hs
    have hr : ∀ x ∈ rest, x ∈ lines := fun x hx => hl x (List.mem_cons_of_mem _ hx)
    have hs' := (hs.log (e := .out .direct PRIMARY_PROMPT) (by simpa [textsOf] using hp)).take .secret (line := line) hr
    unfold Terminal.unlockLoop
    split
    · exact ⟨hs, fun _ => hdone s hs ‹_›⟩
    · dsimp only
      generalize (s.log (.out .direct PRIMARY_PROMPT)).take .secret line rest = s' at hs'
      split
      · exact ih hr _ (hs'.silent rfl)
      · have hnow := hs'.now
        rcases hu : Passwords.unlock C.env (trim line) s'.ps with ⟨r, ps⟩
        have hstay : r ≠ .ok () → ps = s'.ps := by
          intro h
          have := unlock_locked (E := C.env) (ps := s'.ps) (p := trim line) (by rw [hu]; exact h)
          rw [hu] at this
          exact this
        cases r with
        | panic =>
          have e := hstay (by simp)
          subst e
          exact ⟨hs', by simp⟩
        | err e =>
          have e' := hstay (by simp)
          subst e'
          exact ih hr _ (hs'.silent rfl)
        | ok u =>
          have hW : W ps := by
            rcases hnow with h | h
            · rw [h] at hu; exact hg.first line (hl _ (by simp)) _ hu
            · exact hg.again line (hl _ (by simp)) _ _ h hu
          exact ih hr _ (hs'.put (.inr hW))

theorem runs_unlock (hg : Ground T C G p t base ran lines W) :
    Runs T C G p t base ran lines W (fun _ => True) (Terminal.ensureUnlocked C.env) fun _ => W := by
  intro s hs _
  unfold Terminal.ensureUnlocked
  split
  · exact ⟨hs, by simp⟩
  · exact ⟨(unlockLoop_runs hg s.input hs.input s hs).1, fun _ => (unlockLoop_runs hg s.input hs.input s hs).2⟩

/-! ## Commands -/

theorem plain {x : Str} (h : x ∈ plainTexts) : Screen T C G p t ran lines x := .inl h
theorem more {x : Str} (h : x ∈ moreTexts) : Screen T C G p t ran lines x := .inr (.inl h)
theorem tells (hc : ran c) {x : Str} (h : Tells C G p t c x) : Screen T C G p t ran lines x := .inr (.inr (.inl ⟨c, hc, h⟩))

theorem runs_printValue (hg : Ground T C G p t base ran lines W) (hc : ran c) (y : Str) (x : Password) :
    Runs T C G p t base ran lines W W (Terminal.printValue C.env y x) fun _ => W := by
  unfold Terminal.printValue
  refine runs_bind (runs_print (plain (by decide))) fun _ => runs_bind runs_flush fun _ => runs_ask ?_
  rintro v ⟨u, hu, hv⟩
  exact runs_bind (runs_write (tells hc (.value ((hg.good u hu).get _ _ _ _ hv)))) fun _ => runs_println (plain (by decide))

theorem runs_printRecovery (hg : Ground T C G p t base ran lines W) {d n : Str} {a z : Bool} (hc : ran (.list d n a true z)) {x : Password}
    (hx : OwnRecord G x) : Runs T C G p t base ran lines W W (Terminal.printRecovery C.env x) fun _ => W := by
  cases x with
  | generated g => exact runs_pure ()
  | stored q =>
    unfold Terminal.printRecovery
    dsimp only
    refine runs_bind (runs_println (plain (by decide))) fun _ => runs_bind (runs_call fun u hu =>
      hg.step u (.getRecoveryCode q) hu (.code hc q) (by simp)) fun b => ?_
    rintro s hs ⟨h1, v, hv, hb⟩
    refine runs_print (I := W) (tells hc ?_) s hs h1
    have : ((splitOn 10 b).flatMap fun line => c!"        " ++ line.map byteChar ++ ['\n']) =
        indented ((splitOn 10 b).map fun l => l.map byteChar) := by
      simp [indented, List.flatMap_map]
    rw [this]
    refine .code (z := q) hx (k := v.world.rpos) (b := b) (hg.code v q b hv (by rw [hb])) ?_ ?_
    · have := map_join byteChar [10] (splitOn 10 b)
      rw [join_splitOn] at this
      exact this
    · intro line hline
      obtain ⟨l', hl', rfl⟩ := List.mem_map.mp hline
      intro hm
      obtain ⟨b', hb', he⟩ := List.mem_map.mp hm
      have : b' = 10 := byteChar_injective (he.trans (by decide))
      exact not_mem_splitOn 10 b l' hl' (this ▸ hb')

theorem runs_printDetails (hc : ran c) {x : Password} (hx : OwnRecord G x) :
    Runs T C G p t base ran lines W I (Terminal.printDetails x) fun _ => I := by
  have h1 : Runs T C G p t base ran lines W I (match x with
      | .generated p => Terminal.printParameters p
      | .stored _ => pure ()) fun _ => I := by
    cases x with
    | stored z => exact runs_pure ()
    | generated g =>
      exact runs_bind (runs_println (tells hc (.length hx))) fun _ => runs_println (tells hc (.charset hx))
  unfold Terminal.printDetails
  refine runs_ite (fun hn => runs_bind (K := fun _ => I) ?_ fun _ => h1) fun _ => h1
  unfold Terminal.printNotes
  refine runs_bind (runs_print (plain (by decide))) fun _ => runs_bind runs_flush fun _ => runs_bind (runs_write ?_) fun _ =>
    runs_println (plain (by decide))
  rcases hx.2.1 with h | ⟨a, n, r, h⟩
  · exact absurd h hn
  · exact tells hc (.notes h)

theorem runs_printPasswords (hg : Ground T C G p t base ran lines W) {e n : Str} {a b d : Bool} (hc : ran (.list e n a b d)) (y : Str) :
    ∀ l : List Password, (∀ x ∈ l, OwnRecord G x) →
      Runs T C G p t base ran lines W W (Terminal.printPasswords C.env y a b d l) fun _ => W
  | [], _ => runs_pure ()
  | x :: l, h => by
    have hx := h x (by simp)
    have ih := runs_printPasswords hg hc y l fun x hx => h x (List.mem_cons_of_mem _ hx)
    have h3 := runs_ite (c := d = true) (fun _ => runs_bind (runs_printDetails hc hx) fun _ => ih) fun _ => ih
    have h2 := runs_ite (c := b = true) (fun hb => runs_bind (runs_printRecovery hg (by rw [hb] at hc; exact hc) hx) fun _ => h3) fun _ => h3
    have h1 := runs_ite (c := a = true) (fun _ => runs_bind (runs_printValue hg hc y x) fun _ => h2) fun _ => h2
    refine runs_bind (runs_println ?_) fun _ => h1
    rw [passwordLine_eq]
    exact tells hc (.entry hx)

theorem runs_listLoop (hg : Ground T C G p t base ran lines W) {e n : Str} {a b d : Bool} (hc : ran (.list e n a b d)) (m : List Site)
    (hm : ∀ x ∈ m, Named G x.name) : ∀ l : List Str, (∀ y ∈ l, Named G y) →
      Runs T C G p t base ran lines W W (Terminal.listLoop C.env n a b d m l) fun _ => W
  | [], _ => runs_pure _
  | y :: l, h => by
    have ih := runs_listLoop hg hc m hm l fun y hy => h y (List.mem_cons_of_mem _ hy)
    unfold Terminal.listLoop
    refine runs_ask ?_
    rintro rows ⟨u, hu, hr⟩
    refine runs_ite (fun _ => ?_) fun _ => ?_
    · exact runs_bind ih fun r => runs_pure _
    · have h2 := runs_bind (runs_printPasswords hg hc y (sortPasswords rows) fun x hx =>
          (hg.good u hu).list _ _ _ hr x (mem_sortPasswords hx)) fun _ => runs_bind ih fun r => runs_pure (true, r.2)
      refine runs_bind (runs_println ?_) fun _ =>
        runs_ite (fun _ => runs_bind (runs_println (tells hc (.aliases (aliases_named hm y)))) fun _ => h2) fun _ => h2
      have := Tells.site (C := C) (G := G) (p := p) (t := t) (c := .list e n a b d) (h y (by simp))
      exact tells hc (by simpa using this)

/-- A recovery code is typed. -/
theorem recoveryLoop_runs (hg : Ground T C G p t base ran lines W) {d n r : Str} {y : Bool} (hc : ran (.addStored d n r true y)) :
    ∀ (l : List Str), (∀ x ∈ l, x ∈ lines) → ∀ (acc : Bytes), Joined T lines (significant acc) → ∀ s : TState,
      Held T C G p t base ran lines W s → W s.ps → Held T C G p t base ran lines W (Terminal.recoveryLoop T C.env acc l s).2 ∧
        W (Terminal.recoveryLoop T C.env acc l s).2.ps ∧ ∀ v, (Terminal.recoveryLoop T C.env acc l s).1 = .ok v →
          ∃ code, Joined T lines code ∧ RecoveryCodes.decode C.env.prims C.env.overflowChecks code p = .ok v
  | [], _, acc, _, s, hs, hW => ⟨hs.log (e := .out .asked RECOVERY_PROMPT) (by
      have : Screen T C G p t ran lines RECOVERY_PROMPT := .inr (.inl (by decide))
      simpa [textsOf] using this), hW, fun v hv => by cases hv⟩
  | typed :: rest, hl, acc, hj, s, hs, hW => by
    have hp : Screen T C G p t ran lines RECOVERY_PROMPT := .inr (.inl (by decide))
    have hr : ∀ x ∈ rest, x ∈ lines := fun x hx => hl x (List.mem_cons_of_mem _ hx)
    have hs' := (hs.log (e := .out .asked RECOVERY_PROMPT) (by simpa [textsOf] using hp)).take .code (line := typed) hr
    have hW' : W ((s.log (.out .asked RECOVERY_PROMPT)).take .code typed rest).ps := hW
    unfold Terminal.recoveryLoop
    dsimp only
    generalize (s.log (.out .asked RECOVERY_PROMPT)).take .code typed rest = s' at hs' hW'
    cases ha : T.answer typed with
    | none => exact recoveryLoop_runs hg hc rest hr acc hj s' hs' hW'
    | some line =>
      dsimp only
      by_cases hn : line = []
      · rw [if_pos hn]
        exact ⟨hs', hW', fun v hv => by cases hv⟩
      · rw [if_neg hn]
        cases hq : s'.ps.primaryPassword with
        | none => exact ⟨hs', hW', fun v hv => by cases hv⟩
        | some q =>
          rw [hg.primary _ _ hW' hq]
          simp only [okOr]
          have hpart : ∀ k, Joined T lines ((significant (acc ++ utf8 line)).take k) := fun k => by
            rw [significant_append]
            exact .next hj (hl _ (by simp)) ha k
          have hwhole : Joined T lines (significant (acc ++ utf8 line)) := by
            have := hpart (significant (acc ++ utf8 line)).length
            rwa [List.take_length] at this
          cases hd : RecoveryCodes.decode C.env.prims C.env.overflowChecks (acc ++ utf8 line) p with
          | ok v =>
            refine ⟨hs', hW', fun v' hv => ⟨significant (acc ++ utf8 line), hwhole, ?_⟩⟩
            cases hv
            rw [← hd]
            exact Props.C12_layout_ignored _ _ _ _ _ (significant_of_alphabet fun _ => significant_mem)
          | panic => exact ⟨hs', hW', fun v hv => by cases hv⟩
          | err e =>
            cases e
            case recoveryCodeExtraData k =>
              have hk := firstLines_format (Cli.decode_line hg.lawful (.inl hd))
              dsimp only
              rw [hk]
              dsimp only
              have hx : Screen T C G p t ran lines (extraQuestion (layout ((significant (acc ++ utf8 line)).take (24 * k)))) :=
                .inr (.inr (.inr ⟨d, n, r, y, _, hc, hpart (24 * k), rfl⟩))
              have := confirmLoop_runs (I := W) hx s'.input hs'.input (s'.log (.out .asked _)) (hs'.log (by simpa [textsOf] using hx)) hW'
              revert this
              unfold Terminal.confirm
              generalize Terminal.confirmLoop T (extraQuestion (layout ((significant (acc ++ utf8 line)).take (24 * k)))) s'.input _ = z
              rcases z with ⟨out, s''⟩
              rintro ⟨h1, h2⟩
              rcases out with ⟨_ | _⟩ | e | _ | _
              · exact ⟨h1, h2, fun v hv => by cases hv⟩
              · refine ⟨h1, h2, fun v hv => ⟨_, hpart (24 * k), ?_⟩⟩
                rw [← convert_ok hv]
                refine Props.C12_layout_ignored _ _ _ _ _ ?_
                rw [Cli.significant_take]
                exact significant_of_alphabet fun _ h => significant_mem (List.mem_of_mem_take h)
              · exact ⟨h1, h2, fun v hv => by cases hv⟩
              · exact ⟨h1, h2, fun v hv => by cases hv⟩
              · exact ⟨h1, h2, fun v hv => by cases hv⟩
            case recoveryCodeChecksumMismatch k =>
              have hk := firstLines_format (Cli.decode_line hg.lawful (.inr hd))
              dsimp only
              rw [hk]
              exact recoveryLoop_runs hg hc rest hr _ (by rw [Cli.significant_take]; exact hpart _) _ (hs'.silent rfl) hW'
            case recoveryCodeIncomplete =>
              dsimp only
              rw [formatCode_true]
              exact recoveryLoop_runs hg hc rest hr _ (by rw [significant_layout _ fun _ => significant_mem]; exact hwhole) _
                (hs'.silent rfl) hW'
            all_goals exact ⟨hs', hW', fun v hv => by cases hv⟩

/-- A call that only changes something, and a text. -/
theorem runs_done (m : M PState α) (h : ∀ u, W u → W (m u).2) (x : Str) (hx : Screen T C G p t ran lines (x ++ ['\n'])) :
    Runs T C G p t base ran lines W W (Terminal.call m >>= fun _ => Terminal.println x) fun _ => W :=
  runs_bind (K := fun _ => W) (runs_imp (runs_call h) (fun _ h => h) fun _ _ h => h.1) fun _ => runs_println hx

theorem runs_command (hg : Ground T C G p t base ran lines W) (b : Bool) (hc : ran c) (h1 : ∀ y, c ≠ .setPrimary y) :
    Runs T C G p t base ran lines W (fun _ => True) (Terminal.processCommand T C b c) fun _ _ => True := by
  have fin : ∀ {m : TM Unit} {J : PState → Prop}, Runs T C G p t base ran lines W J m (fun _ => W) →
      Runs T C G p t base ran lines W J m fun _ _ => True := fun h => runs_imp h (fun _ h => h) fun _ _ _ => trivial
  cases c with
  | setPrimary y => exact absurd rfl (h1 y)
  | shell => exact runs_pure ()
  | add d n r len u1 u2 u3 u4 y =>
    refine runs_bind (runs_unlock hg) fun _ => runs_ite (fun _ => runs_fail _) fun _ => runs_bind (runs_mayOverwrite d n r y) fun _ =>
      runs_ite (fun _ => fin (runs_done (Passwords.setGenerated C.env d n r len (charsetOf u1 u2 u3 u4)) (fun u hu => hg.step u (.setGenerated d n r len (charsetOf u1 u2 u3 u4)) hu (.generated hc ?_) (by simp))
        (c!"Password added.") (more (by decide)))) fun _ => fin (runs_pure ())
    intro x
    cases u1 <;> cases u2 <;> cases u3 <;> cases u4 <;> cases x <;> rfl
  | addStored d n r rec y =>
    cases rec with
    | true =>
      refine runs_bind (runs_unlock hg) fun _ => runs_bind (runs_mayOverwrite d n r y) fun _ => runs_ite (fun _ => ?_) fun _ => fin (runs_pure ())
      refine runs_bind (K := fun v u => W u ∧ ∃ code, Joined T lines code ∧
        RecoveryCodes.decode C.env.prims C.env.overflowChecks code p = .ok v) (fun s hs hI => ?_) fun v => ?_
      · obtain ⟨g1, g2, g3⟩ := recoveryLoop_runs hg hc s.input hs.input [] .start s hs hI
        exact ⟨g1, fun v hv => ⟨g2, g3 v hv⟩⟩
      · rintro s hs ⟨hI, code, hj, hv⟩
        exact fin (runs_done (Passwords.setStored C.env d n r v) (fun u hu => hg.step u (.setStored d n r v) hu (.restored hc hj hv) (by simp))
          (c!"Password added.") (more (by decide))) s hs hI
    | false =>
      refine runs_bind (runs_unlock hg) fun _ => runs_bind (runs_mayOverwrite d n r y) fun _ => runs_ite (fun _ => ?_) fun _ => fin (runs_pure ())
      exact runs_password (more (by decide)) b fun line hl => fin (runs_done (Passwords.setStored C.env d n r (trim line)) (fun u hu => hg.step u (.setStored d n r (trim line)) hu
        (.stored hc hl) (by simp)) (c!"Password added.") (more (by decide)))
  | remove d n r =>
    exact runs_bind (runs_unlock hg) fun _ => fin (runs_done (Passwords.remove C.env d n r) (fun u hu => hg.step u (.remove d n r) hu (.remove hc) (by simp)) (c!"Password removed.") (plain (by decide)))
  | «show» a n r q =>
    refine runs_bind (runs_unlock hg) fun _ => runs_ask ?_
    rintro v ⟨u, hu, hv⟩
    have hv := (hg.good u hu).get _ _ _ _ hv
    refine runs_bind (runs_write (plain (by decide))) fun _ => runs_ite (fun _ => ?_) fun _ => ?_
    · split
      · rename_i hq
        exact fin (runs_write (tells hc (.qr hv hq)))
      · exact runs_fail _
    · exact runs_bind (runs_write (tells hc (.value hv))) fun _ => fin (runs_write (plain (by decide)))
  | notes a n r set =>
    have h1 := runs_ite (T := T) (C := C) (G := G) (p := p) (t := t) (base := base) (ran := ran) (lines := lines) (W := W) (I := W)
      (K := fun _ _ => True) (c := set = true)
      (fun hset => runs_secret (x := c!"Please enter new notes to be stored:") (plain (by decide)) fun line hl =>
        runs_bind (K := fun _ => W) (runs_imp (runs_call (m := Passwords.setNotes C.env a n r line) fun u hu =>
          hg.step u (.setNotes a n r line) hu (.notes (by rw [hset] at hc; exact hc) hl) (by simp)) (fun _ h => h) fun _ _ h => h.1) fun _ =>
        runs_ite (c := line = []) (fun _ => fin (runs_println (x := c!"Notes removed.") (plain (by decide))))
          fun _ => fin (runs_println (x := c!"Notes stored.") (plain (by decide)))) fun _ => fin (runs_pure ())
    refine runs_bind (runs_unlock hg) fun _ => runs_ask ?_
    rintro v ⟨u, hu, hv⟩
    refine runs_ite (fun _ => runs_bind (runs_println (plain (by decide))) fun _ => h1) fun hn => runs_bind (K := fun _ => W) ?_ fun _ => h1
    refine runs_bind (runs_write (plain (by decide))) fun _ => runs_bind (runs_write ?_) fun _ => runs_write (plain (by decide))
    rcases (hg.good u hu).notes _ _ _ _ hv with h | ⟨a, n, r, h⟩
    · exact absurd h hn
    · exact tells hc (.notes h)
  | list a n x y z =>
    refine runs_bind (runs_unlock hg) fun _ => runs_ask ?_
    rintro m ⟨u, hu, hm⟩
    have hn := candidates_named ((hg.good u hu).sites _ _ hm)
    exact runs_bind (runs_listLoop hg hc _ hn _ (listed_named hn)) fun r =>
      runs_bind (K := fun _ => W) (runs_imp (runs_call (m := Passwords.removeSites C.env r.2) fun u hu => hg.step u (.removeSites r.2) hu (.sites hc r.2) (by simp)) (fun _ h => h)
        fun _ _ h => h.1) fun _ => runs_ite (fun _ => fin (runs_pure ())) fun _ => fin (runs_println (plain (by decide)))
  | «alias» a target removal =>
    refine runs_bind (runs_unlock hg) fun _ => ?_
    cases target with
    | some b => exact fin (runs_done (Passwords.setAlias C.env a b) (fun u hu => hg.step u (.setAlias a b) hu (.alias hc) (by simp)) (c!"Alias added.") (plain (by decide)))
    | none =>
      cases removal with
      | true => exact fin (runs_done (Passwords.removeAlias C.env a) (fun u hu => hg.step u (.removeAlias a) hu (.unalias hc) (by simp)) (c!"Alias removed.") (plain (by decide)))
      | false =>
        refine runs_ask ?_
        rintro v ⟨u, hu, hv⟩
        refine fin (runs_println (tells hc ?_))
        have := Tells.target (C := C) (p := p) (t := t) (c := .alias a none false) rfl ((hg.good u hu).target _ _ hv)
        simpa using this

/-! ## Shells -/

theorem shellLine_runs (hg : Ground T C G p t base ran lines W) (b : Bool)
    (e : ShellEvent) (he : ∀ c, e = .command c → ran c) (s : TState) (hs : Held T C G p t base ran lines W s) :
    Held T C G p t base ran lines W (Terminal.shellLine T C b e s).2 := by
  have key : ∀ c, e = .command c → (∀ y, c ≠ .setPrimary y) → Held T C G p t base ran lines W (match Terminal.processCommand T C b c s with
      | (.err e, s') => (COut.ok (), s'.log (.err (.error e)))
      | (.ok _, s') => (.ok (), s'.log .flush)
      | r => r).2 := by
    intro c hc h1
    have := (runs_command hg b (he c hc) h1 s hs trivial).1
    revert this
    rcases Terminal.processCommand T C b c s with ⟨out, s'⟩
    intro this
    cases out with
    | ok u => exact this.silent rfl
    | err e => exact this.silent rfl
    | panic => exact this
    | blocked => exact this
  cases e with
  | noCommand => exact hs.silent rfl
  | exit => exact hs
  | lock =>
    have hl : Passwords.lock s.ps = base ∨ W (Passwords.lock s.ps) := by
      rcases hs.now with h | h
      · exact .inl (by rw [h, hg.locked])
      · exact .inr (hg.step _ .lock h .lock (by simp))
    exact (hs.put hl).log (by simp [textsOf, Screen, moreTexts])
  | command c =>
    cases c with
    | shell => exact hs.silent rfl
    | setPrimary y => exact hs.silent rfl
    | _ => exact key _ rfl (by simp)

theorem shellLoop_runs (hg : Ground T C G p t base ran lines W) (b : Bool)
    (hran : ∀ line ∈ lines, ∀ c, readLine line = .command c → ran c) : ∀ (n : Nat) (s : TState), Held T C G p t base ran lines W s →
      Held T C G p t base ran lines W (Terminal.shellLoop T C b n s).2
  | 0, s, hs => hs
  | n + 1, s, hs => by
    unfold Terminal.shellLoop
    cases hi : s.input with
    | nil => exact hs
    | cons line rest =>
      have hm := hs.input
      rw [hi] at hm
      have hs' := hs.take .command (line := line) (rest := rest) fun l hl => hm l (List.mem_cons_of_mem _ hl)
      dsimp only
      split
      · exact hs'
      · have := shellLine_runs hg b (readLine line) (hran line (hm _ (by simp))) _ hs'
        revert this
        rcases Terminal.shellLine T C b (readLine line) (s.take .command line rest) with ⟨out, s'⟩
        intro this
        cases out with
        | ok u => exact shellLoop_runs hg b hran n s' this
        | err e => exact this
        | panic => exact this
        | blocked => exact this

/-- Whatever the command. -/
theorem process_runs (hg : Ground T C G p t base ran lines W) (b : Bool)
    (hc : ran c) (hset : ∀ y, c ≠ .setPrimary y) (hran : c = .shell → ∀ line ∈ lines, ∀ c, readLine line = .command c → ran c) (s : TState)
    (hs : Held T C G p t base ran lines W s) : Held T C G p t base ran lines W (Terminal.process T C b c s).2 := by
  have key := (runs_command hg b hc hset s hs trivial).1
  cases c with
  | shell =>
    refine shellLoop_runs hg b (hran rfl) _ _ ((hs.log ?_).silent rfl)
    simp [textsOf, Screen, moreTexts]
  | _ => exact key

end Pfp.Proofs.Evenings
