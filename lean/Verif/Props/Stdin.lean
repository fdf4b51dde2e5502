import Verif.Spec.Stdin
import Verif.Proofs.Unwritten
import Verif.Props.Crash

/-! # C84: input that is not text -/

namespace Pfp.Props
open Pfp Cli Spec Stdin

variable {U : Universe}

/-! ## Bytes and lines -/

theorem utf8Char_newline {c : Char} (h : (10 : UInt8) ∈ utf8Char c) : c = '\n' := by
  unfold utf8Char at h
  have hc := char_lt c
  dsimp only at h
  split at h
  · rename_i h1
    simp only [List.mem_cons, List.not_mem_nil, or_false] at h
    have := congrArg UInt8.toNat h
    rw [u8 (by omega)] at this
    exact char_eq_of_toNat this.symm
  · exfalso
    split at h
    · simp only [List.mem_cons, List.not_mem_nil, or_false] at h
      rcases h with h | h
      all_goals
        have := congrArg UInt8.toNat h
        rw [u8 (by omega)] at this
        simp at this
        omega
    · split at h
      · simp only [List.mem_cons, List.not_mem_nil, or_false] at h
        rcases h with h | h | h
        all_goals
          have := congrArg UInt8.toNat h
          rw [u8 (by omega)] at this
          simp at this
          omega
      · simp only [List.mem_cons, List.not_mem_nil, or_false] at h
        rcases h with h | h | h | h
        all_goals
          have := congrArg UInt8.toNat h
          rw [u8 (by omega)] at this
          simp at this
          omega

theorem newline_mem_utf8 {t : Str} : (10 : UInt8) ∈ utf8 t ↔ '\n' ∈ t := by
  unfold utf8
  rw [List.mem_flatMap]
  constructor
  · rintro ⟨c, h1, h2⟩
    rw [← utf8Char_newline h2]
    exact h1
  · intro h
    exact ⟨_, h, by decide⟩

theorem readLine_append : ∀ (b : Bytes), (10 : UInt8) ∉ b → ∀ rest, readLine (b ++ 10 :: rest) = (b, rest)
  | [], _, rest => by simp [readLine]
  | x :: b, h, rest => by
    rw [List.cons_append, readLine, if_neg (fun hx => h (by simp [hx])), readLine_append b (fun hb => h (by simp [hb])) rest]

theorem readLine_end : ∀ (b : Bytes), (10 : UInt8) ∉ b → readLine b = (b, [])
  | [], _ => rfl
  | x :: b, h => by
    rw [readLine, if_neg (fun hx => h (by simp [hx])), readLine_end b (fun hb => h (by simp [hb]))]

/-- The input is one line after another. -/
theorem readLine_spec : ∀ (input : Bytes), (10 : UInt8) ∉ (readLine input).1 ∧
    (input = (readLine input).1 ++ 10 :: (readLine input).2 ∨ input = (readLine input).1 ∧ (readLine input).2 = [])
  | [] => ⟨by simp [readLine], .inr ⟨rfl, rfl⟩⟩
  | x :: rest => by
    rw [readLine]
    by_cases hx : x = 10
    · rw [if_pos hx, hx]
      exact ⟨by simp, .inl rfl⟩
    · rw [if_neg hx]
      obtain ⟨h1, h2⟩ := readLine_spec rest
      refine ⟨by simpa using ⟨fun h => hx h.symm, h1⟩, ?_⟩
      rcases h2 with h2 | ⟨h2, h3⟩
      · exact .inl (by rw [List.cons_append, ← h2])
      · exact .inr ⟨by rw [← h2], h3⟩

theorem fromUtf8_none {b : Bytes} (h : ∀ t, utf8 t ≠ b) : fromUtf8 b = none := by
  cases hb : fromUtf8 b with
  | none => rfl
  | some t => exact absurd (utf8_of_fromUtf8 b t hb) (h t)

/-- **C84 (every input).**  Every input is a number of lines of text followed by its end or by a line that is not UTF-8,
in exactly one way. -/
theorem C84_lines (input : Bytes) : ∃ lines garbled, InputIs input lines garbled ∧
    ∀ lines' garbled', InputIs input lines' garbled' → lines' = lines ∧ garbled' = garbled := by
  have hex : ∀ n (input : Bytes), input.length ≤ n → ∃ lines garbled, InputIs input lines garbled := by
    intro n
    induction n with
    | zero => intro input h; rw [List.length_eq_zero_iff.mp (Nat.le_zero.mp h)]; exact ⟨_, _, .none⟩
    | succ n ih =>
      intro input h
      obtain ⟨h1, h2⟩ := readLine_spec input
      cases hu : fromUtf8 (readLine input).1 with
      | none =>
        have hb : ∀ t, utf8 t ≠ (readLine input).1 := fun t ht => by rw [← ht, fromUtf8_utf8] at hu; cases hu
        rcases h2 with h2 | ⟨h2, h3⟩
        · refine ⟨[], true, ?_⟩
          have := InputIs.garbled _ (10 :: (readLine input).2) h1 hb (.inr ⟨_, rfl⟩)
          rwa [← h2] at this
        · refine ⟨[], true, ?_⟩
          have := InputIs.garbled _ [] h1 hb (.inl rfl)
          rwa [List.append_nil, ← h2] at this
      | some t =>
        have ht := utf8_of_fromUtf8 _ _ hu
        have hn : '\n' ∉ t := fun h => h1 (ht ▸ newline_mem_utf8.mpr h)
        rcases h2 with h2 | ⟨h2, h3⟩
        · have hlen : (readLine input).2.length ≤ n := by
            have := congrArg List.length h2
            simp only [List.length_append, List.length_cons] at this
            omega
          obtain ⟨lines, g, hl⟩ := ih _ hlen
          refine ⟨t :: lines, g, ?_⟩
          rw [h2, ← ht]
          exact .line t hn _ _ _ hl
        · rw [h2, ← ht]
          by_cases h0 : t = []
          · subst h0; exact ⟨_, _, .none⟩
          · exact ⟨_, _, .last t h0 hn⟩
  obtain ⟨lines, g, h⟩ := hex input.length input (Nat.le_refl _)
  refine ⟨lines, g, h, ?_⟩
  clear hex
  have hl : ∀ t : Str, '\n' ∉ t → readLine (utf8 t) = (utf8 t, []) := fun t hn => readLine_end _ fun h => hn (newline_mem_utf8.mp h)
  have hl' : ∀ (t : Str) rest, '\n' ∉ t → readLine (utf8 t ++ 10 :: rest) = (utf8 t, rest) :=
    fun t rest hn => readLine_append _ (fun h => hn (newline_mem_utf8.mp h)) _
  have hg : ∀ b rest : Bytes, (10 : UInt8) ∉ b → (rest = [] ∨ ∃ r, rest = 10 :: r) → (readLine (b ++ rest)).1 = b := by
    rintro b rest hn (rfl | ⟨r, rfl⟩)
    · rw [List.append_nil, readLine_end b hn]
    · rw [readLine_append b hn]
  induction h with
  | none =>
    intro lines' g' h'
    generalize hi : ([] : Bytes) = i at h'
    cases h' with
    | none => exact ⟨rfl, rfl⟩
    | last t h hn => exact absurd (utf8_injective (t := []) hi.symm) h
    | line t hn rest lines g h => simp at hi
    | garbled b rest hn hb hr =>
      have : b = [] := by cases b with | nil => rfl | cons => simp at hi
      exact absurd this.symm (hb [])
  | last t h hn =>
    intro lines' g' h'
    generalize hi : utf8 t = i at h'
    have hr := hl t hn
    rw [hi] at hr
    cases h' with
    | none => exact absurd (utf8_injective (t := []) hi) h
    | last t' h' hn' => exact ⟨by rw [utf8_injective hi], rfl⟩
    | line t' hn' rest lines g h' =>
      exact absurd (by rw [hi]; simp : (10 : UInt8) ∈ utf8 t) fun h => hn (newline_mem_utf8.mp h)
    | garbled b rest hnb hb hr' =>
      have := hg b rest hnb hr'
      rw [hr, ← hi] at this
      exact absurd this (hb t)
  | line t hn rest lines g h ih =>
    intro lines' g' h'
    generalize hi : utf8 t ++ 10 :: rest = i at h'
    have hr := hl' t rest hn
    rw [hi] at hr
    cases h' with
    | none => simp at hi
    | last t' h' hn' =>
      exact absurd (by rw [← hi]; simp : (10 : UInt8) ∈ utf8 t') fun h => hn' (newline_mem_utf8.mp h)
    | line t' hn' rest' lines'' g'' h'' =>
      rw [hl' t' rest' hn'] at hr
      cases Prod.ext_iff.mp hr with
      | intro e1 e2 =>
        simp only at e1 e2
        subst e2
        obtain ⟨i1, i2⟩ := ih _ _ h''
        exact ⟨by rw [i1, utf8_injective e1], i2⟩
    | garbled b rest' hnb hb hr' =>
      have := hg b rest' hnb hr'
      rw [hr] at this
      exact absurd this (hb t)
  | garbled b rest hnb hb hr =>
    intro lines' g' h'
    generalize hi : b ++ rest = i at h'
    have hr := hg b rest hnb hr
    rw [hi] at hr
    cases h' with
    | none =>
      have : b = [] := by cases b with | nil => rfl | cons => simp at hi
      exact absurd this.symm (hb [])
    | last t' h' hn' => rw [hl t' hn'] at hr; exact absurd hr (hb t')
    | line t' hn' rest' lines'' g'' h'' => rw [hl' t' rest' hn'] at hr; exact absurd hr (hb t')
    | garbled b' rest' hnb' hb' hr' => exact ⟨rfl, rfl⟩

/-- Three lines, of which the last one is not ended; and one line of which the next one is not text. -/
example : InputIs (utf8 (c!"secret1\n\npässword")) [c!"secret1", [], c!"pässword"] false ∧
    InputIs (utf8 (c!"secret1\n") ++ [0x70, 0xE4, 10, 0x78]) [c!"secret1"] true := by
  constructor
  · exact .line (c!"secret1") (by decide) _ _ _ (.line [] (by decide) _ _ _ (.last (c!"pässword") (by decide) (by decide)))
  · refine .line (c!"secret1") (by decide) _ _ _ (.garbled [0x70, 0xE4] [10, 0x78] (by decide) (fun t ht => ?_) (.inr ⟨_, rfl⟩))
    have := fromUtf8_utf8 t
    rw [ht, show fromUtf8 [0x70, 0xE4] = none from by decide] at this
    cases this

/-- **C84 (prompts).**  Reading byte by byte gives the lines one after another, whether the last one ends with a line feed
or not; then an empty text, over and over, or a crash on the line that is not text. -/
theorem C84_prompt (t : Str) (input : Bytes) (s : CState) (h : InputIs input s.secrets s.garbled) :
    (promptSecretText t s).1 = asResult (readText input).1 ∧
    ((readText input).1 ≠ .panic →
      InputIs (readText input).2 (promptSecretText t s).2.secrets (promptSecretText t s).2.garbled) ∧
    (promptSecretText t s).2.ps = s.ps ∧ (promptSecretText t s).2.out = s.out ++ t := by
  generalize hs : s.secrets = lines at h
  generalize hg : s.garbled = g at h
  unfold readText
  cases h with
  | none =>
    rw [promptSecretText_nil hs, hg]
    exact ⟨rfl, fun _ => by rw [hs]; exact .none, rfl, rfl⟩
  | last x h hn =>
    rw [promptSecretText_cons hs, readLine_end _ fun h => hn (newline_mem_utf8.mp h)]
    dsimp only
    rw [fromUtf8_utf8]
    exact ⟨rfl, fun _ => by rw [hg]; exact .none, rfl, rfl⟩
  | line x hn rest lines g h =>
    rw [promptSecretText_cons hs, readLine_append _ fun h => hn (newline_mem_utf8.mp h)]
    dsimp only
    rw [fromUtf8_utf8]
    exact ⟨rfl, fun _ => by rw [hg]; exact h, rfl, rfl⟩
  | garbled b rest hn hb hr =>
    rw [promptSecretText_nil hs, hg]
    have : (readLine (b ++ rest)).1 = b := by
      rcases hr with rfl | ⟨r, rfl⟩
      · rw [List.append_nil, readLine_end b hn]
      · rw [readLine_append b hn]
    rw [this, fromUtf8_none hb]
    exact ⟨rfl, fun h => absurd rfl h, rfl, rfl⟩

/-! ## Crashes -/

/-- **C84 (no other crash).**  On files which the program wrote, a run crashes only when all lines of text are used up and
the next one is not UTF-8. -/
theorem C84_only (C : CEnv) (hE : C.env.Lawful) (hS : Secure C.env U) (hoc : C.env.overflowChecks = false) (b : Bool)
    (events : List ShellEvent) (c : Command) (s : CState) (h : SoundReachable C.env U s.ps)
    (he : ∀ e ∈ events, ShellEvent.Within U e) (hl : LinesWithin U s.secrets)
    (hp : (mainInner C b events c s).1 = .panic) :
    s.garbled = true ∧ (mainInner C b events c s).2.secrets = [] := by
  obtain ⟨h1, h2⟩ := main_crash C hE hS hoc b events c s h he hl hp
  rw [still_main] at h2
  exact ⟨h2, h1⟩

/-- It does: creating a storage with a primary password that is not text. -/
example : (mainInner Toy.cenv true [] (.setPrimary true) { Toy.locked with ps := Toy.start, secrets := [], garbled := true }).1
      = .panic ∧ SoundReachable Toy.cenv.env Toy.univ Toy.start ∧ Toy.cenv.env.overflowChecks = false ∧
    LinesWithin Toy.univ ([] : List Str) :=
  ⟨by decide +kernel, Toy.start_sound, rfl, fun _ h => by simp at h⟩

/-- **C84 (nothing written).**  In whatever state: a command that crashes has not touched the file. -/
theorem C84_unwritten (C : CEnv) (hE : C.env.Lawful) (b : Bool) (c : Command) (s : CState)
    (hp : (processCommand C b c s).1 = .panic) : (processCommand C b c s).2.ps.world.disk = s.ps.world.disk :=
  unwritten_command C hE b c s hp

/-- **C84 (runs).**  The same for a run of the program with a command other than `shell`. -/
theorem C84_run (C : CEnv) (hE : C.env.Lawful) (b : Bool) (events : List ShellEvent) (c : Command) (hc : c ≠ .shell)
    (s : CState) (hp : (mainInner C b events c s).1 = .panic) :
    (mainInner C b events c s).2.ps.world.disk = s.ps.world.disk := by
  have h : ∀ c, c ≠ .shell → ∀ t : CState, t.ps.world.disk = s.ps.world.disk → (process C b events c t).1 = .panic →
      (process C b events c t).2.ps.world.disk = s.ps.world.disk := by
    intro c hc t ht hp
    have e : process C b events c t = processCommand C b c t := by
      cases c with
      | shell => exact absurd rfl hc
      | _ => rfl
    rw [e] at hp ⊢
    exact (unwritten_command C hE b c t hp).trans ht
  by_cases hn : ∀ y, c ≠ .setPrimary y
  · rw [mainInner_eq C b events c s hn] at hp ⊢
    cases hd : FileIO.load s.ps.world.disk with
    | ok data => rw [hd] at hp; exact h c hc _ rfl hp
    | err e => rfl
    | panic => rfl
  · have : ∃ y, c = .setPrimary y := by
      cases c with
      | setPrimary y => exact ⟨y, rfl⟩
      | _ => exact absurd (by simp) hn
    obtain ⟨y, rfl⟩ := this
    unfold mainInner at hp ⊢
    dsimp only at hp ⊢
    cases hd : FileIO.load s.ps.world.disk with
    | ok data =>
      rw [hd] at hp
      dsimp only at hp ⊢
      cases y with
      | true => exact h _ hc { s with ps := openWith s.ps.world data } rfl hp
      | false =>
        simp only [Bool.false_eq_true, if_false] at hp ⊢
        unfold confirm at hp ⊢
        cases hx : s.confirms with
        | nil => rfl
        | cons x l =>
          rw [hx] at hp
          cases x with
          | false => cases hp
          | true => exact h _ hc { s with
              ps := openWith s.ps.world data, confirms := l, out := s.out ++ RESET_QUESTION } rfl hp
    | err e => rw [hd] at hp; exact h _ hc { s with ps := openWith s.ps.world [] } rfl hp
    | panic => rfl

/-- **C84 (shell).**  In the shell, the file is as the commands before the one that crashed left it. -/
theorem C84_shell (C : CEnv) (hE : C.env.Lawful) (b : Bool) (events : List ShellEvent) (s : CState)
    (hp : (shellLoop C b events s).1 = .panic) : ∃ pre c post, events = pre ++ .command c :: post ∧
      (shellLoop C b pre s).1 = .ok () ∧ (processCommand C b c (shellLoop C b pre s).2).1 = .panic ∧
      (shellLoop C b events s).2.ps.world.disk = (shellLoop C b pre s).2.ps.world.disk := by
  obtain ⟨pre, c, post, h1, h2, h3, h4, h5⟩ := C69_shell C b events s hp
  exact ⟨pre, c, post, h1, h2, h4, by rw [h5]; exact unwritten_command C hE b c _ h4⟩

/-- **C84 (it happens).**  When the primary password, a password to be stored or notes are asked for and the line is not
UTF-8, the program crashes after the prompt. -/
theorem C84_crash (C : CEnv) (b : Bool) (s : CState) (hs : s.secrets = []) (hg : s.garbled = true) :
    (∀ y, processCommand C b (.setPrimary y) s = (.panic, { s with out := s.out ++ c!"New primary password: " })) ∧
    (Passwords.initialized s.ps = true → s.ps.key = none → ∀ c, c ≠ .shell → (∀ y, c ≠ .setPrimary y) →
      processCommand C b c s = (.panic, { s with out := s.out ++ c!"Your primary password: " })) ∧
    (Passwords.initialized s.ps = true → s.ps.key.isSome = true → ∀ d n r,
      processCommand C b (.addStored d n r false true) s =
        (.panic, { s with out := s.out ++ c!"Password to be stored: " })) ∧
    (Passwords.initialized s.ps = true → s.ps.key.isSome = true → ∀ d n r t,
      ask C.env s.ps (.getNotes d n r) = .ok (.text t) →
      processCommand C b (.notes d n r true) s =
        (.panic, { s with out := s.out ++ notesText t ++ c!"Please enter new notes to be stored:" })) := by
  refine ⟨fun y => ?_, fun hi hk c hc hc' => ?_, fun hi hk d n r => ?_, fun hi hk d n r t ht => ?_⟩
  · show setPrimary C b s = _
    unfold setPrimary
    rw [CM.bind_panic (promptPassword_garbled hs hg)]
  · have he : ensureUnlocked C.env s = (.panic, { s with out := s.out ++ c!"Your primary password: " }) := by
      rw [ensureUnlocked_eq hi, hs, unlockLoop_nil hk]
      simp only [hg, hs, if_true]
      rfl
    have := (C48_commands C b c hc hc' s).2 (by rw [he]; simp)
    rw [this, he]
  · show addStored C.env b d n r false true s = _
    unfold addStored
    rw [CM.bind_ok (C48_already C.env s hk hi), CM.bind_ok (mayOverwrite_free (.inl rfl))]
    simp only [if_true, Bool.false_eq_true, if_false]
    rw [CM.bind_panic (promptPassword_garbled hs hg)]
  · have h : Passwords.getNotes C.env s.ps d n r = .ok t := by
      simp only [ask, run] at ht
      cases hg : Passwords.getNotes C.env s.ps d n r with
      | ok t => rw [hg] at ht; cases ht; rfl
      | err e => rw [hg] at ht; cases ht
      | panic => rw [hg] at ht; cases ht
    have hp : ∀ o : Str, promptSecretText (c!"Please enter new notes to be stored:") { s with out := o } =
        (.panic, { s with out := o ++ c!"Please enter new notes to be stored:" }) := by
      intro o
      rw [promptSecretText_nil (by exact hs)]
      simp only [hg, if_true]
    show notes C.env d n r true s = _
    unfold notes
    rw [CM.bind_ok (C48_already C.env s hk hi), query_bind, h]
    by_cases h0 : t = []
    · subst h0
      simp only [if_true]
      rw [CM.bind_ok (show println _ s = (.ok (), _) from rfl), CM.bind_panic (hp _)]
      rfl
    · simp only [if_neg h0, if_true]
      rw [CM.bind_ok (show println _ s = (.ok (), _) from rfl), CM.bind_panic (hp _)]
      simp only [notesText, if_neg h0]

/-- The storage of the examples, unlocked, has all that is needed for these crashes; locked, for the second one. -/
example : let s := { Toy.unlocked with secrets := [], garbled := true }
    Passwords.initialized s.ps = true ∧ s.ps.key.isSome = true ∧ s.secrets = [] ∧ s.garbled = true ∧
    Passwords.initialized Toy.locked.ps = true ∧ Toy.locked.ps.key = none :=
  ⟨Toy.unlocked_initialized, Toy.one_open.elim fun _ ⟨_, ho⟩ => by rw [show Toy.unlocked.ps = Toy.one from rfl, ho.key],
    rfl, rfl, Toy.locked_initialized, rfl⟩

/-- In a shell: a line that is no command, locking, and then a command that crashes. -/
example : (shellLoop Toy.cenv true [.noCommand, .lock, .command (.list [] [] false false false)]
    { Toy.unlocked with secrets := [], garbled := true }).1 = .panic := by
  decide +kernel

end Pfp.Props
