import Verif.Spec.Stdout
import Verif.Proofs.Utf8

/-!
# Proofs about standard output (C98)
-/

namespace Pfp.Proofs.Stdout

open Cli Terminal Spec Pfp.Stdout

/-! ## The buffer -/

/-- All bytes, in the file or not. -/
def Output.all (o : Output) : Bytes := o.shown ++ o.buffer

theorem all_flush (o : Output) : Output.all o.flush = Output.all o := by simp [Output.all, Output.flush]

theorem store_all (o : Output) (bytes : Bytes) : Output.all (o.store bytes) = Output.all o ++ bytes := by
  unfold Output.store
  by_cases h1 : bytes.length < CAPACITY - o.buffer.length
  · rw [if_pos h1]; simp [Output.all]
  · rw [if_neg h1]
    dsimp only
    by_cases h2 : bytes.length > CAPACITY - o.buffer.length
    · rw [if_pos h2]
      split
      · simp [Output.all, Output.flush, Output.direct]
      · simp [Output.all, Output.flush]
    · rw [if_neg h2]
      split
      · rename_i h3
        have : o.buffer = [] := by
          have : o.buffer.length = 0 := by
            have : (0 : Nat) < CAPACITY := by decide
            omega
          exact List.length_eq_zero_iff.mp this
        simp [Output.all, Output.direct, this]
      · simp [Output.all]

theorem store_buffer (o : Output) (bytes : Bytes) {x : UInt8} (h : x ∈ (o.store bytes).buffer) : x ∈ o.buffer ∨ x ∈ bytes := by
  have hf : x ∉ o.flush.buffer := by simp [Output.flush]
  unfold Output.store at h
  by_cases h1 : bytes.length < CAPACITY - o.buffer.length
  · rw [if_pos h1] at h
    simpa using h
  · rw [if_neg h1] at h
    dsimp only at h
    by_cases h2 : bytes.length > CAPACITY - o.buffer.length
    · rw [if_pos h2] at h
      split at h
      · exact absurd h hf
      · rcases List.mem_append.mp h with h | h
        · exact absurd h hf
        · exact .inr h
    · rw [if_neg h2] at h
      split at h
      · exact .inl h
      · exact List.mem_append.mp h

theorem splitLines_append (bytes : Bytes) : (Output.splitLines bytes).1 ++ (Output.splitLines bytes).2 = bytes := by
  simp only [Output.splitLines]
  rw [← List.reverse_append, List.takeWhile_append_dropWhile, List.reverse_reverse]

theorem of_mem_takeWhile {α : Type} {p : α → Bool} : ∀ {l : List α} {x : α}, x ∈ l.takeWhile p → p x = true
  | [], _, h => by simp at h
  | a :: l, x, h => by
    rw [List.takeWhile_cons] at h
    split at h
    · rename_i ha
      rcases List.mem_cons.mp h with rfl | h
      · exact ha
      · exact of_mem_takeWhile h
    · simp at h

theorem splitLines_tail (bytes : Bytes) : (10 : UInt8) ∉ (Output.splitLines bytes).2 := by
  intro h
  simp only [Output.splitLines, List.mem_reverse] at h
  have := of_mem_takeWhile h
  simp at this

theorem piece_all (o : Output) (bytes : Bytes) : Output.all (o.piece bytes) = Output.all o ++ bytes := by
  unfold Output.piece
  by_cases h : (10 : UInt8) ∈ bytes
  · rw [if_pos h]
    dsimp only
    rw [store_all]
    by_cases hb : o.buffer = []
    · rw [if_pos hb]
      simp only [Output.all, Output.direct, hb, List.append_nil, List.append_assoc, splitLines_append]
    · rw [if_neg hb, all_flush, store_all, List.append_assoc, splitLines_append]
  · rw [if_neg h]
    dsimp only
    rw [store_all]
    split
    · rw [all_flush]
    · rfl

/-- No line break is in the buffer. -/
def Cut (o : Output) : Prop := (10 : UInt8) ∉ o.buffer

theorem piece_cut {o : Output} (ho : Cut o) (bytes : Bytes) : Cut (o.piece bytes) := by
  unfold Output.piece
  by_cases h : (10 : UInt8) ∈ bytes
  · rw [if_pos h]
    dsimp only
    intro hx
    rcases store_buffer _ _ hx with hx | hx
    · split at hx
      · exact ho (by simpa [Output.direct] using hx)
      · simp [Output.flush] at hx
    · exact splitLines_tail _ hx
  · rw [if_neg h]
    dsimp only
    intro hx
    rcases store_buffer _ _ hx with hx | hx
    · split at hx
      · simp [Output.flush] at hx
      · exact ho hx
    · exact h hx

theorem print_spec : ∀ (pieces : List Bytes) {o : Output}, Cut o →
    Cut (o.print pieces) ∧ Output.all (o.print pieces) = Output.all o ++ pieces.flatten
  | [], o, h => ⟨h, by simp [Output.print]⟩
  | p :: rest, o, h => by
    obtain ⟨h1, h2⟩ := print_spec rest (piece_cut h p)
    refine ⟨h1, ?_⟩
    show Output.all ((o.piece p).print rest) = _
    rw [h2, piece_all]
    simp

/-- After whole lines the buffer is empty. -/
theorem print_lines {o : Output} (ho : o.buffer = []) {text : Str} (ht : WholeLines text) {pieces : List Bytes}
    (hp : pieces.flatten = utf8 text) : o.print pieces = ⟨o.shown ++ utf8 text, []⟩ := by
  obtain ⟨h1, h2⟩ := print_spec pieces (o := o) (by simp [Cut, ho])
  rw [hp] at h2
  simp only [Output.all, ho, List.append_nil] at h2
  have hb : (o.print pieces).buffer = [] := by
    rcases ht with rfl | ⟨start, rfl⟩
    · have : o.print pieces = o := by
        have : ∀ (l : List Bytes) (o : Output), o.buffer = [] → l.flatten = [] → o.print l = o := by
          intro l
          induction l with
          | nil => intro o _ _; rfl
          | cons p rest ih =>
            intro o ho hl
            simp only [List.flatten_cons, List.append_eq_nil_iff] at hl
            have hpiece : o.piece p = o := by
              rw [hl.1]
              have h0 : ([] : Bytes).length < CAPACITY - ([] : Bytes).length := by decide
              cases o
              simp only at ho
              subst ho
              simp [Output.piece, Output.store, CAPACITY]
            show (o.piece p).print rest = o
            rw [hpiece]
            exact ih o ho hl.2
        exact this pieces o ho hp
      rw [this, ho]
    · rcases List.eq_nil_or_concat (o.print pieces).buffer with hb | ⟨init, x, hb⟩
      · exact hb
      · exfalso
        have hn : utf8 (start ++ ['\n']) = utf8 start ++ [10] := by
          rw [utf8_append]
          congr 1
        rw [List.concat_eq_append] at hb
        rw [hb, hn, ← List.append_assoc, ← List.append_assoc] at h2
        have := List.append_inj_right' h2 rfl
        simp only [List.cons.injEq, and_true] at this
        exact h1 (by rw [hb, this]; simp)
  rw [hb, List.append_nil] at h2
  cases hq : o.print pieces
  rw [hq] at hb h2
  simp only at hb h2
  rw [hb, h2]

/-- Text that is flushed. -/
theorem print_flush {o : Output} (ho : o.buffer = []) {text : Str} {pieces : List Bytes} (hp : pieces.flatten = utf8 text) :
    (o.print pieces).flush = ⟨o.shown ++ utf8 text, []⟩ := by
  obtain ⟨-, h2⟩ := print_spec pieces (o := o) (by simp [Cut, ho])
  rw [hp] at h2
  simp only [Output.all, ho, List.append_nil] at h2
  simp only [Output.flush, h2]

/-! ## Traces -/

/-- Text for the buffer consists of whole lines, or a flush follows. -/
def Neat : List Event → Prop
  | [] => True
  | .out .buffered text :: rest => (WholeLines text ∨ ∃ after, rest = .flush :: after) ∧ Neat rest
  | _ :: rest => Neat rest

theorem neat_append : ∀ {a b : List Event}, Neat a → Neat b → Neat (a ++ b)
  | [], _, _, hb => hb
  | .out .buffered text :: rest, b, ha, hb => by
    refine ⟨?_, neat_append (a := rest) ha.2 hb⟩
    rcases ha.1 with h | ⟨after, rfl⟩
    · exact .inl h
    · exact .inr ⟨after ++ b, rfl⟩
  | .out .direct _ :: rest, b, ha, hb => neat_append (a := rest) ha hb
  | .out .asked _ :: rest, b, ha, hb => neat_append (a := rest) ha hb
  | .flush :: rest, b, ha, hb => neat_append (a := rest) ha hb
  | .err _ :: rest, b, ha, hb => neat_append (a := rest) ha hb
  | .again _ :: rest, b, ha, hb => neat_append (a := rest) ha hb
  | .read _ _ :: rest, b, ha, hb => neat_append (a := rest) ha hb

/-- What standard output shows after a part of a neat trace. -/
theorem plays_neat : ∀ {before after : List Event} {o o' : Output}, Neat (before ++ after) → Plays before o o' →
    o.buffer = [] → (∀ rest, after ≠ .flush :: rest) → o' = ⟨o.shown ++ utf8 (displayed before), []⟩
  | [], after, o, o', _, h, ho, _ => by
    cases h
    cases o
    simp only at ho
    subst ho
    simp [displayed, utf8_nil]
  | .out .buffered text :: rest, after, o, o', hn, h, ho, ha => by
    cases h with
    | buffered _ pieces hp h =>
      obtain ⟨hn1, hn2⟩ := hn
      rcases hn1 with hw | ⟨r, hr⟩
      · rw [print_lines ho hw hp] at h
        rw [plays_neat (before := rest) hn2 h rfl ha]
        simp [displayed, utf8_append]
      · -- a flush follows
        cases rest with
        | nil => exact absurd hr (ha r)
        | cons e rest =>
          obtain ⟨rfl, rfl⟩ := List.cons.inj hr
          cases h with
          | flush h =>
            rw [print_flush ho hp] at h
            rw [plays_neat (before := rest) hn2 h rfl ha]
            simp [displayed, utf8_append]
  | .out .direct text :: rest, after, o, o', hn, h, ho, ha => by
    cases h with
    | direct _ h =>
      rw [plays_neat (before := rest) hn h ho ha]
      simp [displayed, utf8_append, Output.direct]
  | .out .asked text :: rest, after, o, o', hn, h, ho, ha => by
    cases h with
    | asked _ pieces hp h =>
      rw [print_flush ho hp] at h
      rw [plays_neat (before := rest) hn h rfl ha]
      simp [displayed, utf8_append]
  | .again text :: rest, after, o, o', hn, h, ho, ha => by
    cases h with
    | again _ pieces hp h =>
      rw [print_flush ho hp] at h
      rw [plays_neat (before := rest) hn h rfl ha]
      simp [displayed, utf8_append]
  | .flush :: rest, after, o, o', hn, h, ho, ha => by
    cases h with
    | flush h =>
      rw [plays_neat (before := rest) hn h rfl ha]
      simp [displayed, Output.flush, ho]
  | .err _ :: rest, after, o, o', hn, h, ho, ha => by
    cases h with
    | err _ h =>
      rw [plays_neat (before := rest) hn h ho ha]
      simp [displayed]
  | .read _ _ :: rest, after, o, o', hn, h, ho, ha => by
    cases h with
    | read _ _ h =>
      rw [plays_neat (before := rest) hn h ho ha]
      simp [displayed]

/-! ## Computations -/

/-- What is logged is neat. -/
def Adds (s s' : TState) : Prop := ∃ new, s'.trace = s.trace ++ new ∧ Neat new

theorem adds_refl (s : TState) : Adds s s := ⟨[], by simp, trivial⟩

theorem adds_same {s s' : TState} (h : s'.trace = s.trace) : Adds s s' := ⟨[], by simp [h], trivial⟩

theorem adds_trans {a b c : TState} (h₁ : Adds a b) (h₂ : Adds b c) : Adds a c := by
  obtain ⟨x, hx, nx⟩ := h₁
  obtain ⟨y, hy, ny⟩ := h₂
  exact ⟨x ++ y, by rw [hy, hx, List.append_assoc], neat_append nx ny⟩

/-- An event that is not text for the buffer. -/
theorem adds_log (s : TState) (e : Event) (h : Neat [e]) : Adds s (s.log e) := ⟨[e], rfl, h⟩

theorem adds_take (s : TState) (k : Kind) (line : Str) (rest : List Str) : Adds s (s.take k line rest) :=
  ⟨[.read k line], rfl, trivial⟩

/-- A computation logging neatly. -/
def Tidy {α : Type} (m : TM α) : Prop := ∀ s, Adds s (m s).2

variable {α β : Type}

theorem tidy_pure (a : α) : Tidy (pure a : TM α) := fun s => adds_refl s

theorem tidy_bind {m : TM α} {f : α → TM β} (hm : Tidy m) (hf : ∀ a, Tidy (f a)) : Tidy (m >>= f) := by
  intro s
  have h : (m >>= f) s = TM.bind m f s := rfl
  rw [h]
  unfold TM.bind
  have h1 := hm s
  revert h1
  rcases m s with ⟨out, s'⟩
  intro h1
  cases out with
  | ok a => exact adds_trans h1 (hf a s')
  | err e => exact h1
  | panic => exact h1
  | blocked => exact h1

theorem tidy_ite {c : Prop} [Decidable c] {m n : TM α} (hm : Tidy m) (hn : Tidy n) : Tidy (if c then m else n) := by
  split <;> assumption

theorem tidy_fail (e : CErr) : Tidy (TM.fail e : TM α) := fun s => adds_refl s
theorem tidy_block : Tidy (TM.block : TM α) := fun s => adds_refl s
theorem tidy_query (f : PState → Res α) : Tidy (query f) := fun s => adds_refl s
theorem tidy_call (m : M PState α) : Tidy (call m) := fun _ => adds_same rfl
theorem tidy_write (text : Str) : Tidy (Terminal.write text) := fun s => adds_log s _ trivial
theorem tidy_flush : Tidy Terminal.flush := fun s => adds_log s _ trivial

theorem tidy_print {text : Str} (h : WholeLines text) : Tidy (Terminal.print text) := fun s => adds_log s _ ⟨.inl h, trivial⟩

theorem tidy_println (text : Str) : Tidy (Terminal.println text) := tidy_print (.inr ⟨text, rfl⟩)

/-- Text that is flushed. -/
theorem tidy_flushed {text : Str} {m : TM α} (hm : Tidy m) :
    Tidy (Terminal.print text >>= fun _ => Terminal.flush >>= fun _ => m) := fun s =>
  adds_trans (b := (s.log (.out .buffered text)).log .flush)
    ⟨[.out .buffered text, .flush], by simp [TState.log], ⟨.inr ⟨[], rfl⟩, trivial⟩⟩ (hm _)

/-! ## Prompts -/

theorem tidy_promptSecretText (prompt : Str) : Tidy (Terminal.promptSecretText prompt) := by
  intro s
  unfold Terminal.promptSecretText
  dsimp only
  split
  · exact adds_log s _ trivial
  · exact adds_trans (adds_log s (.out .direct prompt) trivial) (adds_take _ _ _ _)

theorem tidy_promptPassword (prompt : Str) (b : Bool) : Tidy (Terminal.promptPassword prompt b) := by
  intro s
  unfold Terminal.promptPassword
  dsimp only
  split
  · cases b <;> exact adds_log s _ trivial
  · exact adds_trans (adds_log s (.out .direct prompt) trivial) (adds_take _ _ _ _)

theorem tidy_confirmLoop (T : Dialog) (q : Str) : ∀ lines, Tidy (Terminal.confirmLoop T q lines)
  | [] => tidy_block
  | line :: rest => by
    intro s
    unfold Terminal.confirmLoop
    dsimp only
    cases T.reply q line with
    | some b => exact adds_take _ _ _ _
    | none =>
      exact adds_trans (adds_take s (.yesNo q) line rest)
        (adds_trans (adds_log _ (.again q) trivial) (tidy_confirmLoop T q rest _))

theorem tidy_confirm (T : Dialog) (q : Str) : Tidy (Terminal.confirm T q) := fun s =>
  adds_trans (adds_log s (.out .asked q) trivial) (tidy_confirmLoop T q _ _)

theorem tidy_unlockLoop (E : Env) : ∀ lines, Tidy (Terminal.unlockLoop E lines)
  | [] => by
    intro s
    unfold Terminal.unlockLoop
    split
    · exact adds_refl s
    · exact adds_log s _ trivial
  | line :: rest => by
    intro s
    unfold Terminal.unlockLoop
    dsimp only
    split
    · exact adds_refl s
    · have h0 : Adds s ((s.log (.out .direct PRIMARY_PROMPT)).take .secret line rest) :=
        adds_trans (adds_log s (.out .direct PRIMARY_PROMPT) trivial) (adds_take _ _ _ _)
      split
      · exact adds_trans h0 (adds_trans (adds_log _ (.err (.error .primaryTooShort)) trivial) (tidy_unlockLoop E rest _))
      · rcases Passwords.unlock E (trim line) ((s.log (.out .direct PRIMARY_PROMPT)).take .secret line rest).ps with ⟨r, ps⟩
        cases r with
        | panic => exact adds_trans h0 (adds_same rfl)
        | err e => exact adds_trans h0 (adds_trans (adds_same rfl) (adds_trans
            (adds_log _ (.err (.error (.lib e))) trivial) (tidy_unlockLoop E rest _)))
        | ok a => exact adds_trans h0 (adds_trans (adds_same rfl) (tidy_unlockLoop E rest _))

theorem tidy_ensureUnlocked (E : Env) : Tidy (Terminal.ensureUnlocked E) := by
  intro s
  unfold Terminal.ensureUnlocked
  split
  · exact adds_refl s
  · exact tidy_unlockLoop E _ s

theorem tidy_recoveryLoop (T : Dialog) (E : Env) : ∀ lines accepted, Tidy (Terminal.recoveryLoop T E accepted lines)
  | [], accepted => by
    intro s
    unfold Terminal.recoveryLoop
    exact adds_log s _ trivial
  | typed :: rest, accepted => by
    intro s
    unfold Terminal.recoveryLoop
    dsimp only
    have h0 : Adds s ((s.log (.out .asked RECOVERY_PROMPT)).take .code typed rest) :=
      adds_trans (adds_log s (.out .asked RECOVERY_PROMPT) trivial) (adds_take _ _ _ _)
    generalize (s.log (.out .asked RECOVERY_PROMPT)).take .code typed rest = s₀ at h0
    cases T.answer typed with
    | none => exact adds_trans h0 (tidy_recoveryLoop T E rest _ _)
    | some line =>
      dsimp only
      split
      · exact h0
      · cases okOr s₀.ps.primaryPassword .passwordsLocked with
        | panic => exact h0
        | err e => exact h0
        | ok primary =>
          dsimp only
          generalize RecoveryCodes.decode E.prims E.overflowChecks (accepted ++ utf8 line) primary = d
          cases d with
          | ok v => exact h0
          | panic => exact h0
          | err e =>
            cases e
            case recoveryCodeExtraData n =>
              dsimp only
              cases firstLines (RecoveryCodes.formatCode (accepted ++ utf8 line) true) n with
              | none => exact h0
              | some acc =>
                dsimp only
                have h1 := tidy_confirm T (extraQuestion acc) s₀
                revert h1
                rcases Terminal.confirm T (extraQuestion acc) s₀ with ⟨out, s₁⟩
                intro h1
                cases out with
                | ok b => cases b <;> exact adds_trans h0 h1
                | _ => exact adds_trans h0 h1
            case recoveryCodeChecksumMismatch n =>
              dsimp only
              cases firstLines (RecoveryCodes.formatCode (accepted ++ utf8 line) true) n with
              | none => exact h0
              | some acc =>
                exact adds_trans h0 (adds_trans (adds_log _ (.err (.typo acc)) trivial) (tidy_recoveryLoop T E rest _ _))
            case recoveryCodeIncomplete =>
              exact adds_trans h0 (adds_trans (adds_log _ (.err .incomplete) trivial) (tidy_recoveryLoop T E rest _ _))
            all_goals exact h0

theorem tidy_promptRecoveryCode (T : Dialog) (E : Env) : Tidy (Terminal.promptRecoveryCode T E) := fun s =>
  tidy_recoveryLoop T E _ _ s

/-! ## Commands -/

theorem tidy_setPrimary (C : CEnv) (b : Bool) : Tidy (Terminal.setPrimary C b) :=
  tidy_bind (tidy_promptPassword _ _) fun _ => tidy_ite (tidy_fail _) (tidy_bind (tidy_promptPassword _ _) fun _ =>
    tidy_ite (tidy_fail _) (tidy_bind (tidy_call _) fun _ => tidy_println _))

theorem tidy_mayOverwrite (T : Dialog) (E : Env) (d n r : Str) (b : Bool) : Tidy (Terminal.mayOverwrite T E d n r b) := by
  intro s
  unfold Terminal.mayOverwrite
  split
  · exact adds_refl s
  · cases (Passwords.has E s.ps d n r).unwrapOr false with
    | ok v =>
      cases v with
      | true => exact tidy_confirm T _ s
      | false => exact adds_refl s
    | err e => exact adds_refl s
    | panic => exact adds_refl s

theorem tidy_add (T : Dialog) (E : Env) (d n r : Str) (l : UInt64) (c : CharacterSet) (b : Bool) :
    Tidy (Terminal.add T E d n r l c b) :=
  tidy_bind (tidy_ensureUnlocked E) fun _ => tidy_ite (tidy_fail _) (tidy_bind (tidy_mayOverwrite _ _ _ _ _ _) fun _ =>
    tidy_ite (tidy_bind (tidy_call _) fun _ => tidy_println _) (tidy_pure _))

theorem tidy_addStored (T : Dialog) (E : Env) (sp : Bool) (d n r : Str) (rec b : Bool) :
    Tidy (Terminal.addStored T E sp d n r rec b) := by
  refine tidy_bind (tidy_ensureUnlocked E) fun _ => tidy_bind (tidy_mayOverwrite _ _ _ _ _ _) fun _ => tidy_ite ?_ (tidy_pure _)
  have h : ∀ p, Tidy (call (Passwords.setStored E d n r p) >>= fun _ => Terminal.println (c!"Password added.")) := fun p =>
    tidy_bind (tidy_call _) fun _ => tidy_println _
  exact tidy_ite (tidy_bind (tidy_promptRecoveryCode T E) h) (tidy_bind (tidy_promptPassword _ _) h)

theorem tidy_remove (E : Env) (d n r : Str) : Tidy (Terminal.remove E d n r) :=
  tidy_bind (tidy_ensureUnlocked E) fun _ => tidy_bind (tidy_call _) fun _ => tidy_println _

theorem tidy_show (C : CEnv) (d n r : Str) (q : Bool) : Tidy (Terminal.«show» C d n r q) := by
  refine tidy_bind (tidy_ensureUnlocked _) fun _ => tidy_bind (tidy_query _) fun p => tidy_bind (tidy_write _) fun _ => tidy_ite ?_
    (tidy_bind (tidy_write _) fun _ => tidy_write _)
  cases C.qr p with
  | some q => exact tidy_write _
  | none => exact tidy_fail _

theorem tidy_notes (E : Env) (d n r : Str) (b : Bool) : Tidy (Terminal.notes E d n r b) := by
  refine tidy_bind (tidy_ensureUnlocked E) fun _ => tidy_bind (tidy_query _) fun notes => ?_
  have hset : Tidy (if b then (do
      let notes ← Terminal.promptSecretText (c!"Please enter new notes to be stored:")
      call (Passwords.setNotes E d n r notes)
      if notes = [] then Terminal.println (c!"Notes removed.") else Terminal.println (c!"Notes stored.")) else pure ()) :=
    tidy_ite (tidy_bind (tidy_promptSecretText _) fun _ => tidy_bind (tidy_call _) fun _ =>
      tidy_ite (tidy_println _) (tidy_println _)) (tidy_pure _)
  exact tidy_ite (tidy_bind (tidy_println _) fun _ => hset)
    (tidy_bind (tidy_bind (tidy_write _) fun _ => tidy_bind (tidy_write _) fun _ => tidy_write _) fun _ => hset)

theorem tidy_alias (E : Env) (d : Str) (t : Option Str) (b : Bool) : Tidy (Terminal.alias E d t b) := by
  refine tidy_bind (tidy_ensureUnlocked E) fun _ => ?_
  cases t with
  | some target => exact tidy_bind (tidy_call _) fun _ => tidy_println _
  | none =>
    exact tidy_ite (tidy_bind (tidy_call _) fun _ => tidy_println _) (tidy_bind (tidy_query _) fun _ => tidy_println _)

theorem wholeLines_flatMap (f : Bytes → Str) : ∀ l : List Bytes, WholeLines (l.flatMap fun line => c!"        " ++ f line ++ ['\n'])
  | [] => .inl rfl
  | a :: l => by
    rcases wholeLines_flatMap f l with h | ⟨start, h⟩
    · exact .inr ⟨c!"        " ++ f a, by rw [List.flatMap_cons, h, List.append_nil]⟩
    · exact .inr ⟨c!"        " ++ f a ++ ['\n'] ++ start, by rw [List.flatMap_cons, h]; simp⟩

theorem tidy_printPasswords (E : Env) (site : Str) (sv rec vb : Bool) : ∀ l, Tidy (Terminal.printPasswords E site sv rec vb l)
  | [] => tidy_pure _
  | p :: rest => by
    have ih := tidy_printPasswords E site sv rec vb rest
    have hvalue : Tidy (Terminal.printValue E site p) :=
      tidy_flushed (tidy_bind (tidy_query _) fun _ => tidy_bind (tidy_write _) fun _ => tidy_println _)
    have hrec : Tidy (Terminal.printRecovery E p) := by
      cases p with
      | generated p => exact tidy_pure _
      | stored p =>
        exact tidy_bind (tidy_println _) fun _ => tidy_bind (tidy_call _) fun code => tidy_print (wholeLines_flatMap _ _)
    have hpar : ∀ p, Tidy (Terminal.printParameters p) := fun p => tidy_bind (tidy_println _) fun _ => tidy_println _
    have hdet' : ∀ p : Password, Tidy (match p with
        | .generated p => Terminal.printParameters p
        | .stored _ => pure ()) := fun p => by
      cases p with
      | generated p => exact hpar p
      | stored p => exact tidy_pure _
    have hnotes : Tidy (Terminal.printNotes p.notes) := tidy_flushed (tidy_bind (tidy_write _) fun _ => tidy_println _)
    have hdet : Tidy (Terminal.printDetails p) := tidy_ite (tidy_bind hnotes fun _ => hdet' p) (hdet' p)
    have h3 : Tidy (if vb then Terminal.printDetails p >>= fun _ => Terminal.printPasswords E site sv rec vb rest
        else Terminal.printPasswords E site sv rec vb rest) := tidy_ite (tidy_bind hdet fun _ => ih) ih
    have h2 := tidy_ite (c := rec = true) (tidy_bind hrec fun _ => h3) h3
    exact tidy_bind (tidy_println _) fun _ => tidy_ite (tidy_bind hvalue fun _ => h2) h2

theorem tidy_listLoop (E : Env) (name : Str) (sv rec vb : Bool) (cand : List Site) :
    ∀ l, Tidy (Terminal.listLoop E name sv rec vb cand l)
  | [] => tidy_pure _
  | site :: rest => by
    have ih := tidy_listLoop E name sv rec vb cand rest
    refine tidy_bind (tidy_query _) fun list => tidy_ite (tidy_bind ih fun ⟨_, _⟩ => tidy_pure _) ?_
    have h2 : ∀ l, Tidy (Terminal.printPasswords E site sv rec vb l >>= fun _ =>
        Terminal.listLoop E name sv rec vb cand rest >>= fun
          | (_, empty) => pure (true, empty)) := fun l =>
      tidy_bind (tidy_printPasswords _ _ _ _ _ _) fun _ => tidy_bind ih fun ⟨_, _⟩ => tidy_pure _
    exact tidy_bind (tidy_println _) fun _ => tidy_ite (tidy_bind (tidy_println _) fun _ => h2 _) (h2 _)

theorem tidy_list (E : Env) (d n : Str) (sv rec vb : Bool) : Tidy (Terminal.list E d n sv rec vb) :=
  tidy_bind (tidy_ensureUnlocked E) fun _ => tidy_bind (tidy_query _) fun _ => tidy_bind (tidy_listLoop _ _ _ _ _ _ _) fun ⟨_, _⟩ =>
    tidy_bind (tidy_call _) fun _ => tidy_ite (tidy_pure _) (tidy_println _)

/-! ## The program -/

theorem tidy_processCommand (T : Dialog) (C : CEnv) (b : Bool) : ∀ c, Tidy (Terminal.processCommand T C b c)
  | .setPrimary _ => tidy_setPrimary _ _
  | .add .. => tidy_add _ _ _ _ _ _ _ _
  | .addStored .. => tidy_addStored _ _ _ _ _ _ _ _
  | .remove .. => tidy_remove _ _ _ _
  | .«show» .. => tidy_show _ _ _ _ _
  | .notes .. => tidy_notes _ _ _ _ _
  | .list .. => tidy_list _ _ _ _ _ _
  | .alias .. => tidy_alias _ _ _ _
  | .shell => tidy_pure _

theorem adds_processLine (T : Dialog) (C : CEnv) (b : Bool) (c : Command) (s : TState) :
    Adds s (match Terminal.processCommand T C b c s with
      | (.err e, s') => ((.ok (), s'.log (.err (.error e))) : COut Unit × TState)
      | (.ok _, s') => (.ok (), s'.log .flush)
      | r => r).2 := by
  have h := tidy_processCommand T C b c s
  revert h
  rcases Terminal.processCommand T C b c s with ⟨out, s'⟩
  intro h
  cases out with
  | ok a => exact adds_trans h (adds_log _ .flush trivial)
  | err e => exact adds_trans h (adds_log _ (.err (.error e)) trivial)
  | panic => exact h
  | blocked => exact h

theorem tidy_shellLine (T : Dialog) (C : CEnv) (b : Bool) : ∀ ev, Tidy (Terminal.shellLine T C b ev)
  | .noCommand => fun s => adds_log s _ trivial
  | .exit => tidy_pure _
  | .lock => fun s => adds_trans (adds_same (s' := { s with ps := Passwords.lock s.ps }) rfl)
      (adds_log _ (.out .buffered (c!"Passwords locked.\n")) ⟨.inl (.inr ⟨c!"Passwords locked.", rfl⟩), trivial⟩)
  | .command .shell => fun s => adds_log s _ trivial
  | .command (.setPrimary _) => fun s => adds_log s _ trivial
  | .command (.add ..) => adds_processLine T C b _
  | .command (.addStored ..) => adds_processLine T C b _
  | .command (.remove ..) => adds_processLine T C b _
  | .command (.«show» ..) => adds_processLine T C b _
  | .command (.notes ..) => adds_processLine T C b _
  | .command (.list ..) => adds_processLine T C b _
  | .command (.alias ..) => adds_processLine T C b _

theorem tidy_shellLoop (T : Dialog) (C : CEnv) (b : Bool) : ∀ n, Tidy (Terminal.shellLoop T C b n)
  | 0 => tidy_pure _
  | n + 1 => by
    intro s
    unfold Terminal.shellLoop
    cases s.input with
    | nil => exact adds_refl s
    | cons line rest =>
      dsimp only
      split
      · exact adds_take _ _ _ _
      · have h := tidy_shellLine T C b (readLine line) (s.take .command line rest)
        revert h
        rcases Terminal.shellLine T C b (readLine line) (s.take .command line rest) with ⟨out, s'⟩
        intro h
        have h := adds_trans (adds_take s .command line rest) h
        cases out with
        | ok a => exact adds_trans h (tidy_shellLoop T C b n s')
        | err e => exact h
        | panic => exact h
        | blocked => exact h

theorem tidy_process (T : Dialog) (C : CEnv) (b : Bool) : ∀ c, Tidy (Terminal.process T C b c)
  | .shell => fun s => adds_trans (adds_trans (adds_log s (.out .buffered
      (c!"Enter a command or type 'help' for a list of commands. Enter 'help <command>' for detailed information on a command.\n"))
      ⟨.inl (.inr ⟨c!"Enter a command or type 'help' for a list of commands. Enter 'help <command>' for detailed information on a command.",
        rfl⟩), trivial⟩) (adds_log _ .flush trivial)) (tidy_shellLoop T C b _ _)
  | .setPrimary _ => tidy_processCommand T C b _
  | .add .. => tidy_processCommand T C b _
  | .addStored .. => tidy_processCommand T C b _
  | .remove .. => tidy_processCommand T C b _
  | .«show» .. => tidy_processCommand T C b _
  | .notes .. => tidy_processCommand T C b _
  | .list .. => tidy_processCommand T C b _
  | .alias .. => tidy_processCommand T C b _

theorem tidy_opened (T : Dialog) (C : CEnv) (b : Bool) (c : Command) (s : TState) (ps : PState) :
    Adds s (Terminal.process T C b c { s with ps }).2 :=
  adds_trans (adds_same rfl) (tidy_process T C b c { s with ps })

theorem adds_other (T : Dialog) (C : CEnv) (b : Bool) (c : Command) (s : TState) :
    Adds s (match FileIO.load s.ps.world.disk with
      | .ok data => Terminal.process T C b c { s with ps := openWith s.ps.world data }
      | .err e => (.err (.lib e), s)
      | .panic => (.panic, s)).2 := by
  cases FileIO.load s.ps.world.disk with
  | ok data => exact tidy_opened T C b c s _
  | err e => exact adds_refl s
  | panic => exact adds_refl s

theorem tidy_mainInner (T : Dialog) (C : CEnv) (b : Bool) : ∀ c, Tidy (Terminal.mainInner T C b c)
  | .setPrimary assumeYes => by
    intro s
    unfold Terminal.mainInner
    dsimp only
    cases FileIO.load s.ps.world.disk with
    | ok data =>
      dsimp only
      split
      · exact tidy_opened T C b _ s _
      · have h := tidy_confirm T RESET_QUESTION s
        revert h
        rcases Terminal.confirm T RESET_QUESTION s with ⟨out, s'⟩
        intro h
        cases out with
        | ok v =>
          cases v with
          | true => exact adds_trans h (tidy_opened T C b _ s' _)
          | false => exact h
        | _ => exact h
    | err e => exact tidy_opened T C b _ s _
    | panic => exact adds_refl s
  | .shell => adds_other T C b _
  | .add .. => adds_other T C b _
  | .addStored .. => adds_other T C b _
  | .remove .. => adds_other T C b _
  | .«show» .. => adds_other T C b _
  | .notes .. => adds_other T C b _
  | .list .. => adds_other T C b _
  | .alias .. => adds_other T C b _

theorem adds_waitEnd (w : Bool) (s : TState) : Adds s (Terminal.waitEnd w s) := by
  unfold Terminal.waitEnd
  split
  · have h : Adds s ((s.log .flush).log (.out .direct (c!"\nWaiting...\n"))) :=
      adds_trans (adds_log s .flush trivial) (adds_log _ (.out .direct (c!"\nWaiting...\n")) trivial)
    dsimp only
    split
    · exact h
    · exact adds_trans h (adds_take _ _ _ _)
  · exact adds_refl s

theorem neat_main (T : Dialog) (C : CEnv) (argv lines : List Str) (m : Cli.Machine) : Neat (Terminal.main T C argv lines m).trace := by
  unfold Terminal.main
  cases parseArgs argv with
  | none => trivial
  | some args =>
    dsimp only
    have h := tidy_mainInner T { C with storagePath := args.storage.getD m.defaultPath } args.stdinPasswords args.command
      { ps := { m.state.ps with world := { m.state.ps.world with disk := m.files (args.storage.getD m.defaultPath) } }
        input := lines, trace := [] }
    revert h
    rcases Terminal.mainInner T { C with storagePath := args.storage.getD m.defaultPath } args.stdinPasswords args.command
      { ps := { m.state.ps with world := { m.state.ps.world with disk := m.files (args.storage.getD m.defaultPath) } }
        input := lines, trace := [] } with ⟨out, s⟩
    intro h
    have key : ∀ s' : TState, Adds { ps := { m.state.ps with
        world := { m.state.ps.world with disk := m.files (args.storage.getD m.defaultPath) } }, input := lines, trace := [] } s' →
        Neat s'.trace := by
      rintro s' ⟨new, h1, h2⟩
      rw [h1, List.nil_append]
      exact h2
    cases out with
    | ok a => exact key _ (adds_trans h (adds_waitEnd _ s))
    | err e => exact key _ (adds_trans h (adds_trans (adds_log s (.err (.error e)) trivial) (adds_waitEnd _ _)))
    | panic => exact key _ h
    | blocked => exact key _ h

end Pfp.Proofs.Stdout
