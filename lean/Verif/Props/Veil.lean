import Verif.Proofs.Veil
import Verif.Proofs.Stdout

/-!
# Values of stored passwords do not pass through the buffer of standard output: C99
-/

namespace Pfp.Props
open Spec Terminal Pfp.Stdout Pfp.Proofs.Veil
open Cli (CEnv Command COut CErr ShellEvent Args Machine parseArgs readLine)

variable {E : Env} {U : Universe}

private theorem veil_true : veil true = veiled := by
  funext e
  simp [veil]

private theorem veil_false : veil false = id := by
  funext e
  simp [veil]

theorem fits_lines {b : Bool} {lines : List Str} (hw : TypedWithin U lines)
    (hf : ∀ line ∈ lines, ∀ c, readLine line = .command c → Fits b c) : ∀ line ∈ lines, LineFits b U line := by
  intro line hl c hc
  have := hw line hl
  rw [hc] at this
  exact ⟨this, hf line hl c hc⟩

/-- C99: a command, on states that differ in the values of stored passwords, has the same result, reads the same lines, prints
the same texts and the same messages, in the same order; only texts written directly may be different. -/
theorem C99_command (T : Dialog) (C : CEnv) (hE : C.env.Lawful) (hS : Secure C.env U) (hT : Tieless U) (i : Bool) (c : Command)
    (hw : Command.Within U c) (hu : Command.Unspoken c) {s s' : TState} (h : VeiledTwins C.env U s s')
    (hl : LinesWithin U s.input) (hp : (∃ y, c = .setPrimary y) → s.ps.key = none) :
    (Terminal.processCommand T C i c s').1 = (Terminal.processCommand T C i c s).1 ∧
      VeiledTwins C.env U (Terminal.processCommand T C i c s).2 (Terminal.processCommand T C i c s').2 := by
  have hs : SyncT true (fun _ => True) U (Twins C.env U) s s' :=
    ⟨h.storage, h.input, by rw [veil_true]; exact h.trace, hl, fun _ _ => trivial⟩
  have go : ∀ {t t' : TState}, SyncT true (fun _ => True) U (Twins C.env U) t t' → VeiledTwins C.env U t t' :=
    fun g => ⟨g.storage, g.input, by rw [← veil_true]; exact g.trace⟩
  by_cases hn : ∃ y, c = .setPrimary y
  · have hk := hp hn
    obtain ⟨y, rfl⟩ := hn
    obtain ⟨h1, h2⟩ := Proofs.Veil.par_setPrimary C hE hS i hs hk
    exact ⟨h1, go h2⟩
  · obtain ⟨h1, h2⟩ := Proofs.Veil.par_command (b := true) T C hE hS hT i c hw hu (fun y e => hn ⟨y, e⟩) s s' hs
    exact ⟨h1, go h2⟩

/-- Runs of the program on files that differ in the values of stored passwords. -/
theorem runs_veiled (b : Bool) (T : Dialog) (C : CEnv) (hE : C.env.Lawful) (hS : Secure C.env U) (hT : Tieless U)
    (argv lines : List Str) (m m' : Machine) (args : Args) (hp : parseArgs argv = some args) (hw : Command.Within U args.command)
    (hd : Fits b args.command) (hl : LinesWithin U lines)
    (hsh : args.command = .shell → ∀ line ∈ lines, LineFits b U line)
    (hm : m'.defaultPath = m.defaultPath) (hh : m'.defaultHistory = m.defaultHistory)
    (hf : ∀ p, p ≠ args.storage.getD m.defaultPath → m'.files p = m.files p)
    (h : Twins C.env U (storageFound m args) (storageFound m' args)) (hload : LoadAlike (storageFound m args).world.disk (storageFound m' args).world.disk) :
    (Terminal.main T C argv lines m').exit = (Terminal.main T C argv lines m).exit ∧
      (Terminal.main T C argv lines m').trace.map (veil b) = (Terminal.main T C argv lines m).trace.map (veil b) ∧
      (Terminal.main T C argv lines m').input = (Terminal.main T C argv lines m).input ∧
      Twins C.env U (Terminal.main T C argv lines m).ps (Terminal.main T C argv lines m').ps ∧
      ∀ p, p ≠ args.storage.getD m.defaultPath →
        (Terminal.main T C argv lines m').files p = (Terminal.main T C argv lines m).files p := by
  have e : ∀ x : Machine, Terminal.main T C argv lines x =
      Terminal.mainEnd C args x
        (Terminal.mainInner T { C with storagePath := args.storage.getD x.defaultPath } args.stdinPasswords args.command
          { ps := storageFound x args, input := lines, trace := [] }).1
        (Terminal.mainInner T { C with storagePath := args.storage.getD x.defaultPath } args.stdinPasswords args.command
          { ps := storageFound x args, input := lines, trace := [] }).2 := by
    intro x
    unfold Terminal.main
    rw [hp]
    rfl
  rw [e, e, hm]
  have hs : SyncT b (fun line => args.command = .shell → LineFits b U line) U (Twins C.env U)
      { ps := storageFound m args, input := lines, trace := [] } { ps := storageFound m' args, input := lines, trace := [] } :=
    ⟨h, rfl, rfl, hl, fun line hx hc => hsh hc line hx⟩
  obtain ⟨h1, h2⟩ := Proofs.Veil.par_main T { C with storagePath := args.storage.getD m.defaultPath } hE hS hT args.stdinPasswords
    args.command hw hd (fun hc line hq => hq hc) hs hload
  revert h1 h2
  generalize Terminal.mainInner T { C with storagePath := args.storage.getD m.defaultPath } args.stdinPasswords args.command
    { ps := storageFound m args, input := lines, trace := [] } = x
  generalize Terminal.mainInner T { C with storagePath := args.storage.getD m.defaultPath } args.stdinPasswords args.command
    { ps := storageFound m' args, input := lines, trace := [] } = x'
  obtain ⟨r, t⟩ := x
  obtain ⟨r', t'⟩ := x'
  intro h1 h2
  have h1 : r' = r := h1
  subst h1
  have h2 : SyncT b _ U (Twins C.env U) t t' := h2
  have hc : commandsRead t'.trace = commandsRead t.trace := by
    rw [← commandsRead_veil b t'.trace, h2.trace, commandsRead_veil]
  have hfile : ∀ p, p ≠ args.storage.getD m.defaultPath →
      (if p = args.storage.getD m.defaultPath then t'.ps.world.disk else m'.files p) =
        (if p = args.storage.getD m.defaultPath then t.ps.world.disk else m.files p) := by
    intro p hp
    rw [if_neg hp, if_neg hp, hf p hp]
  cases r' with
  | ok u =>
    have g := sync_wait args.wait h2
    refine ⟨rfl, g.trace, g.input, g.storage, fun p hp => ?_⟩
    simp only [mainEnd, hm, hh]
    by_cases hcs : args.command = .shell
    · rw [if_pos hcs, if_pos hcs]
      by_cases hph : p = args.history.getD m.defaultHistory
      · rw [if_pos hph, if_pos hph, ← hph, hfile p hp, hf p hp, hc]
      · rw [if_neg hph, if_neg hph]
        exact hfile p hp
    · rw [if_neg hcs, if_neg hcs]
      exact hfile p hp
  | err er =>
    have g := sync_wait args.wait (SyncT.log (e := .err (.error er)) (e' := .err (.error er)) h2 rfl)
    refine ⟨rfl, g.trace, g.input, g.storage, fun p hp => ?_⟩
    simp only [mainEnd, hm]
    exact hfile p hp
  | panic =>
    refine ⟨rfl, h2.trace, h2.input, h2.storage, fun p hp => ?_⟩
    simp only [mainEnd, hm]
    exact hfile p hp
  | blocked =>
    refine ⟨rfl, h2.trace, h2.input, h2.storage, fun p hp => ?_⟩
    simp only [mainEnd, hm]
    exact hfile p hp

/-- C99: runs of the program on files that differ in the values of stored passwords, with the same arguments and the same lines
typed, end in the same way, read the same lines, print the same texts and messages, in the same order, and leave the same other
files (the history of the shell is one); only texts written directly may be different. -/
theorem C99_program (T : Dialog) (C : CEnv) (hE : C.env.Lawful) (hS : Secure C.env U) (hT : Tieless U)
    (argv lines : List Str) (m m' : Machine) (args : Args) (hp : parseArgs argv = some args) (hw : Command.Within U args.command)
    (hu : Command.Unspoken args.command) (hl : LinesWithin U lines)
    (hsh : args.command = .shell → TypedWithin U lines ∧ ∀ line ∈ lines, ShellEvent.Unspoken (readLine line))
    (hm : m'.defaultPath = m.defaultPath) (hh : m'.defaultHistory = m.defaultHistory)
    (hf : ∀ p, p ≠ args.storage.getD m.defaultPath → m'.files p = m.files p)
    (h : Twins C.env U (storageFound m args) (storageFound m' args)) (hload : LoadAlike (storageFound m args).world.disk (storageFound m' args).world.disk) :
    (Terminal.main T C argv lines m').exit = (Terminal.main T C argv lines m).exit ∧
      (Terminal.main T C argv lines m').trace.map veiled = (Terminal.main T C argv lines m).trace.map veiled ∧
      (Terminal.main T C argv lines m').input = (Terminal.main T C argv lines m).input ∧
      Twins C.env U (Terminal.main T C argv lines m).ps (Terminal.main T C argv lines m').ps ∧
      ∀ p, p ≠ args.storage.getD m.defaultPath →
        (Terminal.main T C argv lines m').files p = (Terminal.main T C argv lines m).files p := by
  have := runs_veiled true T C hE hS hT argv lines m m' args hp hw hu hl (fun hc => fits_lines (hsh hc).1 (by
    intro line hx c hr
    have := (hsh hc).2 line hx
    rw [hr] at this
    exact this)) hm hh hf h hload
  rw [veil_true] at this
  exact this

/-- C99: if no command meant to show values is given, the texts written directly are the same too (this is C81 at the terminal). -/
theorem C99_discreet (T : Dialog) (C : CEnv) (hE : C.env.Lawful) (hS : Secure C.env U) (hT : Tieless U)
    (argv lines : List Str) (m m' : Machine) (args : Args) (hp : parseArgs argv = some args) (hw : Command.Within U args.command)
    (hd : Command.Discreet args.command) (hl : LinesWithin U lines)
    (hsh : args.command = .shell → TypedWithin U lines ∧ ∀ line ∈ lines, ShellEvent.Discreet (readLine line))
    (hm : m'.defaultPath = m.defaultPath) (hh : m'.defaultHistory = m.defaultHistory)
    (hf : ∀ p, p ≠ args.storage.getD m.defaultPath → m'.files p = m.files p)
    (h : Twins C.env U (storageFound m args) (storageFound m' args)) (hload : LoadAlike (storageFound m args).world.disk (storageFound m' args).world.disk) :
    (Terminal.main T C argv lines m').exit = (Terminal.main T C argv lines m).exit ∧
      (Terminal.main T C argv lines m').trace = (Terminal.main T C argv lines m).trace ∧
      (Terminal.main T C argv lines m').input = (Terminal.main T C argv lines m).input := by
  have := runs_veiled false T C hE hS hT argv lines m m' args hp hw hd hl (fun hc => fits_lines (hsh hc).1 (by
    intro line hx c hr
    have := (hsh hc).2 line hx
    rw [hr] at this
    exact this)) hm hh hf h hload
  rw [veil_false, List.map_id, List.map_id] at this
  exact ⟨this.1, this.2.1, this.2.2.1⟩

/-! ## The buffer -/

private theorem flush_buffer {o o' : Output} : o'.flush.buffer = o.flush.buffer := rfl

private theorem store_same {o o' : Output} (h : o'.buffer = o.buffer) (x : Bytes) : (o'.store x).buffer = (o.store x).buffer := by
  unfold Output.store
  rw [h]
  split
  · rfl
  · dsimp only
    by_cases h2 : x.length > CAPACITY - o.buffer.length
    · rw [if_pos h2, if_pos h2]
      split <;> rfl
    · rw [if_neg h2, if_neg h2]
      split
      · exact h
      · simp only [h]

private theorem piece_same {o o' : Output} (h : o'.buffer = o.buffer) (x : Bytes) : (o'.piece x).buffer = (o.piece x).buffer := by
  unfold Output.piece
  rw [h]
  split
  · dsimp only
    refine store_same ?_ _
    split
    · exact h
    · rfl
  · dsimp only
    refine store_same ?_ _
    split
    · rfl
    · exact h

private theorem print_same : ∀ (l : List Bytes) {o o' : Output}, o'.buffer = o.buffer → (o'.print l).buffer = (o.print l).buffer
  | [], _, _, h => h
  | x :: l, o, o', h => print_same l (o := o.piece x) (o' := o'.piece x) (piece_same h x)

/-- The buffer does not depend on what is written directly. -/
theorem plays_veiled {l : List Event} {o₁ o₂ : Output} (hp : Plays l o₁ o₂) :
    ∀ {l' : List Event} {o₁' : Output}, l'.map veiled = l.map veiled → o₁'.buffer = o₁.buffer →
    ∃ o₂', Plays l' o₁' o₂' ∧ o₂'.buffer = o₂.buffer := by
  have inv : ∀ {e : Event} {rest l' : List Event}, l'.map veiled = (e :: rest).map veiled →
      ∃ e' rest', l' = e' :: rest' ∧ veiled e' = veiled e ∧ rest'.map veiled = rest.map veiled := by
    intro e rest l' h
    cases l' with
    | nil => cases h
    | cons e' rest' =>
      simp only [List.map_cons, List.cons.injEq] at h
      exact ⟨e', rest', rfl, h⟩
  have plain : ∀ {e e' : Event}, veiled e' = veiled e → (∀ t, e ≠ .out .direct t) → e' = e := by
    intro e e' h hn
    cases e with
    | out w t =>
      cases w with
      | direct => exact absurd rfl (hn t)
      | buffered => cases e' with
        | out w' t' => cases w' <;> simp_all [veiled]
        | _ => simp [veiled] at h
      | asked => cases e' with
        | out w' t' => cases w' <;> simp_all [veiled]
        | _ => simp [veiled] at h
    | _ => cases e' with
        | out w' t' => cases w' <;> simp [veiled] at h
        | _ => exact h
  induction hp with
  | nil o =>
    intro l' o₁' hl hb
    cases l' with
    | nil => exact ⟨o₁', .nil _, hb⟩
    | cons => cases hl
  | buffered text pieces hpc _ ih =>
    intro l' o₁' hl hb
    obtain ⟨e', rest', rfl, h1, h2⟩ := inv hl
    cases plain h1 (by simp)
    obtain ⟨o₂', g1, g2⟩ := ih h2 (print_same pieces hb)
    exact ⟨o₂', .buffered text pieces hpc g1, g2⟩
  | direct text _ ih =>
    intro l' o₁' hl hb
    obtain ⟨e', rest', rfl, h1, h2⟩ := inv hl
    have : ∃ t, e' = .out .direct t := by
      cases e' with
      | out w t => cases w <;> simp_all [veiled]
      | _ => simp [veiled] at h1
    obtain ⟨t, rfl⟩ := this
    obtain ⟨o₂', g1, g2⟩ := ih (o₁' := o₁'.direct (utf8 t)) h2 hb
    exact ⟨o₂', .direct t g1, g2⟩
  | asked text pieces hpc _ ih =>
    intro l' o₁' hl hb
    obtain ⟨e', rest', rfl, h1, h2⟩ := inv hl
    cases plain h1 (by simp)
    obtain ⟨o₂', g1, g2⟩ := ih (o₁' := (o₁'.print pieces).flush) h2 rfl
    exact ⟨o₂', .asked text pieces hpc g1, g2⟩
  | again text pieces hpc _ ih =>
    intro l' o₁' hl hb
    obtain ⟨e', rest', rfl, h1, h2⟩ := inv hl
    cases plain h1 (by simp)
    obtain ⟨o₂', g1, g2⟩ := ih (o₁' := (o₁'.print pieces).flush) h2 rfl
    exact ⟨o₂', .again text pieces hpc g1, g2⟩
  | flush _ ih =>
    intro l' o₁' hl hb
    obtain ⟨e', rest', rfl, h1, h2⟩ := inv hl
    cases plain h1 (by simp)
    obtain ⟨o₂', g1, g2⟩ := ih (o₁' := o₁'.flush) h2 rfl
    exact ⟨o₂', .flush g1, g2⟩
  | err msg _ ih =>
    intro l' o₁' hl hb
    obtain ⟨e', rest', rfl, h1, h2⟩ := inv hl
    cases plain h1 (by simp)
    obtain ⟨o₂', g1, g2⟩ := ih h2 hb
    exact ⟨o₂', .err msg g1, g2⟩
  | read k line _ ih =>
    intro l' o₁' hl hb
    obtain ⟨e', rest', rfl, h1, h2⟩ := inv hl
    cases plain h1 (by simp)
    obtain ⟨o₂', g1, g2⟩ := ih h2 hb
    exact ⟨o₂', .read k line g1, g2⟩

/-- C99: at every moment the buffer of standard output holds what it may also hold, at the same moment, in the run on the file
with other values: nothing in the buffer tells the values apart. -/
theorem C99_buffer (T : Dialog) (C : CEnv) (hE : C.env.Lawful) (hS : Secure C.env U) (hT : Tieless U)
    (argv lines : List Str) (m m' : Machine) (args : Args) (hp : parseArgs argv = some args) (hw : Command.Within U args.command)
    (hu : Command.Unspoken args.command) (hl : LinesWithin U lines)
    (hsh : args.command = .shell → TypedWithin U lines ∧ ∀ line ∈ lines, ShellEvent.Unspoken (readLine line))
    (hm : m'.defaultPath = m.defaultPath) (hh : m'.defaultHistory = m.defaultHistory)
    (hf : ∀ p, p ≠ args.storage.getD m.defaultPath → m'.files p = m.files p)
    (h : Twins C.env U (storageFound m args) (storageFound m' args)) (hload : LoadAlike (storageFound m args).world.disk (storageFound m' args).world.disk)
    (moment : Nat) (o : Output) (ho : Plays ((Terminal.main T C argv lines m).trace.take moment) ⟨[], []⟩ o) :
    ∃ o', Plays ((Terminal.main T C argv lines m').trace.take moment) ⟨[], []⟩ o' ∧ o'.buffer = o.buffer := by
  have := (C99_program T C hE hS hT argv lines m m' args hp hw hu hl hsh hm hh hf h hload).2.1
  exact plays_veiled ho (by rw [List.map_take, List.map_take, this]) rfl

/-! ## Examples: the hypotheses are met -/

/-- A computer with this storage. -/
def machineWith (s : PState) : Machine where
  files p := if p = c!"p" then s.world.disk else none
  defaultPath := c!"p"
  defaultHistory := c!"h"
  state := { Toy.unlocked with ps := s }

example : ∃ args, parseArgs [c!"list", c!"*", c!"--show"] = some args ∧ Command.Within tidyUniv args.command ∧
    Command.Unspoken args.command ∧ Twins Toy.cenv.env tidyUniv (storageFound (machineWith Toy.one) args) (storageFound (machineWith otherOne) args) ∧
    LoadAlike (storageFound (machineWith Toy.one) args).world.disk (storageFound (machineWith otherOne) args).world.disk ∧
    LinesWithin tidyUniv [c!"secret1"] := by
  refine ⟨⟨none, false, false, .list (c!"*") (c!"*") true false false, none⟩, by decide +kernel, trivial, rfl, one_twins, ?_, ?_⟩
  · exact C81_written Toy.env_lawful tidy_secure (.same tidy_fresh) (.setStored (c!"a") (c!"u") [] (c!"x"))
      (.setStored (c!"a") (c!"u") [] (c!"another")) tidy_args tidy_args (.inr ⟨_, _, _, _, _, rfl, rfl⟩) rfl Toy.one_ok
  · intro line hl _
    simp only [List.mem_singleton] at hl
    subst hl
    show _ ∈ Toy.primaries
    decide

/-- A session in the shell. -/
example : TypedWithin tidyUniv [c!"secret1", c!"show a u", c!"exit"] ∧
    ∀ line ∈ [c!"secret1", c!"show a u", c!"exit"], ShellEvent.Unspoken (readLine line) := by
  have h1 : readLine (c!"secret1") = .noCommand := by decide +kernel
  have h2 : readLine (c!"show a u") = .command (.«show» (c!"a") (c!"u") (c!"1") false) := by decide +kernel
  have h3 : readLine (c!"exit") = .exit := by decide +kernel
  constructor
  all_goals
    intro line hl
    simp only [List.mem_cons, List.not_mem_nil, or_false] at hl
    rcases hl with rfl | rfl | rfl
    · rw [h1]; trivial
    · rw [h2]; first | exact ⟨tidy_args.1, tidy_args.2.1, by show _ ∈ Toy.revisions; decide⟩ | rfl
    · rw [h3]; trivial

end Pfp.Props
