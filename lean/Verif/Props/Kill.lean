import Verif.Proofs.OneWrite
import Verif.Proofs.ToyCli
import Verif.Props.Crash

/-! # C85: killing the program -/

namespace Pfp.Props
open Pfp Cli Spec

theorem flush_entries (E : Env) (w : World) : FileIO.entries E (FileIO.flush E w).2 = FileIO.entries E w := by
  unfold FileIO.flush
  dsimp only
  cases E.fs w.fpos <;> rfl

theorem flush_count (E : Env) (w : World) : (FileIO.flush E w).2.fpos = w.fpos + 1 := by
  unfold FileIO.flush
  dsimp only
  cases E.fs w.fpos <;> rfl

/-- **C85 (at most one write).**  A command does not touch the file, or it writes it exactly once, the contents being those
in memory at the end. -/
theorem C85_once (C : CEnv) (hE : C.env.Lawful) (b : Bool) (c : Command) (s : CState) :
    let w := (processCommand C b c s).2.ps.world
    (w.fpos = s.ps.world.fpos ∧ w.disk = s.ps.world.disk) ∨
    (w.fpos = s.ps.world.fpos + 1 ∧ w.disk =
      match C.env.fs s.ps.world.fpos with
      | .ok => some (FileIO.contents (FileIO.entries C.env w))
      | .createDirFailure => s.ps.world.disk
      | .openFailure => s.ps.world.disk
      | .writeFailure n => some ((FileIO.contents (FileIO.entries C.env w)).take n)) := by
  dsimp only
  rcases twin_command C hE C.env.fs b c s with ⟨-, h1, h2⟩ | ⟨w, h1, h2, h3, -, -⟩
  · exact .inl ⟨h2, h1⟩
  · refine .inr ?_
    rw [h3, flush_entries, flush_count, h2, ← h1, ← h2]
    refine ⟨rfl, ?_⟩
    unfold FileIO.flush
    dsimp only
    cases C.env.fs w.fpos <;> rfl

theorem killed_later {C : CEnv} {n i : Nat} {k : Option Nat} (h : i < n) : (killed C n k).env.fs i = C.env.fs i := by
  show killedFs C.env.fs n k i = _
  unfold killedFs
  rw [if_pos h]

/-- What a command killed at a write does to the file. -/
theorem command_killed (C : CEnv) (hE : C.env.Lawful) (b : Bool) (c : Command) (s : CState) (n : Nat) (k : Option Nat) :
    (s.ps.world.fpos < n → processCommand (killed C n k) b c s = processCommand C b c s) ∧
    (s.ps.world.fpos = n → Interrupted C.env s.ps.world (processCommand C b c s).2.ps.world
      (processCommand (killed C n k) b c s).2.ps.world.disk) ∧
    (n < s.ps.world.fpos → (processCommand (killed C n k) b c s).2.ps.world.disk = s.ps.world.disk) ∧
    s.ps.world.fpos ≤ (processCommand (killed C n k) b c s).2.ps.world.fpos ∧
    (s.ps.world.fpos = n → (processCommand (killed C n k) b c s).2.ps.world.fpos = n →
      processCommand (killed C n k) b c s = processCommand C b c s) := by
  rcases twin_command C hE (killedFs C.env.fs n k) b c s with ⟨h1, h2, h3⟩ | ⟨w, h1, h2, h3, h4, h5⟩
  · have e : processCommand (killed C n k) b c s = processCommand C b c s := h1.symm
    rw [e]
    exact ⟨fun _ => rfl, fun _ => .inl h2, fun _ => h2, Nat.le_of_eq h3.symm, fun _ _ => rfl⟩
  · have e : (processCommand (killed C n k) b c s).2.ps.world = (FileIO.flush (killed C n k).env w).2 := h4
    have hf := flush_count (killed C n k).env w
    refine ⟨fun h => ?_, fun h => ?_, fun h => ?_, ?_, fun h h' => ?_⟩
    · exact (h5 (by rw [h2]; exact (killed_later h).symm)).symm
    · unfold Interrupted
      rw [e, h3, flush_entries, flush_count, ← h1, ← h2]
      have : ∀ k, (killed C n k).env.fs w.fpos = match k with | none => .openFailure | some k => .writeFailure k := by
        intro k
        show killedFs C.env.fs n k w.fpos = _
        unfold killedFs
        rw [if_neg (by omega), if_pos (by omega)]
        rfl
      unfold FileIO.flush
      rw [this]
      cases k with
      | none => exact .inl rfl
      | some k => exact .inr ⟨rfl, k, rfl⟩
    · rw [e, ← h1]
      have : (killed C n k).env.fs w.fpos = .openFailure := by
        show killedFs C.env.fs n k w.fpos = _
        unfold killedFs
        rw [if_neg (by omega), if_neg (by omega)]
      unfold FileIO.flush
      rw [this]
    · rw [e, hf, h2]; omega
    · rw [e, hf] at h'; omega

/-- **C85 (commands).**  A command killed at any moment leaves the file as it was, or the first bytes of what it would have
written in the end. -/
theorem C85_command (C : CEnv) (hE : C.env.Lawful) (b : Bool) (c : Command) (s : CState) (k : Option Nat) :
    Interrupted C.env s.ps.world (processCommand C b c s).2.ps.world
      (processCommand (killed C s.ps.world.fpos k) b c s).2.ps.world.disk :=
  (command_killed C hE b c s _ k).2.1 rfl

/-- What becomes of a shell after a command. -/
def goOn (C : CEnv) (b : Bool) (rest : List ShellEvent) : COut Unit × CState → COut Unit × CState
  | (.ok _, s') => shellLoop C b rest s'
  | (.err e, s') => shellLoop C b rest { s' with errors := s'.errors ++ [.error e] }
  | (.panic, s') => (.panic, s')
  | (.blocked, s') => (.blocked, s')

theorem shellLoop_goOn (C : CEnv) (b : Bool) (c : Command) (rest : List ShellEvent) (s : CState) (h1 : c ≠ .shell)
    (h2 : ∀ y, c ≠ .setPrimary y) : shellLoop C b (.command c :: rest) s = goOn C b rest (processCommand C b c s) := by
  rw [shellLoop_command C b c rest s h1 h2]
  cases processCommand C b c s with
  | mk r s' => cases r <;> rfl

/-- After having been killed, a shell changes nothing any more. -/
theorem shell_dead (C : CEnv) (hE : C.env.Lawful) (b : Bool) (n : Nat) (k : Option Nat) :
    ∀ (events : List ShellEvent) (s : CState), n < s.ps.world.fpos →
      (shellLoop (killed C n k) b events s).2.ps.world.disk = s.ps.world.disk
  | [], s, _ => rfl
  | .noCommand :: rest, s, h => shell_dead C hE b n k rest { s with errors := s.errors ++ [.notUnderstood] } h
  | .exit :: rest, s, h => rfl
  | .lock :: rest, s, h =>
    shell_dead C hE b n k rest { s with ps := Passwords.lock s.ps, out := s.out ++ c!"Passwords locked.\n" } h
  | .command c :: rest, s, h => by
    by_cases h1 : c = .shell
    · subst h1
      exact shell_dead C hE b n k rest { s with errors := s.errors ++ [.noShell] } h
    by_cases h2 : ∃ y, c = .setPrimary y
    · obtain ⟨y, rfl⟩ := h2
      exact shell_dead C hE b n k rest { s with errors := s.errors ++ [.noSetPrimary] } h
    rw [shellLoop_goOn _ b c rest s h1 fun y h => h2 ⟨y, h⟩]
    obtain ⟨-, -, h3, h4, -⟩ := command_killed C hE b c s n k
    have h3 := h3 h
    cases hp : processCommand (killed C n k) b c s with
    | mk r s' =>
      rw [hp] at h3 h4
      have h5 : n < s'.ps.world.fpos := Nat.lt_of_lt_of_le h h4
      cases r with
      | ok u => exact (shell_dead C hE b n k rest _ h5).trans h3
      | err e => exact (shell_dead C hE b n k rest { s' with errors := s'.errors ++ [.error e] } h5).trans h3
      | panic => exact h3
      | blocked => exact h3

/-- What goes on from a state in which the process has written the file too often to be alive. -/
theorem goOn_dead (C : CEnv) (hE : C.env.Lawful) (b : Bool) (n : Nat) (k : Option Nat) (rest : List ShellEvent)
    (x : COut Unit × CState) (h : n < x.2.ps.world.fpos) :
    (goOn (killed C n k) b rest x).2.ps.world.disk = x.2.ps.world.disk := by
  obtain ⟨r, s⟩ := x
  cases r with
  | ok u => exact shell_dead C hE b n k rest s h
  | err e => exact shell_dead C hE b n k rest { s with errors := s.errors ++ [.error e] } h
  | panic => rfl
  | blocked => rfl

/-- **C85 (shell).**  A shell killed at any moment of any of its writes leaves what the whole session would have left, or
what the command it was killed in leaves: the file as the commands before left it, or the first bytes of what that command
would have written. -/
theorem C85_shell (C : CEnv) (hE : C.env.Lawful) (b : Bool) (n : Nat) (k : Option Nat) :
    ∀ (events : List ShellEvent) (s : CState), s.ps.world.fpos ≤ n →
      (shellLoop (killed C n k) b events s).2.ps.world.disk = (shellLoop C b events s).2.ps.world.disk ∨
      ∃ pre c post, events = pre ++ .command c :: post ∧ .exit ∉ pre ∧ c ≠ .shell ∧ (∀ y, c ≠ .setPrimary y) ∧
        (shellLoop C b pre s).1 = .ok () ∧
        Interrupted C.env (shellLoop C b pre s).2.ps.world (processCommand C b c (shellLoop C b pre s).2).2.ps.world
          (shellLoop (killed C n k) b events s).2.ps.world.disk
  | [], s, _ => .inl rfl
  | .noCommand :: rest, s, h => by
    rcases C85_shell C hE b n k rest { s with errors := s.errors ++ [.notUnderstood] } h with h' | ⟨pre, c, post, h1, h2, h3⟩
    · exact .inl h'
    · exact .inr ⟨.noCommand :: pre, c, post, by rw [h1]; rfl, by simpa using h2, h3⟩
  | .exit :: rest, s, h => .inl rfl
  | .lock :: rest, s, h => by
    rcases C85_shell C hE b n k rest { s with ps := Passwords.lock s.ps, out := s.out ++ c!"Passwords locked.\n" } h
      with h' | ⟨pre, c, post, h1, h2, h3⟩
    · exact .inl h'
    · exact .inr ⟨.lock :: pre, c, post, by rw [h1]; rfl, by simpa using h2, h3⟩
  | .command c :: rest, s, h => by
    by_cases hc : c = .shell
    · subst hc
      rcases C85_shell C hE b n k rest { s with errors := s.errors ++ [.noShell] } h with h' | ⟨pre, c, post, h1, h2, h3⟩
      · exact .inl h'
      · exact .inr ⟨.command .shell :: pre, c, post, by rw [h1]; rfl, by simpa using h2, h3⟩
    by_cases hc' : ∃ y, c = .setPrimary y
    · obtain ⟨y, rfl⟩ := hc'
      rcases C85_shell C hE b n k rest { s with errors := s.errors ++ [.noSetPrimary] } h with h' | ⟨pre, c, post, h1, h2, h3⟩
      · exact .inl h'
      · exact .inr ⟨.command (.setPrimary y) :: pre, c, post, by rw [h1]; rfl, by simpa using h2, h3⟩
    have hc' : ∀ y, c ≠ .setPrimary y := fun y h => hc' ⟨y, h⟩
    rw [shellLoop_goOn _ b c rest s hc hc', shellLoop_goOn _ b c rest s hc hc']
    obtain ⟨k1, k2, -, k4, k5⟩ := command_killed C hE b c s n k
    by_cases hd : n < (processCommand (killed C n k) b c s).2.ps.world.fpos
    · have hn : s.ps.world.fpos = n := by
        rcases Nat.lt_or_eq_of_le h with h' | h'
        · exfalso
          rw [k1 h'] at hd
          have := C85_once C hE b c s
          dsimp only at this
          omega
        · exact h'
      refine .inr ⟨[], c, rest, rfl, by simp, hc, hc', rfl, ?_⟩
      rw [goOn_dead C hE b n k rest _ hd]
      exact k2 hn
    · have he : processCommand (killed C n k) b c s = processCommand C b c s := by
        rcases Nat.lt_or_eq_of_le h with h' | h'
        · exact k1 h'
        · exact k5 h' (by omega)
      rw [he] at hd ⊢
      have hgo : ∀ pre, shellLoop C b (.command c :: pre) s = goOn C b pre (processCommand C b c s) :=
        fun pre => shellLoop_goOn _ b c pre s hc hc'
      cases hp : processCommand C b c s with
      | mk r s' =>
        rw [hp] at hd hgo
        have hd' : s'.ps.world.fpos ≤ n := Nat.le_of_not_lt hd
        cases r with
        | ok u =>
          rcases C85_shell C hE b n k rest s' hd' with h' | ⟨pre, c', post, h1, h2, h3⟩
          · exact .inl h'
          · refine .inr ⟨.command c :: pre, c', post, by rw [h1]; rfl, by simpa using h2, ?_⟩
            rw [hgo]
            exact h3
        | err e =>
          rcases C85_shell C hE b n k rest { s' with errors := s'.errors ++ [.error e] } hd' with h' | ⟨pre, c', post, h1, h2, h3⟩
          · exact .inl h'
          · refine .inr ⟨.command c :: pre, c', post, by rw [h1]; rfl, by simpa using h2, ?_⟩
            rw [hgo]
            exact h3
        | panic => exact .inl rfl
        | blocked => exact .inl rfl

/-- A run of the program that comes to process a command does so with the file and the counters unchanged. -/
theorem main_process (C C' : CEnv) (b : Bool) (events : List ShellEvent) (c : Command) (s : CState) :
    (mainInner C b events c s).2.ps.world.disk = s.ps.world.disk ∧ (mainInner C' b events c s).2 = (mainInner C b events c s).2 ∨
    ∃ t : CState, t.ps.world.disk = s.ps.world.disk ∧ t.ps.world.fpos = s.ps.world.fpos ∧
      ∀ events', mainInner C b events' c s = process C b events' c t ∧ mainInner C' b events' c s = process C' b events' c t := by
  have hd : (∃ d, FileIO.load s.ps.world.disk = .ok d) ∨ (∀ C : CEnv, (∀ y, c ≠ .setPrimary y) →
      (mainInner C b events c s).2 = s) ∧ ((∃ e, FileIO.load s.ps.world.disk = .err e) ∨
      FileIO.load s.ps.world.disk = .panic) := by
    cases hl : FileIO.load s.ps.world.disk with
    | ok d => exact .inl ⟨d, rfl⟩
    | err e => exact .inr ⟨fun C hn => by rw [mainInner_eq C b events c s hn, hl], .inl ⟨e, rfl⟩⟩
    | panic => exact .inr ⟨fun C hn => by rw [mainInner_eq C b events c s hn, hl], .inr rfl⟩
  by_cases hn : ∀ y, c ≠ .setPrimary y
  · rcases hd with ⟨d, hd⟩ | ⟨hd, -⟩
    · exact .inr ⟨{ s with ps := openWith s.ps.world d }, rfl, rfl, fun events' => by
        rw [mainInner_eq C b events' c s hn, mainInner_eq C' b events' c s hn, hd]; exact ⟨rfl, rfl⟩⟩
    · exact .inl ⟨by rw [hd C hn], by rw [hd C hn, hd C' hn]⟩
  · have : ∃ y, c = .setPrimary y := by
      cases c with
      | setPrimary y => exact ⟨y, rfl⟩
      | _ => exact absurd (by simp) hn
    obtain ⟨y, rfl⟩ := this
    rcases hd with ⟨d, hd⟩ | ⟨-, ⟨e, hd⟩ | hd⟩
    · cases y with
      | true =>
        refine .inr ⟨{ s with ps := openWith s.ps.world d }, rfl, rfl, fun events' => ?_⟩
        unfold mainInner
        dsimp only
        rw [hd]
        exact ⟨rfl, rfl⟩
      | false =>
        cases hx : s.confirms with
        | nil =>
          refine .inl ?_
          unfold mainInner confirm
          dsimp only
          rw [hd, hx]
          exact ⟨rfl, rfl⟩
        | cons x l =>
          cases x with
          | false =>
            refine .inl ?_
            unfold mainInner confirm
            dsimp only
            rw [hd, hx]
            exact ⟨rfl, rfl⟩
          | true =>
            refine .inr ⟨{ s with
                ps := openWith s.ps.world d, confirms := l, out := s.out ++ RESET_QUESTION }, rfl, rfl, fun events' => ?_⟩
            unfold mainInner confirm
            dsimp only
            rw [hd, hx]
            exact ⟨rfl, rfl⟩
    · refine .inr ⟨{ s with ps := openWith s.ps.world [] }, rfl, rfl, fun events' => ?_⟩
      unfold mainInner
      dsimp only
      rw [hd]
      exact ⟨rfl, rfl⟩
    · refine .inl ?_
      unfold mainInner
      dsimp only
      rw [hd]
      exact ⟨rfl, rfl⟩

/-- **C85 (runs).**  A run of the program with a command other than `shell`, killed at any moment. -/
theorem C85_run (C : CEnv) (hE : C.env.Lawful) (b : Bool) (events : List ShellEvent) (c : Command) (hc : c ≠ .shell)
    (s : CState) (n : Nat) (k : Option Nat) (hn : s.ps.world.fpos ≤ n) :
    (mainInner (killed C n k) b events c s).2.ps.world.disk = (mainInner C b events c s).2.ps.world.disk ∨
    Interrupted C.env s.ps.world (mainInner C b events c s).2.ps.world
      (mainInner (killed C n k) b events c s).2.ps.world.disk := by
  rcases main_process C (killed C n k) b events c s with ⟨h1, h2⟩ | ⟨t, h1, h2, h3⟩
  · exact .inl (by rw [h2])
  · have e : ∀ C : CEnv, process C b events c t = processCommand C b c t := by
      intro C
      cases c with
      | shell => exact absurd rfl hc
      | _ => rfl
    rw [(h3 events).1, (h3 events).2, e, e]
    obtain ⟨k1, k2, -⟩ := command_killed C hE b c t n k
    rw [h2] at k1 k2
    rcases Nat.lt_or_eq_of_le hn with hn | hn
    · exact .inl (by rw [k1 hn])
    · refine .inr ?_
      have := k2 hn
      unfold Interrupted at this ⊢
      rwa [h1, h2] at this

/-- The text printed when a shell starts (`shell.rs`). -/
def SHELL_GREETING : Str :=
  c!"Enter a command or type 'help' for a list of commands. Enter 'help <command>' for detailed information on a command."

/-- **C85 (what the next run finds).**  If no write fails by itself: in place of the file there is one that cannot be read;
or the file as it was before the run; or as the whole run would have left it; or, for the shell, as it would have been left
by a session with some first part of the lines only. -/
theorem C85_found (C : CEnv) (hE : C.env.Lawful) (hfs : ∀ i, C.env.fs i = .ok) (b : Bool) (events : List ShellEvent)
    (c : Command) (s : CState) (n : Nat) (k : Option Nat) (hn : s.ps.world.fpos ≤ n) :
    let disk := (mainInner (killed C n k) b events c s).2.ps.world.disk
    (FileIO.load disk = .err .fileReadFailure ∨ FileIO.load disk = .err .invalidJson) ∨
    disk = s.ps.world.disk ∨ disk = (mainInner C b events c s).2.ps.world.disk ∨
    (c = .shell ∧ ∃ first rest, events = first ++ rest ∧ disk = (mainInner C b first .shell s).2.ps.world.disk) := by
  intro disk
  have hdisk : (mainInner (killed C n k) b events c s).2.ps.world.disk = disk := rfl
  clear_value disk
  have hint : ∀ (w : World) (c : Command) (t : CState) (disk : Option Bytes), w.disk = t.ps.world.disk →
      w.fpos = t.ps.world.fpos → Interrupted C.env w (processCommand C b c t).2.ps.world disk →
      disk = w.disk ∨ disk = (processCommand C b c t).2.ps.world.disk ∨
      (FileIO.load disk = .err .fileReadFailure ∨ FileIO.load disk = .err .invalidJson) := by
    intro w c t disk hw hw' h
    rcases h with h | ⟨h, k, h'⟩
    · exact .inl h
    · rcases C85_once C hE b c t with ⟨h1, -⟩ | ⟨-, h1⟩
      · omega
      · rw [hfs] at h1
        dsimp only at h1
        rw [h1, h']
        by_cases hk : k < (FileIO.contents (FileIO.entries C.env (processCommand C b c t).2.ps.world)).length
        · exact .inr (.inr (FileIO.load_prefix _ k hk))
        · exact .inr (.inl (by rw [List.take_of_length_le (by omega)]))
  rcases main_process C (killed C n k) b events c s with ⟨h1, h2⟩ | ⟨t, h1, h2, h3⟩
  · exact .inr (.inr (.inl (by rw [← hdisk, h2])))
  by_cases hc : c = .shell
  · subst hc
    have hn' : (println SHELL_GREETING t).2.ps.world.fpos ≤ n := by
      show t.ps.world.fpos ≤ n
      omega
    have e : ∀ (C : CEnv) l, process C b l .shell t = shellLoop C b l
        (println SHELL_GREETING t).2 :=
      fun _ _ => rfl
    have e1 : ∀ l, (mainInner C b l .shell s).2 = (shellLoop C b l
        (println SHELL_GREETING t).2).2 :=
      fun l => by rw [(h3 l).1, e]
    rw [(h3 events).2, e] at hdisk
    rw [e1 events]
    have e2 : ∀ d l, (d = (mainInner C b l .shell s).2.ps.world.disk) ↔ (d = (shellLoop C b l (println SHELL_GREETING t).2).2.ps.world.disk) :=
      fun d l => by rw [e1]
    have e3 : (∃ first rest, events = first ++ rest ∧ disk = (shellLoop C b first (println SHELL_GREETING t).2).2.ps.world.disk) →
        ∃ first rest, events = first ++ rest ∧ disk = (mainInner C b first .shell s).2.ps.world.disk :=
      fun ⟨x, y, z, u⟩ => ⟨x, y, z, (e2 _ _).mpr u⟩
    refine Or.imp_right (Or.imp_right (Or.imp_right (And.imp_right e3))) ?_
    clear e3
    clear e2 e1
    generalize (println SHELL_GREETING t).2 = t' at *
    have hshell := C85_shell C hE b n k events t' hn'
    rw [hdisk] at hshell
    rcases hshell with h | ⟨pre, c, post, g1, g2, g3, g3', g4, g5⟩
    · exact .inr (.inr (.inl h))
    · rcases hint _ c _ _ rfl rfl g5 with h | h | h
      · exact .inr (.inr (.inr ⟨rfl, pre, _, g1, h⟩))
      · refine .inr (.inr (.inr ⟨rfl, pre ++ [.command c], post, by rw [g1]; simp, ?_⟩))
        rw [h]
        rw [shellLoop_append C b pre [.command c] t' g2]
        cases hp : shellLoop C b pre t' with
        | mk r s' =>
          rw [hp] at g4
          cases g4
          dsimp only
          rw [shellLoop_goOn C b c [] s' g3 g3']
          cases processCommand C b c s' with
          | mk r s'' => cases r <;> rfl
      · exact .inl h
  · have hrun := C85_run C hE b events c hc s n k hn
    rw [hdisk] at hrun
    rcases hrun with h | h
    · exact .inr (.inr (.inl h))
    · have e : process C b events c t = processCommand C b c t := by
        cases c with
        | shell => exact absurd rfl hc
        | _ => rfl
      rw [(h3 events).1, e] at h ⊢
      rcases hint _ c t _ h1.symm h2.symm h with h | h | h
      · exact .inr (.inl h)
      · exact .inr (.inr (.inl h))
      · exact .inl h

/-- Creating a storage, killed after five bytes: the next run cannot read the file. -/
example : (mainInner (killed Toy.cenv 0 (some 5)) true [] (.setPrimary true)
      { Toy.locked with ps := Toy.start, secrets := [c!"secret1", c!"secret1"] }).2.ps.world.disk = some (b!"{\"app") ∧
    FileIO.load (some (b!"{\"app")) = .err .invalidJson ∧ Toy.start.world.fpos ≤ 0 ∧ ∀ i, Toy.cenv.env.fs i = .ok :=
  ⟨by decide +kernel, by decide +kernel, by decide, fun _ => rfl⟩

/-- A shell that removes an alias and then adds it again, killed in its second write before the file is opened. -/
example : let s := { Toy.unlocked with ps := Toy.two }
    let l := [.command (.«alias» (c!"b") none true), .command (.«alias» (c!"b") (some (c!"a")) false)]
    (shellLoop (killed Toy.cenv (Toy.two.world.fpos + 1) none) true l s).2.ps.world.disk =
      (shellLoop Toy.cenv true (l.take 1) s).2.ps.world.disk ∧
    (shellLoop Toy.cenv true (l.take 1) s).2.ps.world.disk ≠ (shellLoop Toy.cenv true l s).2.ps.world.disk ∧
    (shellLoop Toy.cenv true (l.take 1) s).2.ps.world.disk ≠ s.ps.world.disk := by
  decide +kernel

end Pfp.Props
