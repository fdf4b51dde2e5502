import Verif.Proofs.SoundReach
import Verif.Proofs.ToyCli
import Verif.Props.Cli
import Verif.Props.Generated

/-!
# The command line application, histories: C05, C60
-/

namespace Pfp.Props
open Spec Pfp.Cli

variable {E : Env} {U : Universe}

/-! ## C60: histories of commands are histories of the library -/

/-- C60: a command leads from a state reached by operations on texts in use to such a state.  (`set-primary` is covered by
`C60_main`.) -/
theorem C60_command_reachable (C : CEnv) (hE : C.env.Lawful) (hS : Secure C.env U) (b : Bool) (c : Command) (s : CState)
    (h : SoundReachable C.env U s.ps) (hc : Command.Within U c) (hl : LinesWithin U s.secrets)
    (hn : ∀ y, c ≠ .setPrimary y) : SoundReachable C.env U (processCommand C b c s).2.ps := by
  have hI : ∀ op ps, (op.Within U ∧ op.Sound ∧ ∀ p, op ≠ .reset p) → SoundReachable C.env U ps →
      SoundReachable C.env U (run C.env op ps).2 :=
    fun op ps ⟨h1, h2, h3⟩ hr => .step hr op h1 h2 fun p hp => absurd hp (h3 p)
  obtain ⟨⟨ops, h1, h2⟩, -⟩ := via_command (I := SoundReachable C.env U)
    (A := fun op => op.Within U ∧ op.Sound ∧ ∀ p, op ≠ .reset p) C b c s.secrets (fun op hop hx => by
      obtain ⟨g1, g2⟩ := may_within hE hS hl hc hop hx
      exact ⟨g1, g2, may_reset hop hn⟩) hI s h fun _ h => h
  rw [h2]
  exact runAll_keeps hI ops s.ps h1 h

example : SoundReachable Toy.cenv.env Toy.univ Toy.locked.ps ∧ LinesWithin Toy.univ Toy.locked.secrets ∧
    Command.Within Toy.univ (.add (c!"a") (c!"u") (c!"2") 16 true false false false true) ∧
    Command.Within Toy.univ (.alias (c!"b") (some (c!"a")) false) :=
  ⟨Toy.locked_sound, Toy.lines, by simp [Command.Within, Toy.site_a, Toy.name_u, Toy.revision_2],
    by simp [Command.Within, Toy.site_a, Toy.site_b]⟩

/-- C60: so does a session of the shell. -/
theorem C60_shell_reachable (C : CEnv) (hE : C.env.Lawful) (hS : Secure C.env U) (b : Bool) (events : List ShellEvent)
    (s : CState) (h : SoundReachable C.env U s.ps) (hc : ∀ e ∈ events, ShellEvent.Within U e)
    (hl : LinesWithin U s.secrets) : SoundReachable C.env U (shellLoop C b events s).2.ps := by
  have hI : ∀ op ps, (op.Within U ∧ op.Sound ∧ ∀ p, op ≠ .reset p) → SoundReachable C.env U ps →
      SoundReachable C.env U (run C.env op ps).2 :=
    fun op ps ⟨h1, h2, h3⟩ hr => .step hr op h1 h2 fun p hp => absurd hp (h3 p)
  obtain ⟨⟨ops, h1, h2⟩, -⟩ := via_shell (I := SoundReachable C.env U)
    (A := fun op => op.Within U ∧ op.Sound ∧ ∀ p, op ≠ .reset p) C b s.secrets ⟨trivial, trivial, by simp⟩ events
    (fun c hm _ hn op hop hx => by
      obtain ⟨g1, g2⟩ := may_within hE hS hl (hc _ hm) hop hx
      exact ⟨g1, g2, may_reset hop hn⟩) hI s h fun _ h => h
  rw [h2]
  exact runAll_keeps hI ops s.ps h1 h

example : ∀ e ∈ [.lock, .command (.remove (c!"a") (c!"u") []), .noCommand, .command (.setPrimary true)],
    ShellEvent.Within Toy.univ e := by
  simp [ShellEvent.Within, Command.Within, Toy.site_a, Toy.name_u, Toy.revision_nil]

theorem load_errors {d : Option Bytes} {e : Err} (h : FileIO.load d = .err e) :
    FileIO.load d = .err .fileReadFailure ∨ FileIO.load d = .err .invalidJson := by
  unfold FileIO.load at h ⊢
  cases d with
  | none => exact Or.inl rfl
  | some bytes =>
    simp only at h ⊢
    cases hu : fromUtf8 bytes with
    | none => exact Or.inl rfl
    | some t =>
      rw [hu] at h
      simp only at h ⊢
      cases hj : (Json.parse t >>= FileIO.fromJson) with
      | none => exact Or.inr rfl
      | some v => rw [hj] at h; cases h

theorem mainInner_eq (C : CEnv) (b : Bool) (events : List ShellEvent) (c : Command) (s : CState)
    (hn : ∀ y, c ≠ .setPrimary y) : mainInner C b events c s =
      match FileIO.load s.ps.world.disk with
      | .ok data => process C b events c { s with ps := openWith s.ps.world data }
      | .err e => (.err (.lib e), s)
      | .panic => (.panic, s) := by
  cases c with
  | setPrimary y => exact absurd rfl (hn y)
  | _ => rfl

/-- C60: a run of the whole program, starting from the file that such a history left, is part of such a history. -/
theorem C60_main (C : CEnv) (hE : C.env.Lawful) (hS : Secure C.env U) (b : Bool) (events : List ShellEvent) (c : Command)
    (s : CState) (h : SoundReachable C.env U s.ps) (hc : Command.Within U c) (he : ∀ e ∈ events, ShellEvent.Within U e)
    (hl : LinesWithin U s.secrets) : SoundReachable C.env U (mainInner C b events c s).2.ps := by
  have hload : ∀ data, FileIO.load s.ps.world.disk = .ok data → SoundReachable C.env U (openWith s.ps.world data) := by
    intro data hd
    have := SoundReachable.step h .reload trivial trivial (by simp)
    simp only [run, reload, hd] at this
    exact this
  have hset : ∀ t : CState, t.secrets = s.secrets → t.ps.key = none → SoundReachable C.env U t.ps → ∀ y,
      SoundReachable C.env U (process C b events (.setPrimary y) t).2.ps := by
    intro t ht hk hr y
    show SoundReachable C.env U (processCommand C b (.setPrimary y) t).2.ps
    by_cases hx : ∃ l1 l2 rest, t.secrets = l1 :: l2 :: rest ∧ 6 ≤ (utf8 (trim l1)).length ∧ trim l1 = trim l2
    · obtain ⟨l1, l2, rest, h1, h2, h3⟩ := hx
      rw [(C47_set C b y t l1 l2 rest h1 h2 h3).1]
      refine .step hr (.reset (trim l1)) (hl l1 ?_ h2) trivial fun _ _ => Or.inr hk
      rw [← ht, h1]; simp
    · rw [(C47_refused C b y t hx).2]; exact hr
  have hprocess : ∀ data, FileIO.load s.ps.world.disk = .ok data → (∀ y, c ≠ .setPrimary y) →
      SoundReachable C.env U (process C b events c { s with ps := openWith s.ps.world data }).2.ps := by
    intro data hd hn
    cases c with
    | setPrimary y => exact absurd rfl (hn y)
    | shell =>
      show SoundReachable C.env U ((println _ >>= fun _ => shellLoop C b events) _).2.ps
      rw [CM.bind_apply]
      exact C60_shell_reachable C hE hS b events _ (hload data hd) he hl
    | _ => exact C60_command_reachable C hE hS b _ _ (hload data hd) hc hl (by simp)
  by_cases hn : ∀ y, c ≠ .setPrimary y
  · rw [mainInner_eq C b events c s hn]
    cases hd : FileIO.load s.ps.world.disk with
    | ok data => exact hprocess data hd hn
    | err e => exact h
    | panic => exact h
  · have : ∃ y, c = .setPrimary y := by
      cases c with
      | setPrimary y => exact ⟨y, rfl⟩
      | _ => exact absurd (by simp) hn
    obtain ⟨y, rfl⟩ := this
    unfold mainInner
    simp only
    cases hd : FileIO.load s.ps.world.disk with
    | ok data =>
      simp only
      cases y with
      | true => exact hset { s with ps := openWith s.ps.world data } rfl rfl (hload data hd) true
      | false =>
        simp only [Bool.false_eq_true, if_false]
        unfold confirm
        cases s.confirms with
        | nil => exact h
        | cons x l =>
          cases x with
          | false => exact h
          | true => exact hset { s with
              ps := openWith s.ps.world data, confirms := l, out := s.out ++ RESET_QUESTION } rfl rfl (hload data hd) false
    | err e =>
      refine hset { s with ps := openWith s.ps.world [] } rfl rfl ?_ y
      exact .start ⟨rfl, rfl, rfl, rfl, load_errors hd⟩
    | panic => exact h

example : SoundReachable Toy.env Toy.univ
    (mainInner Toy.cenv true [] (.remove (c!"a") (c!"u") []) Toy.locked).2.ps :=
  C60_main Toy.cenv Toy.env_lawful Toy.secure true [] _ Toy.locked Toy.locked_sound
    ⟨Toy.site_a, Toy.name_u, Toy.revision_nil⟩ (by simp) Toy.lines

/-! ## C05: generated passwords can be retrieved -/

/-- C05: `add` with all kinds of characters excluded fails and changes nothing. -/
theorem C05_no_characters (C : CEnv) (b y : Bool) (d n r : Str) (len : UInt64) (s : CState) :
    (processCommand C b (.add d n r len true true true true y) s).1 ≠ .ok () ∧
    (processCommand C b (.add d n r len true true true true y) s).2.ps.world = s.ps.world := by
  show (add C.env d n r len _ y s).1 ≠ .ok () ∧ (add C.env d n r len _ y s).2.ps.world = s.ps.world
  obtain ⟨k1, -⟩ := ensureUnlocked_keeps (E := C.env) s
  unfold add
  rcases ensureUnlocked_cases (E := C.env) s _ with (⟨e, -, h'⟩ | ⟨-, h'⟩ | ⟨-, h'⟩) | ⟨hok, h'⟩
  · rw [h']; exact ⟨by simp, k1⟩
  · rw [h']; exact ⟨by simp, k1⟩
  · rw [h']; exact ⟨by simp, k1⟩
  · rw [h']; exact ⟨by simp [charsetOf, CharacterSet.isEmpty, CharacterSet.empty], k1⟩

/-- C05: in every state reached by commands whose arguments were accepted by the argument parser, retrieving a password
never crashes. -/
theorem C05_retrievable (hE : E.Lawful) (hS : Secure E U) (s : PState) (h : SoundReachable E U s) (hu : s.key.isSome = true)
    (a n r : Str) (ha : U.site a) (hn : U.name n) (hr : U.revision r) :
    ask E s (.get a n r) = .err .keyMissing ∨ ∃ v, ask E s (.get a n r) = .ok (.text v) := by
  obtain ⟨_, pos, p, V, ho, hV⟩ := sound_open hE hS h hu
  rw [ho.ask_get hE hS ha hn hr]
  cases he : V.passwords (V.idOf a n r) with
  | none => exact Or.inl rfl
  | some e =>
    right
    obtain ⟨sec, notes⟩ := e
    cases sec with
    | stored v => exact ⟨v, rfl⟩
    | generated len cs =>
      obtain ⟨h4, h24, hcs⟩ := hV _ _ _ _ he
      obtain ⟨v, hv, -⟩ := C01_generated_length E.prims hE.prims p (saltText (V.idOf a n r)) len.toNat cs (by omega) (by omega) hcs
      refine ⟨v, ?_⟩
      simp only [valueOf, deriveWith]
      show (Crypto.derivePassword _ _ _ _ _).map Out.text = _
      rw [hv]
      rfl

example : SoundReachable Toy.env Toy.univ
      (after Toy.env Toy.one (.setGenerated (c!"a") (c!"v") [] 16 (charsetOf true false false false))) ∧
    (after Toy.env Toy.one (.setGenerated (c!"a") (c!"v") [] 16 (charsetOf true false false false))).key.isSome = true := by
  refine ⟨.step Toy.one_sound _ ⟨Toy.site_a, Toy.name_v, Toy.revision_nil⟩ ?_ (by simp), ?_⟩
  · exact ⟨by decide, by decide, .upper, rfl⟩
  · obtain ⟨a, pos, ho⟩ := Toy.one_open
    exact ((ho.setGenerated Toy.env_lawful Toy.secure 16 (charsetOf true false false false)
      ⟨Toy.site_a, Toy.name_v, Toy.revision_nil⟩).ok rfl).2.choose_spec.choose_spec.session.1 ▸ rfl

/-- C05: and every generated password in it has the length and the characters accepted by the argument parser. -/
theorem C05_parameters (hE : E.Lawful) (hS : Secure E U) (s : PState) (h : SoundReachable E U s) (hu : s.key.isSome = true)
    (a q : Str) (ha : U.site a) (l : List Password) (hl : ask E s (.list a q) = .ok (.passwords l)) (g : GeneratedPassword)
    (hg : .generated g ∈ l) : 4 ≤ g.length.toNat ∧ g.length.toNat ≤ 24 ∧ ∃ t, g.charset.contains t = true := by
  obtain ⟨_, pos, p, V, ho, hV⟩ := sound_open hE hS h hu
  obtain ⟨l', h1, -, h2⟩ := ho.list hE hS q ha
  rw [h1] at hl
  cases hl
  obtain ⟨id, e, he, hrec, -, -⟩ := (h2 _).mp hg
  obtain ⟨sec, notes⟩ := e
  cases sec with
  | stored v => cases hrec
  | generated len cs => cases hrec; exact hV _ _ _ _ he

end Pfp.Props
