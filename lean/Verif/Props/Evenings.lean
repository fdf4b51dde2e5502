import Verif.Proofs.Evenings
import Verif.Props.Onward
import Verif.Props.Shown
import Verif.Props.Shell

/-!
# C107: whole runs at a terminal, shells included, with a storage file changed by somebody else
-/

namespace Pfp.Props

open Cli hiding promptPassword
open Spec Proofs.Shown Proofs.Evenings
open Terminal (Dialog Event TState)

variable {U : Universe} {G : Op → Prop}

theorem working_append {E : Env} {owner : PState → Prop} {p : Str} {l l' : List PState} (h : Working E owner G p l)
    (h' : Working E owner G p l') : Working E owner G p (l ++ l') := by
  induction h with
  | start => exact h'
  | file _ ho hn ih =>
    refine .file ih ho fun k key v nonce c m hk hv hc hm hl => ?_
    obtain ⟨u, key', v', g1, g⟩ := hn k key v nonce c m hk hv hc hm hl
    exact ⟨u, key', v', g1.imp id (List.mem_append_left _), g⟩
  | step _ hu op hg hop ih => exact .step ih (List.mem_append_left _ hu) op hg hop
  | changed _ hu disk ih => exact .changed ih (List.mem_append_left _ hu) disk

/-- One list for all. -/
theorem working_all {E : Env} {owner : PState → Prop} {p : Str} {l : List PState} (hl : Working E owner G p l) {P : PState → Prop} :
    ∀ s : List PState, (∀ u ∈ s, P u ∨ ∃ l', Working E owner G p l' ∧ u ∈ l') →
      ∃ l', Working E owner G p l' ∧ (∀ u ∈ l, u ∈ l') ∧ ∀ u ∈ s, P u ∨ u ∈ l'
  | [], _ => ⟨l, hl, fun _ h => h, by simp⟩
  | v :: s, h => by
    obtain ⟨l', h1, h2, h3⟩ := working_all hl s fun u hu => h u (List.mem_cons_of_mem _ hu)
    rcases h v (by simp) with hv | ⟨l'', g1, g2⟩
    · exact ⟨l', h1, h2, by simpa using ⟨.inl hv, h3⟩⟩
    · refine ⟨l'' ++ l', working_append g1 h1, fun u hu => List.mem_append_right _ (h2 u hu), fun u hu => ?_⟩
      rcases List.mem_cons.mp hu with rfl | hu
      · exact .inr (List.mem_append_left _ g2)
      · exact (h3 u hu).imp id (List.mem_append_right _)

/-- The states after unlocking. -/
structure Later (C : CEnv) (owner : PState → Prop) (G : Op → Prop) (p : Str) (s u : PState) : Prop where
  opens : Opens C.env p s
  working : ∃ l', Working C.env owner G p l' ∧ u ∈ l'
  salt : u.world.data.get? Storage.SALT_KEY = (opened C.env p s).world.data.get? Storage.SALT_KEY
  secret : u.world.data.get? Storage.HMAC_SECRET_KEY = (opened C.env p s).world.data.get? Storage.HMAC_SECRET_KEY

theorem good_of_working (C : CEnv) (hE : C.env.Lawful) (hS : Secure C.env U) (owner : PState → Prop)
    (howner : ∀ u, owner u → Done C.env U G u) (p : Str) (hp : U.primary p) (l : List PState) (hl : Working C.env owner G p l)
    (u : PState) (hu : u ∈ l) : Proofs.Shown.Good C G p u := by
  obtain ⟨h1, h2, h3, h4, h5⟩ := C106_genuine hE hS owner howner p hp l hl u hu
  exact ⟨fun a n r x h => h1 a n r x (by simp only [ask, run, h]; rfl), fun a n r x h => h2 a n r x (by simp only [ask, run, h]; rfl),
    fun a x h => h3 a x (by simp only [ask, run, h]; rfl), fun a q l h => h4 a q l (by simp only [ask, run, h]; rfl),
    fun q l h => h5 q l (by simp only [ask, run, h]; rfl)⟩

/-- Whether a password unlocks depends only on salt and HMAC secret. -/
theorem unlock_result (E : Env) (q : Str) {u v : PState} (h1 : u.world.data.get? Storage.SALT_KEY = v.world.data.get? Storage.SALT_KEY)
    (h2 : u.world.data.get? Storage.HMAC_SECRET_KEY = v.world.data.get? Storage.HMAC_SECRET_KEY)
    (h : (Passwords.unlock E q u).1 = .ok ()) : (Passwords.unlock E q v).1 = .ok () := by
  rw [← h]
  unfold Passwords.unlock
  simp only [M.bind_apply, M.get_apply, M.lift_apply, getSalt_same h1]
  cases Storage.getSalt v.world with
  | err e => rfl
  | panic => rfl
  | ok salt =>
    dsimp only
    cases getEncryptionKey E.prims q salt with
    | err e => rfl
    | panic => rfl
    | ok k =>
      dsimp only
      rw [getHmacSecret_same (E := E) k h2]
      cases Storage.getHmacSecret E v.world k with
      | err e => rfl
      | panic => rfl
      | ok x => rfl

theorem continues_of {T : Dialog} {E : Env} {p : Str} {ran : Command → Prop} {lines : List Str} {op : Op} (h : Commanded T E p ran lines op)
    (h' : ∀ q, op ≠ .unlock q) : Continues p op := by
  cases h with
  | unlock hl => exact absurd rfl (h' _)
  | _ => trivial

theorem ground (T : Dialog) (C : CEnv) (hE : C.env.Lawful) (hS : Secure C.env U) (owner : PState → Prop)
    (howner : ∀ u, owner u → Done C.env U G u) (p : Str) (hp : U.primary p) (l : List PState) (hl : Working C.env owner G p l)
    (lines : List Str) (ran : Command → Prop) (hG : ∀ op, Commanded T C.env p ran lines op → G op) (s : PState) (data : Data)
    (hload : FileIO.load s.world.disk = .ok data)
    (hone : ∀ line ∈ lines, Opens C.env (trim line) s → trim line = p)
    (hn : Opens C.env p s → NoForgery C.env (fun u => owner u ∨ u ∈ l) p (opened C.env p s)) :
    Ground T C G p (opened C.env p s) (openWith s.world data) ran lines (Later C owner G p s) := by
  have hr : Spec.run C.env .reload s = (.ok .unit, openWith s.world data) := by
    simp only [Spec.run, reload, hload]
    rfl
  have ho : ∀ q t, Passwords.unlock C.env q (openWith s.world data) = (.ok (), t) → Opens C.env q s ∧ opened C.env q s = t := by
    intro q t h
    simp only [Opens, opened, ask, after, hr]
    simp only [Spec.run, h]
    exact ⟨⟨trivial, rfl⟩, trivial⟩
  constructor
  · rintro u ⟨-, ⟨l', h1, h2⟩, -, -⟩
    exact good_of_working C hE hS owner howner p hp l' h1 u h2
  · rintro u op ⟨h0, ⟨l', h1, h2⟩, h3, h4⟩ hop hun
    have hc := continues_of (p := p) hop hun
    obtain ⟨g1, g2⟩ := working_same hE hS howner hp h1 h2 (hG _ hop) hc
    exact ⟨h0, ⟨_, .step h1 h2 op (hG _ hop) hc, by simp⟩, g1.trans h3, g2.trans h4⟩
  · intro line hline u hu
    obtain ⟨o1, o2⟩ := ho _ _ hu
    have e := hone line hline o1
    rw [e] at o1 o2
    rw [← o2]
    exact ⟨o1, ⟨_, .file hl o1 (hn o1), by simp⟩, rfl, rfl⟩
  · rintro line hline v u ⟨h0, ⟨l', h1, h2⟩, h3, h4⟩ hu
    have hdata : (opened C.env p s).world.data = data := opened_data hE.prims h0 hload
    have hopen : (Passwords.unlock C.env (trim line) (openWith s.world data)).1 = .ok () :=
      unlock_result C.env (trim line) (u := v) (by rw [h3, hdata]; rfl) (by rw [h4, hdata]; rfl) (by rw [hu])
    obtain ⟨o1, -⟩ := ho (trim line) _ (Prod.ext hopen rfl)
    have e := hone line hline o1
    have hg : G (.unlock p) := by rw [← e]; exact hG _ (.unlock hline)
    rw [e] at hu
    have hafter : u = after C.env v (.unlock p) := by simp only [after, Spec.run, hu]
    obtain ⟨g1, g2⟩ := working_same hE hS howner hp h1 h2 hg (op := .unlock p) rfl
    rw [hafter]
    exact ⟨h0, ⟨_, .step h1 h2 _ hg rfl, by simp⟩, g1.trans h3, g2.trans h4⟩
  · rintro u q b ⟨h0, ⟨l', h1, h2⟩, h3, -⟩ hb
    obtain ⟨k, h, o, hh⟩ := working_holds hE hS howner hp h1 u h2
    obtain ⟨salt, g1, g2⟩ := hh.1.salt
    obtain ⟨-, salt', k', -, -, -, e1, e2, -, -, e3, -, -⟩ := opens_iff hE.prims h0
    rw [← getSalt_same h3, g1] at e1
    cases e1
    have hk : u.key = (opened C.env p s).key := by
      rcases hh.2 with ⟨hk, -⟩ | ⟨hk, -⟩
      · exfalso
        unfold Passwords.getRecoveryCode at hb
        simp only [M.bind_apply, M.get_apply, M.lift_apply, g1, hk, okOr] at hb
        cases hb
      · rw [hk, e3, g2, e2]
    have : (Passwords.getRecoveryCode C.env q (drawn (opened C.env p s) u.world.rpos)).1 = .ok b := by
      rw [← hb]
      unfold Passwords.getRecoveryCode
      simp only [M.bind_apply, M.get_apply, M.lift_apply]
      rw [show Storage.getSalt (drawn (opened C.env p s) u.world.rpos).world = Storage.getSalt u.world from (getSalt_same h3).symm,
        show (drawn (opened C.env p s) u.world.rpos).key = u.key from hk.symm]
      cases Storage.getSalt u.world with
      | err e => rfl
      | panic => rfl
      | ok salt =>
        dsimp only
        cases okOr u.key .passwordsLocked with
        | err e => rfl
        | panic => rfl
        | ok k => rfl
    simp only [ask, Spec.run, this]
    rfl
  · rfl
  · rintro u q ⟨-, ⟨l', h1, h2⟩, -, -⟩ hq
    obtain ⟨k, h, o, hh⟩ := working_holds hE hS howner hp h1 u h2
    rcases hh.2 with ⟨-, -, e⟩ | ⟨-, -, e⟩
    · rw [e] at hq
      cases hq
    · rw [e] at hq
      cases hq
      rfl
  · exact hE.prims

/-! ## The end of a run -/

variable {T : Dialog} {C : CEnv} {p : Str} {t base : PState} {ran : Command → Prop} {lines : List Str} {W : PState → Prop}

theorem waitEnd_held (b : Bool) {s : TState} (h : Held T C G p t base ran lines W s) :
    Held T C G p t base ran lines W (Terminal.waitEnd b s) := by
  unfold Terminal.waitEnd
  cases b with
  | false => exact h
  | true =>
    rw [if_pos rfl]
    have h' := (h.silent (e := .flush) rfl).log (e := .out .direct (c!"\nWaiting...\n")) (by simp [textsOf, Screen, plainTexts])
    dsimp only
    cases hi : ((s.log .flush).log (.out .direct (c!"\nWaiting...\n"))).input with
    | nil => exact h'
    | cons line rest =>
      have hm := h'.input
      rw [hi] at hm
      exact h'.take _ fun l hl => hm l (List.mem_cons_of_mem _ hl)

theorem mainEnd_held (C' : CEnv) (a : Args) (m : Machine) (out : COut Unit) {s : TState} (h : Held T C G p t base ran lines W s) :
    (∀ x ∈ textsOf (Terminal.mainEnd C' a m out s).trace, Screen T C G p t ran lines x) ∧
    ∀ u ∈ (Terminal.mainEnd C' a m out s).ps :: (Terminal.mainEnd C' a m out s).moments, u = base ∨ W u := by
  have key : ∀ {s : TState}, Held T C G p t base ran lines W s → (∀ x ∈ textsOf s.trace, Screen T C G p t ran lines x) ∧
      ∀ u ∈ s.ps :: s.moments, u = base ∨ W u := fun h => ⟨h.texts, by simpa using ⟨h.now, h.moments⟩⟩
  cases out with
  | ok u => exact key (waitEnd_held a.wait h)
  | err e => exact key (waitEnd_held a.wait (h.silent (e := .err (.error e)) rfl))
  | panic => exact key h
  | blocked => exact key h

/-- **C107.** Somebody without the primary password has made something of the storage file, and the cipher has not been broken.  Then
whatever the command, and whatever is typed, in a shell in particular: every text that the program writes is a fixed text or tells
something that the owner entered, before or in this run, or repeats a recovery code just typed, and all states of the process are again ones of `Working`. -/
theorem C107_evening (T : Dialog) (C : CEnv) (hE : C.env.Lawful) (hS : Secure C.env U) (owner : PState → Prop)
    (howner : ∀ u, owner u → Done C.env U G u) (p : Str) (hp : U.primary p) (l : List PState) (hl : Working C.env owner G p l)
    (argv lines : List Str) (m : Machine) (a : Args) (ha : ProgramWords argv a) (hset : ∀ y, a.command ≠ .setPrimary y)
    (hG : ∀ op, Commanded T C.env p (InRun a lines) lines op → G op)
    (hone : ∀ line ∈ lines, Opens C.env (trim line) (storageOf m a) → trim line = p)
    (hn : Opens C.env p (storageOf m a) → NoForgery C.env (fun u => owner u ∨ u ∈ l) p (opened C.env p (storageOf m a))) :
    (∀ x ∈ textsOf (Terminal.main T C argv lines m).trace, x ∈ plainTexts ∨ x ∈ moreTexts ∨
      (∃ c, InRun a lines c ∧ Tells C G p (opened C.env p (storageOf m a)) c x) ∨ Repeats T (InRun a lines) lines x) ∧
    ∃ l', Working C.env owner G p l' ∧ (∀ u ∈ l, u ∈ l') ∧
      ∀ u ∈ (Terminal.main T C argv lines m).ps :: (Terminal.main T C argv lines m).moments,
        (u = storageOf m a ∨ u = after C.env (storageOf m a) .reload) ∨ u ∈ l' := by
  have hp' := (C70_grammar _ _).mpr ha
  let C' : CEnv := { C with storagePath := a.storage.getD m.defaultPath }
  let s₀ : TState := { ps := storageOf m a, input := lines, trace := [] }
  have e : Terminal.mainInner T C' a.stdinPasswords a.command s₀ = match FileIO.load (storageOf m a).world.disk with
      | .ok data => Terminal.process T C' a.stdinPasswords a.command { s₀ with ps := openWith (storageOf m a).world data }
      | .err e => (.err (.lib e), s₀)
      | .panic => (.panic, s₀) := by
    revert hset
    cases a.command <;> intro hset <;> first | exact absurd rfl (hset _) | rfl
  have emain : Terminal.main T C argv lines m = Terminal.mainEnd C a m (Terminal.mainInner T C' a.stdinPasswords a.command s₀).1
      (Terminal.mainInner T C' a.stdinPasswords a.command s₀).2 := by
    simp only [Terminal.main, hp']
    rfl
  have key : ∃ base W, (base = storageOf m a ∨ base = after C.env (storageOf m a) .reload) ∧
      (∀ u, W u → ∃ l', Working C.env owner G p l' ∧ u ∈ l') ∧
      Held T C' G p (opened C.env p (storageOf m a)) base (InRun a lines) lines W
        (Terminal.mainInner T C' a.stdinPasswords a.command s₀).2 := by
    have h0 : Held T C' G p (opened C.env p (storageOf m a)) (storageOf m a) (InRun a lines) lines (fun _ => False) s₀ :=
      ⟨fun _ h => h, .inl rfl, by simp [s₀, textsOf], by simp [s₀]⟩
    rw [e]
    cases hload : FileIO.load (storageOf m a).world.disk with
    | err e => exact ⟨_, _, .inl rfl, by simp, h0⟩
    | panic => exact ⟨_, _, .inl rfl, by simp, h0⟩
    | ok data =>
      refine ⟨openWith (storageOf m a).world data, Later C' owner G p (storageOf m a), .inr ?_, fun u h => h.working, ?_⟩
      · simp only [after, Spec.run, reload, hload]
        rfl
      · refine process_runs (ground T C' hE hS owner howner p hp l hl lines (InRun a lines) hG (storageOf m a) data hload hone hn)
          a.stdinPasswords (.inl rfl) hset (fun hsh line hline c hc => ?_) _ ⟨fun _ h => h, .inl rfl, by simp [s₀, textsOf], by simp [s₀]⟩
        exact .inr ⟨hsh, line, hline, (C72_line line _ (by simp)).mp hc⟩
  obtain ⟨base, W, hb, hW, hinv⟩ := key
  rw [emain]
  obtain ⟨h1, h2⟩ := mainEnd_held C a m (Terminal.mainInner T C' a.stdinPasswords a.command s₀).1 hinv
  refine ⟨fun x hx => ?_, working_all hl _ fun u hu => ?_⟩
  · rcases h1 x hx with h | h | ⟨c, hc, h⟩ | h
    · exact .inl h
    · exact .inr (.inl h)
    · exact .inr (.inr (.inl ⟨c, hc, tells_path h⟩))
    · exact .inr (.inr (.inr h))
  · rcases h2 u hu with rfl | h
    · exact .inl hb
    · exact .inr (hW u h)

theorem noForgery_mono {E : Env} {owner owner' : PState → Prop} {p : Str} {t : PState} (h : NoForgery E owner p t)
    (h' : ∀ u, owner u → owner' u) : NoForgery E owner' p t := by
  intro k key v nonce c m hk hv hc hm hl
  obtain ⟨u, key', v', g1, g⟩ := h k key v nonce c m hk hv hc hm hl
  exact ⟨u, key', v', h' u g1, g⟩

/-- **C107, any number of runs.** The owner keeps using the program, with commands and shells, while somebody else keeps changing the
file in between: no run ever writes anything but fixed texts, texts telling something that the owner entered, and recovery codes typed in that run. -/
theorem C107_evenings (T : Dialog) (C : CEnv) (hE : C.env.Lawful) (hS : Secure C.env U) (owner : PState → Prop)
    (howner : ∀ u, owner u → Done C.env U G u) (p : Str) (hp : U.primary p) (es : List Evening) (h : Evenings T C owner G p es) :
    (∀ e ∈ es, ∀ x ∈ textsOf (e.ran T C).trace, x ∈ plainTexts ∨ x ∈ moreTexts ∨
      (∃ c, InRun e.args e.lines c ∧ Tells C G p (opened C.env p (storageOf e.machine e.args)) c x) ∨
      Repeats T (InRun e.args e.lines) e.lines x) ∧
    ∃ l, Working C.env owner G p l ∧ ∀ e ∈ es, ∀ u ∈ e.states T C, u ∈ l := by
  induction h with
  | nil => exact ⟨by simp, [], .start, by simp⟩
  | @cons es _ e ha hset hG hm hone hn ih =>
    obtain ⟨h1, l, h2, h3⟩ := ih
    obtain ⟨g1, l', g2, g3, g4⟩ := C107_evening T C hE hS owner howner p hp l h2 e.argv e.lines e.machine e.args ha hset hG hone
      fun ho => noForgery_mono (hn ho) fun u hu => hu.imp id fun ⟨e', he', hu⟩ => h3 e' he' u hu
    refine ⟨fun e' he' => ?_, l', g2, fun e' he' u hu => ?_⟩
    · rcases List.mem_cons.mp he' with rfl | he'
      · exact g1
      · exact h1 e' he'
    · rcases List.mem_cons.mp he' with rfl | he'
      · obtain ⟨hu, hk⟩ := List.mem_filter.mp hu
        rcases g4 u hu with (rfl | rfl) | hu
        · rw [show (storageOf e'.machine e'.args).key = none from hm] at hk
          cases hk
        · exfalso
          revert hk
          simp only [after, Spec.run, reload]
          cases FileIO.load (storageOf e'.machine e'.args).world.disk with
          | ok d => exact fun h => by cases h
          | err x => rw [show (storageOf e'.machine e'.args).key = none from hm]; exact fun h => by cases h
          | panic => rw [show (storageOf e'.machine e'.args).key = none from hm]; exact fun h => by cases h
        · exact hu
      · exact g3 u (h3 e' he' u hu)

/-! ## Examples -/

section Examples

/-- What the owner types into a shell. -/
def eveningLines : List Str :=
  [c!"notes a u --set", c!"secret1", c!"z", c!"lock", c!"list -s -r -v", c!"wrong1", c!"secret1", c!"nonsense", c!"exit"]

/-- The arguments. -/
def eveningArgs : Args := ⟨none, false, false, .shell, none⟩

/-- A shell with the file in which somebody has exchanged two passwords, and notes are entered. -/
def evening : Evening := ⟨[c!"shell"], eveningArgs, eveningLines, { swappedMachine with state := { swappedMachine.state with
  ps := { swapped with key := none } } }⟩

/-- Everything that the owner ever does. -/
def eveningOps : Op → Prop := fun op => owned op ∨
  Commanded exampleDialog Toy.env (c!"secret1") (InRun eveningArgs eveningLines) eveningLines op

theorem evening_one : ∀ line ∈ eveningLines, Opens Toy.cenv.env (trim line) (storageOf evening.machine evening.args) → trim line = c!"secret1" := by
  intro line hline ho
  have h2 := ho.2
  clear ho
  revert h2
  simp only [eveningLines, List.mem_cons, List.not_mem_nil, or_false] at hline
  rcases hline with rfl | rfl | rfl | rfl | rfl | rfl | rfl | rfl | rfl
  · exact fun h => absurd h (by decide +kernel)
  · exact fun _ => rfl
  · exact fun h => absurd h (by decide +kernel)
  · exact fun h => absurd h (by decide +kernel)
  · exact fun h => absurd h (by decide +kernel)
  · exact fun h => absurd h (by decide +kernel)
  · exact fun _ => rfl
  · exact fun h => absurd h (by decide +kernel)
  · exact fun h => absurd h (by decide +kernel)

/-- Twice: before the second run somebody restores the file of before. -/
theorem evening_twice : Evenings exampleDialog Toy.cenv (· = twoStored) eveningOps (c!"secret1") [evening, evening] := by
  have h : ∀ es, Evenings exampleDialog Toy.cenv (· = twoStored) eveningOps (c!"secret1") es →
      Evenings exampleDialog Toy.cenv (· = twoStored) eveningOps (c!"secret1") (evening :: es) := fun es h =>
    .cons h ((C70_grammar _ _).mp (by decide +kernel)) (by intro y hy; cases hy) (fun _ => .inr) rfl evening_one
      fun _ => noForgery_mono swapped_noForgery fun _ => .inl
  exact h _ (h _ .nil)

/-- What is shown has been entered by the owner. -/
example : ∀ x ∈ textsOf (evening.ran exampleDialog Toy.cenv).trace, x ∈ plainTexts ∨ x ∈ moreTexts ∨
    (∃ c, InRun eveningArgs eveningLines c ∧
      Tells Toy.cenv eveningOps (c!"secret1") (opened Toy.env (c!"secret1") (storageOf evening.machine eveningArgs)) c x) ∨
    Repeats exampleDialog (InRun eveningArgs eveningLines) eveningLines x :=
  (C107_evenings exampleDialog Toy.cenv Toy.env_lawful Toy.secure (· = twoStored)
    (by rintro u rfl; exact done_mono (fun _ => .inl) twoStored_done) (c!"secret1") secret1_primary _ evening_twice).1 evening (by simp)

/-- What the owner types to restore a password `abc` from its recovery code, with too much at the end. -/
def restoringLines : List Str := [c!"add-stored c u --recovery", c!"secret1", c!"AEDS-QB2H-A6DS:QB2H-A6DS-QB4M",
  c!"A6DS-QBJF-AWCS:LBJF-AWCS-LBLL", c!"AXSY-E22A-AAAA:AAAA-AAAH-G3PA", c!"NP3G-L7BT-AAAA:AAAA-AAAA-AAFW AAAA", c!"y", c!"show c u"]

/-- A shell with the file in which somebody has exchanged two passwords. -/
def restoring : Evening := { evening with lines := restoringLines }

/-- Everything that the owner ever does. -/
def restoringOps : Op → Prop := fun op => owned op ∨
  Commanded exampleDialog Toy.env (c!"secret1") (InRun eveningArgs restoringLines) restoringLines op

theorem restoring_one : ∀ line ∈ restoringLines,
    Opens Toy.cenv.env (trim line) (storageOf restoring.machine restoring.args) → trim line = c!"secret1" := by
  intro line hline ho
  have h2 := ho.2
  clear ho
  revert h2
  simp only [restoringLines, List.mem_cons, List.not_mem_nil, or_false] at hline
  rcases hline with rfl | rfl | rfl | rfl | rfl | rfl | rfl | rfl
  · exact fun h => absurd h (by decide +kernel)
  · exact fun _ => rfl
  all_goals exact fun h => absurd h (by decide +kernel)

theorem restoring_once : Evenings exampleDialog Toy.cenv (· = twoStored) restoringOps (c!"secret1") [restoring] :=
  .cons .nil ((C70_grammar _ _).mp (by decide +kernel)) (by intro y hy; cases hy) (fun _ => .inr) rfl restoring_one
    fun _ => noForgery_mono swapped_noForgery fun _ => .inl

/-- The code is repeated, and the password shown. -/
example : (textsOf (restoring.ran exampleDialog Toy.cenv).trace).drop 6 =
    [c!"The following seems to be a valid recovery code:\n" ++ c!"AEDS-QB2H-A6DS:QB2H-A6DS-QB4M\nA6DS-QBJF-AWCS:LBJF-AWCS-LBLL\n" ++
      c!"AXSY-E22A-AAAA:AAAA-AAAH-G3PA\nNP3G-L7BT-AAAA:AAAA-AAAA-AAFW" ++
      c!"\nYou entered some additional data however. Ignore the extra data and decode the recovery code?",
      c!"Password added.\n", c!"Password retrieved.", c!"abc", c!"\n"] := by
  decide +kernel

end Examples

end Pfp.Props
