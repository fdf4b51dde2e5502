import Verif.Proofs.Shown
import Verif.Props.Onward
import Verif.Props.Sittings

/-!
# C105: what the program at a terminal shows of a storage file changed by somebody else
-/

namespace Pfp.Props

open Cli hiding promptPassword
open Spec Proofs.Shown
open Terminal (Dialog Event TState)

variable {U : Universe} {G : Op → Prop}

/-- C105: the texts of which `written` speaks. -/
theorem C105_written (l : List Event) (h : ∀ q, .again q ∉ l) : written l = (textsOf l).flatten := by
  induction l with
  | nil => rfl
  | cons e l ih =>
    have ih := ih fun q hq => h q (List.mem_cons_of_mem _ hq)
    cases e with
    | again q => exact absurd (by simp) (h q)
    | _ => simp [written, textsOf, ih]

theorem good_of_opened (C : CEnv) (hE : C.env.Lawful) (hS : Secure C.env U) (owner : PState → Prop)
    (howner : ∀ u, owner u → Done C.env U G u) (p : Str) (hp : U.primary p) (s : PState) (ho : Opens C.env p s)
    (hn : NoForgery C.env owner p (opened C.env p s)) : Proofs.Shown.Good C G p (opened C.env p s) := by
  obtain ⟨h1, h2, h3, h4, h5, -⟩ := C90_genuine hE hS owner howner p hp s ho hn
  exact ⟨fun a n r x h => h1 a n r x (by simp only [ask, run, h]; rfl), fun a n r x h => h2 a n r x (by simp only [ask, run, h]; rfl),
    fun a x h => h3 a x (by simp only [ask, run, h]; rfl), fun a q l h x hx => own_of_given (h4 a q l (by simp only [ask, run, h]; rfl) x hx),
    fun q l h => h5 q l (by simp only [ask, run, h]; rfl)⟩

theorem tells_path {C : CEnv} {path : Str} {p : Str} {t : PState} {c : Command} {x : Str}
    (h : Tells { C with storagePath := path } G p t c x) : Tells C G p t c x := by
  cases h with
  | value h => exact .value h
  | qr h hq => exact .qr (C := C) h hq
  | notes h => exact .notes h
  | target hc h => exact .target hc h
  | site h => exact .site h
  | aliases h => exact .aliases h
  | entry h => exact .entry h
  | code h hb hl hn => exact .code h hb hl hn
  | length h => exact .length h
  | charset h => exact .charset h

/-- **C105.** Whatever somebody without the primary password has made of the storage file, and whatever is typed: if the cipher has
not been broken, every text that a command looking something up writes is one of the fixed texts or tells something that the owner
entered. -/
theorem C105_shown (T : Dialog) (C : CEnv) (hE : C.env.Lawful) (hS : Secure C.env U) (owner : PState → Prop)
    (howner : ∀ u, owner u → Done C.env U G u) (argv lines : List Str) (m : Machine) (a : Args) (ha : ProgramWords argv a)
    (hc : LooksUp a.command)
    (hn : ∀ l ∈ lines, Opens C.env (trim l) (storageOf m a) →
      U.primary (trim l) ∧ NoForgery C.env owner (trim l) (opened C.env (trim l) (storageOf m a))) :
    ∀ x ∈ textsOf (Terminal.main T C argv lines m).trace, x ∈ plainTexts ∨ ∃ l ∈ lines, Opens C.env (trim l) (storageOf m a) ∧
      Tells C G (trim l) (opened C.env (trim l) (storageOf m a)) a.command x := by
  have hp := (C70_grammar _ _).mpr ha
  have hplain : ∀ (b : Bool) (s : TState), ∃ new, (Terminal.waitEnd b s).trace = s.trace ++ new ∧ ∀ x ∈ textsOf new, x ∈ plainTexts := by
    intro b s
    unfold Terminal.waitEnd
    cases b with
    | false => exact ⟨[], by simp, by simp [textsOf]⟩
    | true =>
      rw [if_pos rfl]
      dsimp only
      split
      · exact ⟨[.flush, .out .direct (c!"\nWaiting...\n")], by simp [TState.log], by simp [textsOf, plainTexts]⟩
      · rename_i line rest _
        exact ⟨[.flush, .out .direct (c!"\nWaiting...\n"), .read .wait line], by simp [TState.log, TState.take], by simp [textsOf, plainTexts]⟩
  let C' : CEnv := { C with storagePath := a.storage.getD m.defaultPath }
  let s₀ : TState := { ps := storageOf m a, input := lines, trace := [] }
  have key : ∀ x ∈ textsOf (Terminal.mainInner T C' a.stdinPasswords a.command s₀).2.trace, x ∈ plainTexts ∨
      ∃ l ∈ lines, Opens C.env (trim l) (storageOf m a) ∧
        Tells C G (trim l) (opened C.env (trim l) (storageOf m a)) a.command x := by
    have e : Terminal.mainInner T C' a.stdinPasswords a.command s₀ = match FileIO.load (storageOf m a).world.disk with
        | .ok data => Terminal.processCommand T C' a.stdinPasswords a.command { s₀ with ps := openWith (storageOf m a).world data }
        | .err e => (.err (.lib e), s₀)
        | .panic => (.panic, s₀) := by
      revert hc
      cases a.command <;> intro hc <;> first | exact hc.elim | rfl
    rw [e]
    cases hl : FileIO.load (storageOf m a).world.disk with
    | err e => simp [s₀, textsOf]
    | panic => simp [s₀, textsOf]
    | ok data =>
      dsimp only
      have hr : Spec.run C.env .reload (storageOf m a) = (.ok .unit, openWith (storageOf m a).world data) := by
        simp only [Spec.run, reload, hl]
        rfl
      have ho : ∀ l t, Passwords.unlock C.env (trim l) (openWith (storageOf m a).world data) = (.ok (), t) →
          Opens C.env (trim l) (storageOf m a) ∧ opened C.env (trim l) (storageOf m a) = t := by
        intro l t h
        simp only [Opens, opened, ask, after, hr]
        simp only [Spec.run, h]
        exact ⟨⟨trivial, rfl⟩, trivial⟩
      obtain ⟨new, h1, h2⟩ := processCommand_writes (C := C') (G := G) T a.stdinPasswords hc (openWith (storageOf m a).world data) rfl
        { s₀ with ps := openWith (storageOf m a).world data } rfl (by
          intro l hl t ht
          obtain ⟨o1, o2⟩ := ho l t ht
          obtain ⟨n1, n2⟩ := hn l hl o1
          rw [← o2]
          exact good_of_opened C' hE hS owner howner _ n1 _ o1 n2)
      rw [h1]
      intro x hx
      rcases h2 x (by simpa [s₀] using hx) with h | ⟨l, hl, t, ht, h⟩
      · exact .inl h
      · obtain ⟨o1, o2⟩ := ho l t ht
        refine .inr ⟨l, hl, o1, ?_⟩
        rw [o2]
        exact tells_path h
  simp only [Terminal.main, hp]
  show ∀ x ∈ textsOf (Terminal.mainEnd C a m (Terminal.mainInner T C' a.stdinPasswords a.command s₀).1
    (Terminal.mainInner T C' a.stdinPasswords a.command s₀).2).trace, _
  revert key
  rcases Terminal.mainInner T C' a.stdinPasswords a.command s₀ with ⟨out, s⟩
  intro key x hx
  cases out with
  | ok u =>
    obtain ⟨new, h1, h2⟩ := hplain a.wait s
    simp only [Terminal.mainEnd, h1, textsOf_append, List.mem_append] at hx
    exact hx.elim (key x) fun h => .inl (h2 x h)
  | err e =>
    obtain ⟨new, h1, h2⟩ := hplain a.wait (s.log (.err (.error e)))
    simp only [Terminal.mainEnd, h1, textsOf_append, List.mem_append] at hx
    refine hx.elim (fun h => key x ?_) fun h => .inl (h2 x h)
    simpa [TState.log, textsOf_append, textsOf] using h
  | panic => exact key x hx
  | blocked => exact key x hx

/-- C105: what `show` does with a file that can be opened, all that happens at the terminal. -/
theorem C105_show (T : Dialog) (C : CEnv) (hE : C.env.Lawful) (argv : List Str) (l : Str) (rest : List Str) (m : Machine) (a : Args)
    (ha : ProgramWords argv a) (hw : a.wait = false) (d n r v : Str) (hc : a.command = .«show» d n r false)
    (hl : 6 ≤ (utf8 (trim l)).length) (ho : Opens C.env (trim l) (storageOf m a))
    (hv : ask C.env (opened C.env (trim l) (storageOf m a)) (.get d n r) = .ok (.text v)) :
    (Terminal.main T C argv (l :: rest) m).exit = .success ∧ (Terminal.main T C argv (l :: rest) m).trace =
      [.out .direct (c!"Your primary password: "), .read .secret l, .out .direct (c!"Password retrieved."), .out .direct v,
       .out .direct (c!"\n")] := by
  have hp := (C70_grammar _ _).mpr ha
  obtain ⟨data, salt, k, hm, h1, h2, h3, -, -, h4, -, -, -⟩ := opens_iff hE.prims ho
  have hr : Spec.run C.env .reload (storageOf m a) = (.ok .unit, openWith (storageOf m a).world data) := by
    simp only [Spec.run, reload, h1]
    rfl
  have hu : Passwords.unlock C.env (trim l) (openWith (storageOf m a).world data) =
      (.ok (), opened C.env (trim l) (storageOf m a)) := by
    have h := ho.2
    simp only [opened, ask, after, hr] at h ⊢
    simp only [Spec.run] at h ⊢
    revert h
    rcases Passwords.unlock C.env (trim l) (openWith (storageOf m a).world data) with ⟨x, y⟩
    intro h
    cases x with
    | ok u => rfl
    | err e => cases h
    | panic => cases h
  have hg : Passwords.get C.env (opened C.env (trim l) (storageOf m a)) d n r = .ok v := by
    simp only [ask, Spec.run] at hv
    revert hv
    cases Passwords.get C.env (opened C.env (trim l) (storageOf m a)) d n r with
    | ok u => intro hv; cases hv; rfl
    | err e => intro hv; cases hv
    | panic => intro hv; cases hv
  have hkey : (opened C.env (trim l) (storageOf m a)).key.isSome = true := by
    have := Cli.unlock_ok (E := C.env) (ps := openWith (storageOf m a).world data) (p := trim l) (by rw [hu])
    rw [hu] at this
    exact this.2.1
  have hi : Passwords.initialized (openWith (storageOf m a).world data) = true := by
    have hk1 : (data.get? Storage.SALT_KEY).isSome = true := by
      unfold Storage.getSalt FileIO.get at h3
      rw [h2] at h3
      cases hx : data.get? Storage.SALT_KEY with
      | none => rw [hx] at h3; cases h3
      | some x => rfl
    have hk2 : (data.get? Storage.HMAC_SECRET_KEY).isSome = true := by
      unfold Storage.getHmacSecret FileIO.get at h4
      rw [h2] at h4
      cases hx : data.get? Storage.HMAC_SECRET_KEY with
      | none => rw [hx] at h4; cases h4
      | some x => rfl
    show (data.contains Storage.SALT_KEY && data.contains Storage.HMAC_SECRET_KEY) = true
    simp [Data.contains, hk1, hk2]
  have e : Terminal.mainInner T { C with storagePath := a.storage.getD m.defaultPath } a.stdinPasswords a.command
      { ps := storageOf m a, input := l :: rest, trace := [] } =
      Terminal.«show» { C with storagePath := a.storage.getD m.defaultPath } d n r false
        { ps := openWith (storageOf m a).world data, input := l :: rest, trace := [] } := by
    rw [hc]
    unfold Terminal.mainInner
    dsimp only
    rw [h1]
    rfl
  have e' : Terminal.ensureUnlocked C.env { ps := openWith (storageOf m a).world data, input := l :: rest, trace := [] } =
      (.ok (), { ((TState.log { ps := openWith (storageOf m a).world data, input := l :: rest, trace := [] }
        (.out .direct PRIMARY_PROMPT)).take .secret l rest) with ps := opened C.env (trim l) (storageOf m a) }) := by
    unfold Terminal.ensureUnlocked
    rw [if_neg (by rw [hi]; decide)]
    show Terminal.unlockLoop C.env (l :: rest) _ = _
    rw [Terminal.unlockLoop]
    dsimp only
    rw [if_neg (by rw [show Passwords.unlocked (openWith (storageOf m a).world data) = false from rfl]; decide), if_neg (by omega)]
    show (match Passwords.unlock C.env (trim l) (openWith (storageOf m a).world data) with
      | (.panic, ps) => _
      | (.err e, ps) => _
      | (.ok _, ps) => _) = _
    rw [hu]
    exact unlockLoop_done rest _ hkey
  have e'' : Terminal.«show» { C with storagePath := a.storage.getD m.defaultPath } d n r false
      { ps := openWith (storageOf m a).world data, input := l :: rest, trace := [] } =
      (.ok (), ((({ ((TState.log { ps := openWith (storageOf m a).world data, input := l :: rest, trace := [] }
        (.out .direct PRIMARY_PROMPT)).take .secret l rest) with ps := opened C.env (trim l) (storageOf m a) } : TState).log
          (.out .direct (c!"Password retrieved."))).log (.out .direct v)).log (.out .direct (c!"\n"))) := by
    show Terminal.TM.bind (Terminal.ensureUnlocked C.env) _ _ = _
    unfold Terminal.TM.bind
    rw [e']
    show Terminal.TM.bind (Terminal.query fun s => Passwords.get C.env s d n r) _ _ = _
    unfold Terminal.TM.bind
    rw [show ∀ s : TState, Terminal.query (fun s => Passwords.get C.env s d n r) s = (convert (Passwords.get C.env s.ps d n r), s) from fun _ => rfl]
    dsimp only
    rw [hg]
    rfl
  simp only [Terminal.main, hp]
  rw [show ({ m.state.ps with world := { m.state.ps.world with disk := m.files (a.storage.getD m.defaultPath) } } : PState) = storageOf m a from rfl,
    e, e'']
  simp only [Terminal.mainEnd, hw, hc]
  exact ⟨trivial, rfl⟩

/-- C105: somebody exchanges two values in the file, and `show` shows each password for the other. -/
theorem C105_exchange (T : Dialog) (C : CEnv) (hE : C.env.Lawful) (argv : List Str) (l : Str) (rest : List Str) (m m' : Machine) (a : Args)
    (ha : ProgramWords argv a) (hw : a.wait = false) (d n r d' n' r' v v' : Str) (hc : a.command = .«show» d n r false)
    (hl : 6 ≤ (utf8 (trim l)).length) (ho : Opens C.env (trim l) (storageOf m a))
    (hv : ask C.env (opened C.env (trim l) (storageOf m a)) (.get d n r) = .ok (.text v))
    (hv' : ask C.env (opened C.env (trim l) (storageOf m a)) (.get d' n' r') = .ok (.text v'))
    (data : Data) (hd : FileIO.load (storageOf m a).world.disk = .ok data) (h : Bytes)
    (hh : (opened C.env (trim l) (storageOf m a)).hmacSecret = some h)
    (hm : m'.files (a.storage.getD m'.defaultPath) = some (FileIO.contents (exchanged data
      (entryMeant C.env h (opened C.env (trim l) (storageOf m a)) d n r)
      (entryMeant C.env h (opened C.env (trim l) (storageOf m a)) d' n' r')))) :
    (Terminal.main T C argv (l :: rest) m).trace =
      [.out .direct (c!"Your primary password: "), .read .secret l, .out .direct (c!"Password retrieved."), .out .direct v,
       .out .direct (c!"\n")] ∧
    (Terminal.main T C argv (l :: rest) m').trace =
      [.out .direct (c!"Your primary password: "), .read .secret l, .out .direct (c!"Password retrieved."), .out .direct v',
       .out .direct (c!"\n")] := by
  refine ⟨(C105_show T C hE argv l rest m a ha hw d n r v hc hl ho hv).2, ?_⟩
  have hhas : ∀ d n r v, ask C.env (opened C.env (trim l) (storageOf m a)) (.get d n r) = .ok (.text v) →
      ask C.env (opened C.env (trim l) (storageOf m a)) (.has d n r) = .ok (.bool true) := by
    intro d n r v hv
    obtain ⟨_, _, k, h', -, -, -, -, hlen, -, hk, hh', hpp⟩ := opens_iff hE.prims ho
    have hna : ask C.env (opened C.env (trim l) (storageOf m a)) (.getAlias d) ≠ .panic := by
      intro hc
      rw [(alias_panic hk hh' hpp hc n r []).1] at hv
      cases hv
    obtain ⟨g1, -, g2, -⟩ := C56_get C.env _ k h' _ hk hlen hh' hpp d n r hna
    obtain ⟨x, y, hx, -⟩ := (g2 v).mp hv
    exact g1.mpr (by rw [hx]; rfl)
  obtain ⟨h1, h2, -⟩ := C90_exchange hE.prims (trim l) (storageOf m a) ho data hd h hh d n r d' n' r' (hhas _ _ _ _ hv)
    (hhas _ _ _ _ hv') (storageOf m' a) hm
  exact (C105_show T C hE argv l rest m' a ha hw d n r v' hc hl h1 (h2.trans hv')).2

/-! ## Examples -/

section Examples

/-- The computer of `exampleMachine` after somebody has exchanged two passwords. -/
def swappedMachine : Machine :=
  { exampleMachine with files := fun _ => swapped.world.disk, state := { exampleMachine.state with ps := swapped } }

/-- The hypotheses of `C105_shown`: the primary password is mistyped at first. -/
theorem swapped_lines : ∀ a : Args, ∀ l ∈ [c!"wrong1", c!"secret1"], Opens Toy.cenv.env (trim l) (storageOf swappedMachine a) →
    Toy.univ.primary (trim l) ∧ NoForgery Toy.cenv.env (· = twoStored) (trim l) (opened Toy.cenv.env (trim l) (storageOf swappedMachine a)) := by
  intro a l hl ho
  simp only [List.mem_cons, List.not_mem_nil, or_false] at hl
  rcases hl with rfl | rfl
  · have h : ¬Opens Toy.env (c!"wrong1") swapped := fun h => absurd h.2 (by decide +kernel)
    exact absurd ho h
  · exact ⟨by show _ ∈ Toy.primaries; decide, swapped_noForgery⟩

/-- `list --show --verbose` -/
def swappedRun : Terminal.Ran :=
  Terminal.main exampleDialog Toy.cenv [c!"list", c!"-s", c!"-v"] [c!"wrong1", c!"secret1"] swappedMachine

/-- The arguments. -/
def swappedArgs : Args := ⟨none, false, false, .list (c!"*") (c!"*") true false true, none⟩

example : ∀ x ∈ textsOf swappedRun.trace, x ∈ plainTexts ∨ ∃ l ∈ [c!"wrong1", c!"secret1"],
    Opens Toy.cenv.env (trim l) (storageOf swappedMachine swappedArgs) ∧
      Tells Toy.cenv owned (trim l) (opened Toy.cenv.env (trim l) (storageOf swappedMachine
        swappedArgs)) (.list (c!"*") (c!"*") true false true) x :=
  C105_shown exampleDialog Toy.cenv Toy.env_lawful Toy.secure (· = twoStored) (by rintro u rfl; exact twoStored_done) _ _ swappedMachine
    swappedArgs ((C70_grammar _ _).mp (by decide +kernel)) trivial (swapped_lines _)

/-- A password that cannot be shown. -/
example (p : Str) : ¬OwnValue Toy.env owned p (c!"z") := by
  rintro (⟨a, n, r, h⟩ | ⟨a, n, r, len, cs, site, h, -⟩)
  · rcases h with h | h | h <;> simp at h
  · rcases h with h | h | h <;> cases h

/-- The hypotheses of `C105_exchange`. -/
example : (Terminal.main exampleDialog Toy.cenv [c!"show", c!"a", c!"u"] [c!"secret1"] swappedMachine).trace =
    [.out .direct (c!"Your primary password: "), .read .secret (c!"secret1"), .out .direct (c!"Password retrieved."),
     .out .direct (c!"y"), .out .direct (c!"\n")] :=
  (C105_exchange exampleDialog Toy.cenv Toy.env_lawful [c!"show", c!"a", c!"u"] (c!"secret1") []
    { exampleMachine with files := fun _ => twoStored.world.disk, state := { exampleMachine.state with ps := twoStored } } swappedMachine
    ⟨none, false, false, .«show» (c!"a") (c!"u") (c!"1") false, none⟩ ((C70_grammar _ _).mp (by decide +kernel)) rfl
    (c!"a") (c!"u") (c!"1") (c!"b") (c!"u") [] (c!"x") (c!"y") rfl (by decide) twoStored_opens (by decide +kernel) twoStored_values.2 twoData
    twoStored_load twoSecret (by decide +kernel) rfl).2

end Examples

end Pfp.Props
