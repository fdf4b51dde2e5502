import Verif.Props.Cli

/-!
# The commands one by one: C64

What each command does to an unlocked storage, and what it writes: exactly.  (By `C48_commands` a command on a locked
storage does the same once unlocked.)
-/

namespace Pfp.Props
open Spec Pfp.Cli

/-- A command consisting of one operation: the result is the operation's, and in case of success the text is written. -/
def Does (E : Env) (s : CState) (op : Op) (text : Str) (result : COut Unit × CState) : Prop :=
  match ask E s.ps op with
  | .ok _ => result = (.ok (), { s with ps := after E s.ps op, out := s.out ++ text })
  | .err e => result = (.err (.lib e), { s with ps := after E s.ps op })
  | .panic => result = (.panic, { s with ps := after E s.ps op })

theorem call_println {s : CState} {α : Type} (m : M PState α) (text : Str) :
    (call m >>= fun _ => println text) s =
      match m s.ps with
      | (.ok _, ps) => (.ok (), { s with ps, out := s.out ++ (text ++ ['\n']) })
      | (.err e, ps) => (.err (.lib e), { s with ps })
      | (.panic, ps) => (.panic, { s with ps }) := by
  rw [CM.bind_apply]
  unfold call
  cases m s.ps with
  | mk x ps => cases x <;> rfl

theorem query_bind {s : CState} {α β : Type} (f : PState → Res α) (g : α → CM β) :
    (query f >>= g) s =
      match f s.ps with
      | .ok a => g a s
      | .err e => (.err (.lib e), s)
      | .panic => (.panic, s) := by
  rw [CM.bind_apply]
  unfold query
  cases f s.ps <;> rfl

/-- **C64 (show).** -/
theorem C64_show (C : CEnv) (b : Bool) (d n r : Str) (s : CState) (hk : s.ps.key.isSome = true)
    (hi : Passwords.initialized s.ps = true) :
    (∀ v, ask C.env s.ps (.get d n r) = .ok (.text v) → processCommand C b (.«show» d n r false) s =
      (.ok (), { s with out := s.out ++ c!"Password retrieved." ++ v ++ c!"\n" })) ∧
    (∀ v q, ask C.env s.ps (.get d n r) = .ok (.text v) → C.qr v = some q → processCommand C b (.«show» d n r true) s =
      (.ok (), { s with out := s.out ++ c!"Password retrieved." ++ renderQr q })) ∧
    (∀ v, ask C.env s.ps (.get d n r) = .ok (.text v) → C.qr v = none → processCommand C b (.«show» d n r true) s =
      (.err .qrCode, { s with out := s.out ++ c!"Password retrieved." })) ∧
    (∀ e x, ask C.env s.ps (.get d n r) = .err e → processCommand C b (.«show» d n r x) s = (.err (.lib e), s)) := by
  have hq : ∀ x, processCommand C b (.«show» d n r x) s = match Passwords.get C.env s.ps d n r with
      | .ok v => (print (c!"Password retrieved.") >>= fun _ => if x then
          (match C.qr v with
          | some q => print (renderQr q)
          | none => CM.fail .qrCode) else println v) s
      | .err e => (.err (.lib e), s)
      | .panic => (.panic, s) := by
    intro x
    show «show» C d n r x s = _
    unfold «show»
    rw [CM.bind_ok (C48_already C.env s hk hi), query_bind]
    cases Passwords.get C.env s.ps d n r <;> rfl
  simp only [ask, run]
  refine ⟨fun v h => ?_, fun v q h hv => ?_, fun v h hv => ?_, fun e x h => ?_⟩ <;> rw [hq] <;>
    cases hg : Passwords.get C.env s.ps d n r with
    | ok w => rw [hg] at h; first | (cases h; done) | (cases h; simp [CM.bind_apply, print, println, *])
    | err e => rw [hg] at h; cases h; try rfl
    | panic => rw [hg] at h; cases h

/-- **C64 (remove).** -/
theorem C64_remove (C : CEnv) (b : Bool) (d n r : Str) (s : CState) (hk : s.ps.key.isSome = true)
    (hi : Passwords.initialized s.ps = true) :
    Does C.env s (.remove d n r) (c!"Password removed.\n") (processCommand C b (.remove d n r) s) := by
  have : processCommand C b (.remove d n r) s = (call (Passwords.remove C.env d n r) >>= fun _ =>
      println (c!"Password removed.")) s := by
    show remove C.env d n r s = _
    unfold remove
    rw [CM.bind_ok (C48_already C.env s hk hi)]
  rw [this, call_println]
  unfold Does
  simp only [ask, after, run]
  cases Passwords.remove C.env d n r s.ps with
  | mk x ps => cases x <;> rfl

/-- **C64 (alias with a target).**  The first site becomes an alias of the second one. -/
theorem C64_alias_set (C : CEnv) (b : Bool) (d t : Str) (x : Bool) (s : CState) (hk : s.ps.key.isSome = true)
    (hi : Passwords.initialized s.ps = true) :
    Does C.env s (.setAlias d t) (c!"Alias added.\n") (processCommand C b (.alias d (some t) x) s) := by
  have : processCommand C b (.alias d (some t) x) s = (call (Passwords.setAlias C.env d t) >>= fun _ =>
      println (c!"Alias added.")) s := by
    show «alias» C.env d (some t) x s = _
    unfold «alias»
    rw [CM.bind_ok (C48_already C.env s hk hi)]
  rw [this, call_println]
  unfold Does
  simp only [ask, after, run]
  cases Passwords.setAlias C.env d t s.ps with
  | mk x ps => cases x <;> rfl

/-- **C64 (alias --remove).** -/
theorem C64_alias_remove (C : CEnv) (b : Bool) (d : Str) (s : CState) (hk : s.ps.key.isSome = true)
    (hi : Passwords.initialized s.ps = true) :
    Does C.env s (.removeAlias d) (c!"Alias removed.\n") (processCommand C b (.alias d none true) s) := by
  have : processCommand C b (.alias d none true) s = (call (Passwords.removeAlias C.env d) >>= fun _ =>
      println (c!"Alias removed.")) s := by
    show «alias» C.env d none true s = _
    unfold «alias»
    rw [CM.bind_ok (C48_already C.env s hk hi)]
    rfl
  rw [this, call_println]
  unfold Does
  simp only [ask, after, run]
  cases Passwords.removeAlias C.env d s.ps with
  | mk x ps => cases x <;> rfl

/-- **C64 (alias without target).**  The target is shown. -/
theorem C64_alias_show (C : CEnv) (b : Bool) (d : Str) (s : CState) (hk : s.ps.key.isSome = true)
    (hi : Passwords.initialized s.ps = true) :
    (∀ t, ask C.env s.ps (.getAlias d) = .ok (.text t) → processCommand C b (.alias d none false) s =
      (.ok (), { s with out := s.out ++ c!"'" ++ d ++ c!"' is an alias for '" ++ t ++ c!"'.\n" })) ∧
    (∀ e, ask C.env s.ps (.getAlias d) = .err e → processCommand C b (.alias d none false) s = (.err (.lib e), s)) := by
  have hq : processCommand C b (.alias d none false) s = match Passwords.getAlias C.env s.ps d with
      | .ok t => println (c!"'" ++ d ++ c!"' is an alias for '" ++ t ++ c!"'.") s
      | .err e => (.err (.lib e), s)
      | .panic => (.panic, s) := by
    show «alias» C.env d none false s = _
    unfold «alias»
    rw [CM.bind_ok (C48_already C.env s hk hi)]
    simp only [Bool.false_eq_true, if_false]
    rw [query_bind]
    cases Passwords.getAlias C.env s.ps d <;> rfl
  rw [hq]
  simp only [ask, run]
  constructor
  all_goals
    intro x h
    cases hg : Passwords.getAlias C.env s.ps d with
    | ok t => rw [hg] at h; first | (cases h; done) | (cases h; simp [println, print])
    | err e => rw [hg] at h; cases h; try rfl
    | panic => rw [hg] at h; cases h

/-- What `notes` writes about the present notes. -/
def notesText (notes : Str) : Str :=
  if notes = [] then c!"Currently no notes are stored for this password.\n" else c!"Notes for this password: " ++ notes ++ c!"\n"

/-- **C64 (notes).** -/
theorem C64_notes (C : CEnv) (b : Bool) (d n r : Str) (s : CState) (hk : s.ps.key.isSome = true)
    (hi : Passwords.initialized s.ps = true) :
    (∀ t, ask C.env s.ps (.getNotes d n r) = .ok (.text t) → processCommand C b (.notes d n r false) s =
      (.ok (), { s with out := s.out ++ notesText t })) ∧
    (∀ e x, ask C.env s.ps (.getNotes d n r) = .err e → processCommand C b (.notes d n r x) s = (.err (.lib e), s)) := by
  have hq : ∀ x e, Passwords.getNotes C.env s.ps d n r = .err e → processCommand C b (.notes d n r x) s = (.err (.lib e), s) := by
    intro x e h
    show notes C.env d n r x s = _
    unfold notes
    rw [CM.bind_ok (C48_already C.env s hk hi), query_bind, h]
  have hq' : ∀ t, Passwords.getNotes C.env s.ps d n r = .ok t → processCommand C b (.notes d n r false) s =
      (.ok (), { s with out := s.out ++ notesText t }) := by
    intro t h
    show notes C.env d n r false s = _
    unfold notes
    rw [CM.bind_ok (C48_already C.env s hk hi), query_bind, h]
    by_cases ht : t = []
    · subst ht; rfl
    · simp [CM.bind_apply, print, println, notesText, ht]
  simp only [ask, run]
  constructor
  · intro x h
    cases hg : Passwords.getNotes C.env s.ps d n r with
    | ok y => rw [hg] at h; cases h; exact hq' _ hg
    | err e => rw [hg] at h; cases h
    | panic => rw [hg] at h; cases h
  · intro e x h
    cases hg : Passwords.getNotes C.env s.ps d n r with
    | ok t => rw [hg] at h; cases h
    | err e => rw [hg] at h; cases h; exact hq x _ hg
    | panic => rw [hg] at h; cases h

/-- **C64 (notes --set).**  The line entered is stored as it is; an empty one (or the end of the input) removes the
notes. -/
theorem C64_notes_set (C : CEnv) (b : Bool) (d n r t : Str) (s : CState) (hk : s.ps.key.isSome = true)
    (hi : Passwords.initialized s.ps = true) (ht : ask C.env s.ps (.getNotes d n r) = .ok (.text t))
    (hc : s.secrets ≠ [] ∨ s.garbled = false) :
    let line := s.secrets.headD []
    Does C.env { s with secrets := s.secrets.tail, out := s.out ++ notesText t ++ c!"Please enter new notes to be stored:" }
      (.setNotes d n r line) (if line = [] then c!"Notes removed.\n" else c!"Notes stored.\n")
      (processCommand C b (.notes d n r true) s) := by
  intro line
  have h : Passwords.getNotes C.env s.ps d n r = .ok t := by
    simp only [ask, run] at ht
    cases hg : Passwords.getNotes C.env s.ps d n r with
    | ok t => rw [hg] at ht; cases ht; rfl
    | err e => rw [hg] at ht; cases ht
    | panic => rw [hg] at ht; cases ht
  have hq : processCommand C b (.notes d n r true) s = (call (Passwords.setNotes C.env d n r line) >>= fun _ =>
      println (if line = [] then c!"Notes removed." else c!"Notes stored."))
      { s with secrets := s.secrets.tail, out := s.out ++ notesText t ++ c!"Please enter new notes to be stored:" } := by
    show notes C.env d n r true s = _
    unfold notes
    rw [CM.bind_ok (C48_already C.env s hk hi), query_bind, h]
    have hrest : ∀ text, text = notesText t → (print text >>= fun _ => do
        let notes ← promptSecretText (c!"Please enter new notes to be stored:")
        call (Passwords.setNotes C.env d n r notes)
        if notes = [] then println (c!"Notes removed.") else println (c!"Notes stored.")) s =
        (call (Passwords.setNotes C.env d n r line) >>= fun _ =>
          println (if line = [] then c!"Notes removed." else c!"Notes stored."))
          { s with secrets := s.secrets.tail, out := s.out ++ notesText t ++ c!"Please enter new notes to be stored:" } := by
      rintro text rfl
      have h1 : promptSecretText (c!"Please enter new notes to be stored:") { s with out := s.out ++ notesText t } =
          (.ok line, { s with secrets := s.secrets.tail, out := s.out ++ notesText t ++ c!"Please enter new notes to be stored:" }) := by
        unfold promptSecretText
        simp only [line]
        cases hsec : s.secrets with
        | nil => simp only [hc.resolve_left (fun h => h hsec), Bool.false_eq_true, if_false, List.headD_nil, List.tail_nil]
        | cons a l => rfl
      rw [CM.bind_ok (show print (notesText t) s = (.ok (), { s with out := s.out ++ notesText t }) from rfl), CM.bind_ok h1]
      by_cases hl : line = []
      · simp only [hl, if_true]
      · simp only [if_neg hl]
    by_cases ht : t = []
    · subst ht
      exact hrest _ rfl
    · simp only [if_neg ht]
      exact hrest _ (by rw [notesText, if_neg ht])
  rw [hq, call_println]
  unfold Does
  simp only [ask, after, run]
  have htext : (if line = [] then c!"Notes removed.\n" else c!"Notes stored.\n") =
      (if line = [] then c!"Notes removed." else c!"Notes stored.") ++ ['\n'] := by split <;> rfl
  rw [htext]
  cases Passwords.setNotes C.env d n r line s.ps with
  | mk x ps => cases x <;> rfl

theorem mayOverwrite_free {E : Env} {s : CState} {d n r : Str} {y : Bool}
    (h : y = true ∨ ask E s.ps (.has d n r) = .ok (.bool false)) : mayOverwrite E d n r y s = (.ok true, s) := by
  unfold mayOverwrite
  cases y with
  | true => rfl
  | false =>
    simp only [Bool.false_eq_true, if_false, false_or] at h ⊢
    rw [CM.bind_apply]
    simp only [CM.get_apply, has_of_ask h, Res.unwrapOr]
    rfl

theorem mayOverwrite_ask {E : Env} {s : CState} {d n r : Str} {answer : Bool} {rest : List Bool}
    (h : ask E s.ps (.has d n r) = .ok (.bool true)) (hc : s.confirms = answer :: rest) :
    mayOverwrite E d n r false s = (.ok answer, { s with
      confirms := rest, out := s.out ++ c!"A password with this domain/name/revision combination already exists. Overwrite?" }) := by
  unfold mayOverwrite
  simp only [Bool.false_eq_true, if_false]
  rw [CM.bind_apply]
  simp only [CM.get_apply, has_of_ask h, Res.unwrapOr]
  unfold confirm
  rw [hc]
  rfl

/-! ### The hypotheses are met -/

theorem toy_get : ask Toy.env Toy.one (.get (c!"a") (c!"u") []) = .ok (.text (c!"x")) := by
  obtain ⟨a, pos, ho⟩ := Toy.one_open
  rw [ho.ask_get Toy.env_lawful Toy.secure Toy.site_a Toy.name_u Toy.revision_nil]; rfl

theorem toy_getNotes : ask Toy.env Toy.one (.getNotes (c!"a") (c!"u") []) = .ok (.text []) := by
  obtain ⟨a, pos, ho⟩ := Toy.one_open
  rw [ho.ask_getNotes Toy.env_lawful Toy.secure Toy.site_a Toy.name_u Toy.revision_nil]; rfl

example : (processCommand Toy.cenv true (.«show» (c!"a") (c!"u") [] false) Toy.unlocked).2.out =
    c!"Password retrieved.x\n" := by
  rw [(C64_show Toy.cenv true _ _ _ Toy.unlocked Toy.one_unlocked Toy.unlocked_initialized).1 _ toy_get]; rfl

/-- The first of the lines becomes the new notes -/
example : Does Toy.env
      { Toy.unlocked with
        secrets := Toy.unlocked.secrets.tail
        out := c!"Currently no notes are stored for this password.\nPlease enter new notes to be stored:" }
      (.setNotes (c!"a") (c!"u") [] (c!"short")) (c!"Notes stored.\n")
      (processCommand Toy.cenv true (.notes (c!"a") (c!"u") [] true) Toy.unlocked) :=
  C64_notes_set Toy.cenv true _ _ _ _ Toy.unlocked Toy.one_unlocked Toy.unlocked_initialized toy_getNotes (Or.inr rfl)

/-- **C64 (add).**  With consent, or if there is nothing to be overwritten; compare `C46`. -/
theorem C64_add (C : CEnv) (b : Bool) (d n r : Str) (len : UInt64) (fl fu fd fs : Bool) (s : CState)
    (hk : s.ps.key.isSome = true) (hi : Passwords.initialized s.ps = true)
    (hflags : ¬(fl = true ∧ fu = true ∧ fd = true ∧ fs = true)) :
    (∀ y, y = true ∨ ask C.env s.ps (.has d n r) = .ok (.bool false) →
      Does C.env s (.setGenerated d n r len ⟨!fl, !fu, !fd, !fs⟩) (c!"Password added.\n")
        (processCommand C b (.add d n r len fl fu fd fs y) s)) ∧
    (∀ rest, ask C.env s.ps (.has d n r) = .ok (.bool true) → s.confirms = true :: rest →
      Does C.env { s with
          confirms := rest,
          out := s.out ++ c!"A password with this domain/name/revision combination already exists. Overwrite?" }
        (.setGenerated d n r len ⟨!fl, !fu, !fd, !fs⟩) (c!"Password added.\n")
        (processCommand C b (.add d n r len fl fu fd fs false) s)) ∧
    (∀ rest, ask C.env s.ps (.has d n r) = .ok (.bool true) → s.confirms = false :: rest →
      processCommand C b (.add d n r len fl fu fd fs false) s = (.ok (), { s with
        confirms := rest, out := s.out ++ c!"A password with this domain/name/revision combination already exists. Overwrite?" })) := by
  have hcs : charsetOf fl fu fd fs = ⟨!fl, !fu, !fd, !fs⟩ := by
    cases fl <;> cases fu <;> cases fd <;> cases fs <;> rfl
  have hne : (⟨!fl, !fu, !fd, !fs⟩ : CharacterSet).isEmpty = false := by
    revert hflags; cases fl <;> cases fu <;> cases fd <;> cases fs <;> decide
  have hq : ∀ y a confirms out, mayOverwrite C.env d n r y s = (.ok a, { s with confirms, out }) →
      processCommand C b (.add d n r len fl fu fd fs y) s = if a then
        (call (Passwords.setGenerated C.env d n r len ⟨!fl, !fu, !fd, !fs⟩) >>= fun _ => println (c!"Password added."))
          { s with confirms, out } else (.ok (), { s with confirms, out }) := by
    intro y a confirms out hm
    show add C.env d n r len (charsetOf fl fu fd fs) y s = _
    rw [hcs]
    unfold add
    rw [CM.bind_ok (C48_already C.env s hk hi), hne]
    simp only [Bool.false_eq_true, if_false]
    rw [CM.bind_ok hm]
    cases a <;> rfl
  have hdo : ∀ confirms out, Does C.env { s with confirms, out } (.setGenerated d n r len ⟨!fl, !fu, !fd, !fs⟩) (c!"Password added.\n")
      ((call (Passwords.setGenerated C.env d n r len ⟨!fl, !fu, !fd, !fs⟩) >>= fun _ => println (c!"Password added."))
          { s with confirms, out }) := by
    intro confirms out
    rw [call_println]
    unfold Does
    simp only [ask, after, run]
    cases Passwords.setGenerated C.env d n r len ⟨!fl, !fu, !fd, !fs⟩ s.ps with
    | mk x ps => cases x <;> rfl
  refine ⟨fun y h => ?_, fun rest h hc => ?_, fun rest h hc => ?_⟩
  · rw [hq y true s.confirms s.out (mayOverwrite_free h)]; exact hdo s.confirms s.out
  · rw [hq false true rest _ (mayOverwrite_ask h hc)]; exact hdo rest _
  · rw [hq false false rest _ (mayOverwrite_ask h hc)]; rfl

/-- **C64 (add-stored).**  The line entered is stored without surrounding whitespace; compare `C46`. -/
theorem C64_add_stored (C : CEnv) (b : Bool) (d n r line : Str) (lines : List Str) (s : CState)
    (hk : s.ps.key.isSome = true) (hi : Passwords.initialized s.ps = true) (hs : s.secrets = line :: lines) :
    (∀ y, y = true ∨ ask C.env s.ps (.has d n r) = .ok (.bool false) →
      Does C.env { s with secrets := lines, out := s.out ++ c!"Password to be stored: " }
        (.setStored d n r (trim line)) (c!"Password added.\n") (processCommand C b (.addStored d n r false y) s)) ∧
    (∀ rest, ask C.env s.ps (.has d n r) = .ok (.bool true) → s.confirms = true :: rest →
      Does C.env { s with
          secrets := lines, confirms := rest,
          out := s.out ++ c!"A password with this domain/name/revision combination already exists. Overwrite?" ++
            c!"Password to be stored: " }
        (.setStored d n r (trim line)) (c!"Password added.\n") (processCommand C b (.addStored d n r false false) s)) ∧
    (∀ rest x, ask C.env s.ps (.has d n r) = .ok (.bool true) → s.confirms = false :: rest →
      processCommand C b (.addStored d n r x false) s = (.ok (), { s with
        confirms := rest, out := s.out ++ c!"A password with this domain/name/revision combination already exists. Overwrite?" })) := by
  have hq : ∀ y x confirms out, mayOverwrite C.env d n r y s = (.ok false, { s with confirms, out }) →
      processCommand C b (.addStored d n r x y) s = (.ok (), { s with confirms, out }) := by
    intro y x confirms out hm
    show addStored C.env b d n r x y s = _
    unfold addStored
    rw [CM.bind_ok (C48_already C.env s hk hi), CM.bind_ok hm]
    rfl
  have hdo : ∀ y confirms out, mayOverwrite C.env d n r y s = (.ok true, { s with confirms, out }) →
      Does C.env { s with secrets := lines, confirms, out := out ++ c!"Password to be stored: " }
        (.setStored d n r (trim line)) (c!"Password added.\n") (processCommand C b (.addStored d n r false y) s) := by
    intro y confirms out hm
    have : processCommand C b (.addStored d n r false y) s =
        (call (Passwords.setStored C.env d n r (trim line)) >>= fun _ => println (c!"Password added."))
          { s with secrets := lines, confirms, out := out ++ c!"Password to be stored: " } := by
      show addStored C.env b d n r false y s = _
      unfold addStored
      rw [CM.bind_ok (C48_already C.env s hk hi), CM.bind_ok hm]
      simp only [if_true, Bool.false_eq_true, if_false]
      rw [CM.bind_ok (promptPassword_cons (by exact hs))]
    rw [this, call_println]
    unfold Does
    simp only [ask, after, run]
    cases Passwords.setStored C.env d n r (trim line) s.ps with
    | mk x ps => cases x <;> rfl
  exact ⟨fun y h => hdo y s.confirms s.out (mayOverwrite_free h), fun rest h hc => hdo false rest _ (mayOverwrite_ask h hc),
    fun rest x h hc => hq false x rest _ (mayOverwrite_ask h hc)⟩

/-- **C64 (add-stored at the end of the input).**  With passwords from standard input, an empty password is stored. -/
theorem C64_add_stored_end (C : CEnv) (d n r : Str) (y : Bool) (s : CState)
    (hk : s.ps.key.isSome = true) (hi : Passwords.initialized s.ps = true) (hs : s.secrets = [])
    (hg : s.garbled = false) (h : y = true ∨ ask C.env s.ps (.has d n r) = .ok (.bool false)) :
    Does C.env { s with out := s.out ++ c!"Password to be stored: " } (.setStored d n r []) (c!"Password added.\n")
      (processCommand C true (.addStored d n r false y) s) := by
  have : processCommand C true (.addStored d n r false y) s =
      (call (Passwords.setStored C.env d n r []) >>= fun _ => println (c!"Password added."))
        { s with out := s.out ++ c!"Password to be stored: " } := by
    show addStored C.env true d n r false y s = _
    unfold addStored
    rw [CM.bind_ok (C48_already C.env s hk hi), CM.bind_ok (mayOverwrite_free h)]
    simp only [if_true, Bool.false_eq_true, if_false]
    rw [CM.bind_ok (promptPassword_clear hs hg)]
  rw [this, call_println]
  unfold Does
  simp only [ask, after, run]
  cases Passwords.setStored C.env d n r [] s.ps with
  | mk x ps => cases x <;> rfl

/-- There is no password of the name "v"; the one of the name "u" is overwritten on confirmation only -/
example : ask Toy.env Toy.unlocked.ps (.has (c!"a") (c!"v") []) = .ok (.bool false) ∧
    ask Toy.env Toy.unlocked.ps (.has (c!"a") (c!"u") []) = .ok (.bool true) ∧ Toy.unlocked.confirms = false :: [] ∧
    Toy.unlocked.secrets = c!"short" :: [c!"secret2", c!"  secret1 "] :=
  ⟨Toy.one_has_not, Toy.one_has, rfl, rfl⟩

/-- **C64 (set-primary).**  Two lines are read, each after its own prompt; the second one only if the first one is long
enough. -/
theorem C64_set_primary (C : CEnv) (b y : Bool) (l1 l2 : Str) (lines : List Str) (s : CState)
    (hs : s.secrets = l1 :: l2 :: lines) :
    ((utf8 (trim l1)).length < 6 → processCommand C b (.setPrimary y) s =
      (.err .primaryTooShort, { s with secrets := l2 :: lines, out := s.out ++ c!"New primary password: " })) ∧
    (6 ≤ (utf8 (trim l1)).length → trim l1 ≠ trim l2 → processCommand C b (.setPrimary y) s =
      (.err .primaryMismatch, { s with
        secrets := lines, out := s.out ++ c!"New primary password: " ++ c!"Repeat primary password: " })) ∧
    (6 ≤ (utf8 (trim l1)).length → trim l1 = trim l2 →
      Does C.env { s with secrets := lines, out := s.out ++ c!"New primary password: " ++ c!"Repeat primary password: " }
        (.reset (trim l1)) (c!"New primary password set for " ++ C.storagePath ++ c!".\n")
        (processCommand C b (.setPrimary y) s)) := by
  have h1 : processCommand C b (.setPrimary y) s = setPrimary C b s := rfl
  rw [h1]
  refine ⟨fun h => ?_, fun h hne => ?_, fun h heq => ?_⟩
  · unfold setPrimary
    rw [CM.bind_ok (promptPassword_cons hs), if_pos h]
    rfl
  · unfold setPrimary
    rw [CM.bind_ok (promptPassword_cons hs), if_neg (Nat.not_lt.mpr h), CM.bind_ok (promptPassword_cons rfl), if_pos hne]
    rfl
  · have : setPrimary C b s = (call (Passwords.reset C.env (trim l1)) >>= fun _ =>
        println (c!"New primary password set for " ++ C.storagePath ++ c!"."))
        { s with secrets := lines, out := s.out ++ c!"New primary password: " ++ c!"Repeat primary password: " } := by
      unfold setPrimary
      rw [CM.bind_ok (promptPassword_cons hs), if_neg (Nat.not_lt.mpr h), CM.bind_ok (promptPassword_cons rfl),
        if_neg (not_not.mpr heq)]
    rw [this, call_println]
    unfold Does
    simp only [ask, after, run]
    cases Passwords.reset C.env (trim l1) s.ps with
    | mk x ps => cases x <;> simp

/-- The three cases: too short, different and equal up to surrounding whitespace -/
example : (utf8 (trim (c!" abc  "))).length < 6 ∧ 6 ≤ (utf8 (trim (c!"secret1"))).length ∧
    trim (c!"secret1") ≠ trim (c!"secret2") ∧ trim (c!" secret1") = trim (c!"secret1") := by decide

/-- **C64 (the question of set-primary).**  It is asked exactly if there is a file that can be loaded and `-y` is not
given; "yes" makes the command continue as if `-y` had been given, "no" ends it without any effect. -/
theorem C64_set_primary_question (C : CEnv) (b : Bool) (events : List ShellEvent) (s : CState) :
    (∀ data rest, FileIO.load s.ps.world.disk = .ok data → s.confirms = true :: rest →
      mainInner C b events (.setPrimary false) s = mainInner C b events (.setPrimary true) { s with
        confirms := rest,
        out := s.out ++ c!"Changing primary password will remove all existing data. Continue?" }) ∧
    (∀ data rest, FileIO.load s.ps.world.disk = .ok data → s.confirms = false :: rest →
      mainInner C b events (.setPrimary false) s = (.ok (), { s with
        confirms := rest,
        out := s.out ++ c!"Changing primary password will remove all existing data. Continue?" })) ∧
    (∀ e, FileIO.load s.ps.world.disk = .err e →
      mainInner C b events (.setPrimary false) s = mainInner C b events (.setPrimary true) s) := by
  refine ⟨fun data rest hd hc => ?_, fun data rest hd hc => ?_, fun e hd => ?_⟩
  · simp only [mainInner, hd, confirm, hc, if_true, Bool.false_eq_true, if_false]; rfl
  · simp only [mainInner, hd, confirm, hc, Bool.false_eq_true, if_false]; rfl
  · simp only [mainInner, hd]; rfl

example : (∃ data, FileIO.load Toy.one.world.disk = .ok data) ∧ FileIO.load none = .err .fileReadFailure := by
  have hd : Distinct Toy.fresh.world := (reset_written Toy.env_lawful Toy.start _ Toy.reset_ok).2.2
  obtain ⟨d, h, -⟩ := C35_written Toy.env_lawful Toy.fresh hd (.setStored (c!"a") (c!"u") [] (c!"x")) (.inl rfl) Toy.one_ok
  exact ⟨⟨d, h⟩, rfl⟩

end Pfp.Props
