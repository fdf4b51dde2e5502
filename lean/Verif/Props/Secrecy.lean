import Verif.Proofs.Parallel

/-!
# What the program tells does not depend on the values of stored passwords: C81
-/

namespace Pfp.Props
open Spec Cli

variable {E : Env} {U : Universe}

/-- C81: two histories that differ in the values of passwords stored get the same answers from the library, except for the
values themselves and the order of lists; this includes whether operations fail and why. -/
theorem C81_answers (hE : E.Lawful) (hS : Secure E U) {s s' : PState} (h : Twins E U s s') (op : Op) (hop : op.Within U)
    (hreset : ∀ p, op = .reset p → ask E s op = .ok .unit ∨ s.key = none) : AnswersAlike op (ask E s op) (ask E s' op) := by
  have hplain : plainOp op = true → ask E s' op = ask E s op := fun hp => (Twins.plain hE hS h op hop hp hreset).1
  have hk := Twins.key_none hE hS h
  cases op with
  | get a n r =>
    cases hc : s.key with
    | none =>
      have hx : ∀ {t : PState}, t.key = none → ask E t (.get a n r) = .err .passwordsLocked := by
        intro t ht
        simp only [ask, run, Passwords.get, Passwords.secrets, ht]
        cases t.hmacSecret <;> rfl
      exact .inl (by rw [hx hc, hx (hk hc)])
    | some k =>
      obtain ⟨A, A', pos, pos', p, V, V', ho, ho', hsh⟩ := Twins.opened hE hS h (by rw [hc]; rfl)
      obtain ⟨wr, _, h1, _⟩ := ho.step hE hS (.get a n r) hop rfl
      obtain ⟨wr', _, h1', _⟩ := ho'.step hE hS (.get a n r) hop rfl
      simp only [astepUnlocked] at h1 h1'
      cases he : V.passwords (V.idOf a n r) with
      | none =>
        have he' := hsh.none he
        rw [← hsh.idOf] at he'
        rw [he] at h1
        rw [he'] at h1'
        exact .inl (h1'.trans h1.symm)
      | some e =>
        obtain ⟨e', he', hh⟩ := hsh.some he
        rw [he] at h1
        rw [← hsh.idOf] at he'
        rw [he'] at h1'
        have h1 : _ = _ := h1
        have h1' : _ = _ := h1'
        obtain ⟨sec, notes⟩ := e
        obtain ⟨sec', notes'⟩ := e'
        cases sec with
        | stored v =>
          cases sec' with
          | stored v' => exact .inr ⟨v, v', h1, h1'⟩
          | generated => simp [Entry.hide, Secret.hide] at hh
        | generated l c =>
          cases sec' with
          | stored v' => simp [Entry.hide, Secret.hide] at hh
          | generated l' c' =>
            simp only [Entry.hide, Secret.hide, Entry.mk.injEq, Secret.generated.injEq] at hh
            obtain ⟨⟨rfl, rfl⟩, -⟩ := hh
            refine .inl (h1'.trans (Eq.trans ?_ h1.symm))
            rw [hsh.idOf]
            rfl
  | list y q =>
    cases hc : s.key with
    | none => 
      have hx : ∀ {t : PState}, t.key = none → ask E t (.list y q) = .panic := by
        intro t ht
        simp only [ask, run, Passwords.list, ht]
        rfl
      exact .inl (by rw [hx hc, hx (hk hc)])
    | some k =>
      obtain ⟨A, A', pos, pos', p, V, V', ho, ho', hsh⟩ := Twins.opened hE hS h (by rw [hc]; rfl)
      obtain ⟨l, l', h1, h2, h3, -⟩ := Twins.rows hE hS ho ho' hsh q hop
      exact .inr ⟨l, l', h1, h2, h3⟩
  | listSites q =>
    cases hc : s.key with
    | none => 
      have hx : ∀ {t : PState}, t.key = none → ask E t (.listSites q) = .panic := by
        intro t ht
        simp only [ask, run, Passwords.listSites, ht]
        rfl
      exact .inl (by rw [hx hc, hx (hk hc)])
    | some k =>
      obtain ⟨A, A', pos, pos', p, V, V', ho, ho', hsh⟩ := Twins.opened hE hS h (by rw [hc]; rfl)
      obtain ⟨m, h1, h2, h3⟩ := ho.listSites hE hS q
      obtain ⟨m', h1', h2', h3'⟩ := ho'.listSites hE hS q
      refine .inr ⟨m, m', h1, h1', ?_⟩
      rw [List.perm_ext_iff_of_nodup h2' h2]
      intro x
      rw [h3, h3', hsh.sites]
  | getRecoveryCode _ => trivial
  | reload => trivial
  | _ => exact hplain rfl

/-- Names without spaces are told apart when sorted. -/
theorem tieless_of_no_space (h : ∀ n, U.name n → ' ' ∉ n) : Tieless U := by
  have key : ∀ n n' r r' : Str, ' ' ∉ n → ' ' ∉ n' → n ++ ' ' :: r = n' ++ ' ' :: r' → n = n' ∧ r = r' := by
    intro n
    induction n with
    | nil =>
      intro n' r r' _ h' he
      cases n' with
      | nil => simp at he; exact ⟨rfl, he⟩
      | cons c n' =>
        simp only [List.nil_append, List.cons_append, List.cons.injEq] at he
        exact absurd (by rw [he.1]; simp) h'
    | cons c n ih =>
      intro n' r r' h h' he
      cases n' with
      | nil =>
        simp only [List.nil_append, List.cons_append, List.cons.injEq] at he
        exact absurd (by rw [he.1]; simp) h
      | cons c' n' =>
        simp only [List.cons_append, List.cons.injEq] at he
        obtain ⟨rfl, he⟩ := he
        simp only [List.mem_cons, not_or] at h h'
        obtain ⟨rfl, rfl⟩ := ih n' r r' h.2 h'.2 he
        exact ⟨rfl, rfl⟩
  exact fun n r n' r' hn _ hn' _ he => key n n' r r' (h n hn) (h n' hn') he

theorem CliTwins.sync {cs cs' : CState} (h : CliTwins E U cs cs') (hl : LinesWithin U cs.secrets) : Sync U (Twins E U) cs cs' :=
  ⟨h.storage, h.secrets, h.garbled, h.confirms, h.answers, h.out, h.errors, hl⟩

theorem Sync.twins {cs cs' : CState} (h : Sync U (Twins E U) cs cs') : CliTwins E U cs cs' :=
  ⟨h.storage, h.secrets, h.garbled, h.confirms, h.answers, h.out, h.errors⟩

/-- C81: a command not meant to show values tells the same after two histories that differ in the values of passwords
stored: same result, same output, same messages, same questions asked. -/
theorem C81_command (C : CEnv) (hE : C.env.Lawful) (hS : Secure C.env U) (hT : Tieless U) (b : Bool) (c : Command)
    (hw : Command.Within U c) (hd : Command.Discreet c) {cs cs' : CState} (h : CliTwins C.env U cs cs')
    (hl : LinesWithin U cs.secrets) (hp : (∃ y, c = .setPrimary y) → cs.ps.key = none) :
    (processCommand C b c cs').1 = (processCommand C b c cs).1 ∧
      CliTwins C.env U (processCommand C b c cs).2 (processCommand C b c cs').2 := by
  have hs := CliTwins.sync h hl
  by_cases hn : ∃ y, c = .setPrimary y
  · have hk := hp hn
    obtain ⟨y, rfl⟩ := hn
    obtain ⟨h1, h2⟩ := par_setPrimary C hE hS b hs hk
    exact ⟨h1, Sync.twins h2⟩
  · obtain ⟨h1, h2⟩ := par_command C hE hS hT b c hw hd (fun y e => hn ⟨y, e⟩) cs cs' hs
    exact ⟨h1, Sync.twins h2⟩

/-- C81: the same for any lines entered into the shell. -/
theorem C81_shell (C : CEnv) (hE : C.env.Lawful) (hS : Secure C.env U) (hT : Tieless U) (b : Bool) (events : List ShellEvent)
    (hw : ∀ e ∈ events, ShellEvent.Within U e) (hd : ∀ e ∈ events, ShellEvent.Discreet e) {cs cs' : CState}
    (h : CliTwins C.env U cs cs') (hl : LinesWithin U cs.secrets) :
    (shellLoop C b events cs').1 = (shellLoop C b events cs).1 ∧
      CliTwins C.env U (shellLoop C b events cs).2 (shellLoop C b events cs').2 := by
  obtain ⟨h1, h2⟩ := par_shell C hE hS hT b events hw hd cs cs' (CliTwins.sync h hl)
  exact ⟨h1, Sync.twins h2⟩

/-- C81: the same for runs of the program, on files of which both can be read or none. -/
theorem C81_program (C : CEnv) (hE : C.env.Lawful) (hS : Secure C.env U) (hT : Tieless U) (x : Run) (hw : Run.Within U x)
    (hd : Command.Discreet x.command) (hed : ∀ e ∈ x.events, ShellEvent.Discreet e) {s s' : PState} (h : Twins C.env U s s')
    (hl : LoadAlike s.world.disk s'.world.disk) :
    (x.result C s').1 = (x.result C s).1 ∧ (x.result C s').2.out = (x.result C s).2.out ∧
      (x.result C s').2.errors = (x.result C s).2.errors ∧ Twins C.env U (x.result C s).2.ps (x.result C s').2.ps := by
  obtain ⟨h1, h2⟩ := par_main C hE hS hT x.stdinPasswords x.events x.command hw.1 hd hw.2.1 hed
    (cs := x.start s) (cs' := x.start s') ⟨h, rfl, rfl, rfl, rfl, rfl, rfl, hw.2.2⟩ hl
  exact ⟨h1, h2.out, h2.errors, h2.storage⟩

theorem rep_nodup {s : PState} {a : AState} (hr : Rep E U s a) (hi : Intact a) : Distinct s.world := by
  have hm := hr.mem
  cases ha : a.mem with
  | torn => exact absurd ha hi.1
  | blank =>
    rw [ha] at hm
    unfold Distinct
    rw [hm.1]
    simp
  | store p V =>
    rw [ha] at hm
    obtain ⟨pos, R, -⟩ := hm
    exact R.vault.nodup

/-- C81: after a successful change the program can be started on both files, as `C81_program` assumes: the same operation,
or a value stored, which may be different. -/
theorem C81_written (hE : E.Lawful) (hS : Secure E U) {s s' : PState} (h : Twins E U s s') (op op' : Op) (hw : op.Within U)
    (hw' : op'.Within U) (ho : op' = op ∨ ∃ a n r v v', op = .setStored a n r v ∧ op' = .setStored a n r v')
    (hc : op.changes = true) (hok : ask E s op = .ok .unit) :
    LoadAlike (after E s op).world.disk (after E s' op').world.disk := by
  have hop : SameOp op op' := by
    rcases ho with rfl | ⟨a, n, r, v, v', rfl, rfl⟩
    · exact .same _
    · exact .value a n r v v'
  have hnr : ∀ p, op ≠ .reset p := by rintro p rfl; cases hc
  have hnl : op ≠ .reload := by rintro rfl; cases hc
  have hp : plainOp op = true := by cases op <;> first | rfl | cases hc
  obtain ⟨h1, h2⟩ := (Twins.paired hE hS h).step hE hS hop hw hw' (fun p e => absurd e (hnr p)) (fun e => absurd e hnl)
  obtain ⟨a, a', hr, hr', hi, hi', -, -⟩ := h2
  have hc' : op'.changes = true := by cases hop <;> exact hc
  have w := (changes_written E _ op hc _ hok).2.1
  have w' := (changes_written E _ op' hc' _ ((h1 hp).trans hok)).2.1
  exact .inl ⟨_, _, (load_flushed hE (rep_nodup hr hi) w).1, (load_flushed hE (rep_nodup hr' hi') w').1⟩

/-! ## Entering a value -/

theorem told_store (hE : E.Lawful) (hS : Secure E U) (b : Bool) (d n r : Str) (hw : U.site d ∧ U.name n ∧ U.revision r)
    {cs cs' : CState} (h : Told E U cs cs') {v v' : Str} {rest rest' : List Str} (hs : cs.secrets = v :: rest)
    (hs' : cs'.secrets = v' :: rest') :
    let m : CM Unit := (promptPassword (c!"Password to be stored: ") b >>= fun password =>
      call (Passwords.setStored E d n r password) >>= fun _ => println (c!"Password added."))
    (m cs').1 = (m cs).1 ∧ Told E U (m cs).2 (m cs').2 := by
  intro m
  have e1 := CM.bind_ok (f := fun password => call (Passwords.setStored E d n r password) >>= fun _ => println (c!"Password added."))
    (promptPassword_cons (t := c!"Password to be stored: ") (b := b) hs)
  have e2 := CM.bind_ok (f := fun password => call (Passwords.setStored E d n r password) >>= fun _ => println (c!"Password added."))
    (promptPassword_cons (t := c!"Password to be stored: ") (b := b) hs')
  have g1 := ((Twins.paired hE hS h.storage).step hE hS (.value d n r (trim v) (trim v')) hw hw (fun _ h => by cases h)
    (fun h => by cases h)).1 rfl
  have g2 := Twins.value h.storage d n r (trim v) (trim v') hw.1 hw.2.1 hw.2.2
  rw [show m cs = _ from e1, show m cs' = _ from e2]
  simp only [ask, after, run] at g1 g2
  rw [CM.bind_apply, CM.bind_apply]
  unfold call
  simp only
  revert g1 g2
  cases Passwords.setStored E d n r (trim v) cs.ps with
  | mk q t =>
    cases Passwords.setStored E d n r (trim v') cs'.ps with
    | mk q' t' =>
      cases q <;> cases q' <;>
        simp only [Res.map, reduceCtorEq, IsEmpty.forall_iff, forall_const, Res.err.injEq]
      · intro g2
        exact ⟨rfl, g2, h.garbled, h.confirms, h.answers, by simp only [println, print, convert, h.out], h.errors⟩
      · rintro rfl g2
        exact ⟨rfl, g2, h.garbled, h.confirms, h.answers, by simp only [convert, h.out], h.errors⟩
      · intro g2
        exact ⟨rfl, g2, h.garbled, h.confirms, h.answers, by simp only [convert, h.out], h.errors⟩

theorem told_overwrite (hE : E.Lawful) (hS : Secure E U) (b y : Bool) (d n r : Str) (hw : U.site d ∧ U.name n ∧ U.revision r)
    {cs cs' : CState} (h : Told E U cs cs') {v v' : Str} {rest rest' : List Str} (hs : cs.secrets = v :: rest)
    (hs' : cs'.secrets = v' :: rest') :
    let m : CM Unit := (mayOverwrite E d n r y >>= fun allow => if allow then (promptPassword (c!"Password to be stored: ") b >>= fun password =>
      call (Passwords.setStored E d n r password) >>= fun _ => println (c!"Password added.")) else pure ())
    (m cs').1 = (m cs).1 ∧ Told E U (m cs).2 (m cs').2 := by
  have hst : ∀ {cs cs' : CState}, Told E U cs cs' → cs.secrets = v :: rest → cs'.secrets = v' :: rest' → _ :=
    fun h hs hs' => told_store hE hS b d n r hw (cs := _) (cs' := _) h hs hs'
  intro m
  have hhas : Passwords.has E cs'.ps d n r = Passwords.has E cs.ps d n r :=
    res_of_map (fun a b h => by injection h) (Twins.plain hE hS h.storage (.has d n r) hw rfl (fun _ h => by cases h)).1
  have go : ∀ {o o' : COut Bool × CState}, mayOverwrite E d n r y cs = o → mayOverwrite E d n r y cs' = o' → o'.1 = o.1 →
      Told E U o.2 o'.2 → o.2.secrets = v :: rest → o'.2.secrets = v' :: rest' →
      (m cs').1 = (m cs).1 ∧ Told E U (m cs).2 (m cs').2 := by
    intro o o' ho ho' h1 h2 h3 h4
    show ((mayOverwrite E d n r y >>= _) cs').1 = ((mayOverwrite E d n r y >>= _) cs).1 ∧
      Told E U ((mayOverwrite E d n r y >>= _) cs).2 ((mayOverwrite E d n r y >>= _) cs').2
    rw [CM.bind_apply _ _ cs, CM.bind_apply _ _ cs', ho, ho']
    obtain ⟨q, t⟩ := o
    obtain ⟨q', t'⟩ := o'
    have h1 : q' = q := h1
    subst h1
    cases q' with
    | ok allow =>
      cases allow with
      | true => exact hst h2 h3 h4
      | false => exact ⟨rfl, h2⟩
    | err e => exact ⟨rfl, h2⟩
    | panic => exact ⟨rfl, h2⟩
    | blocked => exact ⟨rfl, h2⟩
  cases y with
  | true => exact go (o := (.ok true, cs)) (o' := (.ok true, cs')) rfl rfl rfl h hs hs'
  | false =>
    have e : ∀ t : CState, mayOverwrite E d n r false t = (match (Passwords.has E t.ps d n r).unwrapOr false with
      | .ok true => confirm OVERWRITE_QUESTION
      | .ok false => pure true
      | _ => CM.crash) t := by
      intro t
      unfold mayOverwrite
      simp only [Bool.false_eq_true, if_false]
      rw [CM.bind_apply]
      simp only [CM.get_apply]
      rfl
    refine go (e cs) (e cs') ?_ ?_ ?_ ?_
    all_goals
      try rw [hhas]
      cases (Passwords.has E cs.ps d n r).unwrapOr false with
      | ok q =>
        cases q with
        | false => first | rfl | exact h | exact hs | exact hs'
        | true =>
          simp only
          unfold confirm
          try rw [h.confirms]
          cases cs.confirms with
          | nil => first | rfl | exact hs | exact hs' | exact ⟨h.storage, h.garbled, rfl, h.answers, by simp only [h.out], h.errors⟩
          | cons x l => first | rfl | exact hs | exact hs' | exact ⟨h.storage, h.garbled, rfl, h.answers, by simp only [h.out], h.errors⟩
      | err e => first | rfl | exact h | exact hs | exact hs'
      | panic => first | rfl | exact h | exact hs | exact hs'

/-- C81: the value entered for a password to be stored does not influence what is told, on an unlocked storage. -/
theorem C81_entered (C : CEnv) (hE : C.env.Lawful) (hS : Secure C.env U) (b y : Bool) (d n r : Str)
    (hw : U.site d ∧ U.name n ∧ U.revision r) {cs cs' : CState} (h : Told C.env U cs cs') (hk : cs.ps.key.isSome = true)
    {v v' : Str} {rest rest' : List Str} (hs : cs.secrets = v :: rest) (hs' : cs'.secrets = v' :: rest') :
    (processCommand C b (.addStored d n r false y) cs').1 = (processCommand C b (.addStored d n r false y) cs).1 ∧
      Told C.env U (processCommand C b (.addStored d n r false y) cs).2 (processCommand C b (.addStored d n r false y) cs').2 := by
  show ((ensureUnlocked C.env >>= _) cs').1 = ((ensureUnlocked C.env >>= _) cs).1 ∧
    Told C.env U ((ensureUnlocked C.env >>= _) cs).2 ((ensureUnlocked C.env >>= _) cs').2
  have hi := Twins.initialized hE hS h.storage
  cases hc : Passwords.initialized cs.ps with
  | false =>
    rw [CM.bind_err (ensureUnlocked_not hc), CM.bind_err (ensureUnlocked_not (hi.trans hc))]
    exact ⟨rfl, h⟩
  | true =>
    rw [CM.bind_ok ((ensureUnlocked_eq hc).trans (unlockLoop_unlocked hk _)),
      CM.bind_ok ((ensureUnlocked_eq (hi.trans hc)).trans (unlockLoop_unlocked ((Twins.key hE hS h.storage).trans hk) _))]
    exact told_overwrite hE hS b y d n r hw h hs hs'

/-- C81: the same if the storage has to be unlocked first; the lines refused and the line accepted as primary password are
the same. -/
theorem C81_entered_locked (C : CEnv) (hE : C.env.Lawful) (hS : Secure C.env U) (b y : Bool) (d n r : Str)
    (hw : U.site d ∧ U.name n ∧ U.revision r) {cs cs' : CState} (h : Told C.env U cs cs') (hk : cs.ps.key = none)
    (hi : Passwords.initialized cs.ps = true) (bad : List Str) (good : Str) {v v' : Str} {rest rest' : List Str}
    (hs : cs.secrets = bad ++ good :: v :: rest) (hs' : cs'.secrets = bad ++ good :: v' :: rest')
    (hl : LinesWithin U (bad ++ [good])) (hbad : ∀ line ∈ bad, Refused C.env cs.ps line) (hgood : Accepted C.env cs.ps good) :
    (processCommand C b (.addStored d n r false y) cs').1 = (processCommand C b (.addStored d n r false y) cs).1 ∧
      Told C.env U (processCommand C b (.addStored d n r false y) cs).2 (processCommand C b (.addStored d n r false y) cs').2 := by
  have hun : ∀ line ∈ bad ++ [good], 6 ≤ (utf8 (trim line)).length →
      ask C.env cs'.ps (.unlock (trim line)) = ask C.env cs.ps (.unlock (trim line)) ∧
      Twins C.env U (after C.env cs.ps (.unlock (trim line))) (after C.env cs'.ps (.unlock (trim line))) :=
    fun line hm h6 => Twins.plain hE hS h.storage _ (hl line hm h6) rfl (fun _ h => by cases h)
  have hbad' : ∀ line ∈ bad, Refused C.env cs'.ps line := by
    intro line hm
    by_cases h6 : (utf8 (trim line)).length < 6
    · exact .inl h6
    · rcases hbad line hm with h | ⟨e, he⟩
      · exact .inl h
      · exact .inr ⟨e, by rw [(hun line (by simp [hm]) (Nat.not_lt.mp h6)).1, he]⟩
  have hg := hun good (by simp) hgood.1
  have hgood' : Accepted C.env cs'.ps good := ⟨hgood.1, by rw [hg.1]; exact hgood.2⟩
  have hmsg : bad.map (refusal C.env cs'.ps) = bad.map (refusal C.env cs.ps) := by
    refine List.map_congr_left fun line hm => ?_
    unfold refusal
    split
    · rfl
    · rename_i h6
      rw [(hun line (by simp [hm]) (Nat.not_lt.mp h6)).1]
  show ((ensureUnlocked C.env >>= _) cs').1 = ((ensureUnlocked C.env >>= _) cs).1 ∧
    Told C.env U ((ensureUnlocked C.env >>= _) cs).2 ((ensureUnlocked C.env >>= _) cs').2
  rw [CM.bind_ok (C48_first_accepted C.env cs hk hi bad good _ hs hbad hgood),
    CM.bind_ok (C48_first_accepted C.env cs' (Twins.key_none hE hS h.storage hk) ((Twins.initialized hE hS h.storage).trans hi) bad good
      _ hs' hbad' hgood')]
  exact told_overwrite hE hS b y d n r hw
    ⟨hg.2, h.garbled, h.confirms, h.answers, by simp only [h.out], by simp only [h.errors, hmsg]⟩ rfl rfl

/-! ## Examples: the hypotheses are met -/

/-- A small universe of names without spaces. -/
def tidyUniv : Universe where
  site s := s ∈ Toy.sites
  name s := s ∈ [c!"u", c!"v"]
  revision s := s ∈ Toy.revisions
  primary s := s ∈ Toy.primaries
  site_nul := by decide
  name_nul := by decide
  site_canonical := by decide
  revision_nil := by decide
  foreign _ := False

theorem tidy_tieless : Tieless tidyUniv := by
  refine tieless_of_no_space fun n hn => ?_
  have hn : n ∈ [c!"u", c!"v"] := hn
  simp only [List.mem_cons, List.not_mem_nil, or_false] at hn
  rcases hn with rfl | rfl <;> decide

theorem tidy_secure : Secure Toy.env tidyUniv where
  collisionFree o ho := by
    have hsub : ∀ n, tidyUniv.name n → Toy.openUniv.name n := by
      intro n hn
      have hn : n ∈ [c!"u", c!"v"] := hn
      simp only [List.mem_cons, List.not_mem_nil, or_false] at hn
      rcases hn with rfl | rfl
      · show _ ∈ Toy.names; decide
      · show _ ∈ Toy.names; decide
    have h := Toy.openSecure.collisionFree o (by
      cases o with
      | drawn => trivial
      | foreign f => exact absurd ho.1 (fun h => h))
    exact ⟨h.site, fun i i' hi hi' => h.id i i' ⟨hi.1, hsub _ hi.2.1, hi.2.2⟩ ⟨hi'.1, hsub _ hi'.2.1, hi'.2.2⟩⟩
  wrongPassword o ho := Toy.openSecure.wrongPassword o (by
      cases o with
      | drawn => trivial
      | foreign f => exact absurd ho.1 (fun h => h))

theorem tidy_fresh : Reachable Toy.env tidyUniv Toy.fresh :=
  .step (.start Toy.start_initial) _ (by show _ ∈ Toy.primaries; decide) (fun _ _ => .inl Toy.reset_ok)

theorem tidy_args : tidyUniv.site (c!"a") ∧ tidyUniv.name (c!"u") ∧ tidyUniv.revision [] :=
  ⟨by show _ ∈ Toy.sites; decide, by show _ ∈ [c!"u", c!"v"]; decide, by show _ ∈ Toy.revisions; decide⟩

/-- The same entry with another value. -/
def otherOne : PState := after Toy.env Toy.fresh (.setStored (c!"a") (c!"u") [] (c!"another"))

theorem one_twins : Twins Toy.env tidyUniv Toy.one otherOne :=
  .value (.same tidy_fresh) _ _ _ _ _ tidy_args.1 tidy_args.2.1 tidy_args.2.2

theorem other_ok : ask Toy.env Toy.fresh (.setStored (c!"a") (c!"u") [] (c!"another")) = .ok .unit := by
  obtain ⟨a, pos, ho⟩ := Toy.fresh_open
  exact ((ho.setStored Toy.env_lawful Toy.secure (c!"another") ⟨Toy.site_a, Toy.name_u, Toy.revision_nil⟩).ok rfl).1

/-- The two states are different, and the difference shows if the value is asked for. -/
example : ask Toy.env Toy.one (.get (c!"a") (c!"u") []) = .ok (.text (c!"x")) ∧
    ask Toy.env otherOne (.get (c!"a") (c!"u") []) = .ok (.text (c!"another")) := by
  refine ⟨?_, ?_⟩
  · exact (C20_stored Toy.env_lawful tidy_secure Toy.fresh tidy_fresh (c!"a") (c!"u") [] (c!"x") tidy_args.1 tidy_args.2.1 tidy_args.2.2
      Toy.one_ok [] (by simp) trivial).1 Toy.one_unlocked
  · exact (C20_stored Toy.env_lawful tidy_secure Toy.fresh tidy_fresh (c!"a") (c!"u") [] (c!"another") tidy_args.1 tidy_args.2.1
      tidy_args.2.2 other_ok [] (by simp) trivial).1 ((Twins.key Toy.env_lawful tidy_secure one_twins).trans Toy.one_unlocked)

/-- Twins on the files of which the program can be started. -/
example : LoadAlike Toy.one.world.disk otherOne.world.disk :=
  C81_written Toy.env_lawful tidy_secure (.same tidy_fresh) (.setStored (c!"a") (c!"u") [] (c!"x")) (.setStored (c!"a") (c!"u") [] (c!"another"))
    tidy_args tidy_args (.inr ⟨_, _, _, _, _, rfl, rfl⟩) rfl Toy.one_ok

example : CliTwins Toy.env tidyUniv Toy.unlocked { Toy.unlocked with ps := otherOne } ∧ LinesWithin tidyUniv Toy.unlocked.secrets ∧
    Command.Discreet (.list (c!"*") (c!"*") false false true) := by
  refine ⟨⟨one_twins, rfl, rfl, rfl, rfl, rfl, rfl⟩, Toy.lines, rfl, rfl⟩

example : Told Toy.env tidyUniv { Toy.unlocked with secrets := [c!"one"] } { Toy.unlocked with ps := otherOne, secrets := [c!"two"] } ∧
    Toy.unlocked.ps.key.isSome = true :=
  ⟨⟨one_twins, rfl, rfl, rfl, rfl, rfl⟩, Toy.one_unlocked⟩

end Pfp.Props
