import Verif.Spec.Shown
import Verif.Proofs.Listing
import Verif.Proofs.Cli

/-!
# Lemmas about what commands write at a terminal
-/

namespace Pfp.Proofs.Shown

open Cli Terminal Spec Proofs

variable {α β : Type} {I J : PState → Prop} {P : Str → Prop}

theorem textsOf_append (l l' : List Event) : textsOf (l ++ l') = textsOf l ++ textsOf l' := by
  induction l with
  | nil => rfl
  | cons e l ih => cases e <;> simp [textsOf, ih]

/-- Started with a storage in `I` the computation writes texts in `P`, and the result and the storage then are in `K`. -/
def Writes (I : PState → Prop) (P : Str → Prop) (m : TM α) (K : α → PState → Prop) : Prop :=
  ∀ s, I s.ps → ∃ new, (m s).2.trace = s.trace ++ new ∧ (∀ x ∈ textsOf new, P x) ∧ ∀ a, (m s).1 = .ok a → K a (m s).2.ps

theorem writes_bind {m : TM α} {f : α → TM β} {K : α → PState → Prop} {L : β → PState → Prop} (h : Writes I P m K)
    (h' : ∀ a, Writes (K a) P (f a) L) : Writes I P (m >>= f) L := by
  intro s hs
  obtain ⟨new, h1, h2, h3⟩ := h s hs
  show ∃ new, (TM.bind m f s).2.trace = _ ∧ _ ∧ ∀ a, (TM.bind m f s).1 = _ → L a (TM.bind m f s).2.ps
  unfold TM.bind
  revert h1 h3
  rcases m s with ⟨out, s'⟩
  intro h1 h3
  cases out with
  | ok a =>
    obtain ⟨new', g1, g2, g3⟩ := h' a s' (h3 a rfl)
    refine ⟨new ++ new', by rw [g1]; dsimp only at h1; rw [h1, List.append_assoc], ?_, g3⟩
    intro x hx
    rw [textsOf_append, List.mem_append] at hx
    exact hx.elim (h2 x) (g2 x)
  | err e => exact ⟨new, h1, h2, by simp⟩
  | panic => exact ⟨new, h1, h2, by simp⟩
  | blocked => exact ⟨new, h1, h2, by simp⟩

theorem writes_imp {m : TM α} {K L : α → PState → Prop} (h : Writes I P m K) (hI : ∀ s, J s → I s) (hK : ∀ a s, K a s → L a s) :
    Writes J P m L := fun s hs =>
  let ⟨new, h1, h2, h3⟩ := h s (hI _ hs)
  ⟨new, h1, h2, fun a ha => hK _ _ (h3 a ha)⟩

theorem writes_pure (a : α) : Writes I P (pure a : TM α) fun b s => b = a ∧ I s := fun s hs =>
  ⟨[], by simp [pure], by simp [textsOf], fun b hb => by cases hb; exact ⟨rfl, hs⟩⟩

theorem writes_fail (e : CErr) {K : α → PState → Prop} : Writes I P (TM.fail e : TM α) K := fun s _ =>
  ⟨[], by simp [TM.fail], by simp [textsOf], fun b hb => by cases hb⟩

theorem writes_print {t : Str} (h : P t) : Writes I P (Terminal.print t) fun _ => I := fun s hs =>
  ⟨[.out .buffered t], rfl, by simpa [textsOf] using h, fun _ _ => hs⟩

theorem writes_println {t : Str} (h : P (t ++ ['\n'])) : Writes I P (Terminal.println t) fun _ => I := writes_print h

theorem writes_write {t : Str} (h : P t) : Writes I P (Terminal.write t) fun _ => I := fun s hs =>
  ⟨[.out .direct t], rfl, by simpa [textsOf] using h, fun _ _ => hs⟩

theorem writes_flush : Writes I P Terminal.flush fun _ => I := fun s hs =>
  ⟨[.flush], rfl, by simp [textsOf], fun _ _ => hs⟩

theorem convert_ok {r : Res α} {a : α} (h : convert r = .ok a) : r = .ok a := by
  cases r <;> simp_all [convert]

theorem writes_query {f : PState → Res α} : Writes I P (Terminal.query f) fun a s => I s ∧ f s = .ok a := fun s hs =>
  ⟨[], by simp [Terminal.query], by simp [textsOf], fun a ha => ⟨hs, convert_ok ha⟩⟩

theorem writes_call {m : M PState α} : Writes I P (Terminal.call m) fun a s => ∃ s', I s' ∧ m s' = (.ok a, s) := by
  intro s hs
  refine ⟨[], ?_, by simp [textsOf], fun a ha => ⟨s.ps, hs, ?_⟩⟩
  · simp [Terminal.call]
  · unfold Terminal.call at ha ⊢
    revert ha
    rcases m s.ps with ⟨r, ps⟩
    intro ha
    rw [convert_ok ha]

theorem writes_secret {t : Str} (h : P t) : Writes I P (Terminal.promptSecretText t) fun _ _ => True := by
  intro s _
  unfold Terminal.promptSecretText
  dsimp only
  split
  · exact ⟨[.out .direct t], rfl, by simpa [textsOf] using h, fun _ _ => trivial⟩
  · rename_i line rest _
    exact ⟨[.out .direct t, .read .secret line], by simp [TState.take, TState.log], by simpa [textsOf] using h, fun _ _ => trivial⟩

theorem writes_ite {c : Prop} [Decidable c] {m m' : TM α} {K : α → PState → Prop} (h : c → Writes I P m K)
    (h' : ¬c → Writes I P m' K) : Writes I P (if c then m else m') K := by
  split
  · exact h ‹_›
  · exact h' ‹_›

theorem writes_true {m : TM α} {K : α → PState → Prop} (h : Writes I P m K) : Writes I P m fun _ _ => True :=
  writes_imp h (fun _ h => h) fun _ _ _ => trivial

theorem writes_skip : Writes I P (pure () : TM Unit) fun _ => I := writes_imp (writes_pure ()) (fun _ h => h) fun _ _ h => h.2

/-! ## The storage after unlocking -/

/-- What `C90_genuine` says. -/
structure Good (C : CEnv) (G : Op → Prop) (p : Str) (t : PState) : Prop where
  get : ∀ a n r x, Passwords.get C.env t a n r = .ok x → OwnValue C.env G p x
  notes : ∀ a n r x, Passwords.getNotes C.env t a n r = .ok x → x = [] ∨ ∃ a n r, G (.setNotes a n r x)
  target : ∀ a x, Passwords.getAlias C.env t a = .ok x → Named G x
  list : ∀ a q l, Passwords.list C.env t a q = .ok l → ∀ x ∈ l, OwnRecord G x
  sites : ∀ q l, Passwords.listSites C.env t q = .ok l → ∀ x ∈ l, Named G x.name ∧ ∀ y, x.alias = some y → Named G y

/-- Only random bytes have been drawn. -/
def At (t s : PState) : Prop := ∃ k, s = drawn t k

variable {C : CEnv} {G : Op → Prop} {p : Str} {t : PState} {c : Command}

theorem mem_candidates {m : List Site} {x : Site} (h : x ∈ candidateSites m) :
    x ∈ m ∨ (x.alias = none ∧ ∃ z ∈ m, z.alias = some x.name) := by
  unfold candidateSites at h
  simp only at h
  rw [mem_dedupByKey_iff (pairwise_sortByKey _), filter_sortByKey] at h
  have h := (List.mem_filter.mp (List.mem_of_mem_head? h)).1
  rcases List.mem_append.mp h with h | h
  · exact .inl h
  · exact .inr (mem_additionsOf.mp h)

theorem candidates_named {m : List Site} (h : ∀ x ∈ m, Named G x.name ∧ ∀ y, x.alias = some y → Named G y) :
    ∀ x ∈ candidateSites m, Named G x.name := by
  intro x hx
  rcases mem_candidates hx with hx | ⟨-, z, hz, ha⟩
  · exact (h x hx).1
  · exact (h z hz).2 _ ha

theorem listed_named {m : List Site} (h : ∀ x ∈ m, Named G x.name) : ∀ y ∈ listedSites m, Named G y := by
  intro y hy
  obtain ⟨x, hx, rfl⟩ := List.mem_map.mp hy
  exact h x (List.mem_filter.mp hx).1

theorem aliases_named {m : List Site} (h : ∀ x ∈ m, Named G x.name) (s : Str) : ∀ y ∈ aliasesOf m s, Named G y := by
  intro y hy
  obtain ⟨x, hx, rfl⟩ := List.mem_map.mp hy
  exact h x (List.mem_filter.mp hx).1

theorem mem_sortPasswords {l : List Password} {x : Password} (h : x ∈ sortPasswords l) : x ∈ l := by
  have h : x ∈ (sortPasswords l).filter fun a => a.id.name ++ c!" " ++ a.id.revision = x.id.name ++ c!" " ++ x.id.revision :=
    List.mem_filter.mpr ⟨h, by simp⟩
  unfold sortPasswords at h
  rw [filter_sortByKey] at h
  exact (List.mem_filter.mp h).1

/-- The texts of a command. -/
def May (C : CEnv) (G : Op → Prop) (p : Str) (t : PState) (c : Command) (x : Str) : Prop :=
  x ∈ plainTexts ∨ Tells C G p t c x

theorem plain {x : Str} (h : x ∈ plainTexts) : May C G p t c x := .inl h

/-- Something is looked up. -/
theorem writes_ask {f : PState → Res α} {g : α → TM β} {L : β → PState → Prop} (hf : ∀ k, f (drawn t k) = f t)
    (h : ∀ a, f t = .ok a → Writes (At t) P (g a) L) : Writes (At t) P (Terminal.query f >>= g) L := by
  refine writes_bind writes_query fun a => ?_
  rintro s ⟨⟨k, hk⟩, hv⟩
  rw [hk, hf] at hv
  exact h a hv s ⟨k, hk⟩

theorem writes_printValue (hg : Good C G p t) (y : Str) (x : Password) :
    Writes (At t) (May C G p t c) (Terminal.printValue C.env y x) fun _ => At t := by
  unfold Terminal.printValue
  exact writes_bind (writes_print (plain (by decide))) fun _ => writes_bind writes_flush fun _ =>
    writes_ask (fun _ => rfl) fun v hv => writes_bind (writes_write (.inr (.value (hg.get _ _ _ _ hv)))) fun _ =>
      writes_println (plain (by decide))

theorem writes_printRecovery {x : Password} (hx : OwnRecord G x) :
    Writes (At t) (May C G p t c) (Terminal.printRecovery C.env x) fun _ => At t := by
  cases x with
  | generated g => exact writes_skip
  | stored z =>
    unfold Terminal.printRecovery
    dsimp only
    refine writes_bind (writes_println (plain (by decide))) fun _ => writes_bind writes_call fun b => ?_
    rintro s ⟨s', ⟨k, hk⟩, hb⟩
    obtain ⟨k', hk'⟩ := getRecoveryCode_drawn C.env z s'
    have e : s.ps = drawn t k' := by
      rw [hb] at hk'
      dsimp only at hk'
      rw [hk', hk]
      rfl
    refine writes_print (I := At t) (.inr ?_) s ⟨k', e⟩
    have : ((splitOn 10 b).flatMap fun line => c!"        " ++ line.map byteChar ++ ['\n']) =
        indented ((splitOn 10 b).map fun l => l.map byteChar) := by
      simp [indented, List.flatMap_map]
    rw [this]
    refine .code (z := z) hx (k := k) (b := b) ?_ ?_ ?_
    · rw [← hk]
      simp only [ask, run, hb]; rfl
    · have := map_join byteChar [10] (splitOn 10 b)
      rw [join_splitOn] at this
      exact this
    · intro line hline
      obtain ⟨l', hl', rfl⟩ := List.mem_map.mp hline
      intro hm
      obtain ⟨b', hb', he⟩ := List.mem_map.mp hm
      have : b' = 10 := byteChar_injective (he.trans (by decide))
      exact not_mem_splitOn 10 b l' hl' (this ▸ hb')

theorem writes_printDetails {x : Password} (hx : OwnRecord G x) :
    Writes I (May C G p t c) (Terminal.printDetails x) fun _ => I := by
  have h1 : Writes I (May C G p t c) (match x with
      | .generated p => Terminal.printParameters p
      | .stored _ => pure ()) fun _ => I := by
    cases x with
    | stored z => exact writes_skip
    | generated g => exact writes_bind (writes_println (.inr (.length hx))) fun _ => writes_println (.inr (.charset hx))
  unfold Terminal.printDetails
  refine writes_ite (fun hn => writes_bind (K := fun _ => I) ?_ fun _ => h1) fun _ => h1
  unfold Terminal.printNotes
  refine writes_bind (writes_print (plain (by decide))) fun _ => writes_bind writes_flush fun _ => writes_bind (writes_write ?_) fun _ =>
    writes_println (plain (by decide))
  rcases hx.2.1 with h | ⟨a, n, r, h⟩
  · exact absurd h hn
  · exact .inr (.notes h)

theorem writes_printPasswords (hg : Good C G p t) (y : Str) (a b d : Bool) : ∀ l : List Password, (∀ x ∈ l, OwnRecord G x) →
    Writes (At t) (May C G p t c) (Terminal.printPasswords C.env y a b d l) fun _ => At t
  | [], _ => writes_skip
  | x :: l, h => by
    have hx := h x (by simp)
    have ih := writes_printPasswords hg y a b d l fun x hx => h x (List.mem_cons_of_mem _ hx)
    have h3 := writes_ite (c := d = true) (fun _ => writes_bind (writes_printDetails hx) fun _ => ih) fun _ => ih
    have h2 := writes_ite (c := b = true) (fun _ => writes_bind (writes_printRecovery hx) fun _ => h3) fun _ => h3
    have h1 := writes_ite (c := a = true) (fun _ => writes_bind (writes_printValue hg y x) fun _ => h2) fun _ => h2
    refine writes_bind (writes_println (.inr ?_)) fun _ => h1
    rw [passwordLine_eq]
    exact .entry hx

theorem writes_listLoop (hg : Good C G p t) (name : Str) (a b d : Bool) (m : List Site) (hm : ∀ x ∈ m, Named G x.name) :
    ∀ l : List Str, (∀ y ∈ l, Named G y) →
      Writes (At t) (May C G p t c) (Terminal.listLoop C.env name a b d m l) fun _ => At t
  | [], _ => writes_imp (writes_pure _) (fun _ h => h) fun _ _ h => h.2
  | y :: l, h => by
    have ih := writes_listLoop hg name a b d m hm l fun y hy => h y (List.mem_cons_of_mem _ hy)
    unfold Terminal.listLoop
    refine writes_ask (fun k => list_drawn _ _ _ _ _) fun rows hr => writes_ite (fun _ => ?_) fun _ => ?_
    · exact writes_bind ih fun r => writes_imp (writes_pure _) (fun _ h => h) fun _ _ h => h.2
    · have h2 := writes_bind (writes_printPasswords (c := c) hg y a b d (sortPasswords rows) fun x hx =>
          hg.list _ _ _ hr x (mem_sortPasswords hx)) fun _ => writes_bind ih fun r =>
          writes_imp (L := fun _ => At t) (writes_pure (true, r.2)) (fun _ h => h) fun _ _ h => h.2
      refine writes_bind (writes_println (.inr ?_)) fun _ =>
        writes_ite (fun _ => writes_bind (writes_println (.inr (.aliases (aliases_named hm y)))) fun _ => h2) fun _ => h2
      have := Tells.site (C := C) (G := G) (p := p) (t := t) (c := c) (h y (by simp))
      simpa using this

/-! ## Commands -/

/-- What a command does after unlocking. -/
def body (C : CEnv) : Command → TM Unit
  | .remove domain name revision => do
    Terminal.call (Passwords.remove C.env domain name revision)
    Terminal.println (c!"Password removed.")
  | .«show» domain name revision qrcode => do
    let password ← Terminal.query fun s => Passwords.get C.env s domain name revision
    Terminal.write (c!"Password retrieved.")
    if qrcode then
      match C.qr password with
      | some q => Terminal.write (renderQr q)
      | none => TM.fail .qrCode
    else Terminal.writePassword password
  | .notes domain name revision set => do
    let notes ← Terminal.query fun s => Passwords.getNotes C.env s domain name revision
    if notes = [] then Terminal.println (c!"Currently no notes are stored for this password.")
    else Terminal.writeNotes notes
    if set then do
      let notes ← Terminal.promptSecretText (c!"Please enter new notes to be stored:")
      Terminal.call (Passwords.setNotes C.env domain name revision notes)
      if notes = [] then Terminal.println (c!"Notes removed.") else Terminal.println (c!"Notes stored.")
    else pure ()
  | .list domain name showValues recovery verbose => do
    let matching ← Terminal.query fun s => Passwords.listSites C.env s domain
    let candidates := candidateSites matching
    let (found, empty) ← Terminal.listLoop C.env name showValues recovery verbose candidates (listedSites candidates)
    Terminal.call (Passwords.removeSites C.env empty)
    if found then pure () else Terminal.println (c!"No matching passwords found.")
  | .alias domain aliasTarget removal =>
    match aliasTarget with
    | some target => do
      Terminal.call (Passwords.setAlias C.env domain target)
      Terminal.println (c!"Alias added.")
    | none =>
      if removal then do
        Terminal.call (Passwords.removeAlias C.env domain)
        Terminal.println (c!"Alias removed.")
      else do
        let target ← Terminal.query fun s => Passwords.getAlias C.env s domain
        Terminal.println (c!"'" ++ domain ++ c!"' is an alias for '" ++ target ++ c!"'.")
  | _ => pure ()

theorem processCommand_body (T : Dialog) (C : CEnv) (b : Bool) {c : Command} (h : LooksUp c) :
    Terminal.processCommand T C b c = Terminal.ensureUnlocked C.env >>= fun _ => body C c := by
  cases c with
  | setPrimary _ => exact h.elim
  | add _ _ _ _ _ _ _ _ _ => exact h.elim
  | addStored _ _ _ _ _ => exact h.elim
  | shell => exact h.elim
  | _ => rfl

theorem writes_body (hg : Good C G p t) : Writes (At t) (May C G p t c) (body C c) fun _ _ => True := by
  cases c with
  | setPrimary _ => exact writes_true writes_skip
  | add _ _ _ _ _ _ _ _ _ => exact writes_true writes_skip
  | addStored _ _ _ _ _ => exact writes_true writes_skip
  | shell => exact writes_true writes_skip
  | remove _ _ _ => exact writes_bind writes_call fun _ => writes_true (writes_println (plain (by decide)))
  | «show» a n r q =>
    refine writes_ask (fun _ => rfl) fun v hv => writes_bind (writes_write (plain (by decide))) fun _ =>
      writes_ite (fun _ => ?_) fun _ => ?_
    · split
      · rename_i hq
        exact writes_true (writes_write (.inr (.qr (hg.get _ _ _ _ hv) hq)))
      · exact writes_fail _
    · exact writes_bind (writes_write (.inr (.value (hg.get _ _ _ _ hv)))) fun _ => writes_true (writes_write (plain (by decide)))
  | notes a n r set =>
    have h1 := writes_ite (I := At t) (P := May C G p t (.notes a n r set)) (K := fun _ _ => True) (c := set = true)
      (fun _ => writes_bind (writes_secret (t := c!"Please enter new notes to be stored:") (plain (by decide))) fun x =>
        writes_bind (writes_call (m := Passwords.setNotes C.env a n r x)) fun _ =>
        writes_ite (c := x = []) (fun _ => writes_true (writes_println (t := c!"Notes removed.") (plain (by decide))))
          fun _ => writes_true (writes_println (t := c!"Notes stored.") (plain (by decide)))) fun _ => writes_true writes_skip
    refine writes_ask (fun _ => rfl) fun v hv => writes_ite (fun _ => writes_bind (writes_println (plain (by decide))) fun _ => h1) fun hn =>
      writes_bind (K := fun _ => At t) ?_ fun _ => h1
    · refine writes_bind (writes_write (plain (by decide))) fun _ => writes_bind (writes_write ?_) fun _ => writes_write (plain (by decide))
      rcases hg.notes _ _ _ _ hv with h | ⟨a, n, r, h⟩
      · exact absurd h hn
      · exact .inr (.notes h)
  | list a n x y z =>
    refine writes_ask (fun _ => listSites_drawn _ _ _ _) fun m hm => ?_
    have hn := candidates_named (hg.sites _ _ hm)
    refine writes_bind (writes_listLoop hg n x y z _ hn _ (listed_named hn)) fun r => writes_bind writes_call fun _ =>
      writes_ite (fun _ => writes_true writes_skip) fun _ => writes_true (writes_println (plain (by decide)))
  | «alias» a target removal =>
    cases target with
    | some b => exact writes_bind writes_call fun _ => writes_true (writes_println (plain (by decide)))
    | none =>
      cases removal with
      | true => exact writes_bind writes_call fun _ => writes_true (writes_println (plain (by decide)))
      | false =>
        refine writes_ask (fun _ => rfl) fun v hv => writes_true (writes_println (.inr ?_))
        have := Tells.target (C := C) (p := p) (t := t) (c := .alias a none false) rfl (hg.target _ _ hv)
        simpa using this

/-! ## Unlocking -/

theorem unlockLoop_done {E : Env} (lines : List Str) (s : TState) (h : s.ps.key.isSome = true) :
    Terminal.unlockLoop E lines s = (.ok (), s) := by
  cases lines <;> simp [Terminal.unlockLoop, Passwords.unlocked, h]

/-- The loop over the lines typed. -/
theorem unlockLoop_writes {E : Env} {base : PState} : ∀ (lines : List Str) (s : TState), s.ps = base → Passwords.unlocked base = false →
    ∃ new, (Terminal.unlockLoop E lines s).2.trace = s.trace ++ new ∧ (∀ x ∈ textsOf new, x = PRIMARY_PROMPT) ∧
      ((Terminal.unlockLoop E lines s).1 = .ok () → ∃ l ∈ lines, Passwords.unlock E (trim l) base =
        (.ok (), (Terminal.unlockLoop E lines s).2.ps))
  | [], s, hs, hb => by
    unfold Terminal.unlockLoop
    rw [hs, hb]
    exact ⟨[.out .direct PRIMARY_PROMPT], rfl, by simp [textsOf], by simp⟩
  | line :: rest, s, hs, hb => by
    unfold Terminal.unlockLoop
    rw [hs, hb]
    simp only [Bool.false_eq_true, if_false]
    split
    · obtain ⟨new, h1, h2, h3⟩ := unlockLoop_writes (E := E) rest ((((s.log (.out .direct PRIMARY_PROMPT)).take .secret line rest)).log
        (.err (.error .primaryTooShort))) hs hb
      refine ⟨[.out .direct PRIMARY_PROMPT, .read .secret line, .err (.error .primaryTooShort)] ++ new, by rw [h1]; simp [TState.log, TState.take], ?_, fun h => ?_⟩
      · simpa [textsOf] using h2
      · obtain ⟨l, hl, h⟩ := h3 h
        exact ⟨l, List.mem_cons_of_mem _ hl, h⟩
    · rw [show ((s.log (.out .direct PRIMARY_PROMPT)).take .secret line rest).ps = base from hs]
      rcases hu : Passwords.unlock E (trim line) base with ⟨r, ps⟩
      cases r with
      | panic => exact ⟨[.out .direct PRIMARY_PROMPT, .read .secret line], by simp [TState.log, TState.take], by simp [textsOf], by simp⟩
      | err e =>
        have hps : ps = base := by
          have := unlock_locked (E := E) (ps := base) (p := trim line) (by rw [hu]; simp)
          rw [hu] at this
          exact this
        dsimp only
        obtain ⟨new, h1, h2, h3⟩ := unlockLoop_writes (E := E) rest
          ({ (s.log (.out .direct PRIMARY_PROMPT)).take .secret line rest with ps }.log (.err (.error (.lib e)))) hps hb
        refine ⟨[.out .direct PRIMARY_PROMPT, .read .secret line, .err (.error (.lib e))] ++ new, by rw [h1]; simp [TState.log, TState.take], ?_,
          fun h => ?_⟩
        · simpa [textsOf] using h2
        · obtain ⟨l, hl, h⟩ := h3 h
          exact ⟨l, List.mem_cons_of_mem _ hl, h⟩
      | ok u =>
        dsimp only
        have hps : ps.key.isSome = true := by
          have := unlock_ok (E := E) (ps := base) (p := trim line) (by rw [hu])
          rw [hu] at this
          exact this.2.1
        rw [unlockLoop_done rest _ hps]
        exact ⟨[.out .direct PRIMARY_PROMPT, .read .secret line], by simp [TState.log, TState.take], by simp [textsOf],
          fun _ => ⟨line, by simp, hu⟩⟩

/-- A command that looks something up. -/
theorem processCommand_writes (T : Dialog) (b : Bool) (hc : LooksUp c) (base : PState) (hb : base.key = none) (s : TState) (hs : s.ps = base)
    (hg : ∀ l ∈ s.input, ∀ t, Passwords.unlock C.env (trim l) base = (.ok (), t) → Good C G (trim l) t) :
    ∃ new, (Terminal.processCommand T C b c s).2.trace = s.trace ++ new ∧ ∀ x ∈ textsOf new, x ∈ plainTexts ∨
      ∃ l ∈ s.input, ∃ t, Passwords.unlock C.env (trim l) base = (.ok (), t) ∧ Tells C G (trim l) t c x := by
  rw [processCommand_body T C b hc]
  show ∃ new, (TM.bind (Terminal.ensureUnlocked C.env) (fun _ => body C c) s).2.trace = _ ∧ _
  have he : ∃ new, (Terminal.ensureUnlocked C.env s).2.trace = s.trace ++ new ∧ (∀ x ∈ textsOf new, x ∈ plainTexts) ∧
      ((Terminal.ensureUnlocked C.env s).1 = .ok () → ∃ l ∈ s.input, Passwords.unlock C.env (trim l) base =
        (.ok (), (Terminal.ensureUnlocked C.env s).2.ps)) := by
    unfold Terminal.ensureUnlocked
    split
    · exact ⟨[], by simp, by simp [textsOf], by simp⟩
    · obtain ⟨new, h1, h2, h3⟩ := unlockLoop_writes (E := C.env) (base := base) s.input s hs (by simp [Passwords.unlocked, hb])
      refine ⟨new, h1, fun x hx => ?_, h3⟩
      rw [h2 x hx]
      decide
  obtain ⟨new, h1, h2, h3⟩ := he
  unfold TM.bind
  revert h1 h3
  rcases Terminal.ensureUnlocked C.env s with ⟨out, s'⟩
  intro h1 h3
  dsimp only at h1 h3
  cases out with
  | ok u =>
    obtain ⟨l, hl, hu⟩ := h3 rfl
    obtain ⟨new', g1, g2, -⟩ := writes_body (c := c) (hg l hl _ hu) s' ⟨s'.ps.world.rpos, rfl⟩
    refine ⟨new ++ new', by dsimp only; rw [g1, h1, List.append_assoc], fun x hx => ?_⟩
    rw [textsOf_append, List.mem_append] at hx
    rcases hx with hx | hx
    · exact .inl (h2 x hx)
    · exact (g2 x hx).imp id fun h => ⟨l, hl, _, hu, h⟩
  | err e => exact ⟨new, h1, fun x hx => .inl (h2 x hx)⟩
  | panic => exact ⟨new, h1, fun x hx => .inl (h2 x hx)⟩
  | blocked => exact ⟨new, h1, fun x hx => .inl (h2 x hx)⟩

end Pfp.Proofs.Shown
