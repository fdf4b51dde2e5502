import Verif.Proofs.Effects
import Verif.Proofs.ToyEnv

/-!
# The password table (C20–C31, C59)

The theorems are about `run`, that is about the model of `passwords.rs`, in states reached by arbitrary histories
(`Reachable`), for every environment with lawful primitives, under the explicit assumptions `Secure` about the texts in
use.  `ask E s op` is the result of an operation, `after E s op` the state afterwards.
-/

namespace Pfp.Props
open Spec

variable {E : Env} {U : Universe}

/-! ## C21 -/

/-- **C21.** The results of every sequence of operations from a program start are results of the abstract machine,
which keeps a table of sites and a table of passwords in memory and in the file. -/
theorem C21_abstract_map (hE : E.Lawful) (hS : Secure E U) (s : PState) (hs : Initial s) (ops : List Op)
    (hops : ∀ op ∈ ops, op.Within U) :
    ∃ a', ARun (deriveWith E.prims) E.wild (fun w => ∃ n, WriteFor (E.fs n) w) ops
      { mem := .blank, disk := if s.world.disk = none then .missing else .unreadable, unlocked := false }
      (runAll E ops s).1 a' :=
  arun_of_rep hE hS ops s (initialA s) (initial_rep hs) hops

example : ∃ ops : List Op, 8 ≤ ops.length ∧ (∀ op ∈ ops, op.Within Toy.univ) ∧ Initial Toy.start ∧
    Toy.env.Lawful ∧ Secure Toy.env Toy.univ := by
  refine ⟨[.reset (c!"secret1"), .setStored (c!"a") (c!"u") [] (c!"x"), .setAlias (c!"b") (c!"www.a"), .lock,
    .unlock (c!"secret2"), .unlock (c!"secret1"), .get (c!"b") (c!"u") (c!"1"), .reload], by decide, ?_,
    Toy.start_initial, Toy.env_lawful, Toy.secure⟩
  intro op hop
  simp only [List.mem_cons, List.not_mem_nil, or_false] at hop
  rcases hop with rfl | rfl | rfl | rfl | rfl | rfl | rfl | rfl <;>
    simp only [Op.Within, Toy.univ, Toy.univWith] <;> decide

/-! ## C20 -/

/-- **C20 (stored).** A stored password is returned after any number of other operations: as long as the storage is
unlocked, `get` gives the value stored; while it is locked, `get` is refused. -/
theorem C20_stored (hE : E.Lawful) (hS : Secure E U) (s : PState) (hs : Reachable E U s) (a n r v : Str)
    (ha : U.site a) (hn : U.name n) (hr : U.revision r) (hok : ask E s (.setStored a n r v) = .ok .unit)
    (ops : List Op) (hops : ∀ op ∈ ops, op.Within U)
    (hleave : LeavesAll E a n r ops (after E s (.setStored a n r v))) :
    ((runAll E ops (after E s (.setStored a n r v))).2.key.isSome = true →
      ask E (runAll E ops (after E s (.setStored a n r v))).2 (.get a n r) = .ok (.text v)) ∧
    ((runAll E ops (after E s (.setStored a n r v))).2.key = none →
      ask E (runAll E ops (after E s (.setStored a n r v))).2 (.get a n r) = .err .passwordsLocked) := by
  obtain ⟨A, pos, p, V, ho⟩ := open_of_ok' hE hS hs rfl (by simp) hok
  obtain ⟨wr, _, h2, pos', ho'⟩ := ho.setStored hE hS v ⟨ha, hn, hr⟩
  rw [hok] at h2
  have := result_ok h2.symm
  subst this
  obtain ⟨A', hrep, hK⟩ := keep_all hE hS ha rfl rfl ops _ _ ho'.rep (keepA_commit (good_put V a n r (.stored v))) hops
    hleave
  exact keep_get hE hS hrep ha hn hr rfl rfl hK

/-- **C20 (generated).** The same for generated passwords: `get` gives the text derived from the primary password
with the parameters given, for the site meant when the password was entered.  The primary password is the one the
storage was reset with, and does not change either. -/
theorem C20_generated (hE : E.Lawful) (hS : Secure E U) (s : PState) (hs : Reachable E U s) (a n r : Str)
    (len : UInt64) (cs : CharacterSet)
    (ha : U.site a) (hn : U.name n) (hr : U.revision r) (hok : ask E s (.setGenerated a n r len cs) = .ok .unit)
    (ops : List Op) (hops : ∀ op ∈ ops, op.Within U)
    (hleave : LeavesAll E a n r ops (after E s (.setGenerated a n r len cs))) :
    ∃ p, s.primaryPassword = some p ∧
    ((runAll E ops (after E s (.setGenerated a n r len cs))).2.key.isSome = true →
      ask E (runAll E ops (after E s (.setGenerated a n r len cs))).2 (.get a n r) =
        (Crypto.derivePassword E.prims p (saltText ⟨siteMeant E s a, n, revisionOf r⟩) len.toNat cs).map .text) ∧
    ((runAll E ops (after E s (.setGenerated a n r len cs))).2.key = none →
      ask E (runAll E ops (after E s (.setGenerated a n r len cs))).2 (.get a n r) = .err .passwordsLocked) := by
  obtain ⟨A, pos, p, V, ho⟩ := open_of_ok' hE hS hs rfl (by simp) hok
  obtain ⟨wr, _, h2, pos', ho'⟩ := ho.setGenerated hE hS len cs ⟨ha, hn, hr⟩
  rw [hok] at h2
  have := result_ok h2.symm
  subst this
  refine ⟨p, ho.session.2.2, ?_⟩
  obtain ⟨A', hrep, hK⟩ := keep_all hE hS ha rfl rfl ops _ _ ho'.rep
    (keepA_commit (good_put V a n r (.generated len cs))) hops hleave
  rw [ho.siteMeant_eq hE hS ha]
  exact keep_get hE hS hrep ha hn hr rfl rfl hK

example : ask Toy.env Toy.fresh (.setStored (c!"a") (c!"u") [] (c!"x")) = .ok .unit ∧
    LeavesAll Toy.env (c!"a") (c!"u") [] [.lock, .unlock (c!"secret1"), .setStored (c!"a") (c!"v") [] (c!"y"),
      .remove (c!"a") (c!"u") (c!"2"), .setAlias (c!"b") (c!"a"), .removeSites [c!"c"], .reload]
      (after Toy.env Toy.fresh (.setStored (c!"a") (c!"u") [] (c!"x"))) := by
  refine ⟨Toy.one_ok, trivial, trivial, fun _ h => absurd h.2.1 (by decide), fun _ h => absurd h.2.2 (by decide), ?_,
    ?_, trivial, trivial⟩
  · show canonical _ ≠ canonical _; decide
  · exact fun _ h => absurd h (by decide)

/-! ## C22 -/

/-- **C22.** An operation on one entry changes neither presence nor value nor notes of any other entry, nor any
alias — whether or not it succeeds. -/
theorem C22_others_untouched (hE : E.Lawful) (hS : Secure E U) (s : PState) (hs : Reachable E U s) (op : Op)
    (hop : op.Within U) (a n r : Str) (he : op.entry = some (a, n, r)) (a' n' r' : Str)
    (ha' : U.site a') (hn' : U.name n') (hr' : U.revision r') (hne : ¬SameEntry E s a n r a' n' r') :
    ask E (after E s op) (.has a' n' r') = ask E s (.has a' n' r') ∧
    ask E (after E s op) (.get a' n' r') = ask E s (.get a' n' r') ∧
    ask E (after E s op) (.getNotes a' n' r') = ask E s (.getNotes a' n' r') ∧
    ∀ x, U.site x → ask E (after E s op) (.getAlias x) = ask E s (.getAlias x) := by
  cases hk : s.key with
  | none =>
    have hsp : special op = false := by cases op <;> first | rfl | cases he
    rw [locked_unchanged hE hS hs hk hsp]
    exact ⟨rfl, rfl, rfl, fun _ _ => rfl⟩
  | some k =>
    obtain ⟨A, pos, p, V, ho⟩ := reach_open hE hS hs (by rw [hk]; rfl)
    rcases entry_effect hE hS ho hop he with h | ⟨A', pos', V', ho', h1, h2, h3⟩
    · rw [h]; exact ⟨rfl, rfl, rfl, fun _ _ => rfl⟩
    · have ha : U.site a := by
        cases op <;> cases he <;> exact hop.1
      have hid : V.idOf a' n' r' ≠ V.idOf a n r := by
        intro h
        apply hne
        refine ⟨?_, ?_, ?_⟩
        · rw [ho.siteMeant_eq hE hS ha, ho.siteMeant_eq hE hS ha']
          exact (congrArg PasswordId.site h).symm
        · exact (congrArg PasswordId.name h).symm
        · exact (congrArg PasswordId.revision h).symm
      obtain ⟨q1, q2, q3⟩ := sameAnswers hE hS ho ho' ha' hn' hr' (h1 _ hid) (h2 _)
      exact ⟨q1, q2, q3, fun x hx => sameAlias hE hS ho ho' hx fun t => h3 _ t⟩

example : ask Toy.env Toy.one (.has (c!"a") (c!"u") []) = .ok (.bool true) ∧
    ¬SameEntry Toy.env Toy.one (c!"a") (c!"u") (c!"2") (c!"a") (c!"u") [] ∧ Reachable Toy.env Toy.univ Toy.one :=
  ⟨Toy.one_has, fun h => absurd h.2.2 (by decide), Toy.one_reachable⟩

/-! ## C23 -/

/-- **C23 (removal).** After a successful `remove` the entry is gone for every operation that reads or changes it. -/
theorem C23_removed (hE : E.Lawful) (hS : Secure E U) (s : PState) (hs : Reachable E U s) (a n r : Str)
    (ha : U.site a) (hn : U.name n) (hr : U.revision r) (hok : ask E s (.remove a n r) = .ok .unit) :
    ask E (after E s (.remove a n r)) (.has a n r) = .ok (.bool false) ∧
    ask E (after E s (.remove a n r)) (.get a n r) = .err .keyMissing ∧
    ask E (after E s (.remove a n r)) (.getNotes a n r) = .err .keyMissing ∧
    (∀ t, ask E (after E s (.remove a n r)) (.setNotes a n r t) = .err .keyMissing) ∧
    ask E (after E s (.remove a n r)) (.remove a n r) = .err .keyMissing := by
  obtain ⟨A, pos, p, V, ho⟩ := open_of_ok' hE hS hs rfl (by simp) hok
  cases hV : V.passwords (V.idOf a n r) with
  | none => rw [ho.remove_missing hE hS ⟨ha, hn, hr⟩ hV] at hok; cases hok
  | some e =>
    obtain ⟨wr, _, _, pos', ho'⟩ := ho.remove hE hS ⟨ha, hn, hr⟩ hV
    have hnone : (V.delete (V.idOf a n r)).passwords ((V.delete (V.idOf a n r)).idOf a n r) = none := by
      show (if V.idOf a n r = V.idOf a n r then none else _) = none
      rw [if_pos rfl]
    refine ⟨?_, ?_, ?_, ?_, ?_⟩
    · rw [ho'.ask_has hE hS ha hn hr, hnone]; rfl
    · rw [ho'.ask_get hE hS ha hn hr, hnone]
    · rw [ho'.ask_getNotes hE hS ha hn hr, hnone]
    · exact fun t => ho'.setNotes_missing hE hS t ⟨ha, hn, hr⟩ hnone
    · exact ho'.remove_missing hE hS ⟨ha, hn, hr⟩ hnone

/-- **C23 (nothing to remove).** Removing a password that does not exist is an error and changes nothing; removing one
that exists succeeds if the file can be written. -/
theorem C23_remove_result (hE : E.Lawful) (hS : Secure E U) (s : PState) (hs : Reachable E U s) (a n r : Str)
    (ha : U.site a) (hn : U.name n) (hr : U.revision r) :
    (ask E s (.has a n r) = .ok (.bool false) → ask E s (.remove a n r) = .err .keyMissing ∧
      after E s (.remove a n r) = s) ∧
    (ask E s (.has a n r) = .ok (.bool true) → E.fs s.world.fpos = .ok → ask E s (.remove a n r) = .ok .unit) := by
  constructor
  · intro hhas
    obtain ⟨A, pos, p, V, ho⟩ := open_of_ok' hE hS hs rfl (by simp) hhas
    rw [ho.ask_has hE hS ha hn hr] at hhas
    cases hV : V.passwords (V.idOf a n r) with
    | some e => rw [hV] at hhas; cases hhas
    | none =>
      have := ho.remove_missing hE hS ⟨ha, hn, hr⟩ hV
      exact ⟨this, remove_passwords_careful E a n r s _ (map_err_iff.mp this) (by simp [WriteError])⟩
  · intro hhas hfs
    obtain ⟨A, pos, p, V, ho⟩ := open_of_ok' hE hS hs rfl (by simp) hhas
    rw [ho.ask_has hE hS ha hn hr] at hhas
    cases hV : V.passwords (V.idOf a n r) with
    | some e => exact ((ho.remove hE hS ⟨ha, hn, hr⟩ hV).ok hfs).1
    | none => rw [hV] at hhas; cases hhas

example : ask Toy.env Toy.one (.remove (c!"a") (c!"u") []) = .ok .unit ∧
    ask Toy.env Toy.one (.has (c!"a") (c!"v") []) = .ok (.bool false) :=
  ⟨(C23_remove_result Toy.env_lawful Toy.secure _ Toy.one_reachable _ _ _ Toy.site_a Toy.name_u Toy.revision_nil).2
    Toy.one_has rfl, Toy.one_has_not⟩

/-! ## C24 -/

/-- **C24.** In every reachable unlocked state `has` answers, and agrees with `get_notes`, `get`, `set_notes` and
`remove` about whether the entry exists. -/
theorem C24_has_agrees (hE : E.Lawful) (hS : Secure E U) (s : PState) (hs : Reachable E U s)
    (hu : s.key.isSome = true) (a n r : Str) (ha : U.site a) (hn : U.name n) (hr : U.revision r) :
    ∃ b, ask E s (.has a n r) = .ok (.bool b) ∧
      (b = true ↔ ∃ t, ask E s (.getNotes a n r) = .ok (.text t)) ∧
      (b = false ↔ ask E s (.getNotes a n r) = .err .keyMissing) ∧
      (b = false ↔ ask E s (.get a n r) = .err .keyMissing) ∧
      (b = false ↔ ask E s (.remove a n r) = .err .keyMissing) ∧
      ∀ t, b = false ↔ ask E s (.setNotes a n r t) = .err .keyMissing := by
  obtain ⟨A, pos, p, V, ho⟩ := reach_open hE hS hs hu
  refine ⟨_, ho.ask_has hE hS ha hn hr, ?_⟩
  rw [ho.ask_getNotes hE hS ha hn hr, ho.ask_get hE hS ha hn hr]
  cases hV : V.passwords (V.idOf a n r) with
  | none =>
    refine ⟨by simp, by simp, by simp, ?_, ?_⟩
    · simp only [Option.isSome_none, true_iff]; exact ho.remove_missing hE hS ⟨ha, hn, hr⟩ hV
    · intro t; simp only [Option.isSome_none, true_iff]; exact ho.setNotes_missing hE hS t ⟨ha, hn, hr⟩ hV
  | some e =>
    have hne : ∀ {op : Op} {V' : Vault}, Open.Changes E U s A p op V' → ask E s op ≠ .err .keyMissing := by
      intro op V' h
      rcases h.result with h | ⟨e, h, hw⟩
      · rw [h]; simp
      · rw [h]; rintro h; cases h; exact hw
    refine ⟨by simp, by simp, ?_, ?_, ?_⟩
    · obtain ⟨sec, notes⟩ := e
      simp only [Option.isSome_some, Bool.true_eq_false, false_iff]
      cases sec with
      | stored v => simp [valueOf]
      | generated len cs =>
        simp only [valueOf, deriveWith]
        intro h
        rw [map_err_iff] at h
        exact derivePassword_noErr _ _ _ _ _ _ h
    · simp only [Option.isSome_some, Bool.true_eq_false, false_iff]
      exact hne (ho.remove hE hS ⟨ha, hn, hr⟩ hV)
    · intro t
      simp only [Option.isSome_some, Bool.true_eq_false, false_iff]
      exact hne (ho.setNotes hE hS t ⟨ha, hn, hr⟩ hV)

example : Reachable Toy.env Toy.univ Toy.one ∧ Toy.one.key.isSome = true ∧
    ask Toy.env Toy.one (.has (c!"a") (c!"u") []) = .ok (.bool true) ∧
    ask Toy.env Toy.one (.has (c!"a") (c!"v") []) = .ok (.bool false) :=
  ⟨Toy.one_reachable, Toy.one_unlocked, Toy.one_has, Toy.one_has_not⟩

/-! ## C25 -/

/-- **C25.** In every state every operation does exactly the same for revision "1" as for the empty revision. -/
theorem C25_revision_one (E : Env) (s : PState) (op : Op) :
    run E (op.mapRevision fun r => if r = c!"1" then [] else r) s = run E op s := by
  have h : ∀ site n r, PasswordId.new site n (if r = c!"1" then [] else r) = PasswordId.new site n r := new_revisionOf
  cases op with
  | setGenerated a n r len cs =>
    simp only [Op.mapRevision, run, Passwords.setGenerated, GeneratedPassword.new, h]
  | setStored a n r v => simp only [Op.mapRevision, run, Passwords.setStored, StoredPassword.new, h]
  | setNotes a n r t => simp only [Op.mapRevision, run, Passwords.setNotes, h]
  | remove a n r => simp only [Op.mapRevision, run, Passwords.remove, h]
  | has a n r => simp only [Op.mapRevision, run, Passwords.has, h]
  | get a n r => simp only [Op.mapRevision, run, Passwords.get, h]
  | getNotes a n r => simp only [Op.mapRevision, run, Passwords.getNotes, h]
  | _ => rfl

example : (Op.get (c!"a") (c!"u") (c!"1")).mapRevision (fun r => if r = c!"1" then [] else r) = .get (c!"a") (c!"u") [] :=
  rfl

/-! ## C26 -/

/-- **C26.** In every state every operation (except `remove_sites`) does exactly the same for a site name with `www.` in
front as without, provided the rest does not itself start with `www.`. -/
theorem C26_www_ignored (E : Env) (s : PState) (op : Op)
    (h : ∀ x ∈ op.siteArguments, canonical (canonical x) = canonical x) :
    run E (op.mapSites canonical) s = run E op s := by
  cases op with
  | setAlias a b =>
    have ha := h a (by simp [Op.siteArguments])
    have hb := h b (by simp [Op.siteArguments])
    simp only [Op.mapSites, run, Passwords.setAlias, normalize_canonical ha, resolve_canonical hb]
  | removeAlias a =>
    simp only [Op.mapSites, run, Passwords.removeAlias, normalize_canonical (h a (by simp [Op.siteArguments]))]
  | getAlias a =>
    simp only [Op.mapSites, run, Passwords.getAlias, normalize_canonical (h a (by simp [Op.siteArguments]))]
  | setGenerated a n r len cs =>
    simp only [Op.mapSites, run, Passwords.setGenerated, resolve_canonical (h a (by simp [Op.siteArguments]))]
  | setStored a n r v =>
    simp only [Op.mapSites, run, Passwords.setStored, resolve_canonical (h a (by simp [Op.siteArguments]))]
  | setNotes a n r t =>
    simp only [Op.mapSites, run, Passwords.setNotes, resolve_canonical (h a (by simp [Op.siteArguments]))]
  | remove a n r =>
    simp only [Op.mapSites, run, Passwords.remove, resolve_canonical (h a (by simp [Op.siteArguments]))]
  | has a n r =>
    simp only [Op.mapSites, run, Passwords.has, resolve_canonical (h a (by simp [Op.siteArguments]))]
  | get a n r =>
    simp only [Op.mapSites, run, Passwords.get, resolve_canonical (h a (by simp [Op.siteArguments]))]
  | getNotes a n r =>
    simp only [Op.mapSites, run, Passwords.getNotes, resolve_canonical (h a (by simp [Op.siteArguments]))]
  | list a q =>
    simp only [Op.mapSites, run, Passwords.list, resolve_canonical (h a (by simp [Op.siteArguments]))]
  | _ => rfl

example : (Op.get (c!"www.a") (c!"u") []).mapSites canonical = .get (c!"a") (c!"u") [] ∧
    ∀ x ∈ (Op.get (c!"www.a") (c!"u") []).siteArguments, canonical (canonical x) = canonical x := by
  refine ⟨rfl, ?_⟩
  simp only [Op.siteArguments, List.mem_singleton, forall_eq]
  decide

/-- **C26 (only once).** The condition is needed: with two `www.` in front a different site is meant. -/
theorem C26_only_once : ∃ (E : Env) (U : Universe) (s : PState), E.Lawful ∧ Secure E U ∧ Reachable E U s ∧
    ask E s (.has (c!"www.a") (c!"u") []) = .ok (.bool true) ∧
    ask E s (.has (c!"www.www.a") (c!"u") []) = .ok (.bool false) := by
  refine ⟨Toy.env, Toy.univ, Toy.one, Toy.env_lawful, Toy.secure, Toy.one_reachable, ?_, ?_⟩
  · obtain ⟨a, pos, ho⟩ := Toy.one_open
    rw [ho.ask_has Toy.env_lawful Toy.secure Toy.site_www Toy.name_u Toy.revision_nil]
    rfl
  · obtain ⟨a, pos, ho⟩ := Toy.one_open
    rw [ho.ask_has Toy.env_lawful Toy.secure (by show _ ∈ Toy.sites; decide) Toy.name_u Toy.revision_nil]
    rfl

/-! ## C27 -/

/-- **C27 (same site, same behaviour).** Site names meaning the same site are interchangeable in every operation on
passwords. -/
theorem C27_interchangeable (hE : E.Lawful) (hS : Secure E U) (s : PState) (hs : Reachable E U s)
    (hu : s.key.isSome = true) (x y : Str) (hx : U.site x) (hy : U.site y)
    (hxy : siteMeant E s x = siteMeant E s y) (op : Op) :
    run E (op.withSite x) s = run E (op.withSite y) s := by
  obtain ⟨A, pos, p, V, ho⟩ := reach_open hE hS hs hu
  rw [ho.siteMeant_eq hE hS hx, ho.siteMeant_eq hE hS hy] at hxy
  have hk := keyFor_length hE.prims p (saltAt E pos)
  have hsec := secrets_eq ho.session
  have rx := ho.store.vault.resolve_eq hE.prims hk (hS.collisionFree pos ho.store.origin) hx
  have ry := ho.store.vault.resolve_eq hE.prims hk (hS.collisionFree pos ho.store.origin) hy
  rw [← hxy] at ry
  cases op with
  | setGenerated a n r len cs =>
    simp only [Op.withSite, run, Passwords.setGenerated, M.bind_apply, M.get_apply, M.lift_apply, hsec, rx, ry]
  | setStored a n r v =>
    simp only [Op.withSite, run, Passwords.setStored, M.bind_apply, M.get_apply, M.lift_apply, hsec, rx, ry]
  | setNotes a n r t =>
    simp only [Op.withSite, run, Passwords.setNotes, M.bind_apply, M.get_apply, M.lift_apply, hsec, rx, ry]
  | remove a n r =>
    simp only [Op.withSite, run, Passwords.remove, M.bind_apply, M.get_apply, M.lift_apply, hsec, rx, ry]
  | has a n r => simp only [Op.withSite, run, Passwords.has, hsec, Res.bind_ok, rx, ry]
  | get a n r =>
    simp only [Op.withSite, run, Passwords.get, hsec, Res.bind_ok, ho.session.2.2, okOr_some, rx, ry]
  | getNotes a n r => simp only [Op.withSite, run, Passwords.getNotes, hsec, Res.bind_ok, rx, ry]
  | list a q =>
    simp only [Op.withSite, run, Passwords.list, ho.session.1, ho.session.2.1, Passwords.orPanic, Res.bind_ok, rx, ry]
  | _ => rfl

example : siteMeant Toy.env Toy.two (c!"b") = siteMeant Toy.env Toy.two (c!"www.a") := by
  obtain ⟨_, a, pos, ho⟩ := Toy.two_effect
  rw [ho.siteMeant_eq Toy.env_lawful Toy.secure Toy.site_b, ho.siteMeant_eq Toy.env_lawful Toy.secure Toy.site_www]
  rfl

theorem keepG_get (hE : E.Lawful) (hS : Secure E U) {s : PState} {A : AState} {p a t : Str} (hrep : Rep E U s A)
    (hK : KeepG p (Linked a t) A) (ha : U.site a) (hu : s.key.isSome = true) :
    ask E s (.getAlias a) = .ok (.text t) := by
  obtain ⟨pos, p', V', ho⟩ := open_of_rep hrep (keepG_intact hK) hu
  obtain ⟨V, hm, hg⟩ := hK.1
  have := ho.mem
  rw [hm] at this
  cases this
  rw [ho.ask_getAlias hE hS ha, hg]

/-- The conditions under which an alias is made. -/
theorem setAlias_conditions (hE : E.Lawful) (hS : Secure E U) {s : PState} {A : AState} {pos : Origin} {p : Str}
    {V : Vault} (ho : Open E U s A pos p V) {a b : Str} (ha : U.site a) (hb : U.site b)
    (hok : ask E s (.setAlias a b) = .ok .unit) : ¬V.HasPasswords (canonical a) ∧ canonical a ≠ V.resolve b := by
  constructor
  · intro h
    rw [ho.setAlias_passwords hE hS ⟨ha, hb⟩ h] at hok
    cases hok
  · intro h
    by_cases h' : V.HasPasswords (canonical a)
    · rw [ho.setAlias_passwords hE hS ⟨ha, hb⟩ h'] at hok; cases hok
    · rw [ho.setAlias_self hE hS ⟨ha, hb⟩ h' h] at hok; cases hok

/-- **C27 (aliases).** After a successful `set_alias` the alias means the site its target meant, and it still does
after any number of operations that do not concern the alias itself; together with `C27_interchangeable` every
operation on passwords through the alias is the operation on the target. -/
theorem C27_alias_lasts (hE : E.Lawful) (hS : Secure E U) (s : PState) (hs : Reachable E U s) (a b : Str)
    (ha : U.site a) (hb : U.site b) (hok : ask E s (.setAlias a b) = .ok .unit) (ops : List Op)
    (hops : ∀ op ∈ ops, op.Within U) (hleave : ∀ op ∈ ops, LeavesAlias a op)
    (hu : (runAll E ops (after E s (.setAlias a b))).2.key.isSome = true) :
    siteMeant E (runAll E ops (after E s (.setAlias a b))).2 a = siteMeant E s b := by
  obtain ⟨A, pos, p, V, ho⟩ := open_of_ok' hE hS hs rfl (by simp) hok
  obtain ⟨h1, h2⟩ := setAlias_conditions hE hS ho ha hb hok
  obtain ⟨wr, _, hr, pos', ho'⟩ := ho.setAlias hE hS ⟨ha, hb⟩ h1 h2
  rw [hok] at hr
  have := result_ok hr.symm
  subst this
  have hl : Linked a (V.resolve b) (V.link (canonical a) (V.resolve b)) := by
    simp [Linked, Vault.link, update]
  obtain ⟨A', hrep, hK⟩ := linked_all hE hS ops _ _ ho'.rep ⟨⟨_, rfl, hl⟩, .inr ⟨_, rfl, hl⟩⟩ hops hleave
  rw [siteMeant, keepG_get hE hS hrep hK ha hu, ho.siteMeant_eq hE hS hb]

/-- **C27 (others).** Making an alias changes neither other aliases nor any entry as seen through another site. -/
theorem C27_others (hE : E.Lawful) (hS : Secure E U) (s : PState) (hs : Reachable E U s) (a b : Str)
    (ha : U.site a) (hb : U.site b) (x n r : Str) (hx : U.site x) (hn : U.name n) (hr : U.revision r)
    (hne : canonical x ≠ canonical a) :
    ask E (after E s (.setAlias a b)) (.getAlias x) = ask E s (.getAlias x) ∧
    ask E (after E s (.setAlias a b)) (.has x n r) = ask E s (.has x n r) ∧
    ask E (after E s (.setAlias a b)) (.get x n r) = ask E s (.get x n r) ∧
    ask E (after E s (.setAlias a b)) (.getNotes x n r) = ask E s (.getNotes x n r) := by
  cases hk : s.key with
  | none => rw [locked_unchanged hE hS hs hk rfl]; exact ⟨rfl, rfl, rfl, rfl⟩
  | some k =>
    obtain ⟨A, pos, p, V, ho⟩ := reach_open hE hS hs (by rw [hk]; rfl)
    by_cases h1 : V.HasPasswords (canonical a)
    · have := setAlias_careful E a b s _ (map_err_iff.mp (ho.setAlias_passwords hE hS ⟨ha, hb⟩ h1)) (by simp [WriteError])
      have h : after E s (.setAlias a b) = s := this
      rw [h]; exact ⟨rfl, rfl, rfl, rfl⟩
    · by_cases h2 : canonical a = V.resolve b
      · have := setAlias_careful E a b s _ (map_err_iff.mp (ho.setAlias_self hE hS ⟨ha, hb⟩ h1 h2)) (by simp [WriteError])
        have h : after E s (.setAlias a b) = s := this
        rw [h]; exact ⟨rfl, rfl, rfl, rfl⟩
      · obtain ⟨wr, _, _, pos', ho'⟩ := ho.setAlias hE hS ⟨ha, hb⟩ h1 h2
        refine ⟨sameAlias hE hS ho ho' hx fun t => ?_, sameAnswers hE hS ho ho' hx hn hr rfl ?_⟩
        · simp [Vault.link, update, hne]
        · exact resolve_update_ne (Ne.symm hne)

example : ask Toy.env Toy.one (.setAlias (c!"b") (c!"a")) = .ok .unit ∧ LeavesAlias (c!"b") (.removeAlias (c!"a")) ∧
    LeavesAlias (c!"b") (.remove (c!"a") (c!"u") []) :=
  ⟨Toy.two_effect.1, by show canonical _ ≠ canonical _; decide, trivial⟩

/-! ## C28 -/

/-- **C28 (passwords).** A site some password belongs to — as seen through any site name — cannot become an alias:
the attempt fails and changes nothing. -/
theorem C28_site_has_passwords (hE : E.Lawful) (hS : Secure E U) (s : PState) (hs : Reachable E U s) (a b : Str)
    (ha : U.site a) (hb : U.site b) (x n r : Str) (hx : U.site x) (hn : U.name n) (hr : U.revision r)
    (hmeant : siteMeant E s x = canonical a) (hhas : ask E s (.has x n r) = .ok (.bool true)) :
    ask E s (.setAlias a b) = .err .siteHasPasswords ∧ after E s (.setAlias a b) = s := by
  obtain ⟨A, pos, p, V, ho⟩ := open_of_ok' hE hS hs rfl (by simp) hhas
  rw [ho.ask_has hE hS hx hn hr] at hhas
  simp only [Res.ok.injEq, Out.bool.injEq] at hhas
  obtain ⟨e, he⟩ := Option.isSome_iff_exists.mp hhas
  rw [ho.siteMeant_eq hE hS hx] at hmeant
  have := ho.setAlias_passwords hE hS (y := b) ⟨ha, hb⟩ ⟨_, e, he, hmeant⟩
  exact ⟨this, setAlias_careful E a b s _ (map_err_iff.mp this) (by simp [WriteError])⟩

/-- **C28 (the three outcomes).** For a site that is not an alias: `SiteHasPasswords` if it has a password, else
`AliasToSelf` if the target means the same site, both changing nothing; else the alias is made (and an error can
only come from writing the file). -/
theorem C28_outcomes (hE : E.Lawful) (hS : Secure E U) (s : PState) (hs : Reachable E U s) (hu : s.key.isSome = true)
    (a b : Str) (ha : U.site a) (hb : U.site b) (hself : siteMeant E s a = canonical a) :
    ((∃ n r, U.name n ∧ U.revision r ∧ ask E s (.has a n r) = .ok (.bool true)) →
      ask E s (.setAlias a b) = .err .siteHasPasswords ∧ after E s (.setAlias a b) = s) ∧
    ((∀ n r, U.name n → U.revision r → ask E s (.has a n r) = .ok (.bool false)) →
      (siteMeant E s b = canonical a →
        ask E s (.setAlias a b) = .err .aliasToSelf ∧ after E s (.setAlias a b) = s) ∧
      (siteMeant E s b ≠ canonical a →
        (ask E s (.setAlias a b) = .ok .unit ∨ ∃ e, ask E s (.setAlias a b) = .err e ∧ WriteError e) ∧
        (E.fs s.world.fpos = .ok → ask E s (.setAlias a b) = .ok .unit) ∧
        ask E (after E s (.setAlias a b)) (.getAlias a) = .ok (.text (siteMeant E s b)))) := by
  obtain ⟨A, pos, p, V, ho⟩ := reach_open hE hS hs hu
  constructor
  · rintro ⟨n, r, hn, hr, h⟩
    exact C28_site_has_passwords hE hS s hs a b ha hb a n r ha hn hr hself h
  · intro hno
    have hnp : ¬V.HasPasswords (canonical a) := by
      rw [ho.noPasswords hE hS ha hself]
      rintro ⟨n, r, hn, hr, h⟩
      rw [hno n r hn hr] at h
      cases h
    rw [ho.siteMeant_eq hE hS hb]
    constructor
    · intro h
      have := ho.setAlias_self hE hS ⟨ha, hb⟩ hnp h.symm
      exact ⟨this, setAlias_careful E a b s _ (map_err_iff.mp this) (by simp [WriteError])⟩
    · intro h
      have hc := ho.setAlias hE hS ⟨ha, hb⟩ hnp (Ne.symm h)
      refine ⟨hc.result, fun hfs => (hc.ok hfs).1, ?_⟩
      obtain ⟨wr, _, _, pos', ho'⟩ := hc
      rw [ho'.ask_getAlias hE hS ha]
      simp [Vault.link, update]

example : siteMeant Toy.env Toy.two (c!"b") = canonical (c!"a") ∧
    ask Toy.env Toy.two (.has (c!"b") (c!"u") []) = .ok (.bool true) ∧
    siteMeant Toy.env Toy.one (c!"c") = canonical (c!"c") := by
  obtain ⟨_, a, pos, ho⟩ := Toy.two_effect
  obtain ⟨a', pos', ho'⟩ := Toy.one_open
  rw [ho.siteMeant_eq Toy.env_lawful Toy.secure Toy.site_b, ho'.siteMeant_eq Toy.env_lawful Toy.secure Toy.site_c,
    ho.ask_has Toy.env_lawful Toy.secure Toy.site_b Toy.name_u Toy.revision_nil]
  exact ⟨rfl, rfl, rfl⟩

/-! ## C29 -/

/-- **C29.** `remove_alias` works exactly on aliases.  On anything else it fails with `NoSuchAlias` and changes nothing.
On an alias the site means itself afterwards; other aliases, and all entries as seen through other sites, are
unchanged. -/
theorem C29_remove_alias (hE : E.Lawful) (hS : Secure E U) (s : PState) (hs : Reachable E U s)
    (hu : s.key.isSome = true) (a : Str) (ha : U.site a) :
    ((∀ t, ask E s (.getAlias a) ≠ .ok (.text t)) →
      ask E s (.removeAlias a) = .err .noSuchAlias ∧ after E s (.removeAlias a) = s) ∧
    (∀ t, ask E s (.getAlias a) = .ok (.text t) →
      (ask E s (.removeAlias a) = .ok .unit ∨ ∃ e, ask E s (.removeAlias a) = .err e ∧ WriteError e) ∧
      (E.fs s.world.fpos = .ok → ask E s (.removeAlias a) = .ok .unit) ∧
      siteMeant E (after E s (.removeAlias a)) a = canonical a ∧
      ask E (after E s (.removeAlias a)) (.getAlias a) = .err .noSuchAlias ∧
      ∀ x n r, U.site x → U.name n → U.revision r → canonical x ≠ canonical a →
        ask E (after E s (.removeAlias a)) (.getAlias x) = ask E s (.getAlias x) ∧
        ask E (after E s (.removeAlias a)) (.has x n r) = ask E s (.has x n r) ∧
        ask E (after E s (.removeAlias a)) (.get x n r) = ask E s (.get x n r) ∧
        ask E (after E s (.removeAlias a)) (.getNotes x n r) = ask E s (.getNotes x n r)) := by
  obtain ⟨A, pos, p, V, ho⟩ := reach_open hE hS hs hu
  have hal := ho.ask_getAlias hE hS ha
  constructor
  · intro h
    have : ask E s (.removeAlias a) = .err .noSuchAlias := by
      refine ho.removeAlias_missing hE hS ha fun t ht => ?_
      rw [ht] at hal
      exact h t hal
    exact ⟨this, removeAlias_careful E a s _ (map_err_iff.mp this) (by simp [WriteError])⟩
  · intro t h
    have hV : V.sites (canonical a) = some (some t) := by
      rw [hal] at h
      cases hV : V.sites (canonical a) with
      | none => rw [hV] at h; cases h
      | some o =>
        cases o with
        | none => rw [hV] at h; cases h
        | some t' => rw [hV] at h; cases h; rfl
    have hc := ho.removeAlias hE hS ha hV
    refine ⟨hc.result, fun hfs => (hc.ok hfs).1, ?_⟩
    obtain ⟨wr, _, _, pos', ho'⟩ := hc
    refine ⟨?_, ?_, fun x n r hx hn hr hne => ⟨sameAlias hE hS ho ho' hx fun t => ?_,
      sameAnswers hE hS ho ho' hx hn hr rfl (resolve_update_ne (Ne.symm hne))⟩⟩
    · rw [ho'.siteMeant_eq hE hS ha]
      simp [Vault.resolve, Vault.forget, update]
    · rw [ho'.ask_getAlias hE hS ha]
      simp [Vault.forget, update]
    · simp [Vault.forget, update, hne]

example : ask Toy.env Toy.two (.getAlias (c!"b")) = .ok (.text (c!"a")) ∧
    ask Toy.env Toy.one (.getAlias (c!"b")) = .err .noSuchAlias := by
  refine ⟨Toy.two_alias, ?_⟩
  obtain ⟨a', pos', ho'⟩ := Toy.one_open
  rw [ho'.ask_getAlias Toy.env_lawful Toy.secure Toy.site_b]
  rfl

/-! ## C30 -/

/-- Three sites without passwords that are not aliases. -/
def Plain (E : Env) (U : Universe) (s : PState) (x : Str) : Prop :=
  U.site x ∧ canonical x = x ∧ siteMeant E s x = x ∧
    ∀ n r, U.name n → U.revision r → ask E s (.has x n r) = .ok (.bool false)

/-- **C30.** Alias chains and cycles arise: from three plain sites `a`, `b`, `c`, after `set_alias a b` and
`set_alias b c` the alias `a` still leads to `b`, not to `c`; after a further `set_alias c a` the sites `b` and `c`
are aliases of each other. -/
theorem C30_chains_and_cycles (hE : E.Lawful) (hS : Secure E U) (hfs : ∀ n, E.fs n = .ok) (s : PState)
    (hs : Reachable E U s) (hu : s.key.isSome = true) (a b c : Str) (ha : Plain E U s a) (hb : Plain E U s b)
    (hc : Plain E U s c) (hab : a ≠ b) (hac : a ≠ c) (hbc : b ≠ c) :
    (runAll E [.setAlias a b, .setAlias b c, .setAlias c a] s).1 = [.ok .unit, .ok .unit, .ok .unit] ∧
    ask E (runAll E [.setAlias a b, .setAlias b c] s).2 (.getAlias a) = .ok (.text b) ∧
    ask E (runAll E [.setAlias a b, .setAlias b c] s).2 (.getAlias b) = .ok (.text c) ∧
    ask E (runAll E [.setAlias a b, .setAlias b c, .setAlias c a] s).2 (.getAlias b) = .ok (.text c) ∧
    ask E (runAll E [.setAlias a b, .setAlias b c, .setAlias c a] s).2 (.getAlias c) = .ok (.text b) := by
  obtain ⟨A, pos, p, V, ho⟩ := reach_open hE hS hs hu
  have hnp : ∀ x, Plain E U s x → ¬V.HasPasswords x := by
    rintro x ⟨h1, h2, h3, h4⟩ h
    rw [← h2] at h
    obtain ⟨n, r, hn, hr, h⟩ := (ho.noPasswords hE hS h1 (by rw [h2, h3])).mp h
    rw [h4 n r hn hr] at h
    cases h
  have hres : ∀ x, Plain E U s x → V.resolve x = x := by
    rintro x ⟨h1, h2, h3, h4⟩
    rw [ho.siteMeant_eq hE hS h1] at h3; exact h3
  have ca := ha.2.1
  have cb := hb.2.1
  have cc := hc.2.1
  obtain ⟨r1, A1, pos1, ho1⟩ := (ho.setAlias hE hS (x := a) (y := b) ⟨ha.1, hb.1⟩ (by rw [ca]; exact hnp a ha)
    (by rw [ca, hres b hb]; exact hab)).ok (hfs _)
  rw [ca, hres b hb] at ho1
  have hres1 : (V.link a b).resolve c = c := by
    rw [Vault.link, resolve_update_ne (by rw [cc]; exact hac), hres c hc]
  obtain ⟨r2, A2, pos2, ho2⟩ := (ho1.setAlias hE hS (x := b) (y := c) ⟨hb.1, hc.1⟩ (by rw [cb]; exact hnp b hb)
    (by rw [cb, hres1]; exact hbc)).ok (hfs _)
  rw [cb, hres1] at ho2
  have hres2 : ((V.link a b).link b c).resolve a = b := by
    rw [Vault.link, resolve_update_ne (by rw [ca]; exact Ne.symm hab)]
    simp [Vault.resolve, Vault.link, update, ca]
  obtain ⟨r3, A3, pos3, ho3⟩ := (ho2.setAlias hE hS (x := c) (y := a) ⟨hc.1, ha.1⟩ (by rw [cc]; exact hnp c hc)
    (by rw [cc, hres2]; exact Ne.symm hbc)).ok (hfs _)
  rw [cc, hres2] at ho3
  refine ⟨?_, ?_, ?_, ?_, ?_⟩
  · show [ask E s (.setAlias a b), ask E (after E s (.setAlias a b)) (.setAlias b c),
      ask E (after E (after E s (.setAlias a b)) (.setAlias b c)) (.setAlias c a)] = _
    rw [r1, r2, r3]
  · show ask E (after E (after E s (.setAlias a b)) (.setAlias b c)) (.getAlias a) = _
    rw [ho2.ask_getAlias hE hS ha.1]
    simp [Vault.link, update, ca, hab]
  · show ask E (after E (after E s (.setAlias a b)) (.setAlias b c)) (.getAlias b) = _
    rw [ho2.ask_getAlias hE hS hb.1]
    simp [Vault.link, update, cb]
  · show ask E (after E (after E (after E s (.setAlias a b)) (.setAlias b c)) (.setAlias c a)) (.getAlias b) = _
    rw [ho3.ask_getAlias hE hS hb.1]
    simp [Vault.link, update, cb, hbc]
  · show ask E (after E (after E (after E s (.setAlias a b)) (.setAlias b c)) (.setAlias c a)) (.getAlias c) = _
    rw [ho3.ask_getAlias hE hS hc.1]
    simp [Vault.link, update, cc]

theorem toy_plain {x : Str} (hx : Toy.univ.site x) (hc : canonical x = x) : Plain Toy.env Toy.univ Toy.fresh x := by
  obtain ⟨a, pos, ho⟩ := Toy.fresh_open
  refine ⟨hx, hc, ?_, fun n r hn hr => ?_⟩
  · rw [ho.siteMeant_eq Toy.env_lawful Toy.secure hx]; exact hc
  · rw [ho.ask_has Toy.env_lawful Toy.secure hx hn hr]; rfl

example : Plain Toy.env Toy.univ Toy.fresh (c!"a") ∧ Plain Toy.env Toy.univ Toy.fresh (c!"b") ∧
    Plain Toy.env Toy.univ Toy.fresh (c!"c") ∧ Toy.fresh.key.isSome = true ∧ ∀ n, Toy.env.fs n = .ok :=
  ⟨toy_plain Toy.site_a (by decide), toy_plain Toy.site_b (by decide), toy_plain Toy.site_c (by decide),
    Toy.fresh_unlocked, fun _ => rfl⟩

/-! ## C31 -/

/-- **C31 (notes).** Setting notes on an existing entry makes exactly this text its notes and keeps the password; the
listing shows the same record with the new notes. -/
theorem C31_set_notes (hE : E.Lawful) (hS : Secure E U) (s : PState) (hs : Reachable E U s) (a n r t : Str)
    (ha : U.site a) (hn : U.name n) (hr : U.revision r) (hhas : ask E s (.has a n r) = .ok (.bool true)) :
    (ask E s (.setNotes a n r t) = .ok .unit ∨ ∃ e, ask E s (.setNotes a n r t) = .err e ∧ WriteError e) ∧
    ask E (after E s (.setNotes a n r t)) (.getNotes a n r) = .ok (.text t) ∧
    ask E (after E s (.setNotes a n r t)) (.get a n r) = ask E s (.get a n r) ∧
    ∀ q l l', ask E s (.list a q) = .ok (.passwords l) →
      ask E (after E s (.setNotes a n r t)) (.list a q) = .ok (.passwords l') →
      ∀ y, y ∈ l' ↔ ∃ x ∈ l, y = if x.id.name = n ∧ x.id.revision = revisionOf r then x.setNotes t else x := by
  obtain ⟨A, pos, p, V, ho⟩ := open_of_ok' hE hS hs rfl (by simp) hhas
  rw [ho.ask_has hE hS ha hn hr] at hhas
  simp only [Res.ok.injEq, Out.bool.injEq] at hhas
  obtain ⟨e, he⟩ := Option.isSome_iff_exists.mp hhas
  have hc := ho.setNotes hE hS t ⟨ha, hn, hr⟩ he
  refine ⟨hc.result, ?_⟩
  obtain ⟨wr, _, _, pos', ho'⟩ := hc
  have hid : ∀ e', (V.put (V.idOf a n r) e').idOf a n r = V.idOf a n r := fun _ => rfl
  refine ⟨?_, ?_, ?_⟩
  · rw [ho'.ask_getNotes hE hS ha hn hr, hid]
    simp [Vault.put, update]
  · rw [ho'.ask_get hE hS ha hn hr, ho.ask_get hE hS ha hn hr, hid, he]
    simp only [Vault.put, update, if_true]
    obtain ⟨sec, notes⟩ := e
    cases sec <;> rfl
  · intro q l l' hl hl' y
    obtain ⟨l₁, e1, _, m1⟩ := ho.list hE hS q ha
    obtain ⟨l₂, e2, _, m2⟩ := ho'.list hE hS q ha
    rw [hl] at e1; cases e1
    rw [hl'] at e2; cases e2
    rw [m2]
    have hres : (V.put (V.idOf a n r) { e with notes := t }).resolve a = V.resolve a := rfl
    rw [hres]
    constructor
    · rintro ⟨i, e', h1, h2, h3, h4⟩
      simp only [Vault.put, update] at h1
      by_cases hi : i = V.idOf a n r
      · subst hi
        rw [if_pos rfl] at h1
        cases h1
        refine ⟨Vault.record (V.idOf a n r) e, (m1 _).mpr ⟨_, e, he, rfl, h3, h4⟩, ?_⟩
        rw [RepVault.record_id, if_pos ⟨rfl, rfl⟩, record_setNotes, h2]
      · rw [if_neg hi] at h1
        refine ⟨y, (m1 y).mpr ⟨i, e', h1, h2, h3, h4⟩, ?_⟩
        rw [h2, RepVault.record_id, if_neg]
        rintro ⟨q1, q2⟩
        apply hi
        obtain ⟨i1, i2, i3⟩ := i
        simp only at h3 q1 q2
        rw [h3, q1, q2]; rfl
    · rintro ⟨x, hx, hy⟩
      obtain ⟨i, e', h1, h2, h3, h4⟩ := (m1 x).mp hx
      subst h2
      rw [RepVault.record_id] at hy
      by_cases hi : i = V.idOf a n r
      · subst hi
        rw [he] at h1
        cases h1
        rw [if_pos ⟨rfl, rfl⟩, record_setNotes] at hy
        exact ⟨V.idOf a n r, { e with notes := t }, by simp [Vault.put, update], hy, h3, h4⟩
      · rw [if_neg] at hy
        · exact ⟨i, e', by simp [Vault.put, update, hi, h1], hy, h3, h4⟩
        · rintro ⟨q1, q2⟩
          apply hi
          obtain ⟨i1, i2, i3⟩ := i
          simp only at h3 q1 q2
          rw [h3, q1, q2]; rfl

/-- **C31 (dropped).** Storing a password again, or generating one in its place, drops its notes. -/
theorem C31_notes_dropped (hE : E.Lawful) (hS : Secure E U) (s : PState) (hs : Reachable E U s)
    (hu : s.key.isSome = true) (a n r : Str) (ha : U.site a) (hn : U.name n) (hr : U.revision r) :
    (∀ v, ask E (after E s (.setStored a n r v)) (.getNotes a n r) = .ok (.text [])) ∧
    ∀ len cs, ask E (after E s (.setGenerated a n r len cs)) (.getNotes a n r) = .ok (.text []) := by
  obtain ⟨A, pos, p, V, ho⟩ := reach_open hE hS hs hu
  have key : ∀ sec, ((V.know (V.resolve a)).put (V.idOf a n r) ⟨sec, []⟩).passwords
      (((V.know (V.resolve a)).put (V.idOf a n r) ⟨sec, []⟩).idOf a n r) = some ⟨sec, []⟩ := by
    intro sec
    have : ((V.know (V.resolve a)).put (V.idOf a n r) ⟨sec, []⟩).idOf a n r = V.idOf a n r := by
      simp only [Vault.idOf, resolve_put, resolve_know]
    rw [this]
    simp [Vault.put, update]
  constructor
  · intro v
    obtain ⟨wr, _, _, pos', ho'⟩ := ho.setStored hE hS v ⟨ha, hn, hr⟩
    rw [ho'.ask_getNotes hE hS ha hn hr, key]
  · intro len cs
    obtain ⟨wr, _, _, pos', ho'⟩ := ho.setGenerated hE hS len cs ⟨ha, hn, hr⟩
    rw [ho'.ask_getNotes hE hS ha hn hr, key]

example : Reachable Toy.env Toy.univ Toy.one ∧ ask Toy.env Toy.one (.has (c!"a") (c!"u") []) = .ok (.bool true) ∧
    Toy.one.key.isSome = true := ⟨Toy.one_reachable, Toy.one_has, Toy.one_unlocked⟩

/-! ## C59 -/

/-- **C59.** In every state whatever: an operation that fails with an error other than one from writing the file
leaves the state exactly as it was — except `remove_sites`, and the random stream in the case of
`get_recovery_code`. -/
theorem C59_failure_changes_nothing (E : Env) (s : PState) (op : Op) (hrs : ∀ l, op ≠ .removeSites l)
    (hrc : ∀ q, op ≠ .getRecoveryCode q) (e : Err) (he : ask E s op = .err e) (hw : ¬WriteError e) :
    after E s op = s := by
  cases op with
  | reset p => exact (reset_onlyWrite E p).careful s e (map_err_iff.mp he) hw
  | unlock p => exact unlock_careful E p s e (map_err_iff.mp he) hw
  | lock => cases he
  | reload =>
    simp only [ask, run, reload] at he
    simp only [after, run, reload]
    cases hl : FileIO.load s.world.disk with
    | ok d => rw [hl] at he; cases he
    | err e' => rfl
    | panic => rfl
  | setAlias a b => exact setAlias_careful E a b s e (map_err_iff.mp he) hw
  | removeAlias a => exact removeAlias_careful E a s e (map_err_iff.mp he) hw
  | removeSites l => exact absurd rfl (hrs l)
  | setGenerated a n r len cs => exact setGenerated_careful E a n r len cs s e (map_err_iff.mp he) hw
  | setStored a n r v => exact setStored_careful E a n r v s e (map_err_iff.mp he) hw
  | setNotes a n r t => exact setNotes_careful E a n r t s e (map_err_iff.mp he) hw
  | remove a n r => exact remove_passwords_careful E a n r s e (map_err_iff.mp he) hw
  | getRecoveryCode q => exact absurd rfl (hrc q)
  | _ => rfl

example : ask Toy.env Toy.start (.unlock (c!"secret1")) = .err .storageNotInitialized ∧
    ¬WriteError .storageNotInitialized := ⟨rfl, fun h => h⟩

end Pfp.Props
