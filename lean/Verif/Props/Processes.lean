import Verif.Spec.Processes
import Verif.Props.Session
import Verif.Props.Vault

/-!
# Several processes using one storage file: C63
-/

namespace Pfp.Props
open Spec

variable {E : Env} {U : Universe}

theorem view_put (y : System) (i : Nat) (s : PState) : (y.put i s).view i = s := by
  simp [System.view, System.put, update]

theorem view_put_ne (y : System) {i j : Nat} (h : j ≠ i) (s : PState) :
    (y.put i s).view j = { y.view j with world := { (y.view j).world with
      disk := s.world.disk, rpos := s.world.rpos, fpos := s.world.fpos } } := by
  simp [System.view, System.put, update, h]

theorem meanwhile_put (y : System) {i j : Nat} (h : j ≠ i) (s : PState) : Meanwhile (y.view j) s ((y.put i s).view j) := by
  rw [view_put_ne y h]
  exact ⟨rfl, rfl, rfl, rfl, .inl rfl⟩

theorem load_err {disk : Option Bytes} {e : Err} (h : FileIO.load disk = .err e) :
    FileIO.load disk = .err .fileReadFailure ∨ FileIO.load disk = .err .invalidJson := by
  rw [h]
  unfold FileIO.load at h
  split at h
  · cases h; exact .inl rfl
  · split at h
    · cases h; exact .inl rfl
    · unfold okOr at h
      split at h
      · cases h
      · cases h; exact .inr rfl

theorem load_not_panic (disk : Option Bytes) : FileIO.load disk ≠ .panic := by
  intro h
  unfold FileIO.load at h
  split at h
  · cases h
  · split at h
    · cases h
    · unfold okOr at h
      split at h <;> cases h

/-- **C63 (each process).** Whatever the others do: each of the processes only ever gets into states of which all of the
theorems about `Reachable` states speak. -/
theorem C63_each_process {y : System} (h : y.Arises E U) (i : Nat) : Reachable E U (y.view i) := by
  induction h generalizing i with
  | start h => exact .start (h i)
  | foreign h => exact .foreign (h i)
  | act h j op hop hreset ih =>
    have hj := (ih j).step op hop hreset
    by_cases hi : i = j
    · subst hi
      unfold System.act
      rw [view_put]
      exact hj
    · exact .meanwhile (ih i) hj (meanwhile_put _ hi _)
  | @begin y h j ih =>
    have hj : ∃ s, y.start j = y.put j s ∧ Reachable E U s := by
      unfold System.start
      have hfile : (y.view j).world.disk = y.file := rfl
      cases hl : FileIO.load y.file with
      | ok data =>
        refine ⟨_, rfl, ?_⟩
        have := (ih j).step .reload trivial (fun p h => by cases h)
        simpa only [run, reload, hfile, hl] using this
      | err e =>
        refine ⟨_, rfl, .start ⟨rfl, rfl, rfl, rfl, ?_⟩⟩
        show FileIO.load y.file = _ ∨ FileIO.load y.file = _
        exact load_err hl
      | panic => exact absurd hl (load_not_panic _)
    obtain ⟨s, hs, hr⟩ := hj
    rw [hs]
    by_cases hi : i = j
    · subst hi
      rw [view_put]; exact hr
    · exact .meanwhile (ih i) hr (meanwhile_put _ hi _)

/-- A question about the contents. -/
def Question : Op → Bool
  | .list _ _ => true
  | .listSites _ => true
  | q => Query q

theorem collect_world {α : Type} (E : Env) {w w' : World} (h : w'.data = w.data) (f : Json → Option α) (sel : Str → Bool)
    (k : Bytes) (keys : List Str) : Storage.collect E w' f sel k keys = Storage.collect E w f sel k keys := by
  induction keys with
  | nil => rfl
  | cons key keys ih =>
    rw [Storage.collect, Storage.collect, ih]
    unfold Storage.get FileIO.get
    rw [h]

theorem question_eq (E : Env) (s : PState) (disk : Option Bytes) (r f : Nat) (q : Op) (hq : Question q = true) :
    ask E { s with world := { s.world with disk := disk, rpos := r, fpos := f } } q = ask E s q := by
  have h1 : ∀ x h k, Storage.listPasswords E { s.world with disk := disk, rpos := r, fpos := f } x h k =
      Storage.listPasswords E s.world x h k := by
    intro x h k
    unfold Storage.listPasswords
    rw [collect_world E (w := s.world) (w' := { s.world with disk := disk, rpos := r, fpos := f }) rfl]
    rfl
  have h2 : ∀ k, Storage.listSites E { s.world with disk := disk, rpos := r, fpos := f } k =
      Storage.listSites E s.world k := by
    intro k
    unfold Storage.listSites
    rw [collect_world E (w := s.world) (w' := { s.world with disk := disk, rpos := r, fpos := f }) rfl]
    rfl
  cases q with
  | list x q => simp only [ask, run, Passwords.list, h1]; rfl
  | listSites q => simp only [ask, run, Passwords.listSites, h2]
  | _ => first | exact Bool.noConfusion hq | rfl

/-- **C63 (undisturbed).** Whatever the others do, in whatever state: the answers that process `i` gives about its
contents are not affected. -/
theorem C63_undisturbed (E : Env) (i : Nat) (q : Op) (hq : Question q = true) (es : List System.Event) :
    ∀ y : System, (∀ e ∈ es, e.process ≠ i) → ask E ((System.happenAll E es y).view i) q = ask E (y.view i) q := by
  induction es with
  | nil => intro y _; rfl
  | cons e es ih =>
    intro y h
    rw [System.happenAll, ih _ fun x hx => h x (by simp [hx])]
    have hne : i ≠ e.process := fun hc => h e (by simp) hc.symm
    have : ∃ s, y.happen E e = y.put e.process s := by
      cases e with
      | act j op => exact ⟨_, rfl⟩
      | start j =>
        show ∃ s, y.start j = y.put j s
        unfold System.start
        cases FileIO.load y.file <;> exact ⟨_, rfl⟩
    obtain ⟨s, hs⟩ := this
    rw [hs, view_put_ne y hne]
    exact question_eq E _ _ _ _ q hq

/-- What a process finds in a file written by another one. -/
theorem reopened (hE : E.Lawful) (hS : Secure E U) {s t : PState} {a : AState} {pos : Origin} {p : Str} {V : Vault}
    (ho : Open E U s a pos p V) (hw : s.world.disk = some (FileIO.contents (FileIO.entries E s.world)))
    (ht : t.world.disk = s.world.disk) :
    ask E t .reload = .ok .unit ∧ ask E (after E t .reload) (.unlock p) = .ok .unit ∧
    Open E U (after E (after E t .reload) (.unlock p)) ⟨.store p V, .store p V, true⟩ pos p V ∧
    (∀ k, (after E (after E t .reload) (.unlock p)).world.data.get? k = s.world.data.get? k) := by
  obtain ⟨hload, hperm⟩ := load_flushed hE ho.store.vault.nodup hw
  have R := ho.store.perm hperm.symm
  have hload' : FileIO.load t.world.disk = .ok (FileIO.entries E s.world).reverse := by rw [ht]; exact hload
  have hr : after E t .reload = Passwords.new { t.world with
      data := (FileIO.entries E s.world).reverse, epoch := t.world.epoch + 1 } := by
    simp only [after, run, reload, hload']
  have hunlock := unlock_eq (s := Passwords.new { t.world with
      data := (FileIO.entries E s.world).reverse, epoch := t.world.epoch + 1 }) hE hS R p R.primary
  rw [if_pos rfl] at hunlock
  have h2 : after E (Passwords.new { t.world with
      data := (FileIO.entries E s.world).reverse, epoch := t.world.epoch + 1 }) (.unlock p) =
      { world := { t.world with data := (FileIO.entries E s.world).reverse, epoch := t.world.epoch + 1 }
        key := some (keyFor E.prims p (saltAt E pos)), hmacSecret := some (secretAt E pos)
        primaryPassword := some p } := by
    rw [after, run, hunlock]; rfl
  refine ⟨by simp only [ask, run, reload, hload']; rfl, ?_, ?_, ?_⟩
  · rw [hr, ask, run, hunlock]; rfl
  · rw [hr, h2]
    exact ⟨⟨⟨pos, R, rfl, rfl, rfl⟩, ⟨pos, _, hload', R⟩⟩, ⟨by simp, by simp⟩, rfl, rfl, R, rfl, rfl, rfl⟩
  · intro k
    rw [hr, h2]
    exact (Data.get?_perm hperm.symm ho.store.vault.nodup k).symm

/-- What a process finds that is started after another one has changed something. -/
theorem last_writer (hE : E.Lawful) (hS : Secure E U) {y : System} (i : Nat) (hs : Reachable E U (y.view i)) (op : Op)
    (hw : op.Within U) (hop : op.changes = true ∨ ∃ p, op = .reset p) (hok : ask E (y.view i) op = .ok .unit) (j : Nat) :
    let s := after E (y.view i) op
    let t := (y.act E i op).view j
    ∃ p, s.primaryPassword = some p ∧ ask E t .reload = .ok .unit ∧
      ask E (after E t .reload) (.unlock p) = .ok .unit ∧
      (∀ q, Query q = true → ask E (after E (after E t .reload) (.unlock p)) q = ask E s q) ∧
      (∀ x q, U.site x → ∃ l l', ask E s (.list x q) = .ok (.passwords l) ∧
        ask E (after E (after E t .reload) (.unlock p)) (.list x q) = .ok (.passwords l') ∧ l'.Perm l) ∧
      (∀ q, ∃ l l', ask E s (.listSites q) = .ok (.sites l) ∧
        ask E (after E (after E t .reload) (.unlock p)) (.listSites q) = .ok (.sites l') ∧ l'.Perm l) := by
  intro s t
  have hs' : Reachable E U s := .step hs op hw fun q _ => .inl hok
  obtain ⟨p, hp, -⟩ := C35_durable hE hS _ hs op hw hop hok
  have hwritten : s.world.disk = some (FileIO.contents (FileIO.entries E s.world)) := by
    rcases hop with hc | ⟨p, rfl⟩
    · exact (changes_written E _ op hc _ hok).2.1
    · exact (reset_written hE _ p hok).2.1
  have hdisk : t.world.disk = s.world.disk := rfl
  have hp : s.primaryPassword = some p := hp
  have hu : s.key.isSome = true := by
    obtain ⟨a, hrep, ha⟩ := reach hE hS hs'
    have hmem := hrep.mem
    cases hm : a.mem with
    | blank => rw [hm] at hmem; rw [hmem.2.2.2.2] at hp; cases hp
    | torn => exact absurd hm ha.1
    | store q V =>
      rw [hm] at hmem
      obtain ⟨pos, _, hses⟩ := hmem
      cases hul : a.unlocked with
      | false => rw [hul] at hses; rw [hses.2.2] at hp; cases hp
      | true => rw [hul] at hses; rw [hses.1]; rfl
  generalize s = s at *
  obtain ⟨a, pos, p', V, ho⟩ := reach_open hE hS hs' hu
  rw [ho.session.2.2] at hp
  obtain rfl : p' = p := Option.some.inj hp
  obtain ⟨h1, h2, hot, hdata⟩ := reopened hE hS (t := t) ho hwritten hdisk
  refine ⟨p', ho.session.2.2, h1, h2, fun q hq => ?_, fun x q hx => ?_, fun q => ?_⟩
  · exact query_eq E hdata (hot.session.1.trans ho.session.1.symm) (hot.session.2.1.trans ho.session.2.1.symm)
      (hot.session.2.2.trans ho.session.2.2.symm) q hq
  · obtain ⟨l, h1, h2, h3⟩ := ho.list hE hS q hx
    obtain ⟨l', h1', h2', h3'⟩ := hot.list hE hS q hx
    exact ⟨l, l', h1, h1', perm_of_mem h2' h2 fun y => (h3' y).trans (h3 y).symm⟩
  · obtain ⟨l, h1, h2, h3⟩ := ho.listSites hE hS q
    obtain ⟨l', h1', h2', h3'⟩ := hot.listSites hE hS q
    exact ⟨l, l', h1, h1', perm_of_mem h2' h2 fun y => (h3' y).trans (h3 y).symm⟩

/-- **C63 (the last one to write).** When a process has successfully changed something, then any process started after
that can be unlocked with its primary password, and has exactly its contents: nothing of what others have written
before, unless it had been loaded. -/
theorem C63_last_writer (hE : E.Lawful) (hS : Secure E U) {y : System} (hy : y.Arises E U) (i : Nat) (op : Op)
    (hw : op.Within U) (hop : op.changes = true ∨ ∃ p, op = .reset p) (hok : ask E (y.view i) op = .ok .unit) (j : Nat) :
    let s := after E (y.view i) op
    let t := (y.act E i op).view j
    ∃ p, s.primaryPassword = some p ∧ ask E t .reload = .ok .unit ∧
      ask E (after E t .reload) (.unlock p) = .ok .unit ∧
      (∀ q, Query q = true → ask E (after E (after E t .reload) (.unlock p)) q = ask E s q) ∧
      (∀ x q, U.site x → ∃ l l', ask E s (.list x q) = .ok (.passwords l) ∧
        ask E (after E (after E t .reload) (.unlock p)) (.list x q) = .ok (.passwords l') ∧ l'.Perm l) ∧
      (∀ q, ∃ l l', ask E s (.listSites q) = .ok (.sites l) ∧
        ask E (after E (after E t .reload) (.unlock p)) (.listSites q) = .ok (.sites l') ∧ l'.Perm l) :=
  last_writer hE hS i (C63_each_process hy i) op hw hop hok j

/-- **C63 (lost updates).** What a process has stored (successfully or not) is lost when another process, which had loaded
the file before that, writes its own changes: a process started after that does not find it. -/
theorem C63_lost_update (hE : E.Lawful) (hS : Secure E U) {y : System} (hy : y.Arises E U) (i j k : Nat) (hij : i ≠ j)
    (a n r v : Str) (ha : U.site a) (hn : U.name n) (hr : U.revision r)
    (hbefore : ask E (y.view j) (.has a n r) = .ok (.bool false))
    (a' n' r' v' : Str) (ha' : U.site a') (hn' : U.name n') (hr' : U.revision r')
    (hother : ¬SameEntry E (y.view j) a' n' r' a n r)
    (hok' : ask E ((y.act E i (.setStored a n r v)).view j) (.setStored a' n' r' v') = .ok .unit) :
    let t := ((y.act E i (.setStored a n r v)).act E j (.setStored a' n' r' v')).view k
    ∃ p, ask E t .reload = .ok .unit ∧ ask E (after E t .reload) (.unlock p) = .ok .unit ∧
      ask E (after E (after E t .reload) (.unlock p)) (.has a n r) = .ok (.bool false) := by
  intro t
  have hy1 : (y.act E i (.setStored a n r v)).Arises E U := .act hy i _ ⟨ha, hn, hr⟩ (by simp)
  obtain ⟨p, -, h1, h2, h3, -⟩ := C63_last_writer hE hS hy1 j (.setStored a' n' r' v') ⟨ha', hn', hr'⟩ (.inl rfl) hok' k
  refine ⟨p, h1, h2, ?_⟩
  rw [h3 _ rfl]
  have hsame : ∀ q, Question q = true → ask E ((y.act E i (.setStored a n r v)).view j) q = ask E (y.view j) q := by
    intro q hq
    exact C63_undisturbed E j q hq [.act i (.setStored a n r v)] y (by simpa [System.Event.process] using hij)
  have hmeant : ∀ x, siteMeant E ((y.act E i (.setStored a n r v)).view j) x = siteMeant E (y.view j) x := by
    intro x; unfold siteMeant; rw [hsame _ rfl]
  rw [(C22_others_untouched hE hS _ (C63_each_process hy1 j) (.setStored a' n' r' v') ⟨ha', hn', hr'⟩ a' n' r' rfl a n r ha hn hr
    (by unfold SameEntry; rw [hmeant, hmeant]; exact hother)).1, hsame _ rfl]
  exact hbefore

/-! ### An example: the hypotheses are met -/

theorem key_act (E : Env) (y : System) {i j : Nat} (h : i ≠ j) (op : Op) : ((y.act E j op).view i).key = (y.view i).key := by
  rw [System.act, view_put_ne y h]

/-- No file, and processes that have nothing in memory. -/
def alone : System := { file := none, rpos := 0, fpos := 0, process := fun _ => Toy.start }

/-- Process 0 has set the primary password, then process 1 has loaded the file and been unlocked. -/
def pair : System :=
  ((alone.act Toy.env 0 (.reset (c!"secret1"))).act Toy.env 1 .reload).act Toy.env 1 (.unlock (c!"secret1"))

theorem pair_arises : pair.Arises Toy.env Toy.univ :=
  .act (.act (.act (.start (y := alone) fun _ => Toy.start_initial) 0 _ (by show _ ∈ Toy.primaries; decide)
    fun p _ => .inl Toy.reset_ok) 1 .reload trivial (by simp)) 1 (.unlock (c!"secret1")) (by show _ ∈ Toy.primaries; decide) (by simp)

theorem pair_open : ∃ a pos, Open Toy.env Toy.univ (pair.view 1) a pos (c!"secret1") .empty := by
  obtain ⟨a, pos, ho⟩ := Toy.fresh_open
  obtain ⟨-, -, h, -⟩ := reopened Toy.env_lawful Toy.secure (t := (alone.act Toy.env 0 (.reset (c!"secret1"))).view 1) ho
    (reset_written Toy.env_lawful _ _ Toy.reset_ok).2.1 rfl
  refine ⟨⟨.store (c!"secret1") .empty, .store (c!"secret1") .empty, true⟩, pos, ?_⟩
  unfold pair
  rw [System.act, view_put, System.act, view_put]
  exact h

/-- Both have nothing for "a" in memory; process 0 stores a password for "a", process 1 then one for "b" -/
example : ∃ p, let t := ((pair.act Toy.env 0 (.setStored (c!"a") (c!"u") [] (c!"x"))).act Toy.env 1
        (.setStored (c!"b") (c!"u") [] (c!"y"))).view 2
    ask Toy.env t .reload = .ok .unit ∧ ask Toy.env (after Toy.env t .reload) (.unlock p) = .ok .unit ∧
    ask Toy.env (after Toy.env (after Toy.env t .reload) (.unlock p)) (.has (c!"a") (c!"u") []) = .ok (.bool false) := by
  obtain ⟨a, pos, ho⟩ := pair_open
  refine C63_lost_update Toy.env_lawful Toy.secure pair_arises 0 1 2 (by decide) _ _ _ _ Toy.site_a Toy.name_u
    Toy.revision_nil ?_ _ _ _ _ Toy.site_b Toy.name_u Toy.revision_nil ?_ ?_
  · rw [ho.ask_has Toy.env_lawful Toy.secure Toy.site_a Toy.name_u Toy.revision_nil]; rfl
  · unfold SameEntry
    rw [ho.siteMeant_eq Toy.env_lawful Toy.secure Toy.site_a, ho.siteMeant_eq Toy.env_lawful Toy.secure Toy.site_b]
    exact fun h => absurd h.1 (by decide)
  · have hy1 : (pair.act Toy.env 0 (.setStored (c!"a") (c!"u") [] (c!"x"))).Arises Toy.env Toy.univ :=
      .act pair_arises 0 _ ⟨Toy.site_a, Toy.name_u, Toy.revision_nil⟩ (by simp)
    obtain ⟨a', pos', p', V', ho'⟩ := reach_open Toy.env_lawful Toy.secure (C63_each_process hy1 1) (by
      rw [key_act Toy.env _ (by decide : (1 : Nat) ≠ 0), ho.session.1]; rfl)
    exact ((ho'.setStored Toy.env_lawful Toy.secure (c!"y") ⟨Toy.site_b, Toy.name_u, Toy.revision_nil⟩).ok rfl).1

end Pfp.Props
