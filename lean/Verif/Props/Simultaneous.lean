import Verif.Proofs.Simultaneous
import Verif.Props.Processes

/-!
# Several processes writing the storage file at the same time: C83
-/

namespace Pfp.Props
open Spec

variable {E : Env} {U : Universe}

/-- What a process that has changed something successfully has written. -/
theorem written_store (hE : E.Lawful) (hS : Secure E U) {s : PState} (hs : Reachable E U s) (op : Op) (hw : op.Within U)
    (hop : op.changes = true ∨ ∃ p, op = .reset p) (hok : ask E s op = .ok .unit) :
    ∃ pos p d V, RepStore E U pos p d V ∧ d.Perm (after E s op).world.data ∧
      (after E s op).world.disk = some (FileIO.contents d) := by
  have hs' : Reachable E U (after E s op) := .step hs op hw fun q _ => .inl hok
  have hwritten : (after E s op).world.disk = some (FileIO.contents (FileIO.entries E (after E s op).world)) := by
    rcases hop with hc | ⟨p, rfl⟩
    · exact (changes_written E _ op hc _ hok).2.1
    · exact (reset_written hE _ p hok).2.1
  obtain ⟨p, hp, -⟩ := C35_durable hE hS _ hs op hw hop hok
  have hu : (after E s op).key.isSome = true := by
    cases hk : (after E s op).key with
    | some k => rfl
    | none =>
      have := (Pfp.locked_secret hE hS hs' hk).2
      rw [this] at hp; cases hp
  obtain ⟨a, pos, p', V, ho⟩ := reach_open hE hS hs' hu
  exact ⟨pos, p', _, V, ho.store.perm (hE.order _ _).symm, hE.order _ _, hwritten⟩

/-- What holds in every crowd. -/
structure Sound (E : Env) (U : Universe) (c : Crowd) : Prop where
  view : ∀ i, Reachable E U (c.system.view i)
  writing : ∀ i s, c.writing i = some s → Reachable E U s ∧
    ∃ pos p d V, RepStore E U pos p d V ∧ d.Perm s.world.data ∧ s.world.disk = some (FileIO.contents d)
  file : (∃ i s, c.writing i = some s) → ∃ f, c.system.file = some f ∧ ∀ b ∈ f, b ∉ wsBytes

theorem overwrite_solid {w : Bytes} (hw : ∀ b ∈ w, b ∉ wsBytes) {f : Bytes} (hf : ∀ b ∈ f, b ∉ wsBytes) :
    ∀ b ∈ overwrite w (some f), b ∉ wsBytes := by
  intro b hb
  rcases List.mem_append.mp hb with h | h
  · exact hw b h
  · exact hf b (List.mem_of_mem_drop h)

/-- Writing over another file: the file is as written, or cannot be loaded. -/
theorem overwrite_file (d : Data) {f : Bytes} (hf : ∀ b ∈ f, b ∉ wsBytes) :
    overwrite (FileIO.contents d) (some f) = FileIO.contents d ∨ Unreadable (some (overwrite (FileIO.contents d) (some f))) := by
  unfold overwrite
  simp only [Option.getD_some]
  by_cases hz : f.drop (FileIO.contents d).length = []
  · left; rw [hz, List.append_nil]
  · right; exact load_tail d hz fun b hb => hf b (List.mem_of_mem_drop hb)

theorem view_same (y : System) (i : Nat) (f : Option Bytes) (r n : Nat) (other : PState)
    (hf : f = other.world.disk ∨ Unreadable f) :
    Meanwhile (y.view i) other (({ y with file := f, rpos := r, fpos := n } : System).view i) :=
  ⟨rfl, rfl, rfl, rfl, hf⟩

theorem act_file (E : Env) (y : System) (i : Nat) (op : Op) : (y.act E i op).file = (after E (y.view i) op).world.disk := rfl

theorem start_file (y : System) (i : Nat) : (y.start i).file = y.file := by
  unfold System.start
  split <;> rfl

theorem act_view {y : System} (hv : ∀ i, Reachable E U (y.view i)) (i : Nat) (op : Op)
    (hop : op.Within U) (hreset : ∀ p, op = .reset p → ask E (y.view i) op = .ok .unit ∨ (y.view i).key = none) (j : Nat) :
    Reachable E U ((y.act E i op).view j) := by
  have hi := (hv i).step op hop hreset
  by_cases hj : j = i
  · subst hj; unfold System.act; rw [view_put]; exact hi
  · exact .meanwhile (hv j) hi (meanwhile_put _ hj _)

theorem start_view {y : System} (hv : ∀ i, Reachable E U (y.view i)) (i j : Nat) : Reachable E U ((y.start i).view j) := by
  have hi : ∃ s, y.start i = y.put i s ∧ Reachable E U s := by
    unfold System.start
    have hfile : (y.view i).world.disk = y.file := rfl
    cases hl : FileIO.load y.file with
    | ok data =>
      refine ⟨_, rfl, ?_⟩
      have := (hv i).step .reload trivial (fun p h => by cases h)
      simpa only [run, reload, hfile, hl] using this
    | err e =>
      refine ⟨_, rfl, .start ⟨rfl, rfl, rfl, rfl, ?_⟩⟩
      exact load_err hl
    | panic => exact absurd hl (load_not_panic _)
  obtain ⟨s, hs, hr⟩ := hi
  rw [hs]
  by_cases hj : j = i
  · subst hj; rw [view_put]; exact hr
  · exact .meanwhile (hv j) hr (meanwhile_put _ hj _)

theorem sound (hE : E.Lawful) (hS : Secure E U) {c : Crowd} (h : c.Arises E U) : Sound E U c := by
  induction h with
  | calm h => exact ⟨C63_each_process h, fun i s hs => (by cases hs), fun ⟨i, s, hs⟩ => (by cases hs)⟩
  | @act c h i hi op hop hreset ih =>
    refine ⟨act_view ih.view i op hop hreset, ih.writing, fun hw => ?_⟩
    obtain ⟨f, hf, hs⟩ := ih.file hw
    show ∃ f, (c.system.act E i op).file = some f ∧ _
    rw [act_file]
    rcases file_after hE hS (ih.view i) op hop hreset with h1 | ⟨pos, p, d, V, n, R, h1⟩
    · exact ⟨f, h1.trans hf, hs⟩
    · exact ⟨_, h1, fun b hb => R.solid_contents b (List.mem_of_mem_take hb)⟩
  | @start c h i ih =>
    refine ⟨start_view ih.view i, fun j s hs => ?_, fun ⟨j, s, hs⟩ => ?_⟩
    · simp only [Crowd.start, update] at hs
      split at hs
      · cases hs
      · exact ih.writing j s hs
    · simp only [Crowd.start, update] at hs
      split at hs
      · cases hs
      · show ∃ f, (c.system.start i).file = some f ∧ _
        rw [start_file]
        exact ih.file ⟨j, s, hs⟩
  | @opened c h i hi op hop hc hok ih =>
    have hs' : Reachable E U (after E (c.system.view i) op) := (ih.view i).step op hop fun p _ => .inl hok
    refine ⟨fun j => .meanwhile (ih.view j) (ih.view j) (view_same _ j _ _ _ _ (.inr load_empty)), fun j s hs => ?_,
      fun _ => ⟨[], rfl, fun b hb => by cases hb⟩⟩
    simp only [Crowd.opened, update] at hs
    split at hs
    · cases hs
      exact ⟨hs', written_store hE hS (ih.view i) op hop hc hok⟩
    · exact ih.writing j s hs
  | @written c h i s hi ih =>
    obtain ⟨hs, pos, p, d, V, R, -, hd⟩ := ih.writing i s hi
    obtain ⟨f, hf, hsolid⟩ := ih.file ⟨i, s, hi⟩
    have hfile : some (overwrite (s.world.disk.getD []) c.system.file) = s.world.disk ∨
        Unreadable (some (overwrite (s.world.disk.getD []) c.system.file)) := by
      rw [hd, hf]
      rcases overwrite_file d hsolid with h1 | h1
      · left; simp only [Option.getD_some, h1]
      · right; exact h1
    refine ⟨fun j => ?_, fun j t ht => ?_, fun _ => ⟨_, rfl, ?_⟩⟩
    · by_cases hj : j = i
      · subst hj
        refine .meanwhile hs hs ?_
        refine ⟨?_, ?_, ?_, ?_, ?_⟩ <;> simp only [Crowd.written, System.view, update, if_true]
        exact hfile
      · refine .meanwhile (ih.view j) hs ?_
        refine ⟨?_, ?_, ?_, ?_, ?_⟩ <;> simp only [Crowd.written, System.view, update, if_neg hj]
        exact hfile
    · simp only [Crowd.written, update] at ht
      split at ht
      · cases ht
      · exact ih.writing j t ht
    · rw [hd, hf]
      exact overwrite_solid R.solid_contents hsolid

/-- **C83 (each process).** Whatever the others do, even if they are writing the file while others are: each of the processes
only ever gets into states of which all of the theorems about `Reachable` states speak. -/
theorem C83_each_process (hE : E.Lawful) (hS : Secure E U) {c : Crowd} (h : c.Arises E U) (i : Nat) :
    Reachable E U (c.system.view i) := (sound hE hS h).view i

/-- **C83 (the file).** When a process has written the file, with others writing it at the same time, then the file is exactly
as this process meant to leave it: it can be loaded, and contains what the process has in memory.  Or else it cannot be loaded
at all.  A mixture of what several processes have written is never taken for a storage. -/
theorem C83_file (hE : E.Lawful) (hS : Secure E U) {c : Crowd} (h : c.Arises E U) (i : Nat) (s : PState)
    (hi : c.writing i = some s) :
    (c.written i s).system.file = s.world.disk ∧ (∃ d, FileIO.load s.world.disk = .ok d ∧ d.Perm s.world.data) ∨
    Unreadable (c.written i s).system.file := by
  have hc := sound hE hS h
  obtain ⟨hs, pos, p, d, V, R, hperm, hd⟩ := hc.writing i s hi
  obtain ⟨f, hf, hsolid⟩ := hc.file ⟨i, s, hi⟩
  show some (overwrite (s.world.disk.getD []) c.system.file) = _ ∧ _ ∨ Unreadable (some (overwrite (s.world.disk.getD []) c.system.file))
  rw [hd, hf]
  rcases overwrite_file d hsolid with h1 | h1
  · left
    refine ⟨by simp only [Option.getD_some, h1], _, FileIO.load_contents d R.vault.nodup, (List.reverse_perm d).trans hperm⟩
  · exact .inr h1

/-- **C83 (in between).** Between a process opening the file and the next write the file cannot be loaded by anyone. -/
theorem C83_between (E : Env) (c : Crowd) (i : Nat) (op : Op) : Unreadable (c.opened E i op).system.file := load_empty

/-- **C83 (two at the same time).** When two processes have both opened the file before either of them writes it, both of them
succeeding: the file is as the second one meant to leave it if the first one's was not longer, and otherwise it cannot be
loaded, so that neither the changes of these two nor anything else is to be found there any more. -/
theorem C83_two (hE : E.Lawful) (hS : Secure E U) {c : Crowd} (h : c.Arises E U) (i j : Nat) (hij : i ≠ j)
    (hi : c.writing i = none) (hj : c.writing j = none) (op op' : Op) (hw : op.Within U) (hw' : op'.Within U)
    (hop : op.changes = true ∨ ∃ p, op = .reset p) (hop' : op'.changes = true ∨ ∃ p, op' = .reset p)
    (hok : ask E (c.system.view i) op = .ok .unit)
    (hok' : ask E ((c.opened E i op).system.view j) op' = .ok .unit) :
    let s := after E (c.system.view i) op
    let t := after E ((c.opened E i op).system.view j) op'
    let c' := (((c.opened E i op).opened E j op').written i s).written j t
    c'.Arises E U ∧ ∃ f g, s.world.disk = some f ∧ t.world.disk = some g ∧
      (f.length ≤ g.length → c'.system.file = t.world.disk) ∧ (g.length < f.length → Unreadable c'.system.file) := by
  intro s t c'
  have h1 : (c.opened E i op).Arises E U := .opened h i hi op hw hop hok
  have hj1 : (c.opened E i op).writing j = none := by
    simp only [Crowd.opened, update, if_neg hij.symm]; exact hj
  have h2 : ((c.opened E i op).opened E j op').Arises E U := .opened h1 j hj1 op' hw' hop' hok'
  have hi2 : ((c.opened E i op).opened E j op').writing i = some s := by
    simp only [Crowd.opened, update, if_neg hij, if_true]; rfl
  have h3 : (((c.opened E i op).opened E j op').written i s).Arises E U := .written h2 i s hi2
  have hj3 : (((c.opened E i op).opened E j op').written i s).writing j = some t := by
    simp only [Crowd.written, Crowd.opened, update, if_neg hij.symm, if_true]; rfl
  refine ⟨.written h3 j t hj3, ?_⟩
  obtain ⟨pos, p, d, V, R, -, hd⟩ := written_store hE hS ((sound hE hS h).view i) op hw hop hok
  obtain ⟨pos', p', d', V', R', -, hd'⟩ := written_store hE hS ((sound hE hS h1).view j) op' hw' hop' hok'
  refine ⟨_, _, hd, hd', ?_⟩
  have hfile : c'.system.file = some (overwrite (FileIO.contents d') (some (FileIO.contents d))) := by
    show some (overwrite (t.world.disk.getD []) (some (overwrite (s.world.disk.getD []) (some [])))) = _
    rw [show s.world.disk = _ from hd, show t.world.disk = _ from hd']
    simp [overwrite]
  rw [hfile, show t.world.disk = _ from hd']
  constructor
  · intro hl
    simp [overwrite, List.drop_of_length_le hl]
  · intro hl
    rcases overwrite_file d' R.solid_contents with h4 | h4
    · exfalso
      have := congrArg List.length h4
      simp only [overwrite, Option.getD_some, List.length_append, List.length_drop] at this
      omega
    · exact h4

/-- **C83 (once again).** However the file has come to be what it is: when a process that is not in between then changes
something successfully, with no other one writing at the same time, any process started after that can be unlocked with its
primary password and has exactly its contents. -/
theorem C83_again (hE : E.Lawful) (hS : Secure E U) {c : Crowd} (h : c.Arises E U) (i : Nat) (op : Op)
    (hw : op.Within U) (hop : op.changes = true ∨ ∃ p, op = .reset p) (hok : ask E (c.system.view i) op = .ok .unit) (j : Nat) :
    let s := after E (c.system.view i) op
    let t := (c.act E i op).system.view j
    ∃ p, s.primaryPassword = some p ∧ ask E t .reload = .ok .unit ∧
      ask E (after E t .reload) (.unlock p) = .ok .unit ∧
      (∀ q, Query q = true → ask E (after E (after E t .reload) (.unlock p)) q = ask E s q) ∧
      (∀ x q, U.site x → ∃ l l', ask E s (.list x q) = .ok (.passwords l) ∧
        ask E (after E (after E t .reload) (.unlock p)) (.list x q) = .ok (.passwords l') ∧ l'.Perm l) ∧
      (∀ q, ∃ l l', ask E s (.listSites q) = .ok (.sites l) ∧
        ask E (after E (after E t .reload) (.unlock p)) (.listSites q) = .ok (.sites l') ∧ l'.Perm l) :=
  last_writer hE hS i (C83_each_process hE hS h i) op hw hop hok j

/-- **C83 (undisturbed).** What is in memory is not concerned: the answers a process gives about its contents
are the same whether or not another one opens or writes the file. -/
theorem C83_undisturbed (E : Env) (c : Crowd) (i j : Nat) (hij : j ≠ i) (q : Op) (hq : Question q = true) :
    (∀ op, ask E ((c.opened E i op).system.view j) q = ask E (c.system.view j) q) ∧
    (∀ s, ask E ((c.written i s).system.view j) q = ask E (c.system.view j) q) := by
  constructor
  · intro op
    exact question_eq E (c.system.view j) _ _ _ q hq
  · intro s
    have : (c.written i s).system.view j = { c.system.view j with world := { (c.system.view j).world with
        disk := (c.written i s).system.file, rpos := c.system.rpos, fpos := c.system.fpos } } := by
      simp [Crowd.written, System.view, update, hij]
    rw [this]
    exact question_eq E (c.system.view j) _ _ _ q hq

/-! ### An example: the hypotheses are met -/

/-- Processes 0 and 1 have the same storage unlocked; process 0 is storing a password for "a" and process 1 one for "b". -/
def crowd : Crowd := ⟨pair, fun _ => none⟩

theorem crowd_arises : crowd.Arises Toy.env Toy.univ := .calm pair_arises

theorem opened_key (E : Env) (c : Crowd) (i : Nat) (op : Op) (j : Nat) :
    ((c.opened E i op).system.view j).key = (c.system.view j).key := rfl

theorem crowd_key0 : (crowd.system.view 0).key.isSome = true := by decide +kernel
theorem crowd_key1 : (crowd.system.view 1).key.isSome = true := by decide +kernel

theorem crowd_ok : ask Toy.env (crowd.system.view 0) (.setStored (c!"a") (c!"u") [] (c!"long password")) = .ok .unit := by
  obtain ⟨a, pos, p, V, ho⟩ := reach_open Toy.env_lawful Toy.secure (C83_each_process Toy.env_lawful Toy.secure crowd_arises 0) crowd_key0
  exact ((ho.setStored Toy.env_lawful Toy.secure (c!"long password") ⟨Toy.site_a, Toy.name_u, Toy.revision_nil⟩).ok rfl).1

theorem crowd_ok' : ask Toy.env ((crowd.opened Toy.env 0 (.setStored (c!"a") (c!"u") [] (c!"long password"))).system.view 1)
    (.setStored (c!"b") (c!"u") [] (c!"short")) = .ok .unit := by
  have h : (crowd.opened Toy.env 0 (.setStored (c!"a") (c!"u") [] (c!"long password"))).Arises Toy.env Toy.univ :=
    .opened crowd_arises 0 rfl _ ⟨Toy.site_a, Toy.name_u, Toy.revision_nil⟩ (.inl rfl) crowd_ok
  obtain ⟨a, pos, p, V, ho⟩ := reach_open Toy.env_lawful Toy.secure (C83_each_process Toy.env_lawful Toy.secure h 1) (by
    rw [opened_key]; exact crowd_key1)
  exact ((ho.setStored Toy.env_lawful Toy.secure (c!"short") ⟨Toy.site_b, Toy.name_u, Toy.revision_nil⟩).ok rfl).1

/-- Both succeed, and the file is lost. -/
example : ∃ c : Crowd, c.Arises Toy.env Toy.univ ∧ c.writing 0 = none ∧ c.writing 1 = none ∧ Unreadable c.system.file := by
  obtain ⟨h1, f, g, h2, h3, -, h4⟩ := C83_two Toy.env_lawful Toy.secure crowd_arises 0 1 (by decide) rfl rfl
    (.setStored (c!"a") (c!"u") [] (c!"long password")) (.setStored (c!"b") (c!"u") [] (c!"short"))
    ⟨Toy.site_a, Toy.name_u, Toy.revision_nil⟩ ⟨Toy.site_b, Toy.name_u, Toy.revision_nil⟩ (.inl rfl) (.inl rfl) crowd_ok crowd_ok'
  refine ⟨_, h1, rfl, rfl, h4 ?_⟩
  have h5 : ((after Toy.env ((crowd.opened Toy.env 0 (.setStored (c!"a") (c!"u") [] (c!"long password"))).system.view 1)
      (.setStored (c!"b") (c!"u") [] (c!"short"))).world.disk.getD []).length <
      ((after Toy.env (crowd.system.view 0) (.setStored (c!"a") (c!"u") [] (c!"long password"))).world.disk.getD []).length := by
    decide +kernel
  rw [h2, h3] at h5
  exact h5

end Pfp.Props
