import Verif.Proofs.Generic
import Verif.Proofs.ToyEnv
import Verif.Props.Files

/-!
# The library on any storage access (C89)

`Storage<IO>` and `Passwords<IO>` are written for any `StorageIO`.  The tests of the library run with `MemoryIO`, the
application with `FileIO`.
-/

namespace Pfp.Props
open Spec

variable {σ τ : Type} {E : Env}

/-- **C89 (file).** The generic code used with `FileIO` is the code all other properties are about. -/
theorem C89_file (E : Env) (op : Op) (h : op ≠ .reload) (s : PState) : runOn (FileIO.io E) E op s = run E op s :=
  Generic.runOn_file E op h s

/-- **C89 (contract).** The library depends on the methods of the storage access only: two storage accesses that cannot be told
apart by the trait's methods, called one after another in any order, give the same results of every operation, errors and
panics included, and stay related. -/
theorem C89_contract {I : StorageIO σ} {J : StorageIO τ} {R : σ → τ → Prop} (hA : Agree I J R) (op : Op) {s : PStateOf σ}
    {t : PStateOf τ} (h : Alongside R s t) :
    (runOn I E op s).1 = (runOn J E op t).1 ∧ Alongside R (runOn I E op s).2 (runOn J E op t).2 :=
  Generic.runOn_agree hA op s t h

/-- **C89 (histories).** The same for any sequence of operations. -/
theorem C89_histories {I : StorageIO σ} {J : StorageIO τ} {R : σ → τ → Prop} (hA : Agree I J R) :
    ∀ (ops : List Op) {s : PStateOf σ} {t : PStateOf τ}, Alongside R s t →
      (runOnAll I E ops s).1 = (runOnAll J E ops t).1 ∧ Alongside R (runOnAll I E ops s).2 (runOnAll J E ops t).2
  | [], _, _, h => ⟨rfl, h⟩
  | op :: ops, s, t, h => by
    obtain ⟨h1, h2⟩ := C89_contract (E := E) hA op h
    obtain ⟨h3, h4⟩ := C89_histories hA ops h2
    unfold runOnAll
    exact ⟨by dsimp only; rw [h1, h3], h4⟩

/-- **C89 (memory).** As long as the file can be written, `MemoryIO` cannot be told apart from `FileIO`, and what it keeps as the
contents of the file is what a reader of the file gets. -/
theorem C89_memory (hE : E.Lawful) (hfs : ∀ n, E.fs n = .ok) : Agree (MemoryIO.io E) (FileIO.io E) Mirrors where
  containsKey a b h k := by show a.data.contains k = b.data.contains k; rw [h.1]
  get a b h k := by show okOr (a.data.get? k) _ = okOr (b.data.get? k) _; rw [h.1]
  keys a b h := by show (E.order a.epoch a.data).map _ = (E.order b.epoch b.data).map _; rw [h.1, h.2.1]
  set k v := by
    intro a b ⟨h1, h2, h3, h4, h5⟩
    exact ⟨rfl, by show a.data.insert k v = b.data.insert k v; rw [h1], by show a.epoch + 1 = b.epoch + 1; rw [h2], h3,
      Data.insert_nodup k v h4, h5⟩
  remove k := by
    intro a b h
    have h' := h
    obtain ⟨h1, h2, h3, h4, h5⟩ := h'
    show (MemoryIO.remove k a).1 = (FileIO.remove k b).1 ∧ Mirrors (MemoryIO.remove k a).2 (FileIO.remove k b).2
    unfold MemoryIO.remove FileIO.remove
    rw [← h1]
    split
    · exact ⟨rfl, rfl, by show a.epoch + 1 = b.epoch + 1; rw [h2], h3, Data.erase_nodup k h4, h5⟩
    · exact ⟨rfl, h⟩
  clear := by
    intro a b ⟨h1, h2, h3, h4, h5⟩
    exact ⟨rfl, rfl, by show a.epoch + 1 = b.epoch + 1; rw [h2], h3, List.nodup_nil, h5⟩
  flush := by
    intro a b ⟨h1, h2, h3, h4, _⟩
    show (MemoryIO.flush a).1 = (FileIO.flush E b).1 ∧ Mirrors (MemoryIO.flush a).2 (FileIO.flush E b).2
    unfold MemoryIO.flush FileIO.flush
    rw [hfs]
    refine ⟨rfl, h1, h2, h3, h4, .inr ?_⟩
    obtain ⟨d, hd, hp, _⟩ := C38_file_roundtrip b.data (FileIO.entries E b) (h1 ▸ h4) (hE.order _ _)
    exact ⟨d, hd, by show d.Perm a.data; rw [h1]; exact hp⟩
  gen n := by
    intro a b ⟨h1, h2, h3, h4, h5⟩
    exact ⟨by show Res.ok (FileIO.randBytes E a.rpos n) = Res.ok (FileIO.randBytes E b.rpos n); rw [h3], h1, h2,
      by show a.rpos + n = b.rpos + n; rw [h3], h4, h5⟩

theorem runOnAll_file : ∀ (ops : List Op), Op.reload ∉ ops → ∀ s, runOnAll (FileIO.io E) E ops s = runAll E ops s
  | [], _, _ => rfl
  | op :: ops, h, s => by
    have h1 : op ≠ .reload := fun e => h (by rw [e]; exact List.mem_cons_self)
    unfold runOnAll runAll
    rw [C89_file E op h1 s, runOnAll_file ops (fun hm => h (List.mem_cons_of_mem _ hm))]

/-- **C89 (tests).** So a test that passes in memory says something about the application: as long as the file can be written, any
sequence of operations on a `MemoryIO` gives what it gives on a storage file that holds the same, and in the end both still hold
the same. -/
theorem C89_tests (hE : E.Lawful) (hfs : ∀ n, E.fs n = .ok) (ops : List Op) (hops : Op.reload ∉ ops) (m : Memory) (w : World)
    (h : Mirrors m w) :
    (runOnAll (MemoryIO.io E) E ops ⟨m, none, none, none⟩).1 = (runAll E ops ⟨w, none, none, none⟩).1 ∧
    Mirrors (runOnAll (MemoryIO.io E) E ops ⟨m, none, none, none⟩).2.world (runAll E ops ⟨w, none, none, none⟩).2.world := by
  rw [← runOnAll_file ops hops]
  have h := C89_histories (E := E) (C89_memory hE hfs) ops (s := ⟨m, none, none, none⟩) (t := ⟨w, none, none, none⟩)
    ⟨h, rfl, rfl, rfl⟩
  exact ⟨h.1, h.2.1⟩

/-! ## A case that meets the hypotheses -/

deriving instance DecidableEq for Out

/-- Without a file, and nothing in memory. -/
theorem mirrors_start : Mirrors (MemoryIO.new [] 0 0) Toy.start.world := ⟨rfl, rfl, rfl, List.nodup_nil, .inl ⟨rfl, rfl⟩⟩

/-- Setting a primary password and storing a password, which can then be read. -/
def sequence : List Op := [.reset (c!"secret1"), .setStored (c!"a") (c!"u") [] (c!"x"), .get (c!"www.a") (c!"u") []]

example : (runOnAll (MemoryIO.io Toy.env) Toy.env sequence ⟨MemoryIO.new [] 0 0, none, none, none⟩).1 =
    (runAll Toy.env sequence Toy.start).1 :=
  (C89_tests Toy.env_lawful (fun _ => rfl) sequence (by simp [sequence]) _ _ mirrors_start).1

example : (runAll Toy.env sequence Toy.start).1 = [.ok .unit, .ok .unit, .ok (.text (c!"x"))] := by decide +kernel

/-- What is kept as the contents of the file has the salt, the HMAC secret, the site and the password. -/
example : (runOnAll (MemoryIO.io Toy.env) Toy.env sequence ⟨MemoryIO.new [] 0 0, none, none, none⟩).2.world.fileData.length = 4 := by
  decide +kernel

/-- If the file cannot be written, the two differ: nothing fails in memory. -/
example : (runOnAll (MemoryIO.io { Toy.env with fs := fun _ => .openFailure }) { Toy.env with fs := fun _ => .openFailure }
      [.reset (c!"secret1")] ⟨MemoryIO.new [] 0 0, none, none, none⟩).1 = [.ok .unit] ∧
    (runAll { Toy.env with fs := fun _ => .openFailure } [.reset (c!"secret1")] Toy.start).1 = [.err .fileWriteFailure] := by
  decide +kernel

/-- A storage access that forgets to report missing keys. -/
def forgiving : StorageIO Memory :=
  { MemoryIO.io Toy.env with remove := fun k => M.modify fun m => { m with data := m.data.erase k, epoch := m.epoch + 1 } }

/-- It does not agree with `FileIO`, and the library notices. -/
example : (runOnAll forgiving Toy.env [.reset (c!"secret1"), .remove (c!"a") (c!"u") []]
      ⟨MemoryIO.new [] 0 0, none, none, none⟩).1 = [.ok .unit, .ok .unit] ∧
    (runAll Toy.env [.reset (c!"secret1"), .remove (c!"a") (c!"u") []] Toy.start).1 = [.ok .unit, .err .keyMissing] := by
  decide +kernel

end Pfp.Props
