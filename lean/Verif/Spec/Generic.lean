import Verif.Model.Generic
import Verif.Spec.Universe

/-! # Operations of the library on any storage access -/

namespace Pfp.Spec

variable {σ τ : Type}

/-- The behaviour of the generic code on an operation.  There is no `reload`: opening a storage is not part of the trait. -/
def runOn (I : StorageIO σ) (E : Env) (op : Op) (s : PStateOf σ) : Res Out × PStateOf σ :=
  let unit (m : M (PStateOf σ) Unit) : Res Out × PStateOf σ := ((m s).1.map fun _ => .unit, (m s).2)
  match op with
  | .reset p => unit (Generic.Passwords.reset I E p)
  | .unlock p => unit (Generic.Passwords.unlock I E p)
  | .lock => (.ok .unit, { s with key := none, hmacSecret := none, primaryPassword := none })
  | .reload => (.ok .unit, s)
  | .setAlias a b => unit (Generic.Passwords.setAlias I E a b)
  | .removeAlias a => unit (Generic.Passwords.removeAlias I E a)
  | .removeSites l => unit (Generic.Passwords.removeSites I E l)
  | .setGenerated a n r len cs => unit (Generic.Passwords.setGenerated I E a n r len cs)
  | .setStored a n r v => unit (Generic.Passwords.setStored I E a n r v)
  | .setNotes a n r t => unit (Generic.Passwords.setNotes I E a n r t)
  | .remove a n r => unit (Generic.Passwords.remove I E a n r)
  | .initialized => (.ok (.bool (Generic.Passwords.initialized I s)), s)
  | .unlocked => (.ok (.bool s.key.isSome), s)
  | .getAlias a => ((Generic.Passwords.getAlias I E s a).map .text, s)
  | .has a n r => ((Generic.Passwords.has I E s a n r).map .bool, s)
  | .get a n r => ((Generic.Passwords.get I E s a n r).map .text, s)
  | .getNotes a n r => ((Generic.Passwords.getNotes I E s a n r).map .text, s)
  | .list a p => ((Generic.Passwords.list I E s a p).map .passwords, s)
  | .listSites p => ((Generic.Passwords.listSites I E s p).map .sites, s)
  | .getRecoveryCode p =>
    ((Generic.Passwords.getRecoveryCode I E p s).1.map .code, (Generic.Passwords.getRecoveryCode I E p s).2)

/-- The results of a sequence of operations, and the state after it. -/
def runOnAll (I : StorageIO σ) (E : Env) : List Op → PStateOf σ → List (Res Out) × PStateOf σ
  | [], s => ([], s)
  | op :: ops, s =>
    ((runOn I E op s).1 :: (runOnAll I E ops (runOn I E op s).2).1, (runOnAll I E ops (runOn I E op s).2).2)

/-- Started in related states, both computations have the same result and end in related states. -/
def Same (R : σ → τ → Prop) {α : Type} (m : M σ α) (m' : M τ α) : Prop :=
  ∀ a b, R a b → (m a).1 = (m' b).1 ∧ R (m a).2 (m' b).2

/-- Two ways of accessing storages that cannot be told apart by the methods of the trait, as long as their states are
related. -/
structure Agree (I : StorageIO σ) (J : StorageIO τ) (R : σ → τ → Prop) : Prop where
  containsKey : ∀ a b, R a b → ∀ k, I.containsKey a k = J.containsKey b k
  get : ∀ a b, R a b → ∀ k, I.get a k = J.get b k
  keys : ∀ a b, R a b → I.keys a = J.keys b
  set : ∀ k v, Same R (I.set k v) (J.set k v)
  remove : ∀ k, Same R (I.remove k) (J.remove k)
  clear : Same R I.clear J.clear
  flush : Same R I.flush J.flush
  gen : ∀ n, Same R (I.gen n) (J.gen n)

/-- Related storages and the same secrets. -/
def Alongside (R : σ → τ → Prop) (s : PStateOf σ) (t : PStateOf τ) : Prop :=
  R s.world t.world ∧ s.key = t.key ∧ s.hmacSecret = t.hmacSecret ∧ s.primaryPassword = t.primaryPassword

/-- The memory of a test and the storage of the application hold the same, and the file holds what the memory has for
it. -/
def Mirrors (m : Memory) (w : World) : Prop :=
  m.data = w.data ∧ m.epoch = w.epoch ∧ m.rpos = w.rpos ∧ (m.data.map (·.1)).Nodup ∧
  ((w.disk = none ∧ m.fileData = []) ∨ ∃ d, FileIO.load w.disk = .ok d ∧ d.Perm m.fileData)

end Pfp.Spec
