import Verif.Model.Types

/-!
# `pfp/src/storage_io/*.rs`: the storage file

The `StorageIO` trait (`storage_io/mod.rs:32-49`) is modelled by its one production implementation, `FileIO`.
-/

namespace Pfp

/-- A computation with state `σ`.  The state reached is kept when the computation fails: Rust does not roll back
changes made through `&mut self`. -/
def M (σ α : Type) := σ → Res α × σ

namespace M
variable {σ α β : Type}

/-- Sequencing; an error or panic ends the computation. -/
def bind (m : M σ α) (f : α → M σ β) : M σ β := fun s =>
  match m s with
  | (.ok a, s') => f a s'
  | (.err e, s') => (.err e, s')
  | (.panic, s') => (.panic, s')

instance : Monad (M σ) where
  pure a := fun s => (.ok a, s)
  bind := bind

/-- A result that does not depend on or change the state. -/
def lift (r : Res α) : M σ α := fun s => (r, s)

/-- The current state. -/
def get : M σ σ := fun s => (.ok s, s)

/-- A state change. -/
def modify (f : σ → σ) : M σ Unit := fun s => (.ok (), f s)

@[simp] theorem pure_apply (a : α) (s : σ) : (pure a : M σ α) s = (.ok a, s) := rfl
theorem bind_apply (m : M σ α) (f : α → M σ β) (s : σ) : (m >>= f) s =
    match m s with
    | (.ok a, s') => f a s'
    | (.err e, s') => (.err e, s')
    | (.panic, s') => (.panic, s') := rfl
@[simp] theorem lift_apply (r : Res α) (s : σ) : lift r s = (r, s) := rfl
@[simp] theorem get_apply (s : σ) : (get : M σ σ) s = (.ok s, s) := rfl
@[simp] theorem modify_apply (f : σ → σ) (s : σ) : modify f s = (.ok (), f s) := rfl

end M

/-- A Rust `HashMap<String, String>`: an association list with distinct keys. -/
abbrev Data := List (Str × Str)

namespace Data

/-- `HashMap::get`. -/
def get? (d : Data) (k : Str) : Option Str := List.lookup k d

/-- `HashMap::contains_key`. -/
def contains (d : Data) (k : Str) : Bool := (d.get? k).isSome

/-- `HashMap::remove`. -/
def erase (d : Data) (k : Str) : Data := d.filter fun e => e.1 ≠ k

/-- `HashMap::insert`. -/
def insert (d : Data) (k v : Str) : Data := (k, v) :: d.erase k

end Data

/-- What happens when the storage file is written (`file.rs:81-85`). -/
inductive FlushOutcome where
  | ok
  | createDirFailure
  /-- Opening the file failed. -/
  | openFailure
  /-- The file was truncated on opening, and writing stopped after so many bytes. -/
  | writeFailure (written : Nat)
  deriving DecidableEq, Repr

/-- Everything the program gets from outside. -/
structure Env where
  prims : Prims
  /-- The random generator (`crypto.rs:97-105`), an infinite stream of bytes. -/
  rand : Nat → UInt8
  /-- The outcome of the n-th write of the storage file. -/
  fs : Nat → FlushOutcome
  /-- The iteration order of the `HashMap`, which may change with each modification. -/
  order : Nat → Data → Data
  /-- `wildmatch::WildMatch::new(pattern).matches(input)` (dependency `wildmatch` 2.1.0). -/
  wild : Str → Str → Bool
  /-- Whether the build has overflow checks (see `usizeSub`). -/
  overflowChecks : Bool

/-- The assumptions about the environment: the primitives have the right output sizes and decryption inverts
encryption, and iterating a map yields its entries in some order. -/
structure Env.Lawful (E : Env) : Prop where
  prims : E.prims.Lawful
  order : ∀ n d, (E.order n d).Perm d

/-- The state of a `FileIO` (`file.rs:19-25`: its `data`) together with the outside world it works on. -/
structure World where
  /-- `FileIO::data`. -/
  data : Data
  /-- The number of modifications of `data` so far (index for `Env.order`). -/
  epoch : Nat
  /-- Contents of the storage file, if it exists. -/
  disk : Option Bytes
  /-- Number of random bytes drawn so far. -/
  rpos : Nat
  /-- Number of attempts to write the file so far. -/
  fpos : Nat

namespace FileIO

/-- The next `n` bytes of the random stream from position `pos`. -/
def randBytes (E : Env) (pos n : Nat) : Bytes := (List.range n).map fun i => E.rand (pos + i)

/-- Models `rng.gen::<[u8; n]>()`. -/
def gen (E : Env) (n : Nat) : M World Bytes := fun w =>
  (.ok (randBytes E w.rpos n), { w with rpos := w.rpos + n })

/-- Models `file.rs:53-55` (`contains_key`). -/
def containsKey (w : World) (k : Str) : Bool := w.data.contains k

/-- Models `file.rs:57-59` (`get`). -/
def get (w : World) (k : Str) : Res Str := okOr (w.data.get? k) .keyMissing

/-- Models `file.rs:61-63` (`set`). -/
def set (k v : Str) : M World Unit :=
  M.modify fun w => { w with data := w.data.insert k v, epoch := w.epoch + 1 }

/-- Models `file.rs:65-67` (`remove`). -/
def remove (k : Str) : M World Unit := fun w =>
  if w.data.contains k then (.ok (), { w with data := w.data.erase k, epoch := w.epoch + 1 })
  else (.err .keyMissing, w)

/-- The entries in iteration order. -/
def entries (E : Env) (w : World) : Data := E.order w.epoch w.data

/-- Models `file.rs:69-71` (`keys`). -/
def keys (E : Env) (w : World) : List Str := (entries E w).map (·.1)

/-- Models `file.rs:73-75` (`clear`). -/
def clear : M World Unit := M.modify fun w => { w with data := [], epoch := w.epoch + 1 }

/-- Models the derived `Serialize` of `FileIO` (`file.rs:13-25`: the path is skipped, `application` and `format`
are constants, `macros.rs:12-19`). -/
def toJson (entries : Data) : Json :=
  .obj [Serde.member (c!"application") (.str (c!"pfp")), Serde.member (c!"format") (.num (.uint 3)),
    Serde.member (c!"data") (.obj (entries.map fun e => Serde.member e.1 (.str e.2)))]

/-- The bytes of the file for the given entries. -/
def contents (entries : Data) : Bytes := utf8 (Json.print (toJson entries))

/-- Models `file.rs:77-86` (`flush`): serialize, create the directory, `fs::write` (which truncates the file and
then writes to it). -/
def flush (E : Env) : M World Unit := fun w =>
  let bytes := contents (entries E w)
  let w' := { w with fpos := w.fpos + 1 }
  match E.fs w.fpos with
  | .ok => (.ok (), { w' with disk := some bytes })
  | .createDirFailure => (.err .createDirFailure, w')
  | .openFailure => (.err .fileWriteFailure, w')
  | .writeFailure n => (.err .fileWriteFailure, { w' with disk := some (bytes.take n) })

/-- `HashMap<String, String>::deserialize`: all values must be strings, later entries replace earlier ones. -/
def dataFromMembers : Data → List (JKey × Json) → Option Data
  | d, [] => some d
  | d, (k, v) :: rest => do
    let v ← Serde.asStr v
    dataFromMembers (d.insert k.str v) rest

/-- `HashMap<String, String>::deserialize`. -/
def dataFromJson : Json → Option Data
  | .obj l => dataFromMembers [] l
  | _ => none

/-- Models `macros.rs:21-36` for `ApplicationName: String = "pfp"` (`file.rs:13`). -/
def applicationFromJson (v : Json) : Option Unit := do
  let s ← Serde.asStr v
  if s = c!"pfp" then some () else none

/-- Models `macros.rs:21-36` for `Format: u8 = 3` (`file.rs:14`). -/
def formatFromJson (v : Json) : Option Unit := do
  let n ← Serde.asU8 v
  if n = 3 then some () else none

/-- Models the derived `Deserialize` of `FileIO` (`file.rs:16-25`, `deny_unknown_fields`; derived code also accepts
the fields as an array). -/
def fromJson : Json → Option Data
  | .obj l =>
    if Serde.without [c!"application", c!"format", c!"data"] l ≠ [] then none
    else do
      Serde.required (c!"application") l >>= applicationFromJson
      Serde.required (c!"format") l >>= formatFromJson
      Serde.required (c!"data") l >>= dataFromJson
  | .arr [a, f, d] => do
    applicationFromJson a
    formatFromJson f
    dataFromJson d
  | _ => none

/-- Models `file.rs:41-49` (`FileIO::load`) on the file's contents (`none`: no readable file). -/
def load (disk : Option Bytes) : Res Data :=
  match disk with
  | none => .err .fileReadFailure
  | some bytes =>
    match fromUtf8 bytes with
    | none => .err .fileReadFailure
    | some s => okOr (Json.parse s >>= fromJson) .invalidJson

/-- The file contents that can be found if the process or machine stops during a `flush` (`file.rs:85`,
`fs::write` is truncate + write): the old file, or any prefix of the new contents. -/
inductive CrashDisk (old : Option Bytes) (new : Bytes) : Option Bytes → Prop
  | before : CrashDisk old new old
  | during (n : Nat) : CrashDisk old new (some (new.take n))

end FileIO
end Pfp
