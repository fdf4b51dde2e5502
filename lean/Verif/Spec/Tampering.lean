import Verif.Spec.Contents

/-!
# Specification: a storage file changed by somebody who does not know the primary password
-/

namespace Pfp.Spec

/-! ## What the owner did -/

/-- States of the processes of the owner, who did no operations but `G`: reached from starts without a loadable file,
possibly with several processes using the same file.  (As for `Reachable`, excluded is what comes after a `reset` that
failed while the storage was unlocked.) -/
inductive Done (E : Env) (U : Universe) (G : Op → Prop) : PState → Prop
  | start {s : PState} (h : Initial s) : Done E U G s
  | meanwhile {s other s' : PState} (h : Done E U G s) (ho : Done E U G other) (hm : Meanwhile s other s') : Done E U G s'
  | step {s : PState} (h : Done E U G s) (op : Op) (hg : G op) (hop : op.Within U)
      (hreset : ∀ p, op = .reset p → ask E s op = .ok .unit ∨ s.key = none) : Done E U G (after E s op)

/-- The site is one that the owner named. -/
def Named (G : Op → Prop) (x : Str) : Prop := ∃ op, G op ∧ ∃ a ∈ op.siteArguments, x = canonical a

/-- The owner entered this password, with this name and revision. -/
inductive Given (G : Op → Prop) (name revision : Str) : Secret → Prop
  | stored {a r v : Str} (h : G (.setStored a name r v)) (hr : revision = revisionOf r) : Given G name revision (.stored v)
  | generated {a r : Str} {len : UInt64} {cs : CharacterSet} (h : G (.setGenerated a name r len cs))
      (hr : revision = revisionOf r) : Given G name revision (.generated len cs)

/-- There are no notes, or the owner entered them, with this name and revision. -/
def GivenNotes (G : Op → Prop) (name revision notes : Str) : Prop :=
  notes = [] ∨ ∃ a r, G (.setNotes a name r notes) ∧ revision = revisionOf r

/-- The record of a password that the owner entered. -/
def GivenRecord (G : Op → Prop) (x : Password) : Prop :=
  Named G x.id.site ∧ GivenNotes G x.id.name x.id.revision x.notes ∧
    match x with
    | .stored z => Given G z.id.name z.id.revision (.stored z.password)
    | .generated g => Given G g.id.name g.id.revision (.generated g.length g.charset)

/-! ## What others can do -/

/-- The value consists of this nonce and this ciphertext, in Base64. -/
def Carries (v : Str) (nonce ciphertext : Bytes) : Prop :=
  ∃ n c, v = n ++ '_' :: c ∧ Base64Text n nonce ∧ Base64Text c ciphertext

/-- With the primary password `p` the storage in memory is unlocked, and the encryption key is `k`. -/
def Unlocks (E : Env) (s : PState) (p : Str) (k : Bytes) : Prop :=
  ask E s (.unlock p) = .ok .unit ∧ (after E s (.unlock p)).key = some k

/-- The plaintext is one that the storage makes something of: a string (the HMAC secret), a site or a password. -/
def Legible (m : Bytes) : Prop :=
  (∃ b, Serde.fromSlice Serde.asStr m = some b) ∨ (∃ x, Serde.fromSlice Serde.siteFromJson m = some x) ∨
    ∃ x, Serde.fromSlice Serde.passwordFromJson m = some x

/-- Nothing in the memory of `t` is a forgery: a ciphertext accepted by the cipher under the key of `t`, with a legible
plaintext, is one that the owner had in memory under the same key and primary password.  (Everything written to the file, in part or completely, has
been in memory.  Values may have moved to other names, disappeared, or be old.) -/
def NoForgery (E : Env) (owner : PState → Prop) (p : Str) (t : PState) : Prop :=
  ∀ k key v nonce ciphertext m, t.key = some k → t.world.data.get? key = some v → Carries v nonce ciphertext →
    E.prims.gcmDecrypt k nonce ciphertext = some m → Legible m →
    ∃ u key' v', owner u ∧ Unlocks E u p k ∧ u.world.data.get? key' = some v' ∧ Carries v' nonce ciphertext

/-- The file in state `s` can be loaded and unlocked with the primary password `p`. -/
def Opens (E : Env) (p : Str) (s : PState) : Prop :=
  ask E s .reload = .ok .unit ∧ ask E (after E s .reload) (.unlock p) = .ok .unit

/-- The state after this. -/
def opened (E : Env) (p : Str) (s : PState) : PState := after E (after E s .reload) (.unlock p)

/-- The name in the file of the entry meant by site, name and revision. -/
def entryMeant (E : Env) (h : Bytes) (s : PState) (a n r : Str) : Str :=
  passwordEntry E.prims h ⟨siteMeant E s a, n, revisionOf r⟩

/-- The values of two entries exchanged. -/
def exchanged (d : Data) (key key' : Str) : Data :=
  d.map fun e => (e.1, (d.get? (if e.1 = key then key' else if e.1 = key' then key else e.1)).getD e.2)

end Pfp.Spec
