import Mathlib.Data.List.Forall2
import Verif.Spec.Universe

/-!
# Specification: histories that differ in passwords and notes of equal size only
-/

namespace Pfp.Spec

/-- The number of bytes a character takes in a JSON text (RFC 8259, section 7, with the short escapes where there are
any). -/
def charSize (c : Char) : Nat :=
  if c = '"' ∨ c = '\\' ∨ c.toNat = 8 ∨ c.toNat = 9 ∨ c.toNat = 10 ∨ c.toNat = 12 ∨ c.toNat = 13 then 2
  else if c.toNat < 32 then 6
  else (utf8 [c]).length

/-- The number of bytes a text takes in a JSON text. -/
def jsonSize (t : Str) : Nat := (t.map charSize).sum

/-- The same operation, up to the value stored, the notes stored (of equal size), and the password for which a recovery
code is wanted. -/
inductive EvenOp : Op → Op → Prop
  | same (op : Op) : EvenOp op op
  | value (a n r v v' : Str) (h : jsonSize v' = jsonSize v) : EvenOp (.setStored a n r v) (.setStored a n r v')
  | notes (a n r t t' : Str) (h : jsonSize t' = jsonSize t) : EvenOp (.setNotes a n r t) (.setNotes a n r t')
  | code (z z' : StoredPassword) : EvenOp (.getRecoveryCode z) (.getRecoveryCode z')

/-- Two states reached from the same state by the same operations up to values and notes of equal size, with the same
random bytes and outcomes of writes; meanwhile other processes may have used the file, doing the same in this sense, or the
file has become the same unreadable one in both. -/
inductive Even (E : Env) (U : Universe) : PState → PState → Prop
  | same {s : PState} (h : Reachable E U s) : Even E U s s
  | meanwhile {s s' o o' t t' : PState} (h : Even E U s s') (ho : Even E U o o') (hm : Meanwhile s o t)
      (hm' : Meanwhile s' o' t')
      (hfile : (t.world.disk = o.world.disk ∧ t'.world.disk = o'.world.disk) ∨ t'.world.disk = t.world.disk)
      (hepoch : t'.world.epoch = t.world.epoch) (hrpos : t'.world.rpos = t.world.rpos)
      (hfpos : t'.world.fpos = t.world.fpos) : Even E U t t'
  | step {s s' : PState} (h : Even E U s s') {op op' : Op} (he : EvenOp op op') (hop : op.Within U)
      (hreset : ∀ p, op = .reset p → ask E s op = .ok .unit ∨ s.key = none) : Even E U (after E s op) (after E s' op')

/-- The order in which a map is iterated does not depend on the values in it. -/
def OrderByKeys (E : Env) : Prop := ∀ n (d d' : Data), d'.map (·.1) = d.map (·.1) →
  (E.order n d').map (·.1) = (E.order n d).map (·.1)

/-- `v` is what is stored for the text `t` encrypted with this key and nonce: both parts in Base64. -/
def Encrypts (P : Prims) (key nonce : Bytes) (t v : Str) : Prop :=
  ∃ n c, IsBase64 nonce n ∧ IsBase64 (P.gcmEncrypt key nonce (utf8 t)) c ∧ v = n ++ ['_'] ++ c

/-- Two entries of storages that look the same to someone who does not know the key: the name is the same, and the values
are the same or encryptions, with this key and the same nonce, of texts of the same size. -/
def LooksAlike (P : Prims) (key : Bytes) (e e' : Str × Str) : Prop :=
  e'.1 = e.1 ∧ (e'.2 = e.2 ∨ ∃ nonce t t', nonce.length = 12 ∧ (utf8 t').length = (utf8 t).length ∧
    Encrypts P key nonce t e.2 ∧ Encrypts P key nonce t' e'.2)

/-- Two storages that are the same or look the same to someone who does not know the primary password. -/
def StoragesAlike (P : Prims) (U : Universe) (d d' : Data) : Prop :=
  d' = d ∨ ∃ p salt v, U.primary p ∧ (c!"salt", v) ∈ d ∧ IsBase64 salt v ∧
    List.Forall₂ (LooksAlike P (publishedKey P p salt)) d d'

end Pfp.Spec
