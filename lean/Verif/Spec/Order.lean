import Verif.Spec.Universe

/-!
# States that answer alike, and the entry of an operation (C110)
-/

namespace Pfp.Spec

/-- The password meant by an operation on passwords. -/
def entryOf (E : Env) (s : PState) (op : Op) : Option PasswordId :=
  op.entry.map fun x => ⟨siteMeant E s x.1, x.2.1, revisionOf x.2.2⟩

/-- The two states give the same answers about everything stored; listings may be in different order. -/
structure Alike (E : Env) (U : Universe) (s t : PState) : Prop where
  getAlias : ∀ a, U.site a → ask E s (.getAlias a) = ask E t (.getAlias a)
  has : ∀ a n r, U.site a → U.name n → U.revision r → ask E s (.has a n r) = ask E t (.has a n r)
  get : ∀ a n r, U.site a → U.name n → U.revision r → ask E s (.get a n r) = ask E t (.get a n r)
  getNotes : ∀ a n r, U.site a → U.name n → U.revision r → ask E s (.getNotes a n r) = ask E t (.getNotes a n r)
  list : ∀ a q, U.site a → ∃ l l', ask E s (.list a q) = .ok (.passwords l) ∧ ask E t (.list a q) = .ok (.passwords l') ∧ l.Perm l'
  listSites : ∀ q, ∃ l l', ask E s (.listSites q) = .ok (.sites l) ∧ ask E t (.listSites q) = .ok (.sites l') ∧ l.Perm l'

/-- Operations that enter a password. -/
def Op.enters : Op → Bool
  | .setGenerated _ _ _ _ _ => true
  | .setStored _ _ _ _ => true
  | _ => false

end Pfp.Spec
