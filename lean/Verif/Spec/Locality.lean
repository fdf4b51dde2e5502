import Verif.Spec.Touched

/-!
# Which entries an operation looks at (C112)
-/

namespace Pfp.Spec
open Pfp.Cli

/-- The entries of the storage which the result and the effect of an operation may depend on. -/
def Needs (E : Env) (u : PState) (op : Op) (k : Str) : Prop :=
  match op with
  | .unlock _ => k = c!"salt" ∨ k = c!"hmac-secret"
  | .initialized => k = c!"salt" ∨ k = c!"hmac-secret"
  | .getRecoveryCode _ => k = c!"salt"
  | .getAlias a => ∃ h, u.hmacSecret = some h ∧ k = siteName E.prims h (canonical a)
  | .removeAlias a => ∃ h, u.hmacSecret = some h ∧ k = siteName E.prims h (canonical a)
  | .removeSites l => ∃ h, u.hmacSecret = some h ∧ ∃ site ∈ l, k = siteName E.prims h site
  | .has a n r => ∃ h, u.hmacSecret = some h ∧
      (k = siteName E.prims h (canonical a) ∨ k = passwordName E.prims h (siteMeant E u a) n r)
  | .get a n r => ∃ h, u.hmacSecret = some h ∧
      (k = siteName E.prims h (canonical a) ∨ k = passwordName E.prims h (siteMeant E u a) n r)
  | .getNotes a n r => ∃ h, u.hmacSecret = some h ∧
      (k = siteName E.prims h (canonical a) ∨ k = passwordName E.prims h (siteMeant E u a) n r)
  | .setNotes a n r _ => ∃ h, u.hmacSecret = some h ∧
      (k = siteName E.prims h (canonical a) ∨ k = passwordName E.prims h (siteMeant E u a) n r)
  | .remove a n r => ∃ h, u.hmacSecret = some h ∧
      (k = siteName E.prims h (canonical a) ∨ k = passwordName E.prims h (siteMeant E u a) n r)
  | .setGenerated a _ _ _ _ => ∃ h, u.hmacSecret = some h ∧
      (k = siteName E.prims h (canonical a) ∨ k = siteName E.prims h (siteMeant E u a))
  | .setStored a _ _ _ => ∃ h, u.hmacSecret = some h ∧
      (k = siteName E.prims h (canonical a) ∨ k = siteName E.prims h (siteMeant E u a))
  | .list a _ => ∃ h, u.hmacSecret = some h ∧
      (k = siteName E.prims h (canonical a) ∨ ∃ rest, k = siteName E.prims h (siteMeant E u a) ++ [':'] ++ rest)
  | .setAlias a b => ∃ h, u.hmacSecret = some h ∧
      (k = siteName E.prims h (canonical b) ∨ ∃ rest, k = siteName E.prims h (canonical a) ++ [':'] ++ rest)
  | .listSites _ => ∃ rest, k = c!"site:" ++ rest ∧ ':' ∉ rest
  | .reload => True
  | _ => False

/-- Two states with the same secrets and at the same position in the random stream and in the sequence of writes; the storages and the
files may be different. -/
structure Beside (u v : PState) : Prop where
  key : u.key = v.key
  hmacSecret : u.hmacSecret = v.hmacSecret
  primaryPassword : u.primaryPassword = v.primaryPassword
  random : u.world.rpos = v.world.rpos
  writes : u.world.fpos = v.world.fpos

/-- Both states have the same entry of this name, or both have none. -/
def AgreeOn (u v : PState) (k : Str) : Prop := u.world.data.get? k = v.world.data.get? k

/-- The same result; listings may be in different order. -/
def SameUpToOrder : Res Out → Res Out → Prop
  | .ok (.passwords l), .ok (.passwords l') => l.Perm l'
  | .ok (.sites l), .ok (.sites l') => l.Perm l'
  | r, r' => r = r'

/-- The question asked by a command that only tells something about one password or alias. -/
def questionOf : Command → Option Op
  | .«show» a n r _ => some (.get a n r)
  | .notes a n r false => some (.getNotes a n r)
  | .alias a none false => some (.getAlias a)
  | _ => none

end Pfp.Spec
