import Verif.Spec.Universe

/-!
# Which entries an operation concerns (C109)
-/

namespace Pfp.Spec

/-- The name of the entry of a site in the storage file, as published. -/
def siteName (P : Prims) (secret : Bytes) (site : Str) : Str :=
  c!"site:" ++ Base64.encode (P.hmac secret (utf8 site))

/-- The name of the entry of a password in the storage file, as published. -/
def passwordName (P : Prims) (secret : Bytes) (site name revision : Str) : Str :=
  siteName P secret site ++ [':'] ++
    Base64.encode (P.hmac secret (utf8 (site ++ ['\x00'] ++ name ++ ['\x00'] ++ revisionOf revision)))

/-- The entries of the storage which an operation may change, add or remove. -/
def Touches (E : Env) (u : PState) (op : Op) (k : Str) : Prop :=
  match op with
  | .reset _ => True
  | .reload => True
  | .setAlias a _ => ∃ h, u.hmacSecret = some h ∧ k = siteName E.prims h (canonical a)
  | .removeAlias a => ∃ h, u.hmacSecret = some h ∧ k = siteName E.prims h (canonical a)
  | .removeSites l => ∃ h, u.hmacSecret = some h ∧ ∃ site ∈ l, k = siteName E.prims h site
  | .setGenerated a n r _ _ => ∃ h, u.hmacSecret = some h ∧
      (k = siteName E.prims h (siteMeant E u a) ∨ k = passwordName E.prims h (siteMeant E u a) n r)
  | .setStored a n r _ => ∃ h, u.hmacSecret = some h ∧
      (k = siteName E.prims h (siteMeant E u a) ∨ k = passwordName E.prims h (siteMeant E u a) n r)
  | .setNotes a n r _ => ∃ h, u.hmacSecret = some h ∧ k = passwordName E.prims h (siteMeant E u a) n r
  | .remove a n r => ∃ h, u.hmacSecret = some h ∧ k = passwordName E.prims h (siteMeant E u a) n r
  | _ => False

/-- The operations that have to do with one password only, and the ones that only tell something. -/
def About (a n r : Str) (op : Op) : Prop :=
  match op with
  | .setGenerated a' n' r' _ _ => a' = a ∧ n' = n ∧ r' = r
  | .setStored a' n' r' _ => a' = a ∧ n' = n ∧ r' = r
  | .setNotes a' n' r' _ => a' = a ∧ n' = n ∧ r' = r
  | .remove a' n' r' => a' = a ∧ n' = n ∧ r' = r
  | .getAlias _ => True
  | .has _ _ _ => True
  | .get _ _ _ => True
  | .getNotes _ _ _ => True
  | .list _ _ => True
  | .listSites _ => True
  | _ => False

end Pfp.Spec
