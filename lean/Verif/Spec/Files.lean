import Verif.Model.StorageIO

/-!
# Specification: which JSON documents are storage files
-/

namespace Pfp.Spec

/-- The last value given for a key in the members of a JSON object, as text. -/
def lastValue (members : List (JKey × Json)) (k : Str) : Option Str :=
  match members.reverse.find? fun m => m.1.str = k with
  | some (_, .str s) => some s
  | _ => none

/-- A JSON document is a storage with the given `data` members: an object with exactly the members
`application: "pfp"`, `format: 3` and `data`, in any order, or an array of the three values; and all `data` values
are texts. -/
inductive IsStorage : Json → List (JKey × Json) → Prop
  | object (l members : List (JKey × Json)) (a f d : JKey) (ha : a.str = c!"application") (hf : f.str = c!"format")
      (hd : d.str = c!"data") (hl : l.Perm [(a, .str (c!"pfp")), (f, .num (.uint 3)), (d, .obj members)])
      (ht : ∀ m ∈ members, ∃ s, m.2 = .str s) : IsStorage (.obj l) members
  | array (members : List (JKey × Json)) (ht : ∀ m ∈ members, ∃ s, m.2 = .str s) :
      IsStorage (.arr [.str (c!"pfp"), .num (.uint 3), .obj members]) members

end Pfp.Spec
