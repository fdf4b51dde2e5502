import Verif.Model.Types
import Verif.Spec.JsonText

/-!
# Specification: which JSON values are records of sites and passwords

The records may have been written by another implementation: with members in any order, with members this program does
not know, and with any spelling of the JSON text.
-/

namespace Pfp.Spec

/-- The member `k` occurs once, with this value. -/
def Once (l : List (JKey × Json)) (k : Str) (v : Json) : Prop :=
  ∃ before key rest, l = before ++ (key, v) :: rest ∧ key.str = k ∧ ∀ m ∈ before ++ rest, m.1.str ≠ k

/-- The member `k` does not occur. -/
def Absent (l : List (JKey × Json)) (k : Str) : Prop := ∀ m ∈ l, m.1.str ≠ k

/-- The values of the member `k` are truth values, and `b` tells whether one of them is `true`. -/
def Flag (l : List (JKey × Json)) (k : Str) (b : Bool) : Prop :=
  (∀ m ∈ l, m.1.str = k → ∃ x, m.2 = .bool x) ∧ (b = true ↔ ∃ m ∈ l, m.1.str = k ∧ m.2 = .bool true)

/-- The member `notes`, which may be missing. -/
inductive NotesMember (l : List (JKey × Json)) : Str → Prop
  | absent (h : Absent l (c!"notes")) : NotesMember l []
  | given {notes : Str} (h : Once l (c!"notes") (.str notes)) : NotesMember l notes

/-- The members saying which password it is. -/
structure IdMembers (l : List (JKey × Json)) (i : PasswordId) : Prop where
  site : Once l (c!"site") (.str i.site)
  name : Once l (c!"name") (.str i.name)
  revision : Once l (c!"revision") (.str i.revision)

/-- The record of a site; no other members are allowed. -/
inductive SiteRecord : Json → Site → Prop
  | plain {l : List (JKey × Json)} {name : Str} (h : Once l (c!"site") (.str name))
      (ha : Absent l (c!"alias") ∨ Once l (c!"alias") .null)
      (ho : ∀ m ∈ l, m.1.str = c!"site" ∨ m.1.str = c!"alias") : SiteRecord (.obj l) ⟨name, none⟩
  | aliased {l : List (JKey × Json)} {name target : Str} (h : Once l (c!"site") (.str name))
      (ha : Once l (c!"alias") (.str target))
      (ho : ∀ m ∈ l, m.1.str = c!"site" ∨ m.1.str = c!"alias") : SiteRecord (.obj l) ⟨name, some target⟩
  | plainArray {name : Str} : SiteRecord (.arr [.str name, .null]) ⟨name, none⟩
  | aliasArray {name target : Str} : SiteRecord (.arr [.str name, .str target]) ⟨name, some target⟩

/-- The record of a password.  Members not mentioned are ignored, except that in the record of a generated password
their names have to be written without escape sequences. -/
inductive PasswordRecord : Json → Password → Prop
  | generated {l : List (JKey × Json)} {p : GeneratedPassword} (ht : Once l (c!"type") (.str (c!"generated2")))
      (hi : IdMembers l p.id) (hl : Once l (c!"length") (.num (.uint p.length.toNat))) (hn : NotesMember l p.notes)
      (lower : Flag l (c!"lower") p.charset.lower) (upper : Flag l (c!"upper") p.charset.upper)
      (digit : Flag l (c!"number") p.charset.digit) (symbol : Flag l (c!"symbol") p.charset.symbol)
      (hk : ∀ m ∈ l, m.1.str ∉ [c!"type", c!"site", c!"name", c!"revision", c!"length", c!"notes"] → m.1.borrowed = true) :
      PasswordRecord (.obj l) (.generated p)
  | stored {l : List (JKey × Json)} {p : StoredPassword} (ht : Once l (c!"type") (.str (c!"stored")))
      (hi : IdMembers l p.id) (hp : Once l (c!"password") (.str p.password)) (hn : NotesMember l p.notes) :
      PasswordRecord (.obj l) (.stored p)

/-- `m` is a text of the record of a site. -/
def SiteRecordText (x : Site) (m : Str) : Prop := ∃ j, JsonText j m ∧ SiteRecord j x

/-- `m` is a text of the record of a password. -/
def PasswordRecordText (x : Password) (m : Str) : Prop := ∃ j, JsonText j m ∧ PasswordRecord j x

end Pfp.Spec
