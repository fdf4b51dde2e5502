import Verif.Model.Crypto
import Verif.Model.Json

/-!
# `pfp/src/storage_types/*.rs` and `pfp/src/json/*.rs`

The record types and the (mostly derived) serde code converting them from and to JSON.
A failing deserialization is `none` (always reported as `Error::InvalidJson`).
-/

namespace Pfp

/-- Models `password.rs:17-21` (`struct PasswordId`). -/
structure PasswordId where
  site : Str
  name : Str
  revision : Str
  deriving DecidableEq, Repr

/-- Models `password.rs:28-38` (`PasswordId::new`). -/
def PasswordId.new (site name revision : Str) : PasswordId :=
  { site, name, revision := if revision ≠ c!"1" then revision else [] }

/-- Models `password.rs:59-71` (`struct GeneratedPassword`; `usize` is 64 bits wide). -/
structure GeneratedPassword where
  id : PasswordId
  length : UInt64
  charset : CharacterSet
  notes : Str
  deriving DecidableEq, Repr

/-- Models `password.rs:76-89` (`GeneratedPassword::new`). -/
def GeneratedPassword.new (site name revision : Str) (length : UInt64) (charset : CharacterSet) :
    GeneratedPassword :=
  { id := .new site name revision, length, charset, notes := [] }

/-- Models `password.rs:108-117` (`GeneratedPassword::salt`). -/
def GeneratedPassword.salt (p : GeneratedPassword) : Str :=
  p.id.site ++ Char.ofNat 0 :: p.id.name ++
    (if p.id.revision ≠ [] then Char.ofNat 0 :: p.id.revision else [])

/-- Models `password.rs:132-143` (`struct StoredPassword`). -/
structure StoredPassword where
  id : PasswordId
  password : Str
  notes : Str
  deriving DecidableEq, Repr

/-- Models `password.rs:148-154` (`StoredPassword::new`). -/
def StoredPassword.new (site name revision : Str) (password : Str) : StoredPassword :=
  { id := .new site name revision, password, notes := [] }

/-- Models `password.rs:180-187` (`enum Password`). -/
inductive Password where
  | generated (p : GeneratedPassword)
  | stored (p : StoredPassword)
  deriving DecidableEq, Repr

/-- Models `password.rs:191-196` (`Password::id`). -/
def Password.id : Password → PasswordId
  | .generated p => p.id
  | .stored p => p.id

/-- Models `password.rs:199-204` (`Password::notes`). -/
def Password.notes : Password → Str
  | .generated p => p.notes
  | .stored p => p.notes

/-- Models `password.rs:207-212`, `125-127`, `172-174` (`set_notes`). -/
def Password.setNotes (notes : Str) : Password → Password
  | .generated p => .generated { p with notes }
  | .stored p => .stored { p with notes }

/-- Models `site.rs:12-17` (`struct Site`). -/
structure Site where
  name : Str
  alias : Option Str
  deriving DecidableEq, Repr

namespace Serde

/-! ## Serialization -/

/-- An object member with a plain key. -/
def member (k : Str) (v : Json) : JKey × Json := (⟨k, true⟩, v)

/-- Models the derived `Serialize` of `PasswordId` (`password.rs:15-21`), flattened into its container. -/
def idMembers (id : PasswordId) : List (JKey × Json) :=
  [member (c!"site") (.str id.site), member (c!"name") (.str id.name),
    member (c!"revision") (.str id.revision)]

/-- Models `macros.rs:44-53` with `character_set.rs:25-30`: one boolean per character type, flattened. -/
def charsetMembers (s : CharacterSet) : List (JKey × Json) :=
  [member (c!"lower") (.bool (s.contains .lower)), member (c!"upper") (.bool (s.contains .upper)),
    member (c!"number") (.bool (s.contains .digit)), member (c!"symbol") (.bool (s.contains .symbol))]

/-- Models `password.rs:11-13` and `65-70`, `137-142` (`skip_serializing_if = "empty_secret"`). -/
def notesMembers (notes : Str) : List (JKey × Json) :=
  if notes = [] then [] else [member (c!"notes") (.str notes)]

/-- Models the derived `Serialize` of `Password` (`password.rs:177-187`, internally tagged), of
`GeneratedPassword` (`password.rs:56-71`) and of `StoredPassword` (`password.rs:130-143`). -/
def passwordToJson : Password → Json
  | .generated p =>
    .obj (member (c!"type") (.str (c!"generated2")) :: (idMembers p.id ++
      member (c!"length") (.num (.uint p.length.toNat)) :: (charsetMembers p.charset ++ notesMembers p.notes)))
  | .stored p =>
    .obj (member (c!"type") (.str (c!"stored")) :: (idMembers p.id ++
      member (c!"password") (.str p.password) :: notesMembers p.notes))

/-- Models the derived `Serialize` of `Site` (`site.rs:9-17`). -/
def siteToJson (s : Site) : Json :=
  .obj (member (c!"site") (.str s.name) ::
    (match s.alias with
      | some a => [member (c!"alias") (.str a)]
      | none => []))

/-! ## Deserialization -/

/-- `String::deserialize`. -/
def asStr : Json → Option Str
  | .str s => some s
  | _ => none

/-- `bool::deserialize`. -/
def asBool : Json → Option Bool
  | .bool b => some b
  | _ => none

/-- `usize::deserialize` (64 bits; the parser has already excluded larger integers). -/
def asUsize : Json → Option UInt64
  | .num (.uint n) => if n < 2 ^ 64 then some (UInt64.ofNat n) else none
  | _ => none

/-- `u8::deserialize`. -/
def asU8 : Json → Option Nat
  | .num (.uint n) => if n < 256 then some n else none
  | _ => none

/-- `Option<String>::deserialize`. -/
def asOptStr : Json → Option (Option Str)
  | .null => some none
  | .str s => some (some s)
  | _ => none

/-- All values given for a field name. -/
def valuesOf (k : Str) (l : List (JKey × Json)) : List Json :=
  (l.filter fun m => m.1.str = k).map (·.2)

/-- A required field of derived code: exactly one occurrence (`missing_field`, `duplicate_field`). -/
def required (k : Str) (l : List (JKey × Json)) : Option Json :=
  match valuesOf k l with
  | [v] => some v
  | _ => none

/-- A field with a default: at most one occurrence; `some none` if absent. -/
def optional (k : Str) (l : List (JKey × Json)) : Option (Option Json) :=
  match valuesOf k l with
  | [] => some none
  | [v] => some (some v)
  | _ => none

/-- Models the derived `Deserialize` of `PasswordId` (`password.rs:15-21`) on the members collected by a
flattening container. -/
def idFromMembers (l : List (JKey × Json)) : Option PasswordId := do
  let site ← required (c!"site") l >>= asStr
  let name ← required (c!"name") l >>= asStr
  let revision ← required (c!"revision") l >>= asStr
  some { site, name, revision }

/-- Models `macros.rs:68-88` (`visit_map`) with `character_set.rs:25-30`, on the members left over by the other
fields.  `next_key::<&str>()` fails on keys containing escape sequences (they are not borrowed). -/
def charsetFromMembers : CharacterSet → List (JKey × Json) → Option CharacterSet
  | result, [] => some result
  | result, (k, v) :: rest =>
    if k.borrowed = false then none
    else
      let flag (t : CharacterType) : Option CharacterSet := do
        let b ← asBool v
        charsetFromMembers (if b then result.insert t else result) rest
      if k.str = c!"lower" then flag .lower
      else if k.str = c!"upper" then flag .upper
      else if k.str = c!"number" then flag .digit
      else if k.str = c!"symbol" then flag .symbol
      else charsetFromMembers result rest

/-- Models `secret_serialization.rs:17-26` with the `default` attribute: absent notes are empty. -/
def notesFromMembers (l : List (JKey × Json)) : Option Str := do
  match ← optional (c!"notes") l with
  | none => some []
  | some v => asStr v

/-- Members whose key is none of the given ones. -/
def without (ks : List Str) (l : List (JKey × Json)) : List (JKey × Json) :=
  l.filter fun m => m.1.str ∉ ks

/-- Models the derived `Deserialize` of `GeneratedPassword` (`password.rs:56-71`). -/
def generatedFromMembers (l : List (JKey × Json)) : Option GeneratedPassword := do
  let length ← required (c!"length") l >>= asUsize
  let notes ← notesFromMembers l
  let collected := without [c!"length", c!"notes"] l
  let id ← idFromMembers collected
  let charset ← charsetFromMembers .empty (without [c!"site", c!"name", c!"revision"] collected)
  some { id, length, charset, notes }

/-- Models the derived `Deserialize` of `StoredPassword` (`password.rs:130-143`). -/
def storedFromMembers (l : List (JKey × Json)) : Option StoredPassword := do
  let password ← required (c!"password") l >>= asStr
  let notes ← notesFromMembers l
  let id ← idFromMembers (without [c!"password", c!"notes"] l)
  some { id, password, notes }

/-- Models the derived `Deserialize` of `Password` (`password.rs:177-187`): internally tagged by `type`. -/
def passwordFromJson : Json → Option Password
  | .obj l => do
    let tag ← required (c!"type") l >>= asStr
    let rest := without [c!"type"] l
    if tag = c!"generated2" then (generatedFromMembers rest).map .generated
    else if tag = c!"stored" then (storedFromMembers rest).map .stored
    else none
  | _ => none

/-- Models the derived `Deserialize` of `Site` (`site.rs:9-17`, `deny_unknown_fields`); derived code also
accepts the fields as an array. -/
def siteFromJson : Json → Option Site
  | .obj l =>
    if (without [c!"site", c!"alias"] l) ≠ [] then none
    else do
      let name ← required (c!"site") l >>= asStr
      match ← optional (c!"alias") l with
      | none => some { name, alias := none }
      | some v => do
        let alias ← asOptStr v
        some { name, alias }
  | .arr [n, a] => do
    let name ← asStr n
    let alias ← asOptStr a
    some { name, alias }
  | _ => none

/-- `json::from_slice::<T>`: the bytes must be UTF-8 text of one JSON value of the right shape. -/
def fromSlice {α : Type} (f : Json → Option α) (b : Bytes) : Option α := do
  let s ← fromUtf8 b
  let v ← Json.parse s
  f v

/-- `json::to_vec`. -/
def toVec (v : Json) : Bytes := utf8 (Json.print v)

end Serde
end Pfp
