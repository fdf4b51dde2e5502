import Verif.Proofs.Records
import Verif.Props.Files

/-!
# C75: which texts are accepted as JSON, storage files and records
-/

namespace Pfp.Props

open Spec

/-- **C75 (grammar).** The parser accepts exactly the texts of RFC 8259 with at most 127 levels of arrays and objects,
and yields the value they denote. -/
theorem C75_grammar (text : Str) (v : Json) : Json.parse text = some v ↔ JsonText v text := Json.parse_iff text v

/-- **C75 (unambiguous).** No text denotes two values. -/
theorem C75_unambiguous (text : Str) (v v' : Json) (h : JsonText v text) (h' : JsonText v' text) : v = v' := by
  rw [← Json.parse_iff] at h h'
  rw [h] at h'
  exact Option.some.inj h'

/-- **C75 (storage files).** A file is loaded exactly if its bytes are the UTF-8 encoding of a JSON text denoting a
storage; the map loaded has the last value given for each key. -/
theorem C75_file (b : Bytes) : (∃ d, FileIO.load (some b) = .ok d) ↔
    ∃ text j members, b = utf8 text ∧ JsonText j text ∧ IsStorage j members := by
  constructor
  · rintro ⟨d, h⟩
    obtain ⟨text, j, members, h1, h2, h3, _⟩ := C38_only_storages_load b d h
    exact ⟨text, j, members, h1.symm, (Json.parse_iff _ _).mp h2, h3⟩
  · rintro ⟨text, j, members, rfl, h2, h3⟩
    obtain ⟨d, h, _⟩ := C38_storages_load text j members ((Json.parse_iff _ _).mpr h2) h3
    exact ⟨d, h⟩

/-- **C75 (contents of storage files).** -/
theorem C75_file_contents (text : Str) (j : Json) (members : List (JKey × Json)) (ht : JsonText j text)
    (hs : IsStorage j members) :
    ∃ d, FileIO.load (some (utf8 text)) = .ok d ∧ ∀ k, d.get? k = lastValue members k := by
  obtain ⟨d, h, h'⟩ := C38_storages_load text j members ((Json.parse_iff _ _).mpr ht) hs
  exact ⟨d, h, h'⟩

/-- **C75 (site records).** Decrypted bytes are read as a site exactly if they are the UTF-8 encoding of a text of the
record of this site. -/
theorem C75_site (b : Bytes) (x : Site) :
    Serde.fromSlice Serde.siteFromJson b = some x ↔ ∃ m, b = utf8 m ∧ SiteRecordText x m := by
  rw [Serde.fromSlice_iff]
  constructor
  · rintro ⟨m, j, h1, h2, h3⟩; exact ⟨m, h1, j, h2, Serde.site_iff.mp h3⟩
  · rintro ⟨m, h1, j, h2, h3⟩; exact ⟨m, j, h1, h2, Serde.site_iff.mpr h3⟩

/-- **C75 (password records).** Decrypted bytes are read as a password exactly if they are the UTF-8 encoding of a text
of the record of this password. -/
theorem C75_password (b : Bytes) (x : Password) :
    Serde.fromSlice Serde.passwordFromJson b = some x ↔ ∃ m, b = utf8 m ∧ PasswordRecordText x m := by
  rw [Serde.fromSlice_iff]
  constructor
  · rintro ⟨m, j, h1, h2, h3⟩; exact ⟨m, h1, j, h2, Serde.password_iff.mp h3⟩
  · rintro ⟨m, h1, j, h2, h3⟩; exact ⟨m, j, h1, h2, Serde.password_iff.mpr h3⟩

/-! ## Examples -/

/-- A text with white space, escape sequences of all kinds and numbers. -/
def sampleText : Str := c!" { \"a\\/\\u00e9\\ud83d\\uDE00\" : [ 1 , -2.5E+3,true, null ] ,\n\"b\":{}} "

example : JsonText (.obj [(⟨c!"a/é😀", false⟩, .arr [.num (.uint 1), .num .other, .bool true, .null]),
    (⟨c!"b", true⟩, .obj [])]) sampleText :=
  (C75_grammar _ _).mp rfl

-- Refused: text after the value, leading zeros, a lone surrogate, a control character, a trailing comma.
example (v : Json) : ¬ JsonText v (c!"1 2") := by rw [← C75_grammar]; exact nofun
example (v : Json) : ¬ JsonText v (c!"01") := by rw [← C75_grammar]; exact nofun
example (v : Json) : ¬ JsonText v (c!"\"\\ud83d\"") := by rw [← C75_grammar]; exact nofun
example (v : Json) : ¬ JsonText v (c!"\"\n\"") := by rw [← C75_grammar]; exact nofun
example (v : Json) : ¬ JsonText v (c!"[1,]") := by rw [← C75_grammar]; exact nofun

/-- A storage file as another program might write it. -/
def sampleFile : Str :=
  c!"{\n  \"format\": 3,\n  \"data\": {\"salt\": \"x\", \"salt\": \"\\u0079\"},\n  \"application\": \"pfp\"\n}\n"

example : ∃ d, FileIO.load (some (utf8 sampleFile)) = .ok d ∧ d.get? (c!"salt") = some (c!"y") := by
  have hj : Json.parse sampleFile = some (.obj [(⟨c!"format", true⟩, .num (.uint 3)),
      (⟨c!"data", true⟩, .obj [(⟨c!"salt", true⟩, .str (c!"x")), (⟨c!"salt", true⟩, .str (c!"y"))]),
      (⟨c!"application", true⟩, .str (c!"pfp"))]) := rfl
  obtain ⟨d, h, hd⟩ := C75_file_contents _ _ [(⟨c!"salt", true⟩, .str (c!"x")), (⟨c!"salt", true⟩, .str (c!"y"))]
    ((C75_grammar _ _).mp hj)
    (.object _ _ ⟨c!"application", true⟩ ⟨c!"format", true⟩ ⟨c!"data", true⟩ rfl rfl rfl
      (List.perm_append_comm (l₁ := [_, _]) (l₂ := [_])) (by simp))
  exact ⟨d, h, by rw [hd]; rfl⟩

/-- A password record as another program might write it: other order, an unknown member, spaces. -/
def sampleRecord : Str :=
  c!"{\"site\": \"example.com\", \"name\": \"me\", \"type\": \"generated2\", \"created\": [1, 2], \"revision\": \"\", " ++
    c!"\"length\": 16, \"lower\": true, \"symbol\": false}"

example : PasswordRecordText (.generated ⟨⟨c!"example.com", c!"me", []⟩, 16, ⟨true, false, false, false⟩, []⟩)
    sampleRecord := by
  obtain ⟨m, hm, h⟩ := (C75_password (utf8 sampleRecord)
    (.generated ⟨⟨c!"example.com", c!"me", []⟩, 16, ⟨true, false, false, false⟩, []⟩)).mp (by decide +kernel)
  exact utf8_injective hm ▸ h

example : SiteRecordText ⟨c!"example.com", none⟩ (c!"{\"alias\":null,\"site\":\"example.com\"}") := by
  obtain ⟨m, hm, h⟩ := (C75_site (utf8 (c!"{\"alias\":null,\"site\":\"example.com\"}")) _).mp (by rfl)
  exact utf8_injective hm ▸ h

-- An unknown member in the record of a site is refused.
example (x : Site) : ¬ SiteRecordText x (c!"{\"site\":\"a\",\"b\":1}") := by
  intro h
  have := (C75_site (utf8 (c!"{\"site\":\"a\",\"b\":1}")) x).mpr ⟨_, rfl, h⟩
  exact absurd this nofun

end Pfp.Props
