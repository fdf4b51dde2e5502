import Verif.Spec.Base64
import Verif.Spec.Contents
import Verif.Spec.Recovery
import Verif.Spec.Generated

/-!
# Specification: the formats shared with other implementations

The storage file, recovery codes and generated passwords have to agree with the ones of the browser extension, hence
not only to be consistent in themselves.  They are spelled out here from the bits upwards, without reference to the
encoders of the model.
-/

namespace Pfp.Spec

/-! ## Base32 as used in recovery codes -/

/-- `code` is the Base32 form of `b`, without padding. -/
def IsBase32 (b code : Bytes) : Prop :=
  ∃ values : List Nat, (∀ v ∈ values, v < 32) ∧ values.flatMap (bitsOf 5) = bits b ∧
    code = values.map fun v => codeAlphabet.getD v 0

/-! ## JSON texts (RFC 8259) -/

/-- A character inside a JSON string. -/
def jsonChar (c : Char) : Str :=
  match c with
  | '"' => ['\\', '"']
  | '\\' => ['\\', '\\']
  | '\x08' => ['\\', 'b']
  | '\x0c' => ['\\', 'f']
  | '\n' => ['\\', 'n']
  | '\r' => ['\\', 'r']
  | '\t' => ['\\', 't']
  | c => if c.toNat < 32 then ['\\', 'u', '0', '0', Nat.digitChar (c.toNat / 16), Nat.digitChar (c.toNat % 16)] else [c]

/-- A JSON string. -/
def quoted (s : Str) : Str := ['"'] ++ s.flatMap jsonChar ++ ['"']

/-- Texts separated by commas. -/
def commaSeparated : List Str → Str
  | [] => []
  | [s] => s
  | s :: t :: rest => s ++ [','] ++ commaSeparated (t :: rest)

/-- The text of a storage file with these entries. -/
def fileText (entries : List (Str × Str)) : Str :=
  c!"{\"application\":\"pfp\",\"format\":3,\"data\":{" ++
    commaSeparated (entries.map fun e => quoted e.1 ++ [':'] ++ quoted e.2) ++ c!"}}"

/-- The text of the record of a site. -/
def siteText (site : Str) (alias : Option Str) : Str :=
  c!"{\"site\":" ++ quoted site ++
    (match alias with
      | some target => c!",\"alias\":" ++ quoted target
      | none => []) ++ c!"}"

/-- The part of a password's record that says which password it is. -/
def idFields (i : PasswordId) : Str :=
  c!"\"site\":" ++ quoted i.site ++ c!",\"name\":" ++ quoted i.name ++ c!",\"revision\":" ++ quoted i.revision

/-- The part of a password's record for its notes, if any. -/
def notesField (notes : Str) : Str := if notes = [] then [] else c!",\"notes\":" ++ quoted notes

/-- A truth value. -/
def boolText (b : Bool) : Str := if b then c!"true" else c!"false"

/-- The text of the record of a password. -/
def passwordText : Password → Str
  | .generated p =>
    c!"{\"type\":\"generated2\"," ++ idFields p.id ++ c!",\"length\":" ++ (toString p.length.toNat).toList ++
      c!",\"lower\":" ++ boolText p.charset.lower ++ c!",\"upper\":" ++ boolText p.charset.upper ++
      c!",\"number\":" ++ boolText p.charset.digit ++ c!",\"symbol\":" ++ boolText p.charset.symbol ++
      notesField p.notes ++ c!"}"
  | .stored p =>
    c!"{\"type\":\"stored\"," ++ idFields p.id ++ c!",\"password\":" ++ quoted p.password ++ notesField p.notes ++ c!"}"

/-! ## Entries of the storage file -/

/-- `v` is a ciphertext of the text `m`. -/
def IsCiphertext (P : Prims) (key : Bytes) (m v : Str) : Prop :=
  ∃ (nonce : Bytes) (n c : Str), nonce.length = 12 ∧ IsBase64 nonce n ∧ IsBase64 (P.gcmEncrypt key nonce (utf8 m)) c ∧
    v = n ++ ['_'] ++ c

/-- An entry in the published format. -/
inductive Published (P : Prims) (salt key secret : Bytes) : Str → Str → Prop
  | salt {v : Str} (hv : IsBase64 salt v) : Published P salt key secret (c!"salt") v
  | secret {b v : Str} (hb : IsBase64 secret b) (hv : IsCiphertext P key (quoted b) v) :
      Published P salt key secret (c!"hmac-secret") v
  | site (site : Str) (alias : Option Str) {d v : Str} (hd : IsBase64 (P.hmac secret (utf8 site)) d)
      (hv : IsCiphertext P key (siteText site alias) v) : Published P salt key secret (c!"site:" ++ d) v
  | password (x : Password) {d e v : Str} (hd : IsBase64 (P.hmac secret (utf8 x.id.site)) d)
      (he : IsBase64 (P.hmac secret (utf8 (x.id.site ++ ['\x00'] ++ x.id.name ++ ['\x00'] ++ x.id.revision))) e)
      (hv : IsCiphertext P key (passwordText x) v) : Published P salt key secret (c!"site:" ++ d ++ [':'] ++ e) v

/-- The entry of a site. -/
def SiteEntry (P : Prims) (key secret : Bytes) (x : Site) (k v : Str) : Prop :=
  ∃ d, IsBase64 (P.hmac secret (utf8 x.name)) d ∧ k = c!"site:" ++ d ∧ IsCiphertext P key (siteText x.name x.alias) v

/-- The entry of a password. -/
def PasswordEntry (P : Prims) (key secret : Bytes) (x : Password) (k v : Str) : Prop :=
  ∃ d e, IsBase64 (P.hmac secret (utf8 x.id.site)) d ∧
    IsBase64 (P.hmac secret (utf8 (x.id.site ++ ['\x00'] ++ x.id.name ++ ['\x00'] ++ x.id.revision))) e ∧
    k = c!"site:" ++ d ++ [':'] ++ e ∧ IsCiphertext P key (passwordText x) v

/-! ## Recovery codes -/

/-- The checksum of a line: Pearson hashing with the table of the numbers (i + 379) · 467 modulo 256, applied to the
line number and the bytes of the line. -/
def lineChecksum (line : Nat) (block : Bytes) : Nat :=
  block.foldl (fun h b => ((h ^^^ b.toNat) + 379) * 467 % 256) ((line % 256 + 379) * 467 % 256)

/-- The number of a line among `n` lines: counted from 0, for the last line counted down from 255. -/
def lineIndex (n i : Nat) : Nat := if i + 1 = n then 255 - i % 256 else i

/-- The lines of a code: blocks of 14 bytes with their checksums. -/
def IsLines (blocks : List Bytes) (lines : List Bytes) : Prop :=
  lines.length = blocks.length ∧ ∀ i block, blocks[i]? = some block →
    lines[i]? = some (block ++ [UInt8.ofNat (lineChecksum (lineIndex blocks.length i) block)])

/-- `code` is a recovery code for the password: version 1, salt, nonce and ciphertext of the password, which is filled up
with zero bytes so that there are whole blocks of 14 bytes. -/
def IsCode (P : Prims) (key salt nonce : Bytes) (password : Str) (code : Bytes) : Prop :=
  ∃ (zeros : Nat) (blocks lines : List Bytes) (e : Bytes), zeros < 14 ∧ (∀ b ∈ blocks, b.length = 14) ∧
    blocks.flatten = 1 :: (salt ++ nonce ++ P.gcmEncrypt key nonce (utf8 password ++ List.replicate zeros 0)) ∧
    IsLines blocks lines ∧ IsBase32 lines.flatten e ∧ code = layout e

/-! ## Generated passwords -/

/-- All classes, in the order that counts. -/
def classes : List CharacterType := [.lower, .upper, .digit, .symbol]

/-- The selected classes. -/
def selected (charset : CharacterSet) : List CharacterType := classes.filter charset.contains

/-- The selected classes none of whose characters occurs in the text. -/
def missing (charset : CharacterSet) (text : Str) : List CharacterType :=
  (selected charset).filter fun t => text.all fun c => decide (¬InClass t c)

/-- The characters that can follow `text` in a password with `n` characters left: any selected ones, or if there are not
enough characters left otherwise, the ones of the missing classes. -/
def candidates (charset : CharacterSet) (text : Str) (n : Nat) : Str :=
  (if (missing charset text).length < n then selected charset else missing charset text).flatMap fun t =>
    (classText t).toList

/-- The password is made from these bytes: each byte, modulo the number of candidates, chooses one of them. -/
def MadeFrom (charset : CharacterSet) (bytes : Bytes) (password : Str) : Prop :=
  password.length = bytes.length ∧ ∀ i b, bytes[i]? = some b →
    let cs := candidates charset (password.take i) (bytes.length - i)
    ∃ c, cs[b.toNat % cs.length]? = some c ∧ password[i]? = some c

/-- The bytes a password is generated from. -/
def passwordBytes (P : Prims) (primary site name revision : Str) (length : Nat) : Bytes :=
  P.scryptWith 15 8 1 (utf8 primary)
    (utf8 (site ++ ['\x00'] ++ name ++ (if revision = [] ∨ revision = c!"1" then [] else ['\x00'] ++ revision))) length

end Pfp.Spec
