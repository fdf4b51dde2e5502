import Verif.Spec.Universe

/-!
# Specification: what the storage file contains
-/

namespace Pfp.Spec

/-- `v` is an encryption of `plaintext` under the key `k`: nonce and ciphertext in Base64, separated by an
underscore. -/
def Encryption (P : Prims) (k plaintext : Bytes) (v : Str) : Prop :=
  ∃ nonce : Bytes, nonce.length = 12 ∧ v = Base64.encode nonce ++ '_' :: Base64.encode (P.gcmEncrypt k nonce plaintext)

/-- A Base64 text of these bytes; its padding may be missing. -/
def Base64Text (t : Str) (b : Bytes) : Prop := ∃ k, t ++ List.replicate k '=' = Base64.encode b

/-- The value is a ciphertext that the cipher accepts under the key `k`, with this plaintext. -/
def Decrypts (P : Prims) (k : Bytes) (v : Str) (plaintext : Bytes) : Prop :=
  ∃ n c nonce ciphertext, v = n ++ '_' :: c ∧ Base64Text n nonce ∧ nonce.length = 12 ∧ Base64Text c ciphertext ∧
    P.gcmDecrypt k nonce ciphertext = some plaintext

/-- The value has a nonce of the wrong size. -/
def BadNonce (v : Str) : Prop := ∃ n c nonce, v = n ++ '_' :: c ∧ Base64Text n nonce ∧ nonce.length ≠ 12

/-- The value is an encryption, under the key `k`, of a record that is read as `x`. -/
def ReadsAs {α : Type} (P : Prims) (k : Bytes) (fromJson : Json → Option α) (v : Str) (x : α) : Prop :=
  ∃ m, Decrypts P k v m ∧ Serde.fromSlice fromJson m = some x

/-- The digest of a text under the HMAC secret `h`, in Base64. -/
def digest (P : Prims) (h : Bytes) (text : Str) : Str := Base64.encode (P.hmac h (utf8 text))

/-- The name of the entry of a site. -/
def siteEntry (P : Prims) (h : Bytes) (site : Str) : Str := c!"site:" ++ digest P h site

/-- The name of the entry of a password. -/
def passwordEntry (P : Prims) (h : Bytes) (i : PasswordId) : Str :=
  siteEntry P h i.site ++ ':' :: digest P h (i.site ++ Char.ofNat 0 :: (i.name ++ Char.ofNat 0 :: i.revision))

/-- An entry that is safe to store: the salt, the encrypted HMAC secret, or an encrypted record stored under digests of
its identifying texts.  (The JSON text that is encrypted may be spelled in any way, as it may stem from another program.) -/
inductive Sealed (P : Prims) (k h : Bytes) : Str → Str → Prop
  | salt (salt : Bytes) : Sealed P k h (c!"salt") (Base64.encode salt)
  | secret {m v : Str} (hm : JsonText (.str (Base64.encode h)) m) (hv : Encryption P k (utf8 m) v) : Sealed P k h (c!"hmac-secret") v
  | site (x : Site) {m v : Str} (hm : SiteRecordText x m) (hv : Encryption P k (utf8 m) v) :
    Sealed P k h (c!"site:" ++ digest P h x.name) v
  | password (x : Password) {m v : Str} (hm : PasswordRecordText x m) (hv : Encryption P k (utf8 m) v) :
    Sealed P k h (c!"site:" ++ digest P h x.id.site ++ ':' :: digest P h
      (x.id.site ++ Char.ofNat 0 :: (x.id.name ++ Char.ofNat 0 :: x.id.revision))) v

/-- The value is a ciphertext whose nonce are the twelve random bytes from position `q` of the random stream. -/
def NonceAt (E : Env) (q : Nat) (v : Str) : Prop :=
  ∃ ciphertext, v = Base64.encode (FileIO.randBytes E q 12) ++ '_' :: ciphertext

/-- The entry `key`, `v` has been written between the worlds `w` and `w'`. -/
def Written (w w' : World) (key v : Str) : Prop := w'.data.get? key = some v ∧ w.data.get? key ≠ some v

/-- Everything written between two worlds has a nonce from a section of its own of the random bytes drawn between
them. -/
def Fresh (E : Env) (w w' : World) : Prop :=
  w.rpos ≤ w'.rpos ∧ ∃ q : Str → Nat,
    (∀ key v, Written w w' key v → w.rpos ≤ q key ∧ q key + 12 ≤ w'.rpos ∧ NonceAt E (q key) v) ∧
    ∀ key v key' v', Written w w' key v → Written w w' key' v' → key ≠ key' →
      q key + 12 ≤ q key' ∨ q key' + 12 ≤ q key

/-- The site appears in a listing of sites. -/
def Known (E : Env) (s : PState) (site : Str) : Prop :=
  ∃ pattern l, ask E s (.listSites pattern) = .ok (.sites l) ∧ ∃ x ∈ l, x.name = site

/-- The site does not appear in a listing of sites, though its name matches the pattern. -/
def Unknown (E : Env) (s : PState) (site : Str) : Prop :=
  ∃ pattern l, ask E s (.listSites pattern) = .ok (.sites l) ∧ E.wild pattern site = true ∧ ∀ x ∈ l, x.name ≠ site

/-- The site entry, or the site it is an alias of, matches the pattern. -/
def Matches (E : Env) (pattern : Str) (x : Site) : Prop :=
  E.wild pattern x.name = true ∨ ∃ target, x.alias = some target ∧ E.wild pattern target = true

/-- What remains after the entries of the sites `l` have been removed, as far as it can be observed. -/
structure SitesRemoved (E : Env) (U : Universe) (l : List Str) (s s' : PState) : Prop where
  /-- Exactly these are gone from the listings. -/
  listings : ∀ q, ∃ before afterwards, ask E s (.listSites q) = .ok (.sites before) ∧
    ask E s' (.listSites q) = .ok (.sites afterwards) ∧ ∀ x, x ∈ afterwards ↔ x ∈ before ∧ x.name ∉ l
  /-- The alias entries among them are no longer aliases. -/
  noAlias : ∀ a, U.site a → canonical a ∈ l → ask E s' (.getAlias a) = .err .noSuchAlias
  /-- Apart from that everything is as before. -/
  others : ∀ a, U.site a → canonical a ∉ l → ask E s' (.getAlias a) = ask E s (.getAlias a)
  passwords : ∀ a n r, U.site a → U.name n → U.revision r → (canonical a ∉ l ∨ siteMeant E s a = canonical a) →
    ask E s' (.has a n r) = ask E s (.has a n r) ∧ ask E s' (.get a n r) = ask E s (.get a n r) ∧
      ask E s' (.getNotes a n r) = ask E s (.getNotes a n r)

end Pfp.Spec
