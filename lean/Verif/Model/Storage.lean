import Verif.Model.StorageIO

/-!
# `pfp/src/storage.rs`

Methods taking `&self` are functions of the `World`, methods taking `&mut self` are computations in `M World`.
-/

namespace Pfp.Storage

/-- Models `storage.rs:15`. -/
def SALT_KEY : Str := c!"salt"
/-- Models `storage.rs:16`. -/
def HMAC_SECRET_KEY : Str := c!"hmac-secret"
/-- Models `storage.rs:17`. -/
def STORAGE_PREFIX : Str := c!"site:"

/-- Models `storage.rs:45-47` (`initialized`). -/
def initialized (w : World) : Bool :=
  FileIO.containsKey w SALT_KEY && FileIO.containsKey w HMAC_SECRET_KEY

/-- Models `storage.rs:49-51` (`contains`). -/
def contains (w : World) (key : Str) : Bool := FileIO.containsKey w key

/-- Models `storage.rs:53-60` (`get`), with the deserialization of the requested type as argument. -/
def get {α : Type} (E : Env) (w : World) (fromJson : Json → Option α) (key : Str) (encryptionKey : Bytes) :
    Res α := do
  let value ← FileIO.get w key
  let decrypted ← Crypto.decryptData E.prims value encryptionKey
  okOr (Serde.fromSlice fromJson decrypted) .invalidJson

/-- Models `crypto::encrypt_data` (`crypto.rs:107-120`) drawing its nonce. -/
def encrypt (E : Env) (value : Bytes) (encryptionKey : Bytes) : M World Str := do
  let nonce ← FileIO.gen E 12
  M.lift (Crypto.encryptData E.prims nonce value encryptionKey)

/-- Models `storage.rs:62-73` (`set`), with the serialized value as argument. -/
def set (E : Env) (key : Str) (value : Json) (encryptionKey : Bytes) : M World Unit := do
  let encrypted ← encrypt E (Serde.toVec value) encryptionKey
  FileIO.set key encrypted

/-- Models `storage.rs:75-77` (`remove`). -/
def remove (key : Str) : M World Unit := FileIO.remove key

/-- Models `storage.rs:79-85` (`get_salt`). -/
def getSalt (w : World) : Res Bytes := do
  let encoded ← (FileIO.get w SALT_KEY).mapErr .storageNotInitialized
  okOr (Base64.decode encoded) .invalidBase64

/-- Models `storage.rs:87-89` (`set_salt`). -/
def setSalt (salt : Bytes) : M World Unit := FileIO.set SALT_KEY (Base64.encode salt)

/-- Models `storage.rs:91-105` (`get_hmac_secret`). -/
def getHmacSecret (E : Env) (w : World) (encryptionKey : Bytes) : Res Bytes := do
  let ciphertext ← (FileIO.get w HMAC_SECRET_KEY).mapErr .storageNotInitialized
  let decrypted ← Crypto.decryptData E.prims ciphertext encryptionKey
  let hmacSecret ← okOr (Serde.fromSlice Serde.asStr decrypted) .invalidJson
  okOr (Base64.decode hmacSecret) .invalidBase64

/-- Models `storage.rs:107-119` (`set_hmac_secret`). -/
def setHmacSecret (E : Env) (hmacSecret encryptionKey : Bytes) : M World Unit := do
  let encrypted ← encrypt E (Serde.toVec (.str (Base64.encode hmacSecret))) encryptionKey
  FileIO.set HMAC_SECRET_KEY encrypted

/-- Models `storage.rs:29-39` (`clear`). -/
def clear (E : Env) (salt hmacSecret encryptionKey : Bytes) : M World Unit := do
  FileIO.clear
  setSalt salt
  setHmacSecret E hmacSecret encryptionKey

/-- Models `storage.rs:41-43` (`flush`). -/
def flush (E : Env) : M World Unit := FileIO.flush E

/-- Models `storage.rs:121-125` (`get_site_key`). -/
def siteKey (E : Env) (site : Str) (hmacSecret : Bytes) : Str :=
  STORAGE_PREFIX ++ Crypto.getDigest E.prims hmacSecret site

/-- Models `storage.rs:127-131` (`get_site_prefix`). -/
def sitePrefix (E : Env) (site : Str) (hmacSecret : Bytes) : Str := siteKey E site hmacSecret ++ [':']

/-- Models `storage.rs:133-144` (`get_password_key`). -/
def passwordKey (E : Env) (id : PasswordId) (hmacSecret : Bytes) : Str :=
  let input : Str := id.site ++ Char.ofNat 0 :: (id.name ++ Char.ofNat 0 :: id.revision)
  sitePrefix E id.site hmacSecret ++ Crypto.getDigest E.prims hmacSecret input

/-- Models `storage.rs:189-197` (`get_site`). -/
def getSite (E : Env) (w : World) (site : Str) (hmacSecret encryptionKey : Bytes) : Res Site :=
  get E w Serde.siteFromJson (siteKey E site hmacSecret) encryptionKey

/-- Models `storage.rs:146-158` (`get_alias`). -/
def getAlias (E : Env) (w : World) (site : Str) (hmacSecret encryptionKey : Bytes) : Res Str := do
  let site ← (getSite E w site hmacSecret encryptionKey).mapErr .noSuchAlias
  okOr site.alias .noSuchAlias

/-- Models `str::strip_prefix`. -/
def stripPrefix (pre s : Str) : Option Str :=
  if pre.isPrefixOf s then some (s.drop pre.length) else none

/-- Models `storage.rs:160-162` (`normalize_site`). -/
def normalizeSite (site : Str) : Str := (stripPrefix (c!"www.") site).getD site

/-- Models `storage.rs:164-173` (`resolve_site`). -/
def resolveSite (E : Env) (w : World) (site : Str) (hmacSecret encryptionKey : Bytes) : Res Str :=
  let normalized := normalizeSite site
  (getAlias E w normalized hmacSecret encryptionKey).unwrapOr normalized

/-- Models `storage.rs:175-187` (`ensure_site_data`). -/
def ensureSiteData (E : Env) (site : Str) (hmacSecret encryptionKey : Bytes) : M World Unit := do
  let key := siteKey E site hmacSecret
  let w ← M.get
  match get E w Serde.siteFromJson key encryptionKey with
  | .err _ => set E key (Serde.siteToJson { name := site, alias := none }) encryptionKey
  | .ok _ => pure ()
  | .panic => M.lift .panic

/-- Models `storage.rs:199-212` (`set_alias`). -/
def setAlias (E : Env) (site alias : Str) (hmacSecret encryptionKey : Bytes) : M World Unit :=
  if site = alias then M.lift (.err .aliasToSelf)
  else set E (siteKey E site hmacSecret) (Serde.siteToJson { name := site, alias := some alias }) encryptionKey

/-- Models `storage.rs:214-227` (`remove_alias`). -/
def removeAlias (E : Env) (site : Str) (hmacSecret encryptionKey : Bytes) : M World Unit := do
  let key := siteKey E site hmacSecret
  let w ← M.get
  let site ← M.lift ((get E w Serde.siteFromJson key encryptionKey).mapErr .noSuchAlias)
  if site.alias.isNone then M.lift (.err .noSuchAlias) else remove key

/-- Models `storage.rs:229-232` (`remove_site`). -/
def removeSite (E : Env) (site : Str) (hmacSecret : Bytes) : M World Unit := remove (siteKey E site hmacSecret)

/-- Models `storage.rs:234-237` (`has_password`). -/
def hasPassword (E : Env) (w : World) (id : PasswordId) (hmacSecret : Bytes) : Bool :=
  contains w (passwordKey E id hmacSecret)

/-- Models `storage.rs:269-277` (`set_password`). -/
def setPassword (E : Env) (password : Password) (hmacSecret encryptionKey : Bytes) : M World Unit :=
  set E (passwordKey E password.id hmacSecret) (Serde.passwordToJson password) encryptionKey

/-- Models `storage.rs:239-247` (`set_generated`). -/
def setGenerated (E : Env) (password : GeneratedPassword) (hmacSecret encryptionKey : Bytes) : M World Unit :=
  set E (passwordKey E password.id hmacSecret) (Serde.passwordToJson (.generated password)) encryptionKey

/-- Models `storage.rs:249-257` (`set_stored`). -/
def setStored (E : Env) (password : StoredPassword) (hmacSecret encryptionKey : Bytes) : M World Unit :=
  set E (passwordKey E password.id hmacSecret) (Serde.passwordToJson (.stored password)) encryptionKey

/-- Models `storage.rs:259-267` (`get_password`). -/
def getPassword (E : Env) (w : World) (id : PasswordId) (hmacSecret encryptionKey : Bytes) : Res Password :=
  get E w Serde.passwordFromJson (passwordKey E id hmacSecret) encryptionKey

/-- Models `storage.rs:279-286` (`remove_password`). -/
def removePassword (E : Env) (id : PasswordId) (hmacSecret : Bytes) : M World Unit :=
  remove (passwordKey E id hmacSecret)

/-- Models a `filter_map` iterator over the keys that is consumed completely: for the selected keys, the values
that can be read; unreadable ones are skipped (`.ok()`), a panic ends it. -/
def collect {α : Type} (E : Env) (w : World) (fromJson : Json → Option α) (select : Str → Bool)
    (encryptionKey : Bytes) : List Str → Res (List α)
  | [] => .ok []
  | key :: rest =>
    if select key then do
      let v ← (get E w fromJson key encryptionKey).toOption?
      let tail ← collect E w fromJson select encryptionKey rest
      .ok (v.toList ++ tail)
    else collect E w fromJson select encryptionKey rest

/-- Models the same iterator of which only the first item is requested (`.next()`). -/
def first {α : Type} (E : Env) (w : World) (fromJson : Json → Option α) (select : Str → Bool)
    (encryptionKey : Bytes) : List Str → Res (Option α)
  | [] => .ok none
  | key :: rest =>
    if select key then do
      match ← (get E w fromJson key encryptionKey).toOption? with
      | some v => .ok (some v)
      | none => first E w fromJson select encryptionKey rest
    else first E w fromJson select encryptionKey rest

/-- Models `storage.rs:288-302` (`list_passwords`), consumed completely. -/
def listPasswords (E : Env) (w : World) (site : Str) (hmacSecret encryptionKey : Bytes) : Res (List Password) :=
  collect E w Serde.passwordFromJson (sitePrefix E site hmacSecret).isPrefixOf encryptionKey (FileIO.keys E w)

/-- Models `storage.rs:288-302` (`list_passwords`) followed by `.next()`. -/
def firstPassword (E : Env) (w : World) (site : Str) (hmacSecret encryptionKey : Bytes) :
    Res (Option Password) :=
  first E w Serde.passwordFromJson (sitePrefix E site hmacSecret).isPrefixOf encryptionKey (FileIO.keys E w)

/-- Models the condition in `storage.rs:309`. -/
def isSiteKey (key : Str) : Bool :=
  STORAGE_PREFIX.isPrefixOf key && !(key.drop STORAGE_PREFIX.length).contains ':'

/-- Models `storage.rs:304-315` (`list_sites`), consumed completely. -/
def listSites (E : Env) (w : World) (encryptionKey : Bytes) : Res (List Site) :=
  collect E w Serde.siteFromJson isSiteKey encryptionKey (FileIO.keys E w)

end Pfp.Storage
