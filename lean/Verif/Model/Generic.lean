import Verif.Model.Passwords

/-!
# The library over any storage access (`pfp/src/storage_io/mod.rs`, `memory.rs`)

`Storage<IO>` and `Passwords<IO>` are generic in the type behind the trait `StorageIO`.  `Model/Storage.lean` and
`Model/Passwords.lean` have the code for `FileIO`, which is what the application uses; here is the same code for any type.  That
it is the same is proved (C89).
-/

namespace Pfp

/-- Models the trait `StorageIO` (`storage_io/mod.rs:31-49`) for a type whose values, together with the world behind them, are
`σ`.  `gen` is not in the trait: it is `rand::thread_rng().gen()`. -/
structure StorageIO (σ : Type) where
  /-- `contains_key` -/
  containsKey : σ → Str → Bool
  /-- `get` -/
  get : σ → Str → Res Str
  /-- `set` -/
  set : Str → Str → M σ Unit
  /-- `remove` -/
  remove : Str → M σ Unit
  /-- `clear` -/
  clear : M σ Unit
  /-- `keys` -/
  keys : σ → List Str
  /-- `flush` -/
  flush : M σ Unit
  /-- The random number generator. -/
  gen : Nat → M σ Bytes

/-- Models `impl StorageIO for FileIO` (`file.rs:52-87`). -/
def FileIO.io (E : Env) : StorageIO World where
  containsKey := FileIO.containsKey
  get := FileIO.get
  set := FileIO.set
  remove := FileIO.remove
  clear := FileIO.clear
  keys := FileIO.keys E
  flush := FileIO.flush E
  gen := FileIO.gen E

/-- Models `memory.rs:12-15` (`struct MemoryIO`), with the number of modifications and of random bytes as in `World`. -/
structure Memory where
  /-- `file_data`, which is also what `data()` (`memory.rs:28-30`) returns. -/
  fileData : Data
  /-- `data` -/
  data : Data
  epoch : Nat
  rpos : Nat

namespace MemoryIO

/-- Models `memory.rs:20-25` (`new`). -/
def new (data : Data) (epoch rpos : Nat) : Memory := { fileData := data, data, epoch, rpos }

/-- Models `memory.rs:34-36` (`contains_key`). -/
def containsKey (m : Memory) (k : Str) : Bool := m.data.contains k

/-- Models `memory.rs:38-40` (`get`). -/
def get (m : Memory) (k : Str) : Res Str := okOr (m.data.get? k) .keyMissing

/-- Models `memory.rs:42-44` (`set`). -/
def set (k v : Str) : M Memory Unit :=
  M.modify fun m => { m with data := m.data.insert k v, epoch := m.epoch + 1 }

/-- Models `memory.rs:46-48` (`remove`). -/
def remove (k : Str) : M Memory Unit := fun m =>
  if m.data.contains k then (.ok (), { m with data := m.data.erase k, epoch := m.epoch + 1 })
  else (.err .keyMissing, m)

/-- Models `memory.rs:50-52` (`keys`). -/
def keys (E : Env) (m : Memory) : List Str := (E.order m.epoch m.data).map (·.1)

/-- Models `memory.rs:54-56` (`clear`). -/
def clear : M Memory Unit := M.modify fun m => { m with data := [], epoch := m.epoch + 1 }

/-- Models `memory.rs:58-61` (`flush`). -/
def flush : M Memory Unit := M.modify fun m => { m with fileData := m.data }

/-- Models `rng.gen::<[u8; n]>()`. -/
def gen (E : Env) (n : Nat) : M Memory Bytes := fun m =>
  (.ok (FileIO.randBytes E m.rpos n), { m with rpos := m.rpos + n })

/-- Models `impl StorageIO for MemoryIO` (`memory.rs:33-62`). -/
def io (E : Env) : StorageIO Memory where
  containsKey := containsKey
  get := get
  set := set
  remove := remove
  clear := clear
  keys := keys E
  flush := flush
  gen := gen E

end MemoryIO

/-! ## `pfp/src/storage.rs` -/

namespace Generic.Storage
open Pfp.Storage (SALT_KEY HMAC_SECRET_KEY siteKey sitePrefix passwordKey normalizeSite isSiteKey)

variable {σ : Type} (I : StorageIO σ)

/-- Models `storage.rs:45-47` (`initialized`). -/
def initialized (w : σ) : Bool :=
  I.containsKey w SALT_KEY && I.containsKey w HMAC_SECRET_KEY

/-- Models `storage.rs:49-51` (`contains`). -/
def contains (w : σ) (key : Str) : Bool := I.containsKey w key

/-- Models `storage.rs:53-60` (`get`), with the deserialization of the requested type as argument. -/
def get {α : Type} (E : Env) (w : σ) (fromJson : Json → Option α) (key : Str) (encryptionKey : Bytes) :
    Res α := do
  let value ← I.get w key
  let decrypted ← Crypto.decryptData E.prims value encryptionKey
  okOr (Serde.fromSlice fromJson decrypted) .invalidJson

/-- Models `crypto::encrypt_data` (`crypto.rs:107-120`) drawing its nonce. -/
def encrypt (E : Env) (value : Bytes) (encryptionKey : Bytes) : M σ Str := do
  let nonce ← I.gen 12
  M.lift (Crypto.encryptData E.prims nonce value encryptionKey)

/-- Models `storage.rs:62-73` (`set`), with the serialized value as argument. -/
def set (E : Env) (key : Str) (value : Json) (encryptionKey : Bytes) : M σ Unit := do
  let encrypted ← encrypt I E (Serde.toVec value) encryptionKey
  I.set key encrypted

/-- Models `storage.rs:75-77` (`remove`). -/
def remove (key : Str) : M σ Unit := I.remove key

/-- Models `storage.rs:79-85` (`get_salt`). -/
def getSalt (w : σ) : Res Bytes := do
  let encoded ← (I.get w SALT_KEY).mapErr .storageNotInitialized
  okOr (Base64.decode encoded) .invalidBase64

/-- Models `storage.rs:87-89` (`set_salt`). -/
def setSalt (salt : Bytes) : M σ Unit := I.set SALT_KEY (Base64.encode salt)

/-- Models `storage.rs:91-105` (`get_hmac_secret`). -/
def getHmacSecret (E : Env) (w : σ) (encryptionKey : Bytes) : Res Bytes := do
  let ciphertext ← (I.get w HMAC_SECRET_KEY).mapErr .storageNotInitialized
  let decrypted ← Crypto.decryptData E.prims ciphertext encryptionKey
  let hmacSecret ← okOr (Serde.fromSlice Serde.asStr decrypted) .invalidJson
  okOr (Base64.decode hmacSecret) .invalidBase64

/-- Models `storage.rs:107-119` (`set_hmac_secret`). -/
def setHmacSecret (E : Env) (hmacSecret encryptionKey : Bytes) : M σ Unit := do
  let encrypted ← encrypt I E (Serde.toVec (.str (Base64.encode hmacSecret))) encryptionKey
  I.set HMAC_SECRET_KEY encrypted

/-- Models `storage.rs:29-39` (`clear`). -/
def clear (E : Env) (salt hmacSecret encryptionKey : Bytes) : M σ Unit := do
  I.clear
  setSalt I salt
  setHmacSecret I E hmacSecret encryptionKey

/-- Models `storage.rs:41-43` (`flush`). -/
def flush : M σ Unit := I.flush

/-- Models `storage.rs:189-197` (`get_site`). -/
def getSite (E : Env) (w : σ) (site : Str) (hmacSecret encryptionKey : Bytes) : Res Site :=
  get I E w Serde.siteFromJson (siteKey E site hmacSecret) encryptionKey

/-- Models `storage.rs:146-158` (`get_alias`). -/
def getAlias (E : Env) (w : σ) (site : Str) (hmacSecret encryptionKey : Bytes) : Res Str := do
  let site ← (getSite I E w site hmacSecret encryptionKey).mapErr .noSuchAlias
  okOr site.alias .noSuchAlias

/-- Models `storage.rs:164-173` (`resolve_site`). -/
def resolveSite (E : Env) (w : σ) (site : Str) (hmacSecret encryptionKey : Bytes) : Res Str :=
  let normalized := normalizeSite site
  (getAlias I E w normalized hmacSecret encryptionKey).unwrapOr normalized

/-- Models `storage.rs:175-187` (`ensure_site_data`). -/
def ensureSiteData (E : Env) (site : Str) (hmacSecret encryptionKey : Bytes) : M σ Unit := do
  let key := siteKey E site hmacSecret
  let w ← M.get
  match get I E w Serde.siteFromJson key encryptionKey with
  | .err _ => set I E key (Serde.siteToJson { name := site, alias := none }) encryptionKey
  | .ok _ => pure ()
  | .panic => M.lift .panic

/-- Models `storage.rs:199-212` (`set_alias`). -/
def setAlias (E : Env) (site alias : Str) (hmacSecret encryptionKey : Bytes) : M σ Unit :=
  if site = alias then M.lift (.err .aliasToSelf)
  else set I E (siteKey E site hmacSecret) (Serde.siteToJson { name := site, alias := some alias }) encryptionKey

/-- Models `storage.rs:214-227` (`remove_alias`). -/
def removeAlias (E : Env) (site : Str) (hmacSecret encryptionKey : Bytes) : M σ Unit := do
  let key := siteKey E site hmacSecret
  let w ← M.get
  let site ← M.lift ((get I E w Serde.siteFromJson key encryptionKey).mapErr .noSuchAlias)
  if site.alias.isNone then M.lift (.err .noSuchAlias) else remove I key

/-- Models `storage.rs:229-232` (`remove_site`). -/
def removeSite (E : Env) (site : Str) (hmacSecret : Bytes) : M σ Unit := remove I (siteKey E site hmacSecret)

/-- Models `storage.rs:234-237` (`has_password`). -/
def hasPassword (E : Env) (w : σ) (id : PasswordId) (hmacSecret : Bytes) : Bool :=
  contains I w (passwordKey E id hmacSecret)

/-- Models `storage.rs:269-277` (`set_password`). -/
def setPassword (E : Env) (password : Password) (hmacSecret encryptionKey : Bytes) : M σ Unit :=
  set I E (passwordKey E password.id hmacSecret) (Serde.passwordToJson password) encryptionKey

/-- Models `storage.rs:239-247` (`set_generated`). -/
def setGenerated (E : Env) (password : GeneratedPassword) (hmacSecret encryptionKey : Bytes) : M σ Unit :=
  set I E (passwordKey E password.id hmacSecret) (Serde.passwordToJson (.generated password)) encryptionKey

/-- Models `storage.rs:249-257` (`set_stored`). -/
def setStored (E : Env) (password : StoredPassword) (hmacSecret encryptionKey : Bytes) : M σ Unit :=
  set I E (passwordKey E password.id hmacSecret) (Serde.passwordToJson (.stored password)) encryptionKey

/-- Models `storage.rs:259-267` (`get_password`). -/
def getPassword (E : Env) (w : σ) (id : PasswordId) (hmacSecret encryptionKey : Bytes) : Res Password :=
  get I E w Serde.passwordFromJson (passwordKey E id hmacSecret) encryptionKey

/-- Models `storage.rs:279-286` (`remove_password`). -/
def removePassword (E : Env) (id : PasswordId) (hmacSecret : Bytes) : M σ Unit :=
  remove I (passwordKey E id hmacSecret)

/-- Models a `filter_map` iterator over the keys that is consumed completely: for the selected keys, the values
that can be read; unreadable ones are skipped (`.ok()`), a panic ends it. -/
def collect {α : Type} (E : Env) (w : σ) (fromJson : Json → Option α) (select : Str → Bool)
    (encryptionKey : Bytes) : List Str → Res (List α)
  | [] => .ok []
  | key :: rest =>
    if select key then do
      let v ← (get I E w fromJson key encryptionKey).toOption?
      let tail ← collect E w fromJson select encryptionKey rest
      .ok (v.toList ++ tail)
    else collect E w fromJson select encryptionKey rest

/-- Models the same iterator of which only the first item is requested (`.next()`). -/
def first {α : Type} (E : Env) (w : σ) (fromJson : Json → Option α) (select : Str → Bool)
    (encryptionKey : Bytes) : List Str → Res (Option α)
  | [] => .ok none
  | key :: rest =>
    if select key then do
      match ← (get I E w fromJson key encryptionKey).toOption? with
      | some v => .ok (some v)
      | none => first E w fromJson select encryptionKey rest
    else first E w fromJson select encryptionKey rest

/-- Models `storage.rs:288-302` (`list_passwords`), consumed completely. -/
def listPasswords (E : Env) (w : σ) (site : Str) (hmacSecret encryptionKey : Bytes) : Res (List Password) :=
  collect I E w Serde.passwordFromJson (sitePrefix E site hmacSecret).isPrefixOf encryptionKey (I.keys w)

/-- Models `storage.rs:288-302` (`list_passwords`) followed by `.next()`. -/
def firstPassword (E : Env) (w : σ) (site : Str) (hmacSecret encryptionKey : Bytes) :
    Res (Option Password) :=
  first I E w Serde.passwordFromJson (sitePrefix E site hmacSecret).isPrefixOf encryptionKey (I.keys w)

/-- Models `storage.rs:304-315` (`list_sites`), consumed completely. -/
def listSites (E : Env) (w : σ) (encryptionKey : Bytes) : Res (List Site) :=
  collect I E w Serde.siteFromJson isSiteKey encryptionKey (I.keys w)

end Generic.Storage

/-! ## `pfp/src/passwords.rs` -/

namespace Generic.Passwords
open Pfp.Storage (normalizeSite)

variable {σ : Type} (I : StorageIO σ)

/-- Run a computation on the storage. -/
def onWorld {α : Type} (m : M σ α) : M (PStateOf σ) α := fun s =>
  match m s.world with
  | (r, w) => (r, { s with world := w })

/-- Models `passwords.rs:85-87` (`initialized`). -/
def initialized (s : PStateOf σ) : Bool := Storage.initialized I s.world

/-- Models `passwords.rs:106-118` (`reset`). -/
def reset (E : Env) (primaryPassword : Str) : M (PStateOf σ) Unit := do
  let salt ← onWorld (I.gen 16)
  let key ← M.lift (getEncryptionKey E.prims primaryPassword salt)
  let hmacSecret ← onWorld (I.gen 32)
  onWorld (Storage.clear I E salt hmacSecret key)
  onWorld (Storage.flush I)
  M.modify fun s =>
    { s with key := some key, hmacSecret := some hmacSecret, primaryPassword := some primaryPassword }

/-- Models `passwords.rs:127-136` (`unlock`). -/
def unlock (E : Env) (primaryPassword : Str) : M (PStateOf σ) Unit := do
  let s ← M.get
  let salt ← M.lift (Storage.getSalt I s.world)
  let key ← M.lift (getEncryptionKey E.prims primaryPassword salt)
  let hmacSecret ← M.lift (Storage.getHmacSecret I E s.world key)
  M.modify fun s =>
    { s with key := some key, hmacSecret := some hmacSecret, primaryPassword := some primaryPassword }

/-- The recurring lines `let hmac_secret = ...ok_or(Error::PasswordsLocked)?; let key = ...` (e.g.
`passwords.rs:154-155`). -/
def secrets (s : PStateOf σ) : Res (Bytes × Bytes) := do
  let hmacSecret ← okOr s.hmacSecret .passwordsLocked
  let key ← okOr s.key .passwordsLocked
  .ok (hmacSecret, key)

/-- Models `passwords.rs:153-159` (`get_alias`). -/
def getAlias (E : Env) (s : PStateOf σ) (site : Str) : Res Str := do
  let (hmacSecret, key) ← secrets s
  Storage.getAlias I E s.world (normalizeSite site) hmacSecret key

/-- Models `passwords.rs:167-185` (`set_alias`). -/
def setAlias (E : Env) (site alias : Str) : M (PStateOf σ) Unit := do
  let s ← M.get
  let (hmacSecret, key) ← M.lift (secrets s)
  let siteNormalized := normalizeSite site
  let aliasResolved ← M.lift (Storage.resolveSite I E s.world alias hmacSecret key)
  let first ← M.lift (Storage.firstPassword I E s.world siteNormalized hmacSecret key)
  if first.isSome then M.lift (.err .siteHasPasswords)
  else do
    onWorld (Storage.setAlias I E siteNormalized aliasResolved hmacSecret key)
    onWorld (Storage.flush I)

/-- Models `passwords.rs:192-200` (`remove_alias`). -/
def removeAlias (E : Env) (site : Str) : M (PStateOf σ) Unit := do
  let s ← M.get
  let (hmacSecret, key) ← M.lift (secrets s)
  onWorld (Storage.removeAlias I E (normalizeSite site) hmacSecret key)
  onWorld (Storage.flush I)

/-- Models the loop in `passwords.rs:213-215`. -/
def removeSitesLoop (E : Env) (hmacSecret : Bytes) : List Str → M σ Unit
  | [] => pure ()
  | site :: rest => do
    Storage.removeSite I E site hmacSecret
    removeSitesLoop E hmacSecret rest

/-- Models `passwords.rs:207-217` (`remove_sites`). -/
def removeSites (E : Env) (sites : List Str) : M (PStateOf σ) Unit :=
  if sites = [] then pure ()
  else do
    let s ← M.get
    let hmacSecret ← M.lift (okOr s.hmacSecret .passwordsLocked)
    onWorld (removeSitesLoop I E hmacSecret sites)
    onWorld (Storage.flush I)

/-- Models `passwords.rs:231-252` (`set_generated`). -/
def setGenerated (E : Env) (site name revision : Str) (length : UInt64) (charset : CharacterSet) :
    M (PStateOf σ) Unit := do
  let s ← M.get
  let (hmacSecret, key) ← M.lift (secrets s)
  let siteResolved ← M.lift (Storage.resolveSite I E s.world site hmacSecret key)
  onWorld (Storage.ensureSiteData I E siteResolved hmacSecret key)
  onWorld (Storage.setGenerated I E (.new siteResolved name revision length charset) hmacSecret key)
  onWorld (Storage.flush I)

/-- Models `passwords.rs:266-286` (`set_stored`). -/
def setStored (E : Env) (site name revision password : Str) : M (PStateOf σ) Unit := do
  let s ← M.get
  let (hmacSecret, key) ← M.lift (secrets s)
  let siteResolved ← M.lift (Storage.resolveSite I E s.world site hmacSecret key)
  onWorld (Storage.ensureSiteData I E siteResolved hmacSecret key)
  onWorld (Storage.setStored I E (.new siteResolved name revision password) hmacSecret key)
  onWorld (Storage.flush I)

/-- Models `passwords.rs:293-302` (`has`). -/
def has (E : Env) (s : PStateOf σ) (site name revision : Str) : Res Bool := do
  let (hmacSecret, key) ← secrets s
  let siteResolved ← Storage.resolveSite I E s.world site hmacSecret key
  .ok (Storage.hasPassword I E s.world (.new siteResolved name revision) hmacSecret)

/-- Models `passwords.rs:312-336` (`get`). -/
def get (E : Env) (s : PStateOf σ) (site name revision : Str) : Res Str := do
  let (hmacSecret, key) ← secrets s
  let primaryPassword ← okOr s.primaryPassword .passwordsLocked
  let siteResolved ← Storage.resolveSite I E s.world site hmacSecret key
  let password ← Storage.getPassword I E s.world (.new siteResolved name revision) hmacSecret key
  match password with
  | .generated p => Crypto.derivePassword E.prims primaryPassword p.salt p.length.toNat p.charset
  | .stored p => .ok p.password

/-- Models `passwords.rs:340-344` (`get_recovery_code`); it draws a nonce. -/
def getRecoveryCode (E : Env) (password : StoredPassword) : M (PStateOf σ) Bytes := do
  let s ← M.get
  let salt ← M.lift (Storage.getSalt I s.world)
  let key ← M.lift (okOr s.key .passwordsLocked)
  let nonce ← onWorld (I.gen 12)
  M.lift (RecoveryCodes.generate E.prims E.overflowChecks nonce password.password salt key)

/-- Models `passwords.rs:363-374` (`get_notes`). -/
def getNotes (E : Env) (s : PStateOf σ) (site name revision : Str) : Res Str := do
  let (hmacSecret, key) ← secrets s
  let siteResolved ← Storage.resolveSite I E s.world site hmacSecret key
  let password ← Storage.getPassword I E s.world (.new siteResolved name revision) hmacSecret key
  .ok password.notes

/-- Models `passwords.rs:380-399` (`set_notes`). -/
def setNotes (E : Env) (site name revision notes : Str) : M (PStateOf σ) Unit := do
  let s ← M.get
  let (hmacSecret, key) ← M.lift (secrets s)
  let siteResolved ← M.lift (Storage.resolveSite I E s.world site hmacSecret key)
  let password ← M.lift (Storage.getPassword I E s.world (.new siteResolved name revision) hmacSecret key)
  onWorld (Storage.setPassword I E (password.setNotes notes) hmacSecret key)
  onWorld (Storage.flush I)

/-- Models `passwords.rs:409-419` (`remove`). -/
def remove (E : Env) (site name revision : Str) : M (PStateOf σ) Unit := do
  let s ← M.get
  let (hmacSecret, key) ← M.lift (secrets s)
  let siteResolved ← M.lift (Storage.resolveSite I E s.world site hmacSecret key)
  onWorld (Storage.removePassword I E (.new siteResolved name revision) hmacSecret)
  onWorld (Storage.flush I)

/-- Models `passwords.rs:425-437` (`list`), consumed completely. -/
def list (E : Env) (s : PStateOf σ) (site name : Str) : Res (List Password) := do
  let key ← Pfp.Passwords.orPanic s.key
  let hmacSecret ← Pfp.Passwords.orPanic s.hmacSecret
  let siteResolved ← Storage.resolveSite I E s.world site hmacSecret key
  let all ← Storage.listPasswords I E s.world siteResolved hmacSecret key
  .ok (all.filter fun p => E.wild name p.id.name)

/-- Models `passwords.rs:445-457` (`list_sites`), consumed completely. -/
def listSites (E : Env) (s : PStateOf σ) (site : Str) : Res (List Site) := do
  let key ← Pfp.Passwords.orPanic s.key
  let all ← Storage.listSites I E s.world key
  .ok (all.filter fun x =>
    (match x.alias with
      | some alias => E.wild site alias
      | none => false) || E.wild site x.name)

end Generic.Passwords
end Pfp
