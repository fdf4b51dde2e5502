import Verif.Model.Storage
import Verif.Model.RecoveryCodes

/-!
# `pfp/src/passwords.rs`: the `Passwords` API
-/

namespace Pfp

/-- Models `passwords.rs:59-64` (`struct Passwords`): the storage with the world behind it, and the secrets held
while unlocked. -/
structure PStateOf (σ : Type) where
  world : σ
  key : Option Bytes
  hmacSecret : Option Bytes
  primaryPassword : Option Str

/-- The type used by the application: with a `FileIO`. -/
abbrev PState := PStateOf World

namespace Passwords

/-- Run a computation on the storage. -/
def onWorld {α : Type} (m : M World α) : M PState α := fun s =>
  match m s.world with
  | (r, w) => (r, { s with world := w })

/-- Models `passwords.rs:69-76` (`new`). -/
def new (world : World) : PState := { world, key := none, hmacSecret := none, primaryPassword := none }

/-- Models `passwords.rs:85-87` (`initialized`). -/
def initialized (s : PState) : Bool := Storage.initialized s.world

/-- Models `passwords.rs:95-97` (`unlocked`). -/
def unlocked (s : PState) : Bool := s.key.isSome

/-- Models `passwords.rs:106-118` (`reset`). -/
def reset (E : Env) (primaryPassword : Str) : M PState Unit := do
  let salt ← onWorld (FileIO.gen E 16)
  let key ← M.lift (getEncryptionKey E.prims primaryPassword salt)
  let hmacSecret ← onWorld (FileIO.gen E 32)
  onWorld (Storage.clear E salt hmacSecret key)
  onWorld (Storage.flush E)
  M.modify fun s =>
    { s with key := some key, hmacSecret := some hmacSecret, primaryPassword := some primaryPassword }

/-- Models `passwords.rs:127-136` (`unlock`). -/
def unlock (E : Env) (primaryPassword : Str) : M PState Unit := do
  let s ← M.get
  let salt ← M.lift (Storage.getSalt s.world)
  let key ← M.lift (getEncryptionKey E.prims primaryPassword salt)
  let hmacSecret ← M.lift (Storage.getHmacSecret E s.world key)
  M.modify fun s =>
    { s with key := some key, hmacSecret := some hmacSecret, primaryPassword := some primaryPassword }

/-- Models `passwords.rs:142-146` (`lock`). -/
def lock (s : PState) : PState := { s with key := none, hmacSecret := none, primaryPassword := none }

/-- The recurring lines `let hmac_secret = ...ok_or(Error::PasswordsLocked)?; let key = ...` (e.g.
`passwords.rs:154-155`). -/
def secrets (s : PState) : Res (Bytes × Bytes) := do
  let hmacSecret ← okOr s.hmacSecret .passwordsLocked
  let key ← okOr s.key .passwordsLocked
  .ok (hmacSecret, key)

/-- Models `passwords.rs:153-159` (`get_alias`). -/
def getAlias (E : Env) (s : PState) (site : Str) : Res Str := do
  let (hmacSecret, key) ← secrets s
  Storage.getAlias E s.world (Storage.normalizeSite site) hmacSecret key

/-- Models `passwords.rs:167-185` (`set_alias`). -/
def setAlias (E : Env) (site alias : Str) : M PState Unit := do
  let s ← M.get
  let (hmacSecret, key) ← M.lift (secrets s)
  let siteNormalized := Storage.normalizeSite site
  let aliasResolved ← M.lift (Storage.resolveSite E s.world alias hmacSecret key)
  let first ← M.lift (Storage.firstPassword E s.world siteNormalized hmacSecret key)
  if first.isSome then M.lift (.err .siteHasPasswords)
  else do
    onWorld (Storage.setAlias E siteNormalized aliasResolved hmacSecret key)
    onWorld (Storage.flush E)

/-- Models `passwords.rs:192-200` (`remove_alias`). -/
def removeAlias (E : Env) (site : Str) : M PState Unit := do
  let s ← M.get
  let (hmacSecret, key) ← M.lift (secrets s)
  onWorld (Storage.removeAlias E (Storage.normalizeSite site) hmacSecret key)
  onWorld (Storage.flush E)

/-- Models the loop in `passwords.rs:213-215`. -/
def removeSitesLoop (E : Env) (hmacSecret : Bytes) : List Str → M World Unit
  | [] => pure ()
  | site :: rest => do
    Storage.removeSite E site hmacSecret
    removeSitesLoop E hmacSecret rest

/-- Models `passwords.rs:207-217` (`remove_sites`). -/
def removeSites (E : Env) (sites : List Str) : M PState Unit :=
  if sites = [] then pure ()
  else do
    let s ← M.get
    let hmacSecret ← M.lift (okOr s.hmacSecret .passwordsLocked)
    onWorld (removeSitesLoop E hmacSecret sites)
    onWorld (Storage.flush E)

/-- Models `passwords.rs:231-252` (`set_generated`). -/
def setGenerated (E : Env) (site name revision : Str) (length : UInt64) (charset : CharacterSet) :
    M PState Unit := do
  let s ← M.get
  let (hmacSecret, key) ← M.lift (secrets s)
  let siteResolved ← M.lift (Storage.resolveSite E s.world site hmacSecret key)
  onWorld (Storage.ensureSiteData E siteResolved hmacSecret key)
  onWorld (Storage.setGenerated E (.new siteResolved name revision length charset) hmacSecret key)
  onWorld (Storage.flush E)

/-- Models `passwords.rs:266-286` (`set_stored`). -/
def setStored (E : Env) (site name revision password : Str) : M PState Unit := do
  let s ← M.get
  let (hmacSecret, key) ← M.lift (secrets s)
  let siteResolved ← M.lift (Storage.resolveSite E s.world site hmacSecret key)
  onWorld (Storage.ensureSiteData E siteResolved hmacSecret key)
  onWorld (Storage.setStored E (.new siteResolved name revision password) hmacSecret key)
  onWorld (Storage.flush E)

/-- Models `passwords.rs:293-302` (`has`). -/
def has (E : Env) (s : PState) (site name revision : Str) : Res Bool := do
  let (hmacSecret, key) ← secrets s
  let siteResolved ← Storage.resolveSite E s.world site hmacSecret key
  .ok (Storage.hasPassword E s.world (.new siteResolved name revision) hmacSecret)

/-- Models `passwords.rs:312-336` (`get`). -/
def get (E : Env) (s : PState) (site name revision : Str) : Res Str := do
  let (hmacSecret, key) ← secrets s
  let primaryPassword ← okOr s.primaryPassword .passwordsLocked
  let siteResolved ← Storage.resolveSite E s.world site hmacSecret key
  let password ← Storage.getPassword E s.world (.new siteResolved name revision) hmacSecret key
  match password with
  | .generated p => Crypto.derivePassword E.prims primaryPassword p.salt p.length.toNat p.charset
  | .stored p => .ok p.password

/-- Models `passwords.rs:340-344` (`get_recovery_code`); it draws a nonce. -/
def getRecoveryCode (E : Env) (password : StoredPassword) : M PState Bytes := do
  let s ← M.get
  let salt ← M.lift (Storage.getSalt s.world)
  let key ← M.lift (okOr s.key .passwordsLocked)
  let nonce ← onWorld (FileIO.gen E 12)
  M.lift (RecoveryCodes.generate E.prims E.overflowChecks nonce password.password salt key)

/-- Models `passwords.rs:351-357` (`decode_recovery_code`). -/
def decodeRecoveryCode (E : Env) (s : PState) (code : Str) : Res Str := do
  let primaryPassword ← okOr s.primaryPassword .passwordsLocked
  RecoveryCodes.decode E.prims E.overflowChecks (utf8 code) primaryPassword

/-- Models `passwords.rs:363-374` (`get_notes`). -/
def getNotes (E : Env) (s : PState) (site name revision : Str) : Res Str := do
  let (hmacSecret, key) ← secrets s
  let siteResolved ← Storage.resolveSite E s.world site hmacSecret key
  let password ← Storage.getPassword E s.world (.new siteResolved name revision) hmacSecret key
  .ok password.notes

/-- Models `passwords.rs:380-399` (`set_notes`). -/
def setNotes (E : Env) (site name revision notes : Str) : M PState Unit := do
  let s ← M.get
  let (hmacSecret, key) ← M.lift (secrets s)
  let siteResolved ← M.lift (Storage.resolveSite E s.world site hmacSecret key)
  let password ← M.lift (Storage.getPassword E s.world (.new siteResolved name revision) hmacSecret key)
  onWorld (Storage.setPassword E (password.setNotes notes) hmacSecret key)
  onWorld (Storage.flush E)

/-- Models `passwords.rs:409-419` (`remove`). -/
def remove (E : Env) (site name revision : Str) : M PState Unit := do
  let s ← M.get
  let (hmacSecret, key) ← M.lift (secrets s)
  let siteResolved ← M.lift (Storage.resolveSite E s.world site hmacSecret key)
  onWorld (Storage.removePassword E (.new siteResolved name revision) hmacSecret)
  onWorld (Storage.flush E)

/-- `assert!` and `unwrap()` on the secrets (`passwords.rs:426-429`). -/
def orPanic {α : Type} : Option α → Res α
  | some a => .ok a
  | none => .panic

/-- Models `passwords.rs:425-437` (`list`), consumed completely. -/
def list (E : Env) (s : PState) (site name : Str) : Res (List Password) := do
  let key ← orPanic s.key
  let hmacSecret ← orPanic s.hmacSecret
  let siteResolved ← Storage.resolveSite E s.world site hmacSecret key
  let all ← Storage.listPasswords E s.world siteResolved hmacSecret key
  .ok (all.filter fun p => E.wild name p.id.name)

/-- Models `passwords.rs:445-457` (`list_sites`), consumed completely. -/
def listSites (E : Env) (s : PState) (site : Str) : Res (List Site) := do
  let key ← orPanic s.key
  let all ← Storage.listSites E s.world key
  .ok (all.filter fun x =>
    (match x.alias with
      | some alias => E.wild site alias
      | none => false) || E.wild site x.name)

end Passwords
end Pfp
