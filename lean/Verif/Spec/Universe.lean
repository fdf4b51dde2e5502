import Verif.Spec.Vault
import Verif.Spec.Base64
import Verif.Spec.Files
import Verif.Spec.Records

/-!
# Specification: the assumptions under which the tables are faithful

The storage identifies entries by HMAC digests and recognizes a wrong primary password by a failing decryption.
Neither can be exact for all inputs, so both are hypotheses about the texts actually used: a *universe* of site names,
names, revisions and primary passwords.  It may be finite or infinite; the toy primitives in `Proofs/ToyEnv.lean` show
that the hypotheses can be met.
-/

namespace Pfp.Spec

/-- Salt and HMAC secret of a storage created by another program, and the nonce and the JSON text with which this program
encrypted the HMAC secret. -/
structure ForeignSecrets where
  salt : Bytes
  secret : Bytes
  nonce : Bytes
  text : Str

/-- They follow the published format. -/
structure ForeignSecrets.Valid (f : ForeignSecrets) : Prop where
  salt : f.salt.length = 16
  nonce : f.nonce.length = 12
  text : ∃ b, IsBase64 f.secret b ∧ JsonText (.str b) f.text

/-- The texts in use. -/
structure Universe where
  site : Str → Prop
  name : Str → Prop
  revision : Str → Prop
  primary : Str → Prop
  /-- The digest of a password's identity separates its parts by NUL characters. -/
  site_nul : ∀ s, site s → Char.ofNat 0 ∉ s
  name_nul : ∀ s, name s → Char.ofNat 0 ∉ s
  site_canonical : ∀ s, site s → site (canonical s)
  revision_nil : revision []
  /-- Storages created by other programs whose files may turn up. -/
  foreign : ForeignSecrets → Prop

/-- No files of other programs turn up. -/
def Universe.Own (U : Universe) : Prop := ∀ f, ¬U.foreign f

/-- An identity made of texts in use. -/
def Universe.id (U : Universe) (i : PasswordId) : Prop := U.site i.site ∧ U.name i.name ∧ U.revision i.revision

/-- The text identifying a password. -/
def idText (i : PasswordId) : Str := i.site ++ Char.ofNat 0 :: (i.name ++ Char.ofNat 0 :: i.revision)

/-- No two texts in use have the same digest under this HMAC secret. -/
structure CollisionFree (P : Prims) (U : Universe) (secret : Bytes) : Prop where
  site : ∀ s s', U.site s → U.site s' → P.hmac secret (utf8 s) = P.hmac secret (utf8 s') → s = s'
  id : ∀ i i', U.id i → U.id i' → P.hmac secret (utf8 (idText i)) = P.hmac secret (utf8 (idText i')) →
    idText i = idText i'

/-- Where salt and HMAC secret of a storage come from: drawn by a `reset` at a position of the random stream, or chosen by
another program. -/
inductive Origin where
  | drawn (pos : Nat)
  | foreign (f : ForeignSecrets)

instance : Coe Nat Origin := ⟨.drawn⟩

/-- The origin is in use. -/
def Origin.Within (U : Universe) : Origin → Prop
  | .drawn _ => True
  | .foreign f => U.foreign f ∧ f.Valid

/-- The storage was created by another program. -/
def Origin.Foreign : Origin → Prop
  | .drawn _ => False
  | .foreign _ => True

/-- The salt of a storage. -/
def saltAt (E : Env) : Origin → Bytes
  | .drawn pos => FileIO.randBytes E pos 16
  | .foreign f => f.salt
/-- The HMAC secret of a storage. -/
def secretAt (E : Env) : Origin → Bytes
  | .drawn pos => FileIO.randBytes E (pos + 16) 32
  | .foreign f => f.secret
/-- The nonce with which the HMAC secret was encrypted. -/
def nonceAt (E : Env) : Origin → Bytes
  | .drawn pos => FileIO.randBytes E (pos + 48) 12
  | .foreign f => f.nonce
/-- The text encrypted as HMAC secret. -/
def secretTextAt (E : Env) : Origin → Str
  | .drawn pos => Json.print (.str (Base64.encode (secretAt E pos)))
  | .foreign f => f.text

/-- The encryption key for a primary password and salt (see `C54`). -/
def keyFor (P : Prims) (primary : Str) (salt : Bytes) : Bytes := P.scrypt (utf8 primary) (utf8 (salt.map byteChar)) 32

/-- The assumptions about the primitives for the texts in use: no digest collisions, and the encrypted HMAC secret is
not accepted by the cipher under the key of another primary password. -/
structure Secure (E : Env) (U : Universe) : Prop where
  collisionFree : ∀ o, o.Within U → CollisionFree E.prims U (secretAt E o)
  wrongPassword : ∀ o, o.Within U → ∀ p p', U.primary p → U.primary p' → p ≠ p' →
    E.prims.gcmDecrypt (keyFor E.prims p' (saltAt E o)) (nonceAt E o)
      (E.prims.gcmEncrypt (keyFor E.prims p (saltAt E o)) (nonceAt E o) (utf8 (secretTextAt E o))) = none

/-- The arguments of an operation are texts in use. -/
def Op.Within (U : Universe) : Op → Prop
  | .reset p => U.primary p
  | .unlock p => U.primary p
  | .setAlias a b => U.site a ∧ U.site b
  | .removeAlias a => U.site a
  | .removeSites l => ∀ a ∈ l, U.site a
  | .setGenerated a n r _ _ => U.site a ∧ U.name n ∧ U.revision r
  | .setStored a n r _ => U.site a ∧ U.name n ∧ U.revision r
  | .setNotes a n r _ => U.site a ∧ U.name n ∧ U.revision r
  | .remove a n r => U.site a ∧ U.name n ∧ U.revision r
  | .getAlias a => U.site a
  | .has a n r => U.site a ∧ U.name n ∧ U.revision r
  | .get a n r => U.site a ∧ U.name n ∧ U.revision r
  | .getNotes a n r => U.site a ∧ U.name n ∧ U.revision r
  | .list a _ => U.site a
  | _ => True

/-- The text a generated password is derived with (see `C07`). -/
def saltText (i : PasswordId) : Str :=
  i.site ++ Char.ofNat 0 :: i.name ++ (if i.revision = [] then [] else Char.ofNat 0 :: i.revision)

/-- The value of a generated password. -/
def deriveWith (P : Prims) (primary : Str) (i : PasswordId) (length : UInt64) (charset : CharacterSet) : Res Str :=
  Crypto.derivePassword P primary (saltText i) length.toNat charset

/-- How the outcome of a write shows in the abstract machine. -/
def WriteFor : FlushOutcome → Write → Prop
  | .ok, w => w = .ok
  | .createDirFailure, w => w = .noDirectory
  | .openFailure, w => w = .notOpened
  | .writeFailure _, w => w = .lost ∨ w = .written

/-! ## Asking and changing -/

/-- The result of an operation. -/
def ask (E : Env) (s : PState) (op : Op) : Res Out := (run E op s).1

/-- The state after an operation. -/
def after (E : Env) (s : PState) (op : Op) : PState := (run E op s).2

/-- The site whose passwords are meant by a site name, as the program tells it: the alias target if there is one. -/
def siteMeant (E : Env) (s : PState) (site : Str) : Str :=
  match ask E s (.getAlias site) with
  | .ok (.text target) => target
  | _ => canonical site

/-- Two combinations of site, name and revision mean the same entry. -/
def SameEntry (E : Env) (s : PState) (a n r a' n' r' : Str) : Prop :=
  siteMeant E s a = siteMeant E s a' ∧ n = n' ∧ revisionOf r = revisionOf r'

/-! ## Histories -/

/-- The results of the operations, and the state reached. -/
def runAll (E : Env) : List Op → PState → List (Res Out) × PState
  | [], s => ([], s)
  | op :: ops, s => ((run E op s).1 :: (runAll E ops (run E op s).2).1, (runAll E ops (run E op s).2).2)

/-- The abstract machine on a sequence of operations, with possible outcomes of writes. -/
inductive ARun (derive : Str → PasswordId → UInt64 → CharacterSet → Res Str) (wild : Str → Str → Bool)
    (possible : Write → Prop) : List Op → AState → List (Res Out) → AState → Prop
  | nil (a : AState) : ARun derive wild possible [] a [] a
  | cons {op : Op} {ops : List Op} {a a' : AState} {r : Res Out} {rs : List (Res Out)} (w : Write) (hw : possible w)
      (h : (astep derive wild w a op).1 r) (t : ARun derive wild possible ops (astep derive wild w a op).2 rs a') :
      ARun derive wild possible (op :: ops) a (r :: rs) a'

/-- A program start: nothing in memory, with or without a storage file; if there is one, it cannot be loaded (a
loadable one is the case of `reload` at the end of another history). -/
def Initial (s : PState) : Prop :=
  s.world.data = [] ∧ s.key = none ∧ s.hmacSecret = none ∧ s.primaryPassword = none ∧
    (FileIO.load s.world.disk = .err .fileReadFailure ∨ FileIO.load s.world.disk = .err .invalidJson)

/-- The key for a primary password and salt: scrypt with N = 2^15, r = 8, p = 1; the salt's bytes are taken as characters
and encoded as UTF-8. -/
def publishedKey (P : Prims) (primary : Str) (salt : Bytes) : Bytes :=
  P.scryptWith 15 8 1 (utf8 primary) (salt.flatMap fun b => utf8 [Char.ofNat b.toNat]) 32

/-- `v` is a ciphertext of a text of which `m` holds, in the published format: nonce and ciphertext in Base64. -/
def Seals (P : Prims) (key : Bytes) (m : Str → Prop) (v : Str) : Prop :=
  ∃ (nonce : Bytes) (t n c : Str), nonce.length = 12 ∧ m t ∧ IsBase64 nonce n ∧
    IsBase64 (P.gcmEncrypt key nonce (utf8 t)) c ∧ v = n ++ ['_'] ++ c

/-- The bytes `b` are a storage file in the published format, as any program may have written it: a JSON text of any
spelling, with the contents `V`, for the primary password `p`. -/
structure StorageFile (P : Prims) (f : ForeignSecrets) (p : Str) (V : Vault) (b : Bytes) : Prop where
  valid : f.Valid
  /-- The members of the storage are just these. -/
  file : ∃ text j members, b = utf8 text ∧ JsonText j text ∧ IsStorage j members ∧
    (∃ v, lastValue members (c!"salt") = some v ∧ IsBase64 f.salt v) ∧
    (∃ n c, lastValue members (c!"hmac-secret") = some (n ++ ['_'] ++ c) ∧ IsBase64 f.nonce n ∧
      IsBase64 (P.gcmEncrypt (publishedKey P p f.salt) f.nonce (utf8 f.text)) c) ∧
    (∀ s t, V.sites s = some t → ∃ d v, IsBase64 (P.hmac f.secret (utf8 s)) d ∧
      lastValue members (c!"site:" ++ d) = some v ∧ Seals P (publishedKey P p f.salt) (SiteRecordText ⟨s, t⟩) v) ∧
    (∀ i e, V.passwords i = some e → ∃ d d' v, IsBase64 (P.hmac f.secret (utf8 i.site)) d ∧
      IsBase64 (P.hmac f.secret (utf8 (idText i))) d' ∧ lastValue members (c!"site:" ++ d ++ [':'] ++ d') = some v ∧
      Seals P (publishedKey P p f.salt) (PasswordRecordText (Vault.record i e)) v) ∧
    ∀ k v, lastValue members k = some v → k = c!"salt" ∨ k = c!"hmac-secret" ∨
      (∃ s t d, V.sites s = some t ∧ IsBase64 (P.hmac f.secret (utf8 s)) d ∧ k = c!"site:" ++ d) ∨
      ∃ i e d d', V.passwords i = some e ∧ IsBase64 (P.hmac f.secret (utf8 i.site)) d ∧
        IsBase64 (P.hmac f.secret (utf8 (idText i))) d' ∧ k = c!"site:" ++ d ++ [':'] ++ d'

/-- A storage file of another program about texts in use.  (The revision "1" is written as none.) -/
structure ForeignFile (P : Prims) (U : Universe) (f : ForeignSecrets) (p : Str) (V : Vault) (b : Bytes) : Prop where
  known : U.foreign f
  file : StorageFile P f p V b
  primary : U.primary p
  sites : ∀ s t, V.sites s = some t → U.site s ∧ ∀ x, t = some x → U.site x
  passwords : ∀ i e, V.passwords i = some e → U.id i ∧ i.revision ≠ c!"1"

/-- A program start with such a file. -/
def ForeignStart (E : Env) (U : Universe) (p : Str) (V : Vault) (s : PState) : Prop :=
  s.world.data = [] ∧ s.key = none ∧ s.hmacSecret = none ∧ s.primaryPassword = none ∧
    ∃ b f, s.world.disk = some b ∧ ForeignFile E.prims U f p V b

/-- The state `s` of a process after a while in which others were using the same file: it is the same except that the
file is as it is in the state `other`, or cannot be loaded (deleted, or a killed process has left it half written), and
that the positions in the sequences of random bytes, outcomes of writes and hash orders are any. -/
structure Meanwhile (s other s' : PState) : Prop where
  data : s'.world.data = s.world.data
  key : s'.key = s.key
  hmacSecret : s'.hmacSecret = s.hmacSecret
  primaryPassword : s'.primaryPassword = s.primaryPassword
  file : s'.world.disk = other.world.disk ∨ FileIO.load s'.world.disk = .err .fileReadFailure ∨
    FileIO.load s'.world.disk = .err .invalidJson

/-- A state reached from a program start by operations on texts in use, possibly with other processes using the same
file; the file may have been created by another program.  Excluded is only what comes after a `reset` that failed while the storage was unlocked (see `C36`). -/
inductive Reachable (E : Env) (U : Universe) : PState → Prop
  | start {s : PState} (h : Initial s) : Reachable E U s
  | foreign {s : PState} {p : Str} {V : Vault} (h : ForeignStart E U p V s) : Reachable E U s
  | meanwhile {s other s' : PState} (h : Reachable E U s) (ho : Reachable E U other) (hm : Meanwhile s other s') :
      Reachable E U s'
  | step {s : PState} (h : Reachable E U s) (op : Op) (hop : op.Within U)
      (hreset : ∀ p, op = .reset p → (run E op s).1 = .ok .unit ∨ s.key = none) : Reachable E U (run E op s).2

/-- An operation that does not concern the entry meant by site `a`, name `n` and revision `r`: it is not a `reset`, does
not change the alias entry of `a`, and does not store or remove that entry.  (`lock`, `unlock`, starting over, notes and
all queries are allowed, and so is everything done to other sites and entries.  Removing the site `a` itself is allowed if
it is no alias.) -/
def Leaves (E : Env) (s : PState) (a n r : Str) : Op → Prop
  | .reset _ => False
  | .setAlias x _ => canonical x ≠ canonical a
  | .removeAlias x => canonical x ≠ canonical a
  | .removeSites l => s.key.isSome = true → canonical a ∈ l → siteMeant E s a = canonical a
  | .setGenerated x n' r' _ _ => s.key.isSome = true → ¬SameEntry E s x n' r' a n r
  | .setStored x n' r' _ => s.key.isSome = true → ¬SameEntry E s x n' r' a n r
  | .remove x n' r' => s.key.isSome = true → ¬SameEntry E s x n' r' a n r
  | _ => True

/-- A sequence of such operations. -/
def LeavesAll (E : Env) (a n r : Str) : List Op → PState → Prop
  | [], _ => True
  | op :: ops, s => Leaves E s a n r op ∧ LeavesAll E a n r ops (after E s op)

/-- An operation that does not concern the alias entry of site `a`. -/
def LeavesAlias (a : Str) : Op → Prop
  | .reset _ => False
  | .setAlias x _ => canonical x ≠ canonical a
  | .removeAlias x => canonical x ≠ canonical a
  | .removeSites l => canonical a ∉ l
  | _ => True

/-- Site, name and revision of an operation that may change a password entry. -/
def Op.entry : Op → Option (Str × Str × Str)
  | .setGenerated a n r _ _ => some (a, n, r)
  | .setStored a n r _ => some (a, n, r)
  | .setNotes a n r _ => some (a, n, r)
  | .remove a n r => some (a, n, r)
  | _ => none

/-- No key occurs twice.  (The model has lists of entries where the code has a hash map, of which this is always
true.) -/
def Distinct (w : World) : Prop := (w.data.map (·.1)).Nodup

/-- The operations that change the table, apart from `reset`. -/
def Op.changes : Op → Bool
  | .setAlias _ _ => true
  | .removeAlias _ => true
  | .removeSites l => l ≠ []
  | .setGenerated _ _ _ _ _ => true
  | .setStored _ _ _ _ => true
  | .setNotes _ _ _ _ => true
  | .remove _ _ _ => true
  | _ => false

/-- The operations that are available without the primary password. -/
def Op.always : Op → Bool
  | .reset _ => true
  | .unlock _ => true
  | .lock => true
  | .reload => true
  | .initialized => true
  | .unlocked => true
  | _ => false

/-- Replace the site of an operation on passwords. -/
def Op.withSite (x : Str) : Op → Op
  | .setGenerated _ n r len cs => .setGenerated x n r len cs
  | .setStored _ n r v => .setStored x n r v
  | .setNotes _ n r t => .setNotes x n r t
  | .remove _ n r => .remove x n r
  | .has _ n r => .has x n r
  | .get _ n r => .get x n r
  | .getNotes _ n r => .getNotes x n r
  | .list _ p => .list x p
  | op => op

/-- Change the revision of an operation. -/
def Op.mapRevision (f : Str → Str) : Op → Op
  | .setGenerated a n r len cs => .setGenerated a n (f r) len cs
  | .setStored a n r v => .setStored a n (f r) v
  | .setNotes a n r t => .setNotes a n (f r) t
  | .remove a n r => .remove a n (f r)
  | .has a n r => .has a n (f r)
  | .get a n r => .get a n (f r)
  | .getNotes a n r => .getNotes a n (f r)
  | op => op

/-- Change the site names given to an operation, except the ones given to `remove_sites`. -/
def Op.mapSites (f : Str → Str) : Op → Op
  | .setAlias a b => .setAlias (f a) (f b)
  | .removeAlias a => .removeAlias (f a)
  | .setGenerated a n r len cs => .setGenerated (f a) n r len cs
  | .setStored a n r v => .setStored (f a) n r v
  | .setNotes a n r t => .setNotes (f a) n r t
  | .remove a n r => .remove (f a) n r
  | .getAlias a => .getAlias (f a)
  | .has a n r => .has (f a) n r
  | .get a n r => .get (f a) n r
  | .getNotes a n r => .getNotes (f a) n r
  | .list a p => .list (f a) p
  | op => op

/-- The site names given to an operation, except the ones given to `remove_sites`. -/
def Op.siteArguments : Op → List Str
  | .setAlias a b => [a, b]
  | .removeAlias a => [a]
  | .setGenerated a _ _ _ _ => [a]
  | .setStored a _ _ _ => [a]
  | .setNotes a _ _ _ => [a]
  | .remove a _ _ => [a]
  | .getAlias a => [a]
  | .has a _ _ => [a]
  | .get a _ _ => [a]
  | .getNotes a _ _ => [a]
  | .list a _ => [a]
  | _ => []

end Pfp.Spec
