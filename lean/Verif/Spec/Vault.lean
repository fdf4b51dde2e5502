import Verif.Model.Passwords

/-!
# Specification: the password manager as a table

What a user thinks of: a table of sites (each possibly an alias of another site) and a table of passwords keyed by
site, name and revision; a copy of both in a file; a primary password.  Nothing here mentions encryption, digests,
Base64, JSON or the format of the file.
-/

namespace Pfp.Spec

/-! ## The table -/

/-- What is stored for a password. -/
inductive Secret where
  | generated (length : UInt64) (charset : CharacterSet)
  | stored (value : Str)
  deriving DecidableEq

/-- A password entry. -/
structure Entry where
  secret : Secret
  notes : Str
  deriving DecidableEq

/-- The contents of a storage: the known sites with the site they are an alias of, if any, and the passwords. -/
structure Vault where
  sites : Str → Option (Option Str)
  passwords : PasswordId → Option Entry

/-- Replace one value of a function. -/
def update {α β : Type} [DecidableEq α] (f : α → β) (a : α) (b : β) : α → β := fun x => if x = a then b else f x

namespace Vault

/-- Nothing stored. -/
def empty : Vault := ⟨fun _ => none, fun _ => none⟩

end Vault

/-- The site meant by a site name: a leading `www.` is dropped, once. -/
def canonical (site : Str) : Str := if site.take 4 = c!"www." then site.drop 4 else site

/-- The revision meant by a revision argument: "1" is the same as none. -/
def revisionOf (revision : Str) : Str := if revision = c!"1" then [] else revision

namespace Vault

/-- The site whose passwords are meant by a site name: aliases are followed, one step. -/
def resolve (v : Vault) (site : Str) : Str :=
  match v.sites (canonical site) with
  | some (some target) => target
  | _ => canonical site

/-- The password meant by site name, name and revision. -/
def idOf (v : Vault) (site name revision : Str) : PasswordId :=
  ⟨v.resolve site, name, revisionOf revision⟩

/-- Make a site known without changing what is known about it. -/
def know (v : Vault) (site : Str) : Vault :=
  if v.sites site = none then { v with sites := update v.sites site (some none) } else v

/-- Enter a password, replacing the previous entry. -/
def put (v : Vault) (id : PasswordId) (e : Entry) : Vault :=
  { v with passwords := update v.passwords id (some e) }

/-- Delete a password. -/
def delete (v : Vault) (id : PasswordId) : Vault := { v with passwords := update v.passwords id none }

/-- Make a site an alias. -/
def link (v : Vault) (site target : Str) : Vault := { v with sites := update v.sites site (some (some target)) }

/-- Forget a site entry. -/
def forget (v : Vault) (site : Str) : Vault := { v with sites := update v.sites site none }

/-- A site has passwords. -/
def HasPasswords (v : Vault) (site : Str) : Prop := ∃ id e, v.passwords id = some e ∧ id.site = site

/-- The record shown for an entry by listings. -/
def record (id : PasswordId) (e : Entry) : Password :=
  match e.secret with
  | .generated length charset => .generated { id, length, charset, notes := e.notes }
  | .stored value => .stored { id, password := value, notes := e.notes }

/-- Forget several sites one after the other; `false` if one is not known (the following ones are then kept). -/
def forgetAll (v : Vault) : List Str → Bool × Vault
  | [] => (true, v)
  | site :: rest => if v.sites site = none then (false, v) else (v.forget site).forgetAll rest

end Vault

/-! ## The operations -/

/-- The operations offered by the library (`passwords.rs`), and starting over from the file with a new process. -/
inductive Op where
  | reset (primaryPassword : Str)
  | unlock (primaryPassword : Str)
  | lock
  | reload
  | setAlias (site target : Str)
  | removeAlias (site : Str)
  | removeSites (sites : List Str)
  | setGenerated (site name revision : Str) (length : UInt64) (charset : CharacterSet)
  | setStored (site name revision value : Str)
  | setNotes (site name revision notes : Str)
  | remove (site name revision : Str)
  | initialized
  | unlocked
  | getAlias (site : Str)
  | has (site name revision : Str)
  | get (site name revision : Str)
  | getNotes (site name revision : Str)
  | list (site pattern : Str)
  | listSites (pattern : Str)
  | getRecoveryCode (password : StoredPassword)

/-- What an operation returns. -/
inductive Out where
  | unit
  | bool (b : Bool)
  | text (s : Str)
  | passwords (l : List Password)
  | sites (l : List Site)
  | code (c : Bytes)

/-- Starting over from the file (`main.rs:76-96`). -/
def reload : M PState Unit := fun s =>
  match FileIO.load s.world.disk with
  | .ok data => (.ok (), Passwords.new { s.world with data, epoch := s.world.epoch + 1 })
  | .err e => (.err e, s)
  | .panic => (.panic, s)

/-- The code's behaviour on an operation. -/
def run (E : Env) (op : Op) (s : PState) : Res Out × PState :=
  match op with
  | .reset p => ((Passwords.reset E p s).1.map fun _ => .unit, (Passwords.reset E p s).2)
  | .unlock p => ((Passwords.unlock E p s).1.map fun _ => .unit, (Passwords.unlock E p s).2)
  | .lock => (.ok .unit, Passwords.lock s)
  | .reload => ((reload s).1.map fun _ => .unit, (reload s).2)
  | .setAlias a b => ((Passwords.setAlias E a b s).1.map fun _ => .unit, (Passwords.setAlias E a b s).2)
  | .removeAlias a => ((Passwords.removeAlias E a s).1.map fun _ => .unit, (Passwords.removeAlias E a s).2)
  | .removeSites l => ((Passwords.removeSites E l s).1.map fun _ => .unit, (Passwords.removeSites E l s).2)
  | .setGenerated a n r len cs => ((Passwords.setGenerated E a n r len cs s).1.map fun _ => .unit,
      (Passwords.setGenerated E a n r len cs s).2)
  | .setStored a n r v => ((Passwords.setStored E a n r v s).1.map fun _ => .unit, (Passwords.setStored E a n r v s).2)
  | .setNotes a n r t => ((Passwords.setNotes E a n r t s).1.map fun _ => .unit, (Passwords.setNotes E a n r t s).2)
  | .remove a n r => ((Passwords.remove E a n r s).1.map fun _ => .unit, (Passwords.remove E a n r s).2)
  | .initialized => (.ok (.bool (Passwords.initialized s)), s)
  | .unlocked => (.ok (.bool (Passwords.unlocked s)), s)
  | .getAlias a => ((Passwords.getAlias E s a).map .text, s)
  | .has a n r => ((Passwords.has E s a n r).map .bool, s)
  | .get a n r => ((Passwords.get E s a n r).map .text, s)
  | .getNotes a n r => ((Passwords.getNotes E s a n r).map .text, s)
  | .list a p => ((Passwords.list E s a p).map .passwords, s)
  | .listSites p => ((Passwords.listSites E s p).map .sites, s)
  | .getRecoveryCode p => ((Passwords.getRecoveryCode E p s).1.map .code, (Passwords.getRecoveryCode E p s).2)

/-- The errors reported when the file cannot be written. -/
def WriteError : Err → Prop
  | .createDirFailure => True
  | .fileWriteFailure => True
  | _ => False

/-! ## The abstract machine -/

/-- The storage in memory. -/
inductive Mem where
  /-- Never initialized. -/
  | blank
  | store (primaryPassword : Str) (v : Vault)
  /-- A reset failed half way while the storage was unlocked: memory and secrets in use belong to different
  storages. -/
  | torn

/-- The storage file. -/
inductive Disk where
  | missing
  /-- Present, but it cannot be loaded. -/
  | unreadable
  | store (primaryPassword : Str) (v : Vault)
  /-- Possibly written while the memory was `torn`. -/
  | torn

/-- The state of the abstract machine. -/
structure AState where
  mem : Mem
  disk : Disk
  unlocked : Bool

/-- What becomes of an attempt to write the file. -/
inductive Write where
  | ok
  /-- The directory cannot be created; the file is unchanged. -/
  | noDirectory
  /-- The file cannot be opened and is unchanged. -/
  | notOpened
  /-- Writing failed half way. -/
  | lost
  /-- An error was reported, yet everything had been written. -/
  | written
  deriving DecidableEq

/-- The file corresponding to the memory. -/
def Mem.saved : Mem → Disk → Disk
  | .blank, d => d
  | .store p v, _ => .store p v
  | .torn, _ => .torn

/-- The result of a write. -/
def Write.result : Write → Res Out
  | .ok => .ok .unit
  | .noDirectory => .err .createDirFailure
  | _ => .err .fileWriteFailure

/-- The file after a write. -/
def Write.disk (w : Write) (old new : Disk) : Disk :=
  match w with
  | .ok => new
  | .noDirectory => old
  | .notOpened => old
  | .lost => .unreadable
  | .written => new

/-- A set of possible outcomes. -/
abbrev Outcomes := Res Out → Prop

/-- Exactly this outcome. -/
def exactly (r : Res Out) : Outcomes := fun x => x = r

/-- Any outcome. -/
def anything : Outcomes := fun _ => True

/-- The contents change to `v`, and this is written. -/
def AState.commit (a : AState) (p : Str) (v : Vault) (w : Write) : Outcomes × AState :=
  (exactly w.result, { a with mem := .store p v, disk := w.disk a.disk (.store p v) })

/-- What the value of an entry is: the text stored, or the text derived from the primary password. -/
def valueOf (derive : Str → PasswordId → UInt64 → CharacterSet → Res Str) (primaryPassword : Str) (id : PasswordId) :
    Entry → Res Str
  | ⟨.stored value, _⟩ => .ok value
  | ⟨.generated length charset, _⟩ => derive primaryPassword id length charset

open Classical in
/-- The operations on an unlocked storage with contents `v`. -/
noncomputable def astepUnlocked (derive : Str → PasswordId → UInt64 → CharacterSet → Res Str) (wild : Str → Str → Bool)
    (a : AState) (p : Str) (v : Vault) (w : Write) : Op → Outcomes × AState
  | .setAlias site target =>
    if v.HasPasswords (canonical site) then (exactly (.err .siteHasPasswords), a)
    else if canonical site = v.resolve target then (exactly (.err .aliasToSelf), a)
    else a.commit p (v.link (canonical site) (v.resolve target)) w
  | .removeAlias site =>
    match v.sites (canonical site) with
    | some (some _) => a.commit p (v.forget (canonical site)) w
    | _ => (exactly (.err .noSuchAlias), a)
  | .removeSites sites =>
    if sites = [] then (exactly (.ok .unit), a)
    else if (v.forgetAll sites).1 then a.commit p (v.forgetAll sites).2 w
    else (exactly (.err .keyMissing), { a with mem := .store p (v.forgetAll sites).2 })
  | .setGenerated site name revision length charset =>
    a.commit p ((v.know (v.resolve site)).put (v.idOf site name revision) ⟨.generated length charset, []⟩) w
  | .setStored site name revision value =>
    a.commit p ((v.know (v.resolve site)).put (v.idOf site name revision) ⟨.stored value, []⟩) w
  | .setNotes site name revision notes =>
    match v.passwords (v.idOf site name revision) with
    | some e => a.commit p (v.put (v.idOf site name revision) { e with notes }) w
    | none => (exactly (.err .keyMissing), a)
  | .remove site name revision =>
    match v.passwords (v.idOf site name revision) with
    | some _ => a.commit p (v.delete (v.idOf site name revision)) w
    | none => (exactly (.err .keyMissing), a)
  | .getAlias site =>
    match v.sites (canonical site) with
    | some (some target) => (exactly (.ok (.text target)), a)
    | _ => (exactly (.err .noSuchAlias), a)
  | .has site name revision =>
    (exactly (.ok (.bool (v.passwords (v.idOf site name revision)).isSome)), a)
  | .get site name revision =>
    match v.passwords (v.idOf site name revision) with
    | some e => (exactly ((valueOf derive p (v.idOf site name revision) e).map .text), a)
    | none => (exactly (.err .keyMissing), a)
  | .getNotes site name revision =>
    match v.passwords (v.idOf site name revision) with
    | some e => (exactly (.ok (.text e.notes)), a)
    | none => (exactly (.err .keyMissing), a)
  | .list site pattern =>
    (fun r => ∃ l, r = .ok (.passwords l) ∧ l.Nodup ∧ ∀ x, x ∈ l ↔ ∃ id e, v.passwords id = some e ∧
      x = Vault.record id e ∧ id.site = v.resolve site ∧ wild pattern id.name = true, a)
  | .listSites pattern =>
    (fun r => ∃ l, r = .ok (.sites l) ∧ l.Nodup ∧ ∀ x : Site, x ∈ l ↔ v.sites x.name = some x.alias ∧
      (wild pattern x.name = true ∨ ∃ target, x.alias = some target ∧ wild pattern target = true), a)
  | .getRecoveryCode _ => (anything, a)
  | _ => (exactly (.ok .unit), a)

/-- The operations on a locked (or not initialized) storage. -/
def astepLocked (a : AState) : Op → Outcomes × AState
  | .removeSites sites => (exactly (if sites = [] then .ok .unit else .err .passwordsLocked), a)
  | .list _ _ => (exactly .panic, a)
  | .listSites _ => (exactly .panic, a)
  | .getRecoveryCode _ =>
    (exactly (.err (match a.mem with | .blank => .storageNotInitialized | _ => .passwordsLocked)), a)
  | _ => (exactly (.err .passwordsLocked), a)

/-- The memory after a `reset` that could not write the file: the new storage is in memory; if secrets of the old one
are still in use, they do not belong to it. -/
def AState.afterFailedReset (a : AState) (p : Str) : Mem :=
  match a.mem with
  | .blank => .store p .empty
  | .store _ _ => if a.unlocked then .torn else .store p .empty
  | .torn => .torn

/-- The state after a `reset`. -/
def AState.afterReset (a : AState) (p : Str) (w : Write) : AState :=
  if w = .ok then { mem := .store p .empty, disk := .store p .empty, unlocked := true }
  else { a with mem := a.afterFailedReset p, disk := w.disk a.disk (.store p .empty) }

/-- One step of the abstract machine. -/
noncomputable def astep (derive : Str → PasswordId → UInt64 → CharacterSet → Res Str) (wild : Str → Str → Bool)
    (w : Write) (a : AState) : Op → Outcomes × AState
  | .reset p => (exactly w.result, a.afterReset p w)
  | .reload =>
    match a.disk with
    | .missing => (exactly (.err .fileReadFailure), a)
    | .unreadable => (fun r => r = .err .fileReadFailure ∨ r = .err .invalidJson, a)
    | .store p v => (exactly (.ok .unit), { a with mem := .store p v, unlocked := false })
    | .torn => (anything, { a with mem := .torn, unlocked := false })
  | .lock => (exactly (.ok .unit), { a with unlocked := false })
  | op =>
    match a.mem, op with
    | .torn, _ => (anything, { a with disk := .torn })
    | .blank, .unlock _ => (exactly (.err .storageNotInitialized), a)
    | .store p _, .unlock p' =>
      if p' = p then (exactly (.ok .unit), { a with unlocked := true })
      else (exactly (.err .decryptionFailure), a)
    | .blank, .initialized => (exactly (.ok (.bool false)), a)
    | .store _ _, .initialized => (exactly (.ok (.bool true)), a)
    | _, .unlocked => (exactly (.ok (.bool a.unlocked)), a)
    | .store p v, op => if a.unlocked then astepUnlocked derive wild a p v w op else astepLocked a op
    | .blank, op => astepLocked a op

end Pfp.Spec
