import Verif.Spec.Listing
import Verif.Spec.Onward
import Verif.Spec.Terminal

/-!
# What the program at a terminal shows of a storage file changed by somebody else (C105)
-/

namespace Pfp.Spec

open Cli

/-- The texts written to standard output, one by one, including repetitions of questions. -/
def textsOf : List Terminal.Event → List Str
  | [] => []
  | .out _ text :: rest => text :: textsOf rest
  | .again question :: rest => question :: textsOf rest
  | _ :: rest => textsOf rest

/-- The storage file of a run of the program with these arguments. -/
def storageOf (m : Machine) (a : Args) : PState :=
  { m.state.ps with world := { m.state.ps.world with disk := m.files (a.storage.getD m.defaultPath) } }

/-- The commands that look something up in the storage, or remove something. -/
def LooksUp : Command → Prop
  | .«show» _ _ _ _ | .notes _ _ _ _ | .list _ _ _ _ _ | .alias _ _ _ | .remove _ _ _ => True
  | _ => False

/-- Texts of these commands which tell nothing about the contents of the storage. -/
def plainTexts : List Str :=
  [c!"Your primary password: ", c!"Password retrieved.", c!"\n", c!"Password removed.\n", c!"Notes for this password: ",
   c!"Currently no notes are stored for this password.\n", c!"Please enter new notes to be stored:", c!"Notes removed.\n",
   c!"Notes stored.\n", c!"Alias added.\n", c!"Alias removed.\n", c!"        ", c!"        Recovery code:\n", c!"        Notes: ",
   c!"No matching passwords found.\n", c!"\nWaiting...\n"]

/-- The value of a password that the owner entered: stored, or generated for a site that the owner named. -/
def OwnValue (E : Env) (G : Op → Prop) (p x : Str) : Prop :=
  (∃ a n r, G (.setStored a n r x)) ∨
  ∃ a n r len cs site, G (.setGenerated a n r len cs) ∧ Named G site ∧ deriveWith E.prims p ⟨site, n, revisionOf r⟩ len cs = .ok x

/-- The text tells something that the owner entered: `G` are the operations of the owner, `p` is the primary password, `t` is the
storage after unlocking, `c` is the command. -/
inductive Tells (C : CEnv) (G : Op → Prop) (p : Str) (t : PState) (c : Command) : Str → Prop
  /-- A password. -/
  | value {x : Str} (h : OwnValue C.env G p x) : Tells C G p t c x
  /-- A password as a QR code. -/
  | qr {x : Str} (h : OwnValue C.env G p x) {q : QrCode} (hq : C.qr x = some q) : Tells C G p t c (renderQr q)
  /-- Notes. -/
  | notes {a n r x : Str} (h : G (.setNotes a n r x)) : Tells C G p t c x
  /-- The target of the alias given on the command line. -/
  | target {d x : Str} (hc : c = .alias d none false) (h : Named G x) :
      Tells C G p t c (c!"'" ++ d ++ c!"' is an alias for '" ++ x ++ c!"'.\n")
  /-- A site. -/
  | site {x : Str} (h : Named G x) : Tells C G p t c (c!"Passwords for " ++ x ++ c!":\n")
  /-- The aliases of a site. -/
  | aliases {l : List Str} (h : ∀ x ∈ l, Named G x) : Tells C G p t c (c!"    Aliases: " ++ join (c!",\n             ") l ++ c!"\n")
  /-- Name, type and revision of a password. -/
  | entry {x : Password} (h : OwnRecord G x) : Tells C G p t c (entryTitle x)
  /-- The recovery code of a stored password. -/
  | code {z : StoredPassword} (h : OwnRecord G (.stored z)) {k : Nat} {b : Bytes} {lines : List Str}
      (hb : ask C.env (drawn t k) (.getRecoveryCode z) = .ok (.code b)) (hl : b.map byteChar = join ['\n'] lines)
      (hn : ∀ line ∈ lines, '\n' ∉ line) : Tells C G p t c (indented lines)
  /-- The length of a generated password. -/
  | length {g : GeneratedPassword} (h : OwnRecord G (.generated g)) :
      Tells C G p t c (c!"        Length: " ++ Json.natDigits g.length.toNat ++ c!"\n")
  /-- The characters of a generated password. -/
  | charset {g : GeneratedPassword} (h : OwnRecord G (.generated g)) :
      Tells C G p t c (c!"        Allowed characters: " ++ charsetText g.charset ++ c!"\n")

end Pfp.Spec
