import Verif.Spec.Shown
import Verif.Spec.CommandLine
import Verif.Spec.Recovery

/-!
# Whole runs at a terminal, shells included, with a storage file changed by somebody else (C107)
-/

namespace Pfp.Spec

open Cli

/-- The commands of a run: the one of the command line, and in a shell those typed. -/
def InRun (a : Args) (lines : List Str) (c : Command) : Prop :=
  c = a.command ∨ a.command = .shell ∧ ∃ line ∈ lines, LineMeans line (.command c)

/-- The characters of a recovery code put together from lines typed: each line continues what has been accepted before, and what comes
after some point may be ignored. -/
inductive Joined (T : Terminal.Dialog) (lines : List Str) : Bytes → Prop
  | start : Joined T lines []
  | next {code : Bytes} (h : Joined T lines code) {line text : Str} (hl : line ∈ lines) (ht : T.answer line = some text) (k : Nat) :
      Joined T lines ((code ++ significant (utf8 text)).take k)

/-- The operations which commands `ran` can bring about with these lines typed.  At the end of the input a line is empty.  A password
restored from a recovery code is one that the code typed contains, for the primary password `p`. -/
inductive Commanded (T : Terminal.Dialog) (E : Env) (p : Str) (ran : Command → Prop) (lines : List Str) : Op → Prop
  | unlock {line : Str} (hl : line ∈ lines) : Commanded T E p ran lines (.unlock (trim line))
  | lock : Commanded T E p ran lines .lock
  | generated {d n r : Str} {len : UInt64} {noLower noUpper noDigit noSymbol yes : Bool} {cs : CharacterSet}
      (h : ran (.add d n r len noLower noUpper noDigit noSymbol yes))
      (hcs : ∀ x, cs.contains x = !(match x with
        | .lower => noLower
        | .upper => noUpper
        | .digit => noDigit
        | .symbol => noSymbol)) : Commanded T E p ran lines (.setGenerated d n r len cs)
  | stored {d n r : Str} {yes : Bool} (h : ran (.addStored d n r false yes)) {line : Str} (hl : line ∈ lines ∨ line = []) :
      Commanded T E p ran lines (.setStored d n r (trim line))
  | restored {d n r : Str} {yes : Bool} (h : ran (.addStored d n r true yes)) {code : Bytes} (hc : Joined T lines code) {v : Str}
      (hv : RecoveryCodes.decode E.prims E.overflowChecks code p = .ok v) : Commanded T E p ran lines (.setStored d n r v)
  | remove {d n r : Str} (h : ran (.remove d n r)) : Commanded T E p ran lines (.remove d n r)
  | notes {d n r : Str} (h : ran (.notes d n r true)) {line : Str} (hl : line ∈ lines ∨ line = []) :
      Commanded T E p ran lines (.setNotes d n r line)
  | alias {d t : Str} {b : Bool} (h : ran (.alias d (some t) b)) : Commanded T E p ran lines (.setAlias d t)
  | unalias {d : Str} (h : ran (.alias d none true)) : Commanded T E p ran lines (.removeAlias d)
  | sites {d n : Str} {x y z : Bool} (h : ran (.list d n x y z)) (l : List Str) : Commanded T E p ran lines (.removeSites l)
  | code {d n : Str} {x z : Bool} (h : ran (.list d n x true z)) (q : StoredPassword) : Commanded T E p ran lines (.getRecoveryCode q)

/-- Further texts which tell nothing about the contents of the storage, for `shell`, `add` and `add-stored`. -/
def moreTexts : List Str :=
  [c!"Enter a command or type 'help' for a list of commands. Enter 'help <command>' for detailed information on a command.\n",
   c!"Passwords locked.\n", c!"Password added.\n", c!"Password to be stored: ",
   c!"A password with this domain/name/revision combination already exists. Overwrite?",
   c!"Next line of your recovery code (empty line to abort):"]

/-- A question repeating a recovery code typed. -/
def Repeats (T : Terminal.Dialog) (ran : Command → Prop) (lines : List Str) (x : Str) : Prop :=
  ∃ d n r yes code, ran (.addStored d n r true yes) ∧ Joined T lines code ∧
    x = c!"The following seems to be a valid recovery code:\n" ++ (layout code).map byteChar ++
      c!"\nYou entered some additional data however. Ignore the extra data and decode the recovery code?"

/-- A run of the program: the arguments and what they mean, what is typed, and the computer. -/
structure Evening where
  argv : List Str
  args : Args
  lines : List Str
  machine : Machine

/-- What happens. -/
def Evening.ran (T : Terminal.Dialog) (C : CEnv) (e : Evening) : Terminal.Ran := Terminal.main T C e.argv e.lines e.machine

/-- The unlocked states of the process. -/
def Evening.states (T : Terminal.Dialog) (C : CEnv) (e : Evening) : List PState :=
  ((e.ran T C).ps :: (e.ran T C).moments).filter fun u => u.key.isSome

/-- Runs of the program by the owner, the last one first.  Before each of them somebody may have changed the storage file in any way in
which nothing is forged: a legible value is one that has been in the memory of a process of the owner, at first (`owner`) or in an
earlier run.  The owner never types another primary password that fits, and what the owner does is in `G`. -/
inductive Evenings (T : Terminal.Dialog) (C : CEnv) (owner : PState → Prop) (G : Op → Prop) (p : Str) : List Evening → Prop
  | nil : Evenings T C owner G p []
  | cons {es : List Evening} (h : Evenings T C owner G p es) {e : Evening} (ha : ProgramWords e.argv e.args)
      (hset : ∀ y, e.args.command ≠ .setPrimary y)
      (hG : ∀ op, Commanded T C.env p (InRun e.args e.lines) e.lines op → G op) (hm : e.machine.state.ps.key = none)
      (hone : ∀ line ∈ e.lines, Opens C.env (trim line) (storageOf e.machine e.args) → trim line = p)
      (hn : Opens C.env p (storageOf e.machine e.args) → NoForgery C.env (fun u => owner u ∨ ∃ e' ∈ es, u ∈ e'.states T C) p
        (opened C.env p (storageOf e.machine e.args))) : Evenings T C owner G p (e :: es)

end Pfp.Spec
