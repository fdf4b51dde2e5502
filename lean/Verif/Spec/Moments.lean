import Verif.Model.Terminal

/-!
# The storage at each moment of a run (C101)
-/

namespace Pfp.Terminal

/-- What has happened, each event with the `Passwords` instance and the world at that time. -/
def Ran.story (r : Ran) : List (Event × PState) := r.trace.zip r.moments

end Pfp.Terminal

namespace Pfp.Spec

open Cli Terminal

/-- The event tells the user that something has been changed. -/
def Announces : Event → Prop
  | .out .buffered text =>
    text ∈ [c!"Password added.\n", c!"Password removed.\n", c!"Notes stored.\n", c!"Notes removed.\n", c!"Alias added.\n",
      c!"Alias removed.\n"] ∨ ∃ path, text = c!"New primary password set for " ++ path ++ c!".\n"
  | _ => False

/-- The file can be loaded, and its entries are those in memory. -/
def InFile (ps : PState) : Prop := ∃ d, FileIO.load ps.world.disk = .ok d ∧ d.Perm ps.world.data

/-- The texts shown without knowing the primary password. -/
def fixedTexts : List Str := [c!"New primary password: ", c!"Repeat primary password: ", c!"Your primary password: ",
  c!"Changing primary password will remove all existing data. Continue?",
  c!"Enter a command or type 'help' for a list of commands. Enter 'help <command>' for detailed information on a command.\n",
  c!"Passwords locked.\n", c!"\nWaiting...\n"]

/-- A command line is read by the shell. -/
def readsCommand : Event → Bool
  | .read .command _ => true
  | _ => false

/-- `Turns may first story last`: in the course of these events the contents of the file go from `first` to `last`, changing at most
once (not at all if `may` is false) before the first time a command line is read by the shell, and at most once after each time. -/
inductive Turns : Bool → Option Bytes → List (Event × PState) → Option Bytes → Prop
  | nil (may : Bool) (disk : Option Bytes) : Turns may disk [] disk
  | last (first last : Option Bytes) : Turns true first [] last
  | stay (may : Bool) (e : Event) (ps : PState) (rest : List (Event × PState)) (last : Option Bytes)
      (h : Turns (may || readsCommand e) ps.world.disk rest last) : Turns may ps.world.disk ((e, ps) :: rest) last
  | turn (first : Option Bytes) (e : Event) (ps : PState) (rest : List (Event × PState)) (last : Option Bytes)
      (h : Turns (readsCommand e) ps.world.disk rest last) : Turns true first ((e, ps) :: rest) last

end Pfp.Spec
