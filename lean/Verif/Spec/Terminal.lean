import Verif.Model.Terminal

/-!
# What happens at a terminal, sorted (C93)
-/

namespace Pfp.Spec

open Cli Terminal

/-- The lines read, in order. -/
def linesRead : List Event → List Str
  | [] => []
  | .read _ line :: rest => line :: linesRead rest
  | _ :: rest => linesRead rest

/-- The lines read at prompts for passwords and texts. -/
def secretsRead : List Event → List Str
  | [] => []
  | .read .secret line :: rest => line :: secretsRead rest
  | _ :: rest => secretsRead rest

/-- The answers given to yes/no questions. -/
def confirmsRead (T : Dialog) : List Event → List Bool
  | [] => []
  | .read (.yesNo question) line :: rest =>
    match T.reply question line with
    | some b => b :: confirmsRead T rest
    | none => confirmsRead T rest
  | _ :: rest => confirmsRead T rest

/-- The answers at the prompt for the lines of a recovery code. -/
def answersRead (T : Dialog) : List Event → List (Option Str)
  | [] => []
  | .read .code line :: rest => T.answer line :: answersRead T rest
  | _ :: rest => answersRead T rest

/-- What is written to standard output (repetitions of a question excepted). -/
def written : List Event → Str
  | [] => []
  | .out _ text :: rest => text ++ written rest
  | _ :: rest => written rest

/-- What is written to standard error. -/
def reported : List Event → List Message
  | [] => []
  | .err message :: rest => message :: reported rest
  | _ :: rest => reported rest

/-- Nothing has been entered or shown, except for what is given. -/
def sorted (ps : PState) (secrets : List Str) (confirms : List Bool) (answers : List (Option Str)) (out : Str)
    (errors : List Message) : CState := { ps, secrets, confirms, answers, out, errors }

/-- The event asks for a line of this kind. -/
def Asks : Kind → Event → Prop
  | .secret, .out .direct text => text ∈ [c!"New primary password: ", c!"Repeat primary password: ", c!"Your primary password: ",
      c!"Password to be stored: ", c!"Please enter new notes to be stored:"]
  | .yesNo question, .out .asked text => text = question
  | .yesNo question, .again text => text = question
  | .code, .out .asked text => text = c!"Next line of your recovery code (empty line to abort):"
  | .wait, .out .direct text => text = c!"\nWaiting...\n"
  | _, _ => False

end Pfp.Spec
