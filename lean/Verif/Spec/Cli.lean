import Verif.Model.Cli
import Verif.Spec.Universe

/-!
# Specification: the commands of the application
-/

namespace Pfp.Spec
open Pfp.Cli

/-- A line entered as primary password does not unlock the storage: it is too short, or the library refuses it. -/
def Refused (E : Env) (s : PState) (line : Str) : Prop :=
  (utf8 (trim line)).length < 6 ∨ ∃ e, ask E s (.unlock (trim line)) = .err e

/-- What the user is told about a line that does not unlock the storage: that it is too short, or the reason of the
library. -/
def refusal (E : Env) (s : PState) (line : Str) : Message :=
  if (utf8 (trim line)).length < 6 then .error .primaryTooShort
  else
    match ask E s (.unlock (trim line)) with
    | .err e => .error (.lib e)
    | _ => .notUnderstood

/-- A line entered as primary password unlocks the storage. -/
def Accepted (E : Env) (s : PState) (line : Str) : Prop :=
  6 ≤ (utf8 (trim line)).length ∧ ask E s (.unlock (trim line)) = .ok .unit

/-- The library operations that may change something which a command is entitled to, `lines` being the lines entered in
response to its prompts. -/
def May (lines : List Str) : Command → Op → Prop
  | _, .unlock p => ∃ line ∈ lines, p = trim line ∧ 6 ≤ (utf8 p).length
  | .setPrimary _, .reset p => ∃ line ∈ lines, p = trim line ∧ 6 ≤ (utf8 p).length
  | .add a n r len lower upper digit symbol _, .setGenerated a' n' r' len' cs =>
    a' = a ∧ n' = n ∧ r' = r ∧ len' = len ∧ cs = ⟨!lower, !upper, !digit, !symbol⟩ ∧
      ¬(lower = true ∧ upper = true ∧ digit = true ∧ symbol = true)
  | .addStored a n r recovery _, .setStored a' n' r' v => a' = a ∧ n' = n ∧ r' = r ∧
      (recovery = false → ∃ line, (line ∈ lines ∨ line = []) ∧ v = trim line)
  | .remove a n r, .remove a' n' r' => a' = a ∧ n' = n ∧ r' = r
  | .notes a n r true, .setNotes a' n' r' t => a' = a ∧ n' = n ∧ r' = r ∧ (t ∈ lines ∨ t = [])
  | .alias a (some b) _, .setAlias a' b' => a' = a ∧ b' = b
  | .alias a none true, .removeAlias a' => a' = a
  | .list _ name _ _ _, .removeSites l => name = c!"*" ∨ l = []
  | .list _ _ _ true _, .getRecoveryCode _ => True
  | _, _ => False

/-! ## Histories of commands -/

/-- A generated password stored by this operation can be retrieved. -/
def Op.Sound : Op → Prop
  | .setGenerated _ _ _ length charset =>
    4 ≤ length.toNat ∧ length.toNat ≤ 24 ∧ ∃ t : CharacterType, charset.contains t = true
  | _ => True

/-- All generated passwords of a table can be retrieved. -/
def SoundVault (V : Vault) : Prop :=
  ∀ id length charset notes, V.passwords id = some ⟨.generated length charset, notes⟩ →
    4 ≤ length.toNat ∧ length.toNat ≤ 24 ∧ ∃ t : CharacterType, charset.contains t = true

/-- A state reached from a program start by such operations on texts in use (compare `Reachable`). -/
inductive SoundReachable (E : Env) (U : Universe) : PState → Prop
  | start {s : PState} (h : Initial s) : SoundReachable E U s
  | foreign {s : PState} {p : Str} {V : Vault} (h : ForeignStart E U p V s) (hV : SoundVault V) : SoundReachable E U s
  | meanwhile {s other s' : PState} (h : SoundReachable E U s) (ho : SoundReachable E U other)
      (hm : Meanwhile s other s') : SoundReachable E U s'
  | step {s : PState} (h : SoundReachable E U s) (op : Op) (hop : op.Within U) (hsound : op.Sound)
      (hreset : ∀ p, op = .reset p → (run E op s).1 = .ok .unit ∨ s.key = none) : SoundReachable E U (run E op s).2

/-- The arguments of a command are texts in use, and a length was accepted by the argument parser (see `C57`). -/
def Command.Within (U : Universe) : Command → Prop
  | .add a n r length _ _ _ _ _ => U.site a ∧ U.name n ∧ U.revision r ∧ 4 ≤ length.toNat ∧ length.toNat ≤ 24
  | .addStored a n r _ _ => U.site a ∧ U.name n ∧ U.revision r
  | .remove a n r => U.site a ∧ U.name n ∧ U.revision r
  | .«show» a n r _ => U.site a ∧ U.name n ∧ U.revision r
  | .notes a n r _ => U.site a ∧ U.name n ∧ U.revision r
  | .alias a b _ => U.site a ∧ ∀ t, b = some t → U.site t
  | _ => True

/-- So are the arguments of all commands entered into a shell. -/
def ShellEvent.Within (U : Universe) : ShellEvent → Prop
  | .command c => Command.Within U c
  | _ => True

/-- The lines entered, as far as they are tried as primary passwords, are texts in use. -/
def LinesWithin (U : Universe) (lines : List Str) : Prop :=
  ∀ line ∈ lines, 6 ≤ (utf8 (trim line)).length → U.primary (trim line)

end Pfp.Spec
