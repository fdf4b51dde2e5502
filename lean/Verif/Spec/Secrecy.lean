import Verif.Spec.Runs

/-!
# Specification: histories that differ in the values of stored passwords only
-/

namespace Pfp.Spec
open Cli

/-- An entry of a listing without the value stored. -/
def withoutValue : Password → Password
  | .stored x => .stored { x with password := [] }
  | .generated x => .generated x

/-- Two states reached from the same state by the same operations, except that the values of passwords stored may be
different; meanwhile other processes may have used the file, doing the same up to values and writing equally often.  A new
process is started in both or, if the file cannot be read, in none: when writing fails half way, the number of bytes
written is given, and whether these are all bytes depends on the values. -/
inductive Twins (E : Env) (U : Universe) : PState → PState → Prop
  | same {s : PState} (h : Reachable E U s) : Twins E U s s
  | meanwhile {s s' o o' t t' : PState} (h : Twins E U s s') (ho : Twins E U o o') (hm : Meanwhile s o t) (hm' : Meanwhile s' o' t')
      (hfpos : t'.world.fpos = t.world.fpos) : Twins E U t t'
  | step {s s' : PState} (h : Twins E U s s') (op : Op) (hop : op.Within U)
      (hreset : ∀ p, op = .reset p → ask E s op = .ok .unit ∨ s.key = none)
      (hreload : op = .reload → (ask E s op = .ok .unit ↔ ask E s' op = .ok .unit)) : Twins E U (after E s op) (after E s' op)
  | value {s s' : PState} (h : Twins E U s s') (a n r v v' : Str) (ha : U.site a) (hn : U.name n) (hr : U.revision r) :
      Twins E U (after E s (.setStored a n r v)) (after E s' (.setStored a n r v'))

/-- The same for states of the application. -/
structure CliTwins (E : Env) (U : Universe) (cs cs' : CState) : Prop where
  storage : Twins E U cs.ps cs'.ps
  secrets : cs'.secrets = cs.secrets
  garbled : cs'.garbled = cs.garbled
  confirms : cs'.confirms = cs.confirms
  answers : cs'.answers = cs.answers
  out : cs'.out = cs.out
  errors : cs'.errors = cs.errors

/-- States of the application that differ in the lines waiting and the values stored only. -/
structure Told (E : Env) (U : Universe) (cs cs' : CState) : Prop where
  storage : Twins E U cs.ps cs'.ps
  garbled : cs'.garbled = cs.garbled
  confirms : cs'.confirms = cs.confirms
  answers : cs'.answers = cs.answers
  out : cs'.out = cs.out
  errors : cs'.errors = cs.errors

/-- Answers to the same request that differ in the values of stored passwords only, and in the order of lists. -/
def AnswersAlike (op : Op) (r r' : Res Out) : Prop :=
  match op with
  | .get _ _ _ => r' = r ∨ ∃ v v', r = .ok (.text v) ∧ r' = .ok (.text v')
  | .list _ _ => r' = r ∨ ∃ l l', r = .ok (.passwords l) ∧ r' = .ok (.passwords l') ∧
      (l'.map withoutValue).Perm (l.map withoutValue)
  | .listSites _ => r' = r ∨ ∃ l l', r = .ok (.sites l) ∧ r' = .ok (.sites l') ∧ l'.Perm l
  | .getRecoveryCode _ => True
  | .reload => True
  | _ => r' = r

/-- Commands not meant to show values of passwords. -/
def Command.Discreet : Command → Prop
  | .«show» _ _ _ _ => False
  | .list _ _ showValues recovery _ => showValues = false ∧ recovery = false
  | _ => True

/-- The same for lines of the shell. -/
def ShellEvent.Discreet : ShellEvent → Prop
  | .command c => Command.Discreet c
  | _ => True

/-- Different names and revisions in use are told apart when sorted (see `C51`). -/
def Tieless (U : Universe) : Prop := ∀ n r n' r', U.name n → U.revision r → U.name n' → U.revision r' →
  n ++ ' ' :: r = n' ++ ' ' :: r' → n = n' ∧ r = r'

/-- Two files of which both can be read, or none and for the same reason. -/
def LoadAlike (disk disk' : Option Bytes) : Prop :=
  (∃ data data', FileIO.load disk = .ok data ∧ FileIO.load disk' = .ok data') ∨
  ∃ e, FileIO.load disk = .err e ∧ FileIO.load disk' = .err e

end Pfp.Spec
