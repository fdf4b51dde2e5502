import Verif.Spec.Tampering

/-!
# Working on with storage files that somebody else keeps changing (C106)
-/

namespace Pfp.Spec

/-- The record of a password that the owner entered.  The notes have been entered by the owner too, perhaps for another password. -/
def OwnRecord (G : Op → Prop) (x : Password) : Prop :=
  Named G x.id.site ∧ (x.notes = [] ∨ ∃ a n r, G (.setNotes a n r x.notes)) ∧
    match x with
    | .stored z => Given G z.id.name z.id.revision (.stored z.password)
    | .generated g => Given G g.id.name g.id.revision (.generated g.length g.charset)

/-- The operation neither starts over nor uses another primary password than `p`. -/
def Continues (p : Str) : Op → Prop
  | .reset _ | .reload => False
  | .unlock q => q = p
  | _ => True

/-- The states of processes of the owner, who keeps working with files that somebody else keeps changing.  A process begins by opening
a file in which nothing is forged: a legible value is one that the owner has had in memory, at first (`owner`) or later.  It goes on with
operations `G`.  Meanwhile the file may become anything. -/
inductive Working (E : Env) (owner : PState → Prop) (G : Op → Prop) (p : Str) : List PState → Prop
  | start : Working E owner G p []
  | file {l : List PState} (h : Working E owner G p l) {s : PState} (ho : Opens E p s)
      (hn : NoForgery E (fun u => owner u ∨ u ∈ l) p (opened E p s)) : Working E owner G p (opened E p s :: l)
  | step {l : List PState} (h : Working E owner G p l) {u : PState} (hu : u ∈ l) (op : Op) (hg : G op) (hop : Continues p op) :
      Working E owner G p (after E u op :: l)
  | changed {l : List PState} (h : Working E owner G p l) {u : PState} (hu : u ∈ l) (disk : Option Bytes) :
      Working E owner G p ({ u with world := { u.world with disk } } :: l)

end Pfp.Spec
