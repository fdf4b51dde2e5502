import Verif.Spec.Locality
import Verif.Spec.Listing

/-!
# Runs on storage files with different entries (C113)
-/

namespace Pfp.Spec
open Pfp.Cli

/-- The library operations which a command uses once the storage is unlocked; `set-primary` is not considered. -/
def Uses : Command → Op → Prop
  | .add a n r length noLower noUpper noDigit noSymbol _, op =>
      op = .has a n r ∨ op = .setGenerated a n r length ⟨!noLower, !noUpper, !noDigit, !noSymbol⟩
  | .addStored a n r _ _, op => op = .has a n r ∨ ∃ value, op = .setStored a n r value
  | .remove a n r, op => op = .remove a n r
  | .«show» a n r _, op => op = .get a n r
  | .notes a n r set, op => op = .getNotes a n r ∨ set = true ∧ ∃ text, op = .setNotes a n r text
  | .alias a (some b) _, op => op = .setAlias a b
  | .alias a none true, op => op = .removeAlias a
  | .alias a none false, op => op = .getAlias a
  | .list domain name showValues recovery _, op => op = .listSites domain ∨ (∃ site, op = .list site name) ∨
      (showValues = true ∧ ∃ site n r, op = .get site n r) ∨ (recovery = true ∧ ∃ p, op = .getRecoveryCode p) ∨
      ∃ sites, op = .removeSites sites
  | _, _ => False

/-- The operations in a run that carries out these commands, `lines` being the lines entered. -/
def Steps (lines : List Str) (commands : List Command) (op : Op) : Prop :=
  op = .lock ∨ (∃ line ∈ lines, op = .unlock (trim line)) ∨ ∃ c ∈ commands, Uses c op

/-- No two passwords or sites listed by a command are to be put in order by the same text. -/
def Untied (E : Env) (u : PState) : Command → Prop
  | .list domain name _ _ _ => (∀ l, ask E u (.listSites domain) = .ok (.sites l) → (l.map Site.name).Nodup) ∧
      ∀ site l, ask E u (.list site name) = .ok (.passwords l) → ∀ x ∈ l, ∀ y ∈ l, sortText x = sortText y → x = y
  | _ => True

/-- One of the commands sets an alias. -/
def SetsAlias (commands : List Command) : Prop := ∃ a b r, Command.alias a (some b) r ∈ commands

end Pfp.Spec
