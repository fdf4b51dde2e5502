import Verif.Spec.Cli
import Verif.Spec.Contents

/-!
# Specification: what the `list` command shows
-/

namespace Pfp.Spec
open Pfp.Cli

/-- Texts in strictly ascending order of their UTF-8 bytes. -/
def Ascending (l : List Str) : Prop := (l.map utf8).Pairwise (· < ·)

/-- The site `y` gets a heading when the sites `l` match: it is among them and not an alias, or it is the site meant by an
alias among them without being among them itself. -/
def Heading (l : List Site) (y : Str) : Prop :=
  ⟨y, none⟩ ∈ l ∨ ((∃ x ∈ l, x.alias = some y) ∧ ∀ x ∈ l, x.name ≠ y)

/-- Site names are as the program normally has them: without leading `www.`, and no alias of an alias. -/
structure PlainSites (E : Env) (s : PState) : Prop where
  names : ∀ q l, ask E s (.listSites q) = .ok (.sites l) → ∀ x ∈ l,
    canonical x.name = x.name ∧ ∀ t, x.alias = some t → canonical t = t
  chains : ∀ q l q' l', ask E s (.listSites q) = .ok (.sites l) → ask E s (.listSites q') = .ok (.sites l') →
    ∀ x ∈ l, ∀ y ∈ l', x.alias = some y.name → y.alias = none

/-- The text the passwords of a site are sorted by. -/
def sortText (x : Password) : Str := x.id.name ++ ' ' :: x.id.revision

/-- Passwords in ascending order of these texts. -/
def Sorted (l : List Password) : Prop := l.Pairwise fun x y => utf8 (sortText x) ≤ utf8 (sortText y)

/-- The same state after drawing random bytes. -/
def drawn (s : PState) (k : Nat) : PState := { s with world := { s.world with rpos := k } }

/-- Lines, indented. -/
def indented (lines : List Str) : Str := lines.flatMap fun line => c!"        " ++ line ++ c!"\n"

/-- Characters allowed in a generated password, for display. -/
def charsetText (cs : CharacterSet) : Str :=
  join (c!" ") ((if cs.lower then [c!"abc"] else []) ++ (if cs.upper then [c!"ABC"] else []) ++
    (if cs.digit then [c!"789"] else []) ++ if cs.symbol then [c!"+^;"] else [])

/-- Notes and parameters of a password. -/
def detailLines (x : Password) : List Str :=
  (if x.notes = [] then [] else [c!"Notes: " ++ x.notes]) ++
  match x with
  | .stored _ => []
  | .generated g => [c!"Length: " ++ Json.natDigits g.length.toNat, c!"Allowed characters: " ++ charsetText g.charset]

/-- The lines shown for the password `x` of the site `y`.  The recovery code is one `get_recovery_code` returns for
it. -/
def EntryLines (E : Env) (s : PState) (y : Str) (showValues recovery verbose : Bool) (x : Password) (t : List Str) : Prop :=
  ∃ value code, t = value ++ code ++ (if verbose then detailLines x else []) ∧
    (showValues = false → value = []) ∧
    (showValues = true → ∃ v, ask E s (.get y x.id.name x.id.revision) = .ok (.text v) ∧ value = [v]) ∧
    (recovery = false → code = []) ∧
    (recovery = true → match x with
      | .generated _ => code = []
      | .stored z => ∃ k c lines, ask E (drawn s k) (.getRecoveryCode z) = .ok (.code c) ∧
        c.map byteChar = join ['\n'] lines ∧ (∀ line ∈ lines, '\n' ∉ line) ∧ code = c!"Recovery code:" :: lines)

/-- The first line shown for a password. -/
def entryTitle (x : Password) : Str :=
  c!"    " ++ x.id.name ++ c!" (" ++ (match x with | .stored _ => c!"stored" | .generated _ => c!"generated") ++
    (if x.id.revision = [] then [] else c!", revision: " ++ x.id.revision) ++ c!")\n"

/-- The text shown for a site with the aliases and passwords given. -/
def SiteText (E : Env) (s : PState) (showValues recovery verbose : Bool) (y : Str) (aliases : List Str)
    (rows : List Password) (t : Str) : Prop :=
  ∃ entries : List (Password × List Str), entries.map Prod.fst = rows ∧
    (∀ e ∈ entries, EntryLines E s y showValues recovery verbose e.1 e.2) ∧
    t = c!"Passwords for " ++ y ++ c!":\n" ++
      (if verbose = true ∧ aliases ≠ [] then c!"    Aliases: " ++ join (c!",\n             ") aliases ++ c!"\n" else []) ++
      entries.flatMap fun e => entryTitle e.1 ++ indented e.2

end Pfp.Spec
