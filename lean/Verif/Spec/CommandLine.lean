import Verif.Model.Args

/-!
# Specification: command lines

How commands are typed: the grammar of options and arguments, the table of commands, and the quoting of words in the
shell, written down without reference to the parser (of the model, only the type of arguments and commands is used).
-/

namespace Pfp.Spec
open Pfp.Cli

/-! ## Options and arguments -/

/-- An option in the documentation: short name, long name, whether a value follows. -/
structure Opt where
  short : Option Char
  long : Str
  value : Bool

/-- A word that is not taken for an option: it does not begin with a dash, or is a dash. -/
def Plain (w : Str) : Prop := w = c!"-" ∨ w.head? ≠ some '-'

/-- The words `ws` spell options: `--long`, `--long=value`, `--long value`, `-s` for any number of options without a
value in one word, the last one in such a word possibly being an option with a value: `-sv`, `-s=v` or `-s v`. -/
inductive Option' (opts : List Opt) : List Str → List Arg → Prop
  | long {o : Opt} (ho : o ∈ opts) (hv : o.value = false) :
      Option' opts [c!"--" ++ o.long] [.flag o.long]
  | longEq {o : Opt} (ho : o ∈ opts) (hv : o.value = true) (v : Str) :
      Option' opts [c!"--" ++ o.long ++ c!"=" ++ v] [.opt o.long v]
  | longNext {o : Opt} (ho : o ∈ opts) (hv : o.value = true) (v : Str) (h : Plain v) :
      Option' opts [c!"--" ++ o.long, v] [.opt o.long v]
  | short {flags : List (Char × Str)} (hf : ∀ f ∈ flags, ⟨some f.1, f.2, false⟩ ∈ opts) (hne : flags ≠ []) :
      Option' opts [c!"-" ++ flags.map Prod.fst] (flags.map fun f => .flag f.2)
  | shortAttached {flags : List (Char × Str)} (hf : ∀ f ∈ flags, ⟨some f.1, f.2, false⟩ ∈ opts) {c : Char} {l : Str}
      (ho : ⟨some c, l, true⟩ ∈ opts) (v : Str) (hv : v ≠ []) (heq : v.head? ≠ some '=') :
      Option' opts [c!"-" ++ flags.map Prod.fst ++ [c] ++ v] ((flags.map fun f => .flag f.2) ++ [.opt l v])
  | shortEq {flags : List (Char × Str)} (hf : ∀ f ∈ flags, ⟨some f.1, f.2, false⟩ ∈ opts) {c : Char} {l : Str}
      (ho : ⟨some c, l, true⟩ ∈ opts) (v : Str) :
      Option' opts [c!"-" ++ flags.map Prod.fst ++ [c] ++ c!"=" ++ v] ((flags.map fun f => .flag f.2) ++ [.opt l v])
  | shortNext {flags : List (Char × Str)} (hf : ∀ f ∈ flags, ⟨some f.1, f.2, false⟩ ∈ opts) {c : Char} {l : Str}
      (ho : ⟨some c, l, true⟩ ∈ opts) (v : Str) (h : Plain v) :
      Option' opts [c!"-" ++ flags.map Prod.fst ++ [c], v] ((flags.map fun f => .flag f.2) ++ [.opt l v])

/-- Any number of options. -/
inductive Options (opts : List Opt) : List Str → List Arg → Prop
  | nil : Options opts [] []
  | cons {ws ws' : List Str} {as as' : List Arg} (h : Option' opts ws as) (h' : Options opts ws' as') :
      Options opts (ws ++ ws') (as ++ as')

/-- Options and arguments in any order; after the word `--` all words are arguments. -/
inductive Spelled (opts : List Opt) : List Str → List Arg → Prop
  | nil : Spelled opts [] []
  | opt {ws ws' : List Str} {as as' : List Arg} (h : Option' opts ws as) (h' : Spelled opts ws' as') :
      Spelled opts (ws ++ ws') (as ++ as')
  | arg {w : Str} {ws : List Str} {as : List Arg} (h : Plain w) (h' : Spelled opts ws as) :
      Spelled opts (w :: ws) (.pos w :: as)
  | rest (ws : List Str) : Spelled opts (c!"--" :: ws) (ws.map .pos)

/-- The name of the option an argument belongs to. -/
def optionName : Arg → Option Str
  | .flag l => some l
  | .opt l _ => some l
  | .pos _ => none

/-- No option is given twice. -/
def NotTwice (as : List Arg) : Prop := (as.filterMap optionName).Nodup

/-- The arguments that are not options. -/
def argumentsOf : List Arg → List Str
  | [] => []
  | .pos w :: as => w :: argumentsOf as
  | _ :: as => argumentsOf as

/-- The value of an option with a default value. -/
def ValueOr (as : List Arg) (long default v : Str) : Prop :=
  Arg.opt long v ∈ as ∨ v = default ∧ ∀ w, Arg.opt long w ∉ as

/-- The value of an option without a default value. -/
def Value? (as : List Arg) (long : Str) (v : Option Str) : Prop :=
  (∃ w, v = some w ∧ Arg.opt long w ∈ as) ∨ v = none ∧ ∀ w, Arg.opt long w ∉ as

/-- Whether an option without a value is given. -/
def given (as : List Arg) (long : Str) : Bool := decide (Arg.flag long ∈ as)

/-! ## The commands -/

/-- The options of the program itself. -/
def programOptions : List Opt :=
  [⟨some 'c', c!"storage", true⟩, ⟨none, c!"stdin-passwords", false⟩, ⟨none, c!"wait", false⟩]

/-- The options of the commands. -/
def optionsOf : Command → List Opt
  | .setPrimary _ => [⟨some 'y', c!"assume-yes", false⟩]
  | .add .. => [⟨some 'r', c!"revision", true⟩, ⟨some 'l', c!"length", true⟩, ⟨some 'w', c!"no-lower", false⟩,
      ⟨some 'u', c!"no-upper", false⟩, ⟨some 'd', c!"no-digit", false⟩, ⟨some 's', c!"no-symbol", false⟩,
      ⟨some 'y', c!"assume-yes", false⟩]
  | .addStored .. => [⟨some 'r', c!"revision", true⟩, ⟨some 'c', c!"recovery", false⟩,
      ⟨some 'y', c!"assume-yes", false⟩]
  | .remove .. => [⟨some 'r', c!"revision", true⟩]
  | .«show» .. => [⟨some 'r', c!"revision", true⟩, ⟨some 'q', c!"qrcode", false⟩]
  | .notes .. => [⟨some 'r', c!"revision", true⟩, ⟨some 's', c!"set", false⟩]
  | .list .. => [⟨some 's', c!"show", false⟩, ⟨some 'r', c!"recovery", false⟩, ⟨some 'v', c!"verbose", false⟩]
  | .alias .. => [⟨some 'r', c!"remove", false⟩]
  | .shell => [⟨some 's', c!"history", true⟩]

/-- The names of the commands. -/
def nameOf : Command → Str
  | .setPrimary _ => c!"set-primary"
  | .add .. => c!"add"
  | .addStored .. => c!"add-stored"
  | .remove .. => c!"remove"
  | .«show» .. => c!"show"
  | .notes .. => c!"notes"
  | .list .. => c!"list"
  | .alias .. => c!"alias"
  | .shell => c!"shell"

/-- A length as it can be typed: decimal digits, possibly after a plus sign. -/
def SpellsLength (w : Str) (n : Nat) : Prop :=
  ∃ digits : Str, (w = digits ∨ w = '+' :: digits) ∧ digits ≠ [] ∧ (∀ c ∈ digits, '0' ≤ c ∧ c ≤ '9') ∧
    n = digits.foldl (fun v c => v * 10 + (c.toNat - 48)) 0

/-- The options and arguments `as` after the command's name mean the command. -/
def Means (as : List Arg) : Command → Prop
  | .setPrimary y => argumentsOf as = [] ∧ y = given as (c!"assume-yes")
  | .add d n r len lower upper digit symbol y => argumentsOf as = [d, n] ∧ ValueOr as (c!"revision") (c!"1") r ∧
      (∃ w, ValueOr as (c!"length") (c!"16") w ∧ SpellsLength w len.toNat ∧ 4 ≤ len.toNat ∧ len.toNat ≤ 24) ∧
      lower = given as (c!"no-lower") ∧ upper = given as (c!"no-upper") ∧ digit = given as (c!"no-digit") ∧
      symbol = given as (c!"no-symbol") ∧ y = given as (c!"assume-yes")
  | .addStored d n r recovery y => argumentsOf as = [d, n] ∧ ValueOr as (c!"revision") (c!"1") r ∧
      recovery = given as (c!"recovery") ∧ y = given as (c!"assume-yes")
  | .remove d n r => argumentsOf as = [d, n] ∧ ValueOr as (c!"revision") (c!"1") r
  | .«show» d n r qrcode => argumentsOf as = [d, n] ∧ ValueOr as (c!"revision") (c!"1") r ∧
      qrcode = given as (c!"qrcode")
  | .notes d n r set => argumentsOf as = [d, n] ∧ ValueOr as (c!"revision") (c!"1") r ∧ set = given as (c!"set")
  | .list d n values recovery verbose =>
      (argumentsOf as = [d, n] ∨ (argumentsOf as = [d] ∧ n = c!"*") ∨
        (argumentsOf as = [] ∧ d = c!"*" ∧ n = c!"*")) ∧
      values = given as (c!"show") ∧ recovery = given as (c!"recovery") ∧ verbose = given as (c!"verbose")
  | .alias d target remove => argumentsOf as = d :: target.toList ∧ remove = given as (c!"remove")
  | .shell => argumentsOf as = []

/-- The words of a command: its name, its options and arguments. -/
def CommandWords (ws : List Str) (c : Command) (history : Option Str) : Prop :=
  ∃ rest as, ws = nameOf c :: rest ∧ Spelled (optionsOf c) rest as ∧ NotTwice as ∧ Means as c ∧
    match c with
    | .shell => Value? as (c!"history") history
    | _ => history = none

/-- The words of a command line, without the name of the program. -/
def ProgramWords (ws : List Str) (a : Args) : Prop :=
  ∃ pre as rest, ws = pre ++ rest ∧ Options programOptions pre as ∧ NotTwice as ∧
    Value? as (c!"storage") a.storage ∧ a.stdinPasswords = given as (c!"stdin-passwords") ∧
    a.wait = given as (c!"wait") ∧ CommandWords rest a.command a.history

/-! ### A way to type a command -/

/-- An option without a value, if it is wanted. -/
def typedFlag (wanted : Bool) (long : Str) : List Str := if wanted then [c!"--" ++ long] else []

/-- An option with a value. -/
def typedOpt (long v : Str) : Str := c!"--" ++ long ++ c!"=" ++ v

/-- Words that mean the command. -/
def typed : Command → List Str
  | .setPrimary y => [c!"set-primary"] ++ typedFlag y (c!"assume-yes")
  | .add d n r len lower upper digit symbol y =>
    [c!"add", typedOpt (c!"revision") r, typedOpt (c!"length") (Nat.toDigits 10 len.toNat)] ++
      typedFlag lower (c!"no-lower") ++ typedFlag upper (c!"no-upper") ++ typedFlag digit (c!"no-digit") ++
      typedFlag symbol (c!"no-symbol") ++ typedFlag y (c!"assume-yes") ++ [c!"--", d, n]
  | .addStored d n r recovery y => [c!"add-stored", typedOpt (c!"revision") r] ++
      typedFlag recovery (c!"recovery") ++ typedFlag y (c!"assume-yes") ++ [c!"--", d, n]
  | .remove d n r => [c!"remove", typedOpt (c!"revision") r, c!"--", d, n]
  | .«show» d n r qrcode => [c!"show", typedOpt (c!"revision") r] ++ typedFlag qrcode (c!"qrcode") ++ [c!"--", d, n]
  | .notes d n r set => [c!"notes", typedOpt (c!"revision") r] ++ typedFlag set (c!"set") ++ [c!"--", d, n]
  | .list d n values recovery verbose => [c!"list"] ++ typedFlag values (c!"show") ++
      typedFlag recovery (c!"recovery") ++ typedFlag verbose (c!"verbose") ++ [c!"--", d, n]
  | .alias d target remove => [c!"alias"] ++ typedFlag remove (c!"remove") ++ [c!"--", d] ++ target.toList
  | .shell => [c!"shell"]

/-- Words that mean these arguments of the program. -/
def typedArgs (a : Args) : List Str :=
  (a.storage.map (typedOpt (c!"storage"))).toList ++ typedFlag a.stdinPasswords (c!"stdin-passwords") ++
    typedFlag a.wait (c!"wait") ++ typed a.command ++ (a.history.map (typedOpt (c!"history"))).toList

/-- Arguments of the program that make sense: the length is between 4 and 24, and only the shell has a history. -/
def Args.Sensible (a : Args) : Prop :=
  match a.command with
  | .add _ _ _ len .. => 4 ≤ len.toNat ∧ len.toNat ≤ 24 ∧ a.history = none
  | .shell => True
  | _ => a.history = none

/-! ## Lines of the shell -/

/-- A character that ends a word. -/
def Blank (c : Char) : Prop := isWhitespace c = true

/-- Text in double quotes: a backslash protects `$`, the backquote, the double quote and itself, and stays before other
characters. -/
inductive InDouble : Str → Str → Prop
  | nil : InDouble [] []
  | char {c : Char} (h : c ≠ '"') (h' : c ≠ '\\') {t w : Str} (ht : InDouble t w) : InDouble (c :: t) (c :: w)
  | special {c : Char} (h : c = '$' ∨ c = '`' ∨ c = '"' ∨ c = '\\') {t w : Str} (ht : InDouble t w) :
      InDouble ('\\' :: c :: t) (c :: w)
  | other {c : Char} (h : ¬(c = '$' ∨ c = '`' ∨ c = '"' ∨ c = '\\' ∨ c = '\n')) {t w : Str} (ht : InDouble t w) :
      InDouble ('\\' :: c :: t) ('\\' :: c :: w)

/-- A piece of a word as it is typed (first argument) and what it stands for. -/
inductive Piece : Str → Str → Prop
  | char {c : Char} (h : ¬ Blank c) (h' : c ≠ '\\') (h'' : c ≠ '\'') (h''' : c ≠ '"') : Piece [c] [c]
  | escaped {c : Char} (h : c ≠ '\n') : Piece ['\\', c] [c]
  | single {w : Str} (h : '\'' ∉ w) : Piece (c!"'" ++ w ++ c!"'") w
  | double {t w : Str} (h : InDouble t w) : Piece (c!"\"" ++ t ++ c!"\"") w

/-- A word as it is typed, and the word: one or more pieces. -/
inductive TypedWord : Str → Str → Prop
  | last {t w : Str} (h : Piece t w) : TypedWord t w
  | cons {t w t' w' : Str} (h : Piece t w) (h' : TypedWord t' w') : TypedWord (t ++ t') (w ++ w')

/-- A typed line and its words: words separated by blanks.  A backslash at the end of the line or before a line feed
stands for itself. -/
inductive TypedLine : Str → List Str → Prop
  | nil : TypedLine [] []
  | blank {c : Char} (h : Blank c) {t : Str} {ws : List Str} (ht : TypedLine t ws) : TypedLine (c :: t) ws
  | last {t w : Str} (h : TypedWord t w) : TypedLine t [w]
  | word {t w : Str} (h : TypedWord t w) {c : Char} (hc : Blank c) {t' : Str} {ws : List Str}
      (ht : TypedLine t' ws) : TypedLine (t ++ c :: t') (w :: ws)
  | lastBackslash {t w : Str} (h : TypedWord t w ∨ (t = [] ∧ w = [])) : TypedLine (t ++ c!"\\") [w ++ c!"\\"]
  | backslash {t w : Str} (h : TypedWord t w ∨ (t = [] ∧ w = [])) {t' : Str} {ws : List Str}
      (ht : TypedLine t' ws) : TypedLine (t ++ c!"\\\n" ++ t') ((w ++ c!"\\") :: ws)

/-- A word in single quotes, single quotes in it being written as `'\''`. -/
def quotedWord (w : Str) : Str := c!"'" ++ w.flatMap (fun c => if c = '\'' then c!"'\\''" else [c]) ++ c!"'"

/-- A line consisting of quoted words. -/
def quotedLine : List Str → Str
  | [] => []
  | [w] => quotedWord w
  | w :: ws => quotedWord w ++ c!" " ++ quotedLine ws

/-- The words of the commands `exit` and `lock`, which only exist in the shell and have no options or arguments. -/
def BareWords (ws : List Str) (name : Str) : Prop :=
  ∃ pre as, (ws = pre ++ [name] ∨ ws = pre ++ [name, c!"--"]) ∧ Options programOptions pre as ∧ NotTwice as

/-- What a line typed into the shell means, if it means anything. -/
inductive LineMeans (line : Str) : ShellEvent → Prop
  | exit {ws : List Str} (h : TypedLine line ws) (h' : BareWords ws (c!"exit")) : LineMeans line .exit
  | lock {ws : List Str} (h : TypedLine line ws) (h' : BareWords ws (c!"lock")) : LineMeans line .lock
  | command {ws : List Str} (h : TypedLine line ws) {a : Args} (h' : ProgramWords ws a) :
      LineMeans line (.command a.command)

end Pfp.Spec
