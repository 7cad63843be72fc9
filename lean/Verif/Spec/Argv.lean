/-
Specification for C102: the ways to write the options of abiftool, and what they mean.
-/
import Verif.Model.Cli

namespace Verif.Spec
variable [Uni]

/-- An option as the user means it, with its value. -/
inductive Use
  | debug
  | cleanws
  | addScores
  | «from» (format : Str)
  | out (format : Str)
  | mod (name : Str)
  | width (text : Str)
deriving DecidableEq

def Use.longName : Use → Str
  | .debug => c!"debug"
  | .cleanws => c!"cleanws"
  | .addScores => c!"add-scores"
  | .from _ => c!"fromfmt"
  | .out _ => c!"to"
  | .mod _ => c!"modifier"
  | .width _ => c!"width"

/-- the letter, for the options that have one -/
def Use.letter : Use → Option Char
  | .debug => some 'd'
  | .cleanws => none
  | .addScores => none
  | .from _ => some 'f'
  | .out _ => some 't'
  | .mod _ => some 'm'
  | .width _ => some 'w'

/-- the value, for the options that take one -/
def Use.value : Use → Option Str
  | .from v => some v
  | .out v => some v
  | .mod v => some v
  | .width v => some v
  | _ => none

/-- a negative number: `-12`, `-.5`, `-1.5` -/
def NegNumber (w : Str) : Prop :=
  (∃ ds, w = '-' :: ds ∧ ds ≠ [] ∧ ∀ c ∈ ds, isDigit c = true) ∨
  ∃ ds es, w = '-' :: (ds ++ '.' :: es) ∧ (∀ c ∈ ds, isDigit c = true) ∧ es ≠ [] ∧ ∀ c ∈ es, isDigit c = true

/-- A word that cannot be taken for an option: it does not start with a dash, is a single dash, or starts with a dash and is a
number or has a space in it and has neither the letter of an option nor the start of the name of one (`--help` included). -/
def PlainWord (w : Str) : Prop :=
  w.head? ≠ some '-' ∨ w = ['-'] ∨
  ((NegNumber w ∨ ' ' ∈ w) ∧
    ((∃ c t, w = '-' :: c :: t ∧ c ≠ '-' ∧ c ≠ '=' ∧ c ∉ c!"hdftmw") ∨
     (∃ t, w = '-' :: '-' :: t ∧ ∀ name ∈ [c!"help", c!"debug", c!"fromfmt", c!"to", c!"modifier", c!"width", c!"cleanws", c!"add-scores"],
       ¬ t.takeWhile (fun c => c != '=') <+: name)))

/-- The words that write some options: a long name or the beginning of one, with the value after `=` or as the next word; a letter,
with the value attached, after `=`, or as the next word; and `d` in front of other letters. -/
inductive Writes : List Use → List Str → Prop
  | longFlag (u : Use) (n : Str) : u.value = none → n ≠ [] → n <+: u.longName → Writes [u] ['-' :: '-' :: n]
  | longEq (u : Use) (n v : Str) : u.value = some v → n ≠ [] → n <+: u.longName → Writes [u] ['-' :: '-' :: (n ++ '=' :: v)]
  | longNext (u : Use) (n v : Str) : u.value = some v → n ≠ [] → n <+: u.longName → PlainWord v → Writes [u] ['-' :: '-' :: n, v]
  | letterFlag (u : Use) (c : Char) : u.value = none → u.letter = some c → Writes [u] [['-', c]]
  | letterEq (u : Use) (c : Char) (v : Str) : u.value = some v → u.letter = some c → Writes [u] ['-' :: c :: '=' :: v]
  | letterWith (u : Use) (c : Char) (v : Str) : u.value = some v → u.letter = some c → v ≠ [] → v.head? ≠ some '=' → Writes [u] ['-' :: c :: v]
  | letterNext (u : Use) (c : Char) (v : Str) : u.value = some v → u.letter = some c → PlainWord v → Writes [u] [['-', c], v]
  | together (us : List Use) (c : Char) (s : Str) (ws : List Str) : c ≠ '-' → Writes us (('-' :: c :: s) :: ws) →
      Writes (.debug :: us) (('-' :: 'd' :: c :: s) :: ws)

/-- words that write a list of options, one after the other -/
inductive WritesAll : List Use → List Str → Prop
  | nil : WritesAll [] []
  | cons (us us' : List Use) (ws ws' : List Str) : Writes us ws → WritesAll us' ws' → WritesAll (us ++ us') (ws ++ ws')

/-- The values the program lists in its help, and whole numbers for the width. -/
def Use.Valid : Use → Prop
  | .from v => v ∈ [c!"abif", c!"debtally", c!"jabmod", c!"nameq", c!"preflib", c!"sftxt", c!"widj"]
  | .out v => v ∈ [c!"abif", c!"csvrank", c!"dot", c!"html", c!"html_snippet", c!"irvjson", c!"jabmod", c!"json", c!"nameq",
      c!"paircountjson", c!"svg", c!"text", c!"winlosstiejson"]
  | .mod v => v ∈ [c!"candlist", c!"Copeland", c!"consolidate", c!"IRV", c!"jcomments", c!"pairwise", c!"score", c!"STAR", c!"svg",
      c!"winlosstie"]
  | .width v => ∃ i, pyIntOfStr v = .ok i
  | _ => True

def Use.asFrom : Use → Option Str
  | .from v => some v
  | _ => none

def Use.asOut : Use → Option Str
  | .out v => some v
  | _ => none

def Use.asMod : Use → Option Str
  | .mod v => some v
  | _ => none

def Use.asWidth : Use → Option Int
  | .width v => (pyIntOfStr v).toOption
  | _ => none

/-- What the options mean together: the last `-f`, `-t` and `-w` count, the `-m` add up, and the flags are on if given. -/
def Meaning (files : List Str) (us : List Use) : CliArgs where
  files := files
  fromfmt := (us.filterMap Use.asFrom).getLast?
  to := (us.filterMap Use.asOut).getLast?.getD c!"text"
  modifier := if us.filterMap Use.asMod = [] then none else some (us.filterMap Use.asMod)
  width := (us.filterMap Use.asWidth).getLast?.getD 160
  cleanws := decide (Use.cleanws ∈ us)
  addScores := decide (Use.addScores ∈ us)

/-- a word that asks for help: `-h`, `-dh`, `--h`, `--help`… -/
def AsksHelp (w : Str) : Prop :=
  (∃ n, n ≠ [] ∧ n <+: c!"help" ∧ w = '-' :: '-' :: n) ∨ ∃ k s, w = '-' :: (List.replicate k 'd' ++ 'h' :: s)

end Verif.Spec
