/-
Specification for C110: the ways to write the options of a program on its command line.
-/
import Verif.Model.ScriptArgv
import Verif.Spec.Argv

namespace Verif.Spec
variable [Uni]

/-- What the options of a program have to be like: no name is the beginning of another, no two letters are the same, and names and letters are no
signs. -/
structure SoundProgram (P : Program) : Prop where
  names : ∀ o ∈ P.all, ∀ o' ∈ P.all, o.name <+: o'.name → o = o'
  letters : ∀ o ∈ P.all, ∀ o' ∈ P.all, o.letter ≠ none → o.letter = o'.letter → o = o'
  nodup : P.all.Nodup
  plain : ∀ o ∈ P.all, o.name ≠ [] ∧ '=' ∉ o.name ∧ o.letter ≠ some '=' ∧ o.letter ≠ some '-'

/-- a beginning of the name of an option, long enough not to be that of another -/
def Names (P : Program) (n : Str) (o : OptDef) : Prop := n ≠ [] ∧ o ∈ P.all ∧ n <+: o.name ∧ ∀ o' ∈ P.all, n <+: o'.name → o' = o

/-- A word that cannot be taken for an option of the program: it does not start with a dash, is a single dash, or starts with a dash and is a
number or has a space in it and has neither the letter of an option nor the start of the name of one. -/
def PlainFor (P : Program) (w : Str) : Prop :=
  w.head? ≠ some '-' ∨ w = ['-'] ∨
  ((NegNumber w ∨ ' ' ∈ w) ∧
    ((∃ c t, w = '-' :: c :: t ∧ c ≠ '-' ∧ c ≠ '=' ∧ ∀ o ∈ P.all, o.letter ≠ some c) ∨
     (∃ t, w = '-' :: '-' :: t ∧ t ≠ [] ∧ ∀ o ∈ P.all, ¬ t.takeWhile (fun c => c != '=') <+: o.name)))

/-- The words that write some options: a long name or the beginning of one, with the value after `=` or as the next word; a letter, with the
value attached, after `=`, or as the next word; and the letter of a flag in front of other letters. -/
inductive Wrote (P : Program) : List (OptDef × Str) → List Str → Prop
  | longFlag (o : OptDef) (n : Str) : Names P n o → o.takes = false → Wrote P [(o, [])] ['-' :: '-' :: n]
  | longEq (o : OptDef) (n v : Str) : Names P n o → o.takes = true → Wrote P [(o, v)] ['-' :: '-' :: (n ++ '=' :: v)]
  | longNext (o : OptDef) (n v : Str) : Names P n o → o.takes = true → PlainFor P v → Wrote P [(o, v)] ['-' :: '-' :: n, v]
  | letterFlag (o : OptDef) (c : Char) : o ∈ P.all → o.letter = some c → o.takes = false → Wrote P [(o, [])] [['-', c]]
  | letterEq (o : OptDef) (c : Char) (v : Str) : o ∈ P.all → o.letter = some c → o.takes = true → Wrote P [(o, v)] ['-' :: c :: '=' :: v]
  | letterWith (o : OptDef) (c : Char) (v : Str) : o ∈ P.all → o.letter = some c → o.takes = true → v ≠ [] → v.head? ≠ some '=' →
      Wrote P [(o, v)] ['-' :: c :: v]
  | letterNext (o : OptDef) (c : Char) (v : Str) : o ∈ P.all → o.letter = some c → o.takes = true → PlainFor P v → Wrote P [(o, v)] [['-', c], v]
  | together (o : OptDef) (c : Char) (us : List (OptDef × Str)) (c' : Char) (s : Str) (ws : List Str) : o ∈ P.all → o.letter = some c →
      o.takes = false → c' ≠ '-' → Wrote P us (('-' :: c' :: s) :: ws) → Wrote P ((o, []) :: us) (('-' :: c :: c' :: s) :: ws)

/-- a command line: options and other words in any order; what the options are, and the other words -/
inductive Line (P : Program) : List Str → List (OptDef × Str) → List Str → Prop
  | nil : Line P [] [] []
  | opts (us us' : List (OptDef × Str)) (ws t fs : List Str) : Wrote P us ws → Line P t us' fs → Line P (ws ++ t) (us ++ us') fs
  | file (f : Str) (t fs : List Str) (us : List (OptDef × Str)) : PlainFor P f → Line P t us fs → Line P (f :: t) us (f :: fs)

/-- the options given are no request for help, and their values are among the choices of the program, if it has any -/
def Acceptable (us : List (OptDef × Str)) : Prop := ∀ u ∈ us, u.1 ≠ helpOpt ∧ ∀ l, u.1.choices = some l → u.2 ∈ l

end Verif.Spec
