/-
Specification vocabulary for preference lists without brackets and double quotes, however sloppily written: what
stands between two delimiters, and which candidates that names.
-/
import Verif.Spec.Prefstr

namespace Verif.Spec
variable [Uni]

/-- What can stand between two delimiters: nothing but blanks; a candidate; a candidate and a rating; a rating alone. -/
inductive Piece
  | blank (ws : Str)
  | cand (pre tok post : Str)
  | rated (pre tok digits post : Str)
  | late (pre digits post : Str)
deriving DecidableEq, Repr

/-- the piece as written -/
def Piece.text : Piece → Str
  | .blank ws => ws
  | .cand pre tok post => pre ++ (tok ++ post)
  | .rated pre tok digits post => pre ++ (tok ++ '/' :: digits ++ post)
  | .late pre digits post => pre ++ ('/' :: digits ++ post)

/-- only blanks -/
def OnlyBlanks (s : Str) : Prop := ∀ c ∈ s, isSpace c = true

/-- digits, at least one -/
def Digits (s : Str) : Prop := s ≠ [] ∧ ∀ c ∈ s, isDigit c = true

/-- a text that starts with neither a blank nor a double quote and has none of `[ ] > = ,` -/
def Starts (t : Str) : Prop :=
  t ≠ [] ∧ (∀ c, t.head? = some c → isSpace c = false ∧ c ≠ '"') ∧ ∀ c ∈ t, isSepChar c = false

/-- Which pieces can be written.  The blanks are around the piece; a candidate without a rating does not end in a
blank or in `/digits` (it would be a rated one). -/
def Piece.Ok : Piece → Prop
  | .blank ws => OnlyBlanks ws
  | .cand pre tok post => OnlyBlanks pre ∧ OnlyBlanks post ∧ Starts tok ∧ (∀ c, tok.getLast? = some c → isSpace c = false) ∧
      ¬ ∃ t ds, tok = t ++ '/' :: ds ∧ Digits ds
  | .rated pre tok digits post => OnlyBlanks pre ∧ OnlyBlanks post ∧ Starts tok ∧ Digits digits
  | .late pre digits post => OnlyBlanks pre ∧ OnlyBlanks post ∧ Digits digits

/-- Pieces separated by single delimiter characters. -/
def writePieces : List Piece → List Char → Str
  | [], _ => []
  | [p], _ => p.text
  | p :: ps, d :: ds => p.text ++ d :: writePieces ps ds
  | p :: _, [] => p.text

/-- The candidates named by the pieces, with the digits of their ratings: a rating alone rates the candidate before
it, and without one the list cannot be read. -/
def named : List (Str × Option Str) → List Piece → Option (List (Str × Option Str))
  | sofar, [] => some sofar
  | sofar, .blank _ :: ps => named sofar ps
  | sofar, .cand _ t _ :: ps => named (sofar ++ [(t, none)]) ps
  | sofar, .rated _ t ds _ :: ps => named (sofar ++ [(t, some ds)]) ps
  | sofar, .late _ ds _ :: ps =>
    match sofar.getLast? with
    | none => none
    | some (t, _) => named (sofar.dropLast ++ [(t, some ds)]) ps

/-- the stored rating: nothing if missing or zero -/
def storedRating : Option Str → Option RVal
  | none => none
  | some ds => if digitsVal ds = 0 then none else some (.int (digitsVal ds))

/-- the rating as a number, 0 when missing -/
def writtenNumber : Option Str → Int
  | none => 0
  | some ds => digitsVal ds

/-- the rating written with the last mention of a candidate -/
def lastRating (l : List (Str × Option Str)) (t : Str) : Option Str :=
  ((l.filter (fun x => decide (x.1 = t))).getLast?).bind Prod.snd

/-- Somewhere in the text there is nothing, or nothing but blanks, between two of the characters `[ ] > = ,`, or between one of them and an end. -/
def Gap (r : Str) : Prop :=
  ∃ a w b, r = a ++ w ++ b ∧ OnlyBlanks w ∧ (a = [] ∨ ∃ a' c, a = a' ++ [c] ∧ isSepChar c = true) ∧
    (b = [] ∨ ∃ c b', b = c :: b' ∧ isSepChar c = true)

end Verif.Spec
