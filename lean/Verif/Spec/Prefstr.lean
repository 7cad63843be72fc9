/-
Specification vocabulary for the preference part of a voteline: how a list of candidates is written.
-/
import Verif.Spec.Score

namespace Verif.Spec
variable [Uni]

/-- How a candidate token is written on a voteline. -/
inductive Style
  | bare
  | bracket
  | quoted
deriving DecidableEq, Repr

/-- One candidate as written on a voteline: blanks, the token in its style, an optional `/rating` (as its
digits), blanks. -/
structure Item where
  pre : Str := []
  style : Style := .bare
  tok : Str
  rating : Option Str := none
  post : Str := []
deriving DecidableEq, Repr

/-- the token as written -/
def Item.tokText (it : Item) : Str :=
  match it.style with
  | .bare => it.tok
  | .bracket => '[' :: (it.tok ++ [']'])
  | .quoted => '"' :: (it.tok ++ ['"'])

/-- the rating as written -/
def Item.ratingText (it : Item) : Str :=
  match it.rating with
  | some ds => '/' :: ds
  | none => []

/-- the item as written -/
def Item.text (it : Item) : Str := it.pre ++ (it.tokText ++ (it.ratingText ++ it.post))

/-- one of `[ ] > = ,` -/
def isSepChar (c : Char) : Bool := [ '[', ']', '>', '=', ',' ].contains c

/-- a token without surrounding blanks that does not start with a double quote -/
def CleanToken (t : Str) : Prop := t ≠ [] ∧ strip t = t ∧ t.head? ≠ some '"'

/-- Which items can be written.  A bare token has none of `[ ] > = ,`, and without a rating it must not
itself end in `/digits`.  A bracketed token may contain `[ > = ,` as long as the parts between them are
clean.  A quoted token must have a rating (without one it is dropped, see C07). -/
def Item.Ok (it : Item) : Prop :=
  (∀ c ∈ it.pre, isSpace c = true) ∧ (∀ c ∈ it.post, isSpace c = true) ∧
  (∀ ds, it.rating = some ds → ds ≠ [] ∧ ∀ c ∈ ds, isDigit c = true) ∧
  match it.style with
  | .bare => CleanToken it.tok ∧ (∀ c ∈ it.tok, isSepChar c = false) ∧
      (it.rating = none → ¬ ∃ t ds, it.tok = t ++ '/' :: ds ∧ ds ≠ [] ∧ ∀ c ∈ ds, isDigit c = true)
  | .bracket => ']' ∉ it.tok ∧ ∀ part ∈ splitKeep isSepChar it.tok, CleanToken part
  | .quoted => '"' ∉ it.tok ∧ (∀ c ∈ it.tok, isSepChar c = false) ∧ it.rating ≠ none

/-- A candidate in double quotes without a rating. -/
def Item.QuotedUnrated (it : Item) : Prop :=
  it.style = .quoted ∧ it.rating = none ∧ (∀ c ∈ it.pre, isSpace c = true) ∧ (∀ c ∈ it.post, isSpace c = true) ∧
  '"' ∉ it.tok ∧ ∀ c ∈ it.tok, isSepChar c = false

/-- everything but the candidates in double quotes without a rating -/
def Item.bareOrRated (it : Item) : Bool := !(decide (it.style = .quoted) && it.rating.isNone)

/-- the value the model stores for the written rating: a number, a digit string after a quoted token, or
nothing when it is missing or zero -/
def Item.value (it : Item) : Option RVal :=
  match it.rating with
  | none => none
  | some ds =>
    match it.style with
    | .quoted => some (.str ds)
    | _ => if digitsVal ds = 0 then none else some (.int (digitsVal ds))

/-- the written rating as a number, 0 when missing -/
def Item.number (it : Item) : Int :=
  match it.rating with
  | none => 0
  | some ds => digitsVal ds

/-- Items separated by single delimiter characters. -/
def writeItems : List Item → List Char → Str
  | [], _ => []
  | [it], _ => it.text
  | it :: its, d :: ds => it.text ++ d :: writeItems its ds
  | it :: _, [] => it.text

end Verif.Spec
