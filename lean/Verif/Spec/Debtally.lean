/-
Specification vocabulary for Debian tally sheets.
-/
import Verif.Spec.Tiers

namespace Verif.Spec
variable [Uni]

/-- A line of a tally sheet. -/
inductive DLine
  /-- `<pre>Option k<mid>:<gap><name>`, as in `  |/  Option 3-------->: Branden Robinson` -/
  | opt (pre : Str) (k : Nat) (mid gap name : Str)
  /-- `V: <ranks><gap><voter id><rest>` -/
  | vote (ranks gap vid rest : Str)
  /-- any other line -/
  | other (text : Str)

/-- the line as written -/
def DLine.text : DLine → Str
  | .opt pre k mid gap name => pre ++ (c!"Option " ++ (natStr k ++ (mid ++ ':' :: (gap ++ name))))
  | .vote ranks gap vid rest => c!"V: " ++ (ranks ++ (gap ++ (vid ++ rest)))
  | .other t => t

/-- a nonempty string of blanks -/
def Blanks (s : Str) : Prop := s ≠ [] ∧ ∀ c ∈ s, isSpace c = true

/-- Which lines: names do not start with a blank and hold no colon followed by a blank; rank fields are made of digits
and hyphens; other lines look like neither. -/
def DLine.Ok : DLine → Prop
  | .opt pre k mid gap name =>
    'O' ∉ pre ∧ ¬ c!"V: " <+: (DLine.opt pre k mid gap name).text ∧ Blanks gap ∧
    (∀ c, name.head? = some c → isSpace c = false) ∧ (¬ ∃ a w b, name = a ++ ':' :: w :: b ∧ isSpace w = true) ∧
    ∀ c ∈ (DLine.opt pre k mid gap name).text, isLineBreak c = false
  | .vote ranks gap vid rest =>
    ranks ≠ [] ∧ (∀ c ∈ ranks, c = '-' ∨ isDigit c = true) ∧ Blanks gap ∧ vid ≠ [] ∧ (∀ c ∈ vid, isSpace c = false) ∧
    (∀ c, rest.head? = some c → isSpace c = true) ∧ ¬ c!"Option " <:+: (DLine.vote ranks gap vid rest).text ∧
    ∀ c ∈ (DLine.vote ranks gap vid rest).text, isLineBreak c = false
  | .other t => ¬ c!"Option " <:+: t ∧ ¬ c!"V: " <+: t ∧ ∀ c ∈ t, isLineBreak c = false

/-- the whole sheet -/
def sheetText (doc : List DLine) : Str := doc.flatMap (fun l => l.text ++ ['\n'])

/-- the option names, in order -/
def sheetNames (doc : List DLine) : List Str :=
  doc.filterMap (fun l => match l with | .opt _ _ _ _ name => some name | _ => none)

/-- the votes, in order: rank characters and voter id -/
def sheetVotes (doc : List DLine) : List (Str × Str) :=
  doc.filterMap (fun l => match l with | .vote ranks _ vid _ => some (ranks, vid) | _ => none)

/-- the rank character of a number below ten -/
def rankChar (r : Nat) : Char := Char.ofNat (48 + r)

/-- The tiers of a vote over the given tokens: for each rank 1, 2, … (below ten, and not more than there are options)
the options marked with it, leaving out ranks that mark nothing. -/
def sheetTiers (toks : List Str) (ranks : Str) : List (List Str) :=
  ((List.range' 1 (min 9 toks.length)).map (fun r =>
    ((toks.zip ranks).filter (fun tc => decide (tc.2 = rankChar r))).map Prod.fst)).filter (fun t => decide (t ≠ []))

/-- the vote as a ballot over tokens -/
def sheetBallot (toks : List Str) (v : Str × Str) : ImpVote :=
  { qty := c!"1", tiers := sheetTiers toks v.1, vid := some v.2 }

/-- Option number `i` (from 0) of a sheet with `n` options is ranked `d` by the vote. -/
def RankedAs (n : Nat) (ranks : Str) (i d : Nat) : Prop :=
  1 ≤ d ∧ d ≤ 9 ∧ d ≤ n ∧ ranks[i]? = some (rankChar d)

/-- No character after the last option is a rank that the sheet can give. -/
def NoExtra (n : Nat) (ranks : Str) : Prop := ∀ i d, n ≤ i → ¬ RankedAs n ranks i d

end Verif.Spec
