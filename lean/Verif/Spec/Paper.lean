/-
An election on paper: what was written on the ballots, how it is written down in .abif, and what it says.  Nothing
here is taken from the program's model: the numbers the program prints are stated in terms of these definitions.
-/
import Verif.Spec.Prefstr
import Verif.Spec.Tiers

namespace Verif.Spec
variable [Uni]

/-- A ballot: tiers of candidates in order of preference, or a list of candidates with scores. -/
inductive Ballot
  | ranked (tiers : List (List Item))
  | scored (items : List Item)
deriving DecidableEq, Repr

/-- the candidates written on a ballot, in order -/
def Ballot.items : Ballot → List Item
  | .ranked tiers => tiers.flatten
  | .scored items => items

/-- how a ballot is written: equals signs inside a tier, `>` between tiers; commas between scored candidates -/
def Ballot.text : Ballot → Str
  | .ranked tiers => joinStr ['>'] (tiers.map (fun t => joinStr ['='] (t.map Item.text)))
  | .scored items => joinStr [','] (items.map Item.text)

/-- A ballot that can be written down: well-formed candidates, each at most once, no empty tier, and at least two
candidates when they are scored (a single one has no comma to tell). -/
structure Ballot.Ok (b : Ballot) : Prop where
  items : ∀ it ∈ b.items, it.Ok ∧ ∀ c ∈ it.text, isLineBreak c = false ∧ c ≠ '#'
  nodup : (b.items.map Item.tok).Nodup
  tiers : ∀ ts, b = .ranked ts → ∀ t ∈ ts, t ≠ []
  two : ∀ its, b = .scored its → 2 ≤ its.length

/-- the candidate is among these -/
def onTier (t : List Item) (x : Str) : Bool := t.any (fun it => decide (it.tok = x))

/-- `x` stands on an earlier tier than `y`, or `y` is not there at all -/
def tierAbove : List (List Item) → Str → Str → Bool
  | [], _, _ => false
  | t :: ts, x, y => if onTier t x then !onTier t y else if onTier t y then false else tierAbove ts x y

/-- the ballot puts `x` above `y` -/
def Ballot.above (b : Ballot) (x y : Str) : Bool :=
  match b with
  | .ranked tiers => tierAbove tiers x y
  | .scored items => items.any (fun i => decide (i.tok = x) && items.all (fun j => !decide (j.tok = y) || decide (j.number < i.number)))

/-- the points the ballot gives to `x`: the number after the slash, nothing otherwise -/
def Ballot.points (b : Ballot) (x : Str) : Int := ((b.items.filter (fun it => decide (it.tok = x))).map Item.number).sum

/-- A line of the paper: a number of equal ballots (with a comment), the name of a candidate, or something else. -/
inductive PaperLine
  | ballots (count : Nat) (b : Ballot) (comment : Option Str)
  | cand (tok name : Str)
  | note (text : Str)
deriving DecidableEq, Repr

/-- how the line is written -/
def PaperLine.text : PaperLine → Str
  | .ballots n b none => natStr n ++ ':' :: b.text
  | .ballots n b (some com) => natStr n ++ ':' :: (b.text ++ '#' :: com)
  | .cand tok name => declLine (tok, name)
  | .note t => t

/-- A line that can be written: comments and names are on one line; a note is blank, a `#` comment, or starts with
a brace (metadata). -/
def PaperLine.Ok : PaperLine → Prop
  | .ballots _ b com => b.Ok ∧ ∀ t, com = some t → ∀ c ∈ t, isLineBreak c = false
  | .cand tok name => CandOk (tok, name)
  | .note t => (∀ c ∈ t, isLineBreak c = false) ∧ ((∀ c ∈ t, isSpace c = true) ∨ t.head? = some '#' ∨ t.head? = some '{')

/-- the text of the paper -/
def paperText (p : List PaperLine) : Str := p.flatMap (fun l => l.text ++ ['\n'])

/-- a paper with at least one ballot line -/
def PaperOk (p : List PaperLine) : Prop := (∀ l ∈ p, l.Ok) ∧ ∃ n b com, PaperLine.ballots n b com ∈ p

/-- the ballots of a line -/
def PaperLine.vote : PaperLine → Option (Nat × Ballot)
  | .ballots n b _ => some (n, b)
  | _ => none

/-- the name a line gives -/
def PaperLine.naming : PaperLine → Option (Str × Str)
  | .cand tok name => some (tok, name)
  | _ => none

/-- the candidates a line speaks of -/
def PaperLine.mentions : PaperLine → List Str
  | .ballots _ b _ => b.items.map Item.tok
  | .cand tok _ => [tok]
  | .note _ => []

/-- the ballots on the paper -/
def paperVotes (p : List PaperLine) : List (Nat × Ballot) := p.filterMap PaperLine.vote

/-- the candidates, in the order in which they are first spoken of -/
def paperCands (p : List PaperLine) : List Str := firsts (p.flatMap PaperLine.mentions)

/-- a candidate's name: the last one given, or the token itself -/
def paperName (p : List PaperLine) (x : Str) : Str :=
  ((((p.filterMap PaperLine.naming).filter (fun tn => decide (tn.1 = x))).getLast?).map Prod.snd).getD x

/-- how many ballots there are -/
def paperCount (p : List PaperLine) : Nat := ((paperVotes p).map Prod.fst).sum

/-- how many ballots say so -/
def paperSum (p : List PaperLine) (q : Ballot → Bool) : Nat := (((paperVotes p).filter (fun v => q v.2)).map Prod.fst).sum

/-- how many ballots put `x` above `y` -/
def paperPrefers (p : List PaperLine) (x y : Str) : Nat := paperSum p (fun b => b.above x y)

/-- all the points of a candidate -/
def paperPoints (p : List PaperLine) (x : Str) : Int := ((paperVotes p).map (fun v => (v.1 : Int) * v.2.points x)).sum

/-- `x` is the ballot's only favourite among the candidates `C` -/
def Ballot.favours (b : Ballot) (C : List Str) (x : Str) : Bool :=
  decide (x ∈ b.items.map Item.tok) && decide (x ∈ C) && C.all (fun y => decide (y = x) || b.above x y)

/-- no two candidates are on a par on any ballot -/
def PaperStrict (p : List PaperLine) : Prop :=
  ∀ v ∈ paperVotes p, ∀ x ∈ v.2.items.map Item.tok, ∀ y ∈ v.2.items.map Item.tok, x ≠ y → v.2.above x y = true ∨ v.2.above y x = true

/-- the votes of `x` when only the candidates `C` are left -/
def paperTop (p : List PaperLine) (C : List Str) (x : Str) : Nat := paperSum p (fun b => b.favours C x)

/-- An instant-runoff count of the paper: who is left in each round, and who wins.
All candidates are in the first round.  Each round but the last has no majority and is not a tie of all; it eliminates somebody
with the fewest votes, one candidate or several whose votes together do not exceed anybody else's.  In the last round
somebody has more than half of the votes and wins, or everybody who is left has equally many and all win. -/
structure InstantRunoff (p : List PaperLine) (rounds : List (List Str)) (winners : List Str) : Prop where
  first : rounds[0]? = some (paperCands p)
  notYet : ∀ k C D, rounds[k]? = some C → rounds[k + 1]? = some D →
    (∀ c ∈ C, 2 * paperTop p C c ≤ (C.map (paperTop p C)).sum) ∧ ∃ a ∈ C, ∃ b ∈ C, paperTop p C a < paperTop p C b
  step : ∀ k C D, rounds[k]? = some C → rounds[k + 1]? = some D → ∃ out, out ≠ [] ∧ out.Nodup ∧ (∀ e ∈ out, e ∈ C) ∧
    D.Perm (C.filter (fun c => decide (c ∉ out))) ∧ (∀ e ∈ out, ∀ c ∈ C, paperTop p C e ≤ paperTop p C c) ∧
    (out.length = 1 ∨ ∀ c ∈ D, (out.map (paperTop p C)).sum ≤ paperTop p C c)
  last : ∃ C, rounds.getLast? = some C ∧
    (winners = C ∧ (∃ v, ∀ c ∈ C, paperTop p C c = v) ∨ ∃ w ∈ C, winners = [w] ∧ (C.map (paperTop p C)).sum < 2 * paperTop p C w)

end Verif.Spec
