/-
What the instant-runoff count does with tied ballots, exactly, for every election.
-/
import Verif.Spec.Irv

namespace Verif.Spec

/-- How many overvoted lines stand directly before line `i`. -/
def overvotesBefore (vls : List Voteline) (i : Nat) : Nat := ((vls.take i).reverse.takeWhile overvoted).length

/-- Line `i` is thrown out: it is overvoted and an even number of overvoted lines stands directly before it, so it is
the first, third, fifth, ... of its run. -/
def thrownOut (vls : List Voteline) (i : Nat) : Bool :=
  match vls[i]? with
  | some v => overvoted v && overvotesBefore vls i % 2 == 0
  | none => false

/-- the lines that stay, and those thrown out -/
def keptLines (vls : List Voteline) : List Voteline := (vls.zipIdx.filter (fun vi => !thrownOut vls vi.2)).map Prod.fst
def thrownLines (vls : List Voteline) : List Voteline := (vls.zipIdx.filter (fun vi => thrownOut vls vi.2)).map Prod.fst

/-- The lines that do enter each round, given the continuing candidates of the rounds. -/
def enteringAsIs : List (List Str) → List Voteline → List (List Voteline)
  | [], _ => []
  | C :: Cs, vls => restrict C vls :: enteringAsIs Cs (keptLines (restrict C vls))

/-- `c` is the first candidate who is alone: nobody is tied with it, and everybody above it is tied with somebody. -/
def firstAlone (c : Str) (vl : Voteline) : Bool :=
  decide (c ∈ Dict.keys vl.prefs) &&
  (Dict.keys vl.prefs).all (fun d => decide (d = c) || !indifferent vl c d) &&
  (Dict.keys vl.prefs).all (fun d => !prefers vl d c || (Dict.keys vl.prefs).any (fun e => decide (e ≠ d) && indifferent vl d e))

/-- no candidate is alone (besides, perhaps, the one with the empty token) -/
def nobodyAlone (vl : Voteline) : Bool := (Dict.keys vl.prefs).all (fun c => decide (c = []) || !firstAlone c vl)

end Verif.Spec
