/-
Specification vocabulary for the instant-runoff count: what a ballot says, in terms of `prefers`.
-/
import Verif.Spec.Tally
import Verif.Model.Irv

namespace Verif.Spec

/-- The candidates at the top of a voteline: listed, and no listed candidate is preferred to them. -/
def tops (vl : Voteline) : List Str :=
  (Dict.keys vl.prefs).filter (fun c => (Dict.keys vl.prefs).all (fun d => !prefers vl d c))

/-- `c` alone is at the top of the voteline -/
def soleTop (c : Str) (vl : Voteline) : Bool := tops vl == [c]

/-- two or more candidates are tied at the top -/
def overvoted (vl : Voteline) : Bool := decide (2 ≤ (tops vl).length)

/-- no candidate is listed -/
def exhausted (vl : Voteline) : Bool := (Dict.keys vl.prefs).isEmpty

/-- A voteline reduced to some candidates. -/
def restrictLine (C : List Str) (vl : Voteline) : Voteline :=
  { vl with prefs := vl.prefs.filter (fun e => decide (e.1 ∈ C)) }

/-- Votelines reduced to some candidates. -/
def restrict (C : List Str) (vls : List Voteline) : List Voteline := vls.map (restrictLine C)

/-- Two lines next to each other are both overvoted. -/
def adjacentOvervotes : List Voteline → Bool
  | v :: w :: rest => (overvoted v && overvoted w) || adjacentOvervotes (w :: rest)
  | _ => false

/-- The ballots that should enter each round, given the continuing candidates of the rounds: all ballots
enter the first round; the overvoted ballots of a round do not enter the next; a ballot keeps only
continuing candidates. -/
def entering : List (List Str) → List Voteline → List (List Voteline)
  | [], _ => []
  | C :: Cs, vls => restrict C vls :: entering Cs ((restrict C vls).filter (fun vl => !overvoted vl))

/-- No line ranks two candidates equal. -/
def Strict (vls : List Voteline) : Prop :=
  ∀ vl ∈ vls, ∀ a ∈ Dict.keys vl.prefs, ∀ b ∈ Dict.keys vl.prefs, a ≠ b → prefers vl a b = true ∨ prefers vl b a = true

/-- What the count needs of its input: distinct candidates, proper preference dicts over known candidates,
every entry ranked. -/
structure Countable (m : Jabmod) : Prop where
  cands : (Dict.keys m.candidates).Nodup
  dicts : ∀ vl ∈ m.votelines, Dict.WF vl.prefs
  known : ∀ vl ∈ m.votelines, ∀ c ∈ Dict.keys vl.prefs, c ∈ Dict.keys m.candidates
  ranked : ∀ vl ∈ m.votelines, ∀ c p, Dict.get? vl.prefs c = some p → ∃ r, p.rank = some r

/-- ranks stay below the program's stand-in for infinity -/
def RanksBelowInfinity (m : Jabmod) : Prop :=
  ∀ vl ∈ m.votelines, ∀ c r, rankOf vl c = some r → r < 9999999999

/-- quantities are not negative -/
def QtyNonneg (m : Jabmod) : Prop := ∀ vl ∈ m.votelines, 0 ≤ vl.qty

end Verif.Spec
