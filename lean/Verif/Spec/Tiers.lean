/-
Specification vocabulary for ballots that are given as tiers of candidates, and for the .abif text an importer
writes for them.
-/
import Verif.Spec.Prefstr
import Verif.Spec.Abif

namespace Verif.Spec
variable [Uni]

/-- tiers of candidates as preference text: equals signs inside a tier, `>` between tiers -/
def tierText (tiers : List (List Str)) : Str := joinStr ['>'] (tiers.map (joinStr ['=']))

/-- the candidates of the tiers with their ranks: everybody in the first tier has rank 1, in the second 2, … -/
def tierRanks (tiers : List (List Str)) : List (Str × Option Int) :=
  tiers.zipIdx.flatMap (fun ti => ti.1.map (fun c => (c, some ((ti.2 : Int) + 1))))

/-- A token that needs no quoting: not empty, no blanks around it, none of `[ ] > = , # : "` in it, and not
ending in a slash and digits (which would be read as a rating). -/
def SimpleTok (t : Str) : Prop :=
  t ≠ [] ∧ strip t = t ∧ (∀ c ∈ t, isLineBreak c = false ∧ isSepChar c = false ∧ c ≠ '#' ∧ c ≠ ':' ∧ c ≠ '"') ∧
  ¬ ∃ a ds, t = a ++ '/' :: ds ∧ ds ≠ [] ∧ ∀ c ∈ ds, isDigit c = true

/-- A ballot to be written: the digits of its quantity, its tiers, and its voter id if it has one. -/
structure ImpVote where
  qty : Str
  tiers : List (List Str)
  vid : Option Str := none
deriving DecidableEq, Repr

/-- a ballot that can be written: digits, nonempty tiers of distinct simple tokens, and a voter id without blanks -/
structure ImpVote.Ok (v : ImpVote) : Prop where
  qty_ne : v.qty ≠ []
  digits : ∀ c ∈ v.qty, isDigit c = true
  tiers_ne : ∀ t ∈ v.tiers, t ≠ []
  toks : ∀ c ∈ v.tiers.flatten, SimpleTok c
  nodup : v.tiers.flatten.Nodup
  vid : ∀ x, v.vid = some x → x ≠ [] ∧ ∀ c ∈ x, isSpace c = false

/-- the voter id part of the line of a ballot -/
def vidText : Option Str → Str
  | none => []
  | some v => c!"  ##VID:" ++ v

/-- the line of a ballot -/
def ImpVote.line (v : ImpVote) : Str := v.qty ++ ':' :: (tierText v.tiers ++ vidText v.vid)

/-- the line that declares a candidate -/
def declLine (cn : Str × Str) : Str := '=' :: (cn.1 ++ ':' :: '[' :: (cn.2 ++ [']']))

/-- a candidate that can be declared -/
def CandOk (cn : Str × Str) : Prop :=
  SimpleTok cn.1 ∧ ∀ c ∈ cn.2, isLineBreak c = false ∧ c ≠ '#' ∧ c ≠ ']'

/-- The .abif file of an importer: lines starting with a brace (metadata), the candidates, a separator comment and
the ballots. -/
def impFile (metas : List Str) (cands : List (Str × Str)) (votes : List ImpVote) : List Str :=
  metas ++ cands.map declLine ++ [c!"# ---------------"] ++ votes.map ImpVote.line

end Verif.Spec
