/-
Specification of what a whole .abif text means, in terms of its lines (`Spec.Abif`) and of the public
per-line function `_parse_prefstr_to_dict` (`parsePrefstr`).
-/
import Verif.Model.Parse
import Verif.Spec.Abif
import Mathlib.Data.List.Forall2

namespace Verif.Spec
variable [Uni]

/-- The voteline `vl` is what the text line with the given digits, preferences and comment says. -/
def SaysBallot (src : Str × Str × Option Str) (vl : Voteline) : Prop :=
  vl.qty = (digitsVal src.1 : Int) ∧
  (∃ cands, parsePrefstr src.2.1 = .ok (vl.prefs, cands)) ∧
  vl.prefstr = some (rstrip src.2.1) ∧
  vl.comment = src.2.2 ∧
  vl.voterid = src.2.2.bind readVid ∧
  vl.nameq = none

/-- The candidates named in a preference string, in order. -/
def ballotCands (prefstr : Str) : List Str :=
  match parsePrefstr prefstr with
  | .ok (prefs, _) => prefs.keys
  | .error _ => []

/-- The candidate tokens a line mentions: the declared one, or those on the ballot. -/
def lineMentions (line : Str) : List Str :=
  match readCand (beforeHash line) with
  | some (tok, _) => [tok]
  | none =>
    match readVote (beforeHash line) with
    | some (_, pref) => ballotCands pref
    | none => []

/-- The description given to a token by the last candidate line that declares it. -/
def declared (lines : List Str) (tok : Str) : Option Str :=
  (((lines.filterMap (fun l => readCand (beforeHash l))).filter (fun td => decide (td.1 = tok))).getLast?).map Prod.snd

/-- The value given to a metadata key by the last metadata line with that key (a `ballotcount` line is
filed under `ballotcount_abif_metadata`). -/
def metaValue (lines : List Str) (key : Str) : Option Str :=
  (((lines.filterMap (fun l => readMeta (beforeHash l))).filter
    (fun kv => decide ((if kv.1 = c!"ballotcount" then c!"ballotcount_abif_metadata" else kv.1) = key))).getLast?).map Prod.snd

/-- Sorted by quantity, largest first, equal quantities in their original order. -/
def StableSortedDesc (orig sorted : List Voteline) : Prop :=
  sorted.Perm orig ∧ sorted.Pairwise (fun a b => b.qty ≤ a.qty) ∧
  ∀ q : Int, sorted.filter (fun v => decide (v.qty = q)) = orig.filter (fun v => decide (v.qty = q))

end Verif.Spec
