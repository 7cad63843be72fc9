/-
abiflib/widjfuncs.py: import of Electowidget (.widj) files.
-/
import Verif.Model.Jabmod

namespace Verif

/-- PRUNED_WIDJ_FIELDS, widjfuncs.py:18-26 -/
def prunedWidjFields : List Str :=
  [c!"display_parameters", c!"display_results", c!"display_ballots", c!"allow_voting",
   c!"ballot_type", c!"max_rating", c!"min_rating", c!"count_subpage_ballots", c!"count_inline_ballots",
   c!"election_methods", c!"inline_ballot_type", c!"candidates", c!"inline_ballots"]

/-- `v[key]` for a string key: `KeyError` on a dict without it, `TypeError` on anything that is not a dict. -/
def Json.index (v : Json) (key : Str) : Except PyErr Json :=
  match v with
  | .obj d => Dict.getE d key
  | _ => .error .typeError

/-- `v.items()`: `AttributeError` on anything that is not a dict. -/
def Json.items (v : Json) : Except PyErr (List (Str × Json)) :=
  match v with
  | .obj d => .ok d
  | _ => .error .attributeError

/-- `for x in v` where the elements are only used as ballots: elements of a list, keys of a dict, characters
of a string; `TypeError` on a number, a boolean or `None`. -/
def Json.elems (v : Json) : Except PyErr (List Json) :=
  match v with
  | .arr l => .ok l
  | .obj d => .ok (d.map fun kv => .str kv.1)
  | .str s => .ok (s.map fun c => .str [c])
  | _ => .error .typeError

/-- A voteline built by `_map_widj_ballots`: the ballot's `qty` value unchanged and one `{'rating': r}` entry
per candidate of its `vote`. -/
structure WidjLine where
  qty : Json
  prefs : Dict Str Json

/-- `_map_widj_ballots` for one ballot, widjfuncs.py:56-62 -/
def widjBallot (ballot : Json) : Except PyErr WidjLine := do
  let qty ← ballot.index c!"qty"
  let vote ← ballot.index c!"vote"
  let items ← vote.items
  .ok { qty := qty, prefs := items.foldl (fun d kv => Dict.set d kv.1 kv.2) [] }

/-- `_map_widj_ballots`, widjfuncs.py:51-64 -/
def widjBallots (w : Json) : Except PyErr (List WidjLine) := do
  let bs ← w.index c!"inline_ballots"
  let l ← bs.elems
  l.mapM widjBallot

/-- the jabmod that `convert_widj_to_jabmod` returns -/
structure WidjModel where
  metadata : Dict Str Json
  candidates : Dict Str Json
  votelines : List WidjLine

/-- `for candtoken, candidate_info in ...: abifmodel["candidates"][candtoken] = candidate_info["display_name"]`,
widjfuncs.py:42-43 -/
def widjCands : List (Str × Json) → Dict Str Json → Except PyErr (Dict Str Json)
  | [], d => .ok d
  | (k, info) :: rest, d => do
    let n ← info.index c!"display_name"
    widjCands rest (d.set k n)

/-- `convert_widj_to_jabmod`, widjfuncs.py:28-48.  `globals` is the set of names the module can see (its own
global names and Python's builtins) with their values: line 34 reads `ABIF_VERSION` from it, before anything
else is looked at. -/
def convertWidjIn (globals : Dict Str Json) (w : Json) : Except PyErr WidjModel := do
  let version ← match globals.get? c!"ABIF_VERSION" with
    | some v => Except.ok v
    | none => .error .nameError
  let fields ← match w with
    | .obj d => Except.ok d
    | _ => .error .typeError
  let metadata := (fields.filter fun kv => !prunedWidjFields.contains kv.1).foldl
    (fun d kv => Dict.set d kv.1 kv.2) [(c!"version", version)]
  let cobj ← w.index c!"candidates"
  let items ← cobj.items
  let cands ← widjCands items []
  let vls ← widjBallots w
  .ok { metadata := metadata, candidates := cands, votelines := vls }

/-- The names defined in widjfuncs.py itself (it has no import): lines 18, 29 and 51.  Simplification: the
values of the two functions are irrelevant and represented by `null`; Python's builtins and the automatic
module names such as `__name__` are left out (none of them is called `ABIF_VERSION`). -/
def widjGlobals : Dict Str Json :=
  [(c!"PRUNED_WIDJ_FIELDS", .arr (prunedWidjFields.map .str)), (c!"convert_widj_to_jabmod", .null),
   (c!"_map_widj_ballots", .null)]

/-- `convert_widj_to_jabmod` as it runs. -/
def convertWidj (w : Json) : Except PyErr WidjModel := convertWidjIn widjGlobals w

end Verif
