/-
Jabmods as JSON documents: abiftool.py:176-177 (`-f jabmod`), abiftool.py:239-240 (`-t jabmod`), util.py:35-36.
In Python the jabmod is the JSON value itself; here `jabmodOf` gives the jabmod a JSON value stands for and `Jabmod.toJson`
one JSON value that stands for a jabmod (keys in the order of core.py:199-207, 373-385, 413-425).
-/
import Verif.Model.Export
import Verif.Py.JsonLoad

namespace Verif

/-- the value of an optional string member; not a string: not a jabmod of the model -/
def optStrOf : Option Json → Except PyErr (Option Str)
  | none => .ok none
  | some (.str s) => .ok (some s)
  | some _ => .error .other

/-- the `comment` of a voteline: `null` is the same as no comment (see `Voteline`) -/
def commentOf : Option Json → Except PyErr (Option Str)
  | some .null => .ok none
  | j => optStrOf j

/-- the value of an optional integer member -/
def optIntOf : Option Json → Except PyErr (Option Int)
  | none => .ok none
  | some (.int i) => .ok (some i)
  | some _ => .error .other

/-- the value of a `rating` member -/
def ratingOfJson : Option Json → Except PyErr (Option RVal)
  | none => .ok none
  | some (.int i) => .ok (some (.int i))
  | some (.str s) => .ok (some (.str s))
  | some .null => .ok (some .null)
  | some _ => .error .other

/-- an entry of `prefs` (members in any order, others ignored) -/
def prefOf : Json → Except PyErr Pref
  | .obj l => do
    let rating ← ratingOfJson (Dict.get? l c!"rating")
    let rank ← optIntOf (Dict.get? l c!"rank")
    let nextdelim ← optStrOf (Dict.get? l c!"nextdelim")
    .ok { rating := rating, rank := rank, nextdelim := nextdelim }
  | _ => .error .other

/-- one member of `prefs` -/
def prefMemberOf (kv : Str × Json) : Except PyErr (Str × Pref) := do
  let p ← prefOf kv.2
  .ok (kv.1, p)

/-- a `prefs` dict -/
def prefsOf : Option Json → Except PyErr (Dict Str Pref)
  | some (.obj l) => l.mapM prefMemberOf
  | _ => .error .other

/-- the quantity -/
def qtyOf : Option Json → Except PyErr Int
  | some (.int i) => .ok i
  | _ => .error .other

/-- a voteline -/
def votelineOf : Json → Except PyErr Voteline
  | .obj l => do
    let qty ← qtyOf (Dict.get? l c!"qty")
    let prefs ← prefsOf (Dict.get? l c!"prefs")
    let comment ← commentOf (Dict.get? l c!"comment")
    let prefstr ← optStrOf (Dict.get? l c!"prefstr")
    let voterid ← optStrOf (Dict.get? l c!"voterid")
    let nameq ← optStrOf (Dict.get? l c!"nameq")
    .ok { qty := qty, prefs := prefs, comment := comment, prefstr := prefstr, voterid := voterid, nameq := nameq }
  | _ => .error .other

/-- a candidate's name -/
def candNameOf : Json → Except PyErr (Option Str)
  | .str s => .ok (some s)
  | .null => .ok none
  | _ => .error .other

/-- one candidate -/
def candOf (kv : Str × Json) : Except PyErr (Str × Option Str) := do
  let n ← candNameOf kv.2
  .ok (kv.1, n)

/-- the jabmod a JSON document stands for; the error `other` when it is none that the model can represent -/
def jabmodOf : Json → Except PyErr Jabmod
  | .obj l =>
    match Dict.get? l c!"candidates", Dict.get? l c!"metadata", Dict.get? l c!"votelines" with
    | some (.obj cs), some (.obj md), some (.arr vs) => do
      let cs ← cs.mapM candOf
      let vs ← vs.mapM votelineOf
      .ok { metadata := md, candidates := cs, votelines := vs }
    | _, _, _ => .error .other
  | _ => .error .other

/-- an optional member -/
def optMember (k : Str) : Option Str → List (Str × Json)
  | some s => [(k, .str s)]
  | none => []

/-- a voteline as JSON (keys in the order of core.py:414-425) -/
def Voteline.toJson (vl : Voteline) : Json :=
  .obj ([(c!"qty", .int vl.qty), (c!"comment", match vl.comment with | some s => .str s | none => .null),
         (c!"prefs", prefsJson vl.prefs)] ++
        optMember c!"prefstr" vl.prefstr ++ optMember c!"voterid" vl.voterid ++ optMember c!"nameq" vl.nameq)

/-- a jabmod as JSON (keys in the order of core.py:202-206) -/
def Jabmod.toJson (m : Jabmod) : Json :=
  .obj [(c!"candidates", .obj (m.candidates.map fun kv => (kv.1, match kv.2 with | some s => .str s | none => .null))),
        (c!"metadata", .obj m.metadata),
        (c!"votelines", .arr (m.votelines.map Voteline.toJson))]

/-- reading a jabmod: `json.loads(inputstr)`, abiftool.py:177 -/
def loadModel (s : Str) : Except PyErr Jabmod := (jsonLoads s).bind jabmodOf

/-- writing a jabmod: `json.dumps(abifmodel, indent=4)`, abiftool.py:240.  Simplification: in Python the members of the objects
come in the order in which they were put in (for example `metadata` before `candidates` in nameq.py:24-45, `prefs` before `qty` in
consolidated lines, core.py:674, `nextdelim` before a `rank` computed from ratings, core.py:370-390), and `comment` is missing
rather than `null` in lines that do not come from ABIF text; here the order is fixed.  Reading (`jabmodOf`) does not depend on
either, see `C72_any`. -/
def dumpModel (m : Jabmod) : Str := m.toJson.dumpsIndent

end Verif
