/-
abiflib/core.py: from jabmod to .abif text, and the other conversions of the second half of core.py.
-/
import Verif.Model.Parse
import Verif.Py.Url

namespace Verif

/-- `_abif_token_quote`, core.py:471-479. -/
def tokenQuote (tok : Str) : Str := if quotePlus tok = tok then tok else '[' :: (tok ++ [']'])

/-- f-string rendering of a rating value -/
def ratingStr : RVal → Str
  | .int i => intStr i
  | .str s => s
  | .null => c!"None"

/-- the `/rating` printed after a candidate, core.py:516-517 -/
def ratingSuffix : Option RVal → Str
  | none => []
  | some .null => []
  | some r => '/' :: ratingStr r

/-- `_prefstr_from_ranked_line`, core.py:503-528.  `rank` is the Python loop variable, which starts at 1
and is overwritten by each entry that has a rank. -/
def prefstrRanked : Int → List (Str × Pref) → Except PyErr Str
  | _, [] => .ok []
  | rank, (name, p) :: rest =>
    let rank := p.rank.getD rank
    let head := tokenQuote name ++ ratingSuffix p.rating
    match rest with
    | [] => .ok head
    | (_, q) :: _ =>
      match q.rank with
      | none => .error .keyError
      | some nextrank =>
        if rank < nextrank then do let t ← prefstrRanked rank rest; .ok (head ++ '>' :: t)
        else if rank = nextrank then do let t ← prefstrRanked rank rest; .ok (head ++ '=' :: t)
        else .error .valueError

/-- The tier-building loop of `_prefstr_from_ratings`, core.py:534-550, on entries paired with
`int(rating)`.  `cur` is the current tier. -/
def ratingTiers : Int → List (Str × RVal) → List (Str × RVal × Int) → List (List (Str × RVal))
  | _, cur, [] => if cur = [] then [] else [cur]
  | currating, cur, (name, rv, rating) :: rest =>
    if rating ≠ currating then
      (if cur = [] then [] else [cur]) ++ ratingTiers rating [(name, rv)] rest
    else ratingTiers currating (cur ++ [(name, rv)]) rest

/-- printing of the tiers, core.py:552-568 -/
def prefstrTiers (tiers : List (List (Str × RVal))) : Str :=
  joinStr ['>'] (tiers.map fun tier =>
    joinStr ['='] (tier.map fun e => tokenQuote e.1 ++ '/' :: ratingStr e.2))

section
variable [Uni]

/-- `int(item.get('rating'))` with no default: `TypeError` when absent or `None`, core.py:582. -/
def ratingIntStrict : Option RVal → Except PyErr (RVal × Int)
  | none => .error .typeError
  | some .null => .error .typeError
  | some (.int i) => .ok (.int i, i)
  | some (.str s) => do let i ← pyIntOfStr s; .ok (.str s, i)

/-- order of `sorted(..., key=lambda item: (-int(rating), name))`, core.py:581-584 -/
def ratedLe (a b : Str × RVal × Int) : Bool :=
  if b.2.2 < a.2.2 then true else if a.2.2 < b.2.2 then false else strLe a.1 b.1

/-- the `(name, data)` items with their integer ratings -/
def ratedItems (prefs : Dict Str Pref) : Except PyErr (List (Str × RVal × Int)) :=
  prefs.mapM (fun kp => do let r ← ratingIntStrict kp.2.rating; .ok (kp.1, r.1, r.2))

/-- items paired with their rank, `KeyError` when absent (`key=lambda x: x[1]['rank']`, core.py:593-594) -/
def sortByRank (prefs : Dict Str Pref) : Except PyErr (List (Str × Pref)) := do
  let ks ← prefs.mapM (fun kp => match kp.2.rank with
    | some r => Except.ok (r, kp)
    | none => Except.error PyErr.keyError)
  .ok ((sortByKey Prod.fst ks).map Prod.snd)

/-- the prefstr printed for a voteline, core.py:580-594 -/
def prefstrOfPrefs (prefs : Dict Str Pref) : Except PyErr Str :=
  match ratedItems prefs with
  | .ok items => .ok (prefstrTiers (ratingTiers 0 [] (pySort ratedLe items)))
  | .error .typeError => do let sorted ← sortByRank prefs; prefstrRanked 1 sorted
  | .error e => .error e

/-- `_get_votelinestr_from_jabvoteline`, core.py:571-597. -/
def votelineStr (vl : Voteline) : Except PyErr Str := do
  let prefstr ← prefstrOfPrefs vl.prefs
  .ok (intStr vl.qty ++ ':' :: (prefstr ++ ['\n']))

/-- concatenation of the voteline chunks, core.py:459-466 -/
def votelinesStr : List Voteline → Except PyErr Str
  | [] => .ok []
  | vl :: rest => do let a ← votelineStr vl; let b ← votelinesStr rest; .ok (a ++ b)

/-- f-string rendering of a candidate name -/
def nameStr : Option Str → Str
  | some s => s
  | none => c!"None"

/-- metadata lines, core.py:448-450 -/
def metadataStr (md : Dict Str Json) : Str :=
  md.flatMap fun kv => '{' :: (kv.1 ++ ':' :: ' ' :: (kv.2.dumps ++ ['}', '\n']))

/-- candidate lines, core.py:453-456 -/
def candlinesStr (cs : Dict Str (Option Str)) : Str :=
  cs.flatMap fun kv => '=' :: (tokenQuote kv.1 ++ ':' :: '[' :: (nameStr kv.2 ++ [']', '\n']))

/-- `convert_jabmod_to_abif`, core.py:438-468. -/
def convertToAbif (m : Jabmod) : Except PyErr Str := do
  let vs ← votelinesStr m.votelines
  .ok (c!"#------- metadata -------\n" ++ metadataStr m.metadata ++
       c!"#------ candlines ------\n" ++ candlinesStr m.candidates ++
       c!"#------- votelines ------\n" ++ vs)

end

/-- JSON of a rating value -/
def RVal.toJson : RVal → Json
  | .int i => .int i
  | .str s => .str s
  | .null => .null

/-- JSON of a preference entry -/
def Pref.toJson (p : Pref) : Json :=
  .obj ((match p.rating with | some r => [(c!"rating", r.toJson)] | none => []) ++
        (match p.rank with | some r => [(c!"rank", Json.int r)] | none => []) ++
        (match p.nextdelim with | some d => [(c!"nextdelim", Json.str d)] | none => []))

/-- JSON of a `prefs` dict -/
def prefsJson (prefs : Dict Str Pref) : Json := .obj (prefs.map fun kp => (kp.1, kp.2.toJson))

/-- grouping key of `consolidate_jabmod_voteline_objects`, core.py:672 -/
def prefsKey (prefs : Dict Str Pref) : Str := (prefsJson prefs).dumpsSorted

/-- loop of `consolidate_jabmod_voteline_objects`, core.py:671-675, on the dict `prefs_to_voteline` -/
def consolidateLoop : List Voteline → Dict Str Voteline → Dict Str Voteline
  | [], d => d
  | vl :: rest, d =>
    let key := prefsKey vl.prefs
    let d := if d.has key then d else d.set key { qty := 0, prefs := vl.prefs }
    consolidateLoop rest (d.modify key (fun e => { e with qty := e.qty + vl.qty }))

/-- `consolidate_jabmod_voteline_objects`, core.py:667-679. -/
def consolidate (m : Jabmod) : Jabmod := { m with votelines := (consolidateLoop m.votelines []).values }

end Verif
