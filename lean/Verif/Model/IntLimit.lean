/-
CPython (3.11 and later, and the security releases of 3.8 to 3.10) refuses to convert strings of more than 4300 digits to `int` with a
ValueError.  This file has the .abif parser with that limit; `lim` is the limit (`sys.get_int_max_str_digits()`, 4300 unless the user
changes it; changing it to 0, no limit, is the parser of Model/Parse).
-/
import Verif.Model.Parse

namespace Verif

section
variable [Uni] (lim : Nat)

/-- `int(s)` with the limit: the digits count, not the sign and the underscores -/
def pyIntOfStrLim (s : Str) : Except PyErr Int :=
  if lim < ((signSplit (strip s)).2.filter (fun c => c != '_')).length then .error .valueError else pyIntOfStr s

/-- `int(d.get("rating", 0))`, core.py:220, 227 -/
def ratingIntLim : Option RVal → Except PyErr Int
  | some (.str s) => pyIntOfStrLim lim s
  | r => ratingInt r

/-- the digits handed to `int()` by one iteration of the token loop, core.py:316-330 -/
def exNumber (s : ExSt) (tok0 : Str) : Option Str :=
  if s.inbrackets || s.inquotes then none
  else if (quotedRated (strip tok0)).isSome || (quotedBare (strip tok0)).isSome then none
  else if startsPlain (strip tok0) then (slashRating (strip tok0)).map Prod.snd
  else none

/-- One iteration of the token loop, core.py:285-336; `int(m.group(1))` is evaluated before `retval[-1]` is looked up. -/
def exStepLim (s : ExSt) (tok0 : Str) : Except PyErr ExSt :=
  match exNumber s tok0 with
  | some ds => if lim < ds.length then .error .valueError else exStep s tok0
  | none => exStep s tok0

/-- run the token loop -/
def exLoopLim : ExSt → List Str → Except PyErr ExSt
  | s, [] => .ok s
  | s, t :: ts => do let s' ← exStepLim lim s t; exLoopLim s' ts

/-- `_extract_candprefs_from_prefstr`, core.py:274-337 -/
def extractCandprefsLim (prefstr : Str) : Except PyErr (List (Str × Option RVal)) := do
  let s ← exLoopLim lim {} (splitKeep isPrefSep prefstr)
  .ok s.retval

/-- core.py:219-221 -/
def ratedKeysLim (prefs : Dict Str Pref) : Except PyErr (List (Str × Int)) :=
  prefs.mapM (fun kp => do let r ← ratingIntLim lim kp.2.rating; .ok (kp.1, r))

/-- `_add_ranks_to_prefjab_by_rating`, core.py:213-240 -/
def addRanksByRatingLim (prefs : Dict Str Pref) : Except PyErr (Dict Str Pref) := do
  let ks ← ratedKeysLim lim prefs
  addRanksLoop true 0 0 (sortByKeyDesc Prod.snd ks) prefs

/-- `_parse_prefstr_to_dict`, core.py:355-396 -/
def parsePrefstrLim (prefstr : Str) : Except PyErr (Dict Str Pref × List Str) := do
  let (mode, delims) := determineRankOrRate prefstr
  let cps ← extractCandprefsLim lim prefstr
  let prefs ← prefLoop mode delims cps.length 0 1 cps []
  let prefs ← addRanksByRatingLim lim prefs
  match cps with
  | [] => .ok ([], [])
  | (c0, _) :: _ =>
    match prefs.get? c0 with
    | none => .error .typeError
    | some p0 =>
      let prefs ← if ratingTruthy p0.rating && !rankTruthy p0.rank then addRanksByRatingLim lim prefs else .ok prefs
      .ok (prefs, cps.map Prod.fst)

/-- `_process_abif_prefline`, core.py:399-430.  `int(qty)` comes first; the key `ballotcount` it is added to is looked up just before. -/
def processPreflineLim (qty prefstr : Str) (linecomment : Option Str) (m : Jabmod) : Except PyErr Jabmod := do
  let voterid := linecomment.bind matchVid
  let q ← match m.metadata.get? c!"ballotcount" with
    | none => .error .keyError
    | some _ => if lim < qty.length then .error .valueError else .ok (digitsVal qty : Int)
  let md ← bumpBallotcount m.metadata q
  let (prefs, cands) ← parsePrefstrLim lim prefstr
  let vl : Voteline := { qty := q, prefs := prefs, comment := linecomment, prefstr := some (rstrip prefstr),
                         voterid := voterid }
  .ok { metadata := md, candidates := mergeCands cands m.candidates, votelines := m.votelines ++ [vl] }

/-- One iteration of the line loop of `convert_abif_to_jabmod`, core.py:85-130 -/
def processLineLim (cleanws storecomments : Bool) (i : Nat) (fullline : Str) (m : Jabmod) : Except PyErr Jabmod := do
  let fullline := if cleanws then lstrip fullline else fullline
  let (strpd, linecomment) := splitComment fullline
  let m ← processComment linecomment i storecomments m
  match matchCand strpd with
  | some (tok, desc) => .ok (processCand tok desc m)
  | none =>
    match matchMeta strpd with
    | some (k, v) => .ok (processMeta k v m)
    | none =>
      match matchVote strpd with
      | some (qty, pref) => processPreflineLim lim qty pref linecomment m
      | none => .ok m

/-- the line loop with its line counter -/
def processLinesLim (cleanws storecomments : Bool) : Nat → List Str → Jabmod → Except PyErr Jabmod
  | _, [], m => .ok m
  | i, l :: ls, m => do
    let m' ← processLineLim lim cleanws storecomments i l m
    processLinesLim cleanws storecomments (i + 1) ls m'

/-- `convert_abif_to_jabmod`, core.py:60-150 -/
def convertAbifLim (cleanws addRat storecomments : Bool) (inputstr : Str) : Except PyErr Jabmod := do
  if inputstr = [] then .error .voteline
  else
    let m ← processLinesLim lim cleanws storecomments 0 (splitlines inputstr) emptyishJabmod
    if m.votelines = [] then .error .voteline
    else
      let m ← if addRat then addRatings m else .ok m
      .ok { m with votelines := sortByKeyDesc Voteline.qty m.votelines }

end

end Verif
