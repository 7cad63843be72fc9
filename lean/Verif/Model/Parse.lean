/-
abiflib/core.py: from .abif text to jabmod (`convert_abif_to_jabmod` and everything it calls), and the
regular expressions of abiflib/abifregex.py it uses.
-/
import Verif.Model.Jabmod
import Verif.Py.Regex

namespace Verif

/-! ### Regular expressions (abiflib/abifregex.py, compiled with `re.VERBOSE` in core.py:73-76) -/

/-- class `.` -/
def isDot (c : Char) : Bool := c != '\n'
/-- class `['"]` -/
def isQuoteCh (c : Char) : Bool := c == '\'' || c == '"'
/-- class `["\[]` -/
def isOpenCh (c : Char) : Bool := c == '"' || c == '['

/-- `COMMENT_REGEX`, abifregex.py:18-25:
`^([^#]*)(#+)(\s*)(.*)$`. -/
def commentAtoms : List Atom :=
  [.star (fun c => c != '#'), .plus (fun c => c == '#'), .star isSpace, .star isDot]

/-- `CANDLINE_REGEX`, abifregex.py:50-61: `^=\s*["\[]?([^:"\]]*)["\[]?:\[?([^\]]*)\]?$`. -/
def candAtoms : List Atom :=
  [.one (fun c => c == '='), .star isSpace, .opt isOpenCh,
   .star (fun c => !(c == ':' || c == '"' || c == ']')), .opt isOpenCh, .one (fun c => c == ':'),
   .opt (fun c => c == '['), .star (fun c => c != ']'), .opt (fun c => c == ']')]

section
variable [U : Uni]

/-- class `[\w\s\,\.\(\)\-\?\:\'/]` of metadata values -/
def isMetaVal (c : Char) : Bool :=
  isWord c || isSpace c || c == ',' || c == '.' || c == '(' || c == ')' || c == '-' || c == '?' ||
  c == ':' || c == '\'' || c == '/'

/-- class `[\w\s]` of metadata keys -/
def isMetaKey (c : Char) : Bool := isWord c || isSpace c

/-- `METADATA_REGEX`, abifregex.py:32-48:
`^\{\s*['"]?([\w\s]+)\s*['"]?\s*:\s*['"]?([\w\s,.()\-?:'/]+)\s*['"]?\s*\}$`. -/
def metaAtoms : List Atom :=
  [.one (fun c => c == '{'), .star isSpace, .opt isQuoteCh, .plus isMetaKey, .star isSpace,
   .opt isQuoteCh, .star isSpace, .one (fun c => c == ':'), .star isSpace, .opt isQuoteCh,
   .plus isMetaVal, .star isSpace, .opt isQuoteCh, .star isSpace, .one (fun c => c == '}')]

/-- `VOTELINE_REGEX`, abifregex.py:63: `^(\d+):(.*)$`. -/
def voteAtoms : List Atom := [.plus isDigit, .one (fun c => c == ':'), .star isDot]

/-- `VOTERID_REGEX`, abifregex.py:27-30: `(##VID:)(\S+)`, matched at the start of the comment
(no end anchor). -/
def vidAtoms : List Atom := litAtoms c!"##VID:" ++ [.plus (fun c => !isSpace c)]

/-! ### Line classification -/

/-- core.py:93-101: split a line into the part before the comment and the comment (`None` if no `#`). -/
def splitComment (line : Str) : Str × Option Str :=
  match fullMatch commentAtoms line with
  | some [before, sep, ws, after] => (before, some (sep ++ ws ++ after))
  | _ => (line, none)

/-- core.py:108-110: candidate line, giving `candtoken` and `canddesc`. -/
def matchCand (s : Str) : Option (Str × Str) :=
  match fullMatch candAtoms s with
  | some [_, _, _, tok, _, _, _, desc, _] => some (tok, desc)
  | _ => none

/-- core.py:115-117: metadata line, giving key and value. -/
def matchMeta (s : Str) : Option (Str × Str) :=
  match fullMatch metaAtoms s with
  | some [_, _, _, key, _, _, _, _, _, _, val, _, _, _, _] => some (key, val)
  | _ => none

/-- core.py:120-122: voteline, giving the digits of the quantity and the prefstr. -/
def matchVote (s : Str) : Option (Str × Str) :=
  match fullMatch voteAtoms s with
  | some [qty, _, pref] => some (qty, pref)
  | _ => none

/-- core.py:405-408: voter id in a voteline's comment. -/
def matchVid (linecomment : Str) : Option Str :=
  match prefixMatch vidAtoms linecomment with
  | some ([_, _, _, _, _, _, vid], _) => some vid
  | _ => none

/-! ### Preference strings -/

/-- the separators of `re.split(r"(\[|\]|\>|\=|\,)", prefstr)`, core.py:278 -/
def isPrefSep (c : Char) : Bool := c == '[' || c == ']' || c == '>' || c == '=' || c == ','

/-- loop state of `_extract_candprefs_from_prefstr`, core.py:277-284.  The Python variables `prefnum`
is never used and `currating` is always `None`; both are omitted. -/
structure ExSt where
  inbrackets : Bool := false
  inquotes : Bool := false
  quotetok : Str := []
  ccand : Option Str := none
  retval : List (Str × Option RVal) := []
deriving DecidableEq, Repr

/-- `l[-1] = x` on a nonempty list -/
def setLast {α : Type} (l : List α) (x : α) : List α := l.dropLast ++ [x]

/-- `^\s*"`, core.py:301 -/
def startsQuote (tok : Str) : Bool :=
  (prefixMatch [.star isSpace, .one (fun c => c == '"')] tok).isSome
/-- `\s*\"([^\"]*)\"/(\d+)`, core.py:317 -/
def quotedRated (tok : Str) : Option (Str × Str) :=
  match prefixMatch [.star isSpace, .one (fun c => c == '"'), .star (fun c => c != '"'),
      .one (fun c => c == '"'), .one (fun c => c == '/'), .plus isDigit] tok with
  | some ([_, _, cand, _, _, rating], _) => some (cand, rating)
  | _ => none
/-- `\s*\"([^\"]*)\"`, core.py:321 -/
def quotedBare (tok : Str) : Option Str :=
  match prefixMatch [.star isSpace, .one (fun c => c == '"'), .star (fun c => c != '"'),
      .one (fun c => c == '"')] tok with
  | some ([_, _, cand, _], _) => some cand
  | _ => none
/-- `^\s*[^\[\]\>\=\,]`, core.py:324 -/
def startsPlain (tok : Str) : Bool :=
  (prefixMatch [.star isSpace, .one (fun c => !isPrefSep c)] tok).isSome
/-- `/(\d+)$` searched in a token, core.py:325 and 329: the text before the slash and the digits. -/
def slashRating (tok : Str) : Option (Str × Str) :=
  match searchMatch List.isEmpty [.one (fun c => c == '/'), .plus isDigit] tok with
  | some (before, [_, digits], _) => some (before, digits)
  | _ => none

/-- One iteration of the token loop of `_extract_candprefs_from_prefstr`, core.py:285-336. -/
def exStep (s : ExSt) (tok0 : Str) : Except PyErr ExSt :=
  let tok := strip tok0
  if s.inbrackets || s.inquotes then
    -- core.py:288-293
    if tok.head? = some '[' ∧ s.inbrackets = false then
      .ok { s with inbrackets := true, quotetok := [] }
    -- core.py:294-300
    else if tok.head? = some ']' ∧ s.inbrackets = true then
      .ok { s with inbrackets := false, ccand := some s.quotetok,
                   retval := s.retval ++ [(s.quotetok, none)], quotetok := [] }
    -- core.py:301-310
    else if startsQuote tok then
      if s.inquotes = false then .ok { s with quotetok := [], inquotes := true }
      else if s.retval = [] then .error .indexError
      else .ok { s with retval := setLast s.retval (s.quotetok, none), quotetok := [], inquotes := false }
    -- core.py:311-312
    else if tok ≠ [] then .ok { s with quotetok := s.quotetok ++ tok }
    -- core.py:313-314: `ABIFVotelineException(message=...)` lacks its required argument `value`
    else .error .typeError
  else
    match quotedRated tok with
    -- core.py:317-320
    | some (cand, rating) =>
      .ok { s with ccand := some cand, retval := s.retval ++ [(cand, some (.str rating))] }
    | none =>
      match quotedBare tok with
      -- core.py:321-323: sets the locals but appends nothing
      | some cand => .ok { s with ccand := some cand }
      | none =>
        if startsPlain tok then
          -- core.py:324-330
          let ctok := match slashRating tok with | some (before, _) => before | none => tok
          let s1 := if ctok ≠ [] then
              { s with ccand := some ctok, retval := s.retval ++ [(ctok, none)] }
            else s
          match slashRating tok with
          | some (_, digits) =>
            if s1.retval = [] then .error .indexError
            else
              match s1.ccand with
              | some c => .ok { s1 with retval := setLast s1.retval (c, some (.int (digitsVal digits))) }
              | none => .error .typeError  -- unreachable: a nonempty `retval` means `ccand` is set
          | none => .ok s1
        -- core.py:331-332
        else if tok.head? = some '[' then .ok { s with inbrackets := true }
        -- core.py:333-334
        else if startsQuote tok then .ok { s with inquotes := true }
        else .ok s

/-- run the token loop -/
def exLoop : ExSt → List Str → Except PyErr ExSt
  | s, [] => .ok s
  | s, t :: ts => do let s' ← exStep s t; exLoop s' ts

/-- `_extract_candprefs_from_prefstr`, core.py:274-337. -/
def extractCandprefs (prefstr : Str) : Except PyErr (List (Str × Option RVal)) := do
  let s ← exLoop {} (splitKeep isPrefSep prefstr)
  .ok s.retval

inductive RankOrRate
  | rank
  | rate
  | rankone
deriving DecidableEq, Repr

/-- `\[[^]]*\]`, core.py:344 -/
def bracketAtoms : List Atom :=
  [.one (fun c => c == '['), .star (fun c => c != ']'), .one (fun c => c == ']')]

/-- `_determine_rank_or_rate`, core.py:340-352. -/
def determineRankOrRate (prefstr : Str) : RankOrRate × List Char :=
  let subbed := reSub (matchLen bracketAtoms) c!"[PLACEHOLDER]" prefstr
  let delims := subbed.filter (fun c => c == '>' || c == ',' || c == '=')
  match delims with
  | d :: _ => if d = '>' ∨ d = '=' then (.rank, delims) else (.rate, delims)
  | [] => (.rankone, delims)

/-- the optional sign of an `int()` literal: whether negative, and the rest -/
def signSplit : Str → Bool × Str
  | '-' :: r => (true, r)
  | '+' :: r => (false, r)
  | r => (false, r)

/-- Python's `int(s)` on an arbitrary string: surrounding whitespace, one sign, digits with single
underscores between them. -/
def pyIntOfStr (s : Str) : Except PyErr Int :=
  let neg := (signSplit (strip s)).1
  let body := (signSplit (strip s)).2
  let okShape := body.head?.any isDigit && body.getLast?.any isDigit &&
    body.all (fun c => isDigit c || c == '_') &&
    (body.zip body.tail).all (fun p => !(p.1 == '_' && p.2 == '_'))
  if okShape then
    let v : Int := digitsVal (body.filter (fun c => c != '_'))
    .ok (if neg then -v else v)
  else .error .valueError

/-- `int(d.get("rating", 0))`, core.py:220, 227; scorestar.py:38. -/
def ratingInt : Option RVal → Except PyErr Int
  | none => .ok 0
  | some (.int i) => .ok i
  | some (.str s) => pyIntOfStr s
  | some .null => .error .typeError

/-- truth value of `d.get("rank")` -/
def rankTruthy : Option Int → Bool
  | some r => r != 0
  | none => false

/-- truth value of `d.get("rating")` -/
def ratingTruthy : Option RVal → Bool
  | some (.int i) => i != 0
  | some (.str s) => !s.isEmpty
  | _ => false

/-- The rank-assignment loop of `_add_ranks_to_prefjab_by_rating`, core.py:224-239.  The first argument
is `i == 0`; `prevrank` always equals the previous `thisrank`, so one variable carries both. -/
def addRanksLoop : Bool → Int → Int → List (Str × Int) → Dict Str Pref → Except PyErr (Dict Str Pref)
  | _, _, _, [], prefs => .ok prefs
  | first, prevrate, prevrank, (c, thisrate) :: rest, prefs =>
    let put (thisrank : Int) :=
      addRanksLoop false thisrate thisrank rest
        (prefs.modify c (fun p => if rankTruthy p.rank then p else { p with rank := some thisrank }))
    if first then put 1
    else if thisrate < prevrate then put (prevrank + 1)
    else if thisrate = prevrate then put prevrank
    -- core.py:234-235: `ABIFVotelineException(message=...)` lacks its required argument `value`
    else .error .typeError

/-- `sorted(retval, key=lambda x: int(retval[x].get("rating", 0)), reverse=True)` with the keys kept
alongside, core.py:219-221. -/
def ratedKeys (prefs : Dict Str Pref) : Except PyErr (List (Str × Int)) :=
  prefs.mapM (fun kp => do let r ← ratingInt kp.2.rating; .ok (kp.1, r))

/-- `_add_ranks_to_prefjab_by_rating`, core.py:213-240. -/
def addRanksByRating (prefs : Dict Str Pref) : Except PyErr (Dict Str Pref) := do
  let ks ← ratedKeys prefs
  addRanksLoop true 0 0 (sortByKeyDesc Prod.snd ks) prefs

/-- The candidate loop of `_parse_prefstr_to_dict`, core.py:369-385: `n` is `len(candpreflist)`, `i` the
index, `rank` the running rank. -/
def prefLoop (mode : RankOrRate) (delims : List Char) (n : Nat) :
    Nat → Int → List (Str × Option RVal) → Dict Str Pref → Except PyErr (Dict Str Pref)
  | _, _, [], prefs => .ok prefs
  | i, rank, (cand, rating) :: rest, prefs =>
    let p : Pref := { rating := if ratingTruthy rating then rating else none,
                      rank := match mode with | .rankone => some 1 | .rank => some rank | .rate => none }
    if i + 1 < n then
      match delims[i]? with
      | none => .error .indexError
      | some d =>
        let rank' := if mode = .rank ∧ d = '>' then rank + 1 else rank
        prefLoop mode delims n (i + 1) rank' rest (prefs.set cand { p with nextdelim := some [d] })
    else prefLoop mode delims n (i + 1) rank rest (prefs.set cand p)

/-- `_parse_prefstr_to_dict`, core.py:355-396: the `prefs` dict and the `cands` list. -/
def parsePrefstr (prefstr : Str) : Except PyErr (Dict Str Pref × List Str) := do
  let (mode, delims) := determineRankOrRate prefstr
  let cps ← extractCandprefs prefstr
  let prefs ← prefLoop mode delims cps.length 0 1 cps []
  let prefs ← addRanksByRating prefs
  match cps with
  | [] => .ok ([], [])
  | (c0, _) :: _ =>
    -- core.py:389-392
    match prefs.get? c0 with
    | none => .error .typeError  -- unreachable: `None.get`
    | some p0 =>
      let prefs ← if ratingTruthy p0.rating && !rankTruthy p0.rank then addRanksByRating prefs else .ok prefs
      .ok (prefs, cps.map Prod.fst)

/-! ### Line processing -/

/-- `abifmodel['metadata']['ballotcount'] += int(qty)`, core.py:413 -/
def bumpBallotcount (md : Dict Str Json) (q : Int) : Except PyErr (Dict Str Json) :=
  match md.get? c!"ballotcount" with
  | some (.int n) => .ok (md.set c!"ballotcount" (.int (n + q)))
  | some _ => .error .typeError
  | none => .error .keyError

/-- merge of the line's candidates, core.py:427-429 -/
def mergeCands : List Str → Dict Str (Option Str) → Dict Str (Option Str)
  | [], d => d
  | x :: xs, d => mergeCands xs (if d.has x then d else d.set x (some x))

/-- `_process_abif_prefline`, core.py:399-430. -/
def processPrefline (qty prefstr : Str) (linecomment : Option Str) (m : Jabmod) : Except PyErr Jabmod := do
  let voterid := linecomment.bind matchVid
  let q : Int := digitsVal qty
  let md ← bumpBallotcount m.metadata q
  let (prefs, cands) ← parsePrefstr prefstr
  let vl : Voteline := { qty := q, prefs := prefs, comment := linecomment, prefstr := some (rstrip prefstr),
                         voterid := voterid }
  .ok { metadata := md, candidates := mergeCands cands m.candidates, votelines := m.votelines ++ [vl] }

/-- `_process_abif_comment_line`, core.py:153-166. -/
def processComment (linecomment : Option Str) (linenum : Nat) (storecomments : Bool) (m : Jabmod) :
    Except PyErr Jabmod :=
  match linecomment with
  | some com =>
    if com ≠ [] ∧ storecomments then
      let entry := Json.arr [.int linenum, .str com]
      match m.metadata.get? c!"comments" with
      | none => .ok { m with metadata := m.metadata.set c!"comments" (.arr [entry]) }
      | some (.arr l) => .ok { m with metadata := m.metadata.set c!"comments" (.arr (l ++ [entry])) }
      -- a metadata line `{comments: ...}` made it a `str`, which has no `append` (AttributeError)
      | some _ => .error .attributeError
    else .ok m
  | none => .ok m

/-- `_process_abif_metadata`, core.py:169-186. -/
def processMeta (key val : Str) (m : Jabmod) : Jabmod :=
  let key := if key = c!"ballotcount" then c!"ballotcount_abif_metadata" else key
  { m with metadata := m.metadata.set key (.str val) }

/-- `_process_abif_candline`, core.py:189-196. -/
def processCand (tok desc : Str) (m : Jabmod) : Jabmod :=
  { m with candidates := m.candidates.set tok (some desc) }

/-- One iteration of the line loop of `convert_abif_to_jabmod`, core.py:85-130. -/
def processLine (cleanws storecomments : Bool) (i : Nat) (fullline : Str) (m : Jabmod) :
    Except PyErr Jabmod := do
  let fullline := if cleanws then lstrip fullline else fullline
  let (strpd, linecomment) := splitComment fullline
  let m ← processComment linecomment i storecomments m
  match matchCand strpd with
  | some (tok, desc) => .ok (processCand tok desc m)
  | none =>
    match matchMeta strpd with
    | some (k, v) => .ok (processMeta k v m)
    | none =>
      match matchVote strpd with
      | some (qty, pref) => processPrefline qty pref linecomment m
      | none => .ok m

/-- the line loop with its line counter -/
def processLines (cleanws storecomments : Bool) : Nat → List Str → Jabmod → Except PyErr Jabmod
  | _, [], m => .ok m
  | i, l :: ls, m => do
    let m' ← processLine cleanws storecomments i l m
    processLines cleanws storecomments (i + 1) ls m'

/-- whether any entry has a `rating` key, core.py:251-254 -/
def hasAnyRating (m : Jabmod) : Bool :=
  m.votelines.any (fun vl => vl.prefs.any (fun kp => kp.2.rating.isSome))

/-- one entry of the rating loop, core.py:265-270; `KeyError` when there is no rank to use -/
def addRatingEntry (hasRating : Bool) (numcands : Int) (p : Pref) : Except PyErr Pref :=
  if ratingTruthy p.rating then .ok p
  else if hasRating then .ok { p with rating := some (.int 0) }
  else match p.rank with
    | some r => .ok { p with rating := some (.int (numcands - r)) }
    | none => .error .keyError

/-- `_add_ratings_to_jabmod_votelines` (called with `add_ratings=True`), core.py:243-271. -/
def addRatings (m : Jabmod) : Except PyErr Jabmod := do
  let hasRating := hasAnyRating m
  let numcands : Int := m.candidates.length
  let vls ← m.votelines.mapM (fun vl => do
    let prefs ← vl.prefs.mapM (fun kp => do let p ← addRatingEntry hasRating numcands kp.2; .ok (kp.1, p))
    .ok { vl with prefs := prefs })
  -- core.py:270: the flag is set as soon as one rating is derived from a rank
  let flagged := !hasRating && m.votelines.any (fun vl => vl.prefs.any (fun kp => !ratingTruthy kp.2.rating))
  .ok { m with votelines := vls,
               metadata := if flagged then m.metadata.set c!"is_ranking_to_rating" (.bool true)
                           else m.metadata }

/-- `convert_abif_to_jabmod`, core.py:60-150 (without the ignored `extradata`). -/
def convertAbif (cleanws addRat storecomments : Bool) (inputstr : Str) : Except PyErr Jabmod := do
  if inputstr = [] then .error .voteline
  else
    let m ← processLines cleanws storecomments 0 (splitlines inputstr) emptyishJabmod
    if m.votelines = [] then .error .voteline
    else
      let m ← if addRat then addRatings m else .ok m
      .ok { m with votelines := sortByKeyDesc Voteline.qty m.votelines }

end

end Verif
