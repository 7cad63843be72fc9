/-
Short tokens made from candidate names: abiflib/util.py:63-76, abiflib/sftxt.py:268-276,
abiflib/debtally.py:39-72, abiflib/preflib.py:67-70.
-/
import Verif.Py.Regex
import Verif.Py.Dict

namespace Verif

/-- `re.match(r'^[A-Za-z0-9]+$', s)`: `$` also matches before a final line break -/
def alnumMatch (s : Str) : Bool :=
  (s != [] && s.all isAsciiAlnum) ||
  (s.getLast? == some '\n' && s.dropLast != [] && s.dropLast.all isAsciiAlnum)

/-- `re.sub('[^A-Za-z0-9]+', '_', s)`: every maximal run of other characters becomes one underscore;
`inRun` says that the underscore of the current run was already written -/
def collapseAux : Bool → Str → Str
  | _, [] => []
  | inRun, c :: t =>
    if isAsciiAlnum c then c :: collapseAux false t
    else if inRun then collapseAux true t
    else '_' :: collapseAux true t

/-- `re.sub('WRITE_IN_', 'wi_', s)` -/
def writeInSub (s : Str) : Str := reSub (matchLen (litAtoms c!"WRITE_IN_")) c!"wi_" s

/-- `utf8_string_to_abif_token`, util.py:63-76, and `_short_token` of sftxt.py:268-276 (the same code) -/
def abifToken (maxLength : Nat) (s : Str) : Str :=
  if s.length ≤ maxLength && alnumMatch s then s
  else (writeInSub (collapseAux false s)).take maxLength

/-- `longstring.split()`: the maximal runs of non-blank characters; `cur` is the current word reversed -/
def wordsAux : Str → Str → List Str
  | [], [] => []
  | [], c :: cur => [(c :: cur).reverse]
  | c :: t, cur =>
    if isSpace c then (if cur = [] then wordsAux t [] else cur.reverse :: wordsAux t []) else wordsAux t (c :: cur)

def pySplit (s : Str) : List Str := wordsAux s []

/-- the part of debtally.py:50-52 before truncation: words with everything but letters and digits removed, joined -/
def debClean (s : Str) : Str := ((pySplit s).map (fun w => w.filter isAsciiAlnum)).flatten

/-- `_short_token` of debtally.py:45-59.  `sha` is `_trunc_sha_str` (debtally.py:39-42), a parameter of the model;
`maxLength` is at least 4 in every call (the default 20). -/
def debToken (sha : Str → Str) (maxLength : Nat) (addSha : Bool) (s : Str) : Str :=
  if s.length ≤ maxLength && alnumMatch s then s
  else if addSha then (debClean s).take (maxLength - 4) ++ sha s
  else (debClean s).take maxLength

/-- ASCII lower case -/
def asciiLower (c : Char) : Char := if isAsciiUpper c then Char.ofNat (c.toNat + 32) else c

/-- `(?i)` matching of one pattern character.  The only characters outside ASCII that Python takes to match an ASCII letter
match `s`, `k` or `i` (U+017F, U+212A, U+0130, U+0131), which do not occur in the one pattern this is used for. -/
def nocaseAtom (p : Char) : Atom := .one (fun c => asciiLower c == p)

/-- `re.sub('(?i)none of the above', 'NOTA', s)`, debtally.py:66 -/
def notaSub (s : Str) : Str := reSub (matchLen (c!"none of the above".map nocaseAtom)) c!"NOTA" s

/-- `_get_short_option_names`, debtally.py:62-72; `seen` is `tokset` -/
def debTokensAux (sha : Str → Str) : List Str → List Str → List Str
  | [], _ => []
  | o :: rest, seen =>
    let o2 := notaSub o
    let t := debToken sha 20 false o2
    let t := if t ∈ seen then debToken sha 20 true o2 else t
    t :: debTokensAux sha rest (t :: seen)

def debTokens (sha : Str → Str) (names : List Str) : List Str := debTokensAux sha names []

/-- `re.sub(' ', '', o)`, preflib.py:69 -/
def preflibToken (s : Str) : Str := s.filter (fun c => c != ' ')

end Verif
