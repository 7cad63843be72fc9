/-
util/configtool.py: the list of elections made from a fetchspec.
-/
import Verif.Model.Widj
import Verif.Model.Output
import Verif.Py.JsonLoad
import Verif.Py.Regex

namespace Verif

/-- `$` at the end of a pattern: the end of the string, or a line feed that ends it -/
def atEnd (s : Str) : Bool := s == [] || s == ['\n']

/-- `re.search(r'([^/]+)\.abif$', filename)` and its group, configtool.py:62-65 -/
def abifId (fn : Str) : Option Str :=
  (searchMatch atEnd (.plus (fun c => c != '/') :: litAtoms c!".abif") fn).bind fun r => r.2.1.head?

/-- `re.search(r"mayor", oldtag, flags=re.IGNORECASE)`, configtool.py:23.  None of these five letters has a case variant outside
ASCII. -/
def saysMayor : Str → Bool
  | [] => false
  | c :: t => ((c :: t).take 5).map Char.toLower == c!"mayor" || saysMayor t

/-- `re.search("^Alaska-U.S.", title)`, configtool.py:25: `.` is any character but a line feed -/
def saysAlaskaUS (title : Str) : Bool :=
  (prefixMatch (litAtoms c!"Alaska-U" ++ [.one (· != '\n')] ++ litAtoms c!"S" ++ [.one (· != '\n')]) title).isSome

/-- `_fix_tag`, configtool.py:16-54: the set it returns, as a list.  `newtags.update(oldtag)` in the last branch adds the characters
of the tag, since a string is iterated. -/
def fixTag (old title : Str) : List Str :=
  (if saysMayor old then [c!"mayor"] else []) ++
  (if c!"Alaska".isPrefixOf old && saysAlaskaUS title then [c!"AK", c!"federal"]
  else if c!"Alaska".isPrefixOf old then [c!"AK", c!"local"]
  else if c!"AlamedaCounty".isPrefixOf old then [c!"CA", c!"AlamedaCounty_CA"]
  else if c!"SanFrancisco".isPrefixOf old || c!"san_francisco".isPrefixOf old then [c!"CA", c!"SanFrancisco_CA", c!"SF"]
  else if c!"san_leandro".isPrefixOf old then [c!"CA", c!"SanLeandro_CA"]
  else if c!"oakland".isPrefixOf old then [c!"CA", c!"Oakland_CA"]
  else if c!"Maine".isPrefixOf old then [c!"ME"]
  else if c!"ME_Primary".isPrefixOf old then [c!"ME", c!"primary_election"]
  else if c!"Portland_ME".isPrefixOf old then [c!"ME", c!"Portland_ME"]
  else if c!"Minneapolis".isPrefixOf old then [c!"MN", c!"Minneapolis_MN"]
  else if c!"NYC".isPrefixOf old then [c!"NY", c!"NYC_NY"]
  else if c!"Burlington_VT".isPrefixOf old then [c!"VT", c!"Burlington_VT"]
  else if c!"Pierce_WA".isPrefixOf old then [c!"WA", c!"PierceCounty_WA"]
  else old.map fun c => [c])

/-- what `re.search(…, oldtag)` in `_fix_tag` needs: a string -/
def tagStr : Json → Except PyErr Str
  | .str s => .ok s
  | _ => .error .typeError

/-- the tags of an entry, configtool.py:69-76: `set(abiffile['tags'])` (a `TypeError` when it cannot be iterated or an element cannot
be hashed), `_fix_tag` on each (a `TypeError` when one is not a string), and then the join of the tags as they were; the set
`fixedtags` is not used. -/
def entryTags (tags : Option Json) : Except PyErr (Option Str) :=
  match tags with
  | none => .ok none
  | some v =>
    if v.truthy then do
      let l ← (← v.elems).mapM tagStr
      let _fixedtags := l.flatMap fun t => fixTag t []
      pure (some (joinStr c!", " l))
    else .ok none

/-- one entry of the list, configtool.py:60-78; a value that is not there is `None` -/
structure CfgEntry where
  filename : Str
  id : Option Str
  title : Json
  tags : Option Str
  desc : Json

/-- the body of the loop in `make_nameq_based_file_list`, configtool.py:57-79 -/
def cfgEntry (abiffile : Json) : Except PyErr CfgEntry := do
  let fn ← tagStr (← abiffile.index c!"abifloc")
  let d ← abiffile.items
  let id := abifId fn
  let title := (Dict.get? d c!"title").getD .null
  let title := if title.truthy then title else match id with | some i => .str i | none => .null
  let tags ← entryTags (Dict.get? d c!"tags")
  pure ⟨fn, id, title, tags, (Dict.get? d c!"desc").getD .null⟩

/-- `make_nameq_based_file_list`, configtool.py:57-80 -/
def cfgFileList (spec : Json) : Except PyErr (List CfgEntry) := do
  (← (← spec.index c!"archive_subfiles").elems).mapM cfgEntry

/-- what `convert_fetchspec_to_newdict` returns: the list of entries, or `{'srcfmt': …}` -/
inductive CfgOut
  | entries (l : List CfgEntry)
  | srcfmt (j : Json)

/-- `convert_fetchspec_to_newdict`, configtool.py:82-92; `file` is the contents of the file, `none` when it does not exist (then the
bare `raise` is a `RuntimeError`) -/
def cfgConvert (file : Option Str) : Except PyErr CfgOut :=
  match file with
  | none => .error .other
  | some text => do
    let spec ← jsonLoads text
    let d ← spec.items
    match Dict.get? d c!"srcfmt" with
    | some (.str s) => if s = c!"nameq_archive" then (cfgFileList spec).map .entries else pure (.srcfmt (.str s))
    | some j => pure (.srcfmt j)
    | none => pure (.srcfmt .null)

end Verif
