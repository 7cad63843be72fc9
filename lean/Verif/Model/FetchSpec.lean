/-
fetchmgr.py: reading a fetchspec from its JSON file (`json.load(fh)`, fetchmgr.py:204-205).
In Python the fetchspec is the JSON value itself; `specOf` gives the `FetchSpec` it stands for.
-/
import Verif.Model.FetchRun
import Verif.Py.JsonLoad

namespace Verif

/-- a member that is looked up with `d[k]` or `k in d.keys()`: absent, or a text.  Anything else is outside the model. -/
def strMember (l : List (Str × Json)) (k : Str) : Except PyErr (Option Str) :=
  match Dict.get? l k with
  | none => .ok none
  | some (.str s) => .ok (some s)
  | some _ => .error .other

/-- a member that is looked up with `d.get(k)`: `null` is the same as absent -/
def getStrMember (l : List (Str × Json)) (k : Str) : Except PyErr (Option Str) :=
  match Dict.get? l k with
  | some .null => .ok none
  | _ => strMember l k

/-- a text of a list of texts -/
def strOf : Json → Except PyErr Str
  | .str s => .ok s
  | _ => .error .other

/-- a list of texts, or absent -/
def strsMember (l : List (Str × Json)) (k : Str) : Except PyErr (Option (List Str)) :=
  match Dict.get? l k with
  | none => .ok none
  | some (.arr vs) => (vs.mapM strOf).map some
  | some _ => .error .other

/-- an entry of `web_urls` or `extfiles`, fetchmgr.py:83-109 and 163-193 -/
def entryOf : Json → Except PyErr SpecEntry
  | .obj l => do
    let localcopies ← strsMember l c!"localcopies"
    let localcopy ← strMember l c!"localcopy"
    let urls ← strsMember l c!"urls"
    let url ← strMember l c!"url"
    let metaurls ← strsMember l c!"metaurls"
    let desc ← strMember l c!"desc"
    let srcfmt ← getStrMember l c!"srcfmt"
    let abifloc ← strMember l c!"abifloc"
    .ok { localcopies := localcopies, localcopy := localcopy, urls := urls, url := url, metaurls := metaurls, desc := desc,
          srcfmt := srcfmt, abifloc := abifloc }
  | _ => .error .other

/-- `web_urls` or `extfiles` -/
def entriesMember (l : List (Str × Json)) (k : Str) : Except PyErr (Option (List SpecEntry)) :=
  match Dict.get? l k with
  | none => .ok none
  | some (.arr vs) => (vs.mapM entryOf).map some
  | some _ => .error .other

/-- an entry of `archive_subfiles`, fetchmgr.py:140-150.  Simplification: both members are present (in Python their absence is a
`KeyError` when the entry's turn comes). -/
def subOf : Json → Except PyErr ArchSub
  | .obj l =>
    match Dict.get? l c!"archive_subfile", Dict.get? l c!"abifloc" with
    | some (.str m), some (.str a) => .ok { member := m, abifloc := a }
    | _, _ => .error .other
  | _ => .error .other

/-- `fetchspec.get('archive_subfiles')` -/
def subsMember (l : List (Str × Json)) : Except PyErr (Option (List ArchSub)) :=
  match Dict.get? l c!"archive_subfiles" with
  | none => .ok none
  | some .null => .ok none
  | some (.arr vs) => (vs.mapM subOf).map some
  | some _ => .error .other

/-- `'gitrepo_url' in fetchspec.keys()` or `'web_urls' in fetchspec.keys()`, fetchmgr.py:206, 209 -/
def namesSource (l : List (Str × Json)) : Bool := (Dict.get? l c!"gitrepo_url").isSome || (Dict.get? l c!"web_urls").isSome

/-- The fetchspec a JSON value stands for, or the exception that ends `process_fetchspec` before it does anything: `keys()` of
something that is no object (fetchmgr.py:206), neither source given (fetchmgr.py:212), no `download_subdir` (fetchmgr.py:208,
78).  Members of other types than the program expects are outside the model (error `other`); other members are not looked at. -/
def specOf : Json → Except PyErr FetchSpec
  | .obj l =>
    if namesSource l = false then .error .other
    else
      match Dict.get? l c!"download_subdir" with
      | none => .error .keyError
      | some (.str dl) => do
        let gitrepo ← strMember l c!"gitrepo_url"
        let abifSubdir ← getStrMember l c!"abifloc_subdir"
        let webUrls ← entriesMember l c!"web_urls"
        let extfiles ← entriesMember l c!"extfiles"
        let srcfmt ← getStrMember l c!"srcfmt"
        let subs ← subsMember l
        .ok { gitrepo := gitrepo, downloadSubdir := dl, abifSubdir := abifSubdir, webUrls := webUrls, extfiles := extfiles,
              srcfmt := srcfmt, subs := subs }
      | some _ => .error .other
  | _ => .error .attributeError

/-- `json.load(fh)`, fetchmgr.py:204-205, on the text of the file -/
def loadSpec (text : Str) : Except PyErr FetchSpec := (jsonLoads text).bind specOf

end Verif
