/-
fetchmgr.py: downloading election data and choosing how to convert it.
-/
import Verif.Model.Log

namespace Verif

/-- `os.path.join(a, b)` on POSIX -/
def pyJoin (a b : Str) : Str :=
  if b.head? = some '/' then b
  else if a = [] || a.getLast? = some '/' then a ++ b
  else a ++ ('/' :: b)

/-- something in the file system -/
inductive FNode
  | dir
  | file (content : Str)
deriving DecidableEq, Repr

/-- How path strings relate to places in the file system.  Nothing is assumed about it: `loc` says which place a path
names (so that different spellings may name the same file), `up` lists the places `os.makedirs(path)` makes
directories at if nothing is there.  Simplification: `loc` and `up` do not depend on the file system (links are not
re-targeted during a run). -/
structure PathSem (L : Type) where
  loc : Str → L
  up : Str → List L

/-- The state of a run: the file system, and the urls requested so far. -/
structure FetchState (L : Type) where
  fs : L → Option FNode
  reqs : List Str

/-- What the run depends on but does not control: the answer to the `k`-th request (status code and body; `none` when
`requests.get` raises), whether the operating system lets `makedirs` and `open(.., "wb")` succeed, and how much of a
write gets done when it is cut short (disk full, process killed; `none`: it is not cut short). -/
structure World (L : Type) where
  server : Nat → Str → Option (Nat × Str)
  canMake : (L → Option FNode) → Str → Bool
  canOpen : (L → Option FNode) → Str → Bool
  cut : (L → Option FNode) → Str → Option Nat

section
variable {L : Type} [DecidableEq L]

/-- `os.path.exists(p)` -/
def FetchState.has (P : PathSem L) (s : FetchState L) (p : Str) : Bool := (s.fs (P.loc p)).isSome

/-- `os.makedirs(p)`.  Simplification: when it fails it has not created anything. -/
def makedirs (P : PathSem L) (W : World L) (s : FetchState L) (p : Str) : Except PyErr Unit × FetchState L :=
  if p = [] || !W.canMake s.fs p then (.error .other, s)
  else (.ok (), { s with fs := fun l => if l ∈ P.up p ∧ s.fs l = none then some .dir else s.fs l })

/-- `with open(p, "wb") as f: f.write(content)` -/
def writeFile (P : PathSem L) (W : World L) (s : FetchState L) (p content : Str) : Except PyErr Unit × FetchState L :=
  if s.fs (P.loc p) = some .dir || !W.canOpen s.fs p then (.error .other, s)
  else
    match W.cut s.fs p with
    | none => (.ok (), { s with fs := fun l => if l = P.loc p then some (.file content) else s.fs l })
    | some k => (.error .other, { s with fs := fun l => if l = P.loc p then some (.file (content.take k)) else s.fs l })

/-- `fetch_url_to_subdir(url, subdir, localpath, ...)`, fetchmgr.py:48-74 (messages to stderr left out) -/
def fetchUrl (P : PathSem L) (W : World L) (s : FetchState L) (url subdir localpath : Str) :
    Except PyErr Unit × FetchState L :=
  if url = [] || subdir = [] || localpath = [] then (.error .other, s)
  else
    let s' : FetchState L := { s with reqs := s.reqs ++ [url] }
    match W.server s.reqs.length url with
    | none => (.error .other, s')
    | some (status, content) =>
      if status = 200 then
        let d := pyDirname localpath
        match (if s'.has P d then (.ok (), s') else makedirs P W s' d) with
        | (.error e, s'') => (.error e, s'')
        | (.ok (), s'') =>
          if s''.has P d then writeFile P W s'' localpath content
          else (.error .other, s'')
      else (.ok (), s')

/-- an entry of `web_urls`: absent keys are `none` -/
structure UrlDict where
  localcopies : Option (List Str) := none
  localcopy : Option Str := none
  urls : Option (List Str) := none
  url : Option Str := none
  metaurls : Option (List Str) := none
  desc : Option Str := none
deriving DecidableEq, Repr

/-- `urldict['metaurls'][0]` and `urldict['desc']`, fetchmgr.py:100-101, 109-110 -/
def fetchArgs (u : UrlDict) : Except PyErr Unit :=
  match u.metaurls with
  | none => .error .keyError
  | some [] => .error .indexError
  | some _ =>
    match u.desc with
    | none => .error .keyError
    | some _ => .ok ()

/-- one download unless the file exists, fetchmgr.py:95-103 and 104-112; `url` is `none` when `urldict['url']` is
missing -/
def fetchOne (P : PathSem L) (W : World L) (subdir : Str) (u : UrlDict) (s : FetchState L) (url : Option Str)
    (path : Str) : Except PyErr Unit × FetchState L :=
  if s.has P path then (.ok (), s)
  else
    match url with
    | none => (.error .keyError, s)
    | some url =>
      match fetchArgs u with
      | .error e => (.error e, s)
      | .ok () => fetchUrl P W s url subdir path

/-- `for i, suburl in enumerate(urldict['urls'])`, fetchmgr.py:93-103 -/
def fetchMany (P : PathSem L) (W : World L) (subdir : Str) (u : UrlDict) (localpaths : List Str) :
    List Str → Nat → FetchState L → Except PyErr Unit × FetchState L
  | [], _, s => (.ok (), s)
  | url :: urls, i, s =>
    match localpaths[i]? with
    | none => (.error .indexError, s)
    | some path =>
      match fetchOne P W subdir u s (some url) path with
      | (.error e, s) => (.error e, s)
      | (.ok (), s) => fetchMany P W subdir u localpaths urls (i + 1) s

/-- fetchmgr.py:86-88: the list is extended and its beginning overwritten; entries left by an earlier `urldict` stay -/
def setCopies (subdir : Str) : List Str → Nat → List Str → List Str
  | [], _, lp => lp
  | c :: cs, i, lp => setCopies subdir cs (i + 1) ((lp ++ [c!"REPLACETHIS"]).set i (pyJoin subdir c))

/-- the downloads of one entry of `web_urls`, fetchmgr.py:93-112 -/
def fetchItem (P : PathSem L) (W : World L) (subdir : Str) (u : UrlDict) (localpaths : List Str) (localpath : Option Str)
    (s : FetchState L) : Except PyErr Unit × FetchState L :=
  match u.urls with
  | some urls => fetchMany P W subdir u localpaths urls 0 s
  | none =>
    match localpath with
    | none => (.error .nameError, s)
    | some path => fetchOne P W subdir u s u.url path

/-- the local paths for one entry, fetchmgr.py:85-91 -/
def itemPaths (subdir : Str) (u : UrlDict) (localpaths : List Str) (localpath : Option Str) :
    Except PyErr (List Str × Option Str) :=
  match u.localcopies with
  | some cs => .ok (setCopies subdir cs 0 localpaths, localpath)
  | none =>
    match u.localcopy with
    | none => .error .keyError
    | some c => .ok (localpaths, some (pyJoin subdir c))

/-- the loop over `web_urls`, fetchmgr.py:83-112; `localpaths` and `localpath` (`none` while unassigned) live across
its iterations -/
def fetchLoop (P : PathSem L) (W : World L) (subdir : Str) :
    List UrlDict → List Str → Option Str → FetchState L → Except PyErr Unit × FetchState L
  | [], _, _, s => (.ok (), s)
  | u :: us, localpaths, localpath, s =>
    match itemPaths subdir u localpaths localpath with
    | .error e => (.error e, s)
    | .ok (localpaths, localpath) =>
      match fetchItem P W subdir u localpaths localpath s with
      | (.error e, s) => (.error e, s)
      | (.ok (), s) => fetchLoop P W subdir us localpaths localpath s

/-- `fetch_web_items(fetchspec)`, fetchmgr.py:77-113 (its return value, the last response, is not used) -/
def fetchWebItems (P : PathSem L) (W : World L) (subdir : Str) (webUrls : List UrlDict) (s : FetchState L) :
    Except PyErr Unit × FetchState L :=
  match (if s.has P subdir then (.ok (), s) else makedirs P W s subdir) with
  | (.error e, s) => (.error e, s)
  | (.ok (), s) => fetchLoop P W subdir webUrls [] none s

end

/-! ### process_extfilelist -/

/-- an entry of `extfilelist` -/
structure ExtFile where
  localcopies : Option (List Str) := none
  localcopy : Option Str := none
  srcfmt : Option Str := none
  desc : Option Str := none
  abifloc : Option Str := none
deriving DecidableEq, Repr

/-- what is done for an entry -/
inductive ExtAction
  /-- symbolic link at `out` to `infile` -/
  | link (infile out : Str)
  /-- `convert_files_to_abif(fmt, infiles, out, desc)` -/
  | convert (fmt : Str) (infiles : List Str) (out : Str) (desc : Option Str)
  /-- `convert_nameq_tarball_to_abif_files(tarball, ...)` -/
  | tarball (file : Str)
deriving DecidableEq, Repr

/-- `x.get(k) or dflt` for strings -/
def orStr (x : Option Str) (dflt : Option Str) : Option Str :=
  match x with
  | some (c :: cs) => some (c :: cs)
  | _ => dflt

/-- `infiles`, fetchmgr.py:166-169 -/
def extInfiles (dlsubdir : Str) (e : ExtFile) : Except PyErr (List Str) :=
  match e.localcopies with
  | some l => .ok (l.map (pyJoin dlsubdir))
  | none =>
    match e.localcopy with
    | some c => .ok [pyJoin dlsubdir c]
    | none => .error .keyError

/-- `outfile`, fetchmgr.py:173, 182 -/
def extOut (abifsubdir : Str) (e : ExtFile) : Except PyErr Str :=
  match e.abifloc with
  | some a => .ok (pyJoin abifsubdir a)
  | none => .error .keyError

/-- the action for an entry in format `fmt`, fetchmgr.py:166-195 -/
def extAction (dlsubdir abifsubdir : Str) (e : ExtFile) (fmt : Option Str) : Except PyErr ExtAction := do
  let infiles ← extInfiles dlsubdir e
  if fmt = some c!"abif" then do
    let o ← extOut abifsubdir e
    match infiles with
    | [] => .error .indexError
    | f :: _ => .ok (.link f o)
  else if fmt = some c!"debtally" ∨ fmt = some c!"preflib" ∨ fmt = some c!"sftxt" then do
    let o ← extOut abifsubdir e
    .ok (.convert (fmt.getD []) infiles o (orStr e.desc none))
  else if fmt = some c!"nameq_archive" then
    match e.localcopy with
    | some c => .ok (.tarball (pyJoin dlsubdir c))
    | none => .error .keyError
  else .error .other

/-- `process_extfilelist`, fetchmgr.py:161-196: the actions carried out in order, and the error that ends the run, if
any.  Simplification: the actions themselves are assumed to succeed. -/
def processExtfiles (dlsubdir abifsubdir : Str) : List ExtFile → Option Str → List ExtAction × Except PyErr Unit
  | [], _ => ([], .ok ())
  | e :: es, srcfmt =>
    let srcfmt := orStr e.srcfmt srcfmt
    match extAction dlsubdir abifsubdir e srcfmt with
    | .error err => ([], .error err)
    | .ok a => let r := processExtfiles dlsubdir abifsubdir es srcfmt; (a :: r.1, r.2)

end Verif
