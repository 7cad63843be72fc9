/-
fetchmgr.py: converting what was downloaded.
-/
import Verif.Model.Fetch
import Verif.Model.Cli

namespace Verif
variable [Uni]

/-- What the conversions depend on: `json.loads` for jabmods and the hash for Debian tokens (see `CliEnv`), the text of a
member of a tar archive (given the archive's content and the member's name; `none`: no such member), and what
`git clone`/`git pull` do to the file system. -/
structure ConvEnv (L : Type) where
  loads : Str → Except PyErr Jabmod
  sha : Str → Str
  untar : Str → Str → Option Str
  git : (L → Option FNode) → Str → Str → Except PyErr Unit × (L → Option FNode)

/-- an entry of `archive_subfiles` -/
structure ArchSub where
  member : Str
  abifloc : Str
deriving DecidableEq, Repr

section
variable {L : Type} [DecidableEq L]

/-- `Path(f).read_text()`, with `FileNotFoundError` turned into `sys.exit(1)`, fetchmgr.py:124-128.  Simplification: a file
that exists can be read and decoded. -/
def readInput (P : PathSem L) (s : FetchState L) (p : Str) : Except PyErr Str :=
  match s.fs (P.loc p) with
  | some (.file c) => .ok c
  | some .dir => .error .other
  | none => .error .systemExit

/-- `Path(p).parent.mkdir(parents=True, exist_ok=True)`, fetchmgr.py:132, 152.  Simplification: when it fails it has not
created anything. -/
def mkParents (P : PathSem L) (W : World L) (s : FetchState L) (p : Str) : Except PyErr Unit × FetchState L :=
  if !W.canMake s.fs (pyDirname p) then (.error .other, s)
  else (.ok (), { s with fs := fun l => if l ∈ P.up (pyDirname p) ∧ s.fs l = none then some .dir else s.fs l })

/-- fetchmgr.py:132-133, 152-153 -/
def writeOut (P : PathSem L) (W : World L) (s : FetchState L) (out text : Str) : Except PyErr Unit × FetchState L :=
  match mkParents P W s out with
  | (.error e, s) => (.error e, s)
  | (.ok (), s) => writeFile P W s out text

/-- `metadata`, fetchmgr.py:117-120 -/
def descMeta (desc : Option Str) : List (Str × Str) :=
  match desc with
  | some (c :: cs) => [(c!"description", c :: cs)]
  | _ => []

/-- `convert_files_to_abif`, fetchmgr.py:116-134 -/
def convertFiles (P : PathSem L) (W : World L) (E : ConvEnv L) (s : FetchState L) (fmt : Str) (infiles : List Str) (out : Str)
    (desc : Option Str) : Except PyErr Unit × FetchState L :=
  match infiles.mapM (readInput P s) with
  | .error e => (.error e, s)
  | .ok blobs =>
    match textToAbif E.loads E.sha fmt blobs false false (descMeta desc) with
    | .error e => (.error e, s)
    | .ok text => writeOut P W s out text

/-- a nameq text as abif, fetchmgr.py:146-148 -/
def nameqToAbif (text : Str) : Except PyErr Str :=
  match nameqToJabmod text with
  | .error e => .error e
  | .ok m => convertToAbif (consolidate m)

/-- the text of a member, fetchmgr.py:142-145 (the archive is opened again for every member) -/
def memberText (P : PathSem L) (E : ConvEnv L) (s : FetchState L) (tar member : Str) : Except PyErr Str :=
  match s.fs (P.loc tar) with
  | none => .error .fileNotFound
  | some .dir => .error .other
  | some (.file c) =>
    match E.untar c member with
    | none => .error .keyError
    | some t => .ok t

/-- `convert_nameq_tarball_to_abif_files`, fetchmgr.py:137-158; its argument `abifsubdir` is not used -/
def convertTarball (P : PathSem L) (W : World L) (E : ConvEnv L) (tar : Str) : List ArchSub → FetchState L → Except PyErr Unit × FetchState L
  | [], s => (.ok (), s)
  | f :: fs, s =>
    match memberText P E s tar f.member with
    | .error e => (.error e, s)
    | .ok t =>
      match nameqToAbif t with
      | .error e => (.error e, s)
      | .ok text =>
        match writeOut P W s f.abifloc text with
        | (.error e, s) => (.error e, s)
        | (.ok (), s) => convertTarball P W E tar fs s

/-- the symbolic link, fetchmgr.py:172-180.  Simplification: the link is modelled as a copy of what it leads to, which is
assumed to be `src` (see `relPath` for when it is). -/
def linkFile (P : PathSem L) (W : World L) (s : FetchState L) (src out : Str) : Except PyErr Unit × FetchState L :=
  if s.fs (P.loc out) = some .dir || !W.canOpen s.fs out then (.error .other, s)
  else (.ok (), { s with fs := fun l => if l = P.loc out then s.fs (P.loc src) else s.fs l })

/-- carrying out an action, fetchmgr.py:172-195 -/
def runAction (P : PathSem L) (W : World L) (E : ConvEnv L) (subs : Option (List ArchSub)) (a : ExtAction) (s : FetchState L) :
    Except PyErr Unit × FetchState L :=
  match a with
  | .link src out => linkFile P W s src out
  | .convert fmt infiles out desc => convertFiles P W E s fmt infiles out desc
  | .tarball tar =>
    match subs with
    | none => (.error .typeError, s)
    | some subs => convertTarball P W E tar subs s

/-- carrying out actions until one fails -/
def runActions (P : PathSem L) (W : World L) (E : ConvEnv L) (subs : Option (List ArchSub)) : List ExtAction → FetchState L →
    Except PyErr Unit × FetchState L
  | [], s => (.ok (), s)
  | a :: as, s =>
    match runAction P W E subs a s with
    | (.error e, s) => (.error e, s)
    | (.ok (), s) => runActions P W E subs as s

/-- `process_extfilelist`, fetchmgr.py:161-196, with its effects.  An action does not depend on the file system
(`processExtfiles`), so the actions before a bad entry are carried out and then its error ends the run. -/
def processExtRun (P : PathSem L) (W : World L) (E : ConvEnv L) (dl ab : Str) (es : List ExtFile) (srcfmt : Option Str)
    (subs : Option (List ArchSub)) (s : FetchState L) : Except PyErr Unit × FetchState L :=
  match (if s.has P ab then (.ok (), s) else makedirs P W s ab) with
  | (.error e, s) => (.error e, s)
  | (.ok (), s) =>
    match runActions P W E subs (processExtfiles dl ab es srcfmt).1 s with
    | (.error e, s) => (.error e, s)
    | (.ok (), s) => ((processExtfiles dl ab es srcfmt).2, s)

/-- an entry of `web_urls` or `extfiles` -/
structure SpecEntry extends UrlDict where
  srcfmt : Option Str := none
  abifloc : Option Str := none

/-- the entry as `process_extfilelist` sees it -/
def SpecEntry.ext (e : SpecEntry) : ExtFile :=
  { localcopies := e.localcopies, localcopy := e.localcopy, srcfmt := e.srcfmt, desc := e.desc, abifloc := e.abifloc }

/-- a fetchspec file after `json.load`; absent keys are `none`.  Simplification: `download_subdir` is present. -/
structure FetchSpec where
  gitrepo : Option Str := none
  downloadSubdir : Str
  abifSubdir : Option Str := none
  webUrls : Option (List SpecEntry) := none
  extfiles : Option (List SpecEntry) := none
  srcfmt : Option Str := none
  subs : Option (List ArchSub) := none

/-- `a or b` for lists -/
def orList {α : Type} (a b : Option (List α)) : Option (List α) :=
  match a with
  | some (x :: l) => some (x :: l)
  | _ => b

/-- `process_fetchspec` after reading the file, fetchmgr.py:205-224 -/
def processSpec (P : PathSem L) (W : World L) (E : ConvEnv L) (f : FetchSpec) (s : FetchState L) : Except PyErr Unit × FetchState L :=
  let got : Except PyErr Unit × FetchState L :=
    match f.gitrepo, f.webUrls with
    | some g, _ => ((E.git s.fs g f.downloadSubdir).1, { s with fs := (E.git s.fs g f.downloadSubdir).2 })
    | none, some us => fetchWebItems P W f.downloadSubdir (us.map SpecEntry.toUrlDict) s
    | none, none => (.error .other, s)
  match got with
  | (.error e, s) => (.error e, s)
  | (.ok (), s) =>
    match orStr f.abifSubdir none, orList f.webUrls f.extfiles with
    | some ab, some (x :: l) =>
      processExtRun P W E f.downloadSubdir ab ((x :: l).map SpecEntry.ext) f.srcfmt f.subs s
    | _, _ => (.ok (), s)

/-- `process_fetchspec`, fetchmgr.py:199-224: `load` reads the fetchspec from its file -/
def processFetchspec (P : PathSem L) (W : World L) (E : ConvEnv L) (load : Str → Except PyErr FetchSpec) (fn : Str) (s : FetchState L) :
    Except PyErr Unit × FetchState L :=
  match s.fs (P.loc fn) with
  | none => (.error .other, s)
  | some .dir => (.error .other, s)
  | some (.file c) =>
    match load c with
    | .error e => (.error e, s)
    | .ok f => processSpec P W E f s

/-- `main`, fetchmgr.py:227-247: the fetchspecs one after the other; without one, a message and `sys.exit(1)` -/
def fetchMain (P : PathSem L) (W : World L) (E : ConvEnv L) (load : Str → Except PyErr FetchSpec) (fns : List Str) (s : FetchState L) :
    Except PyErr Unit × FetchState L :=
  match fns with
  | [] => (.error .systemExit, s)
  | fns => go fns s
where
  go : List Str → FetchState L → Except PyErr Unit × FetchState L
  | [], s => (.ok (), s)
  | fn :: fns, s =>
    match processFetchspec P W E load fn s with
    | (.error e, s) => (.error e, s)
    | (.ok (), s) => go fns s

end

/-! ### os.path.relpath -/

/-- the parts of a path that `os.path.abspath` has normalised -/
abbrev Parts := List Str

/-- length of the common beginning -/
def commonLen : Parts → Parts → Nat
  | a :: as, b :: bs => if a = b then commonLen as bs + 1 else 0
  | _, _ => 0

/-- `os.path.relpath(path, start)` (Lib/posixpath.py), parts of the result; the empty result is `.` -/
def relPath (path start : Parts) : Parts :=
  List.replicate (start.length - commonLen start path) c!".." ++ path.drop (commonLen start path)

/-- where a relative link in directory `dir` leads: `..` goes up (at the top it stays), other parts go down -/
def follow (dir : Parts) : Parts → Parts
  | [] => dir
  | p :: ps => if p = c!".." then follow dir.dropLast ps else follow (dir ++ [p]) ps

end Verif
