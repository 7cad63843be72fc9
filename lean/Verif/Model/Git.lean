/-
fetchmgr.py: `update_repository` and `checkout_repository`.
-/
import Verif.Model.FetchRun

namespace Verif

/-- how a subprocess ended: with an exit status, or it could not be started (`FileNotFoundError`: no such program) -/
inductive ProcEnd
  | exited (status : Int)
  | missing
deriving DecidableEq, Repr

/-- What the two functions depend on: whether a path exists, seen from a working directory; where `os.chdir` leads
(`none`: it fails, e.g. not a directory); and what a command run in a working directory does to the file system. -/
structure GitEnv (F : Type) where
  isThere : F → Str → Str → Bool
  chdir : F → Str → Str → Option Str
  run : F → Str → List Str → ProcEnd × F

/-- working directory, file system, standard output, and the commands run, each with its working directory -/
structure GitState (F : Type) where
  cwd : Str
  fs : F
  out : Str
  cmds : List (Str × List Str)

section
variable {F : Type}

/-- `print(s)` -/
def GitState.say (s : GitState F) (t : Str) : GitState F := { s with out := s.out ++ t ++ ['\n'] }

/-- `os.chdir(p)` -/
def GitState.chdir (E : GitEnv F) (s : GitState F) (p : Str) : Except PyErr Unit × GitState F :=
  match E.chdir s.fs s.cwd p with
  | none => (.error .other, s)
  | some d => (.ok (), { s with cwd := d })

/-- `subprocess.run(args)` without `check=True`: the exit status is not looked at, so `CalledProcessError` is never
raised; a program that cannot be started raises `FileNotFoundError` -/
def GitState.call (E : GitEnv F) (s : GitState F) (args : List Str) : Except PyErr Unit × GitState F :=
  let r := E.run s.fs s.cwd args
  let s' : GitState F := { s with fs := r.2, cmds := s.cmds ++ [(s.cwd, args)] }
  match r.1 with
  | .exited _ => (.ok (), s')
  | .missing => (.error .fileNotFound, s')

/-- `update_repository`, fetchmgr.py:19-32 -/
def updateRepo (E : GitEnv F) (url subdir : Str) (s : GitState F) : Except PyErr Unit × GitState F :=
  if !E.isThere s.fs s.cwd subdir then (.ok (), s.say (c!"Directory '" ++ subdir ++ c!"' isn't there."))
  else
    let startdir := s.cwd
    match s.chdir E subdir with
    | (.error e, s) => (.error e, s)
    | (.ok (), s) =>
      match s.call E [c!"git", c!"pull"] with
      | (.error e, s) => (.error e, s)
      | (.ok (), s) =>
        (s.say (c!"Updating repository " ++ subdir ++ c!" from " ++ url ++ c!" (git pull)")).chdir E startdir

/-- `checkout_repository`, fetchmgr.py:35-46 -/
def checkoutRepo (E : GitEnv F) (url subdir : Str) (s : GitState F) : Except PyErr Unit × GitState F :=
  if E.isThere s.fs s.cwd subdir then
    updateRepo E url subdir (s.say (c!"Directory '" ++ subdir ++ c!"' exists."))
  else
    match s.call E [c!"git", c!"clone", url, subdir] with
    | (.error e, s) => (.error e, s)
    | (.ok (), s) => (.ok (), s.say (c!"Repository cloned from " ++ url ++ c!" to " ++ subdir))

end

/-- `checkout_repository` as `process_fetchspec` (fetchmgr.py:206-208) calls it from the working directory `cwd`: its
effect on the file system.  Simplification: paths used after it are read from `cwd`, which is where it comes back to
unless it fails (`C89_restored_partial`). -/
def gitStep {L : Type} (E : GitEnv (L → Option FNode)) (cwd : Str) (fs : L → Option FNode) (url subdir : Str) :
    Except PyErr Unit × (L → Option FNode) :=
  let r := checkoutRepo E url subdir { cwd := cwd, fs := fs, out := [], cmds := [] }
  (r.1, r.2.fs)

end Verif
