/-
abiflib/devtools.py: the log file singleton.
-/
import Verif.Py.Dict

namespace Verif

/-- `os.path.dirname` on POSIX (posixpath.py): everything up to the last slash, without trailing slashes unless it
consists of slashes only -/
def pyDirname (p : Str) : Str :=
  let head := (p.reverse.dropWhile (fun c => decide (c ≠ '/'))).reverse
  if head.all (fun c => decide (c = '/')) then head
  else (head.reverse.dropWhile (fun c => decide (c = '/'))).reverse

/-- `os.path.isabs` on POSIX -/
def pyIsAbs (p : Str) : Bool := p.head? = some '/'

/-- What a call sees of its surroundings: the environment variable ABIFLIB_LOG, which directories exist, and whether
`open(path, "a")` works (it creates the file if needed). -/
structure LogEnv where
  setting : Option Str
  dirExists : Str → Bool
  openOk : Str → Bool

/-- The class attributes of `LogfileSingleton` (devtools.py:35-40; the message list `devtoolmsgs` is left out) and
the contents of the files in the file system. -/
structure LogState where
  created : Bool
  handle : Option Str
  files : Dict Str Str

/-- a call to the logging functions.  `frame` is the text `"{function} ({filename}:{linenum}): "` that describes the
caller, `text` the message as `f"{msg}"` or `pformat(blob)` renders it. -/
inductive LogOp
  /-- `abiflib_test_log(msg, newline, showframeinfo)`, devtools.py:117-121 -/
  | log (frame text : Str) (newline showframe : Bool)
  /-- `abiflib_test_logblob(blob, blobmark)`, devtools.py:124-127 -/
  | blob (text : Str) (mark : Option Str)
  /-- `LogfileSingleton.close_file()`, devtools.py:109-113 -/
  | close

/-- `self._filehandle.write(text)` on a file opened for appending -/
def appendFile (files : Dict Str Str) (path text : Str) : Dict Str Str :=
  files.set path ((files.get? path).getD [] ++ text)

/-- `LogfileSingleton()`, devtools.py:42-73 (`force_log` is false in both callers).  An empty setting counts as none.
The instance is recorded before the setting is checked. -/
def logNew (env : LogEnv) (s : LogState) : Except PyErr Unit × LogState :=
  if s.created then (.ok (), s)
  else
    let s := { s with created := true }
    match env.setting with
    | none => (.ok (), s)
    | some [] => (.ok (), s)
    | some (c :: cs) =>
      if !pyIsAbs (c :: cs) then (.error .valueError, s)
      else if !env.dirExists (pyDirname (c :: cs)) then (.error .fileNotFound, s)
      else if !env.openOk (c :: cs) then (.error .fileNotFound, s)
      else (.ok (), { s with handle := some (c :: cs), files := appendFile s.files (c :: cs) [] })

/-- text written by `log`, devtools.py:84-90 -/
def logText (frame text : Str) (newline showframe : Bool) : Str :=
  (if showframe then frame else []) ++ text ++ (if newline then c!"\n" else [])

/-- text written by `logblob`, devtools.py:97-104; an empty mark counts as none -/
def blobText (text : Str) (mark : Option Str) : Str :=
  match mark with
  | some (c :: cs) => c!"--" ++ (c :: cs) ++ c!"START--\n" ++ text ++ c!"\n" ++ c!"--" ++ (c :: cs) ++ c!"END--\n"
  | _ => text ++ c!"\n"

/-- write to the log file if there is one, devtools.py:84, 97 -/
def logWrite (s : LogState) (text : Str) : LogState :=
  match s.handle with
  | some p => { s with files := appendFile s.files p text }
  | none => s

/-- one call, devtools.py:75-127 -/
def logStep (env : LogEnv) (s : LogState) : LogOp → Except PyErr Unit × LogState
  | .log frame text nl sf =>
    match logNew env s with
    | (.error e, s) => (.error e, s)
    | (.ok (), s) => (.ok (), logWrite s (logText frame text nl sf))
  | .blob text mark =>
    match logNew env s with
    | (.error e, s) => (.error e, s)
    | (.ok (), s) => (.ok (), logWrite s (blobText text mark))
  | .close => (.ok (), { s with handle := none })

/-- a history of calls: the outcome of each, and the final state -/
def logRun (env : LogEnv) : LogState → List LogOp → List (Except PyErr Unit) × LogState
  | s, [] => ([], s)
  | s, op :: ops =>
    let r := logStep env s op
    let rest := logRun env r.2 ops
    (r.1 :: rest.1, rest.2)

/-- the state of the module when it is loaded, with the given files -/
def logInit (files : Dict Str Str) : LogState := { created := false, handle := none, files := files }

end Verif
