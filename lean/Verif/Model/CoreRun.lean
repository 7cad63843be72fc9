/-
core.py as a program.
-/
import Verif.Model.ScriptArgv

namespace Verif
variable [Uni]

/-- core.py:682-717 with its command line.  `reprList` is Python's `repr` of a list of strings, which is not modelled; `if not args.string` is
never true, since argparse wants at least one string. -/
def coreRun (reprList : List Str → Str) (argv : List Str) : ArgvResult :=
  match coreProgram.parse argv with
  | .error e => .stopped e
  | .ok ([], _) => .stopped .usage
  | .ok (s :: ss, us) =>
    let func := (optValue us funcOpt).getD c!"pref_to_dict"
    if func = c!"pref_to_dict" then .ran (coreMain .prefToDict s)
    else if func = c!"process_abif_prefline" then .ran (coreMain .processPrefline s)
    else if func = c!"emptyish" then .ran (coreMain .emptyish s)
    else if func = c!"modify_jabmod" then .ran (printed (.ok (c!"FIXME: need to load jabmod file " ++ reprList (s :: ss))))
    else .ran ⟨[], .ok ()⟩

end Verif
