/-
util/copedot.py: the diagram of an abif file.
-/
import Verif.Model.Cli

namespace Verif

/-- the text `copedot` reads, copedot.py:38-46: standard input for `-`, else the file (`none` when it does not exist) -/
def copedotInput (env : CliEnv) (file : Str) : Option Str :=
  if file = c!"-" then some env.stdin else env.file file

/-- `main`, copedot.py:27-55.  `args.outfmt == 'svg' or 'dot'` is always true, so the branches in lines 53-56 are not reached;
`sys.exit()` after the message about a missing file ends with status 0.  Simplification: `outfmt` is one of the choices. -/
def copedotMain [U : Uni] (env : CliEnv) (outfmt file : Str) : CliResult :=
  match copedotInput env file with
  | none => ⟨c!"The file '" ++ file ++ c!"' doesn't exist.\n", .error .systemExit⟩
  | some text =>
    match (do
      let m ← convertAbif false false false text
      let cc ← fullCopecount m
      copecountDiagram env outfmt cc) with
    | .error e => ⟨[], .error e⟩
    | .ok out => ⟨out ++ c!"\n", .ok ()⟩

end Verif
