/-
abiflib/util.py: conversions from the supported formats to .abif text.
-/
import Verif.Model.Export

namespace Verif
variable [Uni]

/-- `convert_text_to_abif('abif', [text], cleanws, add_ratings)`, util.py:27-34 and 50-51:
`ABIFVotelineException` is caught, printed and turned into `sys.exit()`. -/
def abifTextToAbif (cw ar : Bool) (text : Str) : Except PyErr Str :=
  match convertAbif cw ar false text with
  | .ok m => convertToAbif m
  | .error .voteline => .error .systemExit
  | .error e => .error e

end Verif
