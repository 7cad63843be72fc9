/-
The jabmod ("JSON ABIF model") data structure, abiflib/core.py:199-207, 355-430.
-/
import Verif.Py.Json

namespace Verif

/-- A `rating` value in a jabmod: an `int`, a digit string (core.py:318-320 stores the regex group
unconverted) or JSON `null` (as in testdata/burl2009/burl2009.jabmod).  Floats are not modelled. -/
inductive RVal
  | int (i : Int)
  | str (s : Str)
  | null
deriving DecidableEq, Repr

/-- Entry of a voteline's `prefs` dict: each field is `none` when the key is absent
(core.py:373-385).  Simplification: the order of these three keys inside the entry is not kept. -/
structure Pref where
  rating : Option RVal := none
  rank : Option Int := none
  nextdelim : Option Str := none
deriving DecidableEq, Repr

/-- A voteline (core.py:413-425; nameq.py:35-39).  Absent keys are `none`; simplification: a `comment`
key holding `None` and an absent `comment` key are both `none`. -/
structure Voteline where
  qty : Int
  prefs : Dict Str Pref
  comment : Option Str := none
  prefstr : Option Str := none
  voterid : Option Str := none
  nameq : Option Str := none
deriving DecidableEq, Repr

/-- The jabmod.  A candidate's name is `none` for Python `None` (only sftxt.py:306 produces that). -/
structure Jabmod where
  metadata : Dict Str Json
  candidates : Dict Str (Option Str)
  votelines : List Voteline

/-- `_get_emptyish_abifmodel`, core.py:199-207 (also `get_emptyish_jabmod`, core.py:210-211). -/
def emptyishJabmod : Jabmod where
  metadata := [(c!"ballotcount", .int 0)]
  candidates := []
  votelines := []

end Verif
