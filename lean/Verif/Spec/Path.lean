/-
Specification of path strings: what the operating system makes of them.
-/
import Verif.Model.Fetch

namespace Verif.Spec

/-- the parts of a path between its slashes; empty ones do not count.  `cur` is the part being read, backwards. -/
def partsFrom (cur : Str) : Str → List Str
  | [] => if cur = [] then [] else [cur.reverse]
  | c :: t => if c = '/' then (if cur = [] then [] else [cur.reverse]) ++ partsFrom [] t else partsFrom (c :: cur) t

/-- the parts of a path -/
def parts (p : Str) : List Str := partsFrom [] p

/-- a path is absolute if it starts with a slash -/
def Absolute (p : Str) : Prop := ∃ t, p = '/' :: t

end Verif.Spec
