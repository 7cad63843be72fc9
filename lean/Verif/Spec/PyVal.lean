/-
Specification vocabulary for nested Python data.
-/
import Verif.Model.PyVal

namespace Verif.Spec

/-- the value found by following a path of subscripts: `v[k1][k2]...` -/
def getPath (v : PyVal) : List Key → Except PyErr PyVal
  | [] => .ok v
  | k :: p => match v.getItem k with | .ok w => getPath w p | .error e => .error e

/-- `w` occurs in `v`, going only through dict values and list items -/
inductive Reach : PyVal → PyVal → Prop
  | refl (v : PyVal) : Reach v v
  | list {l : List PyVal} {x w : PyVal} : x ∈ l → Reach x w → Reach (.list l) w
  | dict {l : List (Key × PyVal)} {k : Key} {x w : PyVal} : (k, x) ∈ l → Reach x w → Reach (.dict l) w

/-- a Python object that can be a set element: not a list, dict or set -/
def Hashable : PyVal → Prop
  | .list _ => False
  | .dict _ => False
  | .set _ => False
  | _ => True

/-- every set in the structure has only hashable elements (Python refuses anything else) -/
def SetsOk (v : PyVal) : Prop := ∀ (l : List PyVal), Reach v (.set l) → ∀ x ∈ l, Hashable x

/-- Two subscripts of the same container name different slots.  In a list or tuple an index and the
corresponding negative index name the same slot. -/
def OtherSlot (v : PyVal) (k k' : Key) : Prop :=
  k ≠ k' ∧
  match v, k, k' with
  | .list l, .int i, .int j => i ≠ j + l.length ∧ j ≠ i + l.length
  | .tuple l, .int i, .int j => i ≠ j + l.length ∧ j ≠ i + l.length
  | _, _, _ => True

/-- Path `q` leaves path `p` at some container: up to there they take the same subscripts, and then `q` takes
a different slot of that container. -/
inductive Leaves : PyVal → List Key → List Key → Prop
  | here {v : PyVal} {k k' : Key} {p q : List Key} : OtherSlot v k k' → Leaves v (k :: p) (k' :: q)
  | deeper {v w : PyVal} {k : Key} {p q : List Key} : v.getItem k = .ok w → Leaves w p q → Leaves v (k :: p) (k :: q)

end Verif.Spec
