/-
Python `dict` (insertion ordered) as an association list, and `sorted` as a stable sort.
-/
import Verif.Py.Str

namespace Verif

/-- Python `dict`: insertion-ordered association list.  Well-formed when keys are distinct. -/
abbrev Dict (κ : Type) (α : Type) := List (κ × α)

namespace Dict
variable {κ α β : Type} [DecidableEq κ]

/-- `d.get(k)` -/
def get? : Dict κ α → κ → Option α
  | [], _ => none
  | (k', v) :: t, k => if k' = k then some v else get? t k

/-- `k in d` -/
def has (d : Dict κ α) (k : κ) : Bool := (get? d k).isSome

/-- `d[k]` raising `KeyError` -/
def getE (d : Dict κ α) (k : κ) : Except PyErr α :=
  match get? d k with
  | some v => .ok v
  | none => .error .keyError

/-- `d[k] = v`: replace in place, or append a new key at the end -/
def set : Dict κ α → κ → α → Dict κ α
  | [], k, v => [(k, v)]
  | (k', v') :: t, k, v => if k' = k then (k', v) :: t else (k', v') :: set t k v

/-- `del d[k]` when present, nothing otherwise -/
def erase : Dict κ α → κ → Dict κ α
  | [], _ => []
  | (k', v') :: t, k => if k' = k then t else (k', v') :: erase t k

/-- update the value of an existing key -/
def modify (d : Dict κ α) (k : κ) (f : α → α) : Dict κ α :=
  match get? d k with
  | some v => set d k (f v)
  | none => d

/-- `list(d.keys())` -/
def keys (d : Dict κ α) : List κ := d.map Prod.fst
/-- `list(d.values())` -/
def values (d : Dict κ α) : List α := d.map Prod.snd

/-- no key twice: the representation invariant of a Python `dict` -/
def WF (d : Dict κ α) : Prop := (keys d).Nodup

end Dict

/-- stable insertion of `a` before the first element it is `le` to -/
def pyInsert {α : Type} (le : α → α → Bool) (a : α) : List α → List α
  | [] => [a]
  | b :: l => if le a b then a :: b :: l else b :: pyInsert le a l

/-- Python `sorted`: a stable sort by the preorder `le`. -/
def pySort {α : Type} (le : α → α → Bool) : List α → List α
  | [] => []
  | a :: l => pyInsert le a (pySort le l)

/-- `sorted(l, key=key)` for integer keys -/
def sortByKey {α : Type} (key : α → Int) (l : List α) : List α := pySort (fun a b => key a ≤ key b) l

/-- `sorted(l, key=key, reverse=True)`: descending, equal keys keep their order -/
def sortByKeyDesc {α : Type} (key : α → Int) (l : List α) : List α := pySort (fun a b => key b ≤ key a) l

end Verif
