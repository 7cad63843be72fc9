/-
Nested Python data as handled by `clean_dict` and `_modify_jabmod` in abiflib/core.py.
-/
import Verif.Py.Dict

namespace Verif

/-- A key or index used to subscript a container: a string or an integer. -/
inductive Key
  | str (s : Str)
  | int (i : Int)
deriving DecidableEq, Repr

/-- Python data built from scalars, lists, tuples, dicts and sets.  A set is given by its elements in the
order in which iterating over it produces them.  Simplification: values are trees, so an object shared
between two places of the structure is not modelled; floats and other objects are not modelled. -/
inductive PyVal
  | null
  | bool (b : Bool)
  | int (i : Int)
  | str (s : Str)
  | list (l : List PyVal)
  | tuple (l : List PyVal)
  | set (l : List PyVal)
  | dict (l : List (Key × PyVal))

mutual
/-- `clean_dict`, core.py:623-637 -/
def cleanDict : PyVal → PyVal
  | .set l => .list l
  | .dict l => .dict (cleanDictEntries l)
  | .list l => .list (cleanDictItems l)
  | .null => .null
  | .bool b => .bool b
  | .int i => .int i
  | .str s => .str s
  | .tuple l => .tuple l
/-- the list comprehension of core.py:635 -/
def cleanDictItems : List PyVal → List PyVal
  | [] => []
  | v :: t => cleanDict v :: cleanDictItems t
/-- the dict comprehension of core.py:633 -/
def cleanDictEntries : List (Key × PyVal) → List (Key × PyVal)
  | [] => []
  | (k, v) :: t => (k, cleanDict v) :: cleanDictEntries t
end

/-- The list position an index denotes: negative indices count from the end; `none` when out of range. -/
def listPos (n : Nat) (i : Int) : Option Nat :=
  if 0 ≤ i ∧ i < n then some i.toNat
  else if i < 0 ∧ 0 ≤ i + n then some (i + n).toNat
  else none

/-- `v[k]` -/
def PyVal.getItem (v : PyVal) (k : Key) : Except PyErr PyVal :=
  match v, k with
  | .dict l, k => Dict.getE l k
  | .list l, .int i =>
    match listPos l.length i with
    | some n => match l[n]? with | some x => .ok x | none => .error .indexError
    | none => .error .indexError
  | .tuple l, .int i =>
    match listPos l.length i with
    | some n => match l[n]? with | some x => .ok x | none => .error .indexError
    | none => .error .indexError
  | .str s, .int i =>
    match listPos s.length i with
    | some n => match s[n]? with | some c => .ok (.str [c]) | none => .error .indexError
    | none => .error .indexError
  | _, _ => .error .typeError

/-- `v[k] = x` -/
def PyVal.setItem (v : PyVal) (k : Key) (x : PyVal) : Except PyErr PyVal :=
  match v, k with
  | .dict l, k => .ok (.dict (Dict.set l k x))
  | .list l, .int i =>
    match listPos l.length i with
    | some n => .ok (.list (l.set n x))
    | none => .error .indexError
  | _, _ => .error .typeError

/-- the container `v` after the object stored at `k` was itself mutated into `x` -/
def PyVal.putBack (v : PyVal) (k : Key) (x : PyVal) : PyVal :=
  match v, k with
  | .dict l, k => .dict (Dict.set l k x)
  | .list l, .int i =>
    match listPos l.length i with
    | some n => .list (l.set n x)
    | none => .list l
  | .tuple l, .int i =>
    match listPos l.length i with
    | some n => .tuple (l.set n x)
    | none => .tuple l
  | v, _ => v

/-- `_modify_jabmod`, core.py:600-615: the whole structure after the call.  `path[0]` of an empty path is
an `IndexError` (core.py:612). -/
def modifyJabmod (v : PyVal) (path : List Key) (x : PyVal) : Except PyErr PyVal :=
  match path with
  | [] => .error .indexError
  | [k] => v.setItem k x
  | k :: k2 :: rest =>
    match v.getItem k with
    | .error e => .error e
    | .ok sub =>
      match modifyJabmod sub (k2 :: rest) x with
      | .error e => .error e
      | .ok sub' => .ok (v.putBack k sub')

end Verif
