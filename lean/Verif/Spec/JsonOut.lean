/-
Looking things up in a JSON document.
-/
import Verif.Py.Json

namespace Verif.Spec
open Verif

/-- one step into a document -/
inductive Step
  | key (k : Str)
  | idx (n : Nat)

/-- the entry with key `k`, if the value is an object that has it -/
def member (k : Str) : Json → Option Json
  | .obj l => (l.find? (fun e => e.1 = k)).map Prod.snd
  | _ => none

/-- the element number `n` (from 0), if the value is an array that has it -/
def element (n : Nat) : Json → Option Json
  | .arr l => l[n]?
  | _ => none

/-- the value at the end of a path -/
def valueAt : Json → List Step → Option Json
  | j, [] => some j
  | j, .key k :: p => (member k j).bind (fun v => valueAt v p)
  | j, .idx n :: p => (element n j).bind (fun v => valueAt v p)

/-- the keys of an object, in order -/
def keysOf : Json → List Str
  | .obj l => l.map Prod.fst
  | _ => []

/-- a text or nothing -/
def textOrNull : Option Str → Json
  | some s => .str s
  | none => .null

/-- a list of texts -/
def texts (l : List Str) : Json := .arr (l.map .str)

end Verif.Spec
