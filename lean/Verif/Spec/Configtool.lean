/-
What `configtool.py` should list for a fetchspec, said without the regex.
-/
import Verif.Model.Configtool
import Mathlib.Data.List.Forall2

namespace Verif.Spec
open Verif

/-- `id` is the last component of the path `fn` without its `.abif` (a line feed may follow) -/
def FileId (fn id : Str) : Prop :=
  ∃ dir tail : Str, fn = dir ++ id ++ c!".abif" ++ tail ∧ (tail = [] ∨ tail = ['\n']) ∧ id ≠ [] ∧ '/' ∉ id ∧
    (dir = [] ∨ ∃ d : Str, dir = d ++ ['/'])

/-- a JSON value Python takes for false -/
inductive Falsy : Json → Prop
  | null : Falsy .null
  | no : Falsy (.bool false)
  | zero : Falsy (.int 0)
  | str : Falsy (.str [])
  | arr : Falsy (.arr [])
  | obj : Falsy (.obj [])

/-- the tags shown for an entry: those in the fetchspec, with `, ` between them -/
inductive TagsShown : Option Json → Option Str → Prop
  | absent : TagsShown none none
  | falsy (v : Json) : Falsy v → TagsShown (some v) none
  | list (l : List Str) : l ≠ [] → TagsShown (some (.arr (l.map .str))) (some (c!", ".intercalate l))
  | chars (s : Str) : s ≠ [] → TagsShown (some (.str s)) (some (c!", ".intercalate (s.map fun c => [c])))
  | keys (d : List (Str × Json)) : d ≠ [] → TagsShown (some (.obj d)) (some (c!", ".intercalate (d.map Prod.fst)))

/-- the entry `e` is the one for the archive file `j` of the fetchspec -/
def Listed (j : Json) (e : CfgEntry) : Prop :=
  ∃ d : List (Str × Json), j = .obj d ∧ Dict.get? d c!"abifloc" = some (.str e.filename) ∧
    (∀ id, e.id = some id ↔ FileId e.filename id) ∧
    (∀ t, Dict.get? d c!"title" = some t → ¬ Falsy t → e.title = t) ∧
    ((∀ t, Dict.get? d c!"title" = some t → Falsy t) → ∀ id, e.id = some id → e.title = .str id) ∧
    ((∀ t, Dict.get? d c!"title" = some t → Falsy t) → e.id = none → e.title = .null) ∧
    TagsShown (Dict.get? d c!"tags") e.tags ∧
    (∀ v, Dict.get? d c!"desc" = some v → e.desc = v) ∧ (Dict.get? d c!"desc" = none → e.desc = .null)

/-- the beginnings of tags `_fix_tag` knows, and what it makes of them; the first that fits counts -/
def knownTags : List (Str × List Str) :=
  [(c!"Alaska", [c!"AK", c!"local"]), (c!"AlamedaCounty", [c!"CA", c!"AlamedaCounty_CA"]),
   (c!"SanFrancisco", [c!"CA", c!"SanFrancisco_CA", c!"SF"]), (c!"san_francisco", [c!"CA", c!"SanFrancisco_CA", c!"SF"]),
   (c!"san_leandro", [c!"CA", c!"SanLeandro_CA"]), (c!"oakland", [c!"CA", c!"Oakland_CA"]), (c!"Maine", [c!"ME"]),
   (c!"ME_Primary", [c!"ME", c!"primary_election"]), (c!"Portland_ME", [c!"ME", c!"Portland_ME"]),
   (c!"Minneapolis", [c!"MN", c!"Minneapolis_MN"]), (c!"NYC", [c!"NY", c!"NYC_NY"]),
   (c!"Burlington_VT", [c!"VT", c!"Burlington_VT"]), (c!"Pierce_WA", [c!"WA", c!"PierceCounty_WA"])]

/-- `mayor` is somewhere in the tag, in upper or lower case letters -/
def MentionsMayor (s : Str) : Prop := ∃ a w b : Str, s = a ++ w ++ b ∧ w.map Char.toLower = c!"mayor"

end Verif.Spec
