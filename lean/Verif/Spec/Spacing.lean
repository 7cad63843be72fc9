/-
Specification vocabulary for the blanks in preference lists.
-/
import Verif.Spec.Pieces
import Verif.Spec.Abif

namespace Verif.Spec
variable [Uni]

/-- `t` is `s` with blanks put in, next to one of `[ ] > = ,` or at one of the ends. -/
def BlanksAdded (s t : Str) : Prop :=
  ∃ a w b, s = a ++ b ∧ t = a ++ (w ++ b) ∧ OnlyBlanks w ∧
    (a = [] ∨ b = [] ∨ (∃ a' c, a = a' ++ [c] ∧ isSepChar c = true) ∨ ∃ c b', b = c :: b' ∧ isSepChar c = true)

/-- The two lists differ only in blanks next to `[ ] > = ,` and at the ends. -/
inductive Respaced : Str → Str → Prop
  | same (s : Str) : Respaced s s
  | added {s t : Str} : BlanksAdded s t → Respaced s t
  | symm {s t : Str} : Respaced s t → Respaced t s
  | trans {s t u : Str} : Respaced s t → Respaced t u → Respaced s u

/-- The same line, or two votelines with the same quantity and comment whose lists differ in such blanks only. -/
def RespacedLine (l l' : Str) : Prop :=
  l = l' ∨ ∃ q p p' c, lineVote l = some (q, p, c) ∧ lineVote l' = some (q, p', c) ∧ Respaced p p'

/-- the model without the record of how the lists were written -/
def forgetSpelling (m : Jabmod) : Jabmod :=
  { m with votelines := m.votelines.map (fun vl => { vl with prefstr := none }) }

end Verif.Spec
