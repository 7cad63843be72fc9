/-
Specification for C122: voters and candidates along a line (from left to right, say).
-/
import Verif.Spec.Tally
import Mathlib.Order.Defs.LinearOrder

namespace Verif.Spec
open Verif

variable {X : Type} [LinearOrder X]

/-- A ballot of voters whose favourite place on the line is `x`: of two candidates on the same side of `x` (or at `x`) it prefers
the nearer one.  Of candidates on different sides it may prefer either. -/
def PeakedAt (cands : List Str) (pos : Str → X) (v : Voteline) (x : X) : Prop :=
  ∀ a ∈ cands, ∀ b ∈ cands, (x ≤ pos a ∧ pos a < pos b) ∨ (pos b < pos a ∧ pos a ≤ x) → prefers v a b = true

/-- The votes of the voters whose places have property `p`; `places` has the place of each voteline. -/
def votesAt (m : Jabmod) (places : List X) (p : X → Bool) : Int :=
  (((m.votelines.zip places).filter (fun vx => p vx.2)).map (fun vx => vx.1.qty)).sum

/-- `x` is in the middle: fewer than half of the voters are to its left and fewer than half to its right. -/
def Middle (m : Jabmod) (places : List X) (x : X) : Prop :=
  2 * votesAt m places (fun y => decide (y < x)) < (m.votelines.map Voteline.qty).sum ∧
  2 * votesAt m places (fun y => decide (x < y)) < (m.votelines.map Voteline.qty).sum

/-- More voters prefer `a` to `b` than `b` to `a`. -/
def Beats (m : Jabmod) (a b : Str) : Prop := support m b a < support m a b

end Verif.Spec
