/-
C65: an election with no candidates has no Copeland winners.
-/
import Verif.Props.Report

namespace Verif.Props
open Spec

/-- C65, nobody stands.  The list of Copeland winners fails exactly when there are no candidates, and then with a ValueError (the maximum of nothing);
the choice of the candidate for the report fails exactly then too, and then with an IndexError. -/
theorem C65_nobody (wlt : Dict Str WLT) (e : PyErr) :
    (copelandWinners wlt = .error e ↔ wlt = [] ∧ e = .valueError) ∧ (copelandReportWinner wlt = .error e ↔ wlt = [] ∧ e = .indexError) := by
  have hlen : (copelandScores2 wlt).length = wlt.length := by
    unfold copelandScores2
    rw [(sortByKeyDesc_perm _ _).length_eq, List.length_map]
  unfold copelandWinners copelandReportWinner
  cases wlt with
  | nil =>
    constructor <;> constructor
    · intro h; cases h; exact ⟨rfl, rfl⟩
    · rintro ⟨_, rfl⟩; rfl
    · intro h; cases h; exact ⟨rfl, rfl⟩
    · rintro ⟨_, rfl⟩; rfl
  | cons a l =>
    cases hs : copelandScores2 (a :: l) with
    | nil => rw [hs] at hlen; cases hlen
    | cons s ss =>
      constructor <;> constructor
      · intro h; cases h
      · rintro ⟨h, _⟩; cases h
      · intro h; cases h
      · rintro ⟨h, _⟩; cases h

section
attribute [local instance] Uni.ascii

/-- the case arises: a text with one ballot that names nobody -/
example : (convertAbif true false false c!"3:\n").toOption.isSome = true ∧
    ((convertAbif true false false c!"3:\n").toOption.bind fun m => (fullCopecount m).toOption.map (fun cc => cc.winlosstie)) = some [] := by
  decide +kernel
end

end Verif.Props
