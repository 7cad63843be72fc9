/-
C67 in terms of the text: which candidate of an .abif text decides whether `-m STAR` shows results.
-/
import Verif.Props.Cli
import Verif.Props.Parse

namespace Verif.Props
open Spec
section
variable [U : Uni]

omit U in
/-- the head of a stable descending sort is the first of the largest -/
theorem head_stableSorted {orig sorted : List Voteline} {vl : Voteline} {rest : List Voteline}
    (h : StableSortedDesc orig sorted) (hs : sorted = vl :: rest) :
    ∃ l₁ l₂, orig = l₁ ++ vl :: l₂ ∧ (∀ w ∈ l₁, w.qty < vl.qty) ∧ ∀ w ∈ l₂, w.qty ≤ vl.qty := by
  obtain ⟨hp, hd, hst⟩ := h
  subst hs
  rw [List.pairwise_cons] at hd
  have hmax : ∀ w ∈ orig, w.qty ≤ vl.qty := by
    intro w hw
    rcases List.mem_cons.1 (hp.mem_iff.2 hw) with rfl | hw
    · exact Int.le_refl _
    · exact hd.1 w hw
  have hf := (hst vl.qty).symm
  rw [List.filter_cons_of_pos (by simp)] at hf
  obtain ⟨l₁, l₂, e, h1, _⟩ := List.filter_eq_cons_iff.1 hf
  refine ⟨l₁, l₂, e, ?_, fun w hw => hmax w (by rw [e]; simp [hw])⟩
  intro w hw
  have h2 := hmax w (by rw [e]; simp [hw])
  have h3 := h1 w hw
  simp only [decide_eq_true_eq] at h3
  omega

/-- C67 for a text: take the first voteline among those of the largest quantity.  If its first candidate has a
rating other than zero, `-m STAR` shows the report; if it has none, the message that there are no scores; if the
line names nobody, the run ends with an `IndexError`.  Ratings anywhere else in the text make no difference. -/
theorem C67_text (cw sc : Bool) (text : Str) (m : Jabmod) (h : convertAbif cw false sc text = .ok m) :
    ∃ (l₁ : List Voteline) (vl : Voteline) (l₂ : List Voteline),
      List.Forall₂ SaysBallot (votesOf cw text) (l₁ ++ vl :: l₂) ∧
      (∀ w ∈ l₁, w.qty < vl.qty) ∧ (∀ w ∈ l₂, w.qty ≤ vl.qty) ∧
      (vl.prefs = [] → starSection m = .error .indexError) ∧
      ∀ (c : Str) (p : Pref) (others : Dict Str Pref), vl.prefs = (c, p) :: others →
        (ratingTruthy p.rating = true → starSection m = starReport m) ∧
        (ratingTruthy p.rating = false →
          starSection m = .ok c!"No stars/scores available.  Please use --add-scores to extrapolate score from ranks.") := by
  obtain ⟨vls, h1, h2⟩ := C02_votelines cw sc text m h
  have hne : m.votelines ≠ [] := by
    intro he
    obtain ⟨vls', _, g2, g3, _⟩ := convertAbif_ok h
    have := (sortByKeyDesc_perm Voteline.qty vls').length_eq
    rw [← g3, he] at this
    exact g2 (List.length_eq_zero_iff.1 this.symm)
  obtain ⟨vl, rest, hv⟩ := List.exists_cons_of_ne_nil hne
  obtain ⟨l₁, l₂, e, h3, h4⟩ := head_stableSorted h2 hv
  obtain ⟨g1, g2⟩ := (C67_exact m).2 vl rest hv
  exact ⟨l₁, vl, l₂, e ▸ h1, h3, h4, g1, g2⟩

end

section Examples
attribute [local instance] Uni.ascii
set_option maxRecDepth 20000

/-- a text where the deciding line is the second one, and only that line's first candidate is unrated -/
example : (convertAbif false false false c!"2:A/5>B/3\n3:A>B/4\n").toOption.map (fun m => (starSection m).toOption) =
    some (some c!"No stars/scores available.  Please use --add-scores to extrapolate score from ranks.") := by decide +kernel

/-- a blank line with the largest quantity -/
example : (convertAbif false false false c!"2:A/5>B/3\n3:\n").toOption.map (fun m => (starSection m).toOption) =
    some none := by decide +kernel

end Examples
end Verif.Props
