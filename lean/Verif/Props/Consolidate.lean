/-
Properties of `consolidate_jabmod_voteline_objects` (C39, C40).
-/
import Verif.Lib.Consolidate

set_option linter.unusedSectionVars false

namespace Verif.Props
open Spec

/-- every preference map of the model is a genuine Python dict (no key twice) -/
def PrefsWF (m : Jabmod) : Prop := ∀ (vl : Voteline), vl ∈ m.votelines → Dict.WF vl.prefs

/-- C39 (complete description).  The votelines after consolidation are: for each preference map of the
input, at the place where it appears first and in that form, one voteline holding it and the total
quantity of the input votelines whose preferences are equal to it as maps. -/
theorem C39_result (m : Jabmod) (h : PrefsWF m) :
    (consolidate m).votelines = (firstAppearances [] (m.votelines.map Voteline.prefs)).map
      (fun p => { qty := open Classical in ballotsWith (fun q => decide (SameMap q p)) m.votelines, prefs := p }) :=
  consolidate_votelines h

/-- C39.  For every class of preference maps that does not distinguish equal maps, the number of ballots in the
class is unchanged (in particular the total number of ballots, and the number of ballots equal to any given map). -/
theorem C39_totals (m : Jabmod) (h : PrefsWF m) (P : Dict Str Pref → Bool)
    (hP : ∀ (p q : Dict Str Pref), SameMap p q → P p = P q) :
    ballotsWith P (consolidate m).votelines = ballotsWith P m.votelines := by
  have := ballotsWith_loop hP h consInv_nil
  unfold consolidate
  simp only
  rw [this]
  simp [Dict.values, ballotsWith]

theorem consolidate_prefs {m : Jabmod} (h : PrefsWF m) :
    (consolidate m).votelines.map Voteline.prefs = firstAppearances [] (m.votelines.map Voteline.prefs) := by
  rw [consolidate_votelines h, List.map_map]
  conv_rhs => rw [← List.map_id (firstAppearances [] (m.votelines.map Voteline.prefs))]
  rfl

/-- C39.  No two votelines of the result have equal preference maps; the preference maps of the result are
those of some of the input votelines, in the same order; every input map is equal to one of them; candidates
and metadata are untouched. -/
theorem C39_distinct (m : Jabmod) (h : PrefsWF m) :
    ((consolidate m).votelines.map Voteline.prefs).Pairwise (fun p q => ¬ SameMap p q) ∧
    List.Sublist ((consolidate m).votelines.map Voteline.prefs) (m.votelines.map Voteline.prefs) ∧
    (∀ (vl : Voteline), vl ∈ m.votelines → ∃ vl' ∈ (consolidate m).votelines, SameMap vl'.prefs vl.prefs) ∧
    (consolidate m).candidates = m.candidates ∧ (consolidate m).metadata = m.metadata := by
  rw [consolidate_prefs h]
  refine ⟨firstApp_pairwise _ _, firstApp_sublist _ _, ?_, rfl, rfl⟩
  intro vl hvl
  obtain ⟨q, hq, hs⟩ := firstApp_cover (seen := []) (List.mem_map.2 ⟨vl, hvl, rfl⟩)
  rw [List.nil_append, ← consolidate_prefs h] at hq
  obtain ⟨vl', hvl', rfl⟩ := List.mem_map.1 hq
  exact ⟨vl', hvl', hs⟩

/-- C39.  Consolidating twice is the same as consolidating once. -/
theorem C39_idempotent (m : Jabmod) (h : PrefsWF m) : consolidate (consolidate m) = consolidate m := by
  have hwf : PrefsWF (consolidate m) := by
    intro vl hvl
    have hm : vl.prefs ∈ (consolidate m).votelines.map Voteline.prefs := List.mem_map.2 ⟨vl, hvl, rfl⟩
    rw [consolidate_prefs h] at hm
    obtain ⟨vl', hvl', he⟩ := List.mem_map.1 ((firstApp_sublist _ _).subset hm)
    rw [← he]; exact h vl' hvl'
  have hpw := (C39_distinct m h).1
  have hform : ∀ (vl : Voteline), vl ∈ (consolidate m).votelines → vl = { qty := vl.qty, prefs := vl.prefs } := by
    intro vl hvl
    rw [C39_result m h] at hvl
    obtain ⟨p, _, rfl⟩ := List.mem_map.1 hvl
    rfl
  have hv : (consolidate (consolidate m)).votelines = (consolidate m).votelines := by
    rw [consolidate_votelines hwf, firstApp_of_pairwise (seen := []) hpw, List.map_map]
    conv_rhs => rw [← List.map_id (consolidate m).votelines]
    apply List.map_congr_left
    intro vl hvl
    simp only [Function.comp_apply, id_eq]
    rw [ballotsSame_unique hpw hvl]
    exact (hform vl hvl).symm
  have hc : ∀ (n : Jabmod), consolidate n = { n with votelines := (consolidate n).votelines } := fun _ => rfl
  rw [hc (consolidate m), hv]

/-- C40.  Two preference maps have the same `json.dumps(prefs, sort_keys=True)` exactly when they are equal as maps. -/
theorem C40_key (p q : Dict Str Pref) (hp : Dict.WF p) (hq : Dict.WF q) :
    prefsKey p = prefsKey q ↔ ∀ (k : Str), Dict.get? p k = Dict.get? q k := prefsKey_iff hp hq

/-- C40, for arbitrary JSON values (not just preference maps): `json.dumps` never gives two different values the same text. -/
theorem C40_dumps (x y : Json) (h : x.dumps = y.dumps) : x = y := dumps_injective h

section
set_option maxRecDepth 20000

def exConsA : Dict Str Pref := [(c!"A", { rank := some 1, nextdelim := some c!">" }), (c!"B", { rank := some 2 })]
def exConsA' : Dict Str Pref := [(c!"B", { rank := some 2 }), (c!"A", { rank := some 1, nextdelim := some c!">" })]
def exConsB : Dict Str Pref := [(c!"B", { rank := some 1 })]
/-- votelines A>B, B, A>B (keys in the other order), with a comment on the first -/
def exCons : Jabmod := { emptyishJabmod with
  votelines := [{ qty := 2, prefs := exConsA, comment := some c!"x" }, { qty := 5, prefs := exConsB }, { qty := 3, prefs := exConsA' }] }

/-- non-vacuity: a model with two equal maps written in different key order meets the hypotheses, and merges -/
example : PrefsWF exCons := by
  intro vl hvl
  simp only [exCons, List.mem_cons, List.not_mem_nil, or_false] at hvl
  rcases hvl with rfl | rfl | rfl <;> unfold Dict.WF <;> decide
example : (consolidate exCons).votelines = [{ qty := 5, prefs := exConsA }, { qty := 5, prefs := exConsB }] := by decide +kernel
example : exConsA ≠ exConsA' := by decide
/-- non-vacuity of the class `P`: the ballots that mention candidate A -/
example : ∀ (p q : Dict Str Pref), SameMap p q → Dict.has p c!"A" = Dict.has q c!"A" := by
  intro p q h; unfold Dict.has; rw [h]
example : prefsKey exConsA = prefsKey exConsA' ∧ prefsKey exConsA ≠ prefsKey exConsB := by decide +kernel
end

end Verif.Props
