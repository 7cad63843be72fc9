/-
C77: what `ranklist_from_jabmod_voteline` does with every ballot.
-/
import Verif.Props.Ranklist
import Verif.Lib.StrLe

set_option linter.unusedSectionVars false

namespace Verif.Props
open Spec

theorem rankOf_entry {vl : Voteline} (hwf : vl.prefs.WF) (e : Str × Pref) (he : e ∈ vl.prefs) :
    rankOf vl e.1 = e.2.rank := by
  unfold rankOf
  rw [Dict.get?_of_mem hwf (by exact he)]
  rfl

theorem rateOf_entry {vl : Voteline} (hwf : vl.prefs.WF) (e : Str × Pref) (he : e ∈ vl.prefs) :
    rateOf vl e.1 = e.2.rating := by
  unfold rateOf
  rw [Dict.get?_of_mem hwf (by exact he)]
  rfl

theorem hasRank_iff {vl : Voteline} (hwf : vl.prefs.WF) (e : Str × Pref) (he : e ∈ vl.prefs) :
    HasRank vl e.1 ↔ rankTruthy e.2.rank = true := by
  unfold HasRank
  rw [rankOf_entry hwf e he]
  cases e.2.rank <;> simp [rankTruthy]

theorem hasRating_iff {vl : Voteline} (hwf : vl.prefs.WF) (e : Str × Pref) (he : e ∈ vl.prefs) :
    HasRating vl e.1 ↔ ratingTruthy e.2.rating = true := by
  unfold HasRating
  rw [rateOf_entry hwf e he]
  cases e.2.rating with
  | none => simp [ratingTruthy]
  | some v => cases v <;> simp [ratingTruthy]

/-- `ratingKeys` when a rating is missing. -/
theorem ratingKeys_missing (prefs : Dict Str Pref) (d : Str × Pref) (hd : d ∈ prefs) (hn : d.2.rating = none) :
    ratingKeys prefs = .error .keyError := by
  induction prefs with
  | nil => simp at hd
  | cons e t ih =>
    unfold ratingKeys at ih ⊢
    rw [List.mapM_cons]
    cases he : e.2.rating with
    | none => rfl
    | some r =>
      rcases List.mem_cons.1 hd with rfl | hd
      · rw [hn] at he; cases he
      · rw [ih hd]; rfl

/-- `ratingKeys` when every candidate is rated. -/
theorem ratingKeys_ok {vl : Voteline} (hwf : vl.prefs.WF) (hall : ∀ d ∈ vl.prefs.keys, ∃ v, rateOf vl d = some v) :
    ratingKeys vl.prefs = .ok (vl.prefs.keys.map (fun c => (c, (rateOf vl c).getD .null))) := by
  unfold ratingKeys
  rw [mapM_eq_map _ (fun e : Str × Pref => (e.1, e.2.rating.getD .null))]
  · congr 1
    unfold Dict.keys
    rw [List.map_map]
    apply List.map_congr_left
    intro e he
    simp only [Function.comp]
    rw [rateOf_entry hwf e he]
  · intro e he
    obtain ⟨i, hi⟩ := hall e.1 (List.mem_map.2 ⟨e, he, rfl⟩)
    rw [rateOf_entry hwf e he] at hi
    rw [hi]; rfl

/-- `ranklist`, one case for each branch of the code. -/
theorem ranklist_branches {vl : Voteline} (hwf : vl.prefs.WF) (c : Str) (hc : vl.prefs.keys.head? = some c) :
    (HasRank vl c → ranklist vl = (rankKeys vl.prefs).bind (fun ks => .ok ((sortByKey Prod.snd ks).map Prod.fst))) ∧
    (¬ HasRank vl c → HasRating vl c → ranklist vl = (ratingKeys vl.prefs).bind sortRatings) ∧
    (¬ HasRank vl c → ¬ HasRating vl c → ranklist vl = .ok vl.prefs.keys) := by
  match hp : vl.prefs with
  | [] => rw [hp] at hc; cases hc
  | (d, p) :: t =>
    have hd : d = c := by rw [hp] at hc; simpa [Dict.keys] using hc
    subst hd
    have hin : (d, p) ∈ vl.prefs := by rw [hp]; simp
    have h1 := hasRank_iff hwf _ hin
    have h2 := hasRating_iff hwf _ hin
    simp only at h1 h2
    rw [h1, h2]
    unfold ranklist
    rw [hp]
    simp only
    refine ⟨?_, ?_, ?_⟩
    · intro h; rw [if_pos h]; rfl
    · intro h h'; rw [if_neg h, if_pos h']; rfl
    · intro h h'; rw [if_neg h, if_neg h']

/-- `toklist.sort` by rating, every candidate rated. -/
theorem sortRatings_cases (vl : Voteline) (h2 : 2 ≤ vl.prefs.keys.length) :
    ((∀ d ∈ vl.prefs.keys, ∃ i : Int, rateOf vl d = some (.int i)) →
      ∃ l, sortRatings (vl.prefs.keys.map (fun c => (c, (rateOf vl c).getD .null))) = .ok l ∧ ListsAll vl l ∧
        HighestFirst vl l ∧ RatingTiesInOrder vl l) ∧
    ((∀ d ∈ vl.prefs.keys, ∃ s : Str, rateOf vl d = some (.str s)) →
      ∃ l, sortRatings (vl.prefs.keys.map (fun c => (c, (rateOf vl c).getD .null))) = .ok l ∧ ListsAll vl l ∧
        TextHighestFirst vl l ∧ TextTiesInOrder vl l) ∧
    ((∃ d ∈ vl.prefs.keys, ∀ i : Int, rateOf vl d ≠ some (.int i)) →
      (∃ d ∈ vl.prefs.keys, ∀ s : Str, rateOf vl d ≠ some (.str s)) →
      sortRatings (vl.prefs.keys.map (fun c => (c, (rateOf vl c).getD .null))) = .error .typeError) := by
  have hlen : ¬ (vl.prefs.keys.map (fun c => (c, (rateOf vl c).getD RVal.null))).length ≤ 1 := by
    rw [List.length_map]; omega
  have hfst : (Prod.fst ∘ fun c : Str => (c, (rateOf vl c).getD RVal.null)) = id := rfl
  refine ⟨?_, ?_, ?_⟩
  · intro hall
    let key : Str → Int := fun c => (intKey ((rateOf vl c).getD RVal.null)).getD 0
    have hrun : sortRatings (vl.prefs.keys.map (fun c => (c, (rateOf vl c).getD .null))) =
        .ok (sortByKeyDesc key vl.prefs.keys) := by
      unfold sortRatings
      rw [if_neg hlen, if_pos]
      · unfold sortByKeyDesc
        rw [pySort_map (fun c : Str => (c, (rateOf vl c).getD RVal.null)) (fun a b => decide (key b ≤ key a))
          _ (by intro a b; rfl), List.map_map, hfst, List.map_id]
      · rw [List.all_eq_true]
        intro kr hkr
        obtain ⟨c, hc, rfl⟩ := List.mem_map.1 hkr
        obtain ⟨i, hi⟩ := hall c hc
        simp only [hi]
        rfl
    have hkey : ∀ c ∈ vl.prefs.keys, ∀ i : Int, rateOf vl c = some (.int i) ↔ key c = i := by
      intro c hc i
      obtain ⟨j, hj⟩ := hall c hc
      show _ ↔ (intKey ((rateOf vl c).getD RVal.null)).getD 0 = i
      rw [hj]
      simp [intKey]
    refine ⟨_, hrun, sortByKeyDesc_perm _ _, ?_, ?_⟩
    · refine List.Pairwise.imp_of_mem ?_ (sortByKeyDesc_sorted _ _)
      intro a b ha hb hab i j hi hj
      have ea := (hkey a ((sortByKeyDesc_perm _ _).mem_iff.1 ha) i).1 hi
      have eb := (hkey b ((sortByKeyDesc_perm _ _).mem_iff.1 hb) j).1 hj
      omega
    · intro i
      have hcongr : ∀ L : List Str, (∀ c ∈ L, c ∈ vl.prefs.keys) →
          L.filter (fun c => decide (rateOf vl c = some (.int i))) = L.filter (fun c => decide (key c = i)) := by
        intro L hL
        apply List.filter_congr
        intro c hc
        rw [decide_eq_decide]
        exact hkey c (hL c hc) i
      rw [hcongr _ (fun c hc => (sortByKeyDesc_perm _ _).mem_iff.1 hc), hcongr _ (fun c hc => hc)]
      exact sortByKeyDesc_stable _ _ i
  · intro hall
    let key : Str → Str := fun c => (strKey ((rateOf vl c).getD RVal.null)).getD []
    have hrun : sortRatings (vl.prefs.keys.map (fun c => (c, (rateOf vl c).getD .null))) =
        .ok (pySort (fun a b => strLe (key b) (key a)) vl.prefs.keys) := by
      unfold sortRatings
      rw [if_neg hlen, if_neg, if_pos]
      · rw [pySort_map (fun c : Str => (c, (rateOf vl c).getD RVal.null)) (fun a b => strLe (key b) (key a))
          _ (by intro a b; rfl), List.map_map, hfst, List.map_id]
      · rw [List.all_eq_true]
        intro kr hkr
        obtain ⟨c, hc, rfl⟩ := List.mem_map.1 hkr
        obtain ⟨i, hi⟩ := hall c hc
        simp only [hi]
        rfl
      · intro h
        obtain ⟨c, hc⟩ := List.exists_mem_of_length_pos (l := vl.prefs.keys) (by omega)
        have := List.all_eq_true.1 h _ (List.mem_map.2 ⟨c, hc, rfl⟩)
        obtain ⟨s, hs⟩ := hall c hc
        simp only [hs] at this
        simp [intKey] at this
    have hkey : ∀ c ∈ vl.prefs.keys, ∀ i : Str, rateOf vl c = some (.str i) ↔ key c = i := by
      intro c hc i
      obtain ⟨j, hj⟩ := hall c hc
      show _ ↔ (strKey ((rateOf vl c).getD RVal.null)).getD [] = i
      rw [hj]
      simp [strKey]
    have htp : TotalPre (fun a b => strLe (key b) (key a)) :=
      ⟨fun a b => strLe_total (key b) (key a), fun a b c h h' => strLe_trans _ _ _ h' h⟩
    refine ⟨_, hrun, pySort_perm _ _, ?_, ?_⟩
    · refine List.Pairwise.imp_of_mem ?_ (pySort_sorted htp _)
      intro a b ha hb hab i j hi hj
      rw [← (hkey a ((pySort_perm _ _).mem_iff.1 ha) i).1 hi, ← (hkey b ((pySort_perm _ _).mem_iff.1 hb) j).1 hj]
      exact hab
    · intro s
      apply filter_pySort
      intro a ha b hb h1 h2
      rw [(hkey a ha s).1 (by simpa using h1), (hkey b hb s).1 (by simpa using h2)]
      rcases strLe_total s s with h | h <;> exact h
  · rintro ⟨a, ha, hai⟩ ⟨b, hb, hbs⟩
    unfold sortRatings
    rw [if_neg hlen, if_neg, if_neg]
    · intro h
      have := List.all_eq_true.1 h _ (List.mem_map.2 ⟨b, hb, rfl⟩)
      cases hr : rateOf vl b with
      | none => rw [hr] at this; simp [strKey] at this
      | some v =>
        rw [hr] at this
        cases v with
        | str s => exact hbs s hr
        | int i => simp [strKey] at this
        | null => simp [strKey] at this
    · intro h
      have := List.all_eq_true.1 h _ (List.mem_map.2 ⟨a, ha, rfl⟩)
      cases hr : rateOf vl a with
      | none => rw [hr] at this; simp [intKey] at this
      | some v =>
        rw [hr] at this
        cases v with
        | int s => exact hai s hr
        | str i => simp [intKey] at this
        | null => simp [intKey] at this

/-- C77 in full: what the call does with every ballot.  A ballot of nobody is an `IndexError`.  If the first
candidate has a rank (other than 0) the candidates are listed by rank, and a missing rank is a `KeyError`.  If not,
and the first candidate has a rating (not 0, not empty, not `None`), they are listed by rating: highest number first
for numbers, last text first for texts, a `TypeError` for anything else, a `KeyError` if one has none, and one
candidate alone is just listed.  Otherwise they are listed in ballot order, whatever the others' ranks and ratings. -/
theorem C77_exact (vl : Voteline) (hwf : vl.prefs.WF) :
    (vl.prefs = [] → ranklist vl = .error .indexError) ∧
    ∀ c, vl.prefs.keys.head? = some c →
      (HasRank vl c →
        ((∃ d ∈ vl.prefs.keys, rankOf vl d = none) → ranklist vl = .error .keyError) ∧
        ((∀ d ∈ vl.prefs.keys, ∃ r, rankOf vl d = some r) →
          ∃ l, ranklist vl = .ok l ∧ ListsAll vl l ∧ BestFirst vl l ∧ TiesInOrder vl l)) ∧
      (¬ HasRank vl c → HasRating vl c →
        ((∃ d ∈ vl.prefs.keys, rateOf vl d = none) → ranklist vl = .error .keyError) ∧
        (vl.prefs.keys = [c] → ranklist vl = .ok [c]) ∧
        (2 ≤ vl.prefs.keys.length → (∀ d ∈ vl.prefs.keys, ∃ v, rateOf vl d = some v) →
          ((∀ d ∈ vl.prefs.keys, ∃ i : Int, rateOf vl d = some (.int i)) →
            ∃ l, ranklist vl = .ok l ∧ ListsAll vl l ∧ HighestFirst vl l ∧ RatingTiesInOrder vl l) ∧
          ((∀ d ∈ vl.prefs.keys, ∃ s : Str, rateOf vl d = some (.str s)) →
            ∃ l, ranklist vl = .ok l ∧ ListsAll vl l ∧ TextHighestFirst vl l ∧ TextTiesInOrder vl l) ∧
          ((∃ d ∈ vl.prefs.keys, ∀ i : Int, rateOf vl d ≠ some (.int i)) →
            (∃ d ∈ vl.prefs.keys, ∀ s : Str, rateOf vl d ≠ some (.str s)) → ranklist vl = .error .typeError))) ∧
      (¬ HasRank vl c → ¬ HasRating vl c → ranklist vl = .ok vl.prefs.keys) := by
  refine ⟨?_, ?_⟩
  · intro h; unfold ranklist; rw [h]
  · intro c hc
    obtain ⟨b1, b2, b3⟩ := ranklist_branches hwf c hc
    have hne : vl.prefs ≠ [] := by intro h; rw [h] at hc; cases hc
    refine ⟨?_, ?_, b3⟩
    · intro h
      refine ⟨?_, ?_⟩
      · rintro ⟨d, hd, hn⟩
        obtain ⟨e, he, rfl⟩ := List.mem_map.1 hd
        rw [b1 h, rankKeys_missing _ e he (by rw [← rankOf_entry hwf e he, hn])]
        rfl
      · intro hall
        refine C77_ranked vl hwf hne hall ?_
        intro c' hc' h0
        rw [hc] at hc'; cases hc'
        obtain ⟨r, hr, hr0⟩ := h
        rw [h0] at hr; cases hr; exact hr0 rfl
    · intro h h'
      rw [b2 h h']
      refine ⟨?_, ?_, ?_⟩
      · rintro ⟨d, hd, hn⟩
        obtain ⟨e, he, rfl⟩ := List.mem_map.1 hd
        rw [ratingKeys_missing _ e he (by rw [← rateOf_entry hwf e he, hn])]
        rfl
      · intro hk
        obtain ⟨v, hv, _⟩ := h'
        rw [ratingKeys_ok hwf (by rw [hk]; intro d hd; rw [List.mem_singleton.1 hd]; exact ⟨v, hv⟩), hk]
        rfl
      · intro h2 hall
        rw [ratingKeys_ok hwf hall]
        exact sortRatings_cases vl h2

/-! ### each case happens -/

example : ranklist { qty := 1, prefs := [] } = .error .indexError := by decide +kernel
example : ranklist { qty := 1, prefs := [(c!"A", { rank := some 2 }), (c!"B", {})] } = .error .keyError := by decide +kernel
example : ranklist { qty := 1, prefs := [(c!"A", { rating := some (.int 2) }), (c!"B", {})] } = .error .keyError := by
  decide +kernel
example : ranklist { qty := 1, prefs := [(c!"A", { rating := some (.str c!"2") }), (c!"B", { rating := some (.str c!"30") }),
    (c!"C", { rating := some (.str c!"2") })] } = .ok [c!"B", c!"A", c!"C"] := by decide +kernel
example : ranklist { qty := 1, prefs := [(c!"A", { rating := some (.int 2) }), (c!"B", { rating := some .null })] } =
    .error .typeError := by decide +kernel
example : ranklist { qty := 1, prefs := [(c!"A", { rank := some 0 }), (c!"B", { rank := some (-1) })] } =
    .ok [c!"A", c!"B"] := by decide +kernel

end Verif.Props
