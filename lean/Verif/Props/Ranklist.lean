/-
C77: `ranklist_from_jabmod_voteline` lists a ballot's candidates best first.
-/
import Verif.Model.Ranklist
import Verif.Spec.Ranklist
import Verif.Props.ParsedTally
import Verif.Lib.Sort

set_option linter.unusedSectionVars false

namespace Verif.Props
open Spec

/-- `rankKeys` on a fully ranked ballot. -/
theorem rankKeys_ok (prefs : Dict Str Pref) (h : ∀ e ∈ prefs, ∃ r, e.2.rank = some r) :
    rankKeys prefs = .ok (prefs.map (fun e => (e.1, e.2.rank.getD 0))) := by
  unfold rankKeys
  apply mapM_eq_map
  intro e he
  obtain ⟨r, hr⟩ := h e he
  rw [hr]; rfl

/-- `rankKeys` when a rank is missing. -/
theorem rankKeys_missing (prefs : Dict Str Pref) (d : Str × Pref) (hd : d ∈ prefs) (hn : d.2.rank = none) :
    rankKeys prefs = .error .keyError := by
  induction prefs with
  | nil => simp at hd
  | cons e t ih =>
    unfold rankKeys at ih ⊢
    rw [List.mapM_cons]
    rcases List.mem_cons.1 hd with rfl | hd
    · rw [hn]; rfl
    · cases e.2.rank with
      | none => rfl
      | some r => rw [ih hd]; rfl

theorem ranklist_ranked (vl : Voteline) (hwf : vl.prefs.WF) (hne : vl.prefs ≠ [])
    (hall : ∀ c ∈ vl.prefs.keys, ∃ r, rankOf vl c = some r)
    (h0 : ∀ c, vl.prefs.keys.head? = some c → rankOf vl c ≠ some 0) :
    ranklist vl = .ok (sortByKey (fun c => (rankOf vl c).getD 0) vl.prefs.keys) := by
  have hmem : ∀ e ∈ vl.prefs, rankOf vl e.1 = e.2.rank := by
    intro e he
    unfold rankOf
    rw [Dict.get?_of_mem hwf (by exact he)]
    rfl
  have hr : ∀ e ∈ vl.prefs, ∃ r, e.2.rank = some r := by
    intro e he
    obtain ⟨r, hr⟩ := hall e.1 (List.mem_map.2 ⟨e, he, rfl⟩)
    exact ⟨r, by rw [← hmem e he, hr]⟩
  unfold ranklist
  split
  · rename_i h; exact absurd h hne
  · rename_i c p t h
    have hp : rankOf vl c = p.rank := hmem (c, p) (by rw [h]; simp)
    have htr : rankTruthy p.rank = true := by
      have h1 := h0 c (by rw [h]; rfl)
      obtain ⟨r, hr'⟩ := hr (c, p) (by rw [h]; simp)
      simp only at hr'
      rw [hp, hr'] at h1
      rw [hr']
      simp only [rankTruthy, bne_iff_ne, ne_eq]
      intro hh; exact h1 (by rw [hh])
    rw [if_pos htr, rankKeys_ok _ hr, ok_bind]
    congr 1
    unfold sortByKey Dict.keys
    have e1 : vl.prefs.map (fun e => (e.1, e.2.rank.getD 0)) =
        (vl.prefs.map Prod.fst).map (fun c => (c, (rankOf vl c).getD 0)) := by
      rw [List.map_map]
      apply List.map_congr_left
      intro e he
      simp only [Function.comp]
      rw [hmem e he]
    rw [e1]
    have e2 := pySort_map (fun c : Str => (c, (rankOf vl c).getD 0))
      (fun a b => decide ((rankOf vl a).getD 0 ≤ (rankOf vl b).getD 0))
      (fun a b : Str × Int => decide (a.2 ≤ b.2)) (by intro a b; rfl) (vl.prefs.map Prod.fst)
    rw [e2, List.map_map]
    simp [Function.comp_def]


/-- C77: a ballot whose candidates all have ranks (the first one not 0) is listed best rank first: every
candidate once, nobody before a candidate ranked better, ties in ballot order. -/
theorem C77_ranked (vl : Voteline) (hwf : vl.prefs.WF) (hne : vl.prefs ≠ [])
    (hall : ∀ c ∈ vl.prefs.keys, ∃ r, rankOf vl c = some r)
    (h0 : ∀ c, vl.prefs.keys.head? = some c → rankOf vl c ≠ some 0) :
    ∃ l, ranklist vl = .ok l ∧ ListsAll vl l ∧ BestFirst vl l ∧ TiesInOrder vl l := by
  refine ⟨_, ranklist_ranked vl hwf hne hall h0, sortByKey_perm _ _, ?_, ?_⟩
  · refine List.Pairwise.imp_of_mem ?_ (sortByKey_sorted _ _)
    intro a b ha hb hab
    obtain ⟨ra, hra⟩ := hall a ((sortByKey_perm _ _).mem_iff.1 ha)
    obtain ⟨rb, hrb⟩ := hall b ((sortByKey_perm _ _).mem_iff.1 hb)
    simp only [hra, hrb, Option.getD_some] at hab
    unfold prefers
    rw [hra, hrb]
    simp only [decide_eq_false_iff_not]
    omega
  · intro r
    have key := sortByKey_stable (fun c => (rankOf vl c).getD 0) vl.prefs.keys r
    have hcongr : ∀ L : List Str, (∀ c ∈ L, c ∈ vl.prefs.keys) →
        L.filter (fun c => decide (rankOf vl c = some r)) = L.filter (fun c => decide ((rankOf vl c).getD 0 = r)) := by
      intro L hL
      apply List.filter_congr
      intro c hc
      obtain ⟨x, hx⟩ := hall c (hL c hc)
      rw [hx]
      simp
    rw [hcongr _ (fun c hc => (sortByKey_perm _ _).mem_iff.1 hc), hcongr _ (fun c hc => hc)]
    exact key

/-- There is only one such list: `ListsAll`, `BestFirst` and `TiesInOrder` pin the answer down. -/
theorem C77_unique (vl : Voteline) (hall : ∀ c ∈ vl.prefs.keys, ∃ r, rankOf vl c = some r) (l l' : List Str)
    (h1 : ListsAll vl l) (h2 : BestFirst vl l) (h3 : TiesInOrder vl l)
    (h1' : ListsAll vl l') (h2' : BestFirst vl l') (h3' : TiesInOrder vl l') : l = l' := by
  have hsorted : ∀ L, ListsAll vl L → BestFirst vl L →
      L.Pairwise (fun a b => (rankOf vl a).getD 0 ≤ (rankOf vl b).getD 0) := by
    intro L hL hB
    refine List.Pairwise.imp_of_mem ?_ hB
    intro a b ha hb hab
    obtain ⟨ra, hra⟩ := hall a (hL.mem_iff.1 ha)
    obtain ⟨rb, hrb⟩ := hall b (hL.mem_iff.1 hb)
    unfold prefers at hab
    rw [hra, hrb] at hab
    simp only [decide_eq_false_iff_not] at hab
    rw [hra, hrb]
    simp only [Option.getD_some]
    omega
  have hcongr : ∀ L, ListsAll vl L → ∀ r : Int,
      L.filter (fun c => decide ((rankOf vl c).getD 0 = r)) = L.filter (fun c => decide (rankOf vl c = some r)) := by
    intro L hL r
    apply List.filter_congr
    intro c hc
    obtain ⟨x, hx⟩ := hall c (hL.mem_iff.1 hc)
    rw [hx]
    simp
  apply sorted_stable_unique (fun c => (rankOf vl c).getD 0) l l' (hsorted l h1 h2) (hsorted l' h1' h2')
  intro k
  rw [hcongr l h1, hcongr l' h1', h3 k, h3' k]

/-- A candidate preferred to another is listed before it. -/
theorem C77_before (vl : Voteline) (l : List Str) (hwf : vl.prefs.WF) (h1 : ListsAll vl l) (h2 : BestFirst vl l) (a b : Str)
    (ha : a ∈ vl.prefs.keys) (hb : b ∈ vl.prefs.keys) (hab : prefers vl a b = true) :
    ∃ x y z, l = x ++ a :: y ++ b :: z := by
  have hne : a ≠ b := by
    rintro rfl
    unfold prefers at hab
    split at hab
    · rename_i r1 r2 e1 e2; rw [e1] at e2; cases e2; simp at hab
    · rename_i e1 e2; rw [e1] at e2; cases e2
    · cases hab
  obtain ⟨x, y, rfl⟩ := List.append_of_mem (h1.mem_iff.2 ha)
  have hbm := h1.mem_iff.2 hb
  rcases List.mem_append.1 hbm with hbx | hby
  · exfalso
    have hp := (List.pairwise_append.1 h2).2.2 b hbx a (by simp)
    rw [hp] at hab
    cases hab
  · rcases List.mem_cons.1 hby with rfl | hby
    · exact absurd rfl hne
    · obtain ⟨y1, y2, rfl⟩ := List.append_of_mem hby
      exact ⟨x, y1, y2, by simp⟩

section
variable [U : Uni]

/-- C77 for parsed text: every voteline naming a candidate is listed best first; one naming nobody makes the
call fail with `IndexError`. -/
theorem C77_text (cw ar sc : Bool) (text : Str) (m : Jabmod) (h : convertAbif cw ar sc text = .ok m)
    (vl : Voteline) (hvl : vl ∈ m.votelines) :
    (vl.prefs = [] → ranklist vl = .error .indexError) ∧
    (vl.prefs ≠ [] → ∃ l, ranklist vl = .ok l ∧ ListsAll vl l ∧ BestFirst vl l ∧ TiesInOrder vl l) := by
  constructor
  · intro he
    unfold ranklist
    rw [he]
  · intro hne
    have hrank : ∀ c ∈ vl.prefs.keys, ∃ r, rankOf vl c = some r ∧ 1 ≤ r := by
      intro c hc
      obtain ⟨p, hp⟩ := Dict.exists_get?_of_mem hc
      obtain ⟨_, r, hr, h1, _⟩ := convertAbif_entries h vl hvl c p hp
      exact ⟨r, by unfold rankOf; rw [hp]; exact hr, h1⟩
    refine C77_ranked vl (C04_ranks cw ar sc text m h vl hvl).1 hne ?_ ?_
    · intro c hc
      obtain ⟨r, hr, _⟩ := hrank c hc
      exact ⟨r, hr⟩
    · intro c hc h0
      obtain ⟨r, hr, h1⟩ := hrank c (List.mem_of_mem_head? hc)
      rw [h0] at hr
      cases hr
      omega

end

/-- C77, ballots without ranks.  Missing from the full property: the first candidate's rating must not be 0
and every rating must be an `int`; see `C77_zero_refuted` and `C77_strings_refuted`. -/
theorem C77_rated_partial (vl : Voteline) (hwf : vl.prefs.WF) (hne : vl.prefs ≠ [])
    (hnor : ∀ c ∈ vl.prefs.keys, rankOf vl c = none)
    (hall : ∀ c ∈ vl.prefs.keys, ∃ i : Int, rateOf vl c = some (.int i))
    (h0 : ∀ c, vl.prefs.keys.head? = some c → rateOf vl c ≠ some (.int 0)) :
    ∃ l, ranklist vl = .ok l ∧ ListsAll vl l ∧ HighestFirst vl l ∧ RatingTiesInOrder vl l := by
  have hmem : ∀ e ∈ vl.prefs, rateOf vl e.1 = e.2.rating := by
    intro e he
    unfold rateOf
    rw [Dict.get?_of_mem hwf (by exact he)]
    rfl
  have hr : ∀ e ∈ vl.prefs, ∃ i : Int, e.2.rating = some (.int i) := by
    intro e he
    obtain ⟨i, hi⟩ := hall e.1 (List.mem_map.2 ⟨e, he, rfl⟩)
    exact ⟨i, by rw [← hmem e he, hi]⟩
  let key : Str → Int := fun c => ((rateOf vl c).bind intKey).getD 0
  have hrun : ranklist vl = .ok (sortByKeyDesc key vl.prefs.keys) := by
    unfold ranklist
    split
    · rename_i h; exact absurd h hne
    · rename_i c p t h
      have hin : (c, p) ∈ vl.prefs := by rw [h]; simp
      have hnr : rankTruthy p.rank = false := by
        have := hnor c (List.mem_map.2 ⟨(c, p), hin, rfl⟩)
        unfold rankOf at this
        rw [Dict.get?_of_mem hwf hin] at this
        simp only [Option.bind_some] at this
        rw [this]; rfl
      have hrt : ratingTruthy p.rating = true := by
        have h1 := h0 c (by rw [h]; rfl)
        obtain ⟨i, hi⟩ := hr (c, p) hin
        rw [hmem (c, p) hin] at h1
        simp only at hi h1
        rw [hi] at h1 ⊢
        simp only [ratingTruthy, bne_iff_ne, ne_eq]
        intro hh; exact h1 (by rw [hh])
      rw [if_neg (by rw [hnr]; simp), if_pos hrt]
      have hk : ratingKeys vl.prefs = .ok (vl.prefs.keys.map (fun c => (c, (rateOf vl c).getD .null))) := by
        unfold ratingKeys
        rw [mapM_eq_map _ (fun e : Str × Pref => (e.1, e.2.rating.getD .null))]
        · congr 1
          unfold Dict.keys
          rw [List.map_map]
          apply List.map_congr_left
          intro e he
          simp only [Function.comp]
          rw [hmem e he]
        · intro e he
          obtain ⟨i, hi⟩ := hr e he
          rw [hi]; rfl
      rw [hk, ok_bind]
      have hsort : sortRatings (vl.prefs.keys.map (fun c => (c, (rateOf vl c).getD .null))) =
          .ok (sortByKeyDesc key vl.prefs.keys) := by
        have e2 := pySort_map (fun c : Str => (c, (rateOf vl c).getD RVal.null))
          (fun a b => decide (key b ≤ key a))
          (fun a b : Str × RVal => decide ((intKey b.2).getD 0 ≤ (intKey a.2).getD 0))
          (by
            intro a b
            have : ∀ c, (intKey ((rateOf vl c).getD RVal.null)).getD 0 = key c := by
              intro c
              show _ = ((rateOf vl c).bind intKey).getD 0
              cases rateOf vl c <;> rfl
            simp only [this]) vl.prefs.keys
        unfold sortRatings
        split
        · rename_i hlen
          congr 1
          rw [List.map_map]
          rw [List.length_map] at hlen
          have : (Prod.fst ∘ fun c : Str => (c, (rateOf vl c).getD RVal.null)) = id := rfl
          rw [this, List.map_id]
          match hL : vl.prefs.keys, hlen with
          | [], _ => rfl
          | [c], _ => rfl
        · rw [if_pos]
          · congr 1
            unfold sortByKeyDesc
            rw [e2, List.map_map]
            have : (Prod.fst ∘ fun c : Str => (c, (rateOf vl c).getD RVal.null)) = id := rfl
            rw [this, List.map_id]
          · rw [List.all_eq_true]
            intro kr hkr
            obtain ⟨c, hc, rfl⟩ := List.mem_map.1 hkr
            obtain ⟨i, hi⟩ := hall c hc
            simp only [hi]
            rfl
      exact hsort
  have hkey : ∀ c ∈ vl.prefs.keys, ∀ i : Int, rateOf vl c = some (.int i) ↔ key c = i := by
    intro c hc i
    obtain ⟨j, hj⟩ := hall c hc
    show _ ↔ ((rateOf vl c).bind intKey).getD 0 = i
    rw [hj]
    simp [intKey]
  refine ⟨_, hrun, sortByKeyDesc_perm _ _, ?_, ?_⟩
  · refine List.Pairwise.imp_of_mem ?_ (sortByKeyDesc_sorted _ _)
    intro a b ha hb hab i j hi hj
    have ea := (hkey a ((sortByKeyDesc_perm _ _).mem_iff.1 ha) i).1 hi
    have eb := (hkey b ((sortByKeyDesc_perm _ _).mem_iff.1 hb) j).1 hj
    omega
  · intro i
    have hcongr : ∀ L : List Str, (∀ c ∈ L, c ∈ vl.prefs.keys) →
        L.filter (fun c => decide (rateOf vl c = some (.int i))) = L.filter (fun c => decide (key c = i)) := by
      intro L hL
      apply List.filter_congr
      intro c hc
      rw [decide_eq_decide]
      exact hkey c (hL c hc) i
    rw [hcongr _ (fun c hc => (sortByKeyDesc_perm _ _).mem_iff.1 hc), hcongr _ (fun c hc => hc)]
    exact sortByKeyDesc_stable _ _ i

/-- A rank that is missing on a ballot whose first candidate has one makes the call fail. -/
theorem C77_missing (vl : Voteline) (c : Str) (p : Pref) (t : List (Str × Pref)) (hp : vl.prefs = (c, p) :: t)
    (hr : ∃ r : Int, p.rank = some r ∧ r ≠ 0) (d : Str × Pref) (hd : d ∈ t) (hn : d.2.rank = none) :
    ranklist vl = .error .keyError := by
  obtain ⟨r, hr, h0⟩ := hr
  unfold ranklist
  rw [hp]
  simp only
  rw [if_pos (by rw [hr]; simpa [rankTruthy] using h0)]
  have : rankKeys ((c, p) :: t) = .error .keyError := by
    exact rankKeys_missing _ d (List.mem_cons_of_mem _ hd) hn
  rw [this]
  rfl

/-- C77, mixed ratings: an unranked ballot that gives one candidate an `int` rating and another a `str` rating is
refused, it is not sorted by some mixture of the two orders. -/
theorem C77_mixed (vl : Voteline) (hwf : vl.prefs.WF) (c : Str) (p : Pref) (t : List (Str × Pref)) (hp : vl.prefs = (c, p) :: t)
    (hr : p.rank = none) (hall : ∀ d ∈ vl.prefs.keys, ∃ v, rateOf vl d = some v)
    (h0 : ∀ v : RVal, rateOf vl c = some v → v ≠ .int 0 ∧ v ≠ .str [] ∧ v ≠ .null)
    (a b : Str) (i : Int) (s : Str) (ha : rateOf vl a = some (.int i)) (hb : rateOf vl b = some (.str s)) :
    ranklist vl = .error .typeError := by
  have hmem : ∀ e ∈ vl.prefs, rateOf vl e.1 = e.2.rating := by
    intro e he
    unfold rateOf
    rw [Dict.get?_of_mem hwf (by exact he)]
    rfl
  have hk : ratingKeys vl.prefs = .ok (vl.prefs.map (fun e => (e.1, (rateOf vl e.1).getD .null))) := by
    unfold ratingKeys
    apply mapM_eq_map
    intro e he
    obtain ⟨v, hv⟩ := hall e.1 (List.mem_map.2 ⟨e, he, rfl⟩)
    rw [hv]
    rw [hmem e he] at hv
    rw [hv]
    rfl
  have hin : ∀ d v, rateOf vl d = some v → (d, v) ∈ vl.prefs.map (fun e => (e.1, (rateOf vl e.1).getD RVal.null)) := by
    intro d v hd
    unfold rateOf at hd
    obtain ⟨q, hq, _⟩ := Option.bind_eq_some_iff.1 hd
    refine List.mem_map.2 ⟨(d, q), Dict.mem_of_get? hq, ?_⟩
    have : rateOf vl d = some v := hd
    simp [this]
  unfold ranklist
  rw [hp]
  simp only
  rw [hr, if_neg (by simp [rankTruthy])]
  have htr : ratingTruthy p.rating = true := by
    have h1 := hmem (c, p) (by rw [hp]; simp)
    obtain ⟨v, hv⟩ := hall c (by rw [hp]; simp [Dict.keys])
    obtain ⟨h2, h3, h4⟩ := h0 v hv
    simp only at h1
    rw [← h1, hv]
    cases v with
    | int j => simp only [ratingTruthy]; simpa using h2
    | str x => simp only [ratingTruthy]; simpa using h3
    | null => exact absurd rfl h4
  rw [if_pos htr, ← hp, hk, ok_bind]
  have ha' := hin a _ ha
  have hb' := hin b _ hb
  generalize vl.prefs.map (fun e => (e.1, (rateOf vl e.1).getD RVal.null)) = ks at ha' hb'
  unfold sortRatings
  rw [if_neg, if_neg, if_neg]
  · intro h
    have := List.all_eq_true.1 h _ ha'
    simp [strKey] at this
  · intro h
    have := List.all_eq_true.1 h _ hb'
    simp [intKey] at this
  · intro h
    match ks, h with
    | [], _ => cases ha'
    | [x], _ =>
      rw [List.mem_singleton] at ha' hb'
      rw [← ha'] at hb'
      cases hb'

/-! ### examples and refutations -/

/-- 3 voters: B and C tied for first, then A, then D; the dictionary is in another order -/
def exRankline : Voteline :=
  { qty := 3, prefs := [(c!"A", { rank := some 2 }), (c!"B", { rank := some 1 }), (c!"D", { rank := some 3 }),
      (c!"C", { rank := some 1 })] }

example : ranklist exRankline = .ok [c!"B", c!"C", c!"A", c!"D"] := by decide +kernel
example : exRankline.prefs.WF ∧ exRankline.prefs ≠ [] ∧ (∀ c ∈ exRankline.prefs.keys, (rankOf exRankline c).isSome = true) ∧
    rankOf exRankline c!"A" ≠ some 0 ∧ prefers exRankline c!"B" c!"A" = true := by
  unfold Dict.WF; decide +kernel

/-- ratings only, the first one not 0 -/
def exRateline : Voteline :=
  { qty := 1, prefs := [(c!"A", { rating := some (.int 3) }), (c!"B", { rating := some (.int 10) }),
      (c!"C", { rating := some (.int 3) }), (c!"D", { rating := some (.int 0) })] }

example : ranklist exRateline = .ok [c!"B", c!"A", c!"C", c!"D"] := by decide +kernel
example : exRateline.prefs.WF ∧ exRateline.prefs ≠ [] ∧ (∀ c ∈ exRateline.prefs.keys, rankOf exRateline c = none) ∧
    rateOf exRateline c!"A" ≠ some (.int 0) := by
  unfold Dict.WF; decide +kernel

/-- non-vacuity of `C77_mixed` -/
example : ranklist { qty := 1, prefs := [(c!"A", { rating := some (.int 3) }), (c!"B", { rating := some (.str c!"5") })] } =
    .error .typeError := by decide +kernel

/-- C77 is false for rated ballots whose first candidate is rated 0: A (0) is listed before B (5). -/
theorem C77_zero_refuted : ∃ vl : Voteline, vl.prefs.WF ∧ vl.prefs ≠ [] ∧
    (∀ c ∈ vl.prefs.keys, rankOf vl c = none) ∧ (∀ c ∈ vl.prefs.keys, ∃ i : Int, rateOf vl c = some (.int i)) ∧
    ∃ l, ranklist vl = .ok l ∧ ¬ HighestFirst vl l := by
  refine ⟨{ qty := 1, prefs := [(c!"A", { rating := some (.int 0) }), (c!"B", { rating := some (.int 5) })] },
    by unfold Dict.WF; decide +kernel, by simp, by decide +kernel, ?_, [c!"A", c!"B"], by decide +kernel, ?_⟩
  · intro c hc
    have : c = c!"A" ∨ c = c!"B" := by simpa [Dict.keys] using hc
    rcases this with rfl | rfl
    · exact ⟨0, by decide +kernel⟩
    · exact ⟨5, by decide +kernel⟩
  · intro h
    have := (List.pairwise_cons.1 h).1 c!"B" (by simp) 0 5 (by decide +kernel) (by decide +kernel)
    omega

/-- C77 is false for ratings stored as strings (which is how the parser stores them): "10" sorts below "9". -/
theorem C77_strings_refuted : ranklist
    { qty := 1, prefs := [(c!"A", { rating := some (.str c!"10") }), (c!"B", { rating := some (.str c!"9") })] } =
      .ok [c!"B", c!"A"] := by decide +kernel

/-- mixed rating types fail -/
example : ranklist
    { qty := 1, prefs := [(c!"A", { rating := some (.str c!"10") }), (c!"B", { rating := some (.int 9) })] } =
      .error .typeError := by decide +kernel

section
attribute [local instance] Uni.ascii
set_option maxRecDepth 40000
example : ((convertAbif false false false c!"4:C>A=B\n2:[D]/3,A/5\n").toOption.map
    (fun m => m.votelines.map (fun vl => (ranklist vl).toOption))) =
      some [some [c!"C", c!"A", c!"B"], some [c!"A", c!"D"]] := by decide +kernel
end

end Verif.Props
