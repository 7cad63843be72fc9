/-
Helper lemmas: scores, score ranks.
-/
import Verif.Lib.Pairwise
import Verif.Lib.Wlt
import Verif.Spec.Score

set_option linter.unusedSimpArgs false
set_option linter.unusedSectionVars false

namespace Verif
open Spec
variable [U : Uni]

/-- rating of an entry, 0 if unreadable -/
def entryRating (p : Pref) : Int := match ratingInt p.rating with | .ok i => i | .error _ => 0

/-- what a list of entries adds to the score of `c` -/
def addScore (c : Str) (l : List (Str × Pref)) : Int :=
  (l.map (fun e => if e.1 = c then entryRating e.2 else 0)).sum
/-- how many entries rate `c` above zero -/
def addRaters (c : Str) (l : List (Str × Pref)) : Int :=
  (l.map (fun e => if e.1 = c ∧ 0 < entryRating e.2 then 1 else 0)).sum

theorem scorePrefs_ok (qty : Int) (l : List (Str × Pref)) (d : Dict Str ScoreEntry)
    (hk : ∀ e ∈ l, e.1 ∈ d.keys) (hr : ∀ e ∈ l, ∃ i, ratingInt e.2.rating = .ok i) :
    ∃ d', scorePrefs qty l d = .ok d' ∧ d'.keys = d.keys ∧ ∀ c, d'.get? c = (d.get? c).map (fun e =>
      { e with score := e.score + addScore c l * qty, votercount := e.votercount + addRaters c l * qty }) := by
  induction l generalizing d with
  | nil =>
    refine ⟨d, rfl, rfl, ?_⟩
    intro c
    cases d.get? c <;> simp [addScore, addRaters]
  | cons e l ih =>
    obtain ⟨cand, p⟩ := e
    obtain ⟨i, hi⟩ := hr (cand, p) (by simp)
    obtain ⟨e0, he0⟩ := Dict.exists_get?_of_mem (hk (cand, p) (by simp))
    unfold scorePrefs
    simp only at hi
    rw [hi, ok_bind, Dict.getE_of_get? he0, ok_bind]
    simp only
    have hkeys : ∀ w, (Dict.set d cand w).keys = d.keys := fun w => Dict.keys_set_of_mem (hk (cand, p) (by simp))
    obtain ⟨d', h1, h2, h3⟩ := ih (d.set cand _) (by
      intro e he; rw [hkeys]; exact hk e (by simp [he])) (fun e he => hr e (by simp [he]))
    refine ⟨d', h1, by rw [h2, hkeys], ?_⟩
    intro c
    rw [h3, Dict.get?_set]
    have hent : entryRating p = i := by unfold entryRating; rw [hi]
    by_cases hc : cand = c
    · subst hc
      rw [if_pos rfl, he0]
      simp only [Option.map_some, addScore, addRaters, List.map_cons, List.sum_cons, if_true, hent, Option.some.injEq, true_and,
        ScoreEntry.mk.injEq]
      constructor
      · rw [Int.add_mul]; omega
      · rw [Int.add_mul]
        split
        · rename_i h; have : 0 < i := h
          simp [this]; omega
        · rename_i h
          have : ¬ 0 < i := h
          simp [this]
    · rw [if_neg hc]
      congr 1
      funext e
      simp [addScore, addRaters, hc]

/-- rating of `c` in a list of entries -/
def dictRating (l : Dict Str Pref) (c : Str) : Int := match l.get? c with | some p => entryRating p | none => 0

theorem ratingOf_eq (vl : Voteline) (c : Str) : ratingOf vl c = dictRating vl.prefs c := by
  unfold ratingOf dictRating entryRating
  cases vl.prefs.get? c <;> rfl

theorem dictRating_cons (e : Str × Pref) (l : Dict Str Pref) (c : Str) :
    dictRating (e :: l) c = if e.1 = c then entryRating e.2 else dictRating l c := by
  unfold dictRating
  simp only [Dict.get?]
  by_cases h : e.1 = c <;> simp [h]

theorem dictRating_not_mem {l : Dict Str Pref} {c : Str} (h : c ∉ l.keys) : dictRating l c = 0 := by
  unfold dictRating; rw [Dict.get?_eq_none.2 h]

theorem addScore_wf {vl : Voteline} (hw : vl.prefs.keys.Nodup) (c : Str) : addScore c vl.prefs = ratingOf vl c := by
  rw [ratingOf_eq]
  generalize vl.prefs = l at hw
  induction l with
  | nil => rfl
  | cons e l ih =>
    simp only [Dict.keys, List.map_cons, List.nodup_cons] at hw
    have ih := ih hw.2
    unfold addScore at ih ⊢
    rw [List.map_cons, List.sum_cons, dictRating_cons, ih]
    by_cases hc : e.1 = c
    · rw [if_pos hc, if_pos hc, dictRating_not_mem (hc ▸ hw.1)]; omega
    · rw [if_neg hc, if_neg hc]; omega

theorem addRaters_wf {vl : Voteline} (hw : vl.prefs.keys.Nodup) (c : Str) :
    addRaters c vl.prefs = if 0 < ratingOf vl c then 1 else 0 := by
  rw [ratingOf_eq]
  generalize vl.prefs = l at hw
  induction l with
  | nil => rfl
  | cons e l ih =>
    simp only [Dict.keys, List.map_cons, List.nodup_cons] at hw
    have ih := ih hw.2
    unfold addRaters at ih ⊢
    rw [List.map_cons, List.sum_cons, dictRating_cons, ih]
    by_cases hc : e.1 = c
    · rw [dictRating_not_mem (hc ▸ hw.1)]
      simp [hc]
    · simp [hc]

theorem scoreLines_ok (vls : List Voteline) (d : Dict Str ScoreEntry)
    (hw : ∀ vl ∈ vls, vl.prefs.keys.Nodup) (hk : ∀ vl ∈ vls, ∀ c ∈ vl.prefs.keys, c ∈ d.keys)
    (hr : ∀ vl ∈ vls, ∀ c p, vl.prefs.get? c = some p → ∃ i, ratingInt p.rating = .ok i) :
    ∃ d', scoreLines vls d = .ok d' ∧ d'.keys = d.keys ∧ ∀ c, d'.get? c = (d.get? c).map (fun e =>
      { e with score := e.score + (vls.map (fun vl => vl.qty * ratingOf vl c)).sum,
               votercount := e.votercount + qtySum (fun vl => decide (0 < ratingOf vl c)) vls }) := by
  induction vls generalizing d with
  | nil =>
    refine ⟨d, rfl, rfl, ?_⟩
    intro c
    cases d.get? c <;> simp [qtySum]
  | cons vl vls ih =>
    obtain ⟨d1, h1, h2, h3⟩ := scorePrefs_ok vl.qty vl.prefs d
      (fun e he => hk vl (by simp) e.1 (List.mem_map_of_mem he))
      (fun e he => hr vl (by simp) e.1 e.2 (Dict.get?_of_mem (hw vl (by simp)) he))
    obtain ⟨d2, g1, g2, g3⟩ := ih d1 (fun v hv => hw v (by simp [hv]))
      (fun v hv c hc => h2 ▸ hk v (by simp [hv]) c hc) (fun v hv => hr v (by simp [hv]))
    refine ⟨d2, ?_, g2.trans h2, ?_⟩
    · unfold scoreLines; rw [h1, ok_bind, g1]
    · intro c
      rw [g3, h3, Option.map_map]
      congr 1
      funext e
      simp only [Function.comp_apply, ScoreEntry.mk.injEq, true_and, List.map_cons, List.sum_cons, qtySum_cons]
      rw [addScore_wf (hw vl (by simp)), addRaters_wf (hw vl (by simp))]
      constructor
      · rw [Int.mul_comm vl.qty]; omega
      · by_cases h : 0 < ratingOf vl c <;> simp [h] <;> omega

theorem basicScore_ok {m : Jabmod} (h : Scorable m) :
    basicScore m = .ok (m.candidates.map (fun kv =>
      (kv.1, { candname := kv.2, score := scoreOf m kv.1, votercount := ratersOf m kv.1 }))) := by
  unfold basicScore
  have hk0 : Dict.keys (m.candidates.map fun kv => (kv.1, ({ candname := kv.2, score := 0, votercount := 0 } : ScoreEntry))) =
      m.candidates.keys := by simp [Dict.keys, List.map_map, Function.comp_def]
  obtain ⟨d, h1, h2, h3⟩ := scoreLines_ok m.votelines _ h.dicts (fun vl hvl c hc => hk0 ▸ h.known vl hvl c hc) h.ratings
  rw [h1]
  congr 1
  apply Dict.ext_of_wf
  · unfold Dict.WF; rw [h2, hk0]; exact h.cands
  · unfold Dict.WF
    have := h.cands
    simpa [Dict.keys, List.map_map, Function.comp_def] using this
  · rw [h2, hk0]; simp [Dict.keys, List.map_map, Function.comp_def]
  · intro c
    rw [h3]
    rw [Dict.get?_map m.candidates (fun _ n => ({ candname := n, score := 0, votercount := 0 } : ScoreEntry)),
      Dict.get?_map m.candidates (fun k n => ({ candname := n, score := scoreOf m k, votercount := ratersOf m k } : ScoreEntry))]
    cases m.candidates.get? c with
    | none => rfl
    | some n => simp [scoreOf, ratersOf]

/-! ### dense ranks -/

/-- below the previous score, if there is one -/
def belowO : Option Int → Int → Bool
  | none, _ => true
  | some p, y => decide (y < p)

/-- the next rank number -/
def incRank (prev : Option Int) (rank s : Int) : Int :=
  match prev with
  | none => rank + 1
  | some ps => if ps > s then rank + 1 else rank

theorem incRank_eq (prev : Option Int) (rank s : Int) : incRank prev rank s = rank + if belowO prev s then 1 else 0 := by
  cases prev with
  | none => rfl
  | some p =>
    simp only [incRank, belowO]
    by_cases h : s < p <;> simp [h]

theorem scoreRanks_cons (prev : Option Int) (rank : Int) (c : Str) (x : ScoreEntry) (L : List (Str × ScoreEntry)) :
    scoreRanks prev rank ((c, x) :: L) =
      (c, incRank prev rank x.score) :: scoreRanks (some x.score) (incRank prev rank x.score) L := rfl

/-- distinct members of `xs` that are at least `s` and below `ps` -/
def between (ps : Option Int) (xs : List Int) (s : Int) : Int :=
  (((firsts xs).filter (fun y => decide (s ≤ y) && belowO ps y)).length : Int)

theorem scoreRanks_eq (prev : Option Int) (rank : Int) (L : List (Str × ScoreEntry))
    (hs : L.Pairwise (fun x y => y.2.score ≤ x.2.score))
    (hp : ∀ p, prev = some p → ∀ e ∈ L, e.2.score ≤ p) :
    scoreRanks prev rank L = L.map (fun e => (e.1, rank + between prev (L.map (fun e => e.2.score)) e.2.score)) := by
  induction L generalizing prev rank with
  | nil => rfl
  | cons e L ih =>
    obtain ⟨c, x⟩ := e
    rw [List.pairwise_cons] at hs
    rw [scoreRanks_cons]
    simp only [List.map_cons]
    -- rank increment of the head
    have hinc : incRank prev rank x.score =
        rank + between prev (x.score :: L.map (fun e => e.2.score)) x.score := by
      have hfil : ((firsts (x.score :: L.map (fun e => e.2.score))).filter
          (fun y => decide (x.score ≤ y) && belowO prev y)) =
          if belowO prev x.score then [x.score] else [] := by
        simp only [firsts]
        have hnil : ((firsts (L.map (fun e => e.2.score))).filter (fun y => decide (y ≠ x.score))).filter
            (fun y => decide (x.score ≤ y) && belowO prev y) = [] := by
          rw [List.filter_eq_nil_iff]
          intro y hy hq
          rw [List.mem_filter, mem_firsts, List.mem_map] at hy
          obtain ⟨⟨e, he, rfl⟩, hne⟩ := hy
          have h1 := hs.1 e he
          simp only [Bool.and_eq_true, decide_eq_true_eq] at hq hne
          simp only at h1
          omega
        rw [List.filter_cons, hnil]
        simp
      unfold between
      rw [hfil, incRank_eq]
      cases belowO prev x.score <;> simp
    rw [hinc]
    congr 1
    rw [ih _ _ hs.2 (by rintro p hp e he; cases hp; exact hs.1 e he)]
    apply List.map_congr_left
    intro e he
    congr 1
    have hle := hs.1 e he
    simp only at hle
    -- split the distinct values at the head
    unfold between
    simp only [firsts]
    have hhead : ((firsts (x.score :: L.map (fun e => e.2.score))).filter
          (fun y => decide (x.score ≤ y) && belowO prev y)).length =
        (if belowO prev x.score then 1 else 0) := by
      have := hinc
      unfold between at this
      rw [incRank_eq] at this
      generalize (List.filter _ _).length = n at this ⊢
      cases hb : belowO prev x.score with
      | true => rw [hb] at this; simp only [if_true] at this ⊢; omega
      | false => rw [hb] at this; simp only [Bool.false_eq_true, if_false] at this ⊢; omega
    simp only [firsts] at hhead
    rw [hhead]
    rw [List.filter_cons]
    have hcong : ((firsts (L.map (fun e => e.2.score))).filter (fun y => decide (y ≠ x.score))).filter
        (fun y => decide (e.2.score ≤ y) && belowO prev y) =
        (firsts (L.map (fun e => e.2.score))).filter (fun y => decide (e.2.score ≤ y) && decide (y < x.score)) := by
      rw [List.filter_filter]
      apply List.filter_congr
      intro y hy
      rw [mem_firsts, List.mem_map] at hy
      obtain ⟨e', he', rfl⟩ := hy
      have h1 := hs.1 e' he'
      simp only at h1
      rw [Bool.eq_iff_iff]
      simp only [Bool.and_eq_true, decide_eq_true_eq]
      cases prev with
      | none => simp only [belowO, and_true]; omega
      | some p =>
        have := hp p rfl _ (List.mem_cons_self)
        simp only at this
        simp only [belowO, decide_eq_true_eq]
        omega
    rw [hcong]
    have hge : decide (e.2.score ≤ x.score) = true := by simpa using hle
    rw [hge, Bool.true_and]
    have hbo : ∀ y, belowO (some x.score) y = decide (y < x.score) := fun _ => rfl
    simp only [hbo]
    cases hb : belowO prev x.score with
    | true => simp only [if_true, List.length_cons]; omega
    | false => simp only [Bool.false_eq_true, if_false]; omega

theorem firsts_filter_comm {l : List Int} (p : Int → Bool) : firsts (l.filter p) = (firsts l).filter p := by
  induction l with
  | nil => rfl
  | cons a l ih =>
    rw [List.filter_cons]
    split
    · rename_i h
      simp only [firsts, ih, List.filter_cons, h, if_true, List.filter_filter]
      congr 1
      apply List.filter_congr
      intro y _
      rw [Bool.and_comm]
    · rename_i h
      simp only [firsts, List.filter_cons, h, if_false, ih, List.filter_filter, Bool.false_eq_true]
      apply List.filter_congr
      intro y _
      by_cases hy : y = a
      · subst hy; simp [h]
      · simp [hy]

theorem between_dense (l : List Int) (s : Int) (h : s ∈ l) : between none l s = denseRank l s := by
  unfold between denseRank
  rw [firsts_filter_comm]
  simp only [belowO, Bool.and_true]
  have hn := nodup_firsts l
  have hm : s ∈ firsts l := mem_firsts.2 h
  generalize firsts l = f at hn hm
  induction f with
  | nil => simp at hm
  | cons a f ih =>
    rw [List.nodup_cons] at hn
    by_cases ha : s = a
    · subst ha
      have : f.filter (fun y => decide (s ≤ y)) = f.filter (fun y => decide (s < y)) := by
        apply List.filter_congr
        intro y hy
        have : y ≠ s := by rintro rfl; exact hn.1 hy
        rw [Bool.eq_iff_iff]; simp only [decide_eq_true_eq]; omega
      rw [List.filter_cons, List.filter_cons, this]
      simp; omega
    · have hm' : s ∈ f := (List.mem_cons.1 hm).resolve_left ha
      have := ih hn.2 hm'
      rw [List.filter_cons, List.filter_cons]
      by_cases hlt : s < a
      · have : s ≤ a := by omega
        simp [hlt, this] at *; omega
      · have : ¬ s ≤ a := by omega
        simp [hlt, this] at *; omega

end Verif
