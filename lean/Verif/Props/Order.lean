/-
C84: results depend on what the ballots say, not on how they are written down.
-/
import Verif.Lib.IrvSim
import Verif.Props.Irv
import Verif.Props.Tally
import Verif.Props.ParsedTally
import Verif.Props.Consolidate

set_option linter.unusedSimpArgs false
set_option linter.unusedSectionVars false

namespace Verif.Props
open Spec

/-- C84 for head-to-head counts: the pairwise matrix and the win-loss-tie table depend only on how many voters hold each opinion
on the candidates; rank numbers, ratings, the sequence of entries, the grouping and the order of the votelines do not matter. -/
theorem C84_pairwise (m m' : Jabmod) (hc : m.candidates = m'.candidates) (hr : Spec.AllRanked m) (hr' : Spec.AllRanked m')
    (h : SameOpinions (Dict.keys m.candidates) m.votelines m'.votelines) :
    pairwiseCount m = pairwiseCount m' ∧ fullCopecount m = fullCopecount m' := by
  have hsup : ∀ a ∈ Dict.keys m.candidates, ∀ b ∈ Dict.keys m.candidates, support m a b = support m' a b := by
    intro a ha b hb
    exact qtySum_classes AgreeOn.refl (fun _ _ h => h.symm) (fun _ _ _ h h' => h.trans h') (fun _ => True) (fun v => prefers v a b)
      (fun v w _ _ hvw => hvw a ha b hb) _ m.votelines m'.votelines (Nat.le_refl _) (by simp) (by simp) h
  have hp : pairwiseCount m = pairwiseCount m' := by
    rw [pairwiseCount_eq, pairwiseCount_eq, ← hc]
    unfold matrixOf
    apply List.map_congr_left
    intro a ha
    congr 1
    apply List.map_congr_left
    intro b hb
    congr 1
    show cellFold m.votelines a b (if a = b then none else some 0) = cellFold m'.votelines a b (if a = b then none else some 0)
    by_cases hab : a = b
    · subst hab; rw [if_pos rfl, cellFold_diag, cellFold_diag]
    · rw [if_neg hab, cellFold_eq (fun vl hvl => hr vl hvl) hab, cellFold_eq (fun vl hvl => hr' vl hvl) hab]
      have := hsup a ha b hb
      unfold support at this
      rw [this]
  refine ⟨hp, ?_⟩
  unfold fullCopecount
  rw [hp, hc]

/-- without candidates no line lists anybody, and the count fails -/
theorem irvCount_nocands (S : Sched) (m : Jabmod) (hm : Countable m) (h0 : Dict.keys m.candidates = []) :
    irvCount S (m.candidates.length + 1) none 1 m.candidates.keys m.votelines = .error .valueError := by
  have hst := hm.state
  rw [h0] at hst ⊢
  obtain ⟨q, kept, _, _, _, h2⟩ := irvRound_split S none 1 hst
  unfold irvCount
  rw [h2]
  simp [roundFinish, accOf, countsOf, listMin]
  rfl

/-- C84 for instant runoff, every ballot: the whole count (rounds, metadata, winners) depends only on each line's quantity and on
the order in which it puts the candidates it lists. -/
theorem C84_irv_lines (S : Sched) (m m' : Jabmod) (hc : m.candidates = m'.candidates) (hm : Countable m) (hm' : Countable m')
    (hb : RanksBelowInfinity m) (hb' : RanksBelowInfinity m')
    (h : List.Forall₂ (fun v w => v.qty = w.qty ∧ SameOrder v w) m.votelines m'.votelines) : irvDict S m' = irvDict S m := by
  unfold irvDict
  rw [← hc]
  by_cases hne : Dict.keys m.candidates = []
  · have e' := irvCount_nocands S m' hm' (by rw [← hc]; exact hne)
    rw [← hc] at e'
    rw [irvCount_nocands S m hm hne, e']
  · have hs' := hm'.state
    rw [← hc] at hs'
    rw [irvCount_lines S _ none 1 _ m.votelines m'.votelines hm.state hs' hne (good_of hm hb) (good_of hm' hb') h]

/-- C84 for instant runoff on ballots without equal rankings: only the number of voters casting each ballot matters. -/
theorem C84_irv_ballots (S : Sched) (m m' : Jabmod) (hc : m.candidates = m'.candidates) (hm : Countable m) (hm' : Countable m')
    (hb : RanksBelowInfinity m) (hb' : RanksBelowInfinity m') (hst : Strict m.votelines) (hst' : Strict m'.votelines)
    (h : SameBallots m.votelines m'.votelines) : irvDict S m' = irvDict S m := by
  unfold irvDict
  rw [← hc]
  by_cases hne : Dict.keys m.candidates = []
  · have e' := irvCount_nocands S m' hm' (by rw [← hc]; exact hne)
    rw [← hc] at e'
    rw [irvCount_nocands S m hm hne, e']
  · have hs' := hm'.state
    rw [← hc] at hs'
    rw [irvCount_ballots S _ none 1 _ m.votelines m'.votelines hm.state hs' hne (good_of hm hb) (good_of hm' hb') hst hst' h]

/-! ### ways to say the same -/

/-- line by line the same opinion and quantity -/
theorem C84_lines (C : List Str) (vls vls' : List Voteline) (h : List.Forall₂ (fun v w => v.qty = w.qty ∧ AgreeOn C v w) vls vls') :
    SameOpinions C vls vls' :=
  fun u => holders_forall₂ (fun _ _ h => h.symm) (fun _ _ _ h h' => h.trans h') (fun _ _ h => h) h u

/-- order of the lines, lines of quantity zero, and splitting a line into lines of the same opinion -/
theorem C84_regroup (C : List Str) (pre post : List Voteline) :
    (∀ vls : List Voteline, vls.Perm (pre ++ post) → SameOpinions C (pre ++ post) vls ∧ SameBallots (pre ++ post) vls) ∧
    (∀ v : Voteline, v.qty = 0 → SameOpinions C (pre ++ v :: post) (pre ++ post) ∧ SameBallots (pre ++ v :: post) (pre ++ post)) ∧
    (∀ v v1 v2 : Voteline, v1.qty + v2.qty = v.qty →
      (AgreeOn C v1 v → AgreeOn C v2 v → SameOpinions C (pre ++ v :: post) (pre ++ v1 :: v2 :: post)) ∧
      (SameOrder v1 v → SameOrder v2 v → SameBallots (pre ++ v :: post) (pre ++ v1 :: v2 :: post))) := by
  classical
  have perm : ∀ (R : Voteline → Voteline → Prop) (u : Voteline) (a b : List Voteline), a.Perm b → holders R b u = holders R a u := by
    intro R u a b h
    exact perm_sum ((h.symm.filter _).map _)
  have zero : ∀ (R : Voteline → Voteline → Prop) (u v : Voteline), v.qty = 0 → holders R (pre ++ v :: post) u = holders R (pre ++ post) u := by
    intro R u v hv
    unfold holders
    rw [qtySum_append, qtySum_append, qtySum_cons, hv]
    split <;> omega
  have split : ∀ (R : Voteline → Voteline → Prop), (∀ v w, R v w → R w v) → (∀ u v w, R u v → R v w → R u w) → ∀ (u v v1 v2 : Voteline),
      v1.qty + v2.qty = v.qty → R v1 v → R v2 v → holders R (pre ++ v :: post) u = holders R (pre ++ v1 :: v2 :: post) u := by
    intro R hs ht u v v1 v2 hq h1 h2
    unfold holders
    rw [qtySum_append, qtySum_append, qtySum_cons, qtySum_cons, qtySum_cons]
    have e1 : R v1 u ↔ R v u := ⟨fun h => ht _ _ _ (hs _ _ h1) h, fun h => ht _ _ _ h1 h⟩
    have e2 : R v2 u ↔ R v u := ⟨fun h => ht _ _ _ (hs _ _ h2) h, fun h => ht _ _ _ h2 h⟩
    simp only [e1, e2]
    split <;> omega
  refine ⟨fun vls h => ⟨fun u => perm _ u _ _ h, fun u => perm _ u _ _ h⟩, fun v hv => ⟨fun u => zero _ u v hv, fun u => zero _ u v hv⟩, ?_⟩
  intro v v1 v2 hq
  exact ⟨fun h1 h2 u => split _ (fun _ _ h => h.symm) (fun _ _ _ h h' => h.trans h') u v v1 v2 hq h1 h2,
    fun h1 h2 u => split _ (fun _ _ h => h.symm) (fun _ _ _ h h' => h.trans h') u v v1 v2 hq h1 h2⟩

theorem samePrefs_sameOrder {v w : Voteline} (h : SamePrefs v.prefs w.prefs) : SameOrder v w := by
  have hk : ∀ (d : Dict Str Pref) (c : Str), c ∈ Dict.keys d ↔ Dict.get? d c ≠ none := by
    intro d c
    constructor
    · intro hc hn
      obtain ⟨p, hp⟩ := Dict.exists_get?_of_mem hc
      rw [hp] at hn; cases hn
    · intro hn
      cases hg : Dict.get? d c with
      | none => exact absurd hg hn
      | some p => exact Dict.mem_keys_of_get? hg
  refine ⟨fun c => by rw [hk, hk, h c], fun a _ b _ => ?_⟩
  unfold prefers rankOf
  rw [h a, h b]

/-- models describing the same election up to order and grouping of votelines (C19) hold the same opinions and ballots -/
theorem C84_sameElection (m m' : Jabmod) (h : SameElection m m') :
    SameOpinions (Dict.keys m.candidates) m.votelines m'.votelines ∧ SameBallots m.votelines m'.votelines := by
  classical
  have key : ∀ p : Voteline → Bool, (∀ v w : Voteline, SamePrefs v.prefs w.prefs → p v = p w) → qtySum p m.votelines = qtySum p m'.votelines := by
    intro p hp
    refine qtySum_classes (R := fun v w => SamePrefs v.prefs w.prefs) (fun v c => rfl) (fun v w h c => (h c).symm)
      (fun u v w h h' c => (h c).trans (h' c)) (fun _ => True) p (fun v w _ _ h => hp v w h) _ _ _ (Nat.le_refl _) (by simp) (by simp) ?_
    intro v
    have := h.2 v.prefs
    unfold weight at this
    unfold holders
    exact this
  refine ⟨fun u => key _ (fun v w hvw => ?_), fun u => key _ (fun v w hvw => ?_)⟩
  · rw [decide_eq_decide]
    have : AgreeOn (Dict.keys m.candidates) v w := by
      intro a _ b _
      unfold prefers rankOf
      rw [hvw a, hvw b]
    exact ⟨fun k => this.symm.trans k, fun k => this.trans k⟩
  · rw [decide_eq_decide]
    have := samePrefs_sameOrder hvw
    exact ⟨fun k => this.symm.trans k, fun k => this.trans k⟩

/-- listing the candidates a line leaves out, tied together below all the others, says the same head to head -/
theorem C84_unlisted (C : List Str) (vl : Voteline) (r : Int) (p : Pref) (hp : p.rank = some r)
    (hr : ∀ c x, rankOf vl c = some x → x < r) (hall : ∀ c ∈ Dict.keys vl.prefs, ∃ x, rankOf vl c = some x) :
    AgreeOn C { vl with prefs := vl.prefs ++ (C.filter (fun c => decide (c ∉ Dict.keys vl.prefs))).map (fun c => (c, p)) } vl := by
  have gc : ∀ (k : Str) (v : Pref) (d : Dict Str Pref) (c : Str), Dict.get? ((k, v) :: d) c = if k = c then some v else Dict.get? d c :=
    fun _ _ _ _ => rfl
  have happ : ∀ (d d' : Dict Str Pref) (c : Str), Dict.get? (d ++ d') c = (Dict.get? d c).or (Dict.get? d' c) := by
    intro d d' c
    induction d with
    | nil => rfl
    | cons e d ih =>
      obtain ⟨k, v⟩ := e
      rw [List.cons_append, gc, gc, ih]
      by_cases hk : k = c
      · simp [hk]
      · simp [hk]
  have hmap : ∀ (l : List Str) (c : Str), Dict.get? (l.map (fun c => (c, p)) : Dict Str Pref) c = if c ∈ l then some p else none := by
    intro l c
    induction l with
    | nil => rfl
    | cons k l ih =>
      rw [List.map_cons, gc, ih]
      by_cases hk : k = c
      · simp [hk]
      · have hk' : ¬ c = k := fun h => hk h.symm
        simp [hk, hk']
  have new : ∀ c ∈ C, rankOf { vl with prefs := vl.prefs ++ (C.filter (fun c => decide (c ∉ Dict.keys vl.prefs))).map (fun c => (c, p)) } c =
      some ((rankOf vl c).getD r) := by
    intro c hc
    show ((Dict.get? (vl.prefs ++ (C.filter (fun c => decide (c ∉ Dict.keys vl.prefs))).map (fun c => (c, p))) c).bind Pref.rank) = _
    rw [happ, hmap]
    by_cases hk : c ∈ Dict.keys vl.prefs
    · obtain ⟨x, hx⟩ := hall c hk
      rw [hx]
      unfold rankOf at hx
      cases hg : Dict.get? vl.prefs c with
      | none => rw [hg] at hx; cases hx
      | some q => rw [hg] at hx; exact hx
    · have hg : Dict.get? vl.prefs c = none := Dict.get?_eq_none.2 hk
      unfold rankOf
      rw [hg, Option.none_or, if_pos (List.mem_filter.2 ⟨hc, by simpa using hk⟩)]
      simpa using hp
  intro a ha b hb
  unfold prefers
  rw [new a ha, new b hb]
  cases hra : rankOf vl a <;> cases hrb : rankOf vl b <;> simp
  · exact Int.le_of_lt (hr _ _ hrb)
  · exact hr _ _ hra

/-- consolidating (`-c`) changes neither the pairwise matrix nor, on ballots without equal rankings, the runoff -/
theorem C84_consolidate (S : Sched) (m : Jabmod) (hc : Countable m) (hb : RanksBelowInfinity m) :
    pairwiseCount (consolidate m) = pairwiseCount m ∧ (Strict m.votelines → irvDict S (consolidate m) = irvDict S m) := by
  have hwf : PrefsWF m := hc.dicts
  have hse : SameElection m (consolidate m) := by
    refine ⟨rfl, fun p => ?_⟩
    classical
    have := C39_totals m hwf (fun q => decide (SamePrefs q p)) (fun q q' hq => by
      rw [decide_eq_decide]
      exact ⟨fun k c => (hq c).symm.trans (k c), fun k c => (hq c).trans (k c)⟩)
    exact this.symm
  have hfrom : ∀ vl ∈ (consolidate m).votelines, ∃ vl' ∈ m.votelines, vl.prefs = vl'.prefs := by
    intro vl hvl
    have := (C39_distinct m hwf).2.1.subset (List.mem_map.2 ⟨vl, hvl, rfl⟩)
    obtain ⟨vl', h1, h2⟩ := List.mem_map.1 this
    exact ⟨vl', h1, h2.symm⟩
  have hc' : Countable (consolidate m) := by
    refine ⟨hc.cands, fun vl hvl => ?_, fun vl hvl => ?_, fun vl hvl => ?_⟩ <;> obtain ⟨vl', h1, h2⟩ := hfrom vl hvl <;> rw [h2]
    · exact hc.dicts vl' h1
    · exact hc.known vl' h1
    · exact hc.ranked vl' h1
  have hb' : RanksBelowInfinity (consolidate m) := by
    intro vl hvl c r
    obtain ⟨vl', h1, h2⟩ := hfrom vl hvl
    unfold rankOf
    rw [h2]
    exact hb vl' h1 c r
  have hr : ∀ m : Jabmod, Countable m → RanksBelowInfinity m → Spec.AllRanked m := by
    intro m hc hb vl hvl c p hp
    obtain ⟨r, hr⟩ := hc.ranked vl hvl c p hp
    refine ⟨r, hr, ?_⟩
    have := hb vl hvl c r (by unfold rankOf; rw [hp]; exact hr)
    omega
  have hs := C84_sameElection m (consolidate m) hse
  refine ⟨(C84_pairwise m (consolidate m) rfl (hr m hc hb) (hr _ hc' hb') hs.1).1.symm, fun hst => ?_⟩
  refine C84_irv_ballots S m (consolidate m) rfl hc hc' hb hb' hst ?_ hs.2
  intro vl hvl
  obtain ⟨vl', h1, h2⟩ := hfrom vl hvl
  have := hst vl' h1
  unfold prefers rankOf at this ⊢
  rw [h2]
  exact this

/-- C19, consolidating: merging equal ballots changes neither the pairwise matrix, nor the win-loss-tie table, nor the scores. -/
theorem C19_consolidate [Uni] (m : Jabmod) (hd : ∀ vl ∈ m.votelines, Dict.WF vl.prefs) :
    SameElection m (consolidate m) ∧
    (Spec.AllRanked m → pairwiseCount (consolidate m) = pairwiseCount m ∧ fullCopecount (consolidate m) = fullCopecount m) ∧
    (Scorable m → basicScore (consolidate m) = basicScore m) := by
  have hse : SameElection m (consolidate m) := by
    refine ⟨rfl, fun p => ?_⟩
    classical
    have := C39_totals m hd (fun q => decide (SamePrefs q p)) (fun q q' hq => by
      rw [decide_eq_decide]
      exact ⟨fun k c => (hq c).symm.trans (k c), fun k c => (hq c).trans (k c)⟩)
    exact this.symm
  have hfrom : ∀ vl ∈ (consolidate m).votelines, ∃ vl' ∈ m.votelines, vl.prefs = vl'.prefs := by
    intro vl hvl
    have := (C39_distinct m hd).2.1.subset (List.mem_map.2 ⟨vl, hvl, rfl⟩)
    obtain ⟨vl', h1, h2⟩ := List.mem_map.1 this
    exact ⟨vl', h1, h2.symm⟩
  refine ⟨hse, fun hr => ?_, fun hs => ?_⟩
  · have hr' : Spec.AllRanked (consolidate m) := by
      intro vl hvl
      obtain ⟨vl', h1, h2⟩ := hfrom vl hvl
      rw [h2]
      exact hr vl' h1
    have := C19_pairwise m (consolidate m) hse hr hr'
    exact ⟨this.1.symm, this.2.symm⟩
  · have hs' : Scorable (consolidate m) := by
      refine ⟨hs.cands, fun vl hvl => ?_, fun vl hvl => ?_, fun vl hvl => ?_⟩ <;> obtain ⟨vl', h1, h2⟩ := hfrom vl hvl <;> rw [h2]
      · exact hs.dicts vl' h1
      · exact hs.known vl' h1
      · exact hs.ratings vl' h1
    exact (C19_scores m (consolidate m) hse hs hs').symm

/-! ### examples -/

section
attribute [local instance] Uni.ascii
set_option maxRecDepth 20000

/-- the lines of a text, for the examples -/
def linesOf (t : Str) : List Voteline := ((convertAbif true false false t).toOption.map Jabmod.votelines).getD []

/-- two ways to write the same opinions: `3:A>B` / `3:A>B>C`, `2:C` / `2:C>A=B`, ranks by commas and by ratings -/
example : List.Forall₂ (fun v w => v.qty = w.qty ∧ AgreeOn [c!"A", c!"B", c!"C"] v w)
    (linesOf c!"3:A>B\n2:C\n") (linesOf c!"3:A/5,B/3,C/1\n2:C>A=B\n") := by
  have h : (linesOf c!"3:A>B\n2:C\n").length = (linesOf c!"3:A/5,B/3,C/1\n2:C>A=B\n").length ∧
      ∀ x ∈ (linesOf c!"3:A>B\n2:C\n").zip (linesOf c!"3:A/5,B/3,C/1\n2:C>A=B\n"),
        x.1.qty = x.2.qty ∧ ∀ a ∈ [c!"A", c!"B", c!"C"], ∀ b ∈ [c!"A", c!"B", c!"C"], prefers x.1 a b = prefers x.2 a b := by decide +kernel
  exact List.forall₂_iff_zip.2 ⟨h.1, fun {a b} hab => h.2 (a, b) hab⟩

/-- and of the same ballot: entries in another sequence, other rank numbers -/
example : SameOrder { qty := 1, prefs := [(c!"A", { rank := some 1 }), (c!"B", { rank := some 2 })] }
    { qty := 4, prefs := [(c!"B", { rank := some 9, rating := some (.int 3) }), (c!"A", { rank := some 2 })] } := by
  refine ⟨fun c => ?_, ?_⟩
  · show c ∈ [c!"A", c!"B"] ↔ c ∈ [c!"B", c!"A"]
    simp only [List.mem_cons, List.not_mem_nil, or_false]
    exact Or.comm
  · unfold AgreeOn; decide +kernel

/-- the count on the model of C28-C38 is unchanged by consolidation -/
example (S : Sched) : irvDict S (consolidate irvModel) = irvDict S irvModel :=
  (C84_consolidate S irvModel (parsed_countable _ _ _ _ _ irvModel_parsed) (parsed_below _ _ _ _ _ irvModel_parsed (by decide +kernel))).2 (by unfold Strict; decide +kernel)

end

end Verif.Props
