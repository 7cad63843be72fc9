/-
Properties of the pairwise, Copeland, score and STAR tallies (C17-C27).
Vocabulary: `Verif.Spec.Tally`, `Verif.Spec.Score`.
-/
import Verif.Lib.Wlt
import Verif.Lib.Score

set_option linter.unusedSectionVars false
set_option linter.unusedSimpArgs false

namespace Verif.Props
open Spec

/-! ## C17 -/

/-- C17.  Rows and columns are the candidates in table order, the diagonal is `None`, and the cell
`[a][b]` is the number of voters preferring `a` to `b`. -/
theorem C17_pairwise (m : Jabmod) (h : AllRanked m) :
    (pairwiseCount m).keys = m.candidates.keys ∧
    ∀ a ∈ m.candidates.keys, ∃ row, (pairwiseCount m).get? a = some row ∧ row.keys = m.candidates.keys ∧
      row.get? a = some none ∧
      ∀ b ∈ m.candidates.keys, b ≠ a → row.get? b = some (some (support m a b)) := by
  rw [pairwiseCount_eq]
  generalize m.candidates.keys = toks
  constructor
  · simp [matrixOf, Dict.keys, List.map_map, Function.comp_def]
  · intro a ha
    refine ⟨_, by unfold matrixOf; rw [Dict.get?_mapKeys toks (fun a => toks.map fun b => (b, cellFold m.votelines a b (if a = b then none else some 0))), if_pos ha], ?_, ?_, ?_⟩
    · simp [Dict.keys, List.map_map, Function.comp_def]
    · rw [Dict.get?_mapKeys toks (fun b => cellFold m.votelines a b (if a = b then none else some 0)), if_pos ha, if_pos rfl, cellFold_diag]
    · intro b hb hab
      rw [Dict.get?_mapKeys toks (fun b => cellFold m.votelines a b (if a = b then none else some 0)), if_pos hb, if_neg (Ne.symm hab), cellFold_eq (fun vl hvl => h vl hvl) (Ne.symm hab)]
      simp [support]

/-- Outside the scope of C17: an entry without a rank (which no .abif text produces, but other input
formats do) resets the cells of its candidate to zero. -/
theorem C17_unranked_resets :
    ∃ m a b, a ∈ m.candidates.keys ∧ b ∈ m.candidates.keys ∧ support m a b = 5 ∧
      (pairwiseCount m).get? a = some [(a, none), (b, some 0)] := by
  refine ⟨{ metadata := [], candidates := [(c!"A", none), (c!"B", none)],
            votelines := [{ qty := 5, prefs := [(c!"A", { rank := some 1 })] },
                          { qty := 2, prefs := [(c!"A", { rating := some (.int 3) })] }] },
    c!"A", c!"B", by decide +kernel, by decide +kernel, by decide +kernel, by decide +kernel⟩

/-! ## C18 -/

/-- C18.  Voters preferring `a`, voters preferring `b` and indifferent voters are all the voters. -/
theorem C18_conservation (m : Jabmod) (h : AllRanked m) (a b : Str) (ha : a ∈ m.candidates.keys)
    (hb : b ∈ m.candidates.keys) (hab : a ≠ b) :
    ∃ x y, pairGet (pairwiseCount m) a b = .ok (some x) ∧ pairGet (pairwiseCount m) b a = .ok (some y) ∧
      x + y + qtySum (fun vl => indifferent vl a b) m.votelines = (m.votelines.map Voteline.qty).sum := by
  rw [pairwiseCount_eq]
  refine ⟨_, _, by rw [pairGet_matrixOf ha hb, if_neg hab, cellFold_eq (fun vl hvl => h vl hvl) hab],
    by rw [pairGet_matrixOf hb ha, if_neg (Ne.symm hab), cellFold_eq (fun vl hvl => h vl hvl) (Ne.symm hab)], ?_⟩
  induction m.votelines with
  | nil => rfl
  | cons vl vls ih =>
    simp only [qtySum_cons, List.map_cons, List.sum_cons]
    have excl : prefers vl a b = true → prefers vl b a = false := by
      unfold prefers
      cases rankOf vl a <;> cases rankOf vl b <;> simp
      omega
    unfold indifferent at *
    cases h1 : prefers vl a b <;> cases h2 : prefers vl b a <;> simp [h1, h2] at * <;> omega

/-! ## C19 -/

/-- C19.  Models that describe the same election up to order and grouping of votelines have the same
pairwise matrix and the same win-loss-tie table. -/
theorem C19_pairwise (m m' : Jabmod) (h : SameElection m m') (hr : AllRanked m) (hr' : AllRanked m') :
    pairwiseCount m = pairwiseCount m' ∧ fullCopecount m = fullCopecount m' := by
  have hp : pairwiseCount m = pairwiseCount m' := by
    rw [pairwiseCount_eq, pairwiseCount_eq, h.1]
    unfold matrixOf
    apply List.map_congr_left
    intro a _
    congr 1
    apply List.map_congr_left
    intro b _
    congr 1
    show cellFold m.votelines a b (if a = b then none else some 0) = cellFold m'.votelines a b (if a = b then none else some 0)
    by_cases hab : a = b
    · subst hab; rw [if_pos rfl, cellFold_diag, cellFold_diag]
    · rw [if_neg hab, cellFold_eq (fun vl hvl => hr vl hvl) hab, cellFold_eq (fun vl hvl => hr' vl hvl) hab]
      have := support_congr h a b
      unfold support at this
      rw [this]
  refine ⟨hp, ?_⟩
  unfold fullCopecount
  rw [hp, h.1]

/-- C19 for scores. -/
theorem C19_scores [Uni] (m m' : Jabmod) (h : SameElection m m') (hs : Scorable m) (hs' : Scorable m') :
    basicScore m = basicScore m' := by
  rw [basicScore_ok hs, basicScore_ok hs', h.1]
  congr 1
  apply List.map_congr_left
  intro kv _
  have e1 : scoreOf m kv.1 = scoreOf m' kv.1 := by
    have conv : ∀ m : Jabmod, scoreOf m kv.1 = wSum (fun p => dictRating p kv.1) m.votelines := by
      intro m
      unfold scoreOf wSum
      congr 1
      apply List.map_congr_left
      intro vl _
      rw [ratingOf_eq, Int.mul_comm]
    rw [conv, conv]
    apply wSum_congr _ (fun _ => True) _ (by simp) (by simp) h.2
    intro p q _ _ hpq
    unfold dictRating
    rw [hpq]
  have e2 : ratersOf m kv.1 = ratersOf m' kv.1 := by
    unfold ratersOf
    simp only [ratingOf_eq]
    rw [qtySum_eq_wSum (fun p => decide (0 < dictRating p kv.1)), qtySum_eq_wSum (fun p => decide (0 < dictRating p kv.1))]
    apply wSum_congr _ (fun _ => True) _ (by simp) (by simp) h.2
    intro p q _ _ hpq
    have : dictRating p kv.1 = dictRating q kv.1 := by unfold dictRating; rw [hpq]
    simp only [this]
  rw [e1, e2]

/-- Reordering votelines keeps the election. -/
theorem C19_perm (m : Jabmod) (vls : List Voteline) (h : vls.Perm m.votelines) :
    SameElection m { m with votelines := vls } := by
  refine ⟨rfl, fun p => ?_⟩
  unfold weight qtySum
  exact perm_sum ((h.symm.filter _).map _)

/-- Splitting a voteline into two with the same preferences (as maps) keeps the election; so does, read
backwards, merging them. -/
theorem C19_split (m : Jabmod) (pre post : List Voteline) (vl v1 v2 : Voteline)
    (h : m.votelines = pre ++ vl :: post) (h1 : SamePrefs v1.prefs vl.prefs) (h2 : SamePrefs v2.prefs vl.prefs)
    (hq : v1.qty + v2.qty = vl.qty) : SameElection m { m with votelines := pre ++ v1 :: v2 :: post } := by
  refine ⟨rfl, fun p => ?_⟩
  unfold weight
  simp only [h]
  rw [qtySum_append, qtySum_append, qtySum_cons, qtySum_cons, qtySum_cons]
  have e1 : SamePrefs v1.prefs p ↔ SamePrefs vl.prefs p := ⟨fun h => SamePrefs.trans (SamePrefs.symm h1) h, fun h => SamePrefs.trans h1 h⟩
  have e2 : SamePrefs v2.prefs p ↔ SamePrefs vl.prefs p := ⟨fun h => SamePrefs.trans (SamePrefs.symm h2) h, fun h => SamePrefs.trans h2 h⟩
  by_cases hp : SamePrefs vl.prefs p
  · rw [if_pos (by simpa using hp), if_pos (by simpa using e1.2 hp), if_pos (by simpa using e2.2 hp)]; omega
  · rw [if_neg (by simpa using hp), if_neg (by simpa using fun h => hp (e1.1 h)), if_neg (by simpa using fun h => hp (e2.1 h))]; omega

/-! ## C20 -/

/-- C20.  Renaming candidates injectively renames rows and columns and changes no number. -/
theorem C20_neutral (m : Jabmod) (f : Str → Str) (hf : ∀ a b, f a = f b → a = b) :
    pairwiseCount (renameModel f m) =
      (pairwiseCount m).map (fun row => (f row.1, row.2.map (fun cell => (f cell.1, cell.2)))) := by
  rw [pairwiseCount_eq, pairwiseCount_eq]
  have hk : (renameModel f m).candidates.keys = m.candidates.keys.map f := by
    simp [renameModel, Dict.keys, List.map_map, Function.comp_def]
  rw [hk]
  have hget : ∀ (d : Dict Str Pref) (k : Str), Dict.get? (d.map (fun kv => (f kv.1, kv.2))) (f k) = d.get? k := by
    intro d k
    induction d with
    | nil => rfl
    | cons e d ih =>
      simp only [List.map_cons, Dict.get?]
      by_cases he : e.1 = k
      · rw [if_pos (congrArg f he), if_pos he]
      · rw [if_neg (fun h => he (hf _ _ h)), if_neg he]; exact ih
  have hcell : ∀ (a b : Str) (o : Option Int),
      cellFold (renameModel f m).votelines (f a) (f b) o = cellFold m.votelines a b o := by
    intro a b o
    unfold cellFold renameModel
    simp only [List.foldl_map]
    congr 1
    funext o vl
    unfold pairCell lineRank
    simp only [hget]
    by_cases hab : a = b
    · rw [if_pos hab, if_pos (congrArg f hab)]
    · rw [if_neg hab, if_neg (fun h => hab (hf _ _ h))]
  simp only [matrixOf, List.map_map, Function.comp_def]
  apply List.map_congr_left
  intro a _
  congr 1
  apply List.map_congr_left
  intro b _
  congr 1
  rw [hcell]
  by_cases hab : a = b
  · rw [if_pos hab, if_pos (congrArg f hab)]
  · rw [if_neg hab, if_neg (fun h => hab (hf _ _ h))]

/-! ## C21 -/

/-- The number of votes for `a` against `b` in a matrix. -/
def cellNum (d : PairDict) (a b : Str) : Int :=
  match pairGet d a b with
  | .ok (some x) => x
  | _ => 0

/-- the matrix of any model has numbers off the diagonal -/
theorem numbers_pairwise (m : Jabmod) : Numbers m.candidates.keys (pairwiseCount m) (cellNum (pairwiseCount m)) := by
  intro a ha b hb
  have hg : pairGet (pairwiseCount m) a b = .ok (cellFold m.votelines a b (if a = b then none else some 0)) := by
    rw [pairwiseCount_eq]; exact pairGet_matrixOf ha hb
  refine ⟨⟨_, hg⟩, ?_⟩
  intro hab
  unfold cellNum
  rw [hg, if_neg hab]
  obtain ⟨y, hy⟩ := cellFold_some m.votelines hab 0
  rw [hy]

theorem fullCopecount_eq (m : Jabmod) (hn : m.candidates.keys.Nodup) :
    fullCopecount m = .ok {
      winningvotes := pairwiseCount m
      winlosstie := sortByKeyDesc (fun kv : Str × WLT => kv.2.wins)
        (m.candidates.keys.map (fun c => (c, wltOf m.candidates.keys (cellNum (pairwiseCount m)) c))) } := by
  unfold fullCopecount
  simp only
  rw [winLossTie_ok hn (numbers_pairwise m)]
  rfl

theorem countOpp_trichotomy {toks : List Str} (hn : toks.Nodup) {c : Str} (hc : c ∈ toks) (v : Str → Str → Int) :
    countOpp toks c (fun b => decide (v c b > v b c)) + countOpp toks c (fun b => decide (v b c > v c b)) +
      countOpp toks c (fun b => decide (v c b = v b c)) = toks.length - 1 := by
  have all : ∀ l : List Str, ((l.filter (fun b => decide (b ≠ c) && decide (v c b > v b c))).length : Int) +
      ((l.filter (fun b => decide (b ≠ c) && decide (v b c > v c b))).length : Int) +
      ((l.filter (fun b => decide (b ≠ c) && decide (v c b = v b c))).length : Int) =
      ((l.filter (fun b => decide (b ≠ c))).length : Int) := by
    intro l
    induction l with
    | nil => rfl
    | cons b l ih =>
      simp only [List.filter_cons]
      by_cases hb : b = c
      · subst hb; simpa using ih
      · rcases Int.lt_trichotomy (v c b) (v b c) with h | h | h
        · have h1 : ¬ v c b > v b c := by omega
          have h2 : ¬ v c b = v b c := by omega
          simp [hb, h, h1, h2] at ih ⊢; omega
        · simp [hb, h] at ih ⊢; omega
        · have h1 : ¬ v b c > v c b := by omega
          have h2 : ¬ v c b = v b c := by omega
          simp [hb, h, h1, h2] at ih ⊢; omega
  unfold countOpp
  rw [all]
  have : ∀ l : List Str, l.Nodup → c ∈ l → ((l.filter (fun b => decide (b ≠ c))).length : Int) = l.length - 1 := by
    intro l
    induction l with
    | nil => intro _ h; simp at h
    | cons b l ih =>
      intro hn hc
      rw [List.nodup_cons] at hn
      rw [List.filter_cons]
      by_cases hb : b = c
      · subst hb
        have : l.filter (fun x => decide (x ≠ b)) = l := by
          rw [List.filter_eq_self]
          intro x hx
          have : x ≠ b := by rintro rfl; exact hn.1 hx
          simpa using this
        rw [this]; simp
      · have := ih hn.2 ((List.mem_cons.1 hc).resolve_left (fun e => hb e.symm))
        simp [hb] at this ⊢; omega
  exact this toks hn hc

/-- C21, partial.  In the table of any model (with distinct candidates) wins and losses are the numbers of
opponents strictly beaten and strictly beating; all wins together equal all losses together; rows are the
candidates, sorted by wins.  MISSING from C21: `ties` is *twice* the number of tied opponents, so it is
`2*wins + 2*losses + ties` that equals twice the number of opponents (see `C21_refuted`). -/
theorem C21_partial (m : Jabmod) (hn : m.candidates.keys.Nodup) :
    ∃ cc, fullCopecount m = .ok cc ∧ cc.winningvotes = pairwiseCount m ∧
      cc.winlosstie.keys.Perm m.candidates.keys ∧
      cc.winlosstie.Pairwise (fun x y => y.2.wins ≤ x.2.wins) ∧
      (∀ c ∈ m.candidates.keys, ∃ w, cc.winlosstie.get? c = some w ∧
        w.wins = countOpp m.candidates.keys c (fun b => decide (cellNum cc.winningvotes c b > cellNum cc.winningvotes b c)) ∧
        w.losses = countOpp m.candidates.keys c (fun b => decide (cellNum cc.winningvotes b c > cellNum cc.winningvotes c b)) ∧
        w.ties = 2 * countOpp m.candidates.keys c (fun b => decide (cellNum cc.winningvotes c b = cellNum cc.winningvotes b c)) ∧
        2 * w.wins + 2 * w.losses + w.ties = 2 * (m.candidates.keys.length - 1)) ∧
      (cc.winlosstie.map (fun kv => kv.2.wins)).sum = (cc.winlosstie.map (fun kv => kv.2.losses)).sum := by
  refine ⟨_, fullCopecount_eq m hn, rfl, ?_, sortByKeyDesc_sorted _ _, ?_, ?_⟩
  · have := (sortByKeyDesc_perm (fun kv : Str × WLT => kv.2.wins)
      (m.candidates.keys.map (fun c => (c, wltOf m.candidates.keys (cellNum (pairwiseCount m)) c)))).map Prod.fst
    simpa [Dict.keys, List.map_map, Function.comp_def] using this
  · intro c hc
    refine ⟨wltOf m.candidates.keys (cellNum (pairwiseCount m)) c, ?_, rfl, rfl, rfl, ?_⟩
    · simp only
      rw [← Dict.get?_perm (sortByKeyDesc_perm _ _).symm, Dict.get?_mapKeys m.candidates.keys
        (fun c => wltOf m.candidates.keys (cellNum (pairwiseCount m)) c), if_pos hc]
      unfold Dict.WF
      simpa [Dict.keys, List.map_map, Function.comp_def] using hn
    · have := countOpp_trichotomy hn hc (cellNum (pairwiseCount m))
      simp only [wltOf]
      omega
  · simp only
    have p1 := perm_sum ((sortByKeyDesc_perm (fun kv : Str × WLT => kv.2.wins)
      (m.candidates.keys.map (fun c => (c, wltOf m.candidates.keys (cellNum (pairwiseCount m)) c)))).map (fun kv => kv.2.wins))
    have p2 := perm_sum ((sortByKeyDesc_perm (fun kv : Str × WLT => kv.2.wins)
      (m.candidates.keys.map (fun c => (c, wltOf m.candidates.keys (cellNum (pairwiseCount m)) c)))).map (fun kv => kv.2.losses))
    rw [p1, p2]
    simp only [List.map_map, Function.comp_def, wltOf]
    have e : ∀ (R : Str → Str → Prop) [∀ a b, Decidable (R a b)],
        (m.candidates.keys.map (fun c => countOpp m.candidates.keys c (fun b => decide (R c b)))).sum =
        isum (fun c => isum (fun b => ind (b ≠ c ∧ R c b)) m.candidates.keys) m.candidates.keys := by
      intro R _
      unfold isum
      congr 1
      apply List.map_congr_left
      intro c _
      unfold countOpp
      rw [← isum_ind]
      apply isum_congr
      intro b _
      unfold ind
      by_cases h1 : b = c <;> simp [h1]
    rw [e (fun c b => cellNum (pairwiseCount m) c b > cellNum (pairwiseCount m) b c),
      e (fun c b => cellNum (pairwiseCount m) b c > cellNum (pairwiseCount m) c b), isum_swap]
    apply isum_congr
    intro b _
    apply isum_congr
    intro c _
    unfold ind
    by_cases h1 : b = c
    · subst h1; simp
    · have : ¬ c = b := fun h => h1 h.symm
      simp [h1, this]

section
attribute [local instance] Uni.ascii
set_option maxRecDepth 10000

/-- C21 is false of the code as stated: two candidates tied one vote each have records adding up to 2,
although each has a single opponent. -/
theorem C21_refuted : ∃ text m cc w, convertAbif true false false text = .ok m ∧ fullCopecount m = .ok cc ∧
    cc.winlosstie.get? c!"A" = some w ∧ w.wins + w.losses + w.ties ≠ (m.candidates.length : Int) - 1 := by
  refine ⟨c!"1:A>B\n1:B>A\n", _, _, { wins := 0, losses := 0, ties := 2 }, rfl, rfl, by decide +kernel, by decide +kernel⟩

end

/-! ## C22 -/

/-- C22, partial.  The Copeland score (doubled, as the model keeps it) of every candidate is twice its
wins plus twice its tied opponents; every candidate is scored exactly once; scores are sorted.
MISSING from C22: a tie counts as a whole win, not half of one (see `C22_refuted`). -/
theorem C22_partial (m : Jabmod) (hn : m.candidates.keys.Nodup) :
    ∃ cc, fullCopecount m = .ok cc ∧
      ((copelandScores2 cc.winlosstie).map Prod.fst).Perm m.candidates.keys ∧
      (copelandScores2 cc.winlosstie).Pairwise (fun x y => y.2 ≤ x.2) ∧
      ∀ c s, (c, s) ∈ copelandScores2 cc.winlosstie →
        s = 2 * countOpp m.candidates.keys c (fun b => decide (cellNum cc.winningvotes c b > cellNum cc.winningvotes b c)) +
            2 * countOpp m.candidates.keys c (fun b => decide (cellNum cc.winningvotes c b = cellNum cc.winningvotes b c)) := by
  refine ⟨_, fullCopecount_eq m hn, ?_, sortByKeyDesc_sorted _ _, ?_⟩
  · unfold copelandScores2
    simp only
    refine ((sortByKeyDesc_perm _ _).map Prod.fst).trans ?_
    rw [List.map_map]
    refine ((sortByKeyDesc_perm _ _).map _).trans ?_
    simp [List.map_map, Function.comp_def]
  · intro c s hcs
    unfold copelandScores2 at hcs
    rw [(sortByKeyDesc_perm _ _).mem_iff, List.mem_map] at hcs
    obtain ⟨⟨k, w⟩, hkw, he⟩ := hcs
    simp only at hkw
    rw [(sortByKeyDesc_perm _ _).mem_iff, List.mem_map] at hkw
    obtain ⟨c', _, hc'⟩ := hkw
    cases hc'
    cases he
    rfl

section
attribute [local instance] Uni.ascii
set_option maxRecDepth 10000

/-- C22 is false of the code: two tied candidates each have a Copeland score of 1 instead of 1/2. -/
theorem C22_refuted : ∃ text m cc, convertAbif true false false text = .ok m ∧ fullCopecount m = .ok cc ∧
    copelandScores2 cc.winlosstie = [(c!"A", 2 * 1), (c!"B", 2 * 1)] := by
  refine ⟨c!"1:A>B\n1:B>A\n", _, _, rfl, rfl, by decide +kernel⟩

end

/-! ## C23 -/

theorem listMax_ge {l : List Int} {x : Int} (h : listMax l = some x) : x ∈ l ∧ ∀ y ∈ l, y ≤ x := by
  cases l with
  | nil => cases h
  | cons a l =>
    simp only [listMax, Option.some.injEq] at h
    subst h
    induction l generalizing a with
    | nil => simp
    | cons b l ih =>
      rw [List.foldl_cons]
      obtain ⟨h1, h2⟩ := ih (max a b)
      constructor
      · rcases List.mem_cons.1 h1 with h | h
        · rw [h]
          rcases Int.le_total a b with hab | hab
          · rw [Int.max_eq_right hab]; simp
          · rw [Int.max_eq_left hab]; simp
        · simp [h]
      · intro y hy
        have hm := h2 (max a b) (by simp)
        rcases List.mem_cons.1 hy with rfl | hy
        · exact Int.le_trans (Int.le_max_left _ _) hm
        · rcases List.mem_cons.1 hy with rfl | hy
          · exact Int.le_trans (Int.le_max_right _ _) hm
          · exact h2 y (by simp [hy])

/-- C23.  The Copeland winners are exactly the candidates whose score is at least everybody's; there is
one when there is a candidate; the reported winner is among them; and a candidate preferred to every other
one by more voters than the reverse is the only winner. -/
theorem C23_copeland (m : Jabmod) (hn : m.candidates.keys.Nodup) (hne : m.candidates.keys ≠ []) :
    ∃ cc ws rep, fullCopecount m = .ok cc ∧ copelandWinners cc.winlosstie = .ok ws ∧
      copelandReportWinner cc.winlosstie = .ok rep ∧
      ws ≠ [] ∧ ws.Nodup ∧ rep ∈ ws ∧
      (∀ c, c ∈ ws ↔ ∃ s, (c, s) ∈ copelandScores2 cc.winlosstie ∧ ∀ e ∈ copelandScores2 cc.winlosstie, e.2 ≤ s) ∧
      (∀ a ∈ m.candidates.keys,
        (∀ b ∈ m.candidates.keys, b ≠ a → cellNum cc.winningvotes a b > cellNum cc.winningvotes b a) → ws = [a]) := by
  obtain ⟨cc, hcc, hperm, hsort, hscore⟩ := C22_partial m hn
  have hlen : (copelandScores2 cc.winlosstie) ≠ [] := by
    intro h
    rw [h] at hperm
    simp at hperm
    exact hne (hperm)
  have hndp : ((copelandScores2 cc.winlosstie).map Prod.fst).Nodup := hperm.nodup_iff.2 hn
  obtain ⟨e0, rest, hsc⟩ := List.exists_cons_of_ne_nil hlen
  obtain ⟨top, htop⟩ : ∃ top, listMax ((copelandScores2 cc.winlosstie).map Prod.snd) = some top := by
    rw [hsc]; exact ⟨_, rfl⟩
  obtain ⟨hin, hge⟩ := listMax_ge htop
  have hge' : ∀ e ∈ copelandScores2 cc.winlosstie, e.2 ≤ top := fun e he => hge _ (List.mem_map_of_mem he)
  have hmax : ∀ s, (∀ e ∈ copelandScores2 cc.winlosstie, e.2 ≤ s) → (∃ e ∈ copelandScores2 cc.winlosstie, e.2 = s) → s = top := by
    intro s h1 ⟨e, he, h2⟩
    obtain ⟨e', he', h3⟩ := List.mem_map.1 hin
    have := h1 e' he'
    have := hge' e he
    omega
  let ws := ((copelandScores2 cc.winlosstie).filter (fun s => decide (s.2 = top))).map Prod.fst
  have hws : ∀ c, c ∈ ws ↔ ∃ s, (c, s) ∈ copelandScores2 cc.winlosstie ∧ ∀ e ∈ copelandScores2 cc.winlosstie, e.2 ≤ s := by
    intro c
    simp only [ws, List.mem_map, List.mem_filter, decide_eq_true_eq]
    constructor
    · rintro ⟨⟨k, s⟩, ⟨h1, h2⟩, rfl⟩
      exact ⟨s, h1, fun e he => by simp only at h2; rw [h2]; exact hge' e he⟩
    · rintro ⟨s, h1, h2⟩
      exact ⟨(c, s), ⟨h1, hmax s h2 ⟨_, h1, rfl⟩⟩, rfl⟩
  have hwn : ws.Nodup := (List.filter_sublist.map Prod.fst).nodup hndp
  have he0 : e0.1 ∈ ws := by
    rw [hws]
    refine ⟨e0.2, by rw [hsc]; simp, ?_⟩
    intro e he
    rw [hsc] at he hsort
    rw [List.pairwise_cons] at hsort
    rcases List.mem_cons.1 he with rfl | he
    · exact Int.le_refl _
    · exact hsort.1 e he
  refine ⟨cc, ws, e0.1, hcc, ?_, ?_, ?_, hwn, he0, hws, ?_⟩
  · unfold copelandWinners
    simp only
    rw [htop]
  · unfold copelandReportWinner
    rw [hsc]
  · intro h; rw [h] at he0; simp at he0
  · intro a ha hbeats
    -- the score of `a` is full; any other candidate loses to `a`
    have memScore : ∀ c ∈ m.candidates.keys, ∃ s, (c, s) ∈ copelandScores2 cc.winlosstie := by
      intro c hc
      have : c ∈ (copelandScores2 cc.winlosstie).map Prod.fst := hperm.mem_iff.2 hc
      obtain ⟨⟨k, s⟩, h1, rfl⟩ := List.mem_map.1 this
      exact ⟨s, h1⟩
    have hmemc : ∀ c s, (c, s) ∈ copelandScores2 cc.winlosstie → c ∈ m.candidates.keys := by
      intro c s h
      exact hperm.mem_iff.1 (List.mem_map_of_mem h)
    obtain ⟨sa, hsa⟩ := memScore a ha
    have ea := hscore a sa hsa
    have full := countOpp_trichotomy hn ha (cellNum cc.winningvotes)
    have la : countOpp m.candidates.keys a (fun b => decide (cellNum cc.winningvotes b a > cellNum cc.winningvotes a b)) = 0 := by
      unfold countOpp
      have : m.candidates.keys.filter (fun b => decide (b ≠ a) && decide (cellNum cc.winningvotes b a > cellNum cc.winningvotes a b)) = [] := by
        rw [List.filter_eq_nil_iff]
        intro b hb h
        simp only [Bool.and_eq_true, decide_eq_true_eq] at h
        have := hbeats b hb h.1
        omega
      rw [this]; rfl
    have hless : ∀ c s, (c, s) ∈ copelandScores2 cc.winlosstie → c ≠ a → s < sa := by
      intro c s hcs hca
      have hcm := hmemc c s hcs
      have ec := hscore c s hcs
      have fc := countOpp_trichotomy hn hcm (cellNum cc.winningvotes)
      have lc : 1 ≤ countOpp m.candidates.keys c (fun b => decide (cellNum cc.winningvotes b c > cellNum cc.winningvotes c b)) := by
        unfold countOpp
        have : a ∈ m.candidates.keys.filter (fun b => decide (b ≠ c) && decide (cellNum cc.winningvotes b c > cellNum cc.winningvotes c b)) := by
          rw [List.mem_filter]
          refine ⟨ha, ?_⟩
          simp only [Bool.and_eq_true, decide_eq_true_eq]
          exact ⟨Ne.symm hca, hbeats c hcm hca⟩
        have := List.length_pos_of_mem this
        exact Int.ofNat_le.2 this
      omega
    have hall : ∀ c ∈ ws, c = a := by
      intro c hc
      obtain ⟨s, h1, h2⟩ := (hws c).1 hc
      by_cases h : c = a
      · exact h
      · have := hless c s h1 h
        have := h2 (a, sa) hsa
        simp only at this
        omega
    have haw : a ∈ ws := by
      rw [hws]
      refine ⟨sa, hsa, ?_⟩
      rintro ⟨c, s⟩ he
      by_cases h : c = a
      · subst h
        have := hscore c s he
        simp only; omega
      · have := hless c s he h
        simp only; omega
    match hws' : ws, hwn, hall, haw with
    | [], _, _, h => simp at h
    | [x], _, h, _ => rw [h x (by simp)]
    | x :: y :: t, hnd, h, _ =>
      have hx := h x (by simp)
      have hy := h y (by simp)
      rw [List.nodup_cons] at hnd
      exact absurd (by rw [hx, ← hy]; simp) hnd.1

/-- C23, an election without candidates (a text with nothing but blank ballots gives one): the tally is there, asking for the winners is a
ValueError and the report an IndexError. -/
theorem C23_none (m : Jabmod) (hne : m.candidates.keys = []) :
    ∃ cc, fullCopecount m = .ok cc ∧ copelandWinners cc.winlosstie = .error .valueError ∧
      copelandReportWinner cc.winlosstie = .error .indexError := by
  obtain ⟨cc, hcc, hperm, _⟩ := C22_partial m (by rw [hne]; exact List.nodup_nil)
  have h0 : copelandScores2 cc.winlosstie = [] := by
    have := hperm.length_eq
    rw [hne] at this
    simpa using this
  refine ⟨cc, hcc, ?_, ?_⟩
  · unfold copelandWinners
    rw [h0]
    rfl
  · unfold copelandReportWinner
    rw [h0]

example : ∃ m : Jabmod, m.candidates.keys = [] ∧ m.votelines ≠ [] := ⟨{ metadata := [], candidates := [], votelines := [{ qty := 3, prefs := [] }] }, rfl, by simp⟩

/-! ## C24 -/

variable [U : Uni]

/-- C24.  Every candidate of the table, in table order and with its name, gets as score the sum of quantity
times rating and as voter count the number of voters rating it above zero. -/
theorem C24_scores (m : Jabmod) (h : Scorable m) :
    ∃ d, basicScore m = .ok d ∧ d.keys = m.candidates.keys ∧
      ∀ c name, m.candidates.get? c = some name →
        d.get? c = some { candname := name, score := scoreOf m c, votercount := ratersOf m c } := by
  refine ⟨_, basicScore_ok h, by simp [Dict.keys, List.map_map, Function.comp_def], ?_⟩
  intro c name hc
  rw [Dict.get?_map m.candidates (fun k n => ({ candname := n, score := scoreOf m k, votercount := ratersOf m k } : ScoreEntry)), hc]
  rfl

/-! ## C25 -/

theorem enhancedScore_eq (m : Jabmod) (h : Scorable m) (bc : Json) (hbc : m.metadata.get? c!"ballotcount" = some bc) :
    enhancedScore m = .ok
      { scores := m.candidates.map (fun kv => (kv.1, { candname := kv.2, score := scoreOf m kv.1, votercount := ratersOf m kv.1 })),
        ranks := scoreRanks none 0 (sortByKeyDesc (fun (kv : Str × ScoreEntry) => kv.2.score)
          (m.candidates.map (fun kv => (kv.1, { candname := kv.2, score := scoreOf m kv.1, votercount := ratersOf m kv.1 })))),
        ranklist := sortByKeyDesc (scoreOf m) m.candidates.keys,
        totalAllScores := (m.candidates.keys.map (scoreOf m)).sum, totalvoters := bc } := by
  unfold enhancedScore
  rw [basicScore_ok h, ok_bind]
  simp only
  rw [Dict.getE_of_get? hbc, ok_bind]
  congr 2
  · have hmap : m.candidates.keys = (m.candidates.map (fun kv => (kv.1, ({ candname := kv.2, score := scoreOf m kv.1, votercount := ratersOf m kv.1 } : ScoreEntry)))).map Prod.fst := by
      simp [Dict.keys, List.map_map, Function.comp_def]
    rw [hmap]
    unfold sortByKeyDesc
    -- sort pairs by score = sort keys by score: both are images of sorting the table
    have hpm : ∀ l : List (Str × Option Str),
        (pySort (fun a b : Str × ScoreEntry => decide (b.2.score ≤ a.2.score))
          (l.map (fun kv => (kv.1, ({ candname := kv.2, score := scoreOf m kv.1, votercount := ratersOf m kv.1 } : ScoreEntry))))).map Prod.fst =
        pySort (fun a b => decide (scoreOf m b ≤ scoreOf m a)) ((l.map (fun kv => (kv.1, ({ candname := kv.2, score := scoreOf m kv.1, votercount := ratersOf m kv.1 } : ScoreEntry)))).map Prod.fst) := by
      intro l
      rw [pySort_map (fun kv : Str × Option Str => (kv.1, ({ candname := kv.2, score := scoreOf m kv.1, votercount := ratersOf m kv.1 } : ScoreEntry)))
        (fun a b => decide (scoreOf m b.1 ≤ scoreOf m a.1)) _ (fun a b => rfl)]
      rw [List.map_map, List.map_map]
      rw [pySort_map (Prod.fst ∘ fun kv : Str × Option Str => (kv.1, ({ candname := kv.2, score := scoreOf m kv.1, votercount := ratersOf m kv.1 } : ScoreEntry)))
        (fun a b => decide (scoreOf m b.1 ≤ scoreOf m a.1)) _ (fun a b => rfl)]
    exact hpm m.candidates
  · simp [Dict.keys, List.map_map, Function.comp_def]

/-- C25.  `ranklist` is the candidates sorted by score, largest first, ties in table order, and each
candidate's rank number is one plus the number of distinct larger scores. -/
theorem C25_ranking (m : Jabmod) (h : Scorable m) (bc : Json) (hbc : m.metadata.get? c!"ballotcount" = some bc) :
    ∃ r, enhancedScore m = .ok r ∧
      r.ranklist.Perm m.candidates.keys ∧
      r.ranklist.Pairwise (fun a b => scoreOf m b ≤ scoreOf m a) ∧
      (∀ s, r.ranklist.filter (fun c => decide (scoreOf m c = s)) = m.candidates.keys.filter (fun c => decide (scoreOf m c = s))) ∧
      r.ranks = r.ranklist.map (fun c => (c, denseRank (m.candidates.keys.map (scoreOf m)) (scoreOf m c))) ∧
      r.totalAllScores = (m.candidates.keys.map (scoreOf m)).sum ∧ r.totalvoters = bc := by
  refine ⟨_, enhancedScore_eq m h bc hbc, sortByKeyDesc_perm _ _, sortByKeyDesc_sorted _ _,
    fun s => sortByKeyDesc_stable _ _ s, ?_, rfl, rfl⟩
  simp only
  rw [scoreRanks_eq none 0 _ (sortByKeyDesc_sorted _ _) (by intro p hp; cases hp)]
  have hE : ∀ e ∈ sortByKeyDesc (fun (kv : Str × ScoreEntry) => kv.2.score)
      (m.candidates.map (fun kv => (kv.1, ({ candname := kv.2, score := scoreOf m kv.1, votercount := ratersOf m kv.1 } : ScoreEntry)))),
      e.2.score = scoreOf m e.1 := by
    intro e he
    rw [(sortByKeyDesc_perm _ _).mem_iff, List.mem_map] at he
    obtain ⟨kv, _, rfl⟩ := he
    rfl
  have hkeys : (sortByKeyDesc (fun (kv : Str × ScoreEntry) => kv.2.score)
      (m.candidates.map (fun kv => (kv.1, ({ candname := kv.2, score := scoreOf m kv.1, votercount := ratersOf m kv.1 } : ScoreEntry))))).map Prod.fst
      = sortByKeyDesc (scoreOf m) m.candidates.keys := by
    have e1 := congrArg (fun x => match x with | Except.ok (r : ScoreResult) => r.ranklist | Except.error _ => []) (enhancedScore_eq m h bc hbc)
    unfold enhancedScore at e1
    rw [basicScore_ok h, ok_bind] at e1
    simp only at e1
    rw [Dict.getE_of_get? hbc, ok_bind] at e1
    exact e1
  rw [← hkeys, List.map_map]
  apply List.map_congr_left
  intro e he
  simp only [Function.comp_apply, Int.zero_add]
  rw [between_dense]
  · rw [hE e he]
    congr 1
    -- the dense rank does not depend on the order of the scores
    have hperm : ((sortByKeyDesc (fun (kv : Str × ScoreEntry) => kv.2.score)
      (m.candidates.map (fun kv => (kv.1, ({ candname := kv.2, score := scoreOf m kv.1, votercount := ratersOf m kv.1 } : ScoreEntry))))).map (fun e => e.2.score)).Perm
        (m.candidates.keys.map (scoreOf m)) := by
      refine ((sortByKeyDesc_perm _ _).map _).trans ?_
      simp [Dict.keys, List.map_map, Function.comp_def]
    unfold denseRank
    have hfp : ∀ {l l' : List Int}, l.Perm l' → (firsts l).length = (firsts l').length := by
      intro l l' hp
      have : (firsts l).Perm (firsts l') := by
        rw [List.perm_ext_iff_of_nodup (nodup_firsts _) (nodup_firsts _)]
        intro a
        rw [mem_firsts, mem_firsts, hp.mem_iff]
      exact this.length_eq
    rw [hfp (hperm.filter _)]
  · exact List.mem_map_of_mem he

/-! ## C26 -/

/-- C26.  With at least two candidates: the finalists are two different candidates whose scores are at
least everyone else's; their votes are the head-to-head counts; the finalist with more votes is announced,
and a tie exactly when they are equal; the abstentions are the voters preferring neither, and are not
negative when no quantity is. -/
theorem C26_star (m : Jabmod) (h : Scorable m) (hr : AllRanked m)
    (hbc : m.metadata.get? c!"ballotcount" = some (.int (m.votelines.map Voteline.qty).sum))
    (h2 : 2 ≤ m.candidates.length) :
    ∃ r, starResult m = .ok r ∧
      r.fin1 ∈ m.candidates.keys ∧ r.fin2 ∈ m.candidates.keys ∧ r.fin1 ≠ r.fin2 ∧
      m.candidates.get? r.fin1 = some r.fin1n ∧ m.candidates.get? r.fin2 = some r.fin2n ∧
      scoreOf m r.fin2 ≤ scoreOf m r.fin1 ∧
      (∀ c ∈ m.candidates.keys, c ≠ r.fin1 → scoreOf m c ≤ scoreOf m r.fin2) ∧
      r.fin1votes = support m r.fin1 r.fin2 ∧ r.fin2votes = support m r.fin2 r.fin1 ∧
      (r.winner = .won r.fin1n ∧ r.fin2votes < r.fin1votes ∨ r.winner = .won r.fin2n ∧ r.fin1votes < r.fin2votes ∨
        r.winner = .tie r.fin1n r.fin2n ∧ r.fin1votes = r.fin2votes) ∧
      r.finalAbstentions = qtySum (fun vl => indifferent vl r.fin1 r.fin2) m.votelines ∧
      ((∀ vl ∈ m.votelines, 0 ≤ vl.qty) → 0 ≤ r.finalAbstentions) := by
  have hlen : (sortByKeyDesc (scoreOf m) m.candidates.keys).length = m.candidates.length := by
    rw [(sortByKeyDesc_perm _ _).length_eq]; simp [Dict.keys]
  have hperm := sortByKeyDesc_perm (scoreOf m) m.candidates.keys
  have hsorted := sortByKeyDesc_sorted (scoreOf m) m.candidates.keys
  have hnd : (sortByKeyDesc (scoreOf m) m.candidates.keys).Nodup := hperm.nodup_iff.2 h.cands
  obtain ⟨f1, f2, rest, hl⟩ : ∃ f1 f2 rest, sortByKeyDesc (scoreOf m) m.candidates.keys = f1 :: f2 :: rest := by
    match hs : sortByKeyDesc (scoreOf m) m.candidates.keys with
    | [] => rw [hs] at hlen; simp at hlen; omega
    | [x] => rw [hs] at hlen; simp at hlen; omega
    | a :: b :: t => exact ⟨a, b, t, rfl⟩
  have m1 : f1 ∈ m.candidates.keys := hperm.mem_iff.1 (by rw [hl]; simp)
  have m2 : f2 ∈ m.candidates.keys := hperm.mem_iff.1 (by rw [hl]; simp)
  rw [hl] at hnd hsorted
  have hne : f1 ≠ f2 := by
    rintro rfl
    simp at hnd
  obtain ⟨n1, hn1⟩ := Dict.exists_get?_of_mem m1
  obtain ⟨n2, hn2⟩ := Dict.exists_get?_of_mem m2
  have hget : ∀ c n, m.candidates.get? c = some n →
      Dict.getE (m.candidates.map (fun kv => (kv.1, ({ candname := kv.2, score := scoreOf m kv.1, votercount := ratersOf m kv.1 } : ScoreEntry)))) c =
        .ok { candname := n, score := scoreOf m c, votercount := ratersOf m c } := by
    intro c n hc
    apply Dict.getE_of_get?
    rw [Dict.get?_map m.candidates (fun k n => ({ candname := n, score := scoreOf m k, votercount := ratersOf m k } : ScoreEntry)), hc]
    rfl
  have g12 : pairGet (pairwiseCount m) f1 f2 = .ok (some (support m f1 f2)) := by
    rw [pairwiseCount_eq, pairGet_matrixOf m1 m2, if_neg hne, cellFold_eq (fun vl hvl => hr vl hvl) hne]
    simp [support]
  have g21 : pairGet (pairwiseCount m) f2 f1 = .ok (some (support m f2 f1)) := by
    rw [pairwiseCount_eq, pairGet_matrixOf m2 m1, if_neg (Ne.symm hne), cellFold_eq (fun vl hvl => hr vl hvl) (Ne.symm hne)]
    simp [support]
  have habs : (m.votelines.map Voteline.qty).sum - support m f1 f2 - support m f2 f1 =
      qtySum (fun vl => indifferent vl f1 f2) m.votelines := by
    obtain ⟨x, y, hx, hy, hsum⟩ := C18_conservation m hr f1 f2 m1 m2 hne
    rw [g12] at hx
    rw [g21] at hy
    cases hx; cases hy
    omega
  refine ⟨{ base := (match enhancedScore m with | .ok r => r | .error _ => ⟨[], [], [], 0, .null⟩), fin1 := f1, fin2 := f2, fin1n := n1, fin2n := n2, fin1votes := support m f1 f2,
            fin2votes := support m f2 f1,
            finalAbstentions := (m.votelines.map Voteline.qty).sum - support m f1 f2 - support m f2 f1,
            winner := if support m f1 f2 > support m f2 f1 then .won n1
                      else if support m f2 f1 > support m f1 f2 then .won n2 else .tie n1 n2 }, ?_,
    m1, m2, hne, hn1, hn2, ?_, ?_, rfl, rfl, ?_, habs, ?_⟩
  · unfold starResult
    rw [enhancedScore_eq m h _ hbc, ok_bind, fullCopecount_eq m h.cands, ok_bind]
    simp only
    rw [hl]
    simp only
    rw [hget f1 n1 hn1, ok_bind, hget f2 n2 hn2, ok_bind, g12, ok_bind, g21, ok_bind]
  · rw [List.pairwise_cons] at hsorted
    exact hsorted.1 f2 (by simp)
  · intro c hc hcf
    have : c ∈ f1 :: f2 :: rest := by rw [← hl]; exact hperm.mem_iff.2 hc
    rw [List.pairwise_cons, List.pairwise_cons] at hsorted
    rcases List.mem_cons.1 this with rfl | hc
    · exact absurd rfl hcf
    · rcases List.mem_cons.1 hc with rfl | hc
      · exact Int.le_refl _
      · exact hsorted.2.1 c hc
  · simp only
    by_cases ha : support m f1 f2 > support m f2 f1
    · rw [if_pos ha]; exact .inl ⟨rfl, ha⟩
    · rw [if_neg ha]
      by_cases hb : support m f2 f1 > support m f1 f2
      · rw [if_pos hb]; exact .inr (.inl ⟨rfl, hb⟩)
      · rw [if_neg hb]; exact .inr (.inr ⟨rfl, by omega⟩)
  · intro hq
    simp only
    rw [habs]
    unfold qtySum
    have : ∀ l : List Voteline, (∀ v ∈ l, 0 ≤ v.qty) → 0 ≤ (l.map Voteline.qty).sum := by
      intro l
      induction l with
      | nil => intro _; exact Int.le_refl _
      | cons v l ih =>
        intro hl
        have := hl v (by simp)
        have := ih (fun u hu => hl u (by simp [hu]))
        simp only [List.map_cons, List.sum_cons]; omega
    exact this _ (fun v hv => hq v (List.mem_filter.1 hv).1)

/-- C26, error case: with fewer than two candidates there is an `IndexError`. -/
theorem C26_too_few (m : Jabmod) (h : Scorable m) (bc : Json) (hbc : m.metadata.get? c!"ballotcount" = some bc)
    (h2 : m.candidates.length < 2) : starResult m = .error .indexError := by
  have hlen : (sortByKeyDesc (scoreOf m) m.candidates.keys).length = m.candidates.length := by
    rw [(sortByKeyDesc_perm _ _).length_eq]; simp [Dict.keys]
  unfold starResult
  rw [enhancedScore_eq m h _ hbc, ok_bind, fullCopecount_eq m h.cands, ok_bind]
  simp only
  match hs : sortByKeyDesc (scoreOf m) m.candidates.keys with
  | [] => rfl
  | [x] => rfl
  | a :: b :: t => rw [hs] at hlen; simp at hlen; omega

/-! ## C27 (see Props/Scaled) -/

/-- `scaled_scores` in terms of the scores -/
theorem scaledScores_eq (m : Jabmod) (h : Scorable m) (hr : AllRanked m)
    (hbc : m.metadata.get? c!"ballotcount" = some (.int (m.votelines.map Voteline.qty).sum))
    (h2 : 2 ≤ m.candidates.length) (target : Int) :
    scaledScores m target = (do
      let scale ← trueDiv target (m.candidates.keys.map (scoreOf m)).sum
      let canddict ← m.candidates.mapM (fun kv => (do
        let s ← mulFloat (scoreOf m kv.1) scale
        .ok (kv.1, ({ candname := kv.2, scaledScore := s, score := scoreOf m kv.1 } : ScaledEntry)) : Except PyErr (Str × ScaledEntry)))
      let total ← (canddict.map fun kv => kv.2.scaledScore).foldlM addFloat 0
      .ok { maxRating := (Dict.get? m.metadata c!"max_rating").getD .null,
            totalAllScores := (m.candidates.keys.map (scoreOf m)).sum, scaleFactor := scale, canddict := canddict,
            scaledTotal := total }) := by
  obtain ⟨r, hstar, _⟩ := C26_star m h hr hbc h2
  have hbase : r.base = {
        scores := m.candidates.map (fun kv => (kv.1, { candname := kv.2, score := scoreOf m kv.1, votercount := ratersOf m kv.1 })),
        ranks := scoreRanks none 0 (sortByKeyDesc (fun (kv : Str × ScoreEntry) => kv.2.score)
          (m.candidates.map (fun kv => (kv.1, { candname := kv.2, score := scoreOf m kv.1, votercount := ratersOf m kv.1 })))),
        ranklist := sortByKeyDesc (scoreOf m) m.candidates.keys,
        totalAllScores := (m.candidates.keys.map (scoreOf m)).sum, totalvoters := .int (m.votelines.map Voteline.qty).sum } := by
    have hs := hstar
    unfold starResult at hs
    rw [enhancedScore_eq m h _ hbc, ok_bind, fullCopecount_eq m h.cands, ok_bind] at hs
    simp only at hs
    split at hs
    · obtain ⟨_, _, hs⟩ := bind_ok.1 hs
      obtain ⟨_, _, hs⟩ := bind_ok.1 hs
      obtain ⟨_, _, hs⟩ := bind_ok.1 hs
      obtain ⟨_, _, hs⟩ := bind_ok.1 hs
      split at hs
      · cases hs; rfl
      · cases hs
    · cases hs
  have htot : r.base.totalAllScores = (m.candidates.keys.map (scoreOf m)).sum := by rw [hbase]
  unfold scaledScores
  rw [hstar, ok_bind, htot]
  cases trueDiv target (m.candidates.keys.map (scoreOf m)).sum with
  | error e => rw [error_bind, error_bind]
  | ok scale =>
    rw [ok_bind, ok_bind]
    have hm : ∀ l : List (Str × Option Str), (∀ kv ∈ l, kv ∈ m.candidates) → l.mapM (fun kv => (do
        let e ← r.base.scores.getE kv.1
        let s ← mulFloat e.score scale
        .ok (kv.1, ({ candname := kv.2, scaledScore := s, score := e.score } : ScaledEntry)) : Except PyErr (Str × ScaledEntry))) =
        l.mapM (fun kv => (do
        let s ← mulFloat (scoreOf m kv.1) scale
        .ok (kv.1, ({ candname := kv.2, scaledScore := s, score := scoreOf m kv.1 } : ScaledEntry)) : Except PyErr (Str × ScaledEntry))) := by
      intro l
      induction l with
      | nil => intro _; rw [List.mapM_nil, List.mapM_nil]
      | cons kv l ih =>
        intro hl
        have : r.base.scores.getE kv.1 = .ok { candname := kv.2, score := scoreOf m kv.1, votercount := ratersOf m kv.1 } := by
          rw [hbase]
          apply Dict.getE_of_get?
          rw [Dict.get?_map m.candidates (fun k n => ({ candname := n, score := scoreOf m k, votercount := ratersOf m k } : ScoreEntry)),
            Dict.get?_of_mem h.cands (hl kv (by simp))]
          rfl
        rw [List.mapM_cons, List.mapM_cons, ih (fun x hx => hl x (by simp [hx])), this, ok_bind]
    rw [hm m.candidates (fun _ h => h)]

end Verif.Props
