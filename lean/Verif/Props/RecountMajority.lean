/-
C128: the margin for a majority of the first choices cannot be lowered for any election.
-/
import Verif.Props.RecountExact

set_option linter.unusedSimpArgs false
set_option linter.unusedSectionVars false

namespace Verif.Props
open Spec

section
variable [U : Uni]

theorem comesBefore_total : ∀ (l : List Str) {x y : Str}, x ∈ l → y ∈ l → x ≠ y → comesBefore l x y = true ∨ comesBefore l y x = true
  | [], _, _, h, _, _ => (by cases h)
  | a :: l, x, y, hx, hy, hne => by
    by_cases h1 : a = x
    · subst h1
      exact .inl (by simp [comesBefore, hne])
    · by_cases h2 : a = y
      · subst h2
        exact .inr (by simp [comesBefore, h1])
      · have hx' : x ∈ l := (List.mem_cons.1 hx).resolve_left (fun e => h1 e.symm)
        have hy' : y ∈ l := (List.mem_cons.1 hy).resolve_left (fun e => h2 e.symm)
        rcases comesBefore_total l hx' hy' hne with h | h
        · exact .inl (by simp [comesBefore, h1, h2, h])
        · exact .inr (by simp [comesBefore, h1, h2, h])

/-- no two candidates are on a par on the ballot -/
def StrictBallot (b : Ballot) : Prop :=
  ∀ x ∈ b.items.map Item.tok, ∀ y ∈ b.items.map Item.tok, x ≠ y → b.above x y = true ∨ b.above y x = true

theorem ranking_strictBallot (l : List Str) : StrictBallot (ranking l) := by
  intro x hx y hy hne
  rw [ranking_toks] at hx hy
  rw [above_ranking, above_ranking]
  exact comesBefore_total l hx hy hne

theorem onePerLine_strict (L : List Str) {bs : List Ballot} (hb : ∀ b ∈ bs, StrictBallot b) : PaperStrict (onePerLine L bs) := by
  intro v hv
  obtain ⟨l, hl, e⟩ := List.mem_filterMap.1 hv
  rcases List.mem_cons.1 hl with rfl | hl
  · cases e
    exact ranking_strictBallot L
  · obtain ⟨b, hb', rfl⟩ := List.mem_map.1 hl
    cases e
    exact hb b hb'

theorem cast_strict {p : List PaperLine} (h : PaperStrict p) {b : Ballot} (hb : b ∈ castBallots p) : StrictBallot b := by
  unfold castBallots at hb
  obtain ⟨v, hv, hb⟩ := List.mem_flatMap.1 hb
  obtain rfl := List.eq_of_mem_replicate hb
  exact h v hv

/-- when everybody on a list of ballots has the same first choice, all of them count -/
theorem tops_all {C l : List Str} {z : Str} (hz : z ∈ l) {B : List Ballot} (hB : ∀ b ∈ B, b.favours C z = true) :
    B.length ≤ (l.map (fun x => B.countP (fun b => b.favours C x))).sum := by
  rw [((List.perm_cons_erase hz).map _).sum_nat, List.map_cons, List.sum_cons, List.countP_eq_length.2 hB]
  omega

theorem tops_cast (p : List PaperLine) (C l : List Str) :
    (l.map (paperTop p C)).sum = (l.map (fun x => (castBallots p).countP (fun b => b.favours C x))).sum := by
  congr 1
  apply List.map_congr_left
  intro x _
  unfold paperTop
  rw [paperSum_cast]

theorem tops_append (C l : List Str) (a b : List Ballot) :
    (l.map (fun x => (a ++ b).countP (fun b => b.favours C x))).sum =
      (l.map (fun x => a.countP (fun b => b.favours C x))).sum + (l.map (fun x => b.countP (fun b => b.favours C x))).sum := by
  rw [← sum_both]
  congr 1
  apply List.map_congr_left
  intro x _
  rw [List.countP_append]

theorem tops_perm {a b : List Ballot} (h : a.Perm b) (C l : List Str) :
    (l.map (fun x => a.countP (fun b => b.favours C x))).sum = (l.map (fun x => b.countP (fun b => b.favours C x))).sum := by
  congr 1
  apply List.map_congr_left
  intro x _
  rw [h.countP_eq]

/-- `k` ballots can make up for a majority that is no larger than `2 * k` -/
theorem miscount_majority {p : List PaperLine} (h : PaperOk p) (hs : PaperStrict p) (hw : ∀ x ∈ paperCands p, WritableToken x) (k : Nat)
    {x y : Str} (hx : x ∈ paperCands p) (hy : y ∈ paperCands p) (hne : y ≠ x)
    (hm : 2 * paperTop p (paperCands p) x ≤ ((paperCands p).map (paperTop p (paperCands p))).sum + 2 * k) :
    ∃ q, PaperOk q ∧ PaperStrict q ∧ DifferBy k p q ∧
      2 * paperTop q (paperCands p) x ≤ ((paperCands p).map (paperTop q (paperCands p))).sum := by
  let C := paperCands p
  let A := (castBallots p).filter (fun b => b.favours C x)
  let N := (castBallots p).filter (fun b => !b.favours C x)
  let R : Ballot := ranking (y :: (paperCands p).filter (fun z => decide (z ≠ y)))
  have hperm : (castBallots p).Perm (A ++ N) := (List.filter_append_perm _ _).symm
  have hRn : (y :: (paperCands p).filter (fun z => decide (z ≠ y))).Nodup := by
    rw [List.nodup_cons]
    exact ⟨by simp, (nodup_paperCands p).filter _⟩
  have hRsub : ∀ z ∈ y :: (paperCands p).filter (fun z => decide (z ≠ y)), z ∈ paperCands p := by
    intro z hz
    rcases List.mem_cons.1 hz with rfl | hz
    · exact hy
    · exact (List.mem_filter.1 hz).1
  have hRok : R.Ok := ranking_ok hRn (fun z hz => hw z (hRsub z hz))
  have hRy : R.favours C y = true := by
    unfold Ballot.favours
    simp only [Bool.and_eq_true, decide_eq_true_eq, List.all_eq_true, Bool.or_eq_true]
    refine ⟨⟨?_, hy⟩, fun z _ => ?_⟩
    · show y ∈ (ranking _).items.map Item.tok
      rw [ranking_toks]; simp
    · by_cases e : z = y
      · exact .inl e
      · refine .inr ?_
        show (ranking _).above y z = true
        rw [above_ranking]
        simp [comesBefore, Ne.symm e]
  have hRx : R.favours C x = false := by
    rw [← Bool.not_eq_true]
    exact fun g => hne (favours_one hRy g)
  let bs := (A.drop k ++ N) ++ List.replicate (A.take k).length R
  have hmemA : ∀ b ∈ A, b ∈ castBallots p := fun b hb => (List.mem_filter.1 hb).1
  have hmem : ∀ b ∈ bs, (b.Ok ∧ ∀ z ∈ b.items.map Item.tok, z ∈ paperCands p) ∧ StrictBallot b := by
    intro b hb
    rcases List.mem_append.1 hb with hb | hb
    · rcases List.mem_append.1 hb with hb | hb
      · exact ⟨cast_ok h (hmemA b (List.mem_of_mem_drop hb)), cast_strict hs (hmemA b (List.mem_of_mem_drop hb))⟩
      · exact ⟨cast_ok h (List.mem_filter.1 hb).1, cast_strict hs (List.mem_filter.1 hb).1⟩
    · obtain rfl := List.eq_of_mem_replicate hb
      exact ⟨⟨hRok, fun z hz => hRsub z (by rw [ranking_toks] at hz; exact hz)⟩, ranking_strictBallot _⟩
  refine ⟨onePerLine (paperCands p) bs, onePerLine_ok (nodup_paperCands p) hw (fun b hb => (hmem b hb).1.1),
    onePerLine_strict _ (fun b hb => (hmem b hb).2), ⟨?_, A.drop k ++ N, A.take k,
    List.replicate (A.take k).length R, ?_, ?_, List.length_take_le _ _, ?_⟩, ?_⟩
  · intro z
    exact (mem_onePerLine (fun b hb => (hmem b hb).1.2) z).symm
  · refine hperm.trans ?_
    conv_lhs => rw [← List.take_append_drop k A]
    rw [List.append_assoc]
    exact List.perm_append_comm
  · rw [castBallots_onePerLine]
  · rw [List.length_replicate]; exact List.length_take_le _ _
  · have hA : ∀ b ∈ A, b.favours C x = true := fun b hb => (List.mem_filter.1 hb).2
    have hN : ∀ b ∈ N, ¬ b.favours C x = true := fun b hb hc => by
      have := (List.mem_filter.1 hb).2
      rw [hc] at this
      cases this
    have c1 : A.countP (fun b => b.favours C x) = A.length := List.countP_eq_length.2 hA
    have c2 : N.countP (fun b => b.favours C x) = 0 := List.countP_eq_zero.2 hN
    have c4 : (A.drop k).countP (fun b => b.favours C x) ≤ (A.drop k).length := List.countP_le_length
    have e1 : paperTop p C x = A.length := by
      unfold paperTop
      rw [paperSum_cast, hperm.countP_eq, List.countP_append, c1, c2]; rfl
    have e2 : paperTop (onePerLine (paperCands p) bs) C x = (A.drop k).countP (fun b => b.favours C x) := by
      unfold paperTop
      rw [paperSum_cast, castBallots_onePerLine, List.countP_append, List.countP_append, c2, List.countP_replicate, hRx]; rfl
    have e3 := tops_cast p C C
    rw [tops_perm hperm, tops_append] at e3
    have e4 := tops_cast (onePerLine (paperCands p) bs) C C
    rw [castBallots_onePerLine, tops_append, tops_append] at e4
    have d1 := tops_le C C (nodup_paperCands p) A
    have d2 := tops_all (C := C) (l := C) hx (B := A.drop k) (fun b hb => hA b (List.mem_of_mem_drop hb))
    have d3 := tops_all (C := C) (l := C) hy (B := List.replicate (A.take k).length R) (fun b hb => by
      obtain rfl := List.eq_of_mem_replicate hb
      exact hRy)
    show 2 * paperTop (onePerLine (paperCands p) bs) C x ≤ (C.map (paperTop (onePerLine (paperCands p) bs) C)).sum
    change 2 * paperTop p C x ≤ (C.map (paperTop p C)).sum + 2 * k at hm
    rw [e1, e3] at hm
    rw [e2, e4]
    have d4 : (List.replicate (A.take k).length R).length = min k A.length := by rw [List.length_replicate, List.length_take]
    rw [d4] at d3
    rw [List.length_drop] at c4 d2
    omega

/-- C128, how many ballots it takes to undo a majority.  Where there is anybody else and no ballot has two candidates on a par, a candidate has more
than half of the first choices in every such file that differs in at most `k` ballots exactly when it has more than half of them by more than
`2 * k`. -/
theorem C128_majority_exact (k : Nat) (p : List PaperLine) (h : PaperOk p) (hs : PaperStrict p) (hw : ∀ x ∈ paperCands p, WritableToken x)
    (x y : Str) (hx : x ∈ paperCands p) (hy : y ∈ paperCands p) (hne : y ≠ x) :
    (∀ q, PaperOk q → PaperStrict q → DifferBy k p q →
        ((paperCands q).map (paperTop q (paperCands q))).sum < 2 * paperTop q (paperCands q) x) ↔
      ((paperCands p).map (paperTop p (paperCands p))).sum + 2 * k < 2 * paperTop p (paperCands p) x := by
  constructor
  · intro hall
    by_contra hc
    obtain ⟨q, h1, h2, h3, h4⟩ := miscount_majority h hs hw k hx hy hne (by omega)
    have := hall q h1 h2 h3
    rw [tops_same (nodup_paperCands q) (nodup_paperCands p) (fun x => (h3.1 x).symm), paperTop_same (fun x => (h3.1 x).symm)] at this
    omega
  · intro hmaj q _ _ hd
    rw [tops_same (nodup_paperCands q) (nodup_paperCands p) (fun x => (hd.1 x).symm), paperTop_same (fun x => (hd.1 x).symm)]
    have hperm := List.perm_cons_erase hx
    have hsum : ∀ r : List PaperLine, ((paperCands p).map (paperTop r (paperCands p))).sum =
        paperTop r (paperCands p) x + (((paperCands p).erase x).map (paperTop r (paperCands p))).sum := by
      intro r
      rw [(hperm.map _).sum_nat, List.map_cons, List.sum_cons]
    rw [hsum] at hmaj ⊢
    have h1 := differ_tops hd (paperCands p) _ ((nodup_paperCands p).erase x)
    have h2 : paperTop p (paperCands p) x ≤ paperTop q (paperCands p) x + k := differ_sum (differBy_symm hd) _
    omega

end

section
attribute [local instance] Uni.ascii
set_option maxRecDepth 40000

/-- the hypotheses of `C128_majority_exact` are met, and both sides hold for one ballot, and neither for two -/
example : PaperOk secondPaper ∧ PaperStrict secondPaper ∧ (∀ x ∈ paperCands secondPaper, WritableToken x) ∧ c!"A" ∈ paperCands secondPaper ∧
    c!"B" ∈ paperCands secondPaper ∧
    ((paperCands secondPaper).map (paperTop secondPaper (paperCands secondPaper))).sum + 2 * 1 <
      2 * paperTop secondPaper (paperCands secondPaper) c!"A" ∧
    ¬ ((paperCands secondPaper).map (paperTop secondPaper (paperCands secondPaper))).sum + 2 * 2 <
      2 * paperTop secondPaper (paperCands secondPaper) c!"A" := by
  refine ⟨secondPaper_ok, by unfold PaperStrict; decide +kernel, ?_, by decide +kernel⟩
  intro x hx
  refine letters_writable x ?_
  rw [show paperCands secondPaper = [c!"A", c!"B"] by decide +kernel] at hx
  simp only [List.mem_cons, List.not_mem_nil, or_false] at hx ⊢
  rcases hx with h | h
  · exact .inl h
  · exact .inr (.inl h)
end

end Verif.Props
