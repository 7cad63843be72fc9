/-
C128: the margin for head-to-head winners cannot be lowered for any election.
-/
import Verif.Props.AnyDuels

set_option linter.unusedSimpArgs false
set_option linter.unusedSectionVars false

namespace Verif.Props
open Spec

section
variable [U : Uni]

/-- no ballot puts each of two candidates above the other -/
theorem ballot_asymm {b : Ballot} {x y : Str} (h : b.above x y = true) : b.above y x = false := by
  cases b with
  | ranked ts => exact tierAbove_asymm h
  | scored its =>
    rw [← Bool.not_eq_true]
    intro g
    simp only [Ballot.above, List.any_eq_true, Bool.and_eq_true, decide_eq_true_eq, List.all_eq_true, Bool.or_eq_true, Bool.not_eq_true',
      decide_eq_false_iff_not] at h g
    obtain ⟨i, hi, ei, h⟩ := h
    obtain ⟨j, hj, ej, g⟩ := g
    have h1 := (h j hj).resolve_left (fun n => n ej)
    have h2 := (g i hi).resolve_left (fun n => n ei)
    omega

/-- these ballots, one a line, after a line that names the candidates on no ballot -/
def onePerLine (L : List Str) (bs : List Ballot) : List PaperLine := .ballots 0 (ranking L) none :: bs.map (fun b => .ballots 1 b none)

theorem castBallots_onePerLine (L : List Str) (bs : List Ballot) : castBallots (onePerLine L bs) = bs := by
  have key : ∀ bs : List Ballot, castBallots (bs.map (fun b => PaperLine.ballots 1 b none)) = bs := by
    intro bs
    induction bs with
    | nil => rfl
    | cons b bs ih =>
      show List.replicate 1 b ++ castBallots (bs.map (fun b => PaperLine.ballots 1 b none)) = _
      rw [ih]; rfl
  show List.replicate 0 (ranking L) ++ castBallots (bs.map (fun b => PaperLine.ballots 1 b none)) = bs
  rw [key]; rfl

/-- the ballots of a paper can be written, and name its candidates only -/
theorem cast_ok {p : List PaperLine} (h : PaperOk p) {b : Ballot} (hb : b ∈ castBallots p) :
    b.Ok ∧ ∀ x ∈ b.items.map Item.tok, x ∈ paperCands p := by
  unfold castBallots at hb
  obtain ⟨v, hv, hb⟩ := List.mem_flatMap.1 hb
  obtain rfl := List.eq_of_mem_replicate hb
  obtain ⟨l, hl, e⟩ := List.mem_filterMap.1 hv
  cases l with
  | ballots n b com =>
    cases e
    refine ⟨(h.1 _ hl).1, fun x hx => ?_⟩
    unfold paperCands
    rw [mem_firsts, List.mem_flatMap]
    exact ⟨_, hl, hx⟩
  | _ => cases e

theorem onePerLine_ok {L : List Str} (hn : L.Nodup) (hw : ∀ x ∈ L, WritableToken x) {bs : List Ballot} (hb : ∀ b ∈ bs, b.Ok) :
    PaperOk (onePerLine L bs) := by
  refine ⟨?_, 0, ranking L, none, by simp [onePerLine]⟩
  intro l hl
  rcases List.mem_cons.1 hl with rfl | hl
  · exact ⟨ranking_ok hn hw, fun t h => (by cases h)⟩
  · obtain ⟨b, hb', rfl⟩ := List.mem_map.1 hl
    exact ⟨hb b hb', fun t h => (by cases h)⟩

theorem mem_onePerLine {L : List Str} {bs : List Ballot} (hb : ∀ b ∈ bs, ∀ x ∈ b.items.map Item.tok, x ∈ L) (x : Str) :
    x ∈ paperCands (onePerLine L bs) ↔ x ∈ L := by
  unfold paperCands
  rw [mem_firsts, List.mem_flatMap]
  constructor
  · rintro ⟨l, hl, hx⟩
    rcases List.mem_cons.1 hl with rfl | hl
    · rwa [show PaperLine.mentions (.ballots 0 (ranking L) none) = L from ranking_toks L] at hx
    · obtain ⟨b, hb', rfl⟩ := List.mem_map.1 hl
      exact hb b hb' x hx
  · intro hx
    exact ⟨.ballots 0 (ranking L) none, by simp [onePerLine], by
      rw [show PaperLine.mentions (.ballots 0 (ranking L) none) = L from ranking_toks L]; exact hx⟩

/-- `k` ballots can make up for a margin of `2 * k` -/
theorem miscount {p : List PaperLine} (h : PaperOk p) (hw : ∀ x ∈ paperCands p, WritableToken x) (k : Nat) {x y : Str} (hy : y ∈ paperCands p)
    (hx : x ∈ paperCands p) (hne : y ≠ x) (hm : paperPrefers p x y ≤ paperPrefers p y x + 2 * k) :
    ∃ q, PaperOk q ∧ DifferBy k p q ∧ paperPrefers q x y ≤ paperPrefers q y x := by
  let A := (castBallots p).filter (fun b => b.above x y)
  let N := (castBallots p).filter (fun b => !b.above x y)
  let R : Ballot := ranking (y :: (paperCands p).filter (fun z => decide (z ≠ y)))
  have hperm : (castBallots p).Perm (A ++ N) := (List.filter_append_perm _ _).symm
  have hRn : (y :: (paperCands p).filter (fun z => decide (z ≠ y))).Nodup := by
    rw [List.nodup_cons]
    exact ⟨by simp, (nodup_paperCands p).filter _⟩
  have hRsub : ∀ z ∈ y :: (paperCands p).filter (fun z => decide (z ≠ y)), z ∈ paperCands p := by
    intro z hz
    rcases List.mem_cons.1 hz with rfl | hz
    · exact hy
    · exact (List.mem_filter.1 hz).1
  have hRok : R.Ok := ranking_ok hRn (fun z hz => hw z (hRsub z hz))
  have hRyx : R.above y x = true := by
    rw [above_ranking]
    simp [comesBefore, hne]
  have hRxy : R.above x y = false := ballot_asymm hRyx
  let bs := (A.drop k ++ N) ++ List.replicate (A.take k).length R
  have hmemA : ∀ b ∈ A, b ∈ castBallots p := fun b hb => (List.mem_filter.1 hb).1
  have hmem : ∀ b ∈ bs, b.Ok ∧ ∀ z ∈ b.items.map Item.tok, z ∈ paperCands p := by
    intro b hb
    rcases List.mem_append.1 hb with hb | hb
    · rcases List.mem_append.1 hb with hb | hb
      · exact cast_ok h (hmemA b (List.mem_of_mem_drop hb))
      · exact cast_ok h (List.mem_filter.1 hb).1
    · obtain rfl := List.eq_of_mem_replicate hb
      exact ⟨hRok, fun z hz => hRsub z (by rw [ranking_toks] at hz; exact hz)⟩
  refine ⟨onePerLine (paperCands p) bs, onePerLine_ok (nodup_paperCands p) hw (fun b hb => (hmem b hb).1), ⟨?_, A.drop k ++ N, A.take k,
    List.replicate (A.take k).length R, ?_, ?_, List.length_take_le _ _, ?_⟩, ?_⟩
  · intro z
    exact (mem_onePerLine (fun b hb => (hmem b hb).2) z).symm
  · refine hperm.trans ?_
    conv_lhs => rw [← List.take_append_drop k A]
    rw [List.append_assoc]
    exact List.perm_append_comm
  · rw [castBallots_onePerLine]
  · rw [List.length_replicate]; exact List.length_take_le _ _
  · have hA : ∀ b ∈ A, b.above x y = true := fun b hb => (List.mem_filter.1 hb).2
    have hN : ∀ b ∈ N, ¬ b.above x y = true := fun b hb hc => by
      have := (List.mem_filter.1 hb).2
      rw [hc] at this
      cases this
    have c1 : A.countP (fun b => b.above x y) = A.length := List.countP_eq_length.2 hA
    have c2 : N.countP (fun b => b.above x y) = 0 := List.countP_eq_zero.2 hN
    have c3 : A.countP (fun b => b.above y x) = 0 := List.countP_eq_zero.2 (fun b hb hc => by
      rw [ballot_asymm (hA b hb)] at hc; cases hc)
    have c4 : (A.drop k).countP (fun b => b.above x y) ≤ (A.drop k).length := List.countP_le_length
    have e1 : paperPrefers p x y = A.length := by
      unfold paperPrefers
      rw [paperSum_cast, hperm.countP_eq, List.countP_append, c1, c2]; rfl
    have e2 : paperPrefers p y x = N.countP (fun b => b.above y x) := by
      unfold paperPrefers
      rw [paperSum_cast, hperm.countP_eq, List.countP_append, c3, Nat.zero_add]
    have e3 : paperPrefers (onePerLine (paperCands p) bs) x y = (A.drop k).countP (fun b => b.above x y) := by
      unfold paperPrefers
      rw [paperSum_cast, castBallots_onePerLine, List.countP_append, List.countP_append, c2, List.countP_replicate, hRxy]; rfl
    have e4 : paperPrefers (onePerLine (paperCands p) bs) y x =
        (A.drop k).countP (fun b => b.above y x) + N.countP (fun b => b.above y x) + (A.take k).length := by
      unfold paperPrefers
      rw [paperSum_cast, castBallots_onePerLine, List.countP_append, List.countP_append, List.countP_replicate, hRyx]; rfl
    rw [e1, e2] at hm
    rw [e3, e4]
    rw [List.length_drop] at c4
    rw [List.length_take]
    omega

/-- C128, how many ballots it takes.  A candidate beats all others in every file that differs in at most `k` ballots exactly when it beats each of
them by more than `2 * k` ballots. -/
theorem C128_exact (k : Nat) (p : List PaperLine) (h : PaperOk p) (hw : ∀ x ∈ paperCands p, WritableToken x) (x : Str) (hx : x ∈ paperCands p) :
    (∀ q, PaperOk q → DifferBy k p q → ∀ y ∈ paperCands q, y ≠ x → paperPrefers q y x < paperPrefers q x y) ↔
      ∀ y ∈ paperCands p, y ≠ x → paperPrefers p y x + 2 * k < paperPrefers p x y := by
  constructor
  · intro hall y hy hne
    by_contra hc
    obtain ⟨q, h1, h2, h3⟩ := miscount h hw k hy hx hne (by omega)
    have := hall q h1 h2 y ((h2.1 y).1 hy) hne
    omega
  · intro hm q _ hd y hy hne
    have h1 := hm y ((hd.1 y).2 hy) hne
    have h2 := differ_sum hd (fun b => b.above y x)
    have h3 := differ_sum (differBy_symm hd) (fun b => b.above x y)
    unfold paperPrefers at h1 ⊢
    omega

end

section
attribute [local instance] Uni.ascii
set_option maxRecDepth 40000

/-- the hypotheses of `C128_exact` are met, and both sides hold for one ballot, and neither for two -/
example : PaperOk secondPaper ∧ (∀ x ∈ paperCands secondPaper, WritableToken x) ∧ c!"A" ∈ paperCands secondPaper ∧
    paperPrefers secondPaper c!"B" c!"A" + 2 * 1 < paperPrefers secondPaper c!"A" c!"B" ∧
    ¬ paperPrefers secondPaper c!"B" c!"A" + 2 * 2 < paperPrefers secondPaper c!"A" c!"B" := by
  refine ⟨secondPaper_ok, ?_, by decide +kernel⟩
  intro x hx
  refine letters_writable x ?_
  rw [show paperCands secondPaper = [c!"A", c!"B"] by decide +kernel] at hx
  simp only [List.mem_cons, List.not_mem_nil, or_false] at hx ⊢
  rcases hx with h | h
  · exact .inl h
  · exact .inr (.inl h)
end

end Verif.Props
