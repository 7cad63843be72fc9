/-
C123: approval ballots.
-/
import Verif.Spec.Approval
import Verif.Props.Agree
import Verif.Props.Borda

set_option linter.unusedSimpArgs false
set_option linter.unusedSectionVars false

namespace Verif.Props
open Verif Spec

section
variable [U : Uni]

theorem approval_above {k : Int} {b : Ballot} (h : b.Approval k) (x y : Str) :
    b.above x y = (decide (x ∈ b.items.map Item.tok) && !decide (y ∈ b.items.map Item.tok)) := by
  have hon : ∀ (its : List Item) (z : Str), onTier its z = decide (z ∈ its.map Item.tok) := by
    intro its z
    unfold onTier
    rw [Bool.eq_iff_iff]
    simp [List.any_eq_true]
  obtain ⟨⟨its, rfl | rfl⟩, hk⟩ := h
  · show tierAbove [its] x y = _
    unfold tierAbove tierAbove
    rw [hon, hon]
    show _ = (decide (x ∈ ([its].flatten).map Item.tok) && !decide (y ∈ ([its].flatten).map Item.tok))
    rw [show [its].flatten = its by simp]
    by_cases hx : x ∈ its.map Item.tok <;> by_cases hy : y ∈ its.map Item.tok <;> simp only [hx, hy, decide_true, decide_false] <;> rfl
  · show its.any _ = (decide (x ∈ its.map Item.tok) && !decide (y ∈ its.map Item.tok))
    have hk : ∀ it ∈ its, it.number = k := hk
    rw [Bool.eq_iff_iff]
    simp only [List.any_eq_true, Bool.and_eq_true, decide_eq_true_eq, List.all_eq_true, Bool.or_eq_true, Bool.not_eq_true', decide_eq_false_iff_not,
      List.mem_map, not_exists, not_and]
    constructor
    · rintro ⟨i, hi, e, hall⟩
      refine ⟨⟨i, hi, e⟩, fun j hj ej => ?_⟩
      rcases hall j hj with h | h
      · exact h ej
      · rw [hk i hi, hk j hj] at h; omega
    · rintro ⟨⟨i, hi, e⟩, hno⟩
      exact ⟨i, hi, e, fun j hj => .inl (hno j hj)⟩

theorem approval_points {k : Int} {b : Ballot} (h : b.Approval k) (hok : b.Ok) (x : Str) :
    b.points x = if x ∈ b.items.map Item.tok then k else 0 := by
  have hn := hok.nodup
  have hk := h.2
  unfold Ballot.points
  generalize b.items = its at hn hk
  induction its with
  | nil => simp
  | cons it its ih =>
    rw [List.map_cons, List.nodup_cons] at hn
    have ih := ih hn.2 (fun i hi => hk i (by simp [hi]))
    by_cases hx : it.tok = x
    · have hno : x ∉ its.map Item.tok := hx ▸ hn.1
      rw [if_neg hno] at ih
      rw [List.filter_cons_of_pos (by simpa using hx), List.map_cons, List.sum_cons, ih, hk it (by simp), if_pos (by simp [hx])]
      omega
    · rw [List.filter_cons_of_neg (by simpa using hx), ih, List.map_cons]
      by_cases hm : x ∈ its.map Item.tok
      · rw [if_pos hm, if_pos (by simp [hm])]
      · rw [if_neg hm, if_neg (by simp only [List.mem_cons, not_or]; exact ⟨fun e => hx e.symm, hm⟩)]

/-- C123, head to head: a candidate is ahead of another one by the difference of their approvals. -/
theorem C123_pairs (p : List PaperLine) (k : Int) (ha : PaperApproval k p) (x y : Str) :
    (paperPrefers p x y : Int) - paperPrefers p y x = (paperApprovals p x : Int) - paperApprovals p y := by
  unfold paperPrefers paperApprovals paperSum
  unfold PaperApproval at ha
  generalize paperVotes p = votes at ha
  induction votes with
  | nil => rfl
  | cons v votes ih =>
    have ih := ih (fun w hw => ha w (by simp [hw]))
    beta_reduce at ih
    have h1 := approval_above (ha v (by simp)) x y
    have h2 := approval_above (ha v (by simp)) y x
    simp only [List.filter_cons, h1, h2]
    by_cases hx : x ∈ v.2.items.map Item.tok <;> by_cases hy : y ∈ v.2.items.map Item.tok <;>
      simp only [hx, hy, decide_true, decide_false, Bool.and_true, Bool.and_false, Bool.not_true, Bool.not_false, if_true, if_false,
        List.map_cons, List.sum_cons, Bool.false_eq_true, reduceIte] <;> push_cast <;> omega

/-- C123, scores: the approvals, each with its points. -/
theorem C123_points (p : List PaperLine) (h : PaperOk p) (k : Int) (ha : PaperApproval k p) (x : Str) :
    paperPoints p x = k * paperApprovals p x := by
  have hok := paper_votesOk h
  unfold paperPoints paperApprovals paperSum
  unfold PaperApproval at ha
  generalize paperVotes p = votes at ha hok
  induction votes with
  | nil => simp
  | cons v votes ih =>
    have ih := ih (fun w hw => ha w (by simp [hw])) (fun w hw => hok w (by simp [hw]))
    rw [List.map_cons, List.sum_cons, ih, approval_points (ha v (by simp)) (hok v (by simp))]
    by_cases hx : x ∈ v.2.items.map Item.tok
    · rw [if_pos hx, List.filter_cons_of_pos (by simpa using hx), List.map_cons, List.sum_cons]
      push_cast
      ring
    · rw [if_neg hx, List.filter_cons_of_neg (by simpa using hx)]
      omega

theorem firstMax_exists (f : Str → Int) {l : List Str} (h : l ≠ []) : ∃ c, FirstMax f l c := by
  induction l with
  | nil => exact absurd rfl h
  | cons a l ih =>
    by_cases hl : l = []
    · subst hl; exact ⟨a, [], [], rfl, by simp, by simp⟩
    · obtain ⟨c, p, q, rfl, h1, h2⟩ := ih hl
      by_cases hac : f a < f c
      · refine ⟨c, a :: p, q, rfl, fun d hd => ?_, h2⟩
        rcases List.mem_cons.1 hd with rfl | hd
        · exact hac
        · exact h1 d hd
      · refine ⟨a, [], p ++ c :: q, rfl, by simp, fun d hd => ?_⟩
        rcases List.mem_append.1 hd with hd | hd
        · have := h1 d hd; omega
        · rcases List.mem_cons.1 hd with rfl | hd
          · omega
          · have := h2 d hd; omega

/-- if the margins are differences of numbers, the Copeland winners are those with the largest number -/
theorem copeland_of_margins {m : Jabmod} (hr : Spec.AllRanked m) (hn : (Dict.keys m.candidates).Nodup) (f : Str → Int)
    (hf : ∀ a ∈ Dict.keys m.candidates, ∀ b ∈ Dict.keys m.candidates, support m a b - support m b a = f a - f b) {ws : List Str}
    (hw : CopelandWinners m ws) (hne : Dict.keys m.candidates ≠ []) (w : Str) :
    w ∈ ws ↔ w ∈ Dict.keys m.candidates ∧ ∀ d ∈ Dict.keys m.candidates, f d ≤ f w := by
  obtain ⟨cc, ws', e1, e2, _, _, hiff⟩ := C86_fewest_losses m hr hn hne
  obtain ⟨cc', e1', e2'⟩ := hw
  rw [e1] at e1'
  cases e1'
  rw [e2] at e2'
  cases e2'
  obtain ⟨z, hz, hmax⟩ : ∃ z ∈ Dict.keys m.candidates, ∀ d ∈ Dict.keys m.candidates, f d ≤ f z := by
    obtain ⟨a, ha⟩ := List.exists_mem_of_ne_nil _ hne
    obtain ⟨z, hz, h⟩ := Finset.exists_max_image (Dict.keys m.candidates).toFinset f ⟨a, by simpa using ha⟩
    exact ⟨z, by simpa using hz, fun d hd => h d (by simpa using hd)⟩
  have zero : ∀ c ∈ Dict.keys m.candidates, (lossesOf m c ≤ 0 ↔ ∀ d ∈ Dict.keys m.candidates, f d ≤ f c) := by
    intro c hc
    unfold lossesOf countOpp
    constructor
    · intro h0 d hd
      by_contra hlt
      have h00 := List.filter_eq_nil_iff.1 (List.length_eq_zero_iff.1 (Int.ofNat_eq_zero.1 (Int.le_antisymm h0 (Int.natCast_nonneg _)))) d hd
      have := hf d hd c hc
      refine h00 ?_
      simp only [Bool.and_eq_true, decide_eq_true_eq]
      exact ⟨fun e => by rw [e] at hlt; omega, by omega⟩
    · intro hall
      rw [List.filter_eq_nil_iff.2]
      · simp
      · intro d hd hh
        have := hf d hd c hc
        have := hall d hd
        simp only [Bool.and_eq_true, decide_eq_true_eq] at hh
        omega
  rw [hiff]
  constructor
  · rintro ⟨hm, hmin⟩
    exact ⟨hm, (zero w hm).1 (Int.le_trans (hmin z hz) ((zero z hz).2 hmax))⟩
  · rintro ⟨hm, hall⟩
    refine ⟨hm, fun d hd => Int.le_trans ((zero w hm).2 hall) ?_⟩
    unfold lossesOf countOpp
    omega

/-- C123, the winners.  When the approval ballots of an election are written down in .abif, with or without points, and read, the Copeland winners
are the candidates with the most approvals; with points, the score winner is the first of them, and STAR announces a candidate as the winner
exactly if it has more approvals than every other. -/
theorem C123_winners (p : List PaperLine) (h : PaperOk p) (hl : (paperText p).length < 2 ^ 61) (k : Int) (ha : PaperApproval k p)
    (hne : paperCands p ≠ []) (cw : Bool) :
    ∃ m, convertAbif cw false false (paperText p) = .ok m ∧
      (∃ ws, CopelandWinners m ws) ∧
      (∀ ws, CopelandWinners m ws → ∀ w, w ∈ ws ↔ w ∈ paperCands p ∧ ∀ d ∈ paperCands p, paperApprovals p d ≤ paperApprovals p w) ∧
      (0 < k → (∀ w, ScoreWinner m w ↔ FirstMax (fun x => (paperApprovals p x : Int)) (paperCands p) w) ∧
        ∀ w, WinsStar m w ↔ w ∈ paperCands p ∧ (∃ d ∈ paperCands p, d ≠ w) ∧
          ∀ d ∈ paperCands p, d ≠ w → paperApprovals p d < paperApprovals p w) := by
  obtain ⟨m, vls, e1, f, hst, hk, _⟩ := convertAbif_paper h cw
  have hperm : m.votelines.Perm vls := hst.1
  have hr := parsed_allRanked _ _ _ _ _ e1 hl
  have hn : (Dict.keys m.candidates).Nodup := parsed_cands_nodup _ _ _ _ _ e1
  have hs : ∀ x y, support m x y = (paperPrefers p x y : Int) := paper_support f hperm
  have hsc : ∀ x, scoreOf m x = k * paperApprovals p x := fun x => by
    rw [paper_score (paper_votesOk h) f hperm x, C123_points p h k ha x]
  have hmar : ∀ a ∈ Dict.keys m.candidates, ∀ b ∈ Dict.keys m.candidates,
      support m a b - support m b a = (paperApprovals p a : Int) - paperApprovals p b := fun a _ b _ => by
    rw [hs, hs]; exact C123_pairs p k ha a b
  refine ⟨m, e1, ?_, ?_, fun hk0 => ⟨?_, ?_⟩⟩
  · obtain ⟨cc, ws, g1, g2, _⟩ := C86_fewest_losses m hr hn (by rw [hk]; exact hne)
    exact ⟨ws, cc, g1, g2⟩
  · intro ws hws w
    rw [copeland_of_margins hr hn _ hmar hws (by rw [hk]; exact hne) w, hk]
    exact and_congr_right fun _ => forall_congr' fun d => forall_congr' fun _ => by exact_mod_cast Iff.rfl
  · intro w
    rw [C97_score m (parsed_counted _ _ _ _ _ e1), hk]
    have hmono : ∀ a b : Str, (scoreOf m a < scoreOf m b ↔ (paperApprovals p a : Int) < paperApprovals p b) := fun a b => by
      rw [hsc, hsc]; exact Int.mul_lt_mul_left hk0
    have hmono' : ∀ a b : Str, (scoreOf m a ≤ scoreOf m b ↔ (paperApprovals p a : Int) ≤ paperApprovals p b) := fun a b => by
      rw [hsc, hsc]; exact Int.mul_le_mul_left hk0
    unfold FirstMax
    simp only [hmono, hmono']
  · intro w
    rw [C97_star m (parsed_starCounted _ _ _ _ _ e1 hl), hk]
    have hmono : ∀ a b : Str, (scoreOf m a ≤ scoreOf m b ↔ (paperApprovals p a : Int) ≤ paperApprovals p b) := fun a b => by
      rw [hsc, hsc]; exact Int.mul_le_mul_left hk0
    have hlt : ∀ a b : Str, (support m b a < support m a b ↔ (paperApprovals p b : Int) < paperApprovals p a) := fun a b => by
      have := C123_pairs p k ha a b
      rw [hs, hs]
      omega
    constructor
    · rintro ⟨d, ht, hd⟩
      have hm := topTwo_mem ht
      refine ⟨hm.1, ⟨d, hm.2, Ne.symm ht.1⟩, fun y hy hyw => ?_⟩
      have h1 := firstMax_le ht.2.2 y (List.mem_filter.2 ⟨hy, by simpa using hyw⟩)
      have h1 := (hmono _ _).1 h1
      have h2 := (hlt _ _).1 hd
      omega
    · rintro ⟨hm, ⟨d, hd, hdw⟩, hall⟩
      have hne2 : (paperCands p).filter (fun x => decide (x ≠ w)) ≠ [] :=
        List.ne_nil_of_mem (List.mem_filter.2 ⟨hd, by simpa using hdw⟩)
      obtain ⟨e, he⟩ := firstMax_exists (scoreOf m) hne2
      have hem := List.mem_filter.1 (firstMax_mem he)
      have hew : e ≠ w := by simpa using hem.2
      refine ⟨e, ⟨Ne.symm hew, ?_, he⟩, (hlt _ _).2 (by have := hall e hem.1 hew; omega)⟩
      have hfw : FirstMax (scoreOf m) (paperCands p) w := by
        obtain ⟨a, b, hab⟩ := List.append_of_mem hm
        have hnd : (paperCands p).Nodup := nodup_firsts _
        have hstrict : ∀ y ∈ paperCands p, y ≠ w → scoreOf m y < scoreOf m w := fun y hy hyw => by
          rw [hsc, hsc]
          exact (Int.mul_lt_mul_left hk0).2 (by have := hall y hy hyw; omega)
        rw [hab] at hnd
        have hwa : w ∉ a := fun hwa => (List.nodup_append.1 hnd).2.2 w hwa w (by simp) rfl
        have hwb : w ∉ b := (List.nodup_cons.1 (List.nodup_append.1 hnd).2.1).1
        refine ⟨a, b, hab, fun y hy => hstrict y (by rw [hab]; simp [hy]) (fun e => hwa (e ▸ hy)), fun y hy => ?_⟩
        exact Int.le_of_lt (hstrict y (by rw [hab]; simp [hy]) (fun e => hwb (e ▸ hy)))
      exact firstMax_filter hfw (by simpa using Ne.symm hew)

end

section
attribute [local instance] Uni.ascii
set_option maxRecDepth 40000

/-- five voters approve of A and B, two of C only, one of B and C, each with one point -/
def approvalPaper : List PaperLine :=
  [.ballots 5 (.scored [{ tok := c!"A", rating := some c!"1" }, { tok := c!"B", rating := some c!"1" }]) none,
   .ballots 2 (.ranked [[{ tok := c!"C", rating := some c!"1" }]]) none,
   .ballots 1 (.ranked [[{ tok := c!"B", rating := some c!"1" }, { tok := c!"C", rating := some c!"1" }]]) none]

example : paperText approvalPaper = c!"5:A/1,B/1\n2:C/1\n1:B/1=C/1\n" := by decide +kernel

theorem approvalItem_ok : ∀ c ∈ c!"ABC", (({ tok := [c], rating := some c!"1" } : Item).Ok) ∧
    ∀ d ∈ ({ tok := [c], rating := some c!"1" } : Item).text, isLineBreak d = false ∧ d ≠ '#' := by
  have clean : ∀ c ∈ c!"ABC", CleanToken [c] ∧ isSepChar c = false ∧ (∀ d ∈ ({ tok := [c], rating := some c!"1" } : Item).text, isLineBreak d = false ∧ d ≠ '#') := by
    unfold CleanToken; decide +kernel
  intro c hc
  obtain ⟨h1, h2, h3⟩ := clean c hc
  refine ⟨⟨by simp, by simp, fun ds h => ?_, h1, by simpa using h2, fun h => by cases h⟩, h3⟩
  cases h
  exact ⟨by simp, by decide +kernel⟩

theorem approvalPaper_ok : PaperOk approvalPaper := by
  refine ⟨?_, 2, .ranked [[{ tok := c!"C", rating := some c!"1" }]], none, by simp [approvalPaper]⟩
  have hA := approvalItem_ok 'A' (by decide)
  have hB := approvalItem_ok 'B' (by decide)
  have hC := approvalItem_ok 'C' (by decide)
  intro l hl
  simp only [approvalPaper, List.mem_cons, List.not_mem_nil, or_false] at hl
  rcases hl with rfl | rfl | rfl
  · refine ⟨⟨fun it hit => ?_, by decide +kernel, fun ts h => (by cases h), fun its h => by cases h; decide⟩, fun t h => by cases h⟩
    rcases List.mem_cons.1 hit with rfl | hit
    · exact hA
    · rcases List.mem_cons.1 hit with rfl | hit
      · exact hB
      · cases hit
  · refine ⟨⟨fun it hit => ?_, by decide +kernel, fun ts h => by cases h; decide +kernel, fun its h => by cases h⟩, fun t h => by cases h⟩
    rcases List.mem_cons.1 hit with rfl | hit
    · exact hC
    · cases hit
  · refine ⟨⟨fun it hit => ?_, by decide +kernel, fun ts h => by cases h; decide +kernel, fun its h => by cases h⟩, fun t h => by cases h⟩
    rcases List.mem_cons.1 hit with rfl | hit
    · exact hB
    · rcases List.mem_cons.1 hit with rfl | hit
      · exact hC
      · cases hit

theorem approvalPaper_approval : PaperApproval 1 approvalPaper := by
  intro v hv
  have : paperVotes approvalPaper = [(5, .scored [{ tok := c!"A", rating := some c!"1" }, { tok := c!"B", rating := some c!"1" }]),
    (2, .ranked [[{ tok := c!"C", rating := some c!"1" }]]),
    (1, .ranked [[{ tok := c!"B", rating := some c!"1" }, { tok := c!"C", rating := some c!"1" }]])] := rfl
  rw [this] at hv
  simp only [List.mem_cons, List.not_mem_nil, or_false] at hv
  rcases hv with rfl | rfl | rfl
  · exact ⟨⟨_, .inr rfl⟩, by decide +kernel⟩
  · exact ⟨⟨_, .inl rfl⟩, by decide +kernel⟩
  · exact ⟨⟨_, .inl rfl⟩, by decide +kernel⟩

/-- Witness for `C123_winners`: `B` has the most approvals. -/
example : PaperOk approvalPaper ∧ (paperText approvalPaper).length < 2 ^ 61 ∧ PaperApproval 1 approvalPaper ∧ paperCands approvalPaper = [c!"A", c!"B", c!"C"] ∧
    (paperCands approvalPaper).map (paperApprovals approvalPaper) = [5, 6, 3] :=
  ⟨approvalPaper_ok, by decide +kernel, approvalPaper_approval, by decide +kernel, by decide +kernel⟩

/-- The instant runoff is not about approvals: ballots that approve of several candidates are left out, and `C`, approved of by the fewest, wins. -/
theorem C123_irv_refuted : ∃ (m : Jabmod) (d : IrvDict), convertAbif true false false (paperText approvalPaper) = .ok m ∧
    irvDict Sched.std m = .ok d ∧ d.run.winner = [c!"C"] ∧
    ∀ x ∈ paperCands approvalPaper, x ≠ c!"C" → paperApprovals approvalPaper c!"C" < paperApprovals approvalPaper x := by
  have hm := readText_eq (t := paperText approvalPaper) (by decide +kernel)
  obtain ⟨d, hd, hw⟩ := irvOf_some (m := readText (paperText approvalPaper)) (ws := [c!"C"]) (by decide +kernel)
  exact ⟨_, d, hm, hd, hw, by decide +kernel⟩

end

end Verif.Props
