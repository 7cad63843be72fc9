/-
C127: a group that a third of the voters stand behind and that beats the others head to head.
-/
import Verif.Props.Withdraw
import Verif.Props.Paper

set_option linter.unusedSimpArgs false
set_option linter.unusedSectionVars false

namespace Verif.Props
open Verif Spec Runoff
open Classical

theorem three_le_counted {m : Jabmod} (he : StrictElection m) (C : Finset Str) {x y z : Str} (hxy : x ≠ y) (hxz : x ≠ z) (hyz : y ≠ z) :
    votes Voteline.qty favourite m.votelines C x + votes Voteline.qty favourite m.votelines C y + votes Voteline.qty favourite m.votelines C z ≤
      counted Voteline.qty favourite m.votelines C := by
  have h1 : votes Voteline.qty favourite m.votelines C y + votes Voteline.qty favourite m.votelines C z ≤
      wsum Voteline.qty m.votelines (fun v => favourite v C = some y ∨ favourite v C = some z) :=
    wsum_add_le he.nonneg (fun v _ e1 e2 => hyz (Option.some.inj (e1.symm.trans e2))) (fun v _ e => .inl e) (fun v _ e => .inr e)
  have h2 : votes Voteline.qty favourite m.votelines C x + wsum Voteline.qty m.votelines (fun v => favourite v C = some y ∨ favourite v C = some z) ≤
      counted Voteline.qty favourite m.votelines C := by
    refine wsum_add_le he.nonneg (fun v _ e1 e2 => ?_) (fun v _ e => by rw [e]; simp) (fun v _ e => ?_)
    · rcases e2 with e2 | e2
      · exact hxy (Option.some.inj (e1.symm.trans e2))
      · exact hxz (Option.some.inj (e1.symm.trans e2))
    · rcases e with e | e <;> rw [e] <;> simp
  omega

theorem counted_le_total {m : Jabmod} (he : StrictElection m) (C : Finset Str) :
    counted Voteline.qty favourite m.votelines C ≤ (m.votelines.map Voteline.qty).sum := by
  have h := wsum_le (q := Voteline.qty) (vs := m.votelines) he.nonneg (p := fun v => favourite v C ≠ none) (r := fun _ => True) (fun _ _ _ => trivial)
  have e : wsum Voteline.qty m.votelines (fun _ => True) = (m.votelines.map Voteline.qty).sum := by
    unfold wsum
    simp
  unfold counted
  omega

/-- the support of `x` against `w`, both among `C`, and the votes of `w` come from different ballots -/
theorem support_votes_le {m : Jabmod} (he : StrictElection m) {C : Finset Str} {x w : Str} (hx : x ∈ C) (hne : x ≠ w) :
    support m x w + votes Voteline.qty favourite m.votelines C w ≤ counted Voteline.qty favourite m.votelines C := by
  unfold support
  rw [← wsum_qtySum]
  refine wsum_add_le he.nonneg (fun v _ e1 e2 => ?_) (fun v hv e1 e2 => ?_) (fun v _ e => by rw [e]; simp)
  · have := (favourite_some.1 e2).2.2 x hx hne
    rw [strictLT e1] at this
    cases this
  · exact (favourite_none he hv).1 e2 x hx (prefers_listed e1)

theorem votes_under_support {m : Jabmod} (he : StrictElection m) {C : Finset Str} {x w : Str} (hx : x ∈ C) (hne : x ≠ w) :
    votes Voteline.qty favourite m.votelines C w ≤ support m w x := by
  unfold support
  rw [← wsum_qtySum]
  exact wsum_le he.nonneg (fun v _ e => (favourite_some.1 e).2.2 x hx hne)

theorem canWin_third {m : Jabmod} (he : StrictElection m) {X : List Str}
    (hthird : (m.votelines.map Voteline.qty).sum < 3 * qtySum (solidFor m X) m.votelines)
    (hbeat : ∀ x ∈ Dict.keys m.candidates, x ∈ X → ∀ y ∈ Dict.keys m.candidates, y ∉ X → support m y x < support m x y) {C : Finset Str} {w : Str}
    (h : CanWin Voteline.qty favourite m.votelines C w) (hC : C ⊆ (Dict.keys m.candidates).toFinset) (hX : ∃ x ∈ C, x ∈ X) : w ∈ X := by
  induction h with
  | won C w h =>
    by_contra hw
    obtain ⟨x, hx, hxX⟩ := hX
    have hne : x ≠ w := fun e => hw (e ▸ hxX)
    rcases h.2 with h2 | h2
    · have h3 := support_votes_le he hx hne
      have h4 := votes_under_support he hx hne
      have h5 := hbeat x (List.mem_toFinset.1 (hC hx)) hxX w (List.mem_toFinset.1 (hC h.1)) hw
      omega
    · exact hne (h2 x hx)
  | drop C w z hz hmin h ih =>
    refine ih ((Finset.erase_subset _ _).trans hC) ?_
    obtain ⟨x, hx, hxX⟩ := hX
    by_cases hzX : ∃ y ∈ C, y ∈ X ∧ y ≠ z
    · obtain ⟨y, hy, hyX, hyz⟩ := hzX
      exact ⟨y, Finset.mem_erase.2 ⟨hyz, hy⟩, hyX⟩
    exfalso
    have hxz : x = z := by
      by_contra hne
      exact hzX ⟨x, hx, hxX, hne⟩
    subst hxz
    obtain ⟨hwx, hw⟩ := Finset.mem_erase.1 (CanWin.mem h)
    have hother : ∀ y ∈ C, y ≠ x → y ∉ X := fun y hy hne hyX => hzX ⟨y, hy, hyX, hne⟩
    have hwX := hother w hw hwx
    have hvotes : qtySum (solidFor m X) m.votelines ≤ votes Voteline.qty favourite m.votelines C x := by
      rw [← wsum_qtySum]
      refine wsum_le he.nonneg (fun v hv e => ?_)
      unfold solidFor at e
      rw [List.all_eq_true] at e
      have hp : ∀ y ∈ C, y ≠ x → prefers v x y = true := by
        intro y hy hne
        have := e y (List.mem_toFinset.1 (hC hy))
        rw [Bool.or_eq_true, decide_eq_true_eq, List.all_eq_true] at this
        exact (this.resolve_left (hother y hy hne)) x hxX
      exact favourite_some.2 ⟨hx, prefers_listed (hp w hw hwx), hp⟩
    have htot := counted_le_total he C
    by_cases h3 : ∃ y ∈ C, y ≠ x ∧ y ≠ w
    · obtain ⟨y, hy, hyx, hyw⟩ := h3
      have := three_le_counted he C (x := x) (y := w) (z := y) (Ne.symm hwx) (Ne.symm hyx) (Ne.symm hyw)
      have h4 := hmin w hw
      have h5 := hmin y hy
      omega
    · have hall : ∀ y ∈ C, y ≠ x → y = w := fun y hy hne => by
        by_contra hn
        exact h3 ⟨y, hy, hne, hn⟩
      have h4 := hmin w hw
      have h5 := votes_under_support he hx (Ne.symm hwx) (w := w)
      have h6 := hbeat x (List.mem_toFinset.1 (hC hx)) hxX w (List.mem_toFinset.1 (hC hw)) hwX
      have h7 : support m x w ≤ votes Voteline.qty favourite m.votelines C x := by
        unfold support
        rw [← wsum_qtySum]
        refine wsum_le he.nonneg (fun v hv e => favourite_some.2 ⟨hx, prefers_listed e, fun y hy hne => ?_⟩)
        rw [hall y hy hne]
        exact e
      omega

/-- C127.  If more than a third of the voters rank all candidates of `X` above all others, and each candidate of `X` beats each of the others head to
head, then a candidate of `X` wins the instant runoff (one of the winners is of `X`, and the winner if there is only one), and all Copeland winners
are of `X`. -/
theorem C127_third (S : Sched) (m : Jabmod) (d : IrvDict) (he : StrictElection m) (hd : irvDict S m = .ok d) (X : List Str)
    (hX : ∃ x ∈ X, x ∈ Dict.keys m.candidates) (hthird : (m.votelines.map Voteline.qty).sum < 3 * qtySum (solidFor m X) m.votelines)
    (hbeat : ∀ x ∈ Dict.keys m.candidates, x ∈ X → ∀ y ∈ Dict.keys m.candidates, y ∉ X → support m y x < support m x y) :
    ((∃ w ∈ d.run.winner, w ∈ X) ∧ ∀ w, d.run.winner = [w] → w ∈ X) ∧ ∃ ws, CopelandWinners m ws ∧ ∀ w ∈ ws, w ∈ X := by
  have hX' : ∃ x ∈ (Dict.keys m.candidates).toFinset, x ∈ X := by
    obtain ⟨x, h1, h2⟩ := hX
    exact ⟨x, List.mem_toFinset.2 h2, h1⟩
  refine ⟨⟨?_, fun w hw => canWin_third he hthird hbeat (run_canWin he hd hw) (Finset.Subset.refl _) hX'⟩, ?_⟩
  · obtain ⟨w, hw, hcan⟩ := run_somebody he hd
    exact ⟨w, hw, canWin_third he hthird hbeat hcan (Finset.Subset.refl _) hX'⟩
  · have hsm : ∃ cc' ws', fullCopecount m = .ok cc' ∧ copelandWinners cc'.winlosstie = .ok ws' ∧ ws' ≠ [] ∧ ∀ x ∈ ws', x ∈ X :=
      C86_smith m (strict_allRanked he) he.countable.cands X hX (fun x hxX hx y hy hyX => hbeat x hx hxX y hy hyX)
    obtain ⟨cc, ws, h1, h2, _, h4⟩ := hsm
    exact ⟨ws, ⟨cc, h1, h2⟩, h4⟩

/-- C127, one candidate: who beats every other candidate head to head, and whom more than a third of the voters put above all others, wins the
instant runoff alone and is the only Copeland winner. -/
theorem C127_condorcet (S : Sched) (m : Jabmod) (d : IrvDict) (he : StrictElection m) (hd : irvDict S m = .ok d) (w : Str)
    (hw : w ∈ Dict.keys m.candidates) (hthird : (m.votelines.map Voteline.qty).sum < 3 * qtySum (favours m w) m.votelines)
    (hbeat : ∀ y ∈ Dict.keys m.candidates, y ≠ w → support m y w < support m w y) : d.run.winner = [w] ∧ CopelandWinners m [w] := by
  have hsolid : qtySum (favours m w) m.votelines ≤ qtySum (solidFor m [w]) m.votelines := by
    refine Verif.qtySum_mono he.nonneg (fun v _ hv => ?_)
    unfold favours at hv
    unfold solidFor
    simp only [Bool.and_eq_true, List.all_eq_true, Bool.or_eq_true, beq_iff_eq] at hv
    simp only [List.all_eq_true, Bool.or_eq_true, decide_eq_true_eq, List.mem_singleton]
    intro y hy
    rcases hv.2 y hy with h | h
    · exact .inl h
    · exact .inr (fun x hx => by rw [hx]; exact h)
  refine ⟨run_unique he hd (fun w' hw' => ?_), copeland_condorcet m (strict_allRanked he) he.countable.cands w hw hbeat⟩
  have := canWin_third he (X := [w]) (by omega) (fun x _ hx y hy hyX => ?_) hw' (Finset.Subset.refl _) ⟨w, List.mem_toFinset.2 hw, by simp⟩
  · simpa using this
  · rw [List.mem_singleton] at hx hyX
    rw [hx]
    exact hbeat y hy hyX

section
variable [U : Uni]

theorem paper_favours {p : List PaperLine} {m : Jabmod} {vls : List Voteline} (f : List.Forall₂ HoldsBallots (paperVotes p) vls)
    (hp : m.votelines.Perm vls) (hk : Dict.keys m.candidates = paperCands p) {w : Str} (hw : w ∈ paperCands p) :
    qtySum (favours m w) m.votelines = (paperTop p (paperCands p) w : Int) := by
  refine paper_sum f hp (fun v vl hv => ?_)
  unfold favours Ballot.favours
  rw [hv.2.2.1, hk]
  simp only [hw, decide_true, Bool.and_true]
  congr 1
  congr 1
  funext c
  rw [hv.2.1, beq_eq_decide]

theorem paper_allBallots {p : List PaperLine} {m : Jabmod} {vls : List Voteline} (f : List.Forall₂ HoldsBallots (paperVotes p) vls)
    (hp : m.votelines.Perm vls) : (m.votelines.map Voteline.qty).sum = (paperCount p : Int) := by
  have h := paper_sum (P := fun _ => true) (q := fun _ => true) f hp (fun _ _ _ => rfl)
  have e1 : ∀ vs : List Voteline, qtySum (fun _ => true) vs = (vs.map Voteline.qty).sum := by
    intro vs; unfold qtySum; simp
  have e2 : paperSum p (fun _ => true) = paperCount p := by unfold paperSum paperCount; simp
  rw [← e1, h, e2]

/-- C127, from the paper to the output.  A file with ballots without equal preferences; candidate `w` is put above all others by more than a third of
the ballots, and preferred to each other candidate by more ballots than the other way round.  Then `abiftool -f abif -t irvjson FILE` reports `w` as
the one winner. -/
theorem C127_paper (env : CliEnv) (p : List PaperLine) (file : Str) (h : PaperOk p) (hl : (paperText p).length < 4999999998) (hf : PlainWord file)
    (hh : Holds env file (paperText p)) (hs : PaperStrict p) (hnil : [] ∉ paperCands p) (w : Str) (hw : w ∈ paperCands p)
    (hthird : paperCount p < 3 * paperTop p (paperCands p) w)
    (hbeat : ∀ y ∈ paperCands p, y ≠ w → paperPrefers p y w < paperPrefers p w y) :
    ∃ doc, CommandPrints env (command c!"irvjson" [] file) doc ∧ member c!"winner" doc = some (texts [w]) := by
  obtain ⟨a, m, vls, h1, h2, h3, h4, h5, h6, h7, h8⟩ := paper_runs (format := c!"irvjson") (mods := []) h (by show _ ∈ _; decide) (by simp) hf hh
  have he := paper_strictElection hl hs hnil h4 h5 h6 h7
  have hcne : m.candidates ≠ [] := by
    intro hz
    rw [← h7, hz] at hw
    cases hw
  obtain ⟨d, hd, _⟩ := C28_parsed env.sched _ _ _ _ _ h4 hcne
  obtain ⟨doc, g1, _, _, g4, _⟩ := C90_irv env a _ m d h2 (parsed_cands_nodup _ _ _ _ _ h4) hd (.inl h3)
  have hwin := (C127_condorcet _ m d he hd w (by rw [h7]; exact hw) (by rw [paper_allBallots h5 h6, paper_favours h5 h6 h7 hw]; omega) (fun y hy hne => by
    rw [paper_support h5 h6, paper_support h5 h6]
    rw [h7] at hy
    have := hbeat y hy hne
    omega)).1
  exact ⟨doc, h1 doc g1, by rw [← hwin]; exact g4⟩
end

section
attribute [local instance] Uni.ascii
set_option maxRecDepth 40000

/-- five of thirteen voters stand behind `P` and `Q`, who beat `R` and `S` -/
def thirdText : Str := c!"3:P>Q>R>S\n2:Q>P>S>R\n4:R>P>Q>S\n4:S>Q>P>R\n"

/-- `C127_third` applies; `Q` has the fewest first choices and `R` and `S` the most -/
example : StrictElection (readText thirdText) ∧ (∃ d, irvDict Sched.std (readText thirdText) = .ok d ∧ d.run.winner = [c!"P"]) ∧
    ((readText thirdText).votelines.map Voteline.qty).sum < 3 * qtySum (solidFor (readText thirdText) [c!"P", c!"Q"]) (readText thirdText).votelines ∧
    (∀ x ∈ Dict.keys (readText thirdText).candidates, x ∈ [c!"P", c!"Q"] → ∀ y ∈ Dict.keys (readText thirdText).candidates, y ∉ [c!"P", c!"Q"] →
      support (readText thirdText) y x < support (readText thirdText) x y) :=
  ⟨strict_text (by decide +kernel) (by decide +kernel) (by decide +kernel) (by unfold Strict; decide +kernel),
    irvOf_some (m := readText thirdText) (ws := [c!"P"]) (by decide +kernel), by decide +kernel, by decide +kernel⟩

def centreText : Str := c!"4:A>B>C\n4:B>A>C\n3:C>B>A\n"

/-- `C127_condorcet` applies: four of eleven voters put `B` first -/
example : StrictElection (readText centreText) ∧
    ((readText centreText).votelines.map Voteline.qty).sum < 3 * qtySum (favours (readText centreText) c!"B") (readText centreText).votelines ∧
    (∀ y ∈ Dict.keys (readText centreText).candidates, y ≠ c!"B" → support (readText centreText) y c!"B" < support (readText centreText) c!"B" y) :=
  ⟨strict_text (by decide +kernel) (by decide +kernel) (by decide +kernel) (by unfold Strict; decide +kernel), by decide +kernel, by decide +kernel⟩

/-- `C127_paper` applies to the paper of Props/Paper -/
example : paperCount exPaper < 3 * paperTop exPaper (paperCands exPaper) c!"A" ∧
    ∀ y ∈ paperCands exPaper, y ≠ c!"A" → paperPrefers exPaper y c!"A" < paperPrefers exPaper c!"A" y := by decide +kernel

/-- exactly a third of the voters for each of three candidates -/
def threeThirdsText : Str := c!"3:A>B>C\n3:B>A>C\n3:C>B>A\n"

/-- Exactly a third of the voters is not enough: `B` beats both others, and all three are reported as winners.  Nor is less: with three of twelve
voters `B`, who beats both others, is eliminated first. -/
theorem C127_refuted : (∃ (m : Jabmod) (d : IrvDict), convertAbif true false false threeThirdsText = .ok m ∧ StrictElection m ∧
      irvDict Sched.std m = .ok d ∧ 3 * qtySum (favours m c!"B") m.votelines = (m.votelines.map Voteline.qty).sum ∧
      (∀ y ∈ Dict.keys m.candidates, y ≠ c!"B" → support m y c!"B" < support m c!"B" y) ∧ d.run.winner = [c!"A", c!"B", c!"C"]) ∧
    ∃ (m : Jabmod) (d : IrvDict), convertAbif true false false pivotText = .ok m ∧ StrictElection m ∧ irvDict Sched.std m = .ok d ∧
      (∀ y ∈ Dict.keys m.candidates, y ≠ c!"B" → support m y c!"B" < support m c!"B" y) ∧ d.run.winner = [c!"A"] := by
  obtain ⟨d, hd, hw⟩ := irvOf_some (m := readText threeThirdsText) (ws := [c!"A", c!"B", c!"C"]) (by decide +kernel)
  obtain ⟨d', hd', hw'⟩ := irvOf_some (m := readText pivotText) (ws := [c!"A"]) (by decide +kernel)
  exact ⟨⟨_, d, readText_eq (by decide +kernel), strict_text (by decide +kernel) (by decide +kernel) (by decide +kernel) (by unfold Strict; decide +kernel),
      hd, by decide +kernel, by decide +kernel, hw⟩,
    _, d', readText_eq (by decide +kernel), strict_text (by decide +kernel) (by decide +kernel) (by decide +kernel) (by unfold Strict; decide +kernel),
      hd', by decide +kernel, hw'⟩
end

end Verif.Props
