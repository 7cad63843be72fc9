/-
C116: what happens when every voter turns the ballot upside down.
-/
import Verif.Props.CopelandTheory
import Verif.Props.TallyExact
import Verif.Props.IrvLater

set_option linter.unusedSimpArgs false
set_option linter.unusedSectionVars false

namespace Verif.Props
open Verif Verif.Spec

/-- The second ballot is the first one upside down, as far as the candidates of `C` are concerned: as many voters, and
`a` is above `b` on one exactly if `b` is above `a` on the other. -/
def UpsideDown (C : List Str) (v v' : Voteline) : Prop :=
  v'.qty = v.qty ∧ ∀ a ∈ C, ∀ b ∈ C, prefers v' a b = prefers v b a

/-- The second election is the first one with every ballot upside down. -/
def ReversedElection (m m' : Jabmod) : Prop :=
  m'.candidates.keys = m.candidates.keys ∧ List.Forall₂ (UpsideDown m.candidates.keys) m.votelines m'.votelines

/-- For example: the ballots rank all candidates, and every rank `r` becomes `k - r`. -/
theorem upsideDown_of_flip (C : List Str) (k : Int) (v v' : Voteline) (hq : v'.qty = v.qty)
    (h : ∀ c ∈ C, ∃ r : Int, rankOf v c = some r ∧ rankOf v' c = some (k - r)) : UpsideDown C v v' := by
  refine ⟨hq, fun a ha b hb => ?_⟩
  obtain ⟨r, h1, h2⟩ := h a ha
  obtain ⟨s, h3, h4⟩ := h b hb
  unfold prefers
  rw [h1, h2, h3, h4]
  simp only [decide_eq_decide]
  omega

theorem support_reversed {m m' : Jabmod} (h : ReversedElection m m') {a b : Str} (ha : a ∈ m.candidates.keys)
    (hb : b ∈ m.candidates.keys) : support m' a b = support m b a := by
  unfold support
  have key : ∀ l l' : List Voteline, List.Forall₂ (UpsideDown m.candidates.keys) l l' →
      qtySum (fun vl => prefers vl a b) l' = qtySum (fun vl => prefers vl b a) l := by
    intro l l' hl
    induction hl with
    | nil => rfl
    | cons h _ ih =>
      rw [qtySum_cons, qtySum_cons, ih, h.1, h.2 a ha b hb]
  exact key _ _ h.2

theorem countOpp_congr {toks : List Str} {c : Str} {p q : Str → Bool} (h : ∀ b ∈ toks, b ≠ c → p b = q b) :
    countOpp toks c p = countOpp toks c q := by
  unfold countOpp
  congr 2
  apply List.filter_congr
  intro b hb
  by_cases hbc : b = c
  · simp [hbc]
  · rw [h b hb hbc]

theorem record_reversed {m m' : Jabmod} (h : ReversedElection m m') {c : Str} (hc : c ∈ m.candidates.keys) :
    winsOf m' c = lossesOf m c ∧ lossesOf m' c = winsOf m c ∧ tiesOf m' c = tiesOf m c := by
  unfold winsOf lossesOf tiesOf
  rw [h.1]
  refine ⟨countOpp_congr ?_, countOpp_congr ?_, countOpp_congr ?_⟩ <;> intro b hb _ <;>
    simp only [support_reversed h hc hb, support_reversed h hb hc, decide_eq_decide]
  exact eq_comm

/-- the win-loss-tie table in terms of the voters -/
theorem table_support (m : Jabmod) (hr : Spec.AllRanked m) (hn : m.candidates.keys.Nodup) :
    ∃ cc, fullCopecount m = .ok cc ∧ ∀ c ∈ m.candidates.keys, ∃ w : WLT, cc.winlosstie.get? c = some w ∧
      w.wins = winsOf m c ∧ w.losses = lossesOf m c ∧ w.ties = 2 * tiesOf m c := by
  obtain ⟨cc, h1, h2, _, _, h5, _⟩ := C21_partial m hn
  have hcell : ∀ a ∈ m.candidates.keys, ∀ b ∈ m.candidates.keys, a ≠ b → cellNum cc.winningvotes a b = support m a b := by
    intro a ha b hb hab
    unfold cellNum
    rw [h2, pairwiseCount_support m hr, pairGet_matrixOf ha hb, if_neg hab]
  refine ⟨cc, h1, fun c hc => ?_⟩
  obtain ⟨w, g1, g2, g3, g4, _⟩ := h5 c hc
  refine ⟨w, g1, ?_, ?_, ?_⟩
  · rw [g2]; unfold winsOf
    exact countOpp_congr fun b hb hbc => by rw [hcell c hc b hb (Ne.symm hbc), hcell b hb c hc hbc]
  · rw [g3]; unfold lossesOf
    exact countOpp_congr fun b hb hbc => by rw [hcell c hc b hb (Ne.symm hbc), hcell b hb c hc hbc]
  · rw [g4]; unfold tiesOf
    congr 1
    exact countOpp_congr fun b hb hbc => by rw [hcell c hc b hb (Ne.symm hbc), hcell b hb c hc hbc]

/-- C116, pairwise counts: with every ballot upside down the matrix is transposed. -/
theorem C116_pairwise (m m' : Jabmod) (h : ReversedElection m m') (hr : Spec.AllRanked m) (hr' : Spec.AllRanked m') :
    (pairwiseCount m').keys = (pairwiseCount m).keys ∧
    ∀ a ∈ m.candidates.keys, ∀ b ∈ m.candidates.keys, ∃ x : Option Int,
      pairGet (pairwiseCount m') a b = .ok x ∧ pairGet (pairwiseCount m) b a = .ok x := by
  refine ⟨by rw [(C17_pairwise m' hr').1, (C17_pairwise m hr).1, h.1], fun a ha b hb => ?_⟩
  rw [pairwiseCount_support m hr, pairwiseCount_support m' hr', pairGet_matrixOf hb ha,
    pairGet_matrixOf (by rw [h.1]; exact ha) (by rw [h.1]; exact hb)]
  by_cases hab : a = b
  · subst hab
    exact ⟨none, by simp, by simp⟩
  · exact ⟨some (support m b a), by rw [if_neg hab, support_reversed h ha hb], by rw [if_neg (Ne.symm hab)]⟩

/-- C116, records: wins and losses change places, ties stay. -/
theorem C116_records (m m' : Jabmod) (h : ReversedElection m m') (hr : Spec.AllRanked m) (hr' : Spec.AllRanked m')
    (hn : m.candidates.keys.Nodup) :
    ∃ cc cc', fullCopecount m = .ok cc ∧ fullCopecount m' = .ok cc' ∧
      ∀ c ∈ m.candidates.keys, ∃ w w' : WLT, cc.winlosstie.get? c = some w ∧ cc'.winlosstie.get? c = some w' ∧
        w'.wins = w.losses ∧ w'.losses = w.wins ∧ w'.ties = w.ties := by
  obtain ⟨cc, h1, h2⟩ := table_support m hr hn
  obtain ⟨cc', h1', h2'⟩ := table_support m' hr' (by rw [h.1]; exact hn)
  refine ⟨cc, cc', h1, h1', fun c hc => ?_⟩
  obtain ⟨w, g1, g2, g3, g4⟩ := h2 c hc
  obtain ⟨w', k1, k2, k3, k4⟩ := h2' c (by rw [h.1]; exact hc)
  obtain ⟨r1, r2, r3⟩ := record_reversed h hc
  exact ⟨w, w', g1, k1, by rw [k2, r1, g3], by rw [k3, r2, g2], by rw [k4, r3, g4]⟩

/-- C116, winners: with every ballot upside down, the Copeland winners are exactly the candidates that beat the fewest others
(not, as they would be if a tie counted as half a win, those with the lowest scores). -/
theorem C116_winners (m m' : Jabmod) (h : ReversedElection m m') (hr' : Spec.AllRanked m')
    (hn : m.candidates.keys.Nodup) (hne : m.candidates.keys ≠ []) :
    ∃ cc' ws', fullCopecount m' = .ok cc' ∧ copelandWinners cc'.winlosstie = .ok ws' ∧ ws' ≠ [] ∧
      ∀ c, c ∈ ws' ↔ c ∈ m.candidates.keys ∧ ∀ d ∈ m.candidates.keys, winsOf m c ≤ winsOf m d := by
  obtain ⟨cc', ws', e1, e2, _, e3, hiff⟩ := C86_fewest_losses m' hr' (by rw [h.1]; exact hn) (by rw [h.1]; exact hne)
  refine ⟨cc', ws', e1, e2, e3, fun c => ?_⟩
  rw [hiff, h.1]
  constructor
  · rintro ⟨hc, hmin⟩
    refine ⟨hc, fun d hd => ?_⟩
    rw [← (record_reversed h hc).2.1, ← (record_reversed h hd).2.1]
    exact hmin d hd
  · rintro ⟨hc, hmin⟩
    refine ⟨hc, fun d hd => ?_⟩
    rw [(record_reversed h hc).2.1, (record_reversed h hd).2.1]
    exact hmin d hd

/-- C116, the reversal criterion: without ties between candidates, if only one candidate wins and there is another candidate,
the winner is not among the winners when all ballots are upside down. -/
theorem C116_criterion (m m' : Jabmod) (h : ReversedElection m m') (hr : Spec.AllRanked m) (hr' : Spec.AllRanked m')
    (hn : m.candidates.keys.Nodup)
    (hties : ∀ a ∈ m.candidates.keys, ∀ b ∈ m.candidates.keys, a ≠ b → support m a b ≠ support m b a)
    (cc : Copecount) (w x : Str) (hx : x ∈ m.candidates.keys) (hxw : x ≠ w)
    (e1 : fullCopecount m = .ok cc) (e2 : copelandWinners cc.winlosstie = .ok [w]) :
    ∃ cc' ws', fullCopecount m' = .ok cc' ∧ copelandWinners cc'.winlosstie = .ok ws' ∧ w ∉ ws' := by
  have hne : m.candidates.keys ≠ [] := List.ne_nil_of_mem hx
  obtain ⟨cc0, ws0, f1, f2, _, _, hiff⟩ := C86_fewest_losses m hr hn hne
  rw [e1] at f1; cases f1
  rw [e2] at f2; cases f2
  obtain ⟨cc', ws', g1, g2, _, hiff'⟩ := C116_winners m m' h hr' hn hne
  refine ⟨cc', ws', g1, g2, fun hw => ?_⟩
  obtain ⟨hwm, hmin⟩ := (hiff w).1 (by simp)
  have hlt : lossesOf m w < lossesOf m x := by
    by_contra hge
    have : x ∈ [w] := (hiff x).2 ⟨hx, fun d hd => by have := hmin d hd; omega⟩
    exact hxw (by simpa using this)
  have hle := ((hiff' w).1 hw).2 x hx
  have tri : ∀ c ∈ m.candidates.keys, winsOf m c + lossesOf m c = (m.candidates.keys.length : Int) - 1 := by
    intro c hc
    have t := countOpp_trichotomy hn hc (support m)
    have z : tiesOf m c = 0 := (countOpp_eq_zero _ _ _).2 (fun b hb hbc => by simpa using hties c hc b hb (Ne.symm hbc))
    unfold winsOf lossesOf
    unfold tiesOf at z
    omega
  have := tri w hwm
  have := tri x hx
  omega

/-- C116, scores: if every voter gives `k - r` points where it was `r`, a candidate's score becomes `k` times the number of
voters minus the old score, so the order of the scores is turned around. -/
theorem C116_scores [Uni] (m m' : Jabmod) (k : Int) (hs : Scorable m) (hs' : Scorable m')
    (hk : m'.candidates.keys = m.candidates.keys)
    (h : List.Forall₂ (fun v v' => v'.qty = v.qty ∧ ∀ c ∈ m.candidates.keys, ratingOf v' c = k - ratingOf v c)
      m.votelines m'.votelines) :
    ∃ d d', basicScore m = .ok d ∧ basicScore m' = .ok d' ∧ d'.keys = d.keys ∧
      (∀ c ∈ m.candidates.keys, ∃ e e' : ScoreEntry, d.get? c = some e ∧ d'.get? c = some e' ∧
        e'.score = k * (m.votelines.map Voteline.qty).sum - e.score) ∧
      (∀ c ∈ m.candidates.keys, ∀ b ∈ m.candidates.keys, ∀ e1 e2 f1 f2 : ScoreEntry, d.get? c = some e1 →
        d.get? b = some e2 → d'.get? c = some f1 → d'.get? b = some f2 → (f1.score < f2.score ↔ e2.score < e1.score)) := by
  obtain ⟨d, h1, h2, h3⟩ := C24_scores m hs
  obtain ⟨d', h1', h2', h3'⟩ := C24_scores m' hs'
  have sum : ∀ c ∈ m.candidates.keys, scoreOf m' c = k * (m.votelines.map Voteline.qty).sum - scoreOf m c := by
    intro c hc
    unfold scoreOf
    have key : ∀ l l' : List Voteline, List.Forall₂ (fun v v' => v'.qty = v.qty ∧
        ∀ c ∈ m.candidates.keys, ratingOf v' c = k - ratingOf v c) l l' →
        (l'.map (fun vl => vl.qty * ratingOf vl c)).sum =
          k * (l.map Voteline.qty).sum - (l.map (fun vl => vl.qty * ratingOf vl c)).sum := by
      intro l l' hl
      induction hl with
      | nil => simp
      | cons h _ ih =>
        simp only [List.map_cons, List.sum_cons, ih, h.1, h.2 c hc]
        rw [Int.mul_sub, Int.mul_add, Int.mul_comm _ k]
        omega
    exact key _ _ h
  have all : ∀ c ∈ m.candidates.keys, ∃ e e' : ScoreEntry, d.get? c = some e ∧ d'.get? c = some e' ∧
      e.score = scoreOf m c ∧ e'.score = scoreOf m' c := by
    intro c hc
    obtain ⟨n, hn⟩ := Dict.exists_get?_of_mem hc
    obtain ⟨n', hn'⟩ := Dict.exists_get?_of_mem (d := m'.candidates) (by rw [hk]; exact hc)
    exact ⟨_, _, h3 c n hn, h3' c n' hn', rfl, rfl⟩
  refine ⟨d, d', h1, h1', by rw [h2, h2', hk], fun c hc => ?_, ?_⟩
  · obtain ⟨e, e', g1, g2, g3, g4⟩ := all c hc
    exact ⟨e, e', g1, g2, by rw [g3, g4, sum c hc]⟩
  · intro c hc b hb e1 e2 f1 f2 k1 k2 k3 k4
    obtain ⟨e, e', g1, g2, g3, g4⟩ := all c hc
    obtain ⟨x, x', y1, y2, y3, y4⟩ := all b hb
    rw [g1] at k1; cases k1
    rw [g2] at k3; cases k3
    rw [y1] at k2; cases k2
    rw [y2] at k4; cases k4
    rw [g3, g4, y3, y4, sum c hc, sum b hb]
    omega

section examples
attribute [local instance] Uni.ascii
set_option maxRecDepth 40000

theorem reversed_of_check {m m' : Jabmod} (hk : Dict.keys m'.candidates = Dict.keys m.candidates)
    (hl : m.votelines.length = m'.votelines.length)
    (h : ∀ x ∈ m.votelines.zip m'.votelines, x.2.qty = x.1.qty ∧
      ∀ a ∈ Dict.keys m.candidates, ∀ b ∈ Dict.keys m.candidates, prefers x.2 a b = prefers x.1 b a) : ReversedElection m m' :=
  ⟨hk, forall₂_of_zip hl h⟩

def tiedCycle : Str := c!"=W:W\n=A:A\n=B:B\n=C:C\n1:W>A>B>C\n1:A>B>C>W\n1:W>B>C>A\n1:B>C>A>W\n1:W>C>A>B\n1:C>A>B>W\n"
def tiedCycleDown : Str := c!"=W:W\n=A:A\n=B:B\n=C:C\n1:C>B>A>W\n1:W>C>B>A\n1:A>C>B>W\n1:W>A>C>B\n1:B>A>C>W\n1:W>B>A>C\n"

/-- The full criterion fails because a tie counts as a whole win (C22): here W ties with everybody, the others beat each other
in a circle, and W is the only Copeland winner of the ballots and of the same ballots upside down. -/
theorem C116_criterion_refuted : ∃ m m' : Jabmod, convertAbif true false false tiedCycle = .ok m ∧
    convertAbif true false false tiedCycleDown = .ok m' ∧ ReversedElection m m' ∧
    copeOf m = some [c!"W"] ∧ copeOf m' = some [c!"W"] :=
  ⟨_, _, readText_eq (by decide +kernel), readText_eq (by decide +kernel),
    reversed_of_check (by decide +kernel) (by decide +kernel) (by decide +kernel), by decide +kernel, by decide +kernel⟩

def revUpText : Str := c!"=A:A\n=B:B\n=C:C\n2:B>A>C\n2:C>B>A\n1:A>C>B\n"
def revDownText : Str := c!"=A:A\n=B:B\n=C:C\n2:C>A>B\n2:A>B>C\n1:B>C>A\n"

/-- Instant runoff does not meet the criterion at all: C alone wins, whether the ballots are upside down or not. -/
theorem C116_irv_refuted : ∃ (m m' : Jabmod) (d d' : IrvDict), convertAbif true false false revUpText = .ok m ∧
    convertAbif true false false revDownText = .ok m' ∧ ReversedElection m m' ∧
    irvDict Sched.std m = .ok d ∧ d.run.winner = [c!"C"] ∧ irvDict Sched.std m' = .ok d' ∧ d'.run.winner = [c!"C"] := by
  obtain ⟨d, hd, hw⟩ := irvOf_some (m := readText revUpText) (ws := [c!"C"]) (by decide +kernel)
  obtain ⟨d', hd', hw'⟩ := irvOf_some (m := readText revDownText) (ws := [c!"C"]) (by decide +kernel)
  exact ⟨_, _, d, d', readText_eq (by decide +kernel), readText_eq (by decide +kernel),
    reversed_of_check (by decide +kernel) (by decide +kernel) (by decide +kernel), hd, hw, hd', hw'⟩

def winsText : Str := c!"=A:A\n=B:B\n=C:C\n2:B>A>C\n2:C>B>A\n1:B>C>A\n"
def winsDown : Str := c!"=A:A\n=B:B\n=C:C\n2:C>A>B\n2:A>B>C\n1:A>C>B\n"

/-- an election without ties and with one winner, and the same upside down -/
example : ReversedElection (readText winsText) (readText winsDown) :=
  reversed_of_check (by decide +kernel) (by decide +kernel) (by decide +kernel)
example : copeOf (readText winsText) = some [c!"B"] ∧ copeOf (readText winsDown) = some [c!"A"] := by decide +kernel
example : ∀ a ∈ Dict.keys (readText winsText).candidates, ∀ b ∈ Dict.keys (readText winsText).candidates, a ≠ b →
    support (readText winsText) a b ≠ support (readText winsText) b a := by decide +kernel
example : Spec.AllRanked (readText winsText) := by
  have e : convertAbif true false false winsText = .ok (readText winsText) := readText_eq (by decide +kernel)
  exact parsed_allRanked _ _ _ _ _ e (by decide +kernel)

/-- ratings out of five, and five minus them -/
example : ∀ x ∈ (readText c!"2:A/5>B/3\n1:B/4>A/0\n").votelines.zip (readText c!"2:B/2>A/0\n1:A/5>B/1\n").votelines,
    x.2.qty = x.1.qty ∧ ∀ c ∈ [c!"A", c!"B"], ratingOf x.2 c = 5 - ratingOf x.1 c := by decide +kernel

end examples
end Verif.Props
