/-
C118: when the methods agree.
-/
import Verif.Props.Bystanders
import Verif.Props.ScoreTheory

set_option linter.unusedSimpArgs false
set_option linter.unusedSectionVars false

namespace Verif.Props
open Verif Spec Runoff

/-- The ballot lists `w` above every other candidate. -/
def favours (m : Jabmod) (w : Str) (v : Voteline) : Bool :=
  decide (w ∈ Dict.keys v.prefs) && (Dict.keys m.candidates).all (fun c => c == w || prefers v w c)

/-- The Copeland winners. -/
def CopelandWinners (m : Jabmod) (ws : List Str) : Prop := ∃ cc, fullCopecount m = .ok cc ∧ copelandWinners cc.winlosstie = .ok ws

theorem wsum_qtySum (p : Voteline → Bool) (vs : List Voteline) : wsum Voteline.qty vs (fun v => p v = true) = qtySum p vs := by
  induction vs with
  | nil => rfl
  | cons v vs ih => rw [wsum_cons, qtySum_cons, ih]; split <;> rfl

theorem prefers_not_both {v : Voteline} {a b : Str} (h : prefers v a b = true) : prefers v b a = false := by
  unfold prefers at *
  cases h1 : rankOf v a <;> cases h2 : rankOf v b <;> simp_all
  omega

theorem prefers_onBallot {v : Voteline} {a b : Str} (h : prefers v a b = true) : a ∈ Dict.keys v.prefs := by
  by_contra hn
  rw [prefers_offBallot hn] at h
  cases h

theorem strict_allRanked {m : Jabmod} (he : StrictElection m) : Spec.AllRanked m := by
  intro v hv c p hp
  obtain ⟨r, hr⟩ := he.countable.ranked v hv c p hp
  refine ⟨r, hr, ?_⟩
  have := he.below v hv c r (by unfold rankOf; rw [hp]; exact hr)
  omega

theorem first_round {S : Sched} {m : Jabmod} {d : IrvDict} (he : StrictElection m) (hd : irvDict S m = .ok d) :
    ∃ cnt, d.run.rounds[0]? = some cnt ∧
      (∀ c ∈ Dict.keys m.candidates, Dict.get? cnt c = some (votes Voteline.qty favourite m.votelines (Dict.keys m.candidates).toFinset c)) ∧
      (cnt.map Prod.snd).sum = counted Voteline.qty favourite m.votelines (Dict.keys m.candidates).toFinset := by
  obtain ⟨rm, h1, _, h2⟩ := (C29_partial _ m d he.countable hd).1
  obtain ⟨cnt, h3, _, _, h4, h5⟩ := run_count he hd h1
  rw [h2] at h4 h5
  exact ⟨cnt, h3, h4, h5⟩

theorem favourite_favours {m : Jabmod} {v : Voteline} {w : Str} (hw : w ∈ Dict.keys m.candidates) :
    favourite v (Dict.keys m.candidates).toFinset = some w ↔ favours m w v = true := by
  rw [favourite_some]
  unfold favours
  simp only [List.mem_toFinset, Bool.and_eq_true, decide_eq_true_eq, List.all_eq_true, Bool.or_eq_true, beq_iff_eq]
  constructor
  · rintro ⟨_, h2, h3⟩
    exact ⟨h2, fun c hc => if e : c = w then .inl e else .inr (h3 c hc e)⟩
  · rintro ⟨h2, h3⟩
    exact ⟨hw, h2, fun c hc e => (h3 c hc).resolve_left e⟩

theorem votes_favours {m : Jabmod} {w : Str} (hw : w ∈ Dict.keys m.candidates) :
    votes Voteline.qty favourite m.votelines (Dict.keys m.candidates).toFinset w = qtySum (favours m w) m.votelines := by
  unfold votes
  rw [← wsum_qtySum]
  exact wsum_congr (fun v _ => favourite_favours hw)

theorem counted_le_all {m : Jabmod} (he : StrictElection m) (C : Finset Str) :
    counted Voteline.qty favourite m.votelines C ≤ (m.votelines.map Voteline.qty).sum := by
  unfold counted
  have h1 : wsum Voteline.qty m.votelines (fun v => favourite v C ≠ none) ≤ wsum Voteline.qty m.votelines (fun _ => True) :=
    wsum_le he.nonneg (fun _ _ _ => trivial)
  have h2 : ∀ l : List Voteline, wsum Voteline.qty l (fun _ => True) = (l.map Voteline.qty).sum := by
    intro l
    induction l with
    | nil => rfl
    | cons v l ih => rw [wsum_cons, ih]; simp
  rw [h2] at h1
  exact h1

/-- A candidate that more voters prefer to each other one than the other way round is the only Copeland winner. -/
theorem copeland_condorcet (m : Jabmod) (hr : Spec.AllRanked m) (hn : (Dict.keys m.candidates).Nodup) (w : Str) (hw : w ∈ Dict.keys m.candidates)
    (h : ∀ c ∈ Dict.keys m.candidates, c ≠ w → support m c w < support m w c) : CopelandWinners m [w] := by
  obtain ⟨cc, ws, e1, e2, e3, e4, hiff⟩ := C86_fewest_losses m hr hn (List.ne_nil_of_mem hw)
  have h5 : ∃ cc' ws', fullCopecount m = .ok cc' ∧ copelandWinners cc'.winlosstie = .ok ws' ∧ ws' ≠ [] ∧ ∀ x ∈ ws', x ∈ [w] :=
    C86_smith m hr hn [w] ⟨w, by simp, hw⟩ (by
      intro d hd _ x hx hxw
      rw [List.mem_singleton] at hd hxw
      subst hd
      exact h x hx hxw)
  obtain ⟨cc', ws', f1, f2, _, f4⟩ := h5
  rw [e1] at f1; cases f1
  rw [e2] at f2; cases f2
  refine ⟨cc, e1, ?_⟩
  rw [e2]
  match ws, e3, e4, f4 with
  | [x], _, _, f4 => rw [List.mem_singleton.1 (f4 x (by simp))]
  | x :: y :: t, e3, _, f4 =>
    have h1 := List.mem_singleton.1 (f4 x (by simp))
    have h2 := List.mem_singleton.1 (f4 y (by simp))
    rw [h1, h2] at e3
    simp at e3

/-- C118: a candidate whom more than half of the voters put above all others wins both the instant runoff, in its first round, and the Copeland
count, alone. -/
theorem C118_majority (S : Sched) (m : Jabmod) (d : IrvDict) (he : StrictElection m) (hd : irvDict S m = .ok d) (w : Str)
    (hw : w ∈ Dict.keys m.candidates) (hmaj : (m.votelines.map Voteline.qty).sum < 2 * qtySum (favours m w) m.votelines) :
    d.run.winner = [w] ∧ d.run.rounds.length = 1 ∧ CopelandWinners m [w] := by
  obtain ⟨cnt, h1, h2, h3⟩ := first_round he hd
  have h4 := counted_le_all he (Dict.keys m.candidates).toFinset
  have h5 := C32_majority S m d he.countable he.nonneg hd cnt h1 w _ (h2 w hw) (by rw [h3, votes_favours hw]; omega)
  refine ⟨h5.1, h5.2, copeland_condorcet m (strict_allRanked he) he.countable.cands w hw (fun c hc hcw => ?_)⟩
  have hge : qtySum (favours m w) m.votelines ≤ support m w c := by
    refine Verif.qtySum_mono he.nonneg (fun v _ hv => ?_)
    unfold favours at hv
    simp only [Bool.and_eq_true, List.all_eq_true, Bool.or_eq_true, beq_iff_eq] at hv
    exact (hv.2 c hc).resolve_left hcw
  have hsum : support m w c + support m c w ≤ (m.votelines.map Voteline.qty).sum := by
    obtain ⟨x, y, p1, p2, p3⟩ := C18_conservation m (strict_allRanked he) w c hw hc (Ne.symm hcw)
    rw [pairwiseCount_support m (strict_allRanked he), pairGet_matrixOf hw hc, if_neg (Ne.symm hcw)] at p1
    rw [pairwiseCount_support m (strict_allRanked he), pairGet_matrixOf hc hw, if_neg hcw] at p2
    cases p1; cases p2
    have : 0 ≤ qtySum (fun vl => indifferent vl w c) m.votelines := by
      have h0 := Verif.qtySum_mono (p := fun _ => false) (q := fun vl => indifferent vl w c) he.nonneg (fun _ _ h => by cases h)
      have : qtySum (fun _ => false) m.votelines = 0 := by
        unfold qtySum; simp
      omega
    omega
  omega

/-- C118: if all candidates have the same number of first choices, the instant runoff ends at once with all of them as winners. -/
theorem C118_all_tied (S : Sched) (m : Jabmod) (d : IrvDict) (he : StrictElection m) (hd : irvDict S m = .ok d) (n : Int)
    (h : ∀ c ∈ Dict.keys m.candidates, qtySum (favours m c) m.votelines = n) :
    d.run.winner = Dict.keys m.candidates ∧ d.run.rounds.length = 1 := by
  obtain ⟨cnt, h1, h2, h3⟩ := first_round he hd
  have hs := irvDict_steps hd
  have hne := irvDict_nonempty he.countable hd
  obtain ⟨q, kept, mn, mx, k1, k2, ⟨a, a1, a1'⟩, a2, ⟨b, b1, b1'⟩, b2, hc⟩ := steps_cases hs he.countable.state hne
  have hcount : cnt = countsOf (Dict.keys m.candidates) kept := by
    rcases hc with ⟨_, h⟩ | ⟨_, t, _, _, h⟩ <;> rw [h] at h1 <;> simpa using h1.symm
  have ht : ∀ c ∈ Dict.keys m.candidates, tally kept c = n := by
    intro c hcm
    have := h2 c hcm
    rw [hcount, get?_countsOf, if_pos hcm, votes_favours hcm, h c hcm] at this
    exact Option.some.inj this
  rcases hc with ⟨_, hrun⟩ | ⟨⟨hlt, _⟩, _⟩
  · rw [hrun]
    refine ⟨?_, rfl⟩
    show leaders (Dict.keys m.candidates) kept mx = Dict.keys m.candidates
    unfold leaders
    rw [List.filter_eq_self]
    intro c hcm
    have e1 := ht c hcm
    have e2 := ht b b1
    simp
    omega
  · have e1 := ht a a1
    have e2 := ht b b1
    omega

/-- with two candidates, preferring one to the other is voting for it -/
theorem favours_two {m : Jabmod} {a b : Str} (hab : a ≠ b) (hc : ∀ c, c ∈ Dict.keys m.candidates ↔ c = a ∨ c = b) (v : Voteline) :
    favours m a v = prefers v a b := by
  rw [Bool.eq_iff_iff]
  unfold favours
  simp only [Bool.and_eq_true, decide_eq_true_eq, List.all_eq_true, Bool.or_eq_true, beq_iff_eq]
  constructor
  · rintro ⟨_, h⟩
    exact (h b ((hc b).2 (.inr rfl))).resolve_left (Ne.symm hab)
  · intro h
    refine ⟨prefers_onBallot h, fun c hcm => ?_⟩
    rcases (hc c).1 hcm with rfl | rfl
    · exact .inl rfl
    · exact .inr h

/-- the ballots counted are those that prefer one of the two -/
theorem counted_two {m : Jabmod} {a b : Str} (hab : a ≠ b) (hc : ∀ c, c ∈ Dict.keys m.candidates ↔ c = a ∨ c = b) :
    counted Voteline.qty favourite m.votelines (Dict.keys m.candidates).toFinset = support m a b + support m b a := by
  have hc' : ∀ c, c ∈ Dict.keys m.candidates ↔ c = b ∨ c = a := fun c => by rw [hc, or_comm]
  unfold counted support
  have key : ∀ l : List Voteline, wsum Voteline.qty l (fun v => favourite v (Dict.keys m.candidates).toFinset ≠ none) =
      qtySum (fun v => prefers v a b) l + qtySum (fun v => prefers v b a) l := by
    intro l
    induction l with
    | nil => rfl
    | cons v l ih =>
      rw [wsum_cons, qtySum_cons, qtySum_cons, ih]
      have hiff : favourite v (Dict.keys m.candidates).toFinset ≠ none ↔ prefers v a b = true ∨ prefers v b a = true := by
        rw [← Option.isSome_iff_ne_none, Option.isSome_iff_exists]
        constructor
        · rintro ⟨x, hx⟩
          have hm : x ∈ Dict.keys m.candidates := by simpa using (favourite_some.1 hx).1
          rw [favourite_favours hm] at hx
          rcases (hc x).1 hm with rfl | rfl
          · rw [favours_two hab hc] at hx; exact .inl hx
          · rw [favours_two (Ne.symm hab) hc'] at hx; exact .inr hx
        · rintro (h | h)
          · exact ⟨a, (favourite_favours ((hc a).2 (.inl rfl))).2 (by rw [favours_two hab hc]; exact h)⟩
          · exact ⟨b, (favourite_favours ((hc b).2 (.inr rfl))).2 (by rw [favours_two (Ne.symm hab) hc']; exact h)⟩
      by_cases h1 : prefers v a b = true
      · have h2 := prefers_not_both h1
        rw [if_pos (hiff.2 (.inl h1)), if_pos h1, if_neg (by simp [h2])]
        omega
      · by_cases h2 : prefers v b a = true
        · rw [if_pos (hiff.2 (.inr h2)), if_neg h1, if_pos h2]
          omega
        · rw [if_neg (fun h => (hiff.1 h).elim h1 h2), if_neg h1, if_neg h2]
          omega
  exact key m.votelines

/-- C118: with two candidates, if more voters prefer `a` to `b` than the other way round, `a` alone wins the instant runoff, in one round, and the
Copeland count. -/
theorem C118_two (S : Sched) (m : Jabmod) (d : IrvDict) (he : StrictElection m) (hd : irvDict S m = .ok d) (a b : Str) (hab : a ≠ b)
    (hc : ∀ c, c ∈ Dict.keys m.candidates ↔ c = a ∨ c = b) (h : support m b a < support m a b) :
    d.run.winner = [a] ∧ d.run.rounds.length = 1 ∧ CopelandWinners m [a] := by
  have ha : a ∈ Dict.keys m.candidates := (hc a).2 (.inl rfl)
  obtain ⟨cnt, h1, h2, h3⟩ := first_round he hd
  have hv : votes Voteline.qty favourite m.votelines (Dict.keys m.candidates).toFinset a = support m a b := by
    rw [votes_favours ha]
    unfold support
    congr 1
    funext v
    exact favours_two hab hc v
  have h5 := C32_majority S m d he.countable he.nonneg hd cnt h1 a _ (h2 a ha) (by rw [h3, hv, counted_two hab hc]; omega)
  refine ⟨h5.1, h5.2, copeland_condorcet m (strict_allRanked he) he.countable.cands a ha (fun c hcm hca => ?_)⟩
  rcases (hc c).1 hcm with rfl | rfl
  · exact absurd rfl hca
  · exact h

/-- C118: with two candidates and as many voters for each, both win the instant runoff and the Copeland count. -/
theorem C118_two_tied (S : Sched) (m : Jabmod) (d : IrvDict) (he : StrictElection m) (hd : irvDict S m = .ok d) (a b : Str) (hab : a ≠ b)
    (hc : ∀ c, c ∈ Dict.keys m.candidates ↔ c = a ∨ c = b) (h : support m b a = support m a b) :
    d.run.winner = Dict.keys m.candidates ∧ ∃ ws, CopelandWinners m ws ∧ a ∈ ws ∧ b ∈ ws := by
  have hc' : ∀ c, c ∈ Dict.keys m.candidates ↔ c = b ∨ c = a := fun c => by rw [hc, or_comm]
  have e1 : qtySum (favours m a) m.votelines = support m a b := by
    unfold support; congr 1; funext v; exact favours_two hab hc v
  have e2 : qtySum (favours m b) m.votelines = support m b a := by
    unfold support; congr 1; funext v; exact favours_two (Ne.symm hab) hc' v
  refine ⟨(C118_all_tied S m d he hd (support m a b) ?_).1, ?_⟩
  · intro c hcm
    rcases (hc c).1 hcm with rfl | rfl
    · exact e1
    · rw [e2, h]
  · obtain ⟨cc, ws, f1, f2, _, _, hiff⟩ := C86_fewest_losses m (strict_allRanked he) he.countable.cands
      (List.ne_nil_of_mem ((hc a).2 (.inl rfl)))
    have hl : ∀ x ∈ Dict.keys m.candidates, lossesOf m x = 0 := by
      intro x hx
      unfold lossesOf
      rw [countOpp_eq_zero]
      intro y hy hyx
      rcases (hc x).1 hx with rfl | rfl <;> rcases (hc y).1 hy with rfl | rfl
      · exact absurd rfl hyx
      · simp [h]
      · simp [h]
      · exact absurd rfl hyx
    refine ⟨ws, ⟨cc, f1, f2⟩, (hiff a).2 ⟨(hc a).2 (.inl rfl), fun x hx => ?_⟩, (hiff b).2 ⟨(hc b).2 (.inr rfl), fun x hx => ?_⟩⟩
    · rw [hl a ((hc a).2 (.inl rfl)), hl x hx]
    · rw [hl b ((hc b).2 (.inr rfl)), hl x hx]

theorem topTwo_two {f : Str → Int} {l : List Str} {a b : Str} (hab : a ≠ b) (hn : l.Nodup) (hl : ∀ c, c ∈ l ↔ c = a ∨ c = b) : TopTwo f l a b := by
  have key : ∀ x y : Str, x ≠ y → (∀ c, c ∈ l ↔ c = x ∨ c = y) → l.filter (fun c => decide (c ≠ y)) = [x] := by
    intro x y hxy h
    have h1 : (l.filter (fun c => decide (c ≠ y))).Perm [x] := by
      rw [List.perm_ext_iff_of_nodup (hn.filter _) (by simp)]
      intro c
      rw [List.mem_filter, h c]
      simp only [decide_eq_true_eq, List.mem_singleton]
      constructor
      · rintro ⟨h1, h2⟩; exact h1.resolve_right h2
      · rintro rfl; exact ⟨.inl rfl, hxy⟩
    exact List.perm_singleton.1 h1
  refine ⟨hab, ?_, ?_⟩
  · rw [key a b hab hl]; exact ⟨[], [], rfl, by simp, by simp⟩
  · rw [key b a (Ne.symm hab) (fun c => by rw [hl, or_comm])]; exact ⟨[], [], rfl, by simp, by simp⟩

/-- C118: with two candidates the STAR winner is the one more voters prefer, whatever the scores. -/
theorem C118_star_two [Uni] (m : Jabmod) (h : StarCounted m) (a b : Str) (hab : a ≠ b) (hc : ∀ c, c ∈ Dict.keys m.candidates ↔ c = a ∨ c = b) :
    WinsStar m a ↔ support m b a < support m a b := by
  have hn : (Dict.keys m.candidates).Nodup := h.1.cands
  rw [C97_star m h]
  constructor
  · rintro ⟨d, hd, hs⟩
    rcases (hc d).1 (topTwo_mem hd).2 with rfl | rfl
    · exact absurd rfl hd.1
    · exact hs
  · intro hs
    exact ⟨b, topTwo_two hab hn hc, hs⟩

section
attribute [local instance] Uni.ascii
set_option maxRecDepth 40000

/-- more than half of the voters want `A` above all -/
def halfText : Str := c!"5:A>B>C\n4:B>C\n2:A>C>B\n2:C>B>A\n"

/-- `C118_majority` applies -/
example : ∃ d, irvDict Sched.std (readText halfText) = .ok d ∧ StrictElection (readText halfText) ∧ c!"A" ∈ Dict.keys (readText halfText).candidates ∧
    ((readText halfText).votelines.map Voteline.qty).sum < 2 * qtySum (favours (readText halfText) c!"A") (readText halfText).votelines := by
  obtain ⟨d, hd, _⟩ := irvOf_some (m := readText halfText) (ws := [c!"A"]) (by decide +kernel)
  exact ⟨d, hd, strict_text (by decide +kernel) (by decide +kernel) (by decide +kernel) (by unfold Strict; decide +kernel),
    (by decide +kernel), (by decide +kernel)⟩

def duelText : Str := c!"4:A/1>B/0\n3:B/9>A/0\n2:B/9\n"
def drawText : Str := c!"4:A>B\n3:B>A\n1:B\n"
def thirdsText : Str := c!"4:A>B\n4:B>A\n4:C\n"

theorem twoOf {m : Jabmod} {a b : Str} (h : Dict.keys m.candidates = [a, b]) (c : Str) : c ∈ Dict.keys m.candidates ↔ c = a ∨ c = b := by
  rw [h]; simp

/-- `C118_two` and `C118_star_two` apply, with `B` for the winner -/
example : ∃ d, irvDict Sched.std (readText duelText) = .ok d ∧ StrictElection (readText duelText) ∧ StarCounted (readText duelText) ∧
    (∀ c, c ∈ Dict.keys (readText duelText).candidates ↔ c = c!"A" ∨ c = c!"B") ∧
    support (readText duelText) c!"A" c!"B" < support (readText duelText) c!"B" c!"A" := by
  obtain ⟨d, hd, _⟩ := irvOf_some (m := readText duelText) (ws := [c!"B"]) (by decide +kernel)
  have hm := readText_eq (t := duelText) (by decide +kernel)
  exact ⟨d, hd, strict_text (by decide +kernel) (by decide +kernel) (by decide +kernel) (by unfold Strict; decide +kernel),
    parsed_starCounted _ _ _ _ _ hm (by decide +kernel), twoOf (by decide +kernel), (by decide +kernel)⟩

/-- `C118_two_tied` applies -/
example : ∃ d, irvDict Sched.std (readText drawText) = .ok d ∧ StrictElection (readText drawText) ∧
    (∀ c, c ∈ Dict.keys (readText drawText).candidates ↔ c = c!"A" ∨ c = c!"B") ∧
    support (readText drawText) c!"B" c!"A" = support (readText drawText) c!"A" c!"B" ∧ 0 < support (readText drawText) c!"A" c!"B" := by
  obtain ⟨d, hd, _⟩ := irvOf_some (m := readText drawText) (ws := [c!"A", c!"B"]) (by decide +kernel)
  exact ⟨d, hd, strict_text (by decide +kernel) (by decide +kernel) (by decide +kernel) (by unfold Strict; decide +kernel),
    twoOf (by decide +kernel), (by decide +kernel), (by decide +kernel)⟩

/-- `C118_all_tied` applies -/
example : ∃ d, irvDict Sched.std (readText thirdsText) = .ok d ∧ StrictElection (readText thirdsText) ∧
    ∀ c ∈ Dict.keys (readText thirdsText).candidates, qtySum (favours (readText thirdsText) c) (readText thirdsText).votelines = 4 := by
  obtain ⟨d, hd, _⟩ := irvOf_some (m := readText thirdsText) (ws := [c!"A", c!"B", c!"C"]) (by decide +kernel)
  exact ⟨d, hd, strict_text (by decide +kernel) (by decide +kernel) (by decide +kernel) (by unfold Strict; decide +kernel), (by decide +kernel)⟩

def fourText : Str := c!"7:B/9,A/8,D/6,C/4\n6:C/9,D/6,A/1,B/0\n1:A/8,D/7,B/1,C/0\n1:C/9,A/6,B/3,D/1\n"

/-- With more than two candidates the methods need not agree: one election with four candidates, no ties, and four different winners. -/
theorem C118_four_refuted : ∃ (m : Jabmod) (d : IrvDict), convertAbif true false false fourText = .ok m ∧ StrictElection m ∧
    irvDict Sched.std m = .ok d ∧ d.run.winner = [c!"B"] ∧ CopelandWinners m [c!"A"] ∧ ScoreWinner m c!"C" ∧ WinsStar m c!"D" := by
  have hm := readText_eq (t := fourText) (by decide +kernel)
  have he := strict_text (text := fourText) (by decide +kernel) (by decide +kernel) (by decide +kernel) (by unfold Strict; decide +kernel)
  obtain ⟨d, hd, hw⟩ := irvOf_some (m := readText fourText) (ws := [c!"B"]) (by decide +kernel)
  refine ⟨_, d, hm, he, hd, hw, copeland_condorcet _ (strict_allRanked he) he.countable.cands _ (by decide +kernel) (by decide +kernel),
    scoreWinner_of (by decide +kernel), ?_⟩
  exact winsStar_of (a := c!"C") (b := c!"D") (by decide) (by decide +kernel) (by decide +kernel)
    (parsed_starCounted _ _ _ _ _ hm (by decide +kernel))
end
end Verif.Props
