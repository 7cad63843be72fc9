/-
C125: precincts with the same winner, counted together.
-/
import Verif.Spec.Precincts
import Verif.Props.Agree
import Verif.Props.Merge
import Mathlib.Tactic.Linarith

set_option linter.unusedSimpArgs false
set_option linter.unusedSectionVars false

namespace Verif.Props
open Spec

section
variable [U : Uni]

/-- C125: reading two texts one after the other counts their elections together, if they have the same candidates. -/
theorem C125_text (cw : Bool) (t1 t2 : Str) (m1 m2 : Jabmod) (h1 : convertAbif cw false false (t1 ++ ['\n']) = .ok m1)
    (h2 : convertAbif cw false false t2 = .ok m2) (hc : ∀ c, c ∈ Dict.keys m1.candidates ↔ c ∈ Dict.keys m2.candidates) :
    ∃ m, convertAbif cw false false (t1 ++ '\n' :: t2) = .ok m ∧ Together m m1 m2 := by
  obtain ⟨m, hm, hs, hk, _⟩ := C83_merge cw t1 t2 m1 m2 h1 h2
  have hmem : ∀ c, c ∈ Dict.keys m.candidates ↔ c ∈ Dict.keys m1.candidates := by
    intro c
    rw [hk, mem_firsts, List.mem_append, ← hc, or_self]
  exact ⟨m, hm, hs.1, fun c => (hmem c).symm, fun c => ((hmem c).trans (hc c)).symm⟩

end

theorem qtySum_rearranged (p : Voteline → Bool) {a b : List Voteline} (h : a.Perm b) : qtySum p a = qtySum p b :=
  perm_sum ((h.filter _).map _)

theorem together_support {m m1 m2 : Jabmod} (h : Together m m1 m2) (a b : Str) : support m a b = support m1 a b + support m2 a b := by
  unfold support
  rw [qtySum_rearranged _ h.ballots, qtySum_append]

/-- C125: a candidate more than half of the voters of each precinct put above all others wins the instant runoff of the whole, in its first round,
and is its only Copeland winner. -/
theorem C125_majority (S : Sched) (m m1 m2 : Jabmod) (d : IrvDict) (h : Together m m1 m2) (he : StrictElection m) (hd : irvDict S m = .ok d) (w : Str)
    (hw : w ∈ Dict.keys m.candidates) (h1 : (m1.votelines.map Voteline.qty).sum < 2 * qtySum (favours m1 w) m1.votelines)
    (h2 : (m2.votelines.map Voteline.qty).sum < 2 * qtySum (favours m2 w) m2.votelines) :
    d.run.winner = [w] ∧ d.run.rounds.length = 1 ∧ CopelandWinners m [w] := by
  have hall : ∀ (l l' : List Str) (p : Str → Bool), (∀ c, c ∈ l ↔ c ∈ l') → l.all p = l'.all p := by
    intro l l' p hl
    rw [Bool.eq_iff_iff, List.all_eq_true, List.all_eq_true]
    exact ⟨fun g c hc => g c ((hl c).2 hc), fun g c hc => g c ((hl c).1 hc)⟩
  have f1 : favours m1 w = favours m w := by
    funext v; unfold favours; rw [hall _ _ _ h.first]
  have f2 : favours m2 w = favours m w := by
    funext v; unfold favours; rw [hall _ _ _ h.second]
  refine C118_majority S m d he hd w hw ?_
  rw [perm_sum (h.ballots.map _), List.map_append, List.sum_append, qtySum_rearranged _ h.ballots, qtySum_append]
  rw [f1] at h1
  rw [f2] at h2
  omega

theorem lossesOf_zero {m : Jabmod} {w : Str} : lossesOf m w = 0 ↔ ∀ c ∈ Dict.keys m.candidates, c ≠ w → support m c w ≤ support m w c := by
  unfold lossesOf countOpp
  beta_reduce
  constructor
  · intro h c hc hcw
    by_contra hn
    have : c ∈ (Dict.keys m.candidates).filter (fun b => decide (b ≠ w) && decide (support m b w > support m w b)) := by
      rw [List.mem_filter]
      refine ⟨hc, ?_⟩
      simp only [ne_eq, hcw, not_false_eq_true, decide_true, Bool.true_and, decide_eq_true_eq]
      omega
    have := List.length_pos_of_mem this
    omega
  · intro h
    have : (Dict.keys m.candidates).filter (fun b => decide (b ≠ w) && decide (support m b w > support m w b)) = [] := by
      rw [List.filter_eq_nil_iff]
      intro c hc hcond
      simp only [ne_eq, Bool.and_eq_true, decide_eq_true_eq] at hcond
      have := h c hc hcond.1
      omega
    rw [this]
    rfl

theorem lossesOf_nonneg (m : Jabmod) (c : Str) : 0 ≤ lossesOf m c := by unfold lossesOf countOpp; exact Int.natCast_nonneg _

/-- A candidate nobody beats head to head is a Copeland winner. -/
theorem copeland_unbeaten {m : Jabmod} (hr : Spec.AllRanked m) (hn : (Dict.keys m.candidates).Nodup) {w : Str} (hw : w ∈ Dict.keys m.candidates)
    (h : ∀ c ∈ Dict.keys m.candidates, c ≠ w → support m c w ≤ support m w c) : ∃ ws, CopelandWinners m ws ∧ w ∈ ws := by
  obtain ⟨cc, ws, e1, e2, _, _, hiff⟩ := C86_fewest_losses m hr hn (List.ne_nil_of_mem hw)
  refine ⟨ws, ⟨cc, e1, e2⟩, (hiff w).2 ⟨hw, fun d _ => ?_⟩⟩
  rw [lossesOf_zero.2 h]
  exact lossesOf_nonneg m d

/-- C125: a candidate nobody beats in either precinct is a Copeland winner of the whole. -/
theorem C125_unbeaten (m m1 m2 : Jabmod) (h : Together m m1 m2) (hr : Spec.AllRanked m) (hn : (Dict.keys m.candidates).Nodup) (w : Str)
    (hw : w ∈ Dict.keys m.candidates)
    (h1 : ∀ c ∈ Dict.keys m1.candidates, c ≠ w → support m1 c w ≤ support m1 w c)
    (h2 : ∀ c ∈ Dict.keys m2.candidates, c ≠ w → support m2 c w ≤ support m2 w c) : ∃ ws, CopelandWinners m ws ∧ w ∈ ws := by
  refine copeland_unbeaten hr hn hw (fun c hc hcw => ?_)
  have e1 := h1 c ((h.first c).2 hc) hcw
  have e2 := h2 c ((h.second c).2 hc) hcw
  rw [together_support h, together_support h]
  omega

/-- one for a lost comparison, zero otherwise -/
def lost (m : Jabmod) (a b : Str) : Int := if support m a b < support m b a then 1 else 0

theorem lost_or (m : Jabmod) (a b : Str) : 0 ≤ lost m a b ∧ lost m a b + lost m b a ≤ 1 := by
  unfold lost
  split <;> split <;> omega

theorem lossesOf_sum (m : Jabmod) (a : Str) : lossesOf m a = ((Dict.keys m.candidates).map (fun b => if b = a then 0 else lost m a b)).sum := by
  unfold lossesOf countOpp
  induction Dict.keys m.candidates with
  | nil => rfl
  | cons b l ih =>
    rw [List.map_cons, List.sum_cons, ← ih, List.filter_cons]
    by_cases hb : b = a
    · simp [hb]
    · by_cases hl : support m a b < support m b a
      · simp [hb, hl, lost]; omega
      · simp [hb, hl, lost]

/-- With at most four candidates the only Copeland winner loses no comparison. -/
theorem sole_unbeaten {m : Jabmod} (hr : Spec.AllRanked m) (hn : (Dict.keys m.candidates).Nodup) (h4 : m.candidates.length ≤ 4) {w : Str}
    (hw : CopelandWinners m [w]) : w ∈ Dict.keys m.candidates ∧ ∀ c ∈ Dict.keys m.candidates, c ≠ w → support m c w ≤ support m w c := by
  have hne : Dict.keys m.candidates ≠ [] := by
    intro h0
    obtain ⟨cc, e1, e2⟩ := hw
    rw [fullCopecount_eq m hn] at e1
    cases e1
    simp only [h0] at e2
    cases e2
  obtain ⟨cc, ws, e1, e2, _, _, hiff⟩ := C86_fewest_losses m hr hn hne
  obtain ⟨cc', e1', e2'⟩ := hw
  rw [e1] at e1'
  cases e1'
  rw [e2] at e2'
  cases e2'
  obtain ⟨hwk, hmin⟩ := (hiff w).1 (by simp)
  refine ⟨hwk, lossesOf_zero.1 ?_⟩
  have hlt : ∀ d ∈ Dict.keys m.candidates, d ≠ w → lossesOf m w < lossesOf m d := by
    intro d hd hdw
    by_contra hge
    have : d ∈ [w] := (hiff d).2 ⟨hd, fun x hx => by have := hmin x hx; omega⟩
    exact hdw (by simpa using this)
  have hlen : (Dict.keys m.candidates).length ≤ 4 := by simpa [Dict.keys] using h4
  have h0 := lossesOf_nonneg m w
  by_contra hpos
  have hS := lossesOf_sum m
  generalize lossesOf m = L at *
  have ho := lost_or m
  generalize lost m = P at *
  generalize Dict.keys m.candidates = K at *
  match K, hlen, hn, hwk with
  | [a], _, _, hwk =>
    have e := hS a
    simp at hwk e
    subst hwk
    exact hpos e
  | [a, b], _, hn, hwk =>
    simp only [List.nodup_cons, List.mem_singleton, List.not_mem_nil, not_false_eq_true, List.nodup_nil, and_true] at hn
    have ea := hS a
    have eb := hS b
    simp only [List.map_cons, List.map_nil, List.sum_cons, List.sum_nil, if_true, hn, Ne.symm hn, if_false] at ea eb
    have o1 := ho a b
    have ha := hlt a (by simp)
    have hb := hlt b (by simp)
    simp only [List.mem_cons, List.not_mem_nil, or_false] at hwk
    rcases hwk with rfl | rfl
    · have := hb (Ne.symm hn); omega
    · have := ha hn; omega
  | [a, b, c], _, hn, hwk =>
    simp only [List.nodup_cons, List.mem_cons, List.not_mem_nil, or_false, not_or, not_false_eq_true, List.nodup_nil, and_true] at hn
    obtain ⟨⟨n1, n2⟩, n3⟩ := hn
    have ea := hS a
    have eb := hS b
    have ec := hS c
    simp only [List.map_cons, List.map_nil, List.sum_cons, List.sum_nil, if_true, n1, n2, n3, Ne.symm n1, Ne.symm n2, Ne.symm n3, if_false] at ea eb ec
    have o1 := ho a b
    have o2 := ho a c
    have o3 := ho b c
    have ha := hlt a (by simp)
    have hb := hlt b (by simp)
    have hc := hlt c (by simp)
    simp only [List.mem_cons, List.not_mem_nil, or_false] at hwk
    rcases hwk with rfl | rfl | rfl
    · have := hb (Ne.symm n1); have := hc (Ne.symm n2); omega
    · have := ha n1; have := hc (Ne.symm n3); omega
    · have := ha n2; have := hb n3; omega
  | [a, b, c, d], _, hn, hwk =>
    simp only [List.nodup_cons, List.mem_cons, List.not_mem_nil, or_false, not_or, not_false_eq_true, List.nodup_nil, and_true] at hn
    obtain ⟨⟨n1, n2, n3⟩, ⟨n4, n5⟩, n6⟩ := hn
    have ea := hS a
    have eb := hS b
    have ec := hS c
    have ed := hS d
    simp only [List.map_cons, List.map_nil, List.sum_cons, List.sum_nil, if_true, n1, n2, n3, n4, n5, n6, Ne.symm n1, Ne.symm n2, Ne.symm n3, Ne.symm n4,
      Ne.symm n5, Ne.symm n6, if_false] at ea eb ec ed
    have o1 := ho a b
    have o2 := ho a c
    have o3 := ho a d
    have o4 := ho b c
    have o5 := ho b d
    have o6 := ho c d
    have ha := hlt a (by simp)
    have hb := hlt b (by simp)
    have hc := hlt c (by simp)
    have hd := hlt d (by simp)
    simp only [List.mem_cons, List.not_mem_nil, or_false] at hwk
    rcases hwk with rfl | rfl | rfl | rfl
    · have := hb (Ne.symm n1); have := hc (Ne.symm n2); have := hd (Ne.symm n3); omega
    · have := ha n1; have := hc (Ne.symm n4); have := hd (Ne.symm n5); omega
    · have := ha n2; have := hb n4; have := hd (Ne.symm n6); omega
    · have := ha n3; have := hb n5; have := hc n6; omega

/-- C125 for Copeland: with at most four candidates, the only Copeland winner of both precincts is a Copeland winner of the whole. -/
theorem C125_copeland (m m1 m2 : Jabmod) (h : Together m m1 m2) (hr : Spec.AllRanked m) (hr1 : Spec.AllRanked m1) (hr2 : Spec.AllRanked m2)
    (hn : (Dict.keys m.candidates).Nodup) (hn1 : (Dict.keys m1.candidates).Nodup) (hn2 : (Dict.keys m2.candidates).Nodup)
    (h4 : m.candidates.length ≤ 4) (w : Str) (w1 : CopelandWinners m1 [w]) (w2 : CopelandWinners m2 [w]) :
    ∃ ws, CopelandWinners m ws ∧ w ∈ ws := by
  have hl : ∀ m' : Jabmod, (Dict.keys m'.candidates).Nodup → (∀ c, c ∈ Dict.keys m'.candidates ↔ c ∈ Dict.keys m.candidates) → m'.candidates.length ≤ 4 := by
    intro m' hn' hc
    have := ((List.perm_ext_iff_of_nodup hn' hn).2 hc).length_eq
    simp only [Dict.keys, List.length_map] at this
    omega
  obtain ⟨k1, u1⟩ := sole_unbeaten hr1 hn1 (hl m1 hn1 h.first) w1
  obtain ⟨_, u2⟩ := sole_unbeaten hr2 hn2 (hl m2 hn2 h.second) w2
  exact C125_unbeaten m m1 m2 h hr hn w ((h.first w).1 k1) u1 u2

section
attribute [local instance] Uni.ascii
set_option maxRecDepth 20000

/-- what the count of Copeland winners gives -/
def copelandOf (m : Jabmod) : Option (List Str) := ((fullCopecount m).toOption.bind fun cc => (copelandWinners cc.winlosstie).toOption)

theorem copeland_of {m : Jabmod} {ws : List Str} (h : copelandOf m = some ws) : CopelandWinners m ws := by
  unfold copelandOf at h
  unfold CopelandWinners
  cases hcc : fullCopecount m with
  | error e => rw [hcc] at h; cases h
  | ok cc =>
    rw [hcc] at h
    refine ⟨cc, rfl, ?_⟩
    have h' : (copelandWinners cc.winlosstie).toOption = some ws := h
    cases hw : copelandWinners cc.winlosstie with
    | error e => rw [hw] at h'; cases h'
    | ok ws' => rw [hw] at h'; exact congrArg Except.ok (Option.some.inj h')

theorem together_of {t1 t2 : Str} (h1 : (convertAbif true false false (t1 ++ ['\n'])).toOption.isSome = true)
    (h2 : (convertAbif true false false t2).toOption.isSome = true)
    (hc1 : ∀ c ∈ Dict.keys (readText (t1 ++ ['\n'])).candidates, c ∈ Dict.keys (readText t2).candidates)
    (hc2 : ∀ c ∈ Dict.keys (readText t2).candidates, c ∈ Dict.keys (readText (t1 ++ ['\n'])).candidates) :
    (convertAbif true false false (t1 ++ '\n' :: t2)).toOption.isSome = true ∧
      Together (readText (t1 ++ '\n' :: t2)) (readText (t1 ++ ['\n'])) (readText t2) := by
  obtain ⟨m, hm, ht⟩ := C125_text true t1 t2 _ _ (readText_eq h1) (readText_eq h2) (fun c => ⟨hc1 c, hc2 c⟩)
  have hs : (convertAbif true false false (t1 ++ '\n' :: t2)).toOption.isSome = true := by rw [hm]; rfl
  have := readText_eq hs
  rw [hm] at this
  cases this
  exact ⟨hs, ht⟩

/-- two precincts in which most voters put `A` first -/
def northText : Str := c!"3:A>B>C\n2:B>C>A"
def southText : Str := c!"1:C>B>A\n2:A>C>B\n"

/-- `C125_majority` and `C125_copeland` apply to them -/
example : ∃ (m m1 m2 : Jabmod) (d : IrvDict), Together m m1 m2 ∧ StrictElection m ∧ irvDict Sched.std m = .ok d ∧ c!"A" ∈ Dict.keys m.candidates ∧
    (m1.votelines.map Voteline.qty).sum < 2 * qtySum (favours m1 c!"A") m1.votelines ∧
    (m2.votelines.map Voteline.qty).sum < 2 * qtySum (favours m2 c!"A") m2.votelines ∧
    m.candidates.length ≤ 4 ∧ CopelandWinners m1 [c!"A"] ∧ CopelandWinners m2 [c!"A"] := by
  have ht := together_of (t1 := northText) (t2 := southText) (by decide +kernel) (by decide +kernel) (by decide +kernel) (by decide +kernel)
  have he := strict_text (text := northText ++ '\n' :: southText) (by decide +kernel) (by decide +kernel) (by decide +kernel) (by unfold Strict; decide +kernel)
  obtain ⟨d, hd, _⟩ := irvOf_some (m := readText (northText ++ '\n' :: southText)) (ws := [c!"A"]) (by decide +kernel)
  exact ⟨_, _, _, d, ht.2, he, hd, by decide +kernel, by decide +kernel, by decide +kernel, by decide +kernel, copeland_of (by decide +kernel),
    copeland_of (by decide +kernel)⟩

/-- two precincts for the instant runoff -/
def eastText : Str := c!"4:C>B>A\n4:A>B>C\n3:B>A>C"
def westText : Str := c!"2:B>A>C\n3:A>C>B\n"

/-- The instant runoff elects `A` in both precincts and `B` in the whole. -/
theorem C125_irv_refuted : ∃ (m m1 m2 : Jabmod) (d d1 d2 : IrvDict), convertAbif true false false (eastText ++ ['\n']) = .ok m1 ∧
    convertAbif true false false westText = .ok m2 ∧ convertAbif true false false (eastText ++ '\n' :: westText) = .ok m ∧ Together m m1 m2 ∧
    irvDict Sched.std m1 = .ok d1 ∧ irvDict Sched.std m2 = .ok d2 ∧ irvDict Sched.std m = .ok d ∧
    d1.run.winner = [c!"A"] ∧ d2.run.winner = [c!"A"] ∧ d.run.winner = [c!"B"] := by
  have h1 : (convertAbif true false false (eastText ++ ['\n'])).toOption.isSome = true := by decide +kernel
  have h2 : (convertAbif true false false westText).toOption.isSome = true := by decide +kernel
  obtain ⟨h3, ht⟩ := together_of h1 h2 (by decide +kernel) (by decide +kernel)
  obtain ⟨d1, e1, w1⟩ := irvOf_some (m := readText (eastText ++ ['\n'])) (ws := [c!"A"]) (by decide +kernel)
  obtain ⟨d2, e2, w2⟩ := irvOf_some (m := readText westText) (ws := [c!"A"]) (by decide +kernel)
  obtain ⟨d, e, w⟩ := irvOf_some (m := readText (eastText ++ '\n' :: westText)) (ws := [c!"B"]) (by decide +kernel)
  exact ⟨_, _, _, d, d1, d2, readText_eq h1, readText_eq h2, readText_eq h3, ht, e1, e2, e, w1, w2, w⟩

/-- two precincts for STAR -/
def upperText : Str := c!"2:A/5>B/4>C/0\n4:C/5>B/4>A/3"
def lowerText : Str := c!"2:B/5=C/5>A/3\n1:B/2>A/1>C/0\n"

/-- STAR elects `B` in both precincts and `C` in the whole. -/
theorem C125_star_refuted : ∃ m m1 m2 : Jabmod, convertAbif true false false (upperText ++ ['\n']) = .ok m1 ∧
    convertAbif true false false lowerText = .ok m2 ∧ convertAbif true false false (upperText ++ '\n' :: lowerText) = .ok m ∧ Together m m1 m2 ∧
    WinsStar m1 c!"B" ∧ WinsStar m2 c!"B" ∧ WinsStar m c!"C" := by
  have h1 : (convertAbif true false false (upperText ++ ['\n'])).toOption.isSome = true := by decide +kernel
  have h2 : (convertAbif true false false lowerText).toOption.isSome = true := by decide +kernel
  obtain ⟨h3, ht⟩ := together_of h1 h2 (by decide +kernel) (by decide +kernel)
  refine ⟨_, _, _, readText_eq h1, readText_eq h2, readText_eq h3, ht,
    winsStar_of (a := c!"B") (b := c!"A") (by decide) (by decide +kernel) (by decide +kernel) (parsed_starCounted _ _ _ _ _ (readText_eq h1) (by decide +kernel)),
    winsStar_of (a := c!"B") (b := c!"C") (by decide) (by decide +kernel) (by decide +kernel) (parsed_starCounted _ _ _ _ _ (readText_eq h2) (by decide +kernel)),
    winsStar_of (a := c!"B") (b := c!"C") (by decide) (by decide +kernel) (by decide +kernel) (parsed_starCounted _ _ _ _ _ (readText_eq h3) (by decide +kernel))⟩

/-- two precincts with five candidates -/
def leftText : Str := c!"2:E>B>A>C>D\n1:D>C>E>B>A\n2:A>C>B>D>E"
def rightText : Str := c!"1:B>C>E>D>A\n1:D>A>B>E>C\n1:C>E>A>D>B\n"

/-- `C125_copeland` is not true of five candidates: `C` is the only Copeland winner of both precincts, and `B` the only one of the whole. -/
theorem C125_copeland_refuted : ∃ m m1 m2 : Jabmod, convertAbif true false false (leftText ++ ['\n']) = .ok m1 ∧
    convertAbif true false false rightText = .ok m2 ∧ convertAbif true false false (leftText ++ '\n' :: rightText) = .ok m ∧ Together m m1 m2 ∧
    CopelandWinners m1 [c!"C"] ∧ CopelandWinners m2 [c!"C"] ∧ CopelandWinners m [c!"B"] := by
  have h1 : (convertAbif true false false (leftText ++ ['\n'])).toOption.isSome = true := by decide +kernel
  have h2 : (convertAbif true false false rightText).toOption.isSome = true := by decide +kernel
  obtain ⟨h3, ht⟩ := together_of h1 h2 (by decide +kernel) (by decide +kernel)
  exact ⟨_, _, _, readText_eq h1, readText_eq h2, readText_eq h3, ht, copeland_of (by decide +kernel), copeland_of (by decide +kernel),
    copeland_of (by decide +kernel)⟩
end

end Verif.Props
