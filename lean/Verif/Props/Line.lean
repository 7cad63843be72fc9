/-
C122: voters and candidates along a line.
-/
import Verif.Spec.Line
import Verif.Props.Agree
import Mathlib.Algebra.Order.Field.Basic
import Mathlib.Tactic.Linarith

set_option linter.unusedSimpArgs false
set_option linter.unusedSectionVars false

namespace Verif.Props
open Verif Spec

section
variable {X : Type} [LinearOrder X]

/-- `votesAt` for a list of votelines -/
def zipSum (vs : List Voteline) (xs : List X) (p : X → Bool) : Int :=
  (((vs.zip xs).filter (fun vx => p vx.2)).map (fun vx => vx.1.qty)).sum

theorem zipSum_cons (v : Voteline) (vs : List Voteline) (x : X) (xs : List X) (p : X → Bool) :
    zipSum (v :: vs) (x :: xs) p = (if p x then v.qty else 0) + zipSum vs xs p := by
  unfold zipSum
  rw [List.zip_cons_cons, List.filter_cons]
  by_cases h : p x = true <;> simp [h]

theorem zipSum_le {vs : List Voteline} {xs : List X} {R : Voteline → X → Prop} {p : X → Bool} {q : Voteline → Bool}
    (h : List.Forall₂ R vs xs) (hn : ∀ v ∈ vs, 0 ≤ v.qty) (hpq : ∀ v x, R v x → p x = true → q v = true) :
    zipSum vs xs p ≤ qtySum q vs := by
  induction h with
  | nil => simp [zipSum, qtySum]
  | @cons v x vs xs hr _ ih =>
    have := ih (fun v hv => hn v (by simp [hv]))
    have h0 := hn v (by simp)
    rw [zipSum_cons, qtySum_cons]
    by_cases hp : p x = true
    · rw [if_pos hp, if_pos (hpq v x hr hp)]; omega
    · rw [if_neg hp]; split <;> omega

theorem zipSum_split {vs : List Voteline} {xs : List X} (h : vs.length = xs.length) (p : X → Bool) :
    zipSum vs xs p + zipSum vs xs (fun x => !p x) = (vs.map Voteline.qty).sum := by
  induction vs generalizing xs with
  | nil => simp [zipSum]
  | cons v vs ih =>
    cases xs with
    | nil => cases h
    | cons x xs =>
      rw [zipSum_cons, zipSum_cons, List.map_cons, List.sum_cons, ← ih (Nat.succ.inj h)]
      cases p x <;> simp <;> omega

theorem zipSum_mono {vs : List Voteline} {xs : List X} {p q : X → Bool} (h : vs.length = xs.length) (hn : ∀ v ∈ vs, 0 ≤ v.qty)
    (hpq : ∀ x ∈ xs, p x = true → q x = true) : zipSum vs xs p ≤ zipSum vs xs q := by
  induction vs generalizing xs with
  | nil => simp [zipSum]
  | cons v vs ih =>
    cases xs with
    | nil => cases h
    | cons x xs =>
      have := ih (Nat.succ.inj h) (fun v hv => hn v (by simp [hv])) (fun x hx => hpq x (by simp [hx]))
      have h0 := hn v (by simp)
      rw [zipSum_cons, zipSum_cons]
      by_cases hp : p x = true
      · rw [if_pos hp, if_pos (hpq x (by simp) hp)]; omega
      · rw [if_neg hp]; split <;> omega

/-- nobody votes for both of two candidates -/
theorem support_both_le {m : Jabmod} (hq : QtyNonneg m) (a b : Str) :
    support m a b + support m b a ≤ (m.votelines.map Voteline.qty).sum := by
  unfold support
  have : ∀ vs : List Voteline, (∀ v ∈ vs, 0 ≤ v.qty) →
      qtySum (fun v => prefers v a b) vs + qtySum (fun v => prefers v b a) vs ≤ (vs.map Voteline.qty).sum := by
    intro vs hn
    induction vs with
    | nil => simp [qtySum]
    | cons v vs ih =>
      have := ih (fun v hv => hn v (by simp [hv]))
      have h0 := hn v (by simp)
      rw [qtySum_cons, qtySum_cons, List.map_cons, List.sum_cons]
      by_cases h1 : prefers v a b = true
      · rw [if_pos h1, if_neg (by rw [prefers_not_both h1]; simp)]; omega
      · rw [if_neg h1]; split <;> omega
  exact this _ hq

/-- who is preferred by all voters of a half of the line in which more than half of the votes are wins the comparison -/
theorem half_beats {m : Jabmod} (hq : QtyNonneg m) {places : List X} {R : Voteline → X → Prop} (h : List.Forall₂ R m.votelines places)
    {c d : Str} {p : X → Bool} (hp : ∀ v x, R v x → p x = false → prefers v c d = true)
    (hlt : 2 * votesAt m places p < (m.votelines.map Voteline.qty).sum) : Beats m c d := by
  have h1 := zipSum_le (p := fun x => !p x) (q := fun v => prefers v c d) h hq (fun v x r hx => hp v x r (by simpa using hx))
  have h2 := zipSum_split h.length_eq p
  have h3 := support_both_le hq c d
  unfold Beats
  unfold support at *
  unfold votesAt at hlt
  unfold zipSum at h1 h2
  omega

/-- the same for half of the votes -/
theorem half_ties {m : Jabmod} (hq : QtyNonneg m) {places : List X} {R : Voteline → X → Prop} (h : List.Forall₂ R m.votelines places)
    {c d : Str} {p : X → Bool} (hp : ∀ v x, R v x → p x = false → prefers v c d = true)
    (hlt : 2 * votesAt m places p ≤ (m.votelines.map Voteline.qty).sum) : support m d c ≤ support m c d := by
  have h1 := zipSum_le (p := fun x => !p x) (q := fun v => prefers v c d) h hq (fun v x r hx => hp v x r (by simpa using hx))
  have h2 := zipSum_split h.length_eq p
  have h3 := support_both_le hq c d
  unfold support at *
  unfold votesAt at hlt
  unfold zipSum at h1 h2
  omega

/-- C122, the middle wins.  If the ballots are those of voters along a line and a candidate's place is in the middle of the voters,
then this candidate beats every other head to head and is the only Copeland winner. -/
theorem C122_middle (m : Jabmod) (hr : Spec.AllRanked m) (hn : (Dict.keys m.candidates).Nodup) (hq : QtyNonneg m)
    (pos : Str → X) (hpos : ∀ a ∈ Dict.keys m.candidates, ∀ b ∈ Dict.keys m.candidates, pos a = pos b → a = b)
    (places : List X) (h : List.Forall₂ (PeakedAt (Dict.keys m.candidates) pos) m.votelines places)
    (c : Str) (hc : c ∈ Dict.keys m.candidates) (hmid : Middle m places (pos c)) :
    (∀ d ∈ Dict.keys m.candidates, d ≠ c → Beats m c d) ∧ CopelandWinners m [c] := by
  have key : ∀ d ∈ Dict.keys m.candidates, d ≠ c → Beats m c d := by
    intro d hd hdc
    rcases lt_trichotomy (pos c) (pos d) with hlt | heq | hlt
    · refine half_beats hq h (p := fun y => decide (pos c < y)) (fun v x r hx => ?_) hmid.2
      exact r c hc d hd (.inl ⟨le_of_not_gt (by simpa using hx), hlt⟩)
    · exact absurd (hpos d hd c hc heq.symm) hdc
    · refine half_beats hq h (p := fun y => decide (y < pos c)) (fun v x r hx => ?_) hmid.1
      exact r c hc d hd (.inr ⟨hlt, le_of_not_gt (by simpa using hx)⟩)
  exact ⟨key, copeland_condorcet m hr hn c hc key⟩

/-- a candidate in the middle that has, of those to its left and to its right, at least half of the votes -/
theorem exists_middle {m : Jabmod} (hq : QtyNonneg m) {pos : Str → X} {places : List X} (hlen : m.votelines.length = places.length)
    (hne : Dict.keys m.candidates ≠ []) (hfav : ∀ x ∈ places, ∃ a ∈ Dict.keys m.candidates, pos a = x) :
    ∃ c ∈ Dict.keys m.candidates, 2 * votesAt m places (fun y => decide (y < pos c)) ≤ (m.votelines.map Voteline.qty).sum ∧
      2 * votesAt m places (fun y => decide (pos c < y)) ≤ (m.votelines.map Voteline.qty).sum := by
  have hT : 0 ≤ (m.votelines.map Voteline.qty).sum := by
    have : ∀ vs : List Voteline, (∀ v ∈ vs, 0 ≤ v.qty) → 0 ≤ (vs.map Voteline.qty).sum := by
      intro vs hv
      induction vs with
      | nil => simp
      | cons v vs ih =>
        have h1 := ih (fun v h => hv v (by simp [h]))
        have h2 := hv v (by simp)
        rw [List.map_cons, List.sum_cons]; omega
    exact this _ hq
  have hW : ∀ p : X → Bool, votesAt m places p = zipSum m.votelines places p := fun _ => rfl
  have hsp : ∀ c : Str, zipSum m.votelines places (fun y => decide (y ≤ pos c)) + zipSum m.votelines places (fun y => decide (pos c < y)) =
      (m.votelines.map Voteline.qty).sum := by
    intro c
    rw [← zipSum_split hlen (fun y => decide (y ≤ pos c))]
    have : (fun y => decide (pos c < y)) = fun y => !decide (y ≤ pos c) := by
      funext y
      by_cases hy : y ≤ pos c
      · simp [hy, not_lt_of_ge hy]
      · simp [hy, lt_of_not_ge hy]
    rw [this]
  let S := (Dict.keys m.candidates).toFinset.filter
    (fun c => (m.votelines.map Voteline.qty).sum ≤ 2 * zipSum m.votelines places (fun y => decide (y ≤ pos c)))
  have hS : S.Nonempty := by
    obtain ⟨z, hz, hmax⟩ := Finset.exists_max_image (Dict.keys m.candidates).toFinset pos
      (by obtain ⟨a, ha⟩ := List.exists_mem_of_ne_nil _ hne; exact ⟨a, by simpa using ha⟩)
    refine ⟨z, Finset.mem_filter.2 ⟨hz, ?_⟩⟩
    have h0 : zipSum m.votelines places (fun y => decide (pos z < y)) ≤ zipSum m.votelines places (fun _ => false) := by
      refine zipSum_mono hlen hq (fun x hx hlt => ?_)
      obtain ⟨a, ha, rfl⟩ := hfav x hx
      exact absurd (hmax a (by simpa using ha)) (not_le_of_gt (by simpa using hlt))
    have h1 : zipSum m.votelines places (fun _ => false) = 0 := by simp [zipSum]
    have h2 := hsp z
    omega
  obtain ⟨c, hc, hmin⟩ := Finset.exists_min_image S pos hS
  obtain ⟨hcm, hcT⟩ := Finset.mem_filter.1 hc
  refine ⟨c, by simpa using hcm, ?_, ?_⟩
  · rw [hW]
    rcases ((Dict.keys m.candidates).toFinset.filter (fun a => pos a < pos c)).eq_empty_or_nonempty with he | hne'
    · have h0 : zipSum m.votelines places (fun y => decide (y < pos c)) ≤ zipSum m.votelines places (fun _ => false) := by
        refine zipSum_mono hlen hq (fun x hx hlt => ?_)
        obtain ⟨a, ha, rfl⟩ := hfav x hx
        have : a ∈ (Dict.keys m.candidates).toFinset.filter (fun a => pos a < pos c) :=
          Finset.mem_filter.2 ⟨by simpa using ha, by simpa using hlt⟩
        rw [he] at this
        simp at this
      have h1 : zipSum m.votelines places (fun _ => false) = 0 := by simp [zipSum]
      omega
    · obtain ⟨b, hb, hmax⟩ := Finset.exists_max_image _ pos hne'
      obtain ⟨hbm, hbc⟩ := Finset.mem_filter.1 hb
      have h0 : zipSum m.votelines places (fun y => decide (y < pos c)) ≤ zipSum m.votelines places (fun y => decide (y ≤ pos b)) := by
        refine zipSum_mono hlen hq (fun x hx hlt => ?_)
        obtain ⟨a, ha, rfl⟩ := hfav x hx
        simpa using hmax a (Finset.mem_filter.2 ⟨by simpa using ha, by simpa using hlt⟩)
      have h1 : ¬ (m.votelines.map Voteline.qty).sum ≤ 2 * zipSum m.votelines places (fun y => decide (y ≤ pos b)) := by
        intro hle
        exact absurd (hmin b (Finset.mem_filter.2 ⟨hbm, hle⟩)) (not_le_of_gt hbc)
      omega
  · rw [hW]
    have := hsp c
    omega

/-- C122, there is no cycle at the top: when the favourite place of every voter is a candidate's, some candidate is not beaten by any other … -/
theorem C122_unbeaten (m : Jabmod) (hq : QtyNonneg m) (hne : Dict.keys m.candidates ≠ [])
    (pos : Str → X) (hpos : ∀ a ∈ Dict.keys m.candidates, ∀ b ∈ Dict.keys m.candidates, pos a = pos b → a = b)
    (places : List X) (h : List.Forall₂ (PeakedAt (Dict.keys m.candidates) pos) m.votelines places)
    (hfav : ∀ x ∈ places, ∃ a ∈ Dict.keys m.candidates, pos a = x) :
    ∃ c ∈ Dict.keys m.candidates, ∀ d ∈ Dict.keys m.candidates, ¬ Beats m d c := by
  obtain ⟨c, hc, h1, h2⟩ := exists_middle hq (pos := pos) h.length_eq hne hfav
  refine ⟨c, hc, fun d hd hb => ?_⟩
  unfold Beats at hb
  rcases lt_trichotomy (pos c) (pos d) with hlt | heq | hlt
  · have := half_ties hq h (c := c) (d := d) (p := fun y => decide (pos c < y)) (fun v x r hx =>
      r c hc d hd (.inl ⟨le_of_not_gt (by simpa using hx), hlt⟩)) h2
    omega
  · rw [hpos c hc d hd heq] at hb
    omega
  · have := half_ties hq h (c := c) (d := d) (p := fun y => decide (y < pos c)) (fun v x r hx =>
      r c hc d hd (.inr ⟨hlt, le_of_not_gt (by simpa using hx)⟩)) h1
    omega

/-- … and when moreover the number of voters is odd, there is exactly one Copeland winner, and it beats every other head to head. -/
theorem C122_odd (m : Jabmod) (hr : Spec.AllRanked m) (hn : (Dict.keys m.candidates).Nodup) (hq : QtyNonneg m)
    (hne : Dict.keys m.candidates ≠ [])
    (pos : Str → X) (hpos : ∀ a ∈ Dict.keys m.candidates, ∀ b ∈ Dict.keys m.candidates, pos a = pos b → a = b)
    (places : List X) (h : List.Forall₂ (PeakedAt (Dict.keys m.candidates) pos) m.votelines places)
    (hfav : ∀ x ∈ places, ∃ a ∈ Dict.keys m.candidates, pos a = x) (hodd : (m.votelines.map Voteline.qty).sum % 2 = 1) :
    ∃ c ∈ Dict.keys m.candidates, Middle m places (pos c) ∧ (∀ d ∈ Dict.keys m.candidates, d ≠ c → Beats m c d) ∧
      CopelandWinners m [c] := by
  obtain ⟨c, hc, h1, h2⟩ := exists_middle hq (pos := pos) h.length_eq hne hfav
  have hm : Middle m places (pos c) := ⟨by omega, by omega⟩
  exact ⟨c, hc, hm, C122_middle m hr hn hq pos hpos places h c hc hm⟩

/-- `b` is between `a` and `c` -/
def Btw (pos : Str → X) (a b c : Str) : Prop := (pos a < pos b ∧ pos b < pos c) ∨ (pos c < pos b ∧ pos b < pos a)

theorem btw_symm {pos : Str → X} {a b c : Str} (h : Btw pos a b c) : Btw pos c b a := Or.symm h

section ballot
variable {cands : List Str} {pos : Str → X} {v : Voteline} {x : X} {a b c : Str}

theorem peaked_outer (h : PeakedAt cands pos v x) (ha : a ∈ cands) (hb : b ∈ cands) (hc : c ∈ cands) (hbt : Btw pos a b c)
    (hp : prefers v a b = true) : prefers v a c = true := by
  refine prefers_trans_left hp ?_
  have hn := prefers_not_both hp
  rcases hbt with ⟨h1, h2⟩ | ⟨h1, h2⟩
  · refine h b hb c hc (.inl ⟨le_of_not_ge fun hx => ?_, h2⟩)
    rw [h b hb a ha (.inr ⟨h1, hx⟩)] at hn
    cases hn
  · refine h b hb c hc (.inr ⟨h1, le_of_not_ge fun hx => ?_⟩)
    rw [h b hb a ha (.inl ⟨hx, h2⟩)] at hn
    cases hn

theorem peaked_inner (h : PeakedAt cands pos v x) (ha : a ∈ cands) (hb : b ∈ cands) (hc : c ∈ cands) (hbt : Btw pos a b c)
    (hp : prefers v c a = true) : prefers v b a = true := by
  rcases hbt with ⟨h1, h2⟩ | ⟨h1, h2⟩
  · rcases le_total (pos b) x with hx | hx
    · exact h b hb a ha (.inr ⟨h1, hx⟩)
    · exact prefers_trans_left (h b hb c hc (.inl ⟨hx, h2⟩)) hp
  · rcases le_total x (pos b) with hx | hx
    · exact h b hb a ha (.inl ⟨hx, h2⟩)
    · exact prefers_trans_left (h b hb c hc (.inr ⟨h1, hx⟩)) hp

end ballot

/-- C122, no cycles.  If every ballot is that of voters somewhere on the line, then a candidate that beats another one beats all those whom that one beats. -/
theorem C122_transitive (m : Jabmod) (hq : QtyNonneg m)
    (pos : Str → X) (hpos : ∀ a ∈ Dict.keys m.candidates, ∀ b ∈ Dict.keys m.candidates, pos a = pos b → a = b)
    (h : ∀ v ∈ m.votelines, ∃ x, PeakedAt (Dict.keys m.candidates) pos v x)
    (a b c : Str) (ha : a ∈ Dict.keys m.candidates) (hb : b ∈ Dict.keys m.candidates) (hc : c ∈ Dict.keys m.candidates)
    (hab : Beats m a b) (hbc : Beats m b c) : Beats m a c := by
  have outer : ∀ {a b c : Str}, a ∈ Dict.keys m.candidates → b ∈ Dict.keys m.candidates → c ∈ Dict.keys m.candidates →
      Btw pos a b c → support m a b ≤ support m a c := by
    intro a b c ha hb hc hbt
    refine Verif.qtySum_mono hq (fun v hv hp => ?_)
    obtain ⟨x, hx⟩ := h v hv
    exact peaked_outer hx ha hb hc hbt hp
  have inner : ∀ {a b c : Str}, a ∈ Dict.keys m.candidates → b ∈ Dict.keys m.candidates → c ∈ Dict.keys m.candidates →
      Btw pos a b c → support m c a ≤ support m b a := by
    intro a b c ha hb hc hbt
    refine Verif.qtySum_mono hq (fun v hv hp => ?_)
    obtain ⟨x, hx⟩ := h v hv
    exact peaked_inner hx ha hb hc hbt hp
  have nab : pos a ≠ pos b := fun e => by
    have := hpos a ha b hb e
    subst this
    unfold Beats at hab; omega
  have nbc : pos b ≠ pos c := fun e => by
    have := hpos b hb c hc e
    subst this
    unfold Beats at hbc; omega
  have nac : pos a ≠ pos c := fun e => by
    have := hpos a ha c hc e
    subst this
    unfold Beats at hab hbc; omega
  unfold Beats at *
  have bmid : Btw pos a b c → support m c a < support m a c := by
    intro hbt
    have h1 := outer ha hb hc hbt
    have h2 := inner ha hb hc hbt
    omega
  have amid : Btw pos b a c → support m c a < support m a c := by
    intro hbt
    have h1 := outer hc ha hb (btw_symm hbt)
    have h2 := inner hc ha hb (btw_symm hbt)
    omega
  have cmid : Btw pos b c a → support m c a < support m a c := by
    intro hbt
    have h1 := outer hb hc ha hbt
    have h2 := inner hb hc ha hbt
    omega
  rcases lt_or_gt_of_ne nab with h1 | h1 <;> rcases lt_or_gt_of_ne nbc with h2 | h2 <;> rcases lt_or_gt_of_ne nac with h3 | h3
  · exact bmid (.inl ⟨h1, h2⟩)
  · exact absurd (lt_trans h1 h2) (not_lt_of_gt h3)
  · exact cmid (.inr ⟨h3, h2⟩)
  · exact amid (.inr ⟨h3, h1⟩)
  · exact amid (.inl ⟨h1, h3⟩)
  · exact cmid (.inl ⟨h2, h3⟩)
  · exact absurd (lt_trans h2 h1) (not_lt_of_gt h3)
  · exact bmid (.inr ⟨h2, h1⟩)

end

/-- C122, distances.  If every voter has a place on the line and prefers the nearer of any two candidates, and a candidate is nearer to the
voter in the middle than every other candidate, then this candidate beats every other head to head and is the only Copeland winner. -/
theorem C122_nearest {X : Type} [Field X] [LinearOrder X] [IsStrictOrderedRing X] (m : Jabmod) (hr : Spec.AllRanked m)
    (hn : (Dict.keys m.candidates).Nodup) (hq : QtyNonneg m) (pos : Str → X) (places : List X)
    (h : List.Forall₂ (fun v x => ∀ a ∈ Dict.keys m.candidates, ∀ b ∈ Dict.keys m.candidates, |x - pos a| < |x - pos b| → prefers v a b = true)
      m.votelines places)
    (x : X) (hx : Middle m places x) (c : Str) (hc : c ∈ Dict.keys m.candidates)
    (hnear : ∀ d ∈ Dict.keys m.candidates, d ≠ c → |x - pos c| < |x - pos d|) :
    (∀ d ∈ Dict.keys m.candidates, d ≠ c → Beats m c d) ∧ CopelandWinners m [c] := by
  have hsq : ∀ y a b : X, |y - a| < |y - b| ↔ (y - a) ^ 2 < (y - b) ^ 2 := fun y a b => sq_lt_sq.symm
  have key : ∀ d ∈ Dict.keys m.candidates, d ≠ c → Beats m c d := by
    intro d hd hdc
    have h0 := (hsq _ _ _).1 (hnear d hd hdc)
    rcases lt_trichotomy (pos c) (pos d) with hlt | heq | hlt
    · refine half_beats hq h (p := fun y => decide (x < y)) (fun v y r hy => r c hc d hd ((hsq _ _ _).2 ?_)) hx.2
      have hy : y ≤ x := le_of_not_gt (by simpa using hy)
      nlinarith
    · rw [heq] at h0; exact absurd h0 (lt_irrefl _)
    · refine half_beats hq h (p := fun y => decide (y < x)) (fun v y r hy => r c hc d hd ((hsq _ _ _).2 ?_)) hx.1
      have hy : x ≤ y := le_of_not_gt (by simpa using hy)
      nlinarith
  exact ⟨key, copeland_condorcet m hr hn c hc key⟩

section
attribute [local instance] Uni.ascii
set_option maxRecDepth 40000

/-- three candidates from left to right; the centre has few first preferences -/
def squeezeText : Str := c!"4:L>C>R\n3:R>C>L\n2:C>L>R\n"
def squeezePos (c : Str) : Int := if c = c!"L" then 0 else if c = c!"C" then 1 else 2

theorem squeeze_line : List.Forall₂ (PeakedAt (Dict.keys (readText squeezeText).candidates) squeezePos) (readText squeezeText).votelines [0, 2, 1] := by
  unfold PeakedAt
  decide +kernel

theorem squeeze_strict : StrictElection (readText squeezeText) :=
  strict_text (text := squeezeText) (by decide +kernel) (by decide +kernel) (by decide +kernel) (by unfold Strict; decide +kernel)

/-- Witness for `C122_middle`, `C122_odd` and `C122_transitive`: nine voters, the centre is in the middle. -/
example : Spec.AllRanked (readText squeezeText) ∧ (Dict.keys (readText squeezeText).candidates).Nodup ∧ QtyNonneg (readText squeezeText) ∧
    (∀ a ∈ Dict.keys (readText squeezeText).candidates, ∀ b ∈ Dict.keys (readText squeezeText).candidates, squeezePos a = squeezePos b → a = b) ∧
    (∀ x ∈ ([0, 2, 1] : List Int), ∃ a ∈ Dict.keys (readText squeezeText).candidates, squeezePos a = x) ∧
    ((readText squeezeText).votelines.map Voteline.qty).sum % 2 = 1 ∧
    Middle (readText squeezeText) ([0, 2, 1] : List Int) (squeezePos c!"C") ∧ Beats (readText squeezeText) c!"C" c!"L" ∧
    Beats (readText squeezeText) c!"L" c!"R" := by
  refine ⟨strict_allRanked squeeze_strict, squeeze_strict.countable.cands, squeeze_strict.nonneg, by decide +kernel, by decide +kernel,
    by decide +kernel, by unfold Middle; decide +kernel, by unfold Beats; decide +kernel, by unfold Beats; decide +kernel⟩

/-- C122 is not true of the instant runoff: the voters stand along a line with the candidate `C` in the middle, who beats both others, and `L` wins. -/
theorem C122_irv_refuted : ∃ (m : Jabmod) (d : IrvDict) (pos : Str → Int) (places : List Int),
    convertAbif true false false squeezeText = .ok m ∧ List.Forall₂ (PeakedAt (Dict.keys m.candidates) pos) m.votelines places ∧
    Middle m places (pos c!"C") ∧ CopelandWinners m [c!"C"] ∧ irvDict Sched.std m = .ok d ∧ d.run.winner = [c!"L"] := by
  have hm := readText_eq (t := squeezeText) (by decide +kernel)
  obtain ⟨d, hd, hw⟩ := irvOf_some (m := readText squeezeText) (ws := [c!"L"]) (by decide +kernel)
  have hmid : Middle (readText squeezeText) ([0, 2, 1] : List Int) (squeezePos c!"C") := by unfold Middle; decide +kernel
  exact ⟨_, d, squeezePos, [0, 2, 1], hm, squeeze_line, hmid,
    (C122_middle _ (strict_allRanked squeeze_strict) squeeze_strict.countable.cands squeeze_strict.nonneg squeezePos (by decide +kernel) _
      squeeze_line _ (by decide +kernel) hmid).2, hd, hw⟩

/-- the voters' paradox: no order of the candidates along a line fits these ballots -/
def paradoxText : Str := c!"1:A>B>C\n1:B>C>A\n1:C>A>B\n"

/-- Without a line there are cycles: `A` beats `B`, `B` beats `C` and `C` beats `A`, and all three are Copeland winners. -/
theorem C122_cycle_refuted : ∃ m : Jabmod, convertAbif true false false paradoxText = .ok m ∧ Beats m c!"A" c!"B" ∧ Beats m c!"B" c!"C" ∧
    Beats m c!"C" c!"A" ∧ ∃ ws, CopelandWinners m ws ∧ ws.Perm [c!"A", c!"B", c!"C"] := by
  have hm := readText_eq (t := paradoxText) (by decide +kernel)
  refine ⟨_, hm, by unfold Beats; decide +kernel, by unfold Beats; decide +kernel, by unfold Beats; decide +kernel, [c!"A", c!"B", c!"C"], ?_, .refl _⟩
  have hok : (match fullCopecount (readText paradoxText) with
    | .ok cc => decide ((copelandWinners cc.winlosstie).toOption = some [c!"A", c!"B", c!"C"])
    | .error _ => false) = true := by decide +kernel
  unfold CopelandWinners
  cases hcc : fullCopecount (readText paradoxText) with
  | error e => rw [hcc] at hok; cases hok
  | ok cc =>
    rw [hcc] at hok
    refine ⟨cc, rfl, ?_⟩
    have := of_decide_eq_true hok
    cases hw : copelandWinners cc.winlosstie with
    | error e => rw [hw] at this; cases this
    | ok ws => rw [hw] at this; exact congrArg Except.ok (Option.some.inj this)

/-- Witness for `C122_nearest`: five voters at −3, −1 and 4; `C` is the nearest to the one in the middle, at −1. -/
example : ∃ (m : Jabmod) (pos : Str → ℚ), convertAbif true false false c!"2:L>C>R\n2:R>C>L\n1:C>L>R\n" = .ok m ∧
    List.Forall₂ (fun v x => ∀ a ∈ Dict.keys m.candidates, ∀ b ∈ Dict.keys m.candidates, |x - pos a| < |x - pos b| → prefers v a b = true)
      m.votelines ([-3, 4, -1] : List ℚ) ∧ Middle m ([-3, 4, -1] : List ℚ) (-1) ∧
    ∀ d ∈ Dict.keys m.candidates, d ≠ c!"C" → |-1 - pos c!"C"| < |-1 - pos d| := by
  refine ⟨_, fun c => if c = c!"L" then -4 else if c = c!"C" then 0 else 5, readText_eq (by decide +kernel), by decide +kernel,
    by unfold Middle; decide +kernel, by decide +kernel⟩

end

end Verif.Props
