/-
C117: candidates who are on no ballot.
-/
import Verif.Props.IrvClones
import Verif.Props.CopelandTheory
import Verif.Props.Reversal

set_option linter.unusedSimpArgs false
set_option linter.unusedSectionVars false

namespace Verif.Runoff
open Classical

section
variable {α : Type} {q : α → Int} {t : α → Finset Str → Option Str} {vs : List α}

theorem wsum_pos_exists (p : α → Prop) (h : 0 < wsum q vs p) : ∃ v ∈ vs, p v ∧ 0 < q v := by
  induction vs with
  | nil => rw [wsum_nil] at h; omega
  | cons v vs ih =>
    rw [wsum_cons] at h
    by_cases hv : p v ∧ 0 < q v
    · exact ⟨v, by simp, hv⟩
    · have : 0 < wsum q vs p := by
        by_cases hp : p v
        · have : ¬ 0 < q v := fun h0 => hv ⟨hp, h0⟩
          rw [if_pos hp] at h; omega
        · rw [if_neg hp] at h; omega
      obtain ⟨w, h1, h2⟩ := ih this
      exact ⟨w, by simp [h1], h2⟩

theorem wsum_pos {p : α → Prop} (hq : ∀ v ∈ vs, 0 ≤ q v) {v : α} (hv : v ∈ vs) (hp : p v) (h0 : 0 < q v) : 0 < wsum q vs p := by
  induction vs with
  | nil => simp at hv
  | cons x vs ih =>
    rw [wsum_cons]
    have h1 : 0 ≤ wsum q vs p := by
      have := wsum_le (q := q) (vs := vs) (fun v hv => hq v (by simp [hv])) (p := fun _ => False) (r := p) (fun _ _ h => h.elim)
      have e : wsum q vs (fun _ => False) = 0 := by
        clear this ih hv hq
        induction vs with
        | nil => rfl
        | cons x vs ih => rw [wsum_cons, ih]; simp
      omega
    have h2 := hq x (by simp)
    rcases List.mem_cons.1 hv with rfl | hv
    · rw [if_pos hp]; omega
    · have := ih (fun v hv => hq v (by simp [hv])) hv
      split <;> omega

variable (hc : Choice q t vs) (P : Str → Prop) (ht : ∀ v ∈ vs, ∀ C, t v C = t v (C.filter (fun c => ¬ P c)))
include hc ht

theorem votes_aside (C : Finset Str) (x : Str) : votes q t vs C x = votes q t vs (C.filter (fun c => ¬ P c)) x :=
  wsum_congr (fun v hv => by rw [ht v hv C])

theorem counted_aside (C : Finset Str) : counted q t vs C = counted q t vs (C.filter (fun c => ¬ P c)) :=
  wsum_congr (fun v hv => by rw [ht v hv C])

theorem votes_bystander (C : Finset Str) {x : Str} (hx : P x) : votes q t vs C x = 0 := by
  rw [votes_aside hc P ht]
  by_contra hne
  have h0 : 0 ≤ votes q t vs (C.filter (fun c => ¬ P c)) x := by
    by_contra hn
    have := wsum_le (q := q) (vs := vs) hc.nonneg (p := fun _ => False)
      (r := fun v => t v (C.filter (fun c => ¬ P c)) = some x) (fun _ _ h => h.elim)
    have e : wsum q vs (fun _ => False) = 0 := by
      clear this hn hne hc ht
      induction vs with
      | nil => rfl
      | cons x vs ih => rw [wsum_cons, ih]; simp
    unfold votes at hn
    omega
  obtain ⟨v, hv, h1, _⟩ := wsum_pos_exists (q := q) (vs := vs) (fun v => t v (C.filter (fun c => ¬ P c)) = some x)
    (by unfold votes at h0 hne; omega)
  exact (Finset.mem_filter.1 (hc.mem v hv _ _ h1)).2 hx

/-- who can win among all can win among those who are on ballots -/
theorem canWin_aside {C : Finset Str} {w : Str} (h : CanWin q t vs C w) (hpos : 0 < counted q t vs C) :
    CanWin q t vs (C.filter (fun c => ¬ P c)) w := by
  induction h with
  | won C w h =>
    obtain ⟨hw, h⟩ := h
    have hwP : ¬ P w := by
      intro hP
      rcases h with h | h
      · have := votes_bystander hc P ht C hP
        omega
      · have hempty : C.filter (fun c => ¬ P c) = ∅ := by
          rw [Finset.filter_eq_empty_iff]
          intro y hy hn
          exact hn (h y hy ▸ hP)
        rw [counted_aside hc P ht, hempty] at hpos
        obtain ⟨v, hv, h1, _⟩ := wsum_pos_exists (q := q) (vs := vs) _ hpos
        cases hx : t v ∅ with
        | none => exact h1 hx
        | some x => exact absurd (hc.mem v hv _ _ hx) (Finset.notMem_empty _)
    refine .won _ _ ⟨Finset.mem_filter.2 ⟨hw, hwP⟩, ?_⟩
    rcases h with h | h
    · left
      rwa [← counted_aside hc P ht, ← votes_aside hc P ht]
    · exact .inr (fun y hy => h y (Finset.mem_filter.1 hy).1)
  | drop C w x hx hmin h ih =>
    by_cases hP : P x
    · have e : (C.erase x).filter (fun c => ¬ P c) = C.filter (fun c => ¬ P c) := by
        ext c
        simp only [Finset.mem_filter, Finset.mem_erase]
        constructor
        · rintro ⟨⟨_, h1⟩, h2⟩; exact ⟨h1, h2⟩
        · rintro ⟨h1, h2⟩; exact ⟨⟨fun e => h2 (e ▸ hP), h1⟩, h2⟩
      rw [e] at ih
      exact ih (by rw [counted_aside hc P ht, e, ← counted_aside hc P ht]; exact hpos)
    · have hpos' : 0 < counted q t vs (C.erase x) := by
        have hwm := CanWin.mem h
        -- somebody else has votes
        obtain ⟨v, hv, h1, h0⟩ := wsum_pos_exists (q := q) (vs := vs) _ hpos
        cases hy : t v C with
        | none => exact absurd hy h1
        | some y =>
          by_cases hyx : y = x
          · subst hyx
            have hvx : 0 < votes q t vs C y := wsum_pos hc.nonneg hv hy h0
            have h2 := hmin w (Finset.mem_erase.1 hwm).2
            have h3 := votes_grow hc (Finset.erase_subset y C) hwm
            have h4 : votes q t vs (C.erase y) w ≤ counted q t vs (C.erase y) :=
              wsum_le hc.nonneg (fun _ _ hv => by rw [hv]; simp)
            omega
          · have hmem : y ∈ C.erase x := Finset.mem_erase.2 ⟨hyx, hc.mem v hv _ _ hy⟩
            exact wsum_pos hc.nonneg hv (by rw [hc.keep v hv C _ y (Finset.erase_subset _ _) hy hmem]; simp) h0
      have e : (C.erase x).filter (fun c => ¬ P c) = (C.filter (fun c => ¬ P c)).erase x := by
        rw [Finset.filter_erase]
      refine .drop _ _ x (Finset.mem_filter.2 ⟨hx, hP⟩) ?_ (e ▸ ih hpos')
      intro y hy
      rw [← votes_aside hc P ht, ← votes_aside hc P ht]
      exact hmin y (Finset.mem_filter.1 hy).1

/-- and the other way round -/
theorem canWin_beside {C : Finset Str} {w : Str} (h : CanWin q t vs (C.filter (fun c => ¬ P c)) w) : CanWin q t vs C w := by
  refine canWin_of_group hc P _ C rfl ?_ h
  intro y _ _
  have h0 : mass q t vs C P ≤ 0 := by
    by_contra hn
    obtain ⟨v, hv, ⟨x, h1, h2⟩, _⟩ := wsum_pos_exists (q := q) (vs := vs) (fun v => ∃ x, t v C = some x ∧ P x)
      (by unfold mass at hn; omega)
    rw [ht v hv C] at h1
    exact (Finset.mem_filter.1 (hc.mem v hv _ _ h1)).2 h2
  have h1 : 0 ≤ votes q t vs C y := by
    have := wsum_le (q := q) (vs := vs) hc.nonneg (p := fun _ => False)
      (r := fun v => t v C = some y) (fun _ _ h => h.elim)
    have e : wsum q vs (fun _ => False) = 0 := by
      clear this h h0 hc ht
      induction vs with
      | nil => rfl
      | cons x vs ih => rw [wsum_cons, ih]; simp
    unfold votes
    omega
  omega
end
end Verif.Runoff

namespace Verif.Props
open Verif Spec Runoff

/-- The second election is the first one with further candidates, `Z`, who are on no ballot. -/
structure WithBystanders (Z : List Str) (m m' : Jabmod) : Prop where
  votes : m'.votelines = m.votelines
  cands : ∀ c : Str, c ∈ Dict.keys m.candidates ↔ c ∈ Dict.keys m'.candidates ∧ c ∉ Z
  unlisted : ∀ v ∈ m.votelines, ∀ z ∈ Z, z ∉ Dict.keys v.prefs

/-- Some voter lists one of the candidates. -/
def SomeVote (m : Jabmod) : Prop := ∃ v ∈ m.votelines, 0 < v.qty ∧ ∃ x ∈ Dict.keys m.candidates, x ∈ Dict.keys v.prefs

open Classical in
theorem favourite_aside {v : Voteline} {Z : List Str} (h : ∀ z ∈ Z, z ∉ Dict.keys v.prefs) (hr : ∀ c ∈ Dict.keys v.prefs, (rankOf v c).isSome = true)
    (C : Finset Str) : favourite v C = favourite v (C.filter (fun c => ¬ c ∈ Z)) := by
  have key : ∀ x : Str, favourite v C = some x ↔ favourite v (C.filter (fun c => ¬ c ∈ Z)) = some x := by
    intro x
    rw [favourite_some, favourite_some]
    constructor
    · rintro ⟨h1, h2, h3⟩
      exact ⟨Finset.mem_filter.2 ⟨h1, fun hz => h x hz h2⟩, h2, fun y hy => h3 y (Finset.mem_filter.1 hy).1⟩
    · rintro ⟨h1, h2, h3⟩
      refine ⟨(Finset.mem_filter.1 h1).1, h2, fun y hy hne => ?_⟩
      by_cases hz : y ∈ Z
      · have h4 : rankOf v y = none := by
          unfold rankOf
          rw [Dict.get?_eq_none.2 (h y hz)]
          rfl
        obtain ⟨r, hr'⟩ := Option.isSome_iff_exists.1 (hr x h2)
        unfold prefers
        rw [h4, hr']
      · exact h3 y (Finset.mem_filter.2 ⟨hy, hz⟩) hne
  cases h1 : favourite v C with
  | some x => exact ((key x).1 h1).symm
  | none =>
    cases h2 : favourite v (C.filter (fun c => ¬ c ∈ Z)) with
    | none => rfl
    | some x => rw [(key x).2 h2] at h1; cases h1

/-- C117, instant runoff: candidates who are on no ballot do not change the winner, if ballots have no ties, somebody votes, and the count with or
without them is clear cut and ends with one winner. -/
theorem C117_irv (S S' : Sched) (Z : List Str) (m m' : Jabmod) (d d' : IrvDict) (he : StrictElection m) (he' : StrictElection m')
    (h : WithBystanders Z m m') (hv : SomeVote m) (hd : irvDict S m = .ok d) (hd' : irvDict S' m' = .ok d') (w : Str) :
    (ClearCut d → d.run.winner = [w] → d'.run.winner = [w]) ∧ (ClearCut d' → d'.run.winner = [w] → d.run.winner = [w]) := by
  classical
  have hranked : ∀ v ∈ m.votelines, ∀ c ∈ Dict.keys v.prefs, (rankOf v c).isSome = true := by
    intro v hv c hc
    obtain ⟨p, hp⟩ := Dict.exists_get?_of_mem hc
    unfold rankOf
    rw [hp]
    obtain ⟨r, hr⟩ := he.countable.ranked v hv c p hp
    simp [hr]
  have ht : ∀ v ∈ m.votelines, ∀ C : Finset Str, favourite v C = favourite v (C.filter (fun c => ¬ c ∈ Z)) :=
    fun v hv C => favourite_aside (h.unlisted v hv) (hranked v hv) C
  have hc := favourite_choice he
  have hK : (Dict.keys m'.candidates).toFinset.filter (fun c => ¬ c ∈ Z) = (Dict.keys m.candidates).toFinset := by
    ext c
    simp only [Finset.mem_filter, List.mem_toFinset]
    exact (h.cands c).symm
  have hpos : 0 < counted Voteline.qty favourite m.votelines (Dict.keys m'.candidates).toFinset := by
    obtain ⟨v, hv1, hv2, x, hx1, hx2⟩ := hv
    refine wsum_pos hc.nonneg hv1 ?_ hv2
    rw [Ne, favourite_none he hv1]
    intro hall
    exact hall x (List.mem_toFinset.2 ((h.cands x).1 hx1).1) hx2
  constructor
  · intro hcut hw
    refine run_unique he' hd' (fun w' hw' => ?_)
    rw [h.votes] at hw'
    have := canWin_aside hc (fun c => c ∈ Z) (fun v hv C => by convert ht v hv C) hw' hpos
    have := (show CanWin _ _ _ (Dict.keys m.candidates).toFinset w' by convert this using 1; rw [← hK]; congr)
    exact run_only he hd hcut hw this
  · intro hcut hw
    refine run_unique he hd (fun w' hw' => ?_)
    rw [← hK] at hw'
    have := canWin_beside hc (fun c => c ∈ Z) (fun v hv C => by convert ht v hv C) (C := (Dict.keys m'.candidates).toFinset) (w := w') (by convert hw')
    rw [← h.votes] at this
    exact run_only he' hd' hcut hw this

theorem prefers_offBallot {v : Voteline} {z : Str} (h : z ∉ Dict.keys v.prefs) (b : Str) : prefers v z b = false := by
  unfold prefers rankOf
  rw [Dict.get?_eq_none.2 h]
  rfl

theorem support_votes {Z : List Str} {m m' : Jabmod} (h : WithBystanders Z m m') (a b : Str) : support m' a b = support m a b := by
  unfold support
  rw [h.votes]

theorem support_bystander {Z : List Str} {m m' : Jabmod} (h : WithBystanders Z m m') {z : Str} (hz : z ∈ Z) (b : Str) :
    support m z b = 0 := by
  unfold support
  have key : ∀ l : List Voteline, (∀ v ∈ l, v ∈ m.votelines) → qtySum (fun vl => prefers vl z b) l = 0 := by
    intro l hl
    induction l with
    | nil => rfl
    | cons v l ih =>
      rw [qtySum_cons, ih (fun v hv => hl v (by simp [hv])), prefers_offBallot (h.unlisted v (hl v (by simp)) z hz)]
      simp
  exact key _ (fun _ hv => hv)

theorem allRanked_votes {Z : List Str} {m m' : Jabmod} (h : WithBystanders Z m m') (hr : Spec.AllRanked m) : Spec.AllRanked m' := by
  unfold Spec.AllRanked
  rw [h.votes]
  exact hr

/-- C117, pairwise counts: the cells of the others are the same, and those of a candidate on no ballot against the others are zero. -/
theorem C117_pairwise (Z : List Str) (m m' : Jabmod) (h : WithBystanders Z m m') (hr : Spec.AllRanked m) :
    (∀ a ∈ Dict.keys m.candidates, ∀ b ∈ Dict.keys m.candidates, ∃ x : Option Int,
      pairGet (pairwiseCount m) a b = .ok x ∧ pairGet (pairwiseCount m') a b = .ok x) ∧
    (∀ z ∈ Dict.keys m'.candidates, z ∈ Z → ∀ b ∈ Dict.keys m'.candidates, b ≠ z →
      pairGet (pairwiseCount m') z b = .ok (some 0)) := by
  have hr' := allRanked_votes h hr
  constructor
  · intro a ha b hb
    rw [pairwiseCount_support m hr, pairwiseCount_support m' hr', pairGet_matrixOf ha hb,
      pairGet_matrixOf ((h.cands a).1 ha).1 ((h.cands b).1 hb).1]
    exact ⟨_, rfl, by rw [support_votes h]⟩
  · intro z hz hzZ b hb hbz
    rw [pairwiseCount_support m' hr', pairGet_matrixOf hz hb, if_neg (Ne.symm hbz), support_votes h, support_bystander h hzZ]

theorem support_nonneg {m : Jabmod} (hq : QtyNonneg m) (a b : Str) : 0 ≤ support m a b := by
  unfold support
  have key : ∀ l : List Voteline, (∀ v ∈ l, 0 ≤ v.qty) → 0 ≤ qtySum (fun vl => prefers vl a b) l := by
    intro l hl
    induction l with
    | nil => exact Int.le_refl _
    | cons v l ih =>
      rw [qtySum_cons]
      have h1 := ih (fun v hv => hl v (by simp [hv]))
      have h2 := hl v (by simp)
      split <;> omega
  exact key _ hq

theorem losses_aside {Z : List Str} {m m' : Jabmod} (h : WithBystanders Z m m') (hq : QtyNonneg m) (hn : (Dict.keys m.candidates).Nodup)
    (hn' : (Dict.keys m'.candidates).Nodup) (c : Str) :
    lossesOf m' c = lossesOf m c := by
  unfold lossesOf countOpp
  have hp : (m'.candidates.keys.filter (fun b => decide (b ≠ c) && decide (support m' b c > support m' c b))).Perm
      (m.candidates.keys.filter (fun b => decide (b ≠ c) && decide (support m b c > support m c b))) := by
    rw [List.perm_ext_iff_of_nodup (hn'.filter _) (hn.filter _)]
    intro b
    simp only [List.mem_filter, Bool.and_eq_true, decide_eq_true_eq, support_votes h]
    constructor
    · rintro ⟨h1, h2, h3⟩
      refine ⟨(h.cands b).2 ⟨h1, fun hz => ?_⟩, h2, h3⟩
      rw [support_bystander h hz] at h3
      have := support_nonneg hq c b
      omega
    · rintro ⟨h1, h2, h3⟩
      exact ⟨((h.cands b).1 h1).1, h2, h3⟩
  rw [hp.length_eq]

theorem support_listed {m : Jabmod} (hq : QtyNonneg m) (hr : Spec.AllRanked m) {v : Voteline} (hv : v ∈ m.votelines) (h0 : 0 < v.qty) {x z : Str}
    (hx : x ∈ Dict.keys v.prefs) (hz : z ∉ Dict.keys v.prefs) : 0 < support m x z := by
  unfold support
  have hp : prefers v x z = true := by
    obtain ⟨p, hp⟩ := Dict.exists_get?_of_mem hx
    obtain ⟨r, hr1, _⟩ := hr v hv x p hp
    unfold prefers rankOf
    rw [hp, Dict.get?_eq_none.2 hz]
    simp [hr1]
  have key : ∀ l : List Voteline, (∀ v ∈ l, 0 ≤ v.qty) → v ∈ l → 0 < qtySum (fun vl => prefers vl x z) l := by
    intro l hl hvl
    induction l with
    | nil => simp at hvl
    | cons u l ih =>
      rw [qtySum_cons]
      have h1 : 0 ≤ qtySum (fun vl => prefers vl x z) l := by
        clear ih hvl
        induction l with
        | nil => exact Int.le_refl _
        | cons u' l ih =>
          rw [qtySum_cons]
          have h1 := ih (fun v hv => hl v (by simp at hv ⊢; tauto))
          have h2 := hl u' (by simp)
          split <;> omega
      have h2 := hl u (by simp)
      rcases List.mem_cons.1 hvl with rfl | hvl
      · rw [if_pos hp]; omega
      · have := ih (fun v hv => hl v (by simp [hv])) hvl
        split <;> omega
  exact key _ hq hv

/-- C117, Copeland: candidates on no ballot do not change who wins. -/
theorem C117_copeland (Z : List Str) (m m' : Jabmod) (h : WithBystanders Z m m') (hr : Spec.AllRanked m) (hq : QtyNonneg m)
    (hn : (Dict.keys m.candidates).Nodup) (hn' : (Dict.keys m'.candidates).Nodup) (hv : SomeVote m) :
    ∃ cc ws cc' ws', fullCopecount m = .ok cc ∧ copelandWinners cc.winlosstie = .ok ws ∧
      fullCopecount m' = .ok cc' ∧ copelandWinners cc'.winlosstie = .ok ws' ∧ ws ≠ [] ∧ ∀ c : Str, c ∈ ws' ↔ c ∈ ws := by
  have hr' := allRanked_votes h hr
  obtain ⟨v, hv1, hv2, x, hx1, hx2⟩ := hv
  obtain ⟨cc, ws, e1, e2, _, e3, hiff⟩ := C86_fewest_losses m hr hn (List.ne_nil_of_mem hx1)
  obtain ⟨cc', ws', f1, f2, _, _, hiff'⟩ := C86_fewest_losses m' hr' hn' (List.ne_nil_of_mem ((h.cands x).1 hx1).1)
  refine ⟨cc, ws, cc', ws', e1, e2, f1, f2, e3, fun c => ?_⟩
  -- a bystander loses to more candidates than `x`
  have hby : ∀ z ∈ Z, z ∈ Dict.keys m'.candidates → lossesOf m' x < lossesOf m' z := by
    intro z hz hzm
    have hzx : z ≠ x := by rintro rfl; exact ((h.cands z).1 hx1).2 hz
    rw [losses_aside h hq hn hn', losses_aside h hq hn hn']
    unfold lossesOf
    refine countOpp_lt (x := x) ?_ hx1 (Ne.symm hzx) ?_ (.inl rfl)
    · intro b hb hbx hp
      have hp' : support m b x > support m x b := by simpa using hp
      refine ⟨by rintro rfl; exact ((h.cands b).1 hb).2 hz, ?_⟩
      -- some voter lists `b`
      have hpos : 0 < support m b x := by have := support_nonneg hq x b; omega
      have : 0 < support m b z := by
        unfold support at hpos
        have key : ∀ l : List Voteline, 0 < qtySum (fun vl => prefers vl b x) l → ∃ u ∈ l, 0 < u.qty ∧ prefers u b x = true := by
          intro l hl
          induction l with
          | nil => simp [qtySum] at hl
          | cons u l ih =>
            rw [qtySum_cons] at hl
            by_cases hu : 0 < u.qty ∧ prefers u b x = true
            · exact ⟨u, by simp, hu⟩
            · have : 0 < qtySum (fun vl => prefers vl b x) l := by
                by_cases hpu : prefers u b x = true
                · rw [if_pos hpu] at hl
                  have : ¬ 0 < u.qty := fun h0 => hu ⟨h0, hpu⟩
                  omega
                · rw [if_neg hpu] at hl; omega
              obtain ⟨w, h1, h2⟩ := ih this
              exact ⟨w, by simp [h1], h2⟩
        obtain ⟨u, hu, h0, hpu⟩ := key _ hpos
        refine support_listed hq hr hu h0 ?_ (h.unlisted u hu z hz)
        by_contra hbk
        rw [prefers_offBallot hbk] at hpu
        cases hpu
      simpa [support_bystander h hz] using this
    · have := support_listed hq hr hv1 hv2 hx2 (h.unlisted v hv1 z hz)
      simpa [support_bystander h hz] using this
  rw [hiff, hiff']
  constructor
  · rintro ⟨h1, h2⟩
    have hcZ : c ∉ Z := by
      intro hz
      have h3 := hby c hz h1
      have h4 := h2 x ((h.cands x).1 hx1).1
      omega
    refine ⟨(h.cands c).2 ⟨h1, hcZ⟩, fun d hd => ?_⟩
    rw [← losses_aside h hq hn hn', ← losses_aside h hq hn hn' d]
    exact h2 d ((h.cands d).1 hd).1
  · rintro ⟨h1, h2⟩
    refine ⟨((h.cands c).1 h1).1, fun d hd => ?_⟩
    by_cases hdZ : d ∈ Z
    · have h3 := hby d hdZ hd
      have h4 := h2 x hx1
      rw [losses_aside h hq hn hn' x] at h3
      rw [losses_aside h hq hn hn' c]
      omega
    · rw [losses_aside h hq hn hn' c, losses_aside h hq hn hn' d]
      exact h2 d ((h.cands d).2 ⟨hd, hdZ⟩)

/-- C117, scores: the scores of the others are the same, and a candidate on no ballot has none. -/
theorem C117_scores [Uni] (Z : List Str) (m m' : Jabmod) (h : WithBystanders Z m m') (hs : Scorable m) (hs' : Scorable m') :
    ∃ d d', basicScore m = .ok d ∧ basicScore m' = .ok d' ∧
      (∀ c ∈ Dict.keys m.candidates, ∃ e e' : ScoreEntry, d.get? c = some e ∧ d'.get? c = some e' ∧
        e'.score = e.score ∧ e'.votercount = e.votercount) ∧
      (∀ z ∈ Dict.keys m'.candidates, z ∈ Z → ∃ e : ScoreEntry, d'.get? z = some e ∧ e.score = 0 ∧ e.votercount = 0) := by
  obtain ⟨d, h1, _, h3⟩ := C24_scores m hs
  obtain ⟨d', h1', _, h3'⟩ := C24_scores m' hs'
  have hscore : ∀ c : Str, scoreOf m' c = scoreOf m c ∧ ratersOf m' c = ratersOf m c := by
    intro c
    unfold scoreOf ratersOf
    rw [h.votes]
    exact ⟨rfl, rfl⟩
  refine ⟨d, d', h1, h1', ?_, ?_⟩
  · intro c hc
    obtain ⟨n, hn⟩ := Dict.exists_get?_of_mem hc
    obtain ⟨n', hn'⟩ := Dict.exists_get?_of_mem ((h.cands c).1 hc).1
    exact ⟨_, _, h3 c n hn, h3' c n' hn', (hscore c).1, (hscore c).2⟩
  · intro z hz hzZ
    obtain ⟨n', hn'⟩ := Dict.exists_get?_of_mem hz
    refine ⟨_, h3' z n' hn', ?_, ?_⟩
    · simp only [(hscore z).1]
      have key : ∀ l : List Voteline, (∀ v ∈ l, v ∈ m.votelines) → (l.map (fun vl => vl.qty * ratingOf vl z)).sum = 0 := by
        intro l hl
        induction l with
        | nil => rfl
        | cons v l ih =>
          simp only [List.map_cons, List.sum_cons, ih (fun v hv => hl v (by simp [hv]))]
          have : ratingOf v z = 0 := by
            unfold ratingOf
            rw [Dict.get?_eq_none.2 (h.unlisted v (hl v (by simp)) z hzZ)]
          simp [this]
      exact key _ (fun _ hv => hv)
    · simp only [(hscore z).2]
      have key : ∀ l : List Voteline, (∀ v ∈ l, v ∈ m.votelines) → qtySum (fun vl => decide (0 < ratingOf vl z)) l = 0 := by
        intro l hl
        induction l with
        | nil => rfl
        | cons v l ih =>
          rw [qtySum_cons, ih (fun v hv => hl v (by simp [hv]))]
          have : ratingOf v z = 0 := by
            unfold ratingOf
            rw [Dict.get?_eq_none.2 (h.unlisted v (hl v (by simp)) z hzZ)]
          simp [this]
      exact key _ (fun _ hv => hv)

section
attribute [local instance] Uni.ascii
set_option maxRecDepth 40000

def byText : Str := c!"5:B>A\n4:A>C\n3:A>B\n2:C>A\n"

/-- the same ballots with two more candidates announced -/
def byText2 : Str := c!"=Y:[Why]\n=Z:[Zed]\n5:B>A\n4:A>C\n3:A>B\n2:C>A\n"

theorem withBystanders_of {Z : List Str} {m m' : Jabmod} (h1 : m'.votelines = m.votelines) (h2 : ∀ c ∈ Dict.keys m.candidates, c ∈ Dict.keys m'.candidates ∧ c ∉ Z)
    (h3 : ∀ c ∈ Dict.keys m'.candidates, c ∈ Z ∨ c ∈ Dict.keys m.candidates) (h4 : ∀ v ∈ m.votelines, ∀ z ∈ Z, z ∉ Dict.keys v.prefs) :
    WithBystanders Z m m' :=
  ⟨h1, fun c => ⟨h2 c, fun h => (h3 c h.1).resolve_left h.2⟩, h4⟩

/-- two elections to which `C117_irv`, `C117_pairwise`, `C117_copeland` and `C117_scores` apply: `Y` and `Z` are announced and on no ballot -/
example : ∃ d d', irvDict Sched.std (readText byText) = .ok d ∧ irvDict Sched.std (readText byText2) = .ok d' ∧
    StrictElection (readText byText) ∧ StrictElection (readText byText2) ∧ WithBystanders [c!"Y", c!"Z"] (readText byText) (readText byText2) ∧
    SomeVote (readText byText) ∧ ClearCut d ∧ ClearCut d' ∧ d.run.winner = [c!"A"] ∧ d'.run.winner = [c!"A"] ∧
    Dict.keys (readText byText2).candidates = [c!"Y", c!"Z", c!"B", c!"A", c!"C"] ∧
    Spec.AllRanked (readText byText) ∧ QtyNonneg (readText byText) := by
  have hall : ∀ x ∈ (irvDict Sched.std (readText byText)).toOption.toList,
      ∀ k < x.run.roundmeta.length, ∀ rm ∈ x.run.roundmeta[k]?.toList, ∀ rm' ∈ x.run.roundmeta[k + 1]?.toList,
        ∀ cnt ∈ x.run.rounds[k]?.toList, ∀ c ∈ rm'.startingCands, ∀ v ∈ (Dict.get? cnt c).toList,
          (rm.eliminated.map (fun e => (Dict.get? cnt e).getD 0)).sum < v := by decide +kernel
  have hall' : ∀ x ∈ (irvDict Sched.std (readText byText2)).toOption.toList,
      ∀ k < x.run.roundmeta.length, ∀ rm ∈ x.run.roundmeta[k]?.toList, ∀ rm' ∈ x.run.roundmeta[k + 1]?.toList,
        ∀ cnt ∈ x.run.rounds[k]?.toList, ∀ c ∈ rm'.startingCands, ∀ v ∈ (Dict.get? cnt c).toList,
          (rm.eliminated.map (fun e => (Dict.get? cnt e).getD 0)).sum < v := by decide +kernel
  obtain ⟨d, hd, hw⟩ := irvOf_some (m := readText byText) (ws := [c!"A"]) (by decide +kernel)
  obtain ⟨d', hd', hw'⟩ := irvOf_some (m := readText byText2) (ws := [c!"A"]) (by decide +kernel)
  rw [hd] at hall
  rw [hd'] at hall'
  have hm := readText_eq (t := byText) (by decide +kernel)
  exact ⟨d, d', hd, hd', strict_text (by decide +kernel) (by decide +kernel) (by decide +kernel) (by unfold Strict; decide +kernel),
    strict_text (by decide +kernel) (by decide +kernel) (by decide +kernel) (by unfold Strict; decide +kernel),
    withBystanders_of (by decide +kernel) (by decide +kernel) (by decide +kernel) (by decide +kernel),
    (by unfold SomeVote; decide +kernel), clearCut_of (hall d (by simp [Except.toOption])), clearCut_of (hall' d' (by simp [Except.toOption])), hw, hw',
    (by decide +kernel), parsed_allRanked _ _ _ _ _ hm (by decide +kernel), (by unfold QtyNonneg; decide +kernel)⟩
end
end Verif.Props
