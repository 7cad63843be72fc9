/-
Helper lemmas: elimination counts in general.  Every ballot `v` has, among the candidates `C` who are left, a favourite
`t v C` or none.  (Used for C108.)
-/
import Verif.Py.Str
import Mathlib.Data.Finset.Image
import Mathlib.Data.Finset.Card
import Mathlib.Data.Finset.Max

namespace Verif.Runoff

open Classical

section
variable {α : Type} (q : α → Int)

/-- the weight of the ballots with `p` -/
noncomputable def wsum (vs : List α) (p : α → Prop) : Int := ((vs.filter (fun v => decide (p v))).map q).sum

variable {q}

theorem wsum_nil (p : α → Prop) : wsum q [] p = 0 := rfl

theorem wsum_cons (v : α) (vs : List α) (p : α → Prop) : wsum q (v :: vs) p = (if p v then q v else 0) + wsum q vs p := by
  unfold wsum
  by_cases h : p v
  · simp [h]
  · simp [h]

theorem wsum_le {vs : List α} (hq : ∀ v ∈ vs, 0 ≤ q v) {p r : α → Prop} (h : ∀ v ∈ vs, p v → r v) : wsum q vs p ≤ wsum q vs r := by
  induction vs with
  | nil => exact Int.le_refl _
  | cons v vs ih =>
    rw [wsum_cons, wsum_cons]
    have h1 := ih (fun x hx => hq x (by simp [hx])) (fun x hx => h x (by simp [hx]))
    have h2 := hq v (by simp)
    by_cases hp : p v
    · rw [if_pos hp, if_pos (h v (by simp) hp)]; omega
    · rw [if_neg hp]
      split <;> omega

theorem wsum_congr {vs : List α} {p r : α → Prop} (h : ∀ v ∈ vs, p v ↔ r v) : wsum q vs p = wsum q vs r := by
  induction vs with
  | nil => rfl
  | cons v vs ih =>
    rw [wsum_cons, wsum_cons, ih (fun x hx => h x (by simp [hx]))]
    congr 1
    simp only [h v (by simp)]

theorem wsum_add_le {vs : List α} (hq : ∀ v ∈ vs, 0 ≤ q v) {p r s : α → Prop} (hd : ∀ v ∈ vs, p v → r v → False)
    (h1 : ∀ v ∈ vs, p v → s v) (h2 : ∀ v ∈ vs, r v → s v) : wsum q vs p + wsum q vs r ≤ wsum q vs s := by
  induction vs with
  | nil => exact Int.le_refl _
  | cons v vs ih =>
    rw [wsum_cons, wsum_cons, wsum_cons]
    have := ih (fun x hx => hq x (by simp [hx])) (fun x hx => hd x (by simp [hx])) (fun x hx => h1 x (by simp [hx]))
      (fun x hx => h2 x (by simp [hx]))
    have hv := hq v (by simp)
    by_cases hp : p v
    · rw [if_pos hp, if_neg (hd v (by simp) hp), if_pos (h1 v (by simp) hp)]; omega
    · rw [if_neg hp]
      by_cases hr : r v
      · rw [if_pos hr, if_pos (h2 v (by simp) hr)]; omega
      · rw [if_neg hr]
        split <;> omega

end

section
variable {α : Type} (q : α → Int) (t : α → Finset Str → Option Str) (vs : List α)

/-- the votes of `x` when the candidates `C` are left -/
noncomputable def votes (C : Finset Str) (x : Str) : Int := wsum q vs (fun v => t v C = some x)
/-- the votes of the candidates with `P` together -/
noncomputable def mass (C : Finset Str) (P : Str → Prop) : Int := wsum q vs (fun v => ∃ x, t v C = some x ∧ P x)
/-- all votes -/
noncomputable def counted (C : Finset Str) : Int := wsum q vs (fun v => t v C ≠ none)

/-- what makes `t` a way to choose a favourite -/
structure Choice : Prop where
  nonneg : ∀ v ∈ vs, 0 ≤ q v
  mem : ∀ v ∈ vs, ∀ C x, t v C = some x → x ∈ C
  keep : ∀ v ∈ vs, ∀ C D x, D ⊆ C → t v C = some x → x ∈ D → t v D = some x
  gone : ∀ v ∈ vs, ∀ C D, D ⊆ C → t v C = none → t v D = none

/-- `w` has won when `C` are left: by a majority, or because nobody else is left -/
def Won (C : Finset Str) (w : Str) : Prop := w ∈ C ∧ (counted q t vs C < 2 * votes q t vs C w ∨ ∀ y ∈ C, y = w)

/-- `w` can win if candidates in last place are eliminated one at a time -/
inductive CanWin : Finset Str → Str → Prop
  | won (C : Finset Str) (w : Str) (h : Won q t vs C w) : CanWin C w
  | drop (C : Finset Str) (w x : Str) (hx : x ∈ C) (hmin : ∀ y ∈ C, votes q t vs C x ≤ votes q t vs C y)
      (h : CanWin (C.erase x) w) : CanWin C w

variable {q t vs}

theorem votes_le_mass (hc : Choice q t vs) {C : Finset Str} {P : Str → Prop} {x : Str} (h : P x) : votes q t vs C x ≤ mass q t vs C P :=
  wsum_le hc.nonneg (fun _ _ hv => ⟨x, hv, h⟩)

theorem mass_le_counted (hc : Choice q t vs) {C : Finset Str} {P : Str → Prop} : mass q t vs C P ≤ counted q t vs C :=
  wsum_le hc.nonneg (fun _ _ ⟨_, hv, _⟩ => by rw [hv]; simp)

theorem two_le_counted (hc : Choice q t vs) {C : Finset Str} {x y : Str} (h : x ≠ y) :
    votes q t vs C x + votes q t vs C y ≤ counted q t vs C :=
  wsum_add_le hc.nonneg (fun _ _ h1 h2 => h (Option.some.inj (h1.symm.trans h2))) (fun _ _ hv => by rw [hv]; simp)
    (fun _ _ hv => by rw [hv]; simp)

theorem votes_grow (hc : Choice q t vs) {C D : Finset Str} (h : D ⊆ C) {x : Str} (hx : x ∈ D) : votes q t vs C x ≤ votes q t vs D x :=
  wsum_le hc.nonneg (fun v hv hx' => hc.keep v hv C D x h hx' hx)

theorem counted_shrink (hc : Choice q t vs) {C D : Finset Str} (h : D ⊆ C) : counted q t vs D ≤ counted q t vs C :=
  wsum_le hc.nonneg (fun v hv hx hn => hx (hc.gone v hv C D h hn))

/-- who loses somebody of the group has them go to the group or elsewhere -/
theorem mass_erase (hc : Choice q t vs) {C : Finset Str} {P : Str → Prop} {x : Str} (hx : P x) :
    mass q t vs (C.erase x) P ≤ mass q t vs C P := by
  refine wsum_le hc.nonneg ?_
  rintro v hv ⟨z, hz, hpz⟩
  cases hC : t v C with
  | none => rw [hc.gone v hv C _ (Finset.erase_subset _ _) hC] at hz; cases hz
  | some y =>
    by_cases hyx : y = x
    · exact ⟨y, rfl, hyx ▸ hx⟩
    · have := hc.keep v hv C (C.erase x) y (Finset.erase_subset _ _) hC (Finset.mem_erase.2 ⟨hyx, hc.mem v hv C y hC⟩)
      rw [this] at hz
      exact ⟨y, rfl, (Option.some.inj hz) ▸ hpz⟩

theorem CanWin.mem {C : Finset Str} {w : Str} (h : CanWin q t vs C w) : w ∈ C := by
  induction h with
  | won C w h => exact h.1
  | drop C w x hx hmin h ih => exact (Finset.mem_erase.1 ih).2

/-- a majority stays one -/
theorem won_mono (hc : Choice q t vs) {C D : Finset Str} (h : D ⊆ C) {w : Str} (hw : w ∈ D) (hwon : Won q t vs C w) : Won q t vs D w := by
  refine ⟨hw, ?_⟩
  rcases hwon.2 with h1 | h1
  · left
    have h2 := votes_grow hc h hw
    have h3 := counted_shrink hc h
    omega
  · exact .inr (fun y hy => h1 y (h hy))

/-- eliminating at once a group with together fewer votes than anybody else makes no difference -/
theorem canWin_group (hc : Choice q t vs) {C : Finset Str} {w : Str} (h : CanWin q t vs C w) (P : Str → Prop) (hP : ∃ e ∈ C, P e)
    (hN : ∃ y ∈ C, ¬ P y) (hs : ∀ y ∈ C, ¬ P y → mass q t vs C P < votes q t vs C y) :
    CanWin q t vs (C.filter (fun c => ¬ P c)) w := by
  induction h with
  | won C w h =>
    obtain ⟨e, he, hPe⟩ := hP
    obtain ⟨y, hy, hPy⟩ := hN
    have hne : e ≠ y := fun x => hPy (x ▸ hPe)
    rcases h.2 with h1 | h1
    · have hw : ¬ P w := by
        intro hw
        have a1 := votes_le_mass hc (C := C) hw
        have a2 := hs y hy hPy
        have a3 := two_le_counted hc (C := C) (x := w) (y := y) (fun x => hPy (x ▸ hw))
        omega
      exact .won _ _ (won_mono hc (Finset.filter_subset _ _) (Finset.mem_filter.2 ⟨h.1, hw⟩) h)
    · exact absurd ((h1 e he).trans (h1 y hy).symm) hne
  | drop C w x hx hmin h ih =>
    obtain ⟨e, he, hPe⟩ := hP
    obtain ⟨y, hy, hPy⟩ := hN
    have hPx : P x := by
      by_contra hPx
      have a1 := hs x hx hPx
      have a2 := hmin e he
      have a3 := votes_le_mass hc (C := C) hPe
      omega
    have heq : (C.erase x).filter (fun c => ¬ P c) = C.filter (fun c => ¬ P c) := by
      ext c
      simp only [Finset.mem_filter, Finset.mem_erase]
      constructor
      · rintro ⟨⟨_, h1⟩, h2⟩; exact ⟨h1, h2⟩
      · rintro ⟨h1, h2⟩; exact ⟨⟨fun e => h2 (e ▸ hPx), h1⟩, h2⟩
    by_cases hmore : ∃ e ∈ C.erase x, P e
    · rw [← heq]
      refine ih hmore ⟨y, Finset.mem_erase.2 ⟨fun e => hPy (e ▸ hPx), hy⟩, hPy⟩ ?_
      intro z hz hPz
      have a1 := hs z (Finset.mem_erase.1 hz).2 hPz
      have a2 := mass_erase hc (C := C) hPx
      have a3 := votes_grow hc (Finset.erase_subset x C) hz
      omega
    · rw [← heq, Finset.filter_true_of_mem]
      · exact h
      · intro c hcm hPc
        exact hmore ⟨c, hcm, hPc⟩

/-- a group with together no more votes than anybody else can be eliminated one at a time -/
theorem canWin_of_group (hc : Choice q t vs) {w : Str} (P : Str → Prop) : ∀ (n : Nat) (C : Finset Str), (C.filter P).card = n →
    (∀ y ∈ C, ¬ P y → mass q t vs C P ≤ votes q t vs C y) → CanWin q t vs (C.filter (fun c => ¬ P c)) w → CanWin q t vs C w := by
  intro n
  induction n with
  | zero =>
    intro C hn _ h
    rw [Finset.card_eq_zero, Finset.filter_eq_empty_iff] at hn
    rwa [Finset.filter_true_of_mem (fun c hcm => hn hcm)] at h
  | succ n ih =>
    intro C hn hs h
    obtain ⟨x, hx, hmin⟩ := Finset.exists_min_image (C.filter P) (fun c => votes q t vs C c) (Finset.card_pos.1 (by omega))
    obtain ⟨hxC, hPx⟩ := Finset.mem_filter.1 hx
    refine .drop C w x hxC ?_ (ih (C.erase x) ?_ ?_ ?_)
    · intro y hy
      by_cases hPy : P y
      · exact hmin y (Finset.mem_filter.2 ⟨hy, hPy⟩)
      · exact Int.le_trans (votes_le_mass hc hPx) (hs y hy hPy)
    · rw [Finset.filter_erase, Finset.card_erase_of_mem hx, hn]; rfl
    · intro y hy hPy
      have a1 := hs y (Finset.mem_erase.1 hy).2 hPy
      have a2 := mass_erase hc (C := C) hPx
      have a3 := votes_grow hc (Finset.erase_subset x C) hy
      omega
    · have : (C.erase x).filter (fun c => ¬ P c) = C.filter (fun c => ¬ P c) := by
        ext c
        simp only [Finset.mem_filter, Finset.mem_erase]
        constructor
        · rintro ⟨⟨_, h1⟩, h2⟩; exact ⟨h1, h2⟩
        · rintro ⟨h1, h2⟩; exact ⟨⟨fun e => h2 (e ▸ hPx), h1⟩, h2⟩
      rw [this]
      exact h

/-- who has won is the only one who can -/
theorem won_unique (hc : Choice q t vs) {C : Finset Str} {w w' : Str} (h : CanWin q t vs C w') (hw : Won q t vs C w) : w' = w := by
  induction h with
  | won C w' h =>
    by_contra hne
    rcases hw.2 with h1 | h1
    · rcases h.2 with h2 | h2
      · have := two_le_counted hc (C := C) (x := w') (y := w) hne
        omega
      · exact hne (h2 w hw.1).symm
    · exact hne (h1 w' h.1)
  | drop C w' x hx hmin h ih =>
    by_cases hxw : x = w
    · exfalso
      subst hxw
      have hm := CanWin.mem h
      obtain ⟨hne, hm⟩ := Finset.mem_erase.1 hm
      rcases hw.2 with h1 | h1
      · have a1 := two_le_counted hc (C := C) (x := w') (y := x) hne
        have a2 := hmin w' hm
        omega
      · exact hne (h1 w' hm)
    · exact ih (won_mono hc (Finset.erase_subset _ _) (Finset.mem_erase.2 ⟨fun e => hxw e.symm, hw.1⟩) hw)

end

/-! ### merging candidates -/

section
variable {α : Type} {q : α → Int} {t t' : α → Finset Str → Option Str} {vs : List α} {φ : Str → Str} {A : Finset Str}

theorem counted_image (hφ : ∀ v ∈ vs, ∀ C, C ⊆ A → t' v (C.image φ) = (t v C).map φ) {C : Finset Str} (hC : C ⊆ A) :
    counted q t' vs (C.image φ) = counted q t vs C := by
  refine wsum_congr (fun v hv => ?_)
  rw [hφ v hv C hC]
  simp

theorem votes_image (hφ : ∀ v ∈ vs, ∀ C, C ⊆ A → t' v (C.image φ) = (t v C).map φ) {C : Finset Str} (hC : C ⊆ A) (z : Str) :
    votes q t' vs (C.image φ) z = mass q t vs C (fun x => φ x = z) := by
  refine wsum_congr (fun v hv => ?_)
  rw [hφ v hv C hC]
  simp [Option.map_eq_some_iff]

/-- without a twin, the votes are the votes of the merged candidate -/
theorem votes_alone (hc : Choice q t vs) (hφ : ∀ v ∈ vs, ∀ C, C ⊆ A → t' v (C.image φ) = (t v C).map φ) {C : Finset Str} (hC : C ⊆ A) {x : Str}
    (hx : ∀ y ∈ C, φ y = φ x → y = x) : votes q t' vs (C.image φ) (φ x) = votes q t vs C x := by
  rw [votes_image hφ hC]
  refine wsum_congr (fun v hv => ?_)
  constructor
  · rintro ⟨z, hz, e⟩
    rw [hz, hx z (hc.mem v hv C z hz) e]
  · intro h
    exact ⟨x, h, rfl⟩

theorem votes_merged (hc : Choice q t vs) (hφ : ∀ v ∈ vs, ∀ C, C ⊆ A → t' v (C.image φ) = (t v C).map φ) {C : Finset Str} (hC : C ⊆ A) (x : Str) :
    votes q t vs C x ≤ votes q t' vs (C.image φ) (φ x) := by
  rw [votes_image hφ hC]
  exact votes_le_mass hc rfl

theorem image_erase_twin {C : Finset Str} {x y : Str} (hy : y ∈ C) (hne : y ≠ x) (e : φ y = φ x) : (C.erase x).image φ = C.image φ := by
  ext z
  simp only [Finset.mem_image, Finset.mem_erase]
  constructor
  · rintro ⟨a, ⟨_, ha⟩, rfl⟩; exact ⟨a, ha, rfl⟩
  · rintro ⟨a, ha, rfl⟩
    by_cases hax : a = x
    · exact ⟨y, ⟨hne, hy⟩, by rw [e, hax]⟩
    · exact ⟨a, ⟨hax, ha⟩, rfl⟩

theorem image_erase_alone {C : Finset Str} {x : Str} (h : ∀ y ∈ C, φ y = φ x → y = x) : (C.erase x).image φ = (C.image φ).erase (φ x) := by
  ext z
  simp only [Finset.mem_image, Finset.mem_erase]
  constructor
  · rintro ⟨a, ⟨hax, ha⟩, rfl⟩
    exact ⟨fun e => hax (h a ha e), a, ha, rfl⟩
  · rintro ⟨hz, a, ha, rfl⟩
    exact ⟨a, ⟨fun e => hz (by rw [e]), ha⟩, rfl⟩

/-- who can win, can win merged -/
theorem canWin_merge (hc : Choice q t vs) (hφ : ∀ v ∈ vs, ∀ C, C ⊆ A → t' v (C.image φ) = (t v C).map φ) {C : Finset Str} {w : Str}
    (h : CanWin q t vs C w) (hC : C ⊆ A) : CanWin q t' vs (C.image φ) (φ w) := by
  induction h with
  | won C w h =>
    refine .won _ _ ⟨Finset.mem_image_of_mem _ h.1, ?_⟩
    rcases h.2 with h1 | h1
    · left
      rw [counted_image hφ hC]
      have := votes_merged hc hφ hC w
      omega
    · right
      intro y hy
      obtain ⟨z, hz, rfl⟩ := Finset.mem_image.1 hy
      rw [h1 z hz]
  | drop C w x hx hmin h ih =>
    have ih := ih ((Finset.erase_subset _ _).trans hC)
    by_cases htw : ∃ y ∈ C, y ≠ x ∧ φ y = φ x
    · obtain ⟨y, hy, hne, e⟩ := htw
      rwa [image_erase_twin hy hne e] at ih
    · have hal : ∀ y ∈ C, φ y = φ x → y = x := by
        intro y hy e
        by_contra hne
        exact htw ⟨y, hy, hne, e⟩
      rw [image_erase_alone hal] at ih
      refine .drop _ _ (φ x) (Finset.mem_image_of_mem _ hx) ?_ ih
      intro z hz
      obtain ⟨y, hy, rfl⟩ := Finset.mem_image.1 hz
      rw [votes_alone hc hφ hC hal]
      exact Int.le_trans (hmin y hy) (votes_merged hc hφ hC y)

/-- if a merged candidate has won, one of those it stands for can -/
theorem won_split (hc : Choice q t vs) (hc' : Choice q t' vs) (hφ : ∀ v ∈ vs, ∀ C, C ⊆ A → t' v (C.image φ) = (t v C).map φ) {z : Str} :
    ∀ (n : Nat) (C : Finset Str), C.card = n → C ⊆ A → Won q t' vs (C.image φ) z → ∃ w, φ w = z ∧ CanWin q t vs C w := by
  intro n
  induction n with
  | zero =>
    intro C hn _ h
    rw [Finset.card_eq_zero] at hn
    subst hn
    exact absurd h.1 (by simp)
  | succ n ih =>
    intro C hn hC h
    obtain ⟨x, hx, hmin⟩ := Finset.exists_min_image C (fun c => votes q t vs C c) (Finset.card_pos.1 (by omega))
    have hcard : (C.erase x).card = n := by rw [Finset.card_erase_of_mem hx, hn]; rfl
    have hsub := (Finset.erase_subset x C).trans hC
    by_cases hstay : z ∈ (C.erase x).image φ
    · have hw : Won q t' vs ((C.erase x).image φ) z :=
        won_mono hc' (Finset.image_subset_image (Finset.erase_subset _ _)) hstay h
      obtain ⟨w, e, hw⟩ := ih _ hcard hsub hw
      exact ⟨w, e, .drop _ _ x hx hmin hw⟩
    · obtain ⟨y, hy, e⟩ := Finset.mem_image.1 h.1
      have hyx : y = x := by
        by_contra hne
        exact hstay (Finset.mem_image.2 ⟨y, Finset.mem_erase.2 ⟨hne, hy⟩, e⟩)
      subst hyx
      have hal : ∀ a ∈ C, φ a = φ y → a = y := by
        intro a ha e'
        by_contra hne
        exact hstay (Finset.mem_image.2 ⟨a, Finset.mem_erase.2 ⟨hne, ha⟩, e'.trans e⟩)
      refine ⟨y, e, .won _ _ ⟨hx, ?_⟩⟩
      rcases h.2 with h1 | h1
      · left
        rw [← e, counted_image hφ hC, votes_alone hc hφ hC hal] at h1
        exact h1
      · right
        intro a ha
        exact hal a ha ((h1 _ (Finset.mem_image_of_mem _ ha)).trans e.symm)

/-- if a merged candidate can win, one of those it stands for can -/
theorem canWin_split (hc : Choice q t vs) (hc' : Choice q t' vs) (hφ : ∀ v ∈ vs, ∀ C, C ⊆ A → t' v (C.image φ) = (t v C).map φ)
    {D : Finset Str} {z : Str} (h : CanWin q t' vs D z) :
    ∀ (n : Nat) (C : Finset Str), C.card = n → C ⊆ A → C.image φ = D → ∃ w, φ w = z ∧ CanWin q t vs C w := by
  induction h with
  | won D z h =>
    intro n C hn hC e
    subst e
    exact won_split hc hc' hφ n C hn hC h
  | drop D z a ha hmina h ihp =>
    intro n
    induction n with
    | zero =>
      intro C hn _ e
      rw [Finset.card_eq_zero] at hn
      subst hn e
      exact absurd ha (by simp)
    | succ n ih =>
      intro C hn hC e
      have step : ∀ x ∈ C, (∀ y ∈ C, votes q t vs C x ≤ votes q t vs C y) → ((∃ y ∈ C, y ≠ x ∧ φ y = φ x) ∨ φ x = a) →
          ∃ w, φ w = z ∧ CanWin q t vs C w := by
        intro x hx hmin hor
        have hcard : (C.erase x).card = n := by rw [Finset.card_erase_of_mem hx, hn]; rfl
        have hsub := (Finset.erase_subset x C).trans hC
        by_cases htw : ∃ y ∈ C, y ≠ x ∧ φ y = φ x
        · obtain ⟨y, hy, hne, e'⟩ := htw
          obtain ⟨w, h1, h2⟩ := ih _ hcard hsub ((image_erase_twin hy hne e').trans e)
          exact ⟨w, h1, .drop _ _ x hx hmin h2⟩
        · have hxa : φ x = a := by
            rcases hor with h | h
            · exact absurd h htw
            · exact h
          have hal : ∀ y ∈ C, φ y = φ x → y = x := by
            intro y hy e'
            by_contra hne
            exact htw ⟨y, hy, hne, e'⟩
          obtain ⟨w, h1, h2⟩ := ihp _ (C.erase x) rfl hsub (by rw [image_erase_alone hal, e, hxa])
          exact ⟨w, h1, .drop _ _ x hx hmin h2⟩
      obtain ⟨x, hx, hmin⟩ := Finset.exists_min_image C (fun c => votes q t vs C c) (Finset.card_pos.1 (by omega))
      by_cases htw : ∃ y ∈ C, y ≠ x ∧ φ y = φ x
      · exact step x hx hmin (.inl htw)
      · have hal : ∀ y ∈ C, φ y = φ x → y = x := by
          intro y hy e'
          by_contra hne
          exact htw ⟨y, hy, hne, e'⟩
        subst e
        obtain ⟨b, hb, rfl⟩ := Finset.mem_image.1 ha
        refine step b hb ?_ (.inr rfl)
        intro y hy
        have a1 := votes_merged hc hφ hC b
        have a2 := hmina (φ x) (Finset.mem_image_of_mem _ hx)
        rw [votes_alone hc hφ hC hal] at a2
        have a3 := hmin y hy
        omega

end
end Verif.Runoff
