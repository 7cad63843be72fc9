/-
Helper lemmas: `pySort` is a stable sort.
-/
import Verif.Py.Dict

set_option linter.unusedSimpArgs false

namespace Verif

variable {α : Type}

theorem pyInsert_perm (le : α → α → Bool) (a : α) (l : List α) :
    (pyInsert le a l).Perm (a :: l) := by
  induction l with
  | nil => exact .refl _
  | cons b l ih =>
    unfold pyInsert
    split
    · exact .refl _
    · exact (List.Perm.cons b ih).trans (.swap a b l)

theorem pySort_perm (le : α → α → Bool) (l : List α) : (pySort le l).Perm l := by
  induction l with
  | nil => exact .refl _
  | cons a l ih => exact (pyInsert_perm le a _).trans (ih.cons a)

theorem mem_pySort {le : α → α → Bool} {l : List α} {x : α} : x ∈ pySort le l ↔ x ∈ l :=
  (pySort_perm le l).mem_iff

theorem length_pySort (le : α → α → Bool) (l : List α) : (pySort le l).length = l.length :=
  (pySort_perm le l).length_eq

theorem mem_pyInsert {le : α → α → Bool} {a : α} {l : List α} {x : α} :
    x ∈ pyInsert le a l ↔ x = a ∨ x ∈ l := by
  rw [(pyInsert_perm le a l).mem_iff]; simp

/-- the order is a total preorder -/
structure TotalPre (le : α → α → Bool) : Prop where
  total : ∀ a b, le a b = true ∨ le b a = true
  trans : ∀ a b c, le a b = true → le b c = true → le a c = true

theorem pyInsert_sorted {le : α → α → Bool} (h : TotalPre le) (a : α) (l : List α)
    (hl : l.Pairwise (fun x y => le x y = true)) :
    (pyInsert le a l).Pairwise (fun x y => le x y = true) := by
  induction l with
  | nil => simp [pyInsert]
  | cons b l ih =>
    have hb := List.pairwise_cons.1 hl
    unfold pyInsert
    split
    · rename_i hab
      refine List.pairwise_cons.2 ⟨?_, hl⟩
      intro x hx
      rcases List.mem_cons.1 hx with rfl | hx
      · exact hab
      · exact h.trans _ _ _ hab (hb.1 x hx)
    · rename_i hab
      refine List.pairwise_cons.2 ⟨?_, ih hb.2⟩
      intro x hx
      rcases mem_pyInsert.1 hx with rfl | hx
      · exact (h.total b x).resolve_right hab
      · exact hb.1 x hx

theorem pySort_sorted {le : α → α → Bool} (h : TotalPre le) (l : List α) :
    (pySort le l).Pairwise (fun x y => le x y = true) := by
  induction l with
  | nil => simp [pySort]
  | cons a l ih => exact pyInsert_sorted h a _ ih

theorem filter_pyInsert_neg (le : α → α → Bool) (p : α → Bool) (a : α) (l : List α) (ha : p a = false) :
    (pyInsert le a l).filter p = l.filter p := by
  induction l with
  | nil => simp [pyInsert, ha]
  | cons b l ih =>
    unfold pyInsert
    split
    · simp [ha]
    · simp [List.filter_cons, ih]

theorem filter_pyInsert_pos (le : α → α → Bool) (p : α → Bool) (a : α) (l : List α) (ha : p a = true)
    (hp : ∀ b ∈ l, p b = true → le a b = true) :
    (pyInsert le a l).filter p = a :: l.filter p := by
  induction l with
  | nil => simp [pyInsert, ha]
  | cons b l ih =>
    unfold pyInsert
    split
    · simp [List.filter_cons, ha]
    · rename_i hab
      have hb : p b = false := by
        cases hpb : p b with
        | false => rfl
        | true => exact absurd (hp b (by simp) hpb) hab
      simp [List.filter_cons, hb, ih (fun b hb => hp b (by simp [hb]))]

/-- stability: a class of mutually `le` elements keeps its order -/
theorem filter_pySort (le : α → α → Bool) (p : α → Bool) (l : List α)
    (hp : ∀ a ∈ l, ∀ b ∈ l, p a = true → p b = true → le a b = true) :
    (pySort le l).filter p = l.filter p := by
  induction l with
  | nil => simp [pySort]
  | cons a l ih =>
    have ih := ih (fun a ha b hb => hp a (by simp [ha]) b (by simp [hb]))
    unfold pySort
    cases hpa : p a with
    | false => rw [filter_pyInsert_neg _ _ _ _ hpa, ih, List.filter_cons, hpa]; simp
    | true =>
      rw [filter_pyInsert_pos _ _ _ _ hpa, ih, List.filter_cons, hpa]; simp
      intro b hb hpb
      exact hp a (by simp) b (by simp [mem_pySort.1 hb]) hpa hpb

/-- sorting an already sorted list changes nothing -/
theorem pySort_of_sorted (le : α → α → Bool) (l : List α)
    (hl : l.Pairwise (fun x y => le x y = true)) : pySort le l = l := by
  induction l with
  | nil => rfl
  | cons a l ih =>
    have h := List.pairwise_cons.1 hl
    rw [pySort, ih h.2]
    cases l with
    | nil => rfl
    | cons b l => simp [pyInsert, h.1 b (by simp)]

theorem pyInsert_map {β : Type} (f : α → β) (le : α → α → Bool) (le' : β → β → Bool)
    (h : ∀ a b, le' (f a) (f b) = le a b) (a : α) (l : List α) :
    pyInsert le' (f a) (l.map f) = (pyInsert le a l).map f := by
  induction l with
  | nil => rfl
  | cons b l ih =>
    simp only [List.map_cons, pyInsert, h]
    split <;> simp [ih]

theorem pySort_map {β : Type} (f : α → β) (le : α → α → Bool) (le' : β → β → Bool)
    (h : ∀ a b, le' (f a) (f b) = le a b) (l : List α) :
    pySort le' (l.map f) = (pySort le l).map f := by
  induction l with
  | nil => rfl
  | cons a l ih => simp [pySort, ih, pyInsert_map f le le' h]

theorem totalPre_key (key : α → Int) : TotalPre (fun a b => decide (key a ≤ key b)) where
  total a b := by simp; omega
  trans a b c := by simp; omega

theorem totalPre_keyDesc (key : α → Int) : TotalPre (fun a b => decide (key b ≤ key a)) where
  total a b := by simp; omega
  trans a b c := by simp; omega

theorem sortByKey_perm (key : α → Int) (l : List α) : (sortByKey key l).Perm l := pySort_perm _ l
theorem sortByKeyDesc_perm (key : α → Int) (l : List α) : (sortByKeyDesc key l).Perm l := pySort_perm _ l

theorem sortByKey_sorted (key : α → Int) (l : List α) :
    (sortByKey key l).Pairwise (fun x y => key x ≤ key y) := by
  have := pySort_sorted (totalPre_key key) l
  simpa [sortByKey] using this

theorem sortByKeyDesc_sorted (key : α → Int) (l : List α) :
    (sortByKeyDesc key l).Pairwise (fun x y => key y ≤ key x) := by
  have := pySort_sorted (totalPre_keyDesc key) l
  simpa [sortByKeyDesc] using this

theorem sortByKey_stable (key : α → Int) (l : List α) (k : Int) :
    (sortByKey key l).filter (fun x => decide (key x = k)) = l.filter (fun x => decide (key x = k)) := by
  apply filter_pySort
  intro a _ b _ ha hb
  simp at ha hb ⊢; omega

theorem sortByKeyDesc_stable (key : α → Int) (l : List α) (k : Int) :
    (sortByKeyDesc key l).filter (fun x => decide (key x = k)) = l.filter (fun x => decide (key x = k)) := by
  apply filter_pySort
  intro a _ b _ ha hb
  simp at ha hb ⊢; omega

/-- A sorted list is determined by its key classes. -/
theorem sorted_stable_unique (key : α → Int) (l₁ l₂ : List α)
    (h₁ : l₁.Pairwise (fun x y => key x ≤ key y)) (h₂ : l₂.Pairwise (fun x y => key x ≤ key y))
    (h : ∀ k, l₁.filter (fun x => decide (key x = k)) = l₂.filter (fun x => decide (key x = k))) :
    l₁ = l₂ := by
  induction l₁ generalizing l₂ with
  | nil =>
    cases l₂ with
    | nil => rfl
    | cons b l => have := h (key b); simp at this
  | cons a l₁ ih =>
    cases l₂ with
    | nil => have := h (key a); simp at this
    | cons b l₂ =>
      have p₁ := List.pairwise_cons.1 h₁
      have p₂ := List.pairwise_cons.1 h₂
      have hab : key a = key b := by
        have e1 : a ∈ (b :: l₂).filter (fun x => decide (key x = key a)) := by rw [← h]; simp
        have e2 : b ∈ (a :: l₁).filter (fun x => decide (key x = key b)) := by rw [h]; simp
        have m1 := (List.mem_filter.1 e1).1
        have m2 := (List.mem_filter.1 e2).1
        have q1 : key b ≤ key a := by
          rcases List.mem_cons.1 m1 with rfl | m
          · exact Int.le_refl _
          · exact p₂.1 _ m
        have q2 : key a ≤ key b := by
          rcases List.mem_cons.1 m2 with rfl | m
          · exact Int.le_refl _
          · exact p₁.1 _ m
        omega
      have hk := h (key a)
      simp [List.filter_cons, hab] at hk
      obtain ⟨rfl, _⟩ := hk
      congr 1
      apply ih _ p₁.2 p₂.2
      intro k
      have := h k
      by_cases hka : key a = k
      · simp [List.filter_cons, hka] at this; exact this
      · simp [List.filter_cons, hka] at this; exact this

/-- sums do not depend on order -/
theorem perm_sum {l l' : List Int} (h : l.Perm l') : l.sum = l'.sum := by
  induction h with
  | nil => rfl
  | cons x _ ih => simp [ih]
  | swap x y l => simp only [List.sum_cons]; omega
  | trans _ _ h1 h2 => rw [h1, h2]

end Verif
