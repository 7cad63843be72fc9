/-
Helper lemmas on `splitlines`.
-/
import Verif.Py.Str

set_option linter.unusedSimpArgs false

namespace Verif

theorem splitlinesAux_nil_nil : splitlinesAux [] [] = [] := by rw [splitlinesAux]
theorem splitlinesAux_nil_cons (c : Char) (cur : Str) : splitlinesAux [] (c :: cur) = [(c :: cur).reverse] := by
  rw [splitlinesAux]
theorem splitlinesAux_crlf (t cur : Str) :
    splitlinesAux ('\r' :: '\n' :: t) cur = cur.reverse :: splitlinesAux t [] := by
  rw [splitlinesAux]

theorem splitlinesAux_noBreak (s cur : Str) (h : ∀ c ∈ cur, isLineBreak c = false) :
    ∀ l ∈ splitlinesAux s cur, ∀ c ∈ l, isLineBreak c = false := by
  fun_induction splitlinesAux s cur with
  | case1 => simp
  | case2 c cur =>
    intro l hl
    simp at hl
    subst hl
    intro c' hc'
    exact h c' (by simpa [or_comm] using hc')
  | case3 t cur ih =>
    intro l hl
    rcases List.mem_cons.1 hl with rfl | hl
    · intro c hc; exact h c (by simpa using hc)
    · exact ih (by simp) l hl
  | case4 cur c t _ hb ih =>
    intro l hl
    rcases List.mem_cons.1 hl with rfl | hl
    · intro c hc; exact h c (by simpa using hc)
    · exact ih (by simp) l hl
  | case5 cur c t _ hb ih =>
    apply ih
    intro c' hc'
    rcases List.mem_cons.1 hc' with rfl | hc'
    · simpa using hb
    · exact h c' hc'

theorem splitlines_noBreak (s : Str) : ∀ l ∈ splitlines s, ∀ c ∈ l, isLineBreak c = false :=
  splitlinesAux_noBreak s [] (by simp)

theorem ne_newline_of_noBreak {c : Char} (h : isLineBreak c = false) : c ≠ '\n' := by
  rintro rfl
  simp [isLineBreak] at h

theorem splitlines_noNewline (s : Str) : ∀ l ∈ splitlines s, ∀ c ∈ l, c ≠ '\n' :=
  fun l hl c hc => ne_newline_of_noBreak (splitlines_noBreak s l hl c hc)

theorem splitlinesAux_cons (c : Char) (t cur : Str) (h : ¬ (c = '\r' ∧ t.head? = some '\n')) :
    splitlinesAux (c :: t) cur =
      if isLineBreak c then cur.reverse :: splitlinesAux t [] else splitlinesAux t (c :: cur) := by
  rw [splitlinesAux]
  intro t' hc ht
  exact h ⟨hc, by simp [ht]⟩

/-- a line feed always ends a line -/
theorem splitlinesAux_append_newline (a b cur : Str) :
    splitlinesAux (a ++ '\n' :: b) cur = splitlinesAux (a ++ ['\n']) cur ++ splitlinesAux b [] := by
  match a with
  | [] =>
    have hl : isLineBreak '\n' = true := rfl
    simp only [List.nil_append]
    rw [splitlinesAux_cons _ _ _ (by simp), splitlinesAux_cons _ _ _ (by simp)]
    simp [hl, splitlinesAux_nil_nil]
  | [c] =>
    by_cases hc : c = '\r'
    · subst hc
      simp only [List.cons_append, List.nil_append]
      rw [splitlinesAux_crlf, splitlinesAux_crlf, splitlinesAux_nil_nil]; rfl
    · have e : ∀ t, ¬ (c = '\r' ∧ List.head? (t : Str) = some '\n') := fun t h => hc h.1
      simp only [List.cons_append, List.nil_append]
      rw [splitlinesAux_cons _ _ _ (e _), splitlinesAux_cons _ _ _ (e _)]
      have := splitlinesAux_append_newline [] b
      simp only [List.nil_append] at this
      split
      · rw [this []]; rfl
      · rw [this]
  | c :: d :: a =>
    by_cases hcd : c = '\r' ∧ d = '\n'
    · obtain ⟨rfl, rfl⟩ := hcd
      simp only [List.cons_append]
      rw [splitlinesAux_crlf, splitlinesAux_crlf, splitlinesAux_append_newline a b]; rfl
    · simp only [List.cons_append]
      rw [splitlinesAux_cons c (d :: (a ++ '\n' :: b)) _ (by simpa using hcd),
        splitlinesAux_cons c (d :: (a ++ ['\n'])) _ (by simpa using hcd)]
      have := splitlinesAux_append_newline (d :: a) b
      simp only [List.cons_append] at this
      split
      · rw [this]; rfl
      · rw [this]
termination_by a.length

theorem splitlines_append_newline (a b : Str) :
    splitlines (a ++ '\n' :: b) = splitlines (a ++ ['\n']) ++ splitlines b :=
  splitlinesAux_append_newline a b []

/-- a line without line breaks, ended by a line feed -/
theorem splitlinesAux_line (l b cur : Str) (h : ∀ c ∈ l, isLineBreak c = false) :
    splitlinesAux (l ++ '\n' :: b) cur = (cur.reverse ++ l) :: splitlinesAux b [] := by
  have hl : isLineBreak '\n' = true := rfl
  induction l generalizing cur with
  | nil =>
    simp only [List.nil_append]
    rw [splitlinesAux_cons _ _ _ (by simp)]
    simp [hl]
  | cons c l ih =>
    have hc := h c (by simp)
    have hr : c ≠ '\r' := by rintro rfl; simp [isLineBreak] at hc
    simp only [List.cons_append]
    rw [splitlinesAux_cons _ _ _ (by simp [hr])]
    rw [hc]
    simp only [Bool.false_eq_true, if_false]
    rw [ih _ (fun c hc => h c (by simp [hc]))]
    simp

theorem splitlines_line (l b : Str) (h : ∀ c ∈ l, isLineBreak c = false) :
    splitlines (l ++ '\n' :: b) = l :: splitlines b := by
  unfold splitlines
  rw [splitlinesAux_line l b [] h]; rfl

/-- a last line without line feed -/
theorem splitlinesAux_last (l cur : Str) (h : ∀ c ∈ l, isLineBreak c = false) (hne : cur ≠ [] ∨ l ≠ []) :
    splitlinesAux l cur = [cur.reverse ++ l] := by
  induction l generalizing cur with
  | nil =>
    cases cur with
    | nil => simp at hne
    | cons c cur => rw [splitlinesAux_nil_cons]; simp
  | cons c l ih =>
    have hc := h c (by simp)
    have hr : c ≠ '\r' := by rintro rfl; simp [isLineBreak] at hc
    rw [splitlinesAux_cons _ _ _ (by simp [hr]), hc]
    simp only [Bool.false_eq_true, if_false]
    rw [ih _ (fun c hc => h c (by simp [hc])) (.inl (by simp))]
    simp

theorem splitlines_last (l : Str) (h : ∀ c ∈ l, isLineBreak c = false) (hne : l ≠ []) :
    splitlines l = [l] := by
  unfold splitlines
  rw [splitlinesAux_last l [] h (.inr hne)]; rfl

/-- writing lines one per line and splitting gives the lines back -/
theorem splitlines_lines (ls : List Str) (h : ∀ l ∈ ls, ∀ c ∈ l, isLineBreak c = false) :
    splitlines (ls.flatMap (fun l => l ++ ['\n'])) = ls := by
  induction ls with
  | nil => simp [splitlines, splitlinesAux_nil_nil]
  | cons l ls ih =>
    simp only [List.flatMap_cons, List.append_assoc, List.cons_append, List.nil_append]
    rw [splitlines_line l _ (h l (by simp)), ih (fun l hl => h l (by simp [hl]))]

end Verif
