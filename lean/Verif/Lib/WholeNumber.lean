/-
Python's `int()` of a string.
-/
import Verif.Spec.WholeNumber
import Verif.Model.Parse
import Verif.Lib.Prefstr
import Verif.Props.Pieces

set_option linter.unusedSimpArgs false

namespace Verif
open Spec

theorem zip_under (l : Str) : (l.zip l.tail).all (fun p => !(p.1 == '_' && p.2 == '_')) = true ↔ ¬ ['_', '_'] <:+: l := by
  induction l with
  | nil => simp
  | cons a l ih =>
    cases l with
    | nil =>
      simp only [List.tail_cons, List.zip_nil_right, List.all_nil, true_iff]
      intro h
      have := h.length_le
      simp at this
    | cons b l =>
      rw [List.infix_cons_iff, not_or, ← ih]
      simp only [List.tail_cons, List.zip_cons_cons, List.all_cons, Bool.and_eq_true]
      apply and_congr
      · simp only [Bool.not_eq_true', Bool.and_eq_false_iff, beq_eq_false_iff_ne, List.cons_prefix_cons, List.nil_prefix, and_true, not_and]
        constructor
        · rintro (h | h) h1 h2
          · exact h h1.symm
          · exact h h2.symm
        · intro h
          by_cases h1 : a = '_'
          · exact .inr (fun e => h h1.symm e.symm)
          · exact .inl h1
      · rfl

section
variable [U : Uni]

theorem digit_ne_under {c : Char} (h : isDigit c = true) : c ≠ '_' := by
  rintro rfl
  have : isDigit '_' = false := by simp [isDigit, decVal, isAscii, isAsciiDigit]
  rw [this] at h
  cases h

theorem isDigit_iff {c : Char} : isDigit c = true ↔ ∃ d, decVal c = some d := by
  unfold isDigit
  rw [Option.isSome_iff_exists]

/-- the shape `int()` wants after the sign -/
def BodyShape (l : Str) : Prop :=
  l.head?.any isDigit = true ∧ l.getLast?.any isDigit = true ∧ (∀ c ∈ l, isDigit c = true ∨ c = '_') ∧ ¬ ['_', '_'] <:+: l

theorem digitsVal_concat (l : Str) (c : Char) (d : Nat) (h : decVal c = some d) : digitsVal (l ++ [c]) = 10 * digitsVal l + d := by
  unfold digitsVal
  rw [List.foldl_append]
  simp [h]

omit U in
theorem suffix_last {t : Str} {c : Char} (h : ['_', '_'] <:+ t ++ [c]) : c = '_' ∧ t.getLast? = some '_' := by
  obtain ⟨u, hu⟩ := h
  have h1 : (u ++ ['_']) ++ ['_'] = t ++ [c] := by simpa using hu
  obtain ⟨h2, h3⟩ := List.append_inj' h1 rfl
  refine ⟨(List.cons.inj h3).1.symm, ?_⟩
  rw [← h2, List.getLast?_concat]

theorem body_shape {l : Str} {n : Nat} (h : NumberBody l n) : BodyShape l ∧ digitsVal (l.filter (fun c => c != '_')) = n := by
  have last : ∀ {t : Str}, t.getLast?.any isDigit = true → t.getLast? ≠ some '_' := by
    intro t h he
    rw [he] at h
    exact digit_ne_under (by simpa using h) rfl
  induction h with
  | one c d hd =>
    have hc := isDigit_iff.2 ⟨d, hd⟩
    have hu := digit_ne_under hc
    refine ⟨⟨by simpa using hc, by simpa using hc, by simpa using .inl hc, ?_⟩, ?_⟩
    · intro h
      have := h.length_le
      simp at this
    · simp [hu, digitsVal, hd]
  | next t n c d _ hd ih =>
    obtain ⟨⟨h1, h2, h3, h4⟩, h5⟩ := ih
    have hc := isDigit_iff.2 ⟨d, hd⟩
    have hu := digit_ne_under hc
    have htne : t ≠ [] := by rintro rfl; cases h1
    refine ⟨⟨?_, by simpa using hc, ?_, ?_⟩, ?_⟩
    · rw [List.head?_append_of_ne_nil _ htne]; exact h1
    · intro x hx
      rcases List.mem_append.1 hx with hx | hx
      · exact h3 x hx
      · rw [List.mem_singleton] at hx; subst hx; exact .inl hc
    · intro h
      rcases List.infix_concat_iff.1 h with h | h
      · exact hu (suffix_last h).1
      · exact h4 h
    · rw [List.filter_append, show [c].filter (fun c => c != '_') = [c] by simp [hu], digitsVal_concat _ _ _ hd, h5]
  | under t n c d _ hd ih =>
    obtain ⟨⟨h1, h2, h3, h4⟩, h5⟩ := ih
    have hc := isDigit_iff.2 ⟨d, hd⟩
    have hu := digit_ne_under hc
    have htne : t ≠ [] := by rintro rfl; cases h1
    have e : t ++ ['_', c] = (t ++ ['_']) ++ [c] := by simp
    refine ⟨⟨?_, by rw [e, List.getLast?_concat]; simpa using hc, ?_, ?_⟩, ?_⟩
    · rw [List.head?_append_of_ne_nil _ htne]; exact h1
    · intro x hx
      rcases List.mem_append.1 hx with hx | hx
      · exact h3 x hx
      · simp only [List.mem_cons, List.not_mem_nil, or_false] at hx
        rcases hx with rfl | rfl
        · exact .inr rfl
        · exact .inl hc
    · intro h
      rw [e] at h
      rcases List.infix_concat_iff.1 h with h | h
      · exact hu (suffix_last h).1
      · rcases List.infix_concat_iff.1 h with h | h
        · exact last h2 (suffix_last h).2
        · exact h4 h
    · rw [List.filter_append, show ['_', c].filter (fun c => c != '_') = [c] by simp [hu], digitsVal_concat _ _ _ hd, h5]

theorem shape_body (k : Nat) : ∀ l : Str, l.length ≤ k → BodyShape l → ∃ n, NumberBody l n := by
  induction k with
  | zero =>
    intro l hl h
    have : l = [] := List.length_eq_zero_iff.1 (by omega)
    subst this
    cases h.1
  | succ k ih =>
    intro l hl ⟨h1, h2, h3, h4⟩
    rcases List.eq_nil_or_concat l with rfl | ⟨t, c, rfl⟩
    · cases h1
    rw [List.concat_eq_append] at *
    rw [List.getLast?_concat] at h2
    have hc : isDigit c = true := by simpa using h2
    obtain ⟨d, hd⟩ := isDigit_iff.1 hc
    rcases List.eq_nil_or_concat t with rfl | ⟨t', c', rfl⟩
    · exact ⟨d, .one c d hd⟩
    rw [List.concat_eq_append] at *
    have hlen : t'.length + 2 ≤ k + 1 := by simpa using hl
    by_cases hu : c' = '_'
    · subst hu
      have htne : t' ≠ [] := by
        rintro rfl
        simp only [List.nil_append, List.cons_append, List.head?_cons, Option.any_some] at h1
        exact digit_ne_under h1 rfl
      have hsub : t' ++ ['_'] ++ [c] = t' ++ ['_', c] := by simp
      have hsh : BodyShape t' := by
       refine ⟨?_, ?_, ?_, ?_⟩
       · rwa [hsub, List.head?_append_of_ne_nil _ htne] at h1
       · rcases List.eq_nil_or_concat t' with rfl | ⟨t'', x, rfl⟩
         · exact absurd rfl htne
         rw [List.concat_eq_append] at *
         rw [List.getLast?_concat]
         rcases h3 x (by simp) with h | h
         · simpa using h
         · exfalso
           subst h
           exact h4 ⟨t'', [c], by simp⟩
       · exact fun x hx => h3 x (by simp [hx])
       · exact fun h => h4 (h.trans ⟨[], ['_', c], by simp⟩)
      obtain ⟨n, hn⟩ := ih t' (by omega) hsh
      rw [hsub]; exact ⟨_, .under t' n c d hn hd⟩
    · have hsh : BodyShape (t' ++ [c']) := by
       refine ⟨?_, ?_, ?_, ?_⟩
       · rwa [List.head?_append_of_ne_nil _ (by simp)] at h1
       · rw [List.getLast?_concat]
         rcases h3 c' (by simp) with h | h
         · simpa using h
         · exact absurd h hu
       · exact fun x hx => h3 x (by simp only [List.mem_append] at hx ⊢; exact .inl hx)
       · exact fun h => h4 (h.trans ⟨[], [c], by simp⟩)
      obtain ⟨n, hn⟩ := ih (t' ++ [c']) (by simpa using hlen) hsh
      exact ⟨_, .next _ n c d hn hd⟩

theorem pyInt_shape (s : Str) : (BodyShape (signSplit (strip s)).2 ∧ pyIntOfStr s = .ok (if (signSplit (strip s)).1 = true then
      -(digitsVal ((signSplit (strip s)).2.filter (fun c => c != '_')) : Int) else digitsVal ((signSplit (strip s)).2.filter (fun c => c != '_')))) ∨
    (¬ BodyShape (signSplit (strip s)).2 ∧ pyIntOfStr s = .error .valueError) := by
  have key : BodyShape (signSplit (strip s)).2 ↔ ((signSplit (strip s)).2.head?.any isDigit && (signSplit (strip s)).2.getLast?.any isDigit &&
    (signSplit (strip s)).2.all (fun c => isDigit c || c == '_') &&
    ((signSplit (strip s)).2.zip (signSplit (strip s)).2.tail).all (fun p => !(p.1 == '_' && p.2 == '_'))) = true := by
    unfold BodyShape
    rw [Bool.and_eq_true, Bool.and_eq_true, Bool.and_eq_true, zip_under, List.all_eq_true]
    simp only [Bool.or_eq_true, beq_iff_eq, and_assoc]
  unfold pyIntOfStr
  by_cases h : BodyShape (signSplit (strip s)).2
  · left
    refine ⟨h, ?_⟩
    simp only
    rw [if_pos (key.1 h)]
  · right
    refine ⟨h, ?_⟩
    simp only
    rw [if_neg (fun hc => h (key.2 hc))]

theorem body_noSign {l : Str} {n : Nat} (h : NumberBody l n) : signSplit l = (false, l) := by
  have h1 := (body_shape h).1.1
  cases l with
  | nil => cases h1
  | cons c l =>
    have hc : isDigit c = true := by simpa using h1
    unfold signSplit
    split
    · rename_i r heq; cases heq; exact absurd hc (by simp [isDigit, decVal, isAscii, isAsciiDigit])
    · rename_i r heq; cases heq; exact absurd hc (by simp [isDigit, decVal, isAscii, isAsciiDigit])
    · rfl

theorem body_strip {l : Str} {n : Nat} (h : NumberBody l n) : strip l = l := by
  obtain ⟨⟨h1, h2, _⟩, _⟩ := body_shape h
  rw [strip_eq_iff]
  refine ⟨fun c hc => ?_, fun c hc => ?_⟩
  · rw [hc] at h1; exact digit_not_space (by simpa using h1)
  · rw [hc] at h2; exact digit_not_space (by simpa using h2)

theorem signed_strip {l : Str} {n : Nat} (h : NumberBody l n) (c : Char) (hc : isSpace c = false) : strip (c :: l) = c :: l := by
  obtain ⟨⟨h1, h2, _⟩, _⟩ := body_shape h
  rw [strip_eq_iff]
  refine ⟨fun x hx => by cases hx; exact hc, fun x hx => ?_⟩
  cases l with
  | nil => cases h1
  | cons a l =>
    rw [List.getLast?_cons_cons] at hx
    rw [hx] at h2
    exact digit_not_space (by simpa using h2)

/-- `int(s)` of a string succeeds exactly on whole numbers, and gives that number -/
theorem pyInt_iff (s : Str) (i : Int) : pyIntOfStr s = .ok i ↔ WholeNumber s i := by
  constructor
  · intro h
    rcases pyInt_shape s with ⟨hb, hv⟩ | ⟨_, hv⟩
    · rw [hv] at h
      obtain ⟨n, hn⟩ := shape_body _ _ (Nat.le_refl _) hb
      have hd := (body_shape hn).2
      rw [hd] at h
      obtain ⟨pre, post, h1, h2, hs⟩ := Props.strip_parts s
      refine ⟨pre, (signSplit (strip s)).2, post, n, h1, h2, hn, ?_⟩
      have hi := Except.ok.inj h
      clear h hv hd hb hn
      revert hi hs
      generalize strip s = x
      intro hs hi
      unfold signSplit at hi ⊢
      split at hi
      · right; right; exact ⟨by simpa using hs, by simpa using hi.symm⟩
      · right; left; exact ⟨by simpa using hs, by simpa using hi.symm⟩
      · left; exact ⟨by simpa using hs, by simpa using hi.symm⟩
    · rw [hv] at h; cases h
  · rintro ⟨pre, body, post, n, h1, h2, hn, h⟩
    obtain ⟨hb, hd⟩ := body_shape hn
    have go : ∀ x neg, strip s = x → signSplit x = (neg, body) → pyIntOfStr s = .ok (if neg = true then -(n : Int) else n) := by
      intro x neg hx hsx
      rcases pyInt_shape s with ⟨_, hv⟩ | ⟨hc, _⟩
      · rw [hx, hsx] at hv
        simp only [hd] at hv
        exact hv
      · rw [hx, hsx] at hc
        exact absurd hb hc
    rcases h with ⟨rfl, rfl⟩ | ⟨rfl, rfl⟩ | ⟨rfl, rfl⟩
    · exact go body false (strip_pad h1 h2 (body_strip hn)) (body_noSign hn)
    · exact go ('+' :: body) false (strip_pad h1 h2 (signed_strip hn '+' (by decide))) rfl
    · exact go ('-' :: body) true (strip_pad h1 h2 (signed_strip hn '-' (by decide))) rfl

/-- … and is a ValueError on all others -/
theorem pyInt_error (s : Str) (e : PyErr) : pyIntOfStr s = .error e ↔ e = .valueError ∧ ¬ ∃ i, WholeNumber s i := by
  rcases pyInt_shape s with ⟨_, hv⟩ | ⟨_, hv⟩
  · constructor
    · intro h; rw [hv] at h; cases h
    · rintro ⟨_, hn⟩; exact absurd ⟨_, (pyInt_iff s _).1 hv⟩ hn
  · constructor
    · intro h
      rw [hv] at h
      refine ⟨(Except.error.inj h).symm, ?_⟩
      rintro ⟨i, hi⟩
      rw [(pyInt_iff s i).2 hi] at hv
      cases hv
    · rintro ⟨rfl, _⟩; exact hv

end
end Verif
