/-
Helper lemmas on the regex matcher: soundness, completeness, and deterministic evaluation.
-/
import Verif.Py.Regex

set_option linter.unusedSimpArgs false
set_option linter.unusedSectionVars false

namespace Verif

variable {α : Type}

/-- greedy star whose continuation fails on every string starting with a class character -/
theorem starGo_det (p : Char → Bool) (k : Str → Str → Option α) (s acc : Str)
    (h : ∀ c t acc, p c = true → k (c :: t) acc = none) :
    starGo p k s acc = k (s.dropWhile p) ((s.takeWhile p).reverse ++ acc) := by
  induction s generalizing acc with
  | nil => simp [starGo]
  | cons c t ih =>
    unfold starGo
    cases hc : p c with
    | true => simp [ih, hc, h c t acc hc]
    | false => simp [hc]

/-- greedy star whose greediest choice succeeds -/
theorem starGo_greedy (p : Char → Bool) (k : Str → Str → Option α) (s acc : Str) (r : α)
    (h : k (s.dropWhile p) ((s.takeWhile p).reverse ++ acc) = some r) :
    starGo p k s acc = some r := by
  induction s generalizing acc with
  | nil => simpa [starGo] using h
  | cons c t ih =>
    unfold starGo
    cases hc : p c with
    | true =>
      have := ih (c :: acc) (by simpa [hc] using h)
      simp [this]
    | false => simpa [hc] using h

theorem starGo_sound (p : Char → Bool) (k : Str → Str → Option α) (s acc : Str) (r : α)
    (h : starGo p k s acc = some r) :
    ∃ s₁ s₂, s = s₁ ++ s₂ ∧ (∀ c ∈ s₁, p c = true) ∧ k s₂ (s₁.reverse ++ acc) = some r := by
  induction s generalizing acc with
  | nil => exact ⟨[], [], rfl, by simp, by simpa [starGo] using h⟩
  | cons c t ih =>
    unfold starGo at h
    split at h
    · rename_i hc
      cases h1 : starGo p k t (c :: acc) with
      | some x =>
        rw [h1] at h
        simp at h
        subst h
        obtain ⟨s₁, s₂, rfl, h2, h3⟩ := ih _ h1
        refine ⟨c :: s₁, s₂, rfl, ?_, by simpa using h3⟩
        intro d hd
        rcases List.mem_cons.1 hd with rfl | hd
        · exact hc
        · exact h2 d hd
      | none =>
        rw [h1] at h
        exact ⟨[], c :: t, rfl, by simp, by simpa using h⟩
    · exact ⟨[], c :: t, rfl, by simp, by simpa using h⟩

theorem starGo_complete (p : Char → Bool) (k : Str → Str → Option α) (s₁ s₂ acc : Str)
    (h₁ : ∀ c ∈ s₁, p c = true) (h : (k s₂ (s₁.reverse ++ acc)).isSome = true) :
    (starGo p k (s₁ ++ s₂) acc).isSome = true := by
  induction s₁ generalizing acc with
  | nil =>
    simp at h
    cases s₂ with
    | nil => simpa [starGo] using h
    | cons c t =>
      simp only [List.nil_append]
      unfold starGo
      split
      · cases starGo p k t (c :: acc) <;> simp [h]
      · exact h
  | cons c t ih =>
    have hc := h₁ c (by simp)
    have := ih (c :: acc) (fun d hd => h₁ d (by simp [hd])) (by simpa using h)
    simp only [List.cons_append]
    unfold starGo
    rw [if_pos hc]
    obtain ⟨x, hx⟩ := Option.isSome_iff_exists.1 this
    simp [hx]

/-- the language of one atom -/
def Atom.Accepts : Atom → Str → Prop
  | .one p, s => ∃ c, s = [c] ∧ p c = true
  | .opt p, s => s = [] ∨ ∃ c, s = [c] ∧ p c = true
  | .star p, s => ∀ c ∈ s, p c = true
  | .plus p, s => s ≠ [] ∧ ∀ c ∈ s, p c = true

/-- The pieces `ps` are a way of reading `s` as a word of the pattern. -/
inductive Reads : List Atom → List Str → Prop
  | nil : Reads [] []
  | cons {a as p ps} : a.Accepts p → Reads as ps → Reads (a :: as) (p :: ps)

theorem rmatch_sound (fin : Str → Bool) (as : List Atom) (s : Str) (r : List Str × Str)
    (h : rmatch fin as s = some r) : Reads as r.1 ∧ r.1.flatten ++ r.2 = s ∧ fin r.2 = true := by
  induction as generalizing s r with
  | nil =>
    unfold rmatch at h
    split at h
    · rename_i hf; cases h; exact ⟨.nil, rfl, hf⟩
    · cases h
  | cons a as ih =>
    cases a with
    | one p =>
      unfold rmatch at h
      cases s with
      | nil => simp at h
      | cons c t =>
        simp only at h
        split at h
        · rename_i hc
          cases h1 : rmatch fin as t with
          | none => rw [h1] at h; simp at h
          | some x =>
            rw [h1] at h; simp at h; subst h
            obtain ⟨a1, a2, a3⟩ := ih t x h1
            exact ⟨.cons ⟨c, rfl, hc⟩ a1, by simp [a2], a3⟩
        · cases h
    | opt p =>
      unfold rmatch at h
      cases s with
      | nil =>
        simp only at h
        cases h1 : rmatch fin as [] with
        | none => rw [h1] at h; simp at h
        | some x =>
          rw [h1] at h; simp at h; subst h
          obtain ⟨a1, a2, a3⟩ := ih [] x h1
          exact ⟨.cons (.inl rfl) a1, by simpa using a2, a3⟩
      | cons c t =>
        simp only at h
        have skip : ∀ r, (rmatch fin as (c :: t)).map (fun r => ([] :: r.1, r.2)) = some r →
            Reads (.opt p :: as) r.1 ∧ r.1.flatten ++ r.2 = c :: t ∧ fin r.2 = true := by
          intro r h
          cases h1 : rmatch fin as (c :: t) with
          | none => rw [h1] at h; simp at h
          | some x =>
            rw [h1] at h; simp at h; subst h
            obtain ⟨a1, a2, a3⟩ := ih _ x h1
            exact ⟨.cons (.inl rfl) a1, by simpa using a2, a3⟩
        split at h
        · rename_i hc
          cases h1 : rmatch fin as t with
          | none => rw [h1] at h; simp only [Option.map_none, Option.none_or] at h; exact skip r h
          | some x =>
            rw [h1] at h; simp at h; subst h
            obtain ⟨a1, a2, a3⟩ := ih t x h1
            exact ⟨.cons (.inr ⟨c, rfl, hc⟩) a1, by simp [a2], a3⟩
        · exact skip r h
    | star p =>
      unfold rmatch at h
      obtain ⟨s₁, s₂, rfl, hp, hk⟩ := starGo_sound _ _ _ _ _ h
      cases h1 : rmatch fin as s₂ with
      | none => rw [h1] at hk; simp at hk
      | some x =>
        rw [h1] at hk; simp at hk; subst hk
        obtain ⟨a1, a2, a3⟩ := ih _ x h1
        exact ⟨.cons hp a1, by simp [a2], a3⟩
    | plus p =>
      unfold rmatch at h
      cases s with
      | nil => simp at h
      | cons c t =>
        simp only at h
        split at h
        · rename_i hc
          obtain ⟨s₁, s₂, rfl, hp, hk⟩ := starGo_sound _ _ _ _ _ h
          cases h1 : rmatch fin as s₂ with
          | none => rw [h1] at hk; simp at hk
          | some x =>
            rw [h1] at hk; simp at hk; subst hk
            obtain ⟨a1, a2, a3⟩ := ih _ x h1
            refine ⟨.cons ⟨by simp, ?_⟩ a1, by simp [a2], a3⟩
            intro d hd
            simp at hd
            rcases hd with rfl | hd
            · exact hc
            · exact hp d hd
        · cases h

theorem rmatch_complete (fin : Str → Bool) (as : List Atom) (ps : List Str) (rest : Str)
    (h : Reads as ps) (hf : fin rest = true) : (rmatch fin as (ps.flatten ++ rest)).isSome = true := by
  induction as generalizing ps with
  | nil => cases h; simp [rmatch, hf]
  | cons a as ih =>
    cases h with
    | cons ha hr =>
      rename_i p ps
      have ih := ih ps hr
      obtain ⟨x, hx⟩ := Option.isSome_iff_exists.1 ih
      cases a with
      | one q =>
        obtain ⟨c, rfl, hc⟩ := ha
        simp [rmatch, hc, hx]
      | opt q =>
        rcases ha with rfl | ⟨c, rfl, hc⟩
        · simp only [List.flatten_cons, List.nil_append]
          unfold rmatch
          split
          · rename_i e; rw [e] at hx; simp [hx]
          · rename_i c t e
            rw [e] at hx
            split <;> simp [hx]
        · simp [rmatch, hc, hx]
      | star q =>
        simp only [List.flatten_cons, List.append_assoc]
        unfold rmatch
        apply starGo_complete _ _ _ _ _ ha
        simp [hx]
      | plus q =>
        obtain ⟨hne, ha⟩ := ha
        cases p with
        | nil => exact absurd rfl hne
        | cons c t =>
          simp only [List.flatten_cons, List.append_assoc, List.cons_append]
          unfold rmatch
          simp only [ha c (by simp), if_true]
          apply starGo_complete _ _ _ _ _ (fun d hd => ha d (by simp [hd]))
          simp [hx]

theorem fullMatch_sound {as : List Atom} {s : Str} {ps : List Str} (h : fullMatch as s = some ps) :
    Reads as ps ∧ ps.flatten = s := by
  unfold fullMatch at h
  cases h1 : rmatch List.isEmpty as s with
  | none => rw [h1] at h; cases h
  | some r =>
    rw [h1] at h; simp at h; subst h
    obtain ⟨a, b, c⟩ := rmatch_sound _ _ _ _ h1
    simp at c
    exact ⟨a, by simpa [c] using b⟩

/-- `re.match(pattern + '$', s)` succeeds exactly on the words of the pattern -/
theorem fullMatch_isSome (as : List Atom) (s : Str) :
    (fullMatch as s).isSome = true ↔ ∃ ps, Reads as ps ∧ ps.flatten = s := by
  constructor
  · intro h
    obtain ⟨ps, hp⟩ := Option.isSome_iff_exists.1 h
    exact ⟨ps, fullMatch_sound hp⟩
  · rintro ⟨ps, h, rfl⟩
    have := rmatch_complete List.isEmpty as ps [] h rfl
    simp only [List.append_nil] at this
    unfold fullMatch
    rw [Option.isSome_map]; exact this

theorem prefixMatch_isSome (as : List Atom) (s : Str) :
    (prefixMatch as s).isSome = true ↔ ∃ ps rest, Reads as ps ∧ ps.flatten ++ rest = s := by
  constructor
  · intro h
    obtain ⟨r, hr⟩ := Option.isSome_iff_exists.1 h
    obtain ⟨a, b, _⟩ := rmatch_sound _ _ _ _ hr
    exact ⟨r.1, r.2, a, b⟩
  · rintro ⟨ps, rest, h, rfl⟩
    exact rmatch_complete _ as ps rest h rfl

/-! ### deterministic evaluation -/

theorem rmatch_star_eq (fin : Str → Bool) (p : Char → Bool) (as : List Atom) (s : Str) :
    rmatch fin (.star p :: as) s =
      starGo p (fun rest acc => (rmatch fin as rest).map (fun r => (acc.reverse :: r.1, r.2))) s [] := rfl

theorem rmatch_plus_cons (fin : Str → Bool) (p : Char → Bool) (as : List Atom) (c : Char) (t : Str) :
    rmatch fin (.plus p :: as) (c :: t) =
      if p c then
        starGo p (fun rest acc => (rmatch fin as rest).map (fun r => (acc.reverse :: r.1, r.2))) t [c]
      else none := rfl

theorem rmatch_plus_nil (fin : Str → Bool) (p : Char → Bool) (as : List Atom) :
    rmatch fin (.plus p :: as) [] = none := rfl

theorem rmatch_opt_nil (fin : Str → Bool) (p : Char → Bool) (as : List Atom) :
    rmatch fin (.opt p :: as) [] = (rmatch fin as []).map (fun r => ([] :: r.1, r.2)) := rfl

theorem rmatch_opt_cons (fin : Str → Bool) (p : Char → Bool) (as : List Atom) (c : Char) (t : Str) :
    rmatch fin (.opt p :: as) (c :: t) =
      if p c then
        ((rmatch fin as t).map (fun r => ([c] :: r.1, r.2))).or
          ((rmatch fin as (c :: t)).map (fun r => ([] :: r.1, r.2)))
      else (rmatch fin as (c :: t)).map (fun r => ([] :: r.1, r.2)) := rfl

/-- star followed by atoms that fail on strings starting with a class character -/
theorem rmatch_star_det (fin : Str → Bool) (p : Char → Bool) (as : List Atom) (s : Str)
    (h : ∀ c t, p c = true → rmatch fin as (c :: t) = none) :
    rmatch fin (.star p :: as) s =
      (rmatch fin as (s.dropWhile p)).map (fun r => (s.takeWhile p :: r.1, r.2)) := by
  rw [rmatch_star_eq, starGo_det]
  · simp
  · intro c t acc hc
    simp [h c t hc]

theorem rmatch_star_greedy (fin : Str → Bool) (p : Char → Bool) (as : List Atom) (s : Str)
    (r : List Str × Str) (h : rmatch fin as (s.dropWhile p) = some r) :
    rmatch fin (.star p :: as) s = some (s.takeWhile p :: r.1, r.2) := by
  rw [rmatch_star_eq]
  apply starGo_greedy
  simp [h]

theorem rmatch_plus_det (fin : Str → Bool) (p : Char → Bool) (as : List Atom) (s : Str)
    (h : ∀ c t, p c = true → rmatch fin as (c :: t) = none) :
    rmatch fin (.plus p :: as) s =
      if s.takeWhile p = [] then none
      else (rmatch fin as (s.dropWhile p)).map (fun r => (s.takeWhile p :: r.1, r.2)) := by
  cases s with
  | nil => simp [rmatch_plus_nil]
  | cons c t =>
    rw [rmatch_plus_cons]
    cases hc : p c with
    | false => simp [hc]
    | true =>
      simp only [hc, if_true, List.takeWhile_cons, List.dropWhile_cons]
      rw [starGo_det]
      · simp
      · intro c t acc hc
        simp [h c t hc]

theorem rmatch_plus_greedy (fin : Str → Bool) (p : Char → Bool) (as : List Atom) (s : Str)
    (r : List Str × Str) (hs : s.takeWhile p ≠ []) (h : rmatch fin as (s.dropWhile p) = some r) :
    rmatch fin (.plus p :: as) s = some (s.takeWhile p :: r.1, r.2) := by
  cases s with
  | nil => simp at hs
  | cons c t =>
    rw [rmatch_plus_cons]
    cases hc : p c with
    | false => simp [hc] at hs
    | true =>
      simp only [hc, if_true, List.takeWhile_cons]
      apply starGo_greedy
      simp [hc] at h
      simp [h]

theorem rmatch_one (fin : Str → Bool) (p : Char → Bool) (as : List Atom) (c : Char) (t : Str) :
    rmatch fin (.one p :: as) (c :: t) =
      if p c then (rmatch fin as t).map (fun r => ([c] :: r.1, r.2)) else none := by
  simp [rmatch]

theorem rmatch_one_nil (fin : Str → Bool) (p : Char → Bool) (as : List Atom) :
    rmatch fin (.one p :: as) [] = none := by
  simp [rmatch]

theorem takeWhile_all {p : Char → Bool} {s : Str} (h : ∀ c ∈ s, p c = true) : s.takeWhile p = s := by
  induction s with
  | nil => rfl
  | cons c t ih => simp [h c (by simp), ih (fun d hd => h d (by simp [hd]))]

theorem dropWhile_all {p : Char → Bool} {s : Str} (h : ∀ c ∈ s, p c = true) : s.dropWhile p = [] := by
  induction s with
  | nil => rfl
  | cons c t ih => simp [h c (by simp), ih (fun d hd => h d (by simp [hd]))]

/-- a final `.*` on text without the excluded character -/
theorem rmatch_last_star (p : Char → Bool) (s : Str) (h : ∀ c ∈ s, p c = true) :
    rmatch List.isEmpty [.star p] s = some ([s], []) := by
  rw [rmatch_star_greedy _ _ _ _ ([], [])]
  · simp [takeWhile_all h]
  · simp [dropWhile_all h, rmatch]

theorem takeWhile_append_of_all {p : Char → Bool} {s t : Str} (h : ∀ c ∈ s, p c = true) :
    (s ++ t).takeWhile p = s ++ t.takeWhile p := by
  induction s with
  | nil => rfl
  | cons c s ih => simp [h c (by simp), ih (fun d hd => h d (by simp [hd]))]

theorem dropWhile_append_of_all {p : Char → Bool} {s t : Str} (h : ∀ c ∈ s, p c = true) :
    (s ++ t).dropWhile p = t.dropWhile p := by
  induction s with
  | nil => rfl
  | cons c s ih => simp [h c (by simp), ih (fun d hd => h d (by simp [hd]))]

theorem takeWhile_mem {p : Char → Bool} {s : Str} {c : Char} (h : c ∈ s.takeWhile p) : p c = true ∧ c ∈ s := by
  induction s with
  | nil => simp at h
  | cons d t ih =>
    cases hd : p d with
    | false => simp [hd] at h
    | true =>
      simp [hd] at h
      rcases h with rfl | h
      · exact ⟨hd, by simp⟩
      · exact ⟨(ih h).1, by simp [(ih h).2]⟩

theorem dropWhile_mem {p : Char → Bool} {s : Str} {c : Char} (h : c ∈ s.dropWhile p) : c ∈ s :=
  (List.dropWhile_suffix p).subset h

theorem head_dropWhile_not {p : Char → Bool} {s t : Str} {c : Char} (h : s.dropWhile p = c :: t) : p c = false := by
  induction s with
  | nil => simp at h
  | cons d s ih =>
    cases hd : p d with
    | true => simp [hd] at h; exact ih h
    | false => simp [hd] at h; rw [← h.1]; exact hd

end Verif
