/-
C46: exactly which token a name gets.
-/
import Verif.Props.Token
import Verif.Lib.Lines

set_option linter.unusedSectionVars false
set_option linter.unusedSimpArgs false

namespace Verif.Props

/-- `t` is `s` with every longest run of characters that are no ASCII letters or digits replaced by one underscore -/
inductive Underscored : Str → Str → Prop
  | done : Underscored [] []
  | keep (c : Char) (s t : Str) : c ∈ lettersAndDigits → Underscored s t → Underscored (c :: s) (c :: t)
  | gap (run s t : Str) : run ≠ [] → (∀ c ∈ run, c ∉ lettersAndDigits) → (∀ c ∈ s.head?, c ∈ lettersAndDigits) →
      Underscored s t → Underscored (run ++ s) ('_' :: t)

/-- `t` is `s` with `WRITE_IN_`, wherever it occurs reading from the left, shortened to `wi_` -/
inductive WriteIns : Str → Str → Prop
  | done : WriteIns [] []
  | hit (s t : Str) : WriteIns s t → WriteIns (c!"WRITE_IN_" ++ s) (c!"wi_" ++ t)
  | skip (c : Char) (s t : Str) : ¬ c!"WRITE_IN_" <+: c :: s → WriteIns s t → WriteIns (c :: s) (c :: t)

theorem collapse_run (b : Bool) (run s : Str) (hr : ∀ c ∈ run, isAsciiAlnum c = false) (hne : run ≠ []) :
    collapseAux b (run ++ s) = if b then collapseAux true s else '_' :: collapseAux true s := by
  induction run generalizing b with
  | nil => exact absurd rfl hne
  | cons c run ih =>
    have hc := hr c (by simp)
    rw [List.cons_append, collapseAux, if_neg (by simp [hc])]
    cases run with
    | nil => cases b <;> rfl
    | cons d run =>
      have := ih true (fun x hx => hr x (by simp [hx])) (by simp)
      rw [this]
      cases b <;> rfl

theorem collapse_flag (b : Bool) (s : Str) (h : ∀ c ∈ s.head?, isAsciiAlnum c = true) : collapseAux b s = collapseAux false s := by
  cases s with
  | nil => rfl
  | cons c s =>
    have hc := h c (by simp)
    rw [collapseAux, collapseAux, if_pos hc, if_pos hc]

theorem collapse_of {s u : Str} (h : Underscored s u) : collapseAux false s = u := by
  induction h with
  | done => rfl
  | keep c s t hc _ ih => rw [collapseAux, if_pos ((C46_letters c).2 hc), ih]
  | gap run s t hne hr hs _ ih =>
    rw [collapse_run false run s (fun c hc => by
      have := hr c hc
      rw [← C46_letters] at this
      simpa using this) hne]
    rw [collapse_flag true s (fun c hc => (C46_letters c).2 (hs c hc)), ih]
    rfl

theorem underscored_exists (s : Str) : ∃ u, Underscored s u := by
  induction hn : s.length using Nat.strongRecOn generalizing s with
  | ind n ih =>
    cases s with
    | nil => exact ⟨[], .done⟩
    | cons c s =>
      by_cases hc : c ∈ lettersAndDigits
      · obtain ⟨u, hu⟩ := ih s.length (by simp at hn; omega) s rfl
        exact ⟨c :: u, .keep c s u hc hu⟩
      · have e := (List.takeWhile_append_dropWhile (p := fun c => !(isAsciiAlnum c)) (l := c :: s)).symm
        have hc' : isAsciiAlnum c = false := by
          rw [← C46_letters] at hc; simpa using hc
        have hlen : ((c :: s).dropWhile (fun c => !(isAsciiAlnum c))).length < n := by
          have := (List.dropWhile_suffix (l := s) (fun c => !(isAsciiAlnum c))).length_le
          rw [List.dropWhile_cons, if_pos (by simp [hc'])]
          simp at hn; omega
        obtain ⟨u, hu⟩ := ih _ hlen _ rfl
        refine ⟨'_' :: u, ?_⟩
        rw [e]
        refine .gap _ _ _ ?_ ?_ ?_ hu
        · rw [List.takeWhile_cons, if_pos (by simp [hc'])]; simp
        · intro d hd
          have := List.all_eq_true.1 (List.all_takeWhile (p := fun c => !(isAsciiAlnum c)) (l := c :: s)) d hd
          rw [← C46_letters]
          simpa using this
        · intro d hd
          have := List.head?_dropWhile_not (fun c => !(isAsciiAlnum c)) (c :: s)
          rw [Option.mem_def.1 hd] at this
          rw [← C46_letters]
          simpa using this

theorem matchLen_lit (l s : Str) : matchLen (litAtoms l) s = if l <+: s then some l.length else none := by
  unfold matchLen prefixMatch
  have h : ∀ (l s : Str), (rmatch (fun _ => true) (litAtoms l) s).map (fun r => piecesLen r.1) =
      if l <+: s then some l.length else none := by
    intro l
    induction l with
    | nil => intro s; simp [litAtoms, rmatch, piecesLen]
    | cons c l ih =>
      intro s
      have e : litAtoms (c :: l) = .one (fun x => x == c) :: litAtoms l := rfl
      rw [e]
      cases s with
      | nil => simp [rmatch]
      | cons d s =>
        have ihs := ih s
        rw [rmatch_one]
        by_cases hd : d = c
        · subst hd
          rw [if_pos (by simp)]
          by_cases hp : l <+: s
          · rw [if_pos hp] at ihs
            rw [if_pos (by simpa using hp)]
            cases hm : rmatch (fun _ => true) (litAtoms l) s with
            | none => rw [hm] at ihs; cases ihs
            | some r =>
              rw [hm] at ihs
              simp only [Option.map_some, Option.some.injEq] at ihs ⊢
              simp [piecesLen] at ihs ⊢
              omega
          · rw [if_neg hp] at ihs
            rw [if_neg (by simpa using hp)]
            cases hm : rmatch (fun _ => true) (litAtoms l) s with
            | none => rfl
            | some r => rw [hm] at ihs; cases ihs
        · rw [if_neg (by simpa using hd), if_neg (by simp; intro h; exact absurd h.symm hd)]
          rfl
  exact h l s

theorem writeIn_of {s u : Str} (h : WriteIns s u) : writeInSub s = u := by
  unfold writeInSub reSub
  induction h with
  | done => rfl
  | hit s t _ ih =>
    have e : c!"WRITE_IN_" ++ s = 'W' :: (c!"RITE_IN_" ++ s) := rfl
    rw [e, reSubAux, matchLen_lit, if_pos ⟨s, rfl⟩]
    have hl : c!"WRITE_IN_".length = c!"RITE_IN_".length + 1 := rfl
    rw [hl]
    simp only
    have skip : ∀ (m : Str → Option Nat) (r a t : Str), reSubAux m r a.length (a ++ t) = reSubAux m r 0 t := by
      intro m r a t
      induction a with
      | nil => rfl
      | cons c a ih => exact ih
    rw [skip, ih]
  | skip c s t hc _ ih =>
    rw [reSubAux, matchLen_lit, if_neg hc]
    simp only
    rw [ih]

theorem writeIns_exists (s : Str) : ∃ u, WriteIns s u := by
  induction hn : s.length using Nat.strongRecOn generalizing s with
  | ind n ih =>
    by_cases hp : c!"WRITE_IN_" <+: s
    · obtain ⟨t, rfl⟩ := hp
      obtain ⟨u, hu⟩ := ih t.length (by simp at hn; omega) t rfl
      exact ⟨_, .hit t u hu⟩
    · cases s with
      | nil => exact ⟨[], .done⟩
      | cons c s =>
        obtain ⟨u, hu⟩ := ih s.length (by simp at hn; omega) s rfl
        exact ⟨c :: u, .skip c s u hp hu⟩

/-- C46: the token of a name that is too long or holds a character other than an ASCII letter or digit (and other than a line
break): replace every longest run of such characters by one underscore, shorten `WRITE_IN_` to `wi_`, and cut the text after
`max_length` characters.  `Underscored` and `WriteIns` describe exactly one text each (`C46_cleaned`). -/
theorem C46_exact (n : Nat) (s u v : Str) (h : n < s.length ∨ ∃ c ∈ s, c ∉ lettersAndDigits ∧ c ≠ '\n')
    (hu : Underscored s u) (hv : WriteIns u v) : abifToken n s = v.take n := by
  unfold abifToken
  rw [if_neg, collapse_of hu, writeIn_of hv]
  simp only [Bool.and_eq_true, decide_eq_true_eq, not_and]
  intro hl
  rcases h with h | ⟨c, hc, h1, h2⟩
  · omega
  · rw [← C46_letters] at h1
    unfold alnumMatch
    simp only [Bool.or_eq_true, Bool.and_eq_true, List.all_eq_true, not_or]
    refine ⟨fun hx => h1 (hx.2 c hc), fun hx => ?_⟩
    have hlast := hx.1.1
    have hne : s ≠ [] := List.ne_nil_of_mem hc
    have hs := List.dropLast_append_getLast hne
    rw [← hs, List.mem_append] at hc
    rcases hc with hc | hc
    · exact h1 (hx.2 c hc)
    · have h3 : c = s.getLast hne := by simpa using hc
      rw [List.getLast?_eq_some_getLast hne] at hlast
      apply h2
      rw [h3]
      simpa using hlast

/-- C46: the two rewritings that define a token are total and have one result each. -/
theorem C46_cleaned (s : Str) : (∃ u, Underscored s u ∧ ∀ u', Underscored s u' → u' = u) ∧ (∃ v, WriteIns s v ∧ ∀ v', WriteIns s v' → v' = v) := by
  obtain ⟨u, hu⟩ := underscored_exists s
  obtain ⟨v, hv⟩ := writeIns_exists s
  exact ⟨⟨u, hu, fun u' h => (collapse_of h).symm.trans (collapse_of hu)⟩, ⟨v, hv, fun v' h => (writeIn_of h).symm.trans (writeIn_of hv)⟩⟩

/-- C46: the empty name has the empty token. -/
theorem C46_empty (n : Nat) : abifToken n [] = [] := by
  unfold abifToken writeInSub
  simp [alnumMatch, collapseAux, reSub, reSubAux]

example : ∃ c ∈ c!"WRITE-IN: José", c ∉ lettersAndDigits ∧ c ≠ '\n' := by decide +kernel
example : abifToken 20 c!"WRITE-IN: José" = c!"wi_Jos_" ∧ collapseAux false c!"WRITE-IN: José" = c!"WRITE_IN_Jos_" := by decide +kernel

end Verif.Props
