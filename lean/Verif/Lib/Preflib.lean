/-
Helper lemmas about the PrefLib importer.
-/
import Verif.Model.Preflib
import Verif.Spec.Preflib
import Verif.Lib.Tiers

set_option linter.unusedSimpArgs false
set_option linter.unusedSectionVars false

namespace Verif
open Spec
variable [U : Uni]

theorem natStr_noBreak (n : Nat) : ∀ c ∈ natStr n, isLineBreak c = false :=
  fun c hc => plainAscii_not_break (natStr_ascii n c hc)

theorem isDot_of_noBreak {s : Str} (h : ∀ c ∈ s, isLineBreak c = false) : ∀ c ∈ s, isDot c = true := by
  intro c hc
  have := ne_newline_of_noBreak (h c hc)
  simp [isDot, this]

theorem isDigit_ascii_false {c : Char} (h1 : isAscii c = true) (h2 : isAsciiDigit c = false) : isDigit c = false :=
  digit_ascii h1 h2

theorem takeWhile_digits_colon (q r : Str) (hq : ∀ c ∈ q, isDigit c = true) :
    (q ++ ':' :: r).takeWhile isDigit = q ∧ (q ++ ':' :: r).dropWhile isDigit = ':' :: r := by
  rw [takeWhile_append_of_all hq, dropWhile_append_of_all hq]
  simp [isDigit_colon]

/-! ### lines -/

theorem altName_alt {k : Nat} {name : Str} (h : ∀ c ∈ name, isLineBreak c = false) :
    altName (c!"# ALTERNATIVE NAME " ++ (natStr k ++ (':' :: ' ' :: name))) = some name := by
  unfold altName altNameAtoms fullMatch
  rw [rmatch_lits]
  have hp : List.isPrefixOf c!"# ALTERNATIVE NAME " (c!"# ALTERNATIVE NAME " ++ (natStr k ++ (':' :: ' ' :: name))) = true := by
    simp
  rw [if_pos hp, List.drop_left]
  obtain ⟨n1, n2, _⟩ := natStr_spec k
  obtain ⟨t1, t2⟩ := takeWhile_digits_colon (natStr k) (' ' :: name) n2
  have hr : rmatch List.isEmpty [.plus isDigit, .one (fun c => c == ':'), .one (fun c => c == ' '), .star isDot]
      (natStr k ++ (':' :: ' ' :: name)) = some ([natStr k, [':'], [' '], name], []) := by
    have := rmatch_plus_greedy List.isEmpty isDigit [.one (fun c => c == ':'), .one (fun c => c == ' '), .star isDot]
      (natStr k ++ (':' :: ' ' :: name)) ([[':'], [' '], name], []) (by rw [t1]; exact n1) (by
        rw [t2]
        apply rmatch_one_ok _ _ _ _ _ ([[' '], name], []) rfl
        apply rmatch_one_ok _ _ _ _ _ ([name], []) rfl
        exact rmatch_last_star _ _ (isDot_of_noBreak h))
    rw [t1] at this
    exact this
  rw [hr]
  rfl

theorem altName_none_of_head {line : Str} (h : ¬ c!"# ALTERNATIVE NAME " <+: line) : altName line = none := by
  unfold altName altNameAtoms fullMatch
  rw [rmatch_lits]
  have hp : List.isPrefixOf c!"# ALTERNATIVE NAME " line = false := by
    cases hx : List.isPrefixOf c!"# ALTERNATIVE NAME " line with
    | false => rfl
    | true => exact absurd (List.isPrefixOf_iff_prefix.1 hx) h
  rw [hp]; rfl

theorem prefLineMatch_vote {q r : Str} (h1 : q ≠ []) (h2 : ∀ c ∈ q, isDigit c = true) (hr : ∀ c ∈ r, isLineBreak c = false) :
    prefLineMatch (q ++ (':' :: ' ' :: r)) = some (q, r) := by
  unfold prefLineMatch prefixMatch
  obtain ⟨t1, t2⟩ := takeWhile_digits_colon q (' ' :: r) h2
  have hr : rmatch (fun _ => true) [.plus isDigit, .one (fun c => c == ':'), .one (fun c => c == ' '), .star isDot]
      (q ++ (':' :: ' ' :: r)) = some ([q, [':'], [' '], r], []) := by
    have := rmatch_plus_greedy (fun _ => true) isDigit [.one (fun c => c == ':'), .one (fun c => c == ' '), .star isDot]
      (q ++ (':' :: ' ' :: r)) ([[':'], [' '], r], []) (by rw [t1]; exact h1) (by
        rw [t2]
        apply rmatch_one_ok _ _ _ _ _ ([[' '], r], []) rfl
        apply rmatch_one_ok _ _ _ _ _ ([r], []) rfl
        have := rmatch_star_greedy (fun _ => true) isDot [] r ([], []) (by
          rw [dropWhile_all (isDot_of_noBreak hr)]; rfl)
        rw [takeWhile_all (isDot_of_noBreak hr)] at this
        exact this)
    rw [t1] at this
    exact this
  rw [hr]

theorem prefLineMatch_hash (t : Str) : prefLineMatch ('#' :: t) = none := by
  unfold prefLineMatch prefixMatch
  have : isDigit '#' = false := digit_ascii (by decide) (by decide)
  rw [rmatch_plus_cons, this]
  rfl

/-! ### rankings -/

theorem digitRuns_run {d r : Str} (hd : ∀ c ∈ d, isDigit c = true) (cur : Str) :
    digitRuns (d ++ r) cur = digitRuns r (d.reverse ++ cur) := by
  induction d generalizing cur with
  | nil => rfl
  | cons c d ih =>
    rw [List.cons_append, digitRuns, if_pos (hd c (by simp)), ih (fun c hc => hd c (by simp [hc]))]
    simp

theorem digitRuns_stop {c : Char} {t cur : Str} (hc : isDigit c = false) (hne : cur ≠ []) :
    digitRuns (c :: t) cur = cur.reverse :: digitRuns t [] := by
  rw [digitRuns, hc]; simp [hne]

theorem isDigit_comma : isDigit ',' = false := digit_ascii (by decide) (by decide)
theorem isDigit_lbrace : isDigit '{' = false := digit_ascii (by decide) (by decide)
theorem isDigit_rbrace : isDigit '}' = false := digit_ascii (by decide) (by decide)

theorem digitRuns_group (ns : List Nat) :
    digitRuns (joinStr [','] (ns.map natStr) ++ ['}']) [] = ns.map natStr := by
  induction ns with
  | nil => simp [joinStr, digitRuns, isDigit_rbrace]
  | cons n ns ih =>
    obtain ⟨n1, n2, _⟩ := natStr_spec n
    have hne : (natStr n).reverse ≠ [] := by simpa using n1
    cases ns with
    | nil =>
      simp only [List.map_cons, List.map_nil, joinStr]
      rw [digitRuns_run n2, List.append_nil, digitRuns_stop isDigit_rbrace hne]
      simp [digitRuns]
    | cons m ns =>
      simp only [List.map_cons, joinStr] at ih ⊢
      rw [List.append_assoc, List.append_assoc, digitRuns_run n2, List.append_nil]
      show digitRuns (',' :: _) _ = _
      rw [digitRuns_stop isDigit_comma hne, List.reverse_reverse]
      exact congrArg _ ih

theorem digitRuns_item (p : PItem) : digitRuns p.text [] = p.nums.map natStr := by
  cases p with
  | bare n =>
    obtain ⟨n1, n2, _⟩ := natStr_spec n
    have hne : (natStr n).reverse ≠ [] := by simpa using n1
    have := digitRuns_run (r := []) n2 []
    simp only [List.append_nil] at this
    simp only [PItem.text, PItem.nums, List.map_cons, List.map_nil]
    rw [this, digitRuns, if_neg hne, List.reverse_reverse]
  | group ns =>
    simp only [PItem.text, PItem.nums]
    rw [digitRuns, isDigit_lbrace]
    simp only [if_false, Bool.false_eq_true, if_true]
    exact digitRuns_group ns

theorem splitBrace_inside {a t : Str} (ha : '}' ∉ a) (cur : Str) :
    splitBrace true (a ++ '}' :: t) cur = (cur.reverse ++ a ++ ['}']) :: splitBrace false t [] := by
  induction a generalizing cur with
  | nil => simp [splitBrace]
  | cons c a ih =>
    have hc : c ≠ '}' := fun h => ha (by simp [h])
    rw [List.cons_append, splitBrace, if_neg hc, ih (fun h => ha (by simp [h]))]
    simp

theorem splitBrace_plain {a t : Str} (ha : ∀ c ∈ a, c ≠ '{' ∧ c ≠ ',') (cur : Str) :
    splitBrace false (a ++ t) cur = splitBrace false t (a.reverse ++ cur) := by
  induction a generalizing cur with
  | nil => rfl
  | cons c a ih =>
    obtain ⟨h1, h2⟩ := ha c (by simp)
    rw [List.cons_append, splitBrace, if_neg (by simp [h1]), if_neg h2, ih (fun c hc => ha c (by simp [hc]))]
    simp

theorem natStr_plain (n : Nat) : ∀ c ∈ natStr n, c ≠ '{' ∧ c ≠ ',' ∧ c ≠ '}' ∧ isSpace c = false := by
  intro c hc
  have hd := (natStr_spec n).2.1 c hc
  refine ⟨?_, ?_, ?_, digit_not_space hd⟩
  · rintro rfl; rw [isDigit_lbrace] at hd; cases hd
  · rintro rfl; rw [isDigit_comma] at hd; cases hd
  · rintro rfl; rw [isDigit_rbrace] at hd; cases hd

theorem group_no_rbrace (ns : List Nat) : '}' ∉ joinStr [','] (ns.map natStr) := by
  intro h
  rcases joinStr_mem h with h | ⟨p, hp, h⟩
  · simp at h
  · obtain ⟨n, _, rfl⟩ := List.mem_map.1 hp
    exact (natStr_plain n _ h).2.2.1 rfl

/-- the pieces of a place at the end of the text or before a comma, after dropping the skipped ones -/
theorem splitBrace_item (p : PItem) (t : Str) (ht : t = [] ∨ ∃ r, t = ',' :: r) :
    (splitBrace false (p.text ++ t) []).filter (fun x => !skipPart x) =
      p.text :: (splitBrace false t []).filter (fun x => !skipPart x) := by
  have hskip : skipPart p.text = false := by
    cases p with
    | bare n =>
      obtain ⟨n1, _, _⟩ := natStr_spec n
      unfold skipPart
      simp only [PItem.text]
      cases hn : natStr n with
      | nil => exact absurd hn n1
      | cons c t =>
        obtain ⟨_, h2, _, h4⟩ := natStr_plain n c (by rw [hn]; simp)
        simp [h2, h4]
    | group ns =>
      have : isSpace '{' = false := by decide
      simp [skipPart, PItem.text, this]
  have s0 : skipPart [] = true := rfl
  have s1 : skipPart [','] = true := rfl
  cases p with
  | bare n =>
    simp only [PItem.text] at hskip ⊢
    rw [splitBrace_plain (fun c hc => ⟨(natStr_plain n c hc).1, (natStr_plain n c hc).2.1⟩), List.append_nil]
    rcases ht with rfl | ⟨r, rfl⟩
    · simp [splitBrace, hskip, s0]
    · rw [splitBrace, if_neg (by simp), if_pos rfl, splitBrace, if_neg (by simp), if_pos rfl]
      simp [hskip, s0, s1]
  | group ns =>
    simp only [PItem.text, List.cons_append, List.append_assoc] at hskip ⊢
    rw [splitBrace, if_pos (by simp), List.nil_append, splitBrace_inside (group_no_rbrace ns)]
    simp only [List.reverse_nil, List.reverse_cons, List.nil_append, List.cons_append]
    rw [List.filter_cons_of_neg (by simp [s0]), List.filter_cons_of_pos]
    simpa using hskip

theorem splitBrace_items (ps : List PItem) :
    (splitBrace false (joinStr [','] (ps.map PItem.text)) []).filter (fun x => !skipPart x) = ps.map PItem.text := by
  have s0 : skipPart [] = true := rfl
  have s1 : skipPart [','] = true := rfl
  induction ps with
  | nil => simp [joinStr, splitBrace, s0]
  | cons p ps ih =>
    cases ps with
    | nil =>
      have := splitBrace_item p [] (.inl rfl)
      simp only [List.append_nil] at this
      simp only [List.map_cons, List.map_nil, joinStr]
      rw [this]
      simp [splitBrace, s0]
    | cons q ps =>
      simp only [List.map_cons, joinStr] at ih ⊢
      rw [List.append_assoc]
      show List.filter _ (splitBrace false (p.text ++ (',' :: _)) []) = _
      rw [splitBrace_item p _ (.inr ⟨_, rfl⟩), splitBrace, if_neg (by simp), if_pos rfl]
      simp only [List.reverse_nil, List.filter_cons, s0, s1, Bool.not_true, Bool.false_eq_true, if_false]
      exact congrArg _ ih

theorem mapM_ok {ε α β : Type} {f : α → Except ε β} {g : α → β} {l : List α} (h : ∀ a ∈ l, f a = .ok (g a)) :
    l.mapM f = .ok (l.map g) := by
  induction l with
  | nil => rfl
  | cons a l ih =>
    rw [List.mapM_cons, h a (by simp), ih (fun a ha => h a (by simp [ha]))]
    rfl

end Verif
