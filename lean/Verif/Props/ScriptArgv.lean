/-
C110: the words on the command lines of the stand-alone programs.
-/
import Verif.Spec.ScriptArgv
import Verif.Props.Argv
import Mathlib.Data.List.Nodup

set_option linter.unusedSimpArgs false
set_option linter.unusedSectionVars false

namespace Verif.Props
open Verif Spec
variable [U : Uni]

/-! ### words -/

theorem noOption_plain (w : Str) : noOption w = .plain ↔ NegNumber w ∨ ' ' ∈ w := by
  rw [← negNumber_iff]
  unfold noOption
  split <;> simp_all

theorem noOption_cases (w : Str) : noOption w = .plain ∨ noOption w = .unknown := by
  unfold noOption
  split
  · exact .inl rfl
  · exact .inr rfl

theorem byLetter_iff {P : Program} (hP : SoundProgram P) (c : Char) (o : OptDef) : P.byLetter c = some o ↔ o ∈ P.all ∧ o.letter = some c := by
  unfold Program.byLetter
  constructor
  · intro h
    exact ⟨List.mem_of_find?_eq_some h, by simpa using List.find?_some h⟩
  · rintro ⟨h1, h2⟩
    cases hf : P.all.find? (fun o => o.letter == some c) with
    | none =>
      have := List.find?_eq_none.1 hf o h1
      simp [h2] at this
    | some o' =>
      have g1 := List.mem_of_find?_eq_some hf
      have g2 : o'.letter = some c := by simpa using List.find?_some hf
      rw [hP.letters o' g1 o h1 (by rw [g2]; simp) (by rw [g2, h2])]

theorem byLetter_none {P : Program} (c : Char) : P.byLetter c = none ↔ ∀ o ∈ P.all, o.letter ≠ some c := by
  unfold Program.byLetter
  rw [List.find?_eq_none]
  simp

theorem byName_names {P : Program} (hP : SoundProgram P) {n : Str} {o : OptDef} (h : Names P n o) : P.byName n = [o] := by
  obtain ⟨_, h1, h2, h3⟩ := h
  unfold Program.byName
  cases hf : P.all.find? (fun o => o.name == n) with
  | some o' =>
    have g1 := List.mem_of_find?_eq_some hf
    have g2 : o'.name = n := by simpa using List.find?_some hf
    simp only
    rw [h3 o' g1 (by rw [g2])]
  | none =>
    simp only
    have hset : ∀ x ∈ P.all, n.isPrefixOf x.name = true ↔ x = o := by
      intro x hx
      rw [List.isPrefixOf_iff_prefix]
      constructor
      · exact h3 x hx
      · rintro rfl; exact h2
    have : P.all.filter (fun x => n.isPrefixOf x.name) = P.all.filter (fun x => x == o) := by
      apply List.filter_congr
      intro x hx
      have := hset x hx
      by_cases hxo : x = o
      · subst hxo; simp [this.2 rfl]
      · have hn : ¬ n.isPrefixOf x.name = true := fun h => hxo (this.1 h)
        simp [hxo, hn]
    rw [this, List.filter_beq, List.count_eq_one_of_mem hP.nodup h1]
    rfl

theorem byName_one {P : Program} (hP : SoundProgram P) {n : Str} {o : OptDef} (h0 : n ≠ []) (h : P.byName n = [o]) : Names P n o := by
  unfold Program.byName at h
  split at h
  · rename_i o' hf
    cases h
    have g1 := List.mem_of_find?_eq_some hf
    have g2 : o.name = n := by simpa using List.find?_some hf
    exact ⟨h0, g1, by rw [g2], fun x hx hp => (hP.names o g1 x hx (by rw [g2]; exact hp)).symm⟩
  · have ho : o ∈ P.all.filter (fun o => n.isPrefixOf o.name) := by rw [h]; simp
    obtain ⟨g1, g2⟩ := List.mem_filter.1 ho
    refine ⟨h0, g1, List.isPrefixOf_iff_prefix.1 g2, fun x hx hp => ?_⟩
    have : x ∈ P.all.filter (fun o => n.isPrefixOf o.name) := List.mem_filter.2 ⟨hx, List.isPrefixOf_iff_prefix.2 hp⟩
    rw [h] at this
    exact List.mem_singleton.1 this

theorem byName_nil {P : Program} (n : Str) : P.byName n = [] ↔ ∀ o ∈ P.all, ¬ n <+: o.name := by
  unfold Program.byName
  cases hf : P.all.find? (fun o => o.name == n) with
  | some o' =>
    have g1 := List.mem_of_find?_eq_some hf
    have g2 : o'.name = n := by simpa using List.find?_some hf
    simp only [List.cons_ne_nil, false_iff]
    intro h
    exact h o' g1 (by rw [g2])
  | none =>
    simp only [List.filter_eq_nil_iff]
    constructor
    · intro h o ho hp
      exact h o ho (List.isPrefixOf_iff_prefix.2 hp)
    · intro h o ho hp
      exact h o ho (List.isPrefixOf_iff_prefix.1 hp)

theorem names_eqSign {P : Program} (hP : SoundProgram P) {n : Str} {o : OptDef} (h : Names P n o) : '=' ∉ n := by
  obtain ⟨_, h1, h2, _⟩ := h
  exact fun hm => (hP.plain o h1).2.1 (h2.subset hm)

theorem word_dashes (P : Program) (t : Str) (ht : t ≠ []) : P.word ('-' :: '-' :: t) =
    match P.byName (t.takeWhile (fun c => c != '=')) with
    | [] => noOption ('-' :: '-' :: t)
    | [o] => .long o (if '=' ∈ t then some ((t.dropWhile (fun c => c != '=')).drop 1) else none)
    | _ => .ambiguous := by
  unfold Program.word
  simp only [if_neg ht]
  rfl

theorem word_letter (P : Program) (c : Char) (t : Str) (hc : c ≠ '-') : P.word ('-' :: c :: t) =
    if c = '=' then .ambiguous else match P.byLetter c with
    | some o => .short o t
    | none => noOption ('-' :: c :: t) := by
  unfold Program.word
  split
  · rename_i h
    exact absurd (List.cons.inj (List.cons.inj h).2).1 hc
  · rename_i h
    obtain ⟨h1, h2⟩ := List.cons.inj (List.cons.inj h).2
    subst h1; subst h2
    rfl
  · rename_i h1 h2
    exact absurd rfl (h2 c t)

/-- words that do not start with a dash, and the dash -/
theorem word_other (P : Program) (w : Str) (h : w.head? ≠ some '-' ∨ w = ['-']) : P.word w = .plain := by
  unfold Program.word
  split
  · rcases h with h | h
    · simp at h
    · simp at h
  · rcases h with h | h
    · simp at h
    · simp at h
  · rfl

theorem word_shape (w : Str) : (w.head? ≠ some '-' ∨ w = ['-']) ∨ (∃ t, w = '-' :: '-' :: t) ∨ ∃ c t, c ≠ '-' ∧ w = '-' :: c :: t := by
  match w with
  | [] => exact .inl (.inl (by simp))
  | [c] =>
    by_cases hc : c = '-'
    · subst hc; exact .inl (.inr rfl)
    · exact .inl (.inl (by simp [hc]))
  | c :: d :: t =>
    by_cases hc : c = '-'
    · subst hc
      by_cases hd : d = '-'
      · subst hd; exact .inr (.inl ⟨t, rfl⟩)
      · exact .inr (.inr ⟨d, t, hd, rfl⟩)
    · exact .inl (.inl (by simp [hc]))

theorem word_plain (P : Program) (w : Str) : P.word w = .plain ↔ PlainFor P w := by
  rcases word_shape w with h | ⟨t, rfl⟩ | ⟨c, t, hc, rfl⟩
  · rw [word_other P w h]
    simp only [true_iff]
    rcases h with h | h
    · exact .inl h
    · exact .inr (.inl h)
  · by_cases ht : t = []
    · subst ht
      constructor
      · intro h
        unfold Program.word at h
        simp at h
      · rintro (h | h | ⟨_, ⟨c, t, h, hc, _⟩ | ⟨t, h, ht, _⟩⟩)
        · simp at h
        · simp at h
        · exact absurd (List.cons.inj (List.cons.inj h).2).1.symm hc
        · exact absurd (List.cons.inj (List.cons.inj h).2).2.symm ht
    · rw [word_dashes P t ht]
      constructor
      · intro h
        split at h
        · rename_i hn
          exact .inr (.inr ⟨(noOption_plain _).1 h, .inr ⟨t, rfl, ht, (byName_nil _).1 hn⟩⟩)
        · cases h
        · cases h
      · rintro (h | h | ⟨h1, ⟨c, t', h, hc, _⟩ | ⟨t', h, _, h2⟩⟩)
        · simp at h
        · simp at h
        · exact absurd (List.cons.inj (List.cons.inj h).2).1.symm hc
        · obtain rfl := (List.cons.inj (List.cons.inj h).2).2
          rw [(byName_nil _).2 h2]
          exact (noOption_plain _).2 h1
  · rw [word_letter P c t hc]
    constructor
    · intro h
      split at h
      · cases h
      · rename_i hce
        split at h
        · cases h
        · rename_i hl
          exact .inr (.inr ⟨(noOption_plain _).1 h, .inl ⟨c, t, rfl, hc, hce, (byLetter_none c).1 hl⟩⟩)
    · rintro (h | h | ⟨h1, ⟨c', t', h, _, h2, h3⟩ | ⟨t', h, _⟩⟩)
      · simp at h
      · simp at h
      · obtain ⟨e1, e2⟩ := List.cons.inj (List.cons.inj h).2
        subst e1; subst e2
        rw [if_neg h2, (byLetter_none c).2 h3]
        exact (noOption_plain _).2 h1
      · exact absurd (List.cons.inj (List.cons.inj h).2).1 hc

theorem byName_empty {P : Program} (hP : SoundProgram P) {o : OptDef} (h : P.byName [] = [o]) : o = helpOpt := by
  unfold Program.byName at h
  split at h
  · rename_i o' hf
    have g1 := List.mem_of_find?_eq_some hf
    have g2 : o'.name = [] := by simpa using List.find?_some hf
    exact absurd g2 (hP.plain o' g1).1
  · have : P.all.filter (fun o => ([] : Str).isPrefixOf o.name) = P.all := by
      rw [List.filter_eq_self]
      intro x _
      rfl
    rw [this] at h
    unfold Program.all at h
    exact (List.cons.inj h).1.symm

theorem split_eqSign (t : Str) : (('=' ∉ t ∧ t.takeWhile (fun c => c != '=') = t) ∨
    ∃ v, '=' ∈ t ∧ (t.dropWhile (fun c => c != '=')).drop 1 = v ∧ t = t.takeWhile (fun c => c != '=') ++ '=' :: v) := by
  induction t with
  | nil => exact .inl ⟨by simp, rfl⟩
  | cons c t ih =>
    by_cases hc : c = '='
    · subst hc
      exact .inr ⟨t, by simp, by simp, by simp⟩
    · have hb : (c != '=') = true := by simpa using hc
      rw [List.takeWhile_cons_of_pos (p := fun c => c != '=') hb, List.dropWhile_cons_of_pos (p := fun c => c != '=') hb]
      rcases ih with ⟨h1, h2⟩ | ⟨v, h1, h2, h3⟩
      · refine .inl ⟨?_, by rw [h2]⟩
        intro h
        rcases List.mem_cons.1 h with h | h
        · exact hc h.symm
        · exact h1 h
      · refine .inr ⟨v, List.mem_cons_of_mem _ h1, h2, ?_⟩
        rw [List.cons_append, ← h3]

/-- a word that is a long option -/
theorem word_long {P : Program} (hP : SoundProgram P) {w : Str} {o : OptDef} {value : Option Str} (h : P.word w = .long o value) :
    (value = none ∧ ∃ n, Names P n o ∧ w = '-' :: '-' :: n) ∨
    ∃ v, value = some v ∧ (o.takes = true → ∃ n, Names P n o ∧ w = '-' :: '-' :: (n ++ '=' :: v)) := by
  rcases word_shape w with hw | ⟨t, rfl⟩ | ⟨c, t, hc, rfl⟩
  · rw [word_other P w hw] at h; cases h
  · by_cases ht : t = []
    · subst ht
      unfold Program.word at h
      simp at h
    · rw [word_dashes P t ht] at h
      split at h
      · rcases noOption_cases ('-' :: '-' :: t) with hn | hn <;> rw [hn] at h <;> cases h
      · rename_i o' hn
        cases h
        rcases split_eqSign t with ⟨h1, h2⟩ | ⟨v, h1, h2, h3⟩
        · left
          rw [h2] at hn
          exact ⟨if_neg h1, t, byName_one hP ht hn, rfl⟩
        · right
          refine ⟨v, by rw [if_pos h1, h2], fun htake => ⟨t.takeWhile (fun c => c != '='), ?_, by rw [← h3]⟩⟩
          apply byName_one hP _ hn
          intro h0
          rw [h0] at hn
          rw [byName_empty hP hn] at htake
          cases htake
      · cases h
  · rw [word_letter P c t hc] at h
    split at h
    · cases h
    · split at h
      · cases h
      · rcases noOption_cases ('-' :: c :: t) with hn | hn <;> rw [hn] at h <;> cases h

theorem word_short {P : Program} (hP : SoundProgram P) {w : Str} {o : OptDef} {rest : Str} (h : P.word w = .short o rest) :
    ∃ c, c ≠ '-' ∧ c ≠ '=' ∧ w = '-' :: c :: rest ∧ o ∈ P.all ∧ o.letter = some c := by
  rcases word_shape w with hw | ⟨t, rfl⟩ | ⟨c, t, hc, rfl⟩
  · rw [word_other P w hw] at h; cases h
  · by_cases ht : t = []
    · subst ht
      unfold Program.word at h
      simp at h
    · rw [word_dashes P t ht] at h
      split at h
      · rcases noOption_cases ('-' :: '-' :: t) with hn | hn <;> rw [hn] at h <;> cases h
      · cases h
      · cases h
  · rw [word_letter P c t hc] at h
    split at h
    · cases h
    · rename_i hce
      split at h
      · rename_i o' hl
        cases h
        exact ⟨c, hc, hce, rfl, (byLetter_iff hP c o).1 hl⟩
      · rcases noOption_cases ('-' :: c :: t) with hn | hn <;> rw [hn] at h <;> cases h

theorem word_names {P : Program} (hP : SoundProgram P) {n : Str} {o : OptDef} (h : Names P n o) : P.word ('-' :: '-' :: n) = .long o none := by
  rw [word_dashes P n h.1]
  have hq := names_eqSign hP h
  rcases split_eqSign n with ⟨_, h2⟩ | ⟨v, h1, _⟩
  · rw [h2, byName_names hP h]
    simp only [if_neg hq]
  · exact absurd h1 hq

theorem word_namesEq {P : Program} (hP : SoundProgram P) {n v : Str} {o : OptDef} (h : Names P n o) :
    P.word ('-' :: '-' :: (n ++ '=' :: v)) = .long o (some v) := by
  rw [word_dashes P _ (by simp)]
  have hq := names_eqSign hP h
  have e1 : (n ++ '=' :: v).takeWhile (fun c => c != '=') = n := by
    rw [List.takeWhile_append_of_pos (by intro c hc; simp only [bne_iff_ne, ne_eq]; rintro rfl; exact hq hc)]
    simp
  have e2 : (n ++ '=' :: v).dropWhile (fun c => c != '=') = '=' :: v := by
    rw [List.dropWhile_append_of_pos (by intro c hc; simp only [bne_iff_ne, ne_eq]; rintro rfl; exact hq hc)]
    simp
  rw [e1, byName_names hP h, e2]
  simp

/-! ### a word of letters -/

/-- what a word of letters and the words after it write -/
def GroupOf (P : Program) (o : OptDef) (s : Str) (us : List (OptDef × Str)) (ws : List Str) : Prop :=
  ((P.group o s).2 = .done ∧ (P.group o s).1 = us ∧ ws = []) ∨
  ∃ o' v, (P.group o s).2 = .wants o' ∧ us = (P.group o s).1 ++ [(o', v)] ∧ ws = [v] ∧ PlainFor P v

theorem wrote_group {P : Program} (hP : SoundProgram P) {us : List (OptDef × Str)} {ws : List Str} (h : Wrote P us ws) :
    ∀ (c : Char) (s : Str) (ws' : List Str), ws = ('-' :: c :: s) :: ws' → c ≠ '-' →
      ∃ o, o ∈ P.all ∧ o.letter = some c ∧ GroupOf P o s us ws' := by
  induction h with
  | longFlag o n h1 h2 => intro c s ws' e hc; exact absurd (List.cons.inj (List.cons.inj (List.cons.inj e).1).2).1.symm hc
  | longEq o n v h1 h2 => intro c s ws' e hc; exact absurd (List.cons.inj (List.cons.inj (List.cons.inj e).1).2).1.symm hc
  | longNext o n v h1 h2 h3 => intro c s ws' e hc; exact absurd (List.cons.inj (List.cons.inj (List.cons.inj e).1).2).1.symm hc
  | letterFlag o c h1 h2 h3 =>
    intro c' s ws' e hc
    obtain ⟨e1, e2⟩ := List.cons.inj e
    obtain ⟨e3, e4⟩ := List.cons.inj (List.cons.inj e1).2
    subst e3; subst e4; subst e2
    refine ⟨o, h1, h2, .inl ?_⟩
    unfold Program.group
    simp [h3]
  | letterEq o c v h1 h2 h3 =>
    intro c' s ws' e hc
    obtain ⟨e1, e2⟩ := List.cons.inj e
    obtain ⟨e3, e4⟩ := List.cons.inj (List.cons.inj e1).2
    subst e3; subst e4; subst e2
    refine ⟨o, h1, h2, .inl ?_⟩
    unfold Program.group
    simp [h3]
  | letterWith o c v h1 h2 h3 h4 h5 =>
    intro c' s ws' e hc
    obtain ⟨e1, e2⟩ := List.cons.inj e
    obtain ⟨e3, e4⟩ := List.cons.inj (List.cons.inj e1).2
    subst e3; subst e4; subst e2
    refine ⟨o, h1, h2, .inl ?_⟩
    cases v with
    | nil => exact absurd rfl h4
    | cons d v =>
      have hd : d ≠ '=' := by intro h; subst h; simp at h5
      unfold Program.group
      simp [h3, hd]
  | letterNext o c v h1 h2 h3 h4 =>
    intro c' s ws' e hc
    obtain ⟨e1, e2⟩ := List.cons.inj e
    obtain ⟨e3, e4⟩ := List.cons.inj (List.cons.inj e1).2
    subst e3; subst e4; subst e2
    refine ⟨o, h1, h2, .inr ⟨o, v, ?_⟩⟩
    unfold Program.group
    simp [h3, h4]
  | together o c us c' s ws h1 h2 h3 h4 h5 ih =>
    intro c0 s0 ws' e hc
    obtain ⟨e1, e2⟩ := List.cons.inj e
    obtain ⟨e3, e4⟩ := List.cons.inj (List.cons.inj e1).2
    subst e3; subst e4; subst e2
    refine ⟨o, h1, h2, ?_⟩
    obtain ⟨o', g1, g2, g3⟩ := ih c' s ws rfl h4
    have hl := (byLetter_iff hP c' o').2 ⟨g1, g2⟩
    have hq : c' ≠ '=' := by rintro rfl; exact (hP.plain o' g1).2.2.1 g2
    have hg : P.group o (c' :: s) = ((o, []) :: (P.group o' s).1, (P.group o' s).2) := by
      conv_lhs => unfold Program.group
      simp [h3, h4, hq, hl]
    unfold GroupOf
    rw [hg]
    rcases g3 with ⟨g3, g4, g5⟩ | ⟨o'', v, g3, g4, g5, g6⟩
    · exact .inl ⟨g3, by rw [← g4], g5⟩
    · exact .inr ⟨o'', v, g3, by rw [g4]; rfl, g5, g6⟩

theorem group_wrote {P : Program} (hP : SoundProgram P) : ∀ (s : Str) (c : Char) (o : OptDef) (us : List (OptDef × Str)) (ws : List Str),
    c ≠ '-' → o ∈ P.all → o.letter = some c → GroupOf P o s us ws → Wrote P us (('-' :: c :: s) :: ws)
  | [], c, o, us, ws, hc, h1, h2, h => by
    unfold GroupOf Program.group at h
    cases ht : o.takes with
    | false =>
      simp only [ht, Bool.false_eq_true, if_false] at h
      rcases h with ⟨_, h3, h4⟩ | ⟨_, _, h3, _⟩
      · subst h3; subst h4
        exact .letterFlag o c h1 h2 ht
      · cases h3
    | true =>
      simp only [ht, if_true] at h
      rcases h with ⟨h3, _⟩ | ⟨o', v, h3, h4, h5, h6⟩
      · cases h3
      · cases h3
        subst h4; subst h5
        exact .letterNext o c v h1 h2 ht h6
  | d :: s, c, o, us, ws, hc, h1, h2, h => by
    cases ht : o.takes with
    | true =>
      unfold GroupOf Program.group at h
      simp only [ht, if_true] at h
      rcases h with ⟨_, h3, h4⟩ | ⟨_, _, h3, _⟩
      · subst h3; subst h4
        by_cases hd : d = '='
        · subst hd
          rw [if_pos rfl]
          exact .letterEq o c s h1 h2 ht
        · rw [if_neg hd]
          exact .letterWith o c (d :: s) h1 h2 ht (by simp) (by simp [hd])
      · cases h3
    | false =>
      by_cases hd : d = '=' ∨ d = '-'
      · unfold GroupOf Program.group at h
        simp only [ht, Bool.false_eq_true, if_false, if_pos hd] at h
        rcases h with ⟨h3, _⟩ | ⟨_, _, h3, _⟩
        · cases h3
        · cases h3
      · cases hl : P.byLetter d with
        | none =>
          unfold GroupOf Program.group at h
          simp only [ht, Bool.false_eq_true, if_false, if_neg hd, hl] at h
          rcases h with ⟨h3, _⟩ | ⟨_, _, h3, _⟩
          · cases h3
          · cases h3
        | some o' =>
          have hg : P.group o (d :: s) = ((o, []) :: (P.group o' s).1, (P.group o' s).2) := by
            conv_lhs => unfold Program.group
            simp only [ht, Bool.false_eq_true, if_false, if_neg hd, hl]
          unfold GroupOf at h
          rw [hg] at h
          obtain ⟨g1, g2⟩ := (byLetter_iff hP d o').1 hl
          have hd' : d ≠ '-' := fun e => hd (.inr e)
          rcases h with ⟨h3, h4, h5⟩ | ⟨o'', v, h3, h4, h5, h6⟩
          · simp only at h3 h4
            subst h4
            exact .together o c _ d s ws h1 h2 ht hd' (group_wrote hP s d o' _ ws hd' g1 g2 (.inl ⟨h3, rfl, h5⟩))
          · simp only at h3 h4
            subst h4
            exact .together o c _ d s ws h1 h2 ht hd' (group_wrote hP s d o' _ ws hd' g1 g2 (.inr ⟨o'', v, h3, rfl, h5, h6⟩))

/-! ### one pass of the loop -/

theorem takeNext_uses {P : Program} {us us' : List (OptDef × Str)} {o : OptDef} {t t' : List Str} :
    P.takeNext us o t = (.uses us', t') ↔ ∃ v, t = v :: t' ∧ PlainFor P v ∧ us' = us ++ [(o, v)] := by
  unfold Program.takeNext
  cases t with
  | nil => simp
  | cons v t =>
    by_cases hv : P.word v = .plain
    · simp only [if_pos hv, Prod.mk.injEq, OptStep.uses.injEq]
      constructor
      · rintro ⟨rfl, rfl⟩
        exact ⟨v, rfl, (word_plain P v).1 hv, rfl⟩
      · rintro ⟨v', h1, _, h3⟩
        obtain ⟨e1, e2⟩ := List.cons.inj h1
        subst e1
        exact ⟨h3.symm, e2⟩
    · simp only [if_neg hv, Prod.mk.injEq, reduceCtorEq, false_and, false_iff]
      rintro ⟨v', h1, h2, _⟩
      obtain ⟨e1, e2⟩ := List.cons.inj h1
      subst e1
      exact hv ((word_plain P v).2 h2)

theorem takeNext_cases (P : Program) (us : List (OptDef × Str)) (o : OptDef) (t : List Str) :
    (∃ us' t', P.takeNext us o t = (.uses us', t') ∧ t'.length ≤ t.length) ∨ P.takeNext us o t = (.bad, t) := by
  unfold Program.takeNext
  cases t with
  | nil => exact .inr rfl
  | cons v t =>
    simp only
    split
    · exact .inl ⟨_, _, rfl, by simp⟩
    · exact .inr rfl

theorem step_file {P : Program} {w f : Str} {t t' : List Str} : P.step w t = (.file f, t') ↔ f = w ∧ t' = t ∧ PlainFor P w := by
  have nofile : ∀ us o, P.takeNext us o t ≠ (.file f, t') := by
    intro us o h
    rcases takeNext_cases P us o t with ⟨us', t'', h', _⟩ | h'
    · rw [h'] at h; simp at h
    · rw [h'] at h; simp at h
  constructor
  · intro h
    unfold Program.step at h
    split at h
    · rename_i hw
      simp only [Prod.mk.injEq, OptStep.file.injEq] at h
      exact ⟨h.1.symm, h.2.symm, (word_plain P w).1 hw⟩
    · simp at h
    · simp at h
    · split at h
      · simp at h
      · exact absurd h (nofile _ _)
      · simp at h
      · simp at h
    · split at h
      · simp at h
      · simp at h
      · exact absurd h (nofile _ _)
      · simp at h
  · rintro ⟨rfl, rfl, h⟩
    unfold Program.step
    rw [(word_plain P f).2 h]

theorem step_uses {P : Program} (hP : SoundProgram P) {w : Str} {t t' : List Str} {us : List (OptDef × Str)} :
    P.step w t = (.uses us, t') ↔ ∃ ws, w :: t = ws ++ t' ∧ Wrote P us ws := by
  constructor
  · intro h
    unfold Program.step at h
    split at h
    · simp at h
    · simp at h
    · simp at h
    · rename_i o value hw
      rcases word_long hP hw with ⟨rfl, n, hn, rfl⟩ | ⟨v, rfl, hn⟩
      · cases ht : o.takes with
        | true =>
          simp only [ht] at h
          obtain ⟨v, rfl, h2, h3⟩ := takeNext_uses.1 h
          exact ⟨['-' :: '-' :: n, v], rfl, h3 ▸ .longNext o n v hn ht h2⟩
        | false =>
          simp only [ht, Prod.mk.injEq, OptStep.uses.injEq] at h
          obtain ⟨rfl, rfl⟩ := h
          exact ⟨['-' :: '-' :: n], rfl, .longFlag o n hn ht⟩
      · cases ht : o.takes with
        | true =>
          simp only [ht, Prod.mk.injEq, OptStep.uses.injEq] at h
          obtain ⟨rfl, rfl⟩ := h
          obtain ⟨n, hn', rfl⟩ := hn ht
          exact ⟨['-' :: '-' :: (n ++ '=' :: v)], rfl, .longEq o n v hn' ht⟩
        | false =>
          simp only [ht, Prod.mk.injEq] at h
          simp at h
    · rename_i o rest hw
      obtain ⟨c, hc, _, rfl, h1, h2⟩ := word_short hP hw
      have key : ∀ ws, GroupOf P o rest us ws → Wrote P us (('-' :: c :: rest) :: ws) := fun ws hg => group_wrote hP rest c o us ws hc h1 h2 hg
      split at h
      · rename_i hg
        simp only [Prod.mk.injEq, OptStep.uses.injEq] at h
        obtain ⟨h3, rfl⟩ := h
        exact ⟨[_], rfl, key [] (.inl ⟨hg, h3, rfl⟩)⟩
      · simp at h
      · rename_i o' hg
        obtain ⟨v, rfl, h3, h4⟩ := takeNext_uses.1 h
        exact ⟨[_, v], rfl, key [v] (.inr ⟨o', v, hg, h4, rfl, h3⟩)⟩
      · simp at h
  · rintro ⟨ws, h1, h2⟩
    have hword : ∀ (c : Char) (o : OptDef) (s : Str), o ∈ P.all → o.letter = some c → P.word ('-' :: c :: s) = .short o s := by
      intro c o s g1 g2
      have hc : c ≠ '-' := by rintro rfl; exact (hP.plain o g1).2.2.2 g2
      have hq : c ≠ '=' := by rintro rfl; exact (hP.plain o g1).2.2.1 g2
      rw [word_letter P c s hc, if_neg hq, (byLetter_iff hP c o).2 ⟨g1, g2⟩]
    have short : ∀ (c : Char) (s : Str) (ws' : List Str), ws = ('-' :: c :: s) :: ws' → c ≠ '-' → P.step w t = (.uses us, t') := by
      intro c s ws' e hc
      obtain ⟨o, g1, g2, g3⟩ := wrote_group hP h2 c s ws' e hc
      subst e
      obtain ⟨e1, e2⟩ := List.cons.inj h1
      subst e1
      unfold Program.step
      rw [hword c o s g1 g2]
      rcases g3 with ⟨g3, g4, g5⟩ | ⟨o', v, g3, g4, g5, g6⟩
      · subst g5
        simp only [g3, g4]
        rw [e2]
        rfl
      · subst g5
        simp only [g3]
        exact takeNext_uses.2 ⟨v, e2, g6, g4⟩
    have hletter : ∀ (c : Char) (o : OptDef), o ∈ P.all → o.letter = some c → c ≠ '-' := by
      rintro c o g1 g2 rfl
      exact (hP.plain o g1).2.2.2 g2
    cases h2 with
    | longFlag o n hn ht =>
      obtain ⟨e1, e2⟩ := List.cons.inj h1
      subst e1
      unfold Program.step
      rw [word_names hP hn]
      simp only [ht]
      rw [e2]
      rfl
    | longEq o n v hn ht =>
      obtain ⟨e1, e2⟩ := List.cons.inj h1
      subst e1
      unfold Program.step
      rw [word_namesEq hP hn]
      simp only [ht]
      rw [e2]
      rfl
    | longNext o n v hn ht hv =>
      obtain ⟨e1, e2⟩ := List.cons.inj h1
      subst e1
      unfold Program.step
      rw [word_names hP hn]
      simp only [ht]
      exact takeNext_uses.2 ⟨v, e2, hv, rfl⟩
    | letterFlag o c g1 g2 g3 => exact short c _ _ rfl (hletter c o g1 g2)
    | letterEq o c v g1 g2 g3 => exact short c _ _ rfl (hletter c o g1 g2)
    | letterWith o c v g1 g2 g3 => exact short c _ _ rfl (hletter c o g1 g2)
    | letterNext o c v g1 g2 g3 => exact short c _ _ rfl (hletter c o g1 g2)
    | together o c us' c' s ws' g1 g2 g3 g4 g5 => exact short c _ _ rfl (hletter c o g1 g2)

theorem step_shorter (P : Program) (w : Str) (t : List Str) : (P.step w t).2.length ≤ t.length := by
  have hn : ∀ us o, (P.takeNext us o t).2.length ≤ t.length := by
    intro us o
    rcases takeNext_cases P us o t with ⟨us', t', h, h'⟩ | h
    · rw [h]; exact h'
    · rw [h]
  unfold Program.step
  split
  · exact Nat.le_refl _
  · exact Nat.le_refl _
  · exact Nat.le_refl _
  · split
    · exact Nat.le_refl _
    · exact hn _ _
    · exact Nat.le_refl _
    · exact Nat.le_refl _
  · split
    · exact Nat.le_refl _
    · exact Nat.le_refl _
    · exact hn _ _
    · exact Nat.le_refl _

/-! ### the loop -/

theorem scan_fuel (P : Program) : ∀ (m : Nat) (argv : List Str) (st : ScanState), argv.length ≤ m → P.scan m argv st = P.scan argv.length argv st
  | m, [], st, _ => by cases m <;> rfl
  | 0, w :: t, st, h => by simp at h
  | m + 1, w :: t, st, h => by
    simp only [List.length_cons, Nat.add_le_add_iff_right] at h
    have hs := step_shorter P w t
    have key : ∀ (t' : List Str) (st' : ScanState), t'.length ≤ t.length → P.scan m t' st' = P.scan t.length t' st' := by
      intro t' st' ht
      rw [scan_fuel P m t' st' (by omega)]
      by_cases hm : t.length = m
      · subst hm; rw [scan_fuel P t.length t' st' ht]
      · have : t.length < m := by omega
        rw [scan_fuel P t.length t' st' ht]
    rw [List.length_cons]
    unfold Program.scan
    cases hst : P.step w t with
    | mk s t' =>
      rw [hst] at hs
      simp only at hs
      cases s with
      | bad => rfl
      | file f => exact key _ _ hs
      | uses us =>
        simp only
        cases takeUses us with
        | error e => rfl
        | ok _ => exact key _ _ hs
      | extra us =>
        simp only
        cases takeUses us with
        | error e => rfl
        | ok _ => exact key _ _ hs
  termination_by m => m

/-- the loop, with as many passes as there are words -/
def scanAll (P : Program) (argv : List Str) (st : ScanState) : Except ArgStop ScanState := P.scan argv.length argv st

theorem scanAll_cons (P : Program) (w : Str) (t : List Str) (st : ScanState) : scanAll P (w :: t) st =
    match P.step w t with
    | (.bad, _) => .error .usage
    | (.file f, t') => scanAll P t' (P.addFile st f)
    | (.uses us, t') =>
      match takeUses us with
      | .error e => .error e
      | .ok () => scanAll P t' { st with isOpen := false, uses := st.uses ++ us }
    | (.extra us, t') =>
      match takeUses us with
      | .error e => .error e
      | .ok () => scanAll P t' { st with isOpen := false, extra := true, uses := st.uses ++ us } := by
  have hs := step_shorter P w t
  unfold scanAll
  rw [List.length_cons]
  conv_lhs => unfold Program.scan
  cases hst : P.step w t with
  | mk s t' =>
    rw [hst] at hs
    simp only at hs
    cases s with
    | bad => rfl
    | file f => exact scan_fuel P _ _ _ hs
    | uses us =>
      simp only
      cases takeUses us with
      | error e => rfl
      | ok _ => exact scan_fuel P _ _ _ hs
    | extra us =>
      simp only
      cases takeUses us with
      | error e => rfl
      | ok _ => exact scan_fuel P _ _ _ hs

theorem takeUses_ok (us : List (OptDef × Str)) : takeUses us = .ok () ↔ Acceptable us := by
  unfold Acceptable
  induction us with
  | nil => simp [takeUses]
  | cons u us ih =>
    obtain ⟨o, v⟩ := u
    unfold takeUses
    by_cases ho : o = helpOpt
    · simp [ho]
    · simp only [if_neg ho, List.forall_mem_cons]
      cases hc : o.choices with
      | none => simp only [ih]; simp [ho]
      | some l =>
        by_cases hv : v ∈ l
        · simp only [if_pos hv, ih]; simp [ho, hv]
        · simp [if_neg hv, hv]

theorem wrote_ne {P : Program} {us : List (OptDef × Str)} {ws : List Str} (h : Wrote P us ws) : ws ≠ [] := by
  cases h <;> simp

theorem scanAll_opts {P : Program} (hP : SoundProgram P) {us : List (OptDef × Str)} {ws : List Str} (h : Wrote P us ws) (ha : Acceptable us) (t : List Str)
    (st : ScanState) : scanAll P (ws ++ t) st = scanAll P t { st with isOpen := false, uses := st.uses ++ us } := by
  cases hws : ws with
  | nil => exact absurd hws (wrote_ne h)
  | cons w ws' =>
    have hs : P.step w (ws' ++ t) = (.uses us, t) := (step_uses hP).2 ⟨ws, by rw [hws]; rfl, h⟩
    rw [List.cons_append, scanAll_cons, hs]
    simp only [(takeUses_ok us).2 ha]

theorem scanAll_file {P : Program} {f : Str} (h : PlainFor P f) (t : List Str) (st : ScanState) : scanAll P (f :: t) st = scanAll P t (P.addFile st f) := by
  rw [scanAll_cons, step_file.2 ⟨rfl, rfl, h⟩]

theorem acceptable_append {us us' : List (OptDef × Str)} : Acceptable (us ++ us') ↔ Acceptable us ∧ Acceptable us' := by
  unfold Acceptable
  simp only [List.mem_append]
  constructor
  · intro h
    exact ⟨fun u hu => h u (.inl hu), fun u hu => h u (.inr hu)⟩
  · rintro ⟨h1, h2⟩ u (hu | hu)
    · exact h1 u hu
    · exact h2 u hu

/-- programs with single arguments: a well-formed line is read -/
theorem scan_line {P : Program} (hP : SoundProgram P) {n : Nat} (hn : P.pos = .exactly n) {argv : List Str} {us : List (OptDef × Str)} {fs : List Str}
    (h : Line P argv us fs) : ∀ st : ScanState, Acceptable us → st.files.length + fs.length ≤ n →
      ∃ st', scanAll P argv st = .ok st' ∧ st'.extra = st.extra ∧ st'.files = st.files ++ fs ∧ st'.uses = st.uses ++ us := by
  induction h with
  | nil => intro st _ _; exact ⟨st, rfl, rfl, by simp, by simp⟩
  | opts us us' ws t fs hw _ ih =>
    intro st ha hl
    obtain ⟨a1, a2⟩ := acceptable_append.1 ha
    rw [scanAll_opts hP hw a1]
    obtain ⟨st', h1, h2, h3, h4⟩ := ih { st with isOpen := false, uses := st.uses ++ us } a2 hl
    exact ⟨st', h1, h2, h3, by rw [h4, List.append_assoc]⟩
  | file f t fs us hf _ ih =>
    intro st ha hl
    simp only [List.length_cons] at hl
    rw [scanAll_file hf]
    have e : P.addFile st f = { st with files := st.files ++ [f] } := by
      unfold Program.addFile
      rw [hn]
      simp only
      rw [if_pos (by omega)]
    rw [e]
    obtain ⟨st', h1, h2, h3, h4⟩ := ih { st with files := st.files ++ [f] } ha (by simp; omega)
    exact ⟨st', h1, h2, by rw [h3, List.append_assoc]; rfl, h4⟩

/-- a line that is read is well formed -/
theorem line_scan {P : Program} (hP : SoundProgram P) : ∀ (m : Nat) (argv : List Str) (st st' : ScanState), argv.length ≤ m →
    scanAll P argv st = .ok st' → st'.extra = false → st.extra = false ∧
      ∃ us fs, Line P argv us fs ∧ Acceptable us ∧ st'.files = st.files ++ fs ∧ st'.uses = st.uses ++ us
  | m, [], st, st', _, h, he => by
    cases h
    exact ⟨he, [], [], .nil, (fun u hu => by cases hu), by simp, by simp⟩
  | 0, w :: t, st, st', hm, _, _ => by simp at hm
  | m + 1, w :: t, st, st', hm, h, he => by
    simp only [List.length_cons, Nat.add_le_add_iff_right] at hm
    have hs := step_shorter P w t
    rw [scanAll_cons] at h
    cases hst : P.step w t with
    | mk s t' =>
      rw [hst] at h hs
      simp only at hs
      cases s with
      | bad => cases h
      | file f =>
        obtain ⟨e1, e2, e3⟩ := step_file.1 hst
        subst e1; subst e2
        obtain ⟨i1, us, fs, i2, i3, i4, i5⟩ := line_scan hP m _ _ _ (by omega) h he
        have hadd : st.extra = false ∧ (P.addFile st f).files = st.files ++ [f] ∧ (P.addFile st f).uses = st.uses := by
          unfold Program.addFile at i1 ⊢
          split at i1
          · split at i1
            · rename_i hlt
              rw [if_pos hlt]
              exact ⟨i1, rfl, rfl⟩
            · cases i1
          · split at i1
            · rename_i hlt
              rw [if_pos hlt]
              exact ⟨i1, rfl, rfl⟩
            · cases i1
        refine ⟨hadd.1, us, f :: fs, .file f _ fs us e3 i2, i3, ?_, ?_⟩
        · rw [i4, hadd.2.1, List.append_assoc]; rfl
        · rw [i5, hadd.2.2]
      | uses us =>
        obtain ⟨ws, e1, e2⟩ := (step_uses hP).1 hst
        simp only at h
        cases hu : takeUses us with
        | error e => rw [hu] at h; cases h
        | ok _ =>
          rw [hu] at h
          obtain ⟨i1, us', fs, i2, i3, i4, i5⟩ := line_scan hP m _ _ _ (by omega) h he
          refine ⟨i1, us ++ us', fs, e1 ▸ .opts us us' ws t' fs e2 i2, acceptable_append.2 ⟨(takeUses_ok us).1 hu, i3⟩, i4, ?_⟩
          rw [i5, List.append_assoc]
      | extra us =>
        simp only at h
        cases hu : takeUses us with
        | error e => rw [hu] at h; cases h
        | ok _ =>
          rw [hu] at h
          have := (line_scan hP m _ _ _ (by omega) h he).1
          cases this

/-- C110.  A program with `n` single arguments understands its command line exactly if it has `n` words besides its options, which are written in
one of the ways of `Wrote`, in any order, with values among the choices; and then it gets these words and options. -/
theorem C110_parse {P : Program} (hP : SoundProgram P) {n : Nat} (hn : P.pos = .exactly n) (argv fs : List Str) (us : List (OptDef × Str)) :
    P.parse argv = .ok (fs, us) ↔ Line P argv us fs ∧ fs.length = n ∧ Acceptable us := by
  unfold Program.parse
  change (match scanAll P argv {} with | .error e => _ | .ok st => _) = _ ↔ _
  constructor
  · intro h
    cases hs : scanAll P argv {} with
    | error e => rw [hs] at h; cases h
    | ok st =>
      rw [hs] at h
      simp only at h
      split at h
      · cases h
      · rename_i hx
        simp only [Except.ok.injEq, Prod.mk.injEq] at h
        have hx1 : st.extra = false := by
          cases he : st.extra with
          | true => exact absurd (.inl he) hx
          | false => rfl
        have hx2 : P.pos.enough st.files = true := by
          cases he : P.pos.enough st.files with
          | false => exact absurd (.inr he) hx
          | true => rfl
        obtain ⟨_, us', fs', h1, h2, h3, h4⟩ := line_scan hP _ argv {} st (Nat.le_refl _) hs hx1
        rw [hn] at hx2
        simp only [Positionals.enough, beq_iff_eq] at hx2
        simp only [List.nil_append] at h3 h4
        rw [h.1] at h3 hx2
        rw [h.2] at h4
        subst h3; subst h4
        exact ⟨h1, hx2, h2⟩
  · rintro ⟨h1, h2, h3⟩
    obtain ⟨st', g1, g2, g3, g4⟩ := scan_line hP hn h1 {} h3 (by simp [h2])
    rw [g1]
    simp only [List.nil_append] at g3 g4
    have : ¬ (st'.extra = true ∨ P.pos.enough st'.files = false) := by
      rw [g2, hn, g3]
      simp [Positionals.enough, h2]
    simp only [if_neg this]
    rw [g3, g4]

theorem addFile_list {P : Program} (hn : P.pos = .many ∨ P.pos = .any) (st : ScanState) (f : Str) : P.addFile st f =
    if st.isOpen = true ∨ st.files = [] then { st with files := st.files ++ [f], isOpen := true } else { st with extra := true } := by
  unfold Program.addFile
  rcases hn with hn | hn <;> rw [hn]

theorem scan_onlyOpts {P : Program} (hP : SoundProgram P) {ws : List Str} {us : List (OptDef × Str)} {fs : List Str} (h : Line P ws us fs) :
    ∀ (t : List Str) (st : ScanState), fs = [] → Acceptable us →
      ∃ b, scanAll P (ws ++ t) st = scanAll P t { st with isOpen := b, uses := st.uses ++ us } ∧ (st.isOpen = false → b = false) := by
  induction h with
  | nil => intro t st _ _; exact ⟨st.isOpen, by simp, fun h => h⟩
  | opts us us' ws t' fs hw _ ih =>
    intro t st hf ha
    obtain ⟨a1, a2⟩ := acceptable_append.1 ha
    rw [List.append_assoc, scanAll_opts hP hw a1]
    obtain ⟨b, h1, h2⟩ := ih t { st with isOpen := false, uses := st.uses ++ us } hf a2
    exact ⟨b, by rw [h1, List.append_assoc], fun _ => h2 rfl⟩
  | file f t' fs us _ _ _ => intro t st hf; cases hf

theorem scan_files {P : Program} (hn : P.pos = .many ∨ P.pos = .any) : ∀ (fs t : List Str) (st : ScanState), (∀ f ∈ fs, PlainFor P f) →
    (st.isOpen = true ∨ st.files = []) → ∃ b, scanAll P (fs ++ t) st = scanAll P t { st with isOpen := b, files := st.files ++ fs }
  | [], t, st, _, _ => ⟨st.isOpen, by simp⟩
  | f :: fs, t, st, hf, ho => by
    rw [List.cons_append, scanAll_file (hf f (by simp)), addFile_list hn, if_pos ho]
    obtain ⟨b, h⟩ := scan_files hn fs t { st with files := st.files ++ [f], isOpen := true } (fun x hx => hf x (by simp [hx])) (.inl rfl)
    exact ⟨b, by rw [h]; simp⟩

theorem line_append {P : Program} {ws ws' : List Str} {us us' : List (OptDef × Str)} {fs fs' : List Str} (h : Line P ws us fs) (h' : Line P ws' us' fs') :
    Line P (ws ++ ws') (us ++ us') (fs ++ fs') := by
  induction h with
  | nil => exact h'
  | opts u u' w t f hw _ ih => rw [List.append_assoc, List.append_assoc]; exact .opts u (u' ++ us') w (t ++ ws') _ hw ih
  | file f t fs us hf _ ih => exact .file f _ _ _ hf ih

theorem list_scan {P : Program} (hP : SoundProgram P) (hn : P.pos = .many ∨ P.pos = .any) : ∀ (m : Nat) (argv : List Str) (st st' : ScanState),
    argv.length ≤ m → (st.isOpen = true → st.files ≠ []) → scanAll P argv st = .ok st' → st'.extra = false → st.extra = false ∧
      ∃ ws₁ us₁ fs ws₂ us₂, argv = ws₁ ++ fs ++ ws₂ ∧ Line P ws₁ us₁ [] ∧ Line P ws₂ us₂ [] ∧ (∀ f ∈ fs, PlainFor P f) ∧ Acceptable (us₁ ++ us₂) ∧
        st'.files = st.files ++ fs ∧ st'.uses = st.uses ++ (us₁ ++ us₂) ∧
        (st.isOpen = true → ws₁ = [] ∧ us₁ = [] ∨ fs = []) ∧ (st.isOpen = false → st.files ≠ [] → fs = [])
  | m, [], st, st', _, _, h, he => by
    cases h
    exact ⟨he, [], [], [], [], [], rfl, .nil, .nil, (fun f hf => by cases hf), (fun u hu => by cases hu), by simp, by simp, (fun _ => .inr rfl), (fun _ _ => rfl)⟩
  | 0, w :: t, st, st', hm, _, _, _ => by simp at hm
  | m + 1, w :: t, st, st', hm, hi, h, he => by
    simp only [List.length_cons, Nat.add_le_add_iff_right] at hm
    have hs := step_shorter P w t
    rw [scanAll_cons] at h
    cases hst : P.step w t with
    | mk s t' =>
      rw [hst] at h hs
      simp only at hs
      cases s with
      | bad => cases h
      | file f =>
        obtain ⟨e1, e2, e3⟩ := step_file.1 hst
        subst e1; subst e2
        simp only [addFile_list hn] at h
        by_cases ho : st.isOpen = true ∨ st.files = []
        · rw [if_pos ho] at h
          obtain ⟨i1, ws₁, us₁, fs, ws₂, us₂, i2, i3, i4, i5, i6, i7, i8, i9, _⟩ := list_scan hP hn m _ _ _ (by omega) (by simp) h he
          refine ⟨i1, ?_⟩
          have hcl : st.isOpen = false → st.files ≠ [] → False := by
            intro h1 h2
            rcases ho with h | h
            · rw [h1] at h; cases h
            · exact h2 h
          rcases i9 rfl with ⟨j1, j2⟩ | j
          · subst j1; subst j2
            refine ⟨[], [], f :: fs, ws₂, us₂, by rw [i2]; rfl, .nil, i4, ?_, i6, by rw [i7, List.append_assoc]; rfl, i8, (fun _ => .inl ⟨rfl, rfl⟩),
              fun h1 h2 => (hcl h1 h2).elim⟩
            intro x hx
            rcases List.mem_cons.1 hx with rfl | hx
            · exact e3
            · exact i5 x hx
          · subst j
            refine ⟨[], [], [f], ws₁ ++ ws₂, us₁ ++ us₂, by rw [i2]; simp, .nil, line_append i3 i4, ?_, i6, by rw [i7]; simp, i8, (fun _ => .inl ⟨rfl, rfl⟩),
              fun h1 h2 => (hcl h1 h2).elim⟩
            intro x hx
            rw [List.mem_singleton.1 hx]
            exact e3
        · rw [if_neg ho] at h
          have := (list_scan hP hn m _ { st with extra := true } _ (by omega) hi h he).1
          cases this
      | uses us =>
        obtain ⟨ws, e1, e2⟩ := (step_uses hP).1 hst
        simp only at h
        cases hu : takeUses us with
        | error e => rw [hu] at h; cases h
        | ok _ =>
          rw [hu] at h
          obtain ⟨i1, ws₁, us₁, fs, ws₂, us₂, i2, i3, i4, i5, i6, i7, i8, _, i10⟩ := list_scan hP hn m _ _ _ (by omega) (by simp) h he
          refine ⟨i1, ws ++ ws₁, us ++ us₁, fs, ws₂, us₂, by rw [e1, i2]; simp, .opts us us₁ ws ws₁ [] e2 i3, i4, i5, ?_, i7, by rw [i8]; simp,
            fun h1 => .inr (i10 rfl (hi h1)), fun _ h2 => i10 rfl h2⟩
          rw [List.append_assoc]
          exact acceptable_append.2 ⟨(takeUses_ok us).1 hu, i6⟩
      | extra us =>
        simp only at h
        cases hu : takeUses us with
        | error e => rw [hu] at h; cases h
        | ok _ =>
          rw [hu] at h
          have := (list_scan hP hn m _ _ _ (by omega) (by simp) h he).1
          cases this

/-- C110, programs with a list of arguments: they must stand together, with options before and after them. -/
theorem C110_parse_list {P : Program} (hP : SoundProgram P) (hn : P.pos = .many ∨ P.pos = .any) (argv fs : List Str) (us : List (OptDef × Str)) :
    P.parse argv = .ok (fs, us) ↔
      ∃ ws₁ us₁ ws₂ us₂, argv = ws₁ ++ fs ++ ws₂ ∧ Line P ws₁ us₁ [] ∧ Line P ws₂ us₂ [] ∧ us = us₁ ++ us₂ ∧ (∀ f ∈ fs, PlainFor P f) ∧
        Acceptable us ∧ (P.pos = .many → fs ≠ []) := by
  unfold Program.parse
  change (match scanAll P argv {} with | .error e => _ | .ok st => _) = _ ↔ _
  have henough : ∀ l : List Str, P.pos.enough l = true ↔ (P.pos = .many → l ≠ []) := by
    intro l
    rcases hn with hn | hn <;> rw [hn] <;> simp [Positionals.enough]
  constructor
  · intro h
    cases hs : scanAll P argv {} with
    | error e => rw [hs] at h; cases h
    | ok st =>
      rw [hs] at h
      simp only at h
      split at h
      · cases h
      · rename_i hx
        simp only [Except.ok.injEq, Prod.mk.injEq] at h
        have hx1 : st.extra = false := by
          cases he : st.extra with
          | true => exact absurd (.inl he) hx
          | false => rfl
        have hx2 : P.pos.enough st.files = true := by
          cases he : P.pos.enough st.files with
          | false => exact absurd (.inr he) hx
          | true => rfl
        obtain ⟨_, ws₁, us₁, fs', ws₂, us₂, i2, i3, i4, i5, i6, i7, i8, _⟩ := list_scan hP hn _ argv {} st (Nat.le_refl _) (by simp) hs hx1
        simp only [List.nil_append] at i7 i8
        rw [h.1] at i7 hx2
        rw [h.2] at i8
        subst i7; subst i8
        exact ⟨ws₁, us₁, ws₂, us₂, i2, i3, i4, rfl, i5, i6, (henough _).1 hx2⟩
  · rintro ⟨ws₁, us₁, ws₂, us₂, rfl, h1, h2, rfl, h3, h4, h5⟩
    obtain ⟨a1, a2⟩ := acceptable_append.1 h4
    obtain ⟨b1, g1, g2⟩ := scan_onlyOpts hP h1 (fs ++ ws₂) {} rfl a1
    obtain ⟨b2, g3⟩ := scan_files hn fs ws₂ { isOpen := b1, uses := [] ++ us₁ } h3 (.inr rfl)
    obtain ⟨b3, g4, _⟩ := scan_onlyOpts hP h2 [] { isOpen := b2, files := [] ++ fs, uses := [] ++ us₁ } rfl a2
    rw [List.append_nil] at g4
    rw [List.append_assoc, g1, g3, g4]
    have : ¬ (false = true ∨ P.pos.enough ([] ++ fs) = false) := by
      rintro (h | h)
      · cases h
      · rw [List.nil_append, (henough _).2 h5] at h; cases h
    change (if false = true ∨ P.pos.enough ([] ++ fs) = false then _ else _) = _
    rw [if_neg this]
    simp

/-! ### the programs -/

/-- a test of what `SoundProgram` says -/
def soundTest (P : Program) : Bool :=
  P.all.all (fun o => P.all.all (fun o' => !o.name.isPrefixOf o'.name || o == o')) &&
  P.all.all (fun o => P.all.all (fun o' => o.letter == none || o.letter != o'.letter || o == o')) &&
  P.all.all (fun o => o.name != [] && !o.name.contains '=' && o.letter != some '=' && o.letter != some '-') &&
  decide P.all.Nodup

omit U in
theorem sound_of {P : Program} (h : soundTest P = true) : SoundProgram P := by
  unfold soundTest at h
  simp only [Bool.and_eq_true, List.all_eq_true, Bool.or_eq_true, Bool.not_eq_true', beq_iff_eq, bne_iff_ne, ne_eq, decide_eq_true_eq] at h
  obtain ⟨⟨⟨h1, h2⟩, h3⟩, h4⟩ := h
  refine ⟨fun o ho o' ho' hp => ?_, fun o ho o' ho' hl he => ?_, h4, fun o ho => ?_⟩
  · rcases h1 o ho o' ho' with h | h
    · rw [List.isPrefixOf_iff_prefix.2 hp] at h; cases h
    · exact h
  · rcases h2 o ho o' ho' with (h | h) | h
    · exact absurd h hl
    · exact absurd he h
    · exact h
  · obtain ⟨⟨⟨g1, g2⟩, g3⟩, g4⟩ := h3 o ho
    refine ⟨g1, fun hm => ?_, g3, g4⟩
    rw [List.contains_iff_mem.2 hm] at g2
    cases g2

omit U in
/-- the programs' options are as C110 wants them -/
theorem C110_sound : SoundProgram oneFile ∧ SoundProgram irvProgram ∧ SoundProgram copedotProgram ∧ SoundProgram coreProgram ∧
    SoundProgram sfProgram ∧ SoundProgram fetchProgram :=
  ⟨sound_of (by decide), sound_of (by decide), sound_of (by decide), sound_of (by decide), sound_of (by decide), sound_of (by decide)⟩

theorem wrote_opts {P : Program} {us : List (OptDef × Str)} {ws : List Str} (h : Wrote P us ws) : us ≠ [] ∧ ∀ u ∈ us, u.1 ∈ P.all := by
  induction h with
  | longFlag o n h1 h2 => exact ⟨by simp, by simpa using h1.2.1⟩
  | longEq o n v h1 h2 => exact ⟨by simp, by simpa using h1.2.1⟩
  | longNext o n v h1 h2 h3 => exact ⟨by simp, by simpa using h1.2.1⟩
  | letterFlag o c h1 => exact ⟨by simp, by simpa using h1⟩
  | letterEq o c v h1 => exact ⟨by simp, by simpa using h1⟩
  | letterWith o c v h1 => exact ⟨by simp, by simpa using h1⟩
  | letterNext o c v h1 => exact ⟨by simp, by simpa using h1⟩
  | together o c us c' s ws h1 _ _ _ _ ih =>
    refine ⟨by simp, ?_⟩
    intro u hu
    rcases List.mem_cons.1 hu with rfl | hu
    · exact h1
    · exact ih.2 u hu

theorem line_opts {P : Program} {argv fs : List Str} {us : List (OptDef × Str)} (h : Line P argv us fs) : (∀ u ∈ us, u.1 ∈ P.all) ∧ (∀ f ∈ fs, PlainFor P f) ∧
    (us = [] → argv = fs) := by
  induction h with
  | nil => exact ⟨by simp, by simp, fun _ => rfl⟩
  | opts us us' ws t fs hw _ ih =>
    refine ⟨?_, ih.2.1, ?_⟩
    · intro u hu
      rcases List.mem_append.1 hu with hu | hu
      · exact (wrote_opts hw).2 u hu
      · exact ih.1 u hu
    · intro h
      exact absurd (List.append_eq_nil_iff.1 h).1 (wrote_opts hw).1
  | file f t fs us hf _ ih =>
    refine ⟨ih.1, ?_, fun h => by rw [ih.2.2 h]⟩
    intro x hx
    rcases List.mem_cons.1 hx with rfl | hx
    · exact hf
    · exact ih.2.1 x hx

/-- C110.  The programs whose only argument is a file run exactly if the command line is one word that is no option, and then on the file of that
name. -/
theorem C110_onefile (main : Str → CliResult) (argv : List Str) (r : CliResult) :
    oneFileRun main argv = .ran r ↔ ∃ f, argv = [f] ∧ PlainFor oneFile f ∧ r = main f := by
  have key := C110_parse C110_sound.1 (P := oneFile) (n := 1) rfl argv
  unfold oneFileRun
  constructor
  · intro h
    split at h
    · cases h
    · rename_i f fs us hp
      obtain ⟨h1, h2, h3⟩ := (key _ _).1 hp
      obtain ⟨l1, l2, l3⟩ := line_opts h1
      have hus : us = [] := by
        cases us with
        | nil => rfl
        | cons u us =>
          have := l1 u (by simp)
          exact absurd (List.mem_singleton.1 this) (h3 u (by simp)).1
      have hfs : fs = [] := by simpa using h2
      subst hfs
      exact ⟨f, l3 hus, l2 f (by simp), (ArgvResult.ran.inj h).symm⟩
    · cases h
  · rintro ⟨f, rfl, h1, rfl⟩
    have : oneFile.parse [f] = .ok ([f], []) := (key _ _).2 ⟨.file f [] [] [] h1 .nil, rfl, fun u hu => by cases hu⟩
    rw [this]

/-- C110, irvtally: it runs exactly on command lines with one file and any number of ways to write `--json`, and prints JSON if there is one. -/
theorem C110_irv (env : CliEnv) (argv : List Str) (r : CliResult) :
    irvRun env argv = .ran r ↔ ∃ f us, Line irvProgram argv us [f] ∧ (∀ u ∈ us, u.1 = jsonOpt) ∧ r = irvMain env (decide (us ≠ [])) f := by
  have key := C110_parse C110_sound.2.1 (P := irvProgram) (n := 1) rfl argv
  have hflag : ∀ us : List (OptDef × Str), (∀ u ∈ us, u.1 = jsonOpt) → optFlag us jsonOpt = decide (us ≠ []) := by
    intro us hu
    cases us with
    | nil => rfl
    | cons u us =>
      unfold optFlag
      simp [hu u (by simp)]
  unfold irvRun
  constructor
  · intro h
    split at h
    · cases h
    · rename_i f fs us hp
      obtain ⟨h1, h2, h3⟩ := (key _ _).1 hp
      obtain ⟨l1, _, _⟩ := line_opts h1
      have hus : ∀ u ∈ us, u.1 = jsonOpt := by
        intro u hu
        rcases List.mem_cons.1 (l1 u hu) with h | h
        · exact absurd h (h3 u hu).1
        · exact List.mem_singleton.1 h
      have hfs : fs = [] := by simpa using h2
      subst hfs
      refine ⟨f, us, h1, hus, ?_⟩
      rw [← hflag us hus]
      exact (ArgvResult.ran.inj h).symm
    · cases h
  · rintro ⟨f, us, h1, h2, rfl⟩
    have : irvProgram.parse argv = .ok ([f], us) := by
      refine (key _ _).2 ⟨h1, rfl, ?_⟩
      intro u hu
      rw [h2 u hu]
      exact ⟨by decide, fun l hl => by cases hl⟩
    rw [this]
    simp only
    rw [hflag us h2]

/-- C110, copedot: what it gets is one file and, with `--outfmt`, the last format given, which is one it lists. -/
theorem C110_copedot (env : CliEnv) (argv : List Str) (r : CliResult) :
    copedotRun env argv = .ran r ↔ ∃ f us, Line copedotProgram argv us [f] ∧ (∀ u ∈ us, u.1 = outfmtOpt ∧ u.2 ∈ [c!"dot", c!"json", c!"svg"]) ∧
      r = copedotMain env ((us.map Prod.snd).getLast?.getD c!"svg") f := by
  have key := C110_parse C110_sound.2.2.1 (P := copedotProgram) (n := 1) rfl argv
  have hval : ∀ us : List (OptDef × Str), (∀ u ∈ us, u.1 = outfmtOpt) → optValue us outfmtOpt = (us.map Prod.snd).getLast? := by
    intro us hu
    unfold optValue
    rw [List.filter_eq_self.2]
    intro u h
    simp [hu u h]
  unfold copedotRun
  constructor
  · intro h
    split at h
    · cases h
    · rename_i f fs us hp
      obtain ⟨h1, h2, h3⟩ := (key _ _).1 hp
      obtain ⟨l1, _, _⟩ := line_opts h1
      have hus : ∀ u ∈ us, u.1 = outfmtOpt := by
        intro u hu
        rcases List.mem_cons.1 (l1 u hu) with h | h
        · exact absurd h (h3 u hu).1
        · exact List.mem_singleton.1 h
      have hfs : fs = [] := by simpa using h2
      subst hfs
      refine ⟨f, us, h1, fun u hu => ⟨hus u hu, ?_⟩, ?_⟩
      · exact (h3 u hu).2 _ (by rw [hus u hu]; rfl)
      · rw [← hval us hus]
        exact (ArgvResult.ran.inj h).symm
    · cases h
  · rintro ⟨f, us, h1, h2, rfl⟩
    have : copedotProgram.parse argv = .ok ([f], us) := by
      refine (key _ _).2 ⟨h1, rfl, ?_⟩
      intro u hu
      obtain ⟨g1, g2⟩ := h2 u hu
      rw [g1]
      exact ⟨by decide, fun l hl => by cases hl; exact g2⟩
    rw [this]
    simp only
    rw [hval us (fun u hu => (h2 u hu).1)]

/-- C110, fetchmgr: every fetchspec it processes is a word of its command line that is no value of `--abif` … -/
theorem C110_fetch {L : Type} [DecidableEq L] (P : PathSem L) (W : World L) (E : ConvEnv L) (load : Str → Except PyErr FetchSpec) (argv : List Str)
    (s : FetchState L) (r : Except PyErr Unit × FetchState L) : fetchRun P W E load argv s = .ok r ↔
      ∃ ws₁ us₁ fns ws₂ us₂, argv = ws₁ ++ fns ++ ws₂ ∧ Line fetchProgram ws₁ us₁ [] ∧ Line fetchProgram ws₂ us₂ [] ∧
        (∀ u ∈ us₁ ++ us₂, u.1 = abifOpt) ∧ (∀ f ∈ fns, PlainFor fetchProgram f) ∧ r = fetchMain P W E load fns s := by
  have key := C110_parse_list C110_sound.2.2.2.2.2 (P := fetchProgram) (.inr rfl) argv
  unfold fetchRun
  constructor
  · intro h
    split at h
    · cases h
    · rename_i fns us hp
      obtain ⟨ws₁, us₁, ws₂, us₂, h1, h2, h3, rfl, h5, h6, _⟩ := (key _ _).1 hp
      refine ⟨ws₁, us₁, fns, ws₂, us₂, h1, h2, h3, ?_, h5, (Except.ok.inj h).symm⟩
      intro u hu
      have hin : u.1 ∈ fetchProgram.all := by
        rcases List.mem_append.1 hu with h | h
        · exact (line_opts h2).1 u h
        · exact (line_opts h3).1 u h
      rcases List.mem_cons.1 hin with h | h
      · exact absurd h (h6 u hu).1
      · exact List.mem_singleton.1 h
  · rintro ⟨ws₁, us₁, fns, ws₂, us₂, h1, h2, h3, h4, h5, rfl⟩
    have : fetchProgram.parse argv = .ok (fns, us₁ ++ us₂) := by
      refine (key _ _).2 ⟨ws₁, us₁, ws₂, us₂, h1, h2, h3, rfl, h5, ?_, fun h => by cases h⟩
      intro u hu
      rw [h4 u hu]
      exact ⟨by decide, fun l hl => by cases hl⟩
    rw [this]

/-- … so that `--abif`, which the help text describes like a switch, swallows the fetchspec that follows it: `fetchmgr.py --abif f` (and `-a f`)
processes nothing and ends with status 1, for every `f`. -/
theorem C110_abif_refuted {L : Type} [DecidableEq L] (P : PathSem L) (W : World L) (E : ConvEnv L) (load : Str → Except PyErr FetchSpec) (f : Str)
    (hf : PlainFor fetchProgram f) (s : FetchState L) :
    fetchRun P W E load [c!"--abif", f] s = .ok (.error .systemExit, s) ∧ fetchRun P W E load [c!"-a", f] s = .ok (.error .systemExit, s) := by
  constructor
  · refine (C110_fetch P W E load _ s _).2 ⟨[c!"--abif", f], [(abifOpt, f)], [], [], [], rfl, ?_, .nil, by simp, by simp, rfl⟩
    exact .opts [(abifOpt, f)] [] [c!"--abif", f] [] [] (.longNext abifOpt c!"abif" f ⟨by decide, by decide, by decide, by decide⟩ rfl hf) .nil
  · refine (C110_fetch P W E load _ s _).2 ⟨[c!"-a", f], [(abifOpt, f)], [], [], [], rfl, ?_, .nil, by simp, by simp, rfl⟩
    exact .opts [(abifOpt, f)] [] [c!"-a", f] [] [] (.letterNext abifOpt 'a' f (by decide) rfl rfl hf) .nil

/-- C110, sftxt: the two words that are no options are the lookup file and the image file, in this order; the last value of an option counts. -/
theorem C110_sf (argv fs : List Str) (us : List (OptDef × Str)) (h : sfProgram.parse argv = .ok (fs, us)) :
    ∃ lookup image, fs = [lookup, image] ∧ Line sfProgram argv us [lookup, image] ∧ (sfArgsOf us).imagelines = decide (imagelinesOpt ∈ us.map Prod.fst) ∧
      (sfArgsOf us).consolidate = decide (consolidateOpt ∈ us.map Prod.fst) ∧
      (∀ pre v post, us = pre ++ (contestidOpt, v) :: post → contestidOpt ∉ post.map Prod.fst → (sfArgsOf us).contest = some v) ∧
      (contestidOpt ∉ us.map Prod.fst → (sfArgsOf us).contest = none) ∧
      (∀ pre v post, us = pre ++ (outputformatOpt, v) :: post → outputformatOpt ∉ post.map Prod.fst → (sfArgsOf us).fmt = v) ∧
      (outputformatOpt ∉ us.map Prod.fst → (sfArgsOf us).fmt = c!"json") ∧
      (∀ pre v post, us = pre ++ (outfileOpt, v) :: post → outfileOpt ∉ post.map Prod.fst → (sfArgsOf us).outfile = decide (v ≠ [])) ∧
      (outfileOpt ∉ us.map Prod.fst → (sfArgsOf us).outfile = false) := by
  obtain ⟨h1, h2, _⟩ := (C110_parse C110_sound.2.2.2.2.1 (P := sfProgram) (n := 2) rfl argv fs us).1 h
  have hflag : ∀ o, optFlag us o = decide (o ∈ us.map Prod.fst) := by
    intro o
    unfold optFlag
    rw [Bool.eq_iff_iff]
    simp only [List.any_eq_true, beq_iff_eq, decide_eq_true_eq, List.mem_map]
  have hnone : ∀ (l : List (OptDef × Str)) (o : OptDef), o ∉ l.map Prod.fst → l.filter (fun u => u.1 == o) = [] := by
    intro l o ho
    rw [List.filter_eq_nil_iff]
    intro u hu
    simp only [beq_iff_eq]
    rintro rfl
    exact ho (List.mem_map_of_mem hu)
  have hval : ∀ o pre v post, us = pre ++ (o, v) :: post → o ∉ post.map Prod.fst → optValue us o = some v := by
    intro o pre v post e hp
    unfold optValue
    rw [e, List.filter_append, List.filter_cons_of_pos (by simp), hnone post o hp]
    simp
  have habs : ∀ o, o ∉ us.map Prod.fst → optValue us o = none := by
    intro o ho
    unfold optValue
    rw [hnone us o ho]
    rfl
  match fs, h2 with
  | [lookup, image], _ =>
    refine ⟨lookup, image, rfl, h1, hflag _, hflag _, fun pre v post e hp => hval _ pre v post e hp, fun ha => habs _ ha, ?_, ?_, ?_, ?_⟩
    · intro pre v post e hp
      show (optValue us outputformatOpt).getD _ = v
      rw [hval _ pre v post e hp]
      rfl
    · intro ha
      show (optValue us outputformatOpt).getD _ = _
      rw [habs _ ha]
      rfl
    · intro pre v post e hp
      show (match optValue us outfileOpt with | some (_ :: _) => true | _ => false) = _
      rw [hval _ pre v post e hp]
      cases v with
      | nil => rfl
      | cons c v => simp
    · intro ha
      show (match optValue us outfileOpt with | some (_ :: _) => true | _ => false) = _
      rw [habs _ ha]

theorem scan_any {P : Program} (hP : SoundProgram P) {ws : List Str} {us : List (OptDef × Str)} {fs : List Str} (h : Line P ws us fs) :
    ∀ (t : List Str) (st : ScanState), Acceptable us → ∃ st', scanAll P (ws ++ t) st = scanAll P t st' := by
  induction h with
  | nil => intro t st _; exact ⟨st, rfl⟩
  | opts us us' ws t' fs hw _ ih =>
    intro t st ha
    obtain ⟨a1, a2⟩ := acceptable_append.1 ha
    rw [List.append_assoc, scanAll_opts hP hw a1]
    exact ih t _ a2
  | file f t' fs us hf _ ih =>
    intro t st ha
    rw [List.cons_append, scanAll_file hf]
    exact ih t _ ha

/-- C110, help: `-h`, `--help` or a beginning of it that is no beginning of another option shows the help text, if the words in front of it are
arguments and acceptable options, whatever follows. -/
theorem C110_help {P : Program} (hP : SoundProgram P) {ws fs : List Str} {us : List (OptDef × Str)} (h : Line P ws us fs) (ha : Acceptable us) (w : Str)
    (hw : w = c!"-h" ∨ ∃ n, Names P n helpOpt ∧ w = '-' :: '-' :: n) (rest : List Str) : P.parse (ws ++ w :: rest) = .error .help := by
  have hwr : Wrote P [(helpOpt, [])] [w] := by
    rcases hw with rfl | ⟨n, hn, rfl⟩
    · exact .letterFlag helpOpt 'h' (by simp [Program.all]) rfl rfl
    · exact .longFlag helpOpt n hn rfl
  obtain ⟨st', hs⟩ := scan_any hP h (w :: rest) {} ha
  have he : scanAll P (w :: rest) st' = .error .help := by
    rw [scanAll_cons, (step_uses (w := w) (t := rest) (t' := rest) hP).2 ⟨[w], rfl, hwr⟩]
    rfl
  unfold Program.parse
  change (match scanAll P (ws ++ w :: rest) {} with | .error e => _ | .ok st => _) = _
  rw [hs, he]

/-- C110, what is refused: whatever else is on a command line, it ends with the usage message or the help text, and the program does not run. -/
theorem C110_refused (main : Str → CliResult) (env : CliEnv) (argv : List Str) :
    (¬ (∃ f, argv = [f] ∧ PlainFor oneFile f) → ∃ e, oneFileRun main argv = .stopped e) ∧
    (¬ (∃ f us, Line irvProgram argv us [f] ∧ ∀ u ∈ us, u.1 = jsonOpt) → ∃ e, irvRun env argv = .stopped e) := by
  constructor
  · intro h
    cases hr : oneFileRun main argv with
    | stopped e => exact ⟨e, rfl⟩
    | ran r =>
      obtain ⟨f, h1, h2, _⟩ := (C110_onefile main argv r).1 hr
      exact absurd ⟨f, h1, h2⟩ h
  · intro h
    cases hr : irvRun env argv with
    | stopped e => exact ⟨e, rfl⟩
    | ran r =>
      obtain ⟨f, us, h1, h2, _⟩ := (C110_irv env argv r).1 hr
      exact absurd ⟨f, us, h1, h2⟩ h

end Verif.Props

namespace Verif.Props
open Verif Spec
section
attribute [local instance] Uni.ascii
set_option maxRecDepth 20000

/-- the command lines of C110 exist: options before, between and after the files, abbreviated and grouped -/
example : sfProgram.parse [c!"--imag", c!"a.txt", c!"-ox.json", c!"b.txt", c!"--contest=7", c!"--outputformat", c!"abif"] =
    .ok ([c!"a.txt", c!"b.txt"], [(imagelinesOpt, []), (outfileOpt, c!"x.json"), (contestidOpt, c!"7"), (outputformatOpt, c!"abif")]) := by decide +kernel
example : irvProgram.parse [c!"-jj", c!"a.abif", c!"--js"] = .ok ([c!"a.abif"], [(jsonOpt, []), (jsonOpt, []), (jsonOpt, [])]) := by decide +kernel
example : irvProgram.parse [c!"-j", c!"a.abif", c!"b.abif"] = .error .usage := by decide +kernel
example : irvProgram.parse [c!"-jx", c!"a.abif"] = .error .usage := by decide +kernel
example : irvProgram.parse [c!"-jh"] = .error .help := by decide +kernel
example : copedotProgram.parse [c!"--outfmt", c!"png", c!"a.abif"] = .error .usage := by decide +kernel
example : copedotProgram.parse [c!"a.abif", c!"--out=dot"] = .ok ([c!"a.abif"], [(outfmtOpt, c!"dot")]) := by decide +kernel
example : sfProgram.parse [c!"a", c!"b", c!"--out", c!"x"] = .error .usage := by decide +kernel
example : oneFile.parse [c!"-1"] = .ok ([c!"-1"], []) := by decide +kernel
example : oneFile.parse [c!"a", c!"b"] = .error .usage := by decide +kernel
example : oneFile.parse [c!"a", c!"--he"] = .error .help := by decide +kernel
example : coreProgram.parse [c!"A > B", c!"B > A", c!"-f", c!"emptyish"] = .ok ([c!"A > B", c!"B > A"], [(funcOpt, c!"emptyish")]) := by decide +kernel
example : coreProgram.parse [c!"A > B", c!"-f", c!"emptyish", c!"B > A"] = .error .usage := by decide +kernel
example : fetchProgram.parse [c!"a.json", c!"b.json", c!"--abif"] = .error .usage := by decide +kernel
example : fetchProgram.parse [c!"-a", c!"1", c!"a.json", c!"b.json"] = .ok ([c!"a.json", c!"b.json"], [(abifOpt, c!"1")]) := by decide +kernel
example : fetchProgram.parse [] = .ok ([], []) := by decide +kernel
example : PlainFor fetchProgram c!"spec.json" := .inl (by decide)
end
end Verif.Props
