/-
Helper lemmas: the candidate table read back from the text that `convert_jabmod_to_abif` prints.
-/
import Verif.Lib.ExportFile

set_option linter.unusedSimpArgs false
set_option linter.unusedSectionVars false

namespace Verif
open Spec
variable [U : Uni]

/-- a candidate whose line is read back -/
def SafeCand (kv : Str × Option Str) : Prop :=
  (∀ c ∈ kv.1, isUrlSafe c = true) ∧ ∃ d, kv.2 = some d ∧ ']' ∉ d ∧ '#' ∉ d

/-- a candidate whose line is not read back -/
def BracketCand (kv : Str × Option Str) : Prop :=
  (¬ ∀ c ∈ kv.1, isUrlSafe c = true) ∧ ']' ∉ kv.1 ∧ '#' ∉ kv.1

theorem candLine_safe {kv : Str × Option Str} (h : SafeCand kv) : ∃ d, kv.2 = some d ∧ readCand (beforeHash (candLine kv)) = some (kv.1, d) := by
  obtain ⟨hs, d, hd, h1, h2⟩ := h
  refine ⟨d, hd, ?_⟩
  have hq : tokenQuote kv.1 = kv.1 := by unfold tokenQuote; rw [if_pos ((quotePlus_eq_iff _).2 hs)]
  unfold candLine
  rw [hq, hd]
  have : '#' ∉ '=' :: (kv.1 ++ ':' :: '[' :: (nameStr (some d) ++ [']'])) := by
    intro hm
    simp only [nameStr, List.mem_cons, List.mem_append, List.not_mem_nil, or_false] at hm
    rcases hm with hm | hm | hm | hm | hm | hm
    · cases hm
    · exact absurd (hs _ hm) (by decide)
    · cases hm
    · cases hm
    · exact h2 hm
    · cases hm
  rw [beforeHash_of_not_mem this]
  exact readCand_safe hs h1

theorem candLine_bracket {kv : Str × Option Str} (h : BracketCand kv) : readCand (beforeHash (candLine kv)) = none := by
  obtain ⟨hs, h1, h2⟩ := h
  have hq : tokenQuote kv.1 = '[' :: (kv.1 ++ [']']) := by
    unfold tokenQuote; rw [if_neg (fun h => hs ((quotePlus_eq_iff _).1 h))]
  unfold candLine
  rw [hq]
  have e : ('=' :: (('[' :: (kv.1 ++ [']'])) ++ ':' :: '[' :: (nameStr kv.2 ++ [']']))) =
      ('=' :: '[' :: (kv.1 ++ [']', ':'])) ++ ('[' :: (nameStr kv.2 ++ [']'])) := by simp
  rw [e, beforeHash_append]
  · have : ∀ r : Str, ('=' :: '[' :: (kv.1 ++ [']', ':'])) ++ r = '=' :: '[' :: (kv.1 ++ ']' :: ':' :: r) := by intro r; simp
    rw [this]
    exact readCand_bracket h1
  · intro hm
    simp only [List.mem_cons, List.mem_append, List.not_mem_nil, or_false] at hm
    rcases hm with hm | hm | hm | hm | hm
    · cases hm
    · cases hm
    · exact h2 hm
    · cases hm
    · cases hm

/-- the candidate lines read back, with their names -/
theorem readCands_file {md : Dict Str Json} {cs : Dict Str (Option Str)} {vls : List Voteline} {vlines : List Str}
    (hv : List.Forall₂ PrintedAs vls vlines) (hc : ∀ kv ∈ cs, SafeCand kv ∨ BracketCand kv) :
    ∀ (t d : Str), (t, d) ∈ (fileLines md cs vlines).filterMap (fun l => readCand (beforeHash l)) ↔
      (t, some d) ∈ cs ∧ SafeCand (t, some d) := by
  intro t d
  have hh : readCand (beforeHash headMeta) = none ∧ readCand (beforeHash headCand) = none ∧ readCand (beforeHash headVote) = none := by
    refine ⟨?_, ?_, ?_⟩ <;> rfl
  have hlines : ∀ l ∈ vlines, readCand (beforeHash l) = none := by
    refine forall₂_right (R := PrintedAs) (P := fun l => readCand (beforeHash l) = none) ?_ hv
    intro a b h
    obtain ⟨f1, _, f3⟩ := printed_facts h
    rw [f1]; exact f3
  simp only [List.mem_filterMap, fileLines, List.mem_cons, List.mem_append, List.mem_map]
  constructor
  · rintro ⟨l, hl, hr⟩
    rcases hl with rfl | ⟨kv, hkv, rfl⟩ | rfl | ⟨kv, hkv, rfl⟩ | rfl | hl
    · rw [hh.1] at hr; cases hr
    · unfold metaLine at hr
      rw [beforeHash_cons (by decide), readCand_head_none (by decide)] at hr; cases hr
    · rw [hh.2.1] at hr; cases hr
    · rcases hc kv hkv with hs | hb
      · obtain ⟨d', hd', e⟩ := candLine_safe hs
        rw [e] at hr; cases hr
        obtain ⟨k, v⟩ := kv
        simp only at hd'; subst hd'
        exact ⟨hkv, hs⟩
      · rw [candLine_bracket hb] at hr; cases hr
    · rw [hh.2.2] at hr; cases hr
    · rw [hlines l hl] at hr; cases hr
  · rintro ⟨hm, hs⟩
    refine ⟨candLine (t, some d), .inr (.inr (.inr (.inl ⟨_, hm, rfl⟩))), ?_⟩
    obtain ⟨d', hd', e⟩ := candLine_safe hs
    cases hd'; exact e

/-- the tokens mentioned in the file -/
theorem mentions_file {md : Dict Str Json} {cs : Dict Str (Option Str)} {vls : List Voteline} {vlines : List Str}
    (hv : List.Forall₂ PrintedAs vls vlines) (hc : ∀ kv ∈ cs, SafeCand kv ∨ BracketCand kv) :
    ∀ (t : Str), t ∈ (fileLines md cs vlines).flatMap lineMentions ↔
      (∃ d, (t, some d) ∈ cs ∧ SafeCand (t, some d)) ∨ (∃ vl ∈ vls, t ∈ Dict.keys vl.prefs) := by
  intro t
  have hsplit : t ∈ (fileLines md cs vlines).flatMap lineMentions ↔
      (∃ d, (t, d) ∈ (fileLines md cs vlines).filterMap (fun l => readCand (beforeHash l))) ∨
      (∃ src ∈ (fileLines md cs vlines).filterMap lineVote, t ∈ ballotCands src.2.1) := by
    simp only [List.mem_flatMap, List.mem_filterMap]
    constructor
    · rintro ⟨l, hl, ht⟩
      unfold lineMentions at ht
      cases hr : readCand (beforeHash l) with
      | some r =>
        rw [hr] at ht
        obtain ⟨t', d⟩ := r
        simp only [List.mem_singleton] at ht; subst ht
        exact .inl ⟨d, l, hl, hr⟩
      | none =>
        rw [hr] at ht
        simp only at ht
        cases hrv : readVote (beforeHash l) with
        | none => rw [hrv] at ht; cases ht
        | some r =>
          rw [hrv] at ht
          obtain ⟨q, p⟩ := r
          exact .inr ⟨(q, p, hashComment l), ⟨l, hl, by unfold lineVote; rw [hrv]; rfl⟩, ht⟩
    · rintro (⟨d, l, hl, hr⟩ | ⟨src, ⟨l, hl, hr⟩, ht⟩)
      · refine ⟨l, hl, ?_⟩
        unfold lineMentions; rw [hr]; simp
      · refine ⟨l, hl, ?_⟩
        unfold lineVote at hr
        cases hrv : readVote (beforeHash l) with
        | none => rw [hrv] at hr; cases hr
        | some r =>
          rw [hrv] at hr
          cases hr
          unfold lineMentions
          rw [readCand_none_of_vote hrv, hrv]
          exact ht
  rw [hsplit]
  simp only [readCands_file hv hc]
  have hvf := votes_file (md := md) (cs := cs) hv
  generalize (fileLines md cs vlines).filterMap lineVote = srcs at hvf
  have : (∃ src ∈ srcs, t ∈ ballotCands src.2.1) ↔ (∃ vl ∈ vls, t ∈ Dict.keys vl.prefs) := by
    clear hsplit hv
    induction hvf with
    | nil => simp
    | cons h _ ih =>
      obtain ⟨prefs', _, _, hp, hk, _⟩ := h
      simp only [List.mem_cons, exists_eq_or_imp, ih]
      apply or_congr _ Iff.rfl
      unfold ballotCands
      rw [hp]
      exact hk.mem_iff
  rw [this]

theorem getLast?_filter_unique {l : List (Str × Str)} {t : Str} {d : Str} (hm : (t, d) ∈ l) (hu : ∀ d', (t, d') ∈ l → d' = d) :
    (l.filter (fun td => decide (td.1 = t))).getLast? = some (t, d) := by
  have hall : ∀ x ∈ l.filter (fun td => decide (td.1 = t)), x = (t, d) := by
    rintro ⟨a, b⟩ hx
    obtain ⟨h1, h2⟩ := List.mem_filter.1 hx
    simp at h2; subst h2
    rw [hu b h1]
  have hne : l.filter (fun td => decide (td.1 = t)) ≠ [] := by
    intro h
    have : (t, d) ∈ l.filter (fun td => decide (td.1 = t)) := List.mem_filter.2 ⟨hm, by simp⟩
    rw [h] at this; cases this
  rw [List.getLast?_eq_some_getLast hne]
  rw [hall _ (List.getLast_mem hne)]

theorem declared_file {md : Dict Str Json} {cs : Dict Str (Option Str)} {vls : List Voteline} {vlines : List Str}
    (hv : List.Forall₂ PrintedAs vls vlines) (hw : Dict.WF cs) (hc : ∀ kv ∈ cs, SafeCand kv ∨ BracketCand kv) :
    (∀ (t d : Str), (t, some d) ∈ cs → SafeCand (t, some d) → declared (fileLines md cs vlines) t = some d) ∧
    (∀ (t : Str) (n : Option Str), (t, n) ∈ cs → BracketCand (t, n) → declared (fileLines md cs vlines) t = none) := by
  have hr := readCands_file (md := md) hv hc
  constructor
  · intro t d hm hs
    unfold declared
    rw [getLast?_filter_unique ((hr t d).2 ⟨hm, hs⟩)]
    · rfl
    · intro d' hd'
      have h1 := Dict.get?_of_mem hw ((hr t d').1 hd').1
      have h2 := Dict.get?_of_mem hw hm
      rw [h1] at h2; cases h2; rfl
  · intro t n hm hb
    unfold declared
    have : (((fileLines md cs vlines).filterMap (fun l => readCand (beforeHash l))).filter (fun td => decide (td.1 = t))) = [] := by
      rw [List.filter_eq_nil_iff]
      rintro ⟨a, b⟩ hx
      simp only [decide_eq_true_eq]
      rintro rfl
      exact hb.1 ((hr a b).1 hx).2.1
    rw [this]; rfl

end Verif
