/-
Helper lemmas: reading back the whole text that `convert_jabmod_to_abif` prints.
-/
import Verif.Lib.ExportRead

set_option linter.unusedSimpArgs false
set_option linter.unusedSectionVars false

namespace Verif
open Spec

/-! ### JSON text is printable ASCII -/

/-- a printable ASCII character -/
def isPlainAscii (c : Char) : Prop := 32 ≤ c.toNat ∧ c.toNat ≤ 126

theorem hexLower_ascii (n : Nat) : isPlainAscii (hexLower n) := by
  unfold hexLower isPlainAscii
  have : n % 16 < 16 := Nat.mod_lt _ (by decide)
  generalize n % 16 = k at this
  have : k = 0 ∨ k = 1 ∨ k = 2 ∨ k = 3 ∨ k = 4 ∨ k = 5 ∨ k = 6 ∨ k = 7 ∨ k = 8 ∨ k = 9 ∨ k = 10 ∨ k = 11 ∨ k = 12 ∨ k = 13 ∨ k = 14 ∨ k = 15 := by omega
  rcases this with rfl | rfl | rfl | rfl | rfl | rfl | rfl | rfl | rfl | rfl | rfl | rfl | rfl | rfl | rfl | rfl <;> decide

theorem uEscape_ascii (n : Nat) : ∀ c ∈ uEscape n, isPlainAscii c := by
  intro c hc
  simp only [uEscape, List.mem_cons, List.not_mem_nil, or_false] at hc
  rcases hc with rfl | rfl | rfl | rfl | rfl | rfl
  · exact ⟨by decide, by decide⟩
  · exact ⟨by decide, by decide⟩
  all_goals exact hexLower_ascii _

theorem jsonEscChar_ascii (x : Char) : ∀ c ∈ jsonEscChar x, isPlainAscii c := by
  intro c hc
  have lit : ∀ l : Str, (∀ c ∈ l, isPlainAscii c) → c ∈ l → isPlainAscii c := fun l h hc => h c hc
  unfold jsonEscChar at hc
  split at hc
  · exact lit _ (by unfold isPlainAscii; decide) hc
  split at hc
  · exact lit _ (by unfold isPlainAscii; decide) hc
  split at hc
  · exact lit _ (by unfold isPlainAscii; decide) hc
  split at hc
  · exact lit _ (by unfold isPlainAscii; decide) hc
  split at hc
  · exact lit _ (by unfold isPlainAscii; decide) hc
  split at hc
  · exact lit _ (by unfold isPlainAscii; decide) hc
  split at hc
  · exact lit _ (by unfold isPlainAscii; decide) hc
  split at hc
  · rename_i h
    simp only [List.mem_singleton] at hc
    subst hc; exact h
  split at hc
  · exact uEscape_ascii _ c hc
  · simp only [List.mem_append] at hc
    rcases hc with hc | hc <;> exact uEscape_ascii _ c hc

theorem jsonStr_ascii (s : Str) : ∀ c ∈ jsonStr s, isPlainAscii c := by
  intro c hc
  simp only [jsonStr, List.mem_cons, List.mem_append, List.mem_flatMap, List.not_mem_nil, or_false] at hc
  rcases hc with rfl | ⟨x, _, hx⟩ | rfl
  · exact ⟨by decide, by decide⟩
  · exact jsonEscChar_ascii x c hx
  · exact ⟨by decide, by decide⟩

theorem natStr_ascii (n : Nat) : ∀ c ∈ natStr n, isPlainAscii c := by
  intro c hc
  have := Nat.isDigit_of_mem_toDigits (by decide) (by decide) hc
  unfold isPlainAscii
  simp only [Char.isDigit, Bool.and_eq_true, decide_eq_true_eq] at this
  obtain ⟨h1, h2⟩ := this
  have h1 : 48 ≤ c.toNat := h1
  have h2 : c.toNat ≤ 57 := h2
  omega

theorem intStr_ascii (i : Int) : ∀ c ∈ intStr i, isPlainAscii c := by
  intro c hc
  cases i with
  | ofNat n => exact natStr_ascii n c hc
  | negSucc n =>
    rcases List.mem_cons.1 hc with rfl | hc
    · exact ⟨by decide, by decide⟩
    · exact natStr_ascii _ c hc

mutual
theorem dumps_ascii : ∀ (j : Json), ∀ c ∈ j.dumps, isPlainAscii c
  | .null => by unfold Json.dumps isPlainAscii; decide
  | .bool true => by unfold Json.dumps isPlainAscii; decide
  | .bool false => by unfold Json.dumps isPlainAscii; decide
  | .int i => by unfold Json.dumps; exact intStr_ascii i
  | .str s => by unfold Json.dumps; exact jsonStr_ascii s
  | .arr l => by
    intro c hc
    unfold Json.dumps at hc
    simp only [List.mem_cons, List.mem_append, List.not_mem_nil, or_false] at hc
    rcases hc with rfl | hc | rfl
    · exact ⟨by decide, by decide⟩
    · exact dumpsArr_ascii l c hc
    · exact ⟨by decide, by decide⟩
  | .obj l => by
    intro c hc
    unfold Json.dumps at hc
    simp only [List.mem_cons, List.mem_append, List.not_mem_nil, or_false] at hc
    rcases hc with rfl | hc | rfl
    · exact ⟨by decide, by decide⟩
    · exact dumpsObj_ascii l c hc
    · exact ⟨by decide, by decide⟩
theorem dumpsArr_ascii : ∀ (l : List Json), ∀ c ∈ Json.dumpsArr l, isPlainAscii c
  | [] => by unfold Json.dumpsArr; simp
  | [x] => by unfold Json.dumpsArr; exact dumps_ascii x
  | x :: y :: t => by
    intro c hc
    unfold Json.dumpsArr at hc
    simp only [List.mem_cons, List.mem_append, List.not_mem_nil, or_false] at hc
    rcases hc with hc | rfl | rfl | hc
    · exact dumps_ascii x c hc
    · exact ⟨by decide, by decide⟩
    · exact ⟨by decide, by decide⟩
    · exact dumpsArr_ascii (y :: t) c hc
theorem dumpsObj_ascii : ∀ (l : List (Str × Json)), ∀ c ∈ Json.dumpsObj l, isPlainAscii c
  | [] => by unfold Json.dumpsObj; simp
  | [(k, v)] => by
    intro c hc
    unfold Json.dumpsObj at hc
    simp only [List.mem_cons, List.mem_append, List.not_mem_nil, or_false] at hc
    rcases hc with hc | rfl | rfl | hc
    · exact jsonStr_ascii k c hc
    · exact ⟨by decide, by decide⟩
    · exact ⟨by decide, by decide⟩
    · exact dumps_ascii v c hc
  | (k, v) :: e :: t => by
    intro c hc
    unfold Json.dumpsObj at hc
    simp only [List.mem_cons, List.mem_append, List.not_mem_nil, or_false] at hc
    rcases hc with hc | rfl | rfl | hc | rfl | rfl | hc
    · exact jsonStr_ascii k c hc
    · exact ⟨by decide, by decide⟩
    · exact ⟨by decide, by decide⟩
    · exact dumps_ascii v c hc
    · exact ⟨by decide, by decide⟩
    · exact ⟨by decide, by decide⟩
    · exact dumpsObj_ascii (e :: t) c hc
end

theorem plainAscii_not_break {c : Char} (h : isPlainAscii c) : isLineBreak c = false := by
  unfold isPlainAscii at h
  unfold isLineBreak
  simp only [Bool.or_eq_false_iff, Bool.and_eq_false_iff, decide_eq_false_iff_not, beq_eq_false_iff_ne]
  omega

/-! ### the lines of an exported file -/

section
variable [U : Uni]

def headMeta : Str := c!"#------- metadata -------"
def headCand : Str := c!"#------ candlines ------"
def headVote : Str := c!"#------- votelines ------"

def metaLine (kv : Str × Json) : Str := '{' :: (kv.1 ++ ':' :: ' ' :: (kv.2.dumps ++ ['}']))
def candLine (kv : Str × Option Str) : Str := '=' :: (tokenQuote kv.1 ++ ':' :: '[' :: (nameStr kv.2 ++ [']']))

def fileLines (md : Dict Str Json) (cs : Dict Str (Option Str)) (vlines : List Str) : List Str :=
  headMeta :: (md.map metaLine ++ headCand :: (cs.map candLine ++ headVote :: vlines))

/-- a printed line for the ballot, and what it reads as -/
def PrintedAs (vl : Voteline) (l : Str) : Prop :=
  ∃ (prefstr : Str) (prefs' : Dict Str Pref), l = natStr vl.qty.toNat ++ ':' :: prefstr ∧
    (∀ c ∈ l, lineChar c) ∧ readVote l = some (natStr vl.qty.toNat, prefstr) ∧
    parsePrefstr prefstr = .ok (prefs', Dict.keys prefs') ∧
    (Dict.keys prefs').Perm (Dict.keys vl.prefs) ∧
    Reranked prefs' vl.prefs

theorem votelinesStr_printed {vls : List Voteline} (h : ∀ vl ∈ vls, Exportable vl) :
    ∃ vlines, votelinesStr vls = .ok (vlines.flatMap (fun l => l ++ ['\n'])) ∧ List.Forall₂ PrintedAs vls vlines := by
  induction vls with
  | nil => exact ⟨[], rfl, .nil⟩
  | cons vl vls ih =>
    obtain ⟨ls, h1, h2⟩ := ih (fun v hv => h v (by simp [hv]))
    obtain ⟨p, prefs', e1, e2, e3, e4, e5, _, e6⟩ := votelineStr_reads (h vl (by simp))
    refine ⟨_ :: ls, ?_, .cons ⟨p, prefs', rfl, e2, e3, e4, e5, e6⟩ h2⟩
    unfold votelinesStr
    rw [e1, ok_bind, h1, ok_bind]
    rfl

theorem convertToAbif_printed {m : Jabmod} (h : ∀ vl ∈ m.votelines, Exportable vl) :
    ∃ vlines, convertToAbif m = .ok ((fileLines m.metadata m.candidates vlines).flatMap (fun l => l ++ ['\n'])) ∧
      List.Forall₂ PrintedAs m.votelines vlines := by
  obtain ⟨ls, h1, h2⟩ := votelinesStr_printed h
  refine ⟨ls, ?_, h2⟩
  unfold convertToAbif
  rw [h1, ok_bind]
  congr 1
  have e1 : metadataStr m.metadata = (m.metadata.map metaLine).flatMap (fun l => l ++ ['\n']) := by
    unfold metadataStr
    rw [List.flatMap_map]
    congr 1
    funext kv
    simp [metaLine]
  have e2 : candlinesStr m.candidates = (m.candidates.map candLine).flatMap (fun l => l ++ ['\n']) := by
    unfold candlinesStr
    rw [List.flatMap_map]
    congr 1
    funext kv
    simp [candLine]
  rw [e1, e2]
  unfold fileLines
  simp only [List.flatMap_cons, List.flatMap_append, List.append_assoc]
  rfl

/-- no line break in the metadata keys, candidate tokens and candidate names -/
structure OneLine (md : Dict Str Json) (cs : Dict Str (Option Str)) : Prop where
  keys : ∀ (kv : Str × Json), kv ∈ md → ∀ c ∈ kv.1, isLineBreak c = false
  toks : ∀ (kv : Str × Option Str), kv ∈ cs → ∀ c ∈ kv.1, isLineBreak c = false
  names : ∀ (kv : Str × Option Str), kv ∈ cs → ∀ d, kv.2 = some d → ∀ c ∈ d, isLineBreak c = false

theorem metaLine_oneLine {kv : Str × Json} (h : ∀ c ∈ kv.1, isLineBreak c = false) : ∀ c ∈ metaLine kv, isLineBreak c = false := by
  intro c hc
  simp only [metaLine, List.mem_cons, List.mem_append, List.not_mem_nil, or_false] at hc
  rcases hc with rfl | hc | rfl | rfl | hc | rfl
  · decide
  · exact h c hc
  · decide
  · decide
  · exact plainAscii_not_break (dumps_ascii _ c hc)
  · decide

theorem tokenQuote_mem {t : Str} {c : Char} (h : c ∈ tokenQuote t) : c ∈ t ∨ c = '[' ∨ c = ']' := by
  unfold tokenQuote at h
  split at h
  · exact .inl h
  · simp only [List.mem_cons, List.mem_append, List.not_mem_nil, or_false] at h
    tauto

theorem candLine_oneLine {kv : Str × Option Str} (h : ∀ c ∈ kv.1, isLineBreak c = false)
    (h2 : ∀ d, kv.2 = some d → ∀ c ∈ d, isLineBreak c = false) : ∀ c ∈ candLine kv, isLineBreak c = false := by
  intro c hc
  simp only [candLine, List.mem_cons, List.mem_append, List.not_mem_nil, or_false] at hc
  rcases hc with rfl | hc | rfl | rfl | hc | rfl
  · decide
  · rcases tokenQuote_mem hc with hc | rfl | rfl
    · exact h c hc
    · decide
    · decide
  · decide
  · decide
  · cases hd : kv.2 with
    | none =>
      rw [hd] at hc
      have : ∀ c ∈ c!"None", isLineBreak c = false := by decide
      exact this c hc
    | some d =>
      rw [hd] at hc
      exact h2 d hd c hc
  · decide

theorem fileLines_oneLine {md : Dict Str Json} {cs : Dict Str (Option Str)} (h : OneLine md cs) {vls : List Voteline} {vlines : List Str}
    (hv : List.Forall₂ PrintedAs vls vlines) : ∀ l ∈ fileLines md cs vlines, ∀ c ∈ l, isLineBreak c = false := by
  have hlines : ∀ l ∈ vlines, ∀ c ∈ l, isLineBreak c = false := by
    have : ∀ l ∈ vlines, ∀ c ∈ l, lineChar c := by
      refine forall₂_right (R := PrintedAs) (P := fun l => ∀ c ∈ l, lineChar c) ?_ hv
      rintro a b ⟨_, _, _, hb, _⟩
      exact hb
    exact fun l hl c hc => (this l hl c hc).2
  intro l hl
  simp only [fileLines, List.mem_cons, List.mem_append, List.mem_map] at hl
  rcases hl with rfl | ⟨kv, hkv, rfl⟩ | rfl | ⟨kv, hkv, rfl⟩ | rfl | hl
  · decide
  · exact metaLine_oneLine (h.keys kv hkv)
  · decide
  · exact candLine_oneLine (h.toks kv hkv) (h.names kv hkv)
  · decide
  · exact hlines l hl

theorem lstrip_of_head_ne {c : Char} {t : Str} (h : isSpace c = false) : lstrip (c :: t) = c :: t := by
  apply lstrip_of_head
  intro d hd; cases hd; exact h

theorem textLines_file (cw : Bool) {md : Dict Str Json} {cs : Dict Str (Option Str)} (h : OneLine md cs) {vls : List Voteline}
    {vlines : List Str} (hv : List.Forall₂ PrintedAs vls vlines) :
    textLines cw ((fileLines md cs vlines).flatMap (fun l => l ++ ['\n'])) = fileLines md cs vlines := by
  unfold textLines
  rw [splitlines_lines _ (fileLines_oneLine h hv)]
  have hlines : ∀ l ∈ vlines, lstrip l = l := by
    refine forall₂_right (R := PrintedAs) (P := fun l => lstrip l = l) ?_ hv
    rintro a b ⟨p, _, rfl, _⟩
    obtain ⟨q1, q2, _⟩ := natStr_spec a.qty.toNat
    cases hq : natStr a.qty.toNat with
    | nil => exact absurd hq q1
    | cons c t =>
      rw [List.cons_append]
      exact lstrip_of_head_ne (digit_not_space (q2 c (by rw [hq]; simp)))
  cases cw with
  | false => simp
  | true =>
    simp only [if_true]
    have : ∀ l ∈ fileLines md cs vlines, lstrip l = l := by
      intro l hl
      simp only [fileLines, List.mem_cons, List.mem_append, List.mem_map] at hl
      rcases hl with rfl | ⟨kv, hkv, rfl⟩ | rfl | ⟨kv, hkv, rfl⟩ | rfl | hl
      · decide
      · exact lstrip_of_head_ne (by decide)
      · decide
      · exact lstrip_of_head_ne (by decide)
      · decide
      · exact hlines l hl
    rw [List.map_congr_left this]; simp

/-! ### reading the lines -/

theorem beforeHash_cons {c : Char} {t : Str} (h : c ≠ '#') : beforeHash (c :: t) = c :: beforeHash t := by
  unfold beforeHash
  rw [List.takeWhile_cons, if_pos (by simpa using h)]

theorem beforeHash_of_not_mem {t : Str} (h : '#' ∉ t) : beforeHash t = t := by
  have : ∀ c ∈ t, (c != '#') = true := by
    intro c hc
    simp
    rintro rfl
    exact h hc
  have e := List.takeWhile_append_of_pos (l₂ := []) this
  simpa [beforeHash] using e

theorem beforeHash_append {a b : Str} (h : '#' ∉ a) : beforeHash (a ++ b) = a ++ beforeHash b := by
  induction a with
  | nil => rfl
  | cons c a ih =>
    rw [List.cons_append, beforeHash_cons (by rintro rfl; simp at h), ih (by simp at h; exact h.2)]
    rfl

theorem readVote_head_none {c : Char} {t : Str} (h : isDigit c = false) : readVote (c :: t) = none := by
  cases hr : readVote (c :: t) with
  | none => rfl
  | some r =>
    obtain ⟨d, u, e, hd⟩ := readVote_head hr
    cases e
    rw [h] at hd; cases hd

theorem readCand_head_none {c : Char} {t : Str} (h : c ≠ '=') : readCand (c :: t) = none := by
  cases hr : readCand (c :: t) with
  | none => rfl
  | some r =>
    obtain ⟨u, e⟩ := readCand_head hr
    cases e
    exact absurd rfl h

theorem printed_facts {vl : Voteline} {l : Str} (h : PrintedAs vl l) :
    beforeHash l = l ∧ hashComment l = none ∧ readCand l = none := by
  obtain ⟨p, prefs', hl, hc, hr, _⟩ := h
  have : '#' ∉ l := fun hm => (hc _ hm).1 rfl
  refine ⟨beforeHash_of_not_mem this, ?_, readCand_none_of_vote hr⟩
  unfold hashComment; rw [if_neg this]

/-- the votelines of the printed file, as lines -/
theorem votes_lines (md : Dict Str Json) (cs : Dict Str (Option Str)) (vlines : List Str) :
    (fileLines md cs vlines).filterMap lineVote = vlines.filterMap lineVote := by
  have hnone : ∀ l : Str, readVote (beforeHash l) = none → lineVote l = none := by
    intro l h; unfold lineVote; rw [h]; rfl
  have hh : readVote (beforeHash headMeta) = none ∧ readVote (beforeHash headCand) = none ∧ readVote (beforeHash headVote) = none := by
    refine ⟨?_, ?_, ?_⟩ <;> rfl
  have hm : (md.map metaLine).filterMap lineVote = [] := by
    rw [List.filterMap_eq_nil_iff]
    intro l hl
    obtain ⟨kv, _, rfl⟩ := List.mem_map.1 hl
    apply hnone
    unfold metaLine
    rw [beforeHash_cons (by decide)]
    exact readVote_head_none isDigit_brace
  have hc : (cs.map candLine).filterMap lineVote = [] := by
    rw [List.filterMap_eq_nil_iff]
    intro l hl
    obtain ⟨kv, _, rfl⟩ := List.mem_map.1 hl
    apply hnone
    unfold candLine
    rw [beforeHash_cons (by decide)]
    exact readVote_head_none isDigit_eq
  unfold fileLines
  rw [List.filterMap_cons_none (hnone _ hh.1), List.filterMap_append, hm, List.nil_append,
    List.filterMap_cons_none (hnone _ hh.2.1), List.filterMap_append, hc, List.nil_append,
    List.filterMap_cons_none (hnone _ hh.2.2)]

/-- the votelines of the printed file are the printed votelines -/
theorem votes_file {md : Dict Str Json} {cs : Dict Str (Option Str)} {vls : List Voteline} {vlines : List Str}
    (hv : List.Forall₂ PrintedAs vls vlines) :
    List.Forall₂ (fun (vl : Voteline) (src : Str × Str × Option Str) => ∃ prefs' : Dict Str Pref, src.1 = natStr vl.qty.toNat ∧ src.2.2 = none ∧
      parsePrefstr src.2.1 = .ok (prefs', Dict.keys prefs') ∧ (Dict.keys prefs').Perm (Dict.keys vl.prefs) ∧
      Reranked prefs' vl.prefs) vls ((fileLines md cs vlines).filterMap lineVote) := by
  rw [votes_lines]
  induction hv with
  | nil => exact .nil
  | cons h _ ih =>
    obtain ⟨f1, f2, _⟩ := printed_facts h
    obtain ⟨p, prefs', rfl, hc, hr, hp, hk, hs⟩ := h
    rw [List.filterMap_cons_some (b := (_, p, none)) (by unfold lineVote; rw [f1, hr, f2]; rfl)]
    exact .cons ⟨prefs', rfl, rfl, hp, hk, hs⟩ ih

/-! ### the text is accepted -/

theorem processPlain_total (i : Nat) (ls : List Str) (m : Jabmod) (n : Int) (hn : Dict.get? m.metadata c!"ballotcount" = some (.int n))
    (hp : ∀ l ∈ ls, ∀ q p, readVote (beforeHash l) = some (q, p) → ∃ r, parsePrefstr p = .ok r) :
    ∃ m', processPlain false i ls m = .ok m' := by
  induction ls generalizing i m n with
  | nil => exact ⟨m, rfl⟩
  | cons l ls ih =>
    unfold processPlain
    rw [processComment_false, ok_bind]
    have step : ∃ m1 n1, lineEffect l m = .ok m1 ∧ Dict.get? m1.metadata c!"ballotcount" = some (.int n1) := by
      unfold lineEffect
      cases hc : readCand (beforeHash l) with
      | some r => exact ⟨_, n, rfl, hn⟩
      | none =>
        simp only
        cases hm : matchMeta (beforeHash l) with
        | some r =>
          refine ⟨_, n, rfl, ?_⟩
          unfold processMeta
          simp only
          rw [Dict.get?_set_ne _ _ ?_]
          · exact hn
          · split
            · decide
            · assumption
        | none =>
          simp only
          cases hr : readVote (beforeHash l) with
          | none => exact ⟨_, n, rfl, hn⟩
          | some r =>
            obtain ⟨q, p⟩ := r
            obtain ⟨r, hr⟩ := hp l (by simp) q p hr
            have hpp : ∃ m1, processPrefline q p (hashComment l) m = .ok m1 ∧
                Dict.get? m1.metadata c!"ballotcount" = some (.int (n + digitsVal q)) := by
              unfold processPrefline bumpBallotcount
              rw [hn]
              simp only
              rw [ok_bind, hr, ok_bind]
              exact ⟨_, rfl, Dict.get?_set_self _ _ _⟩
            obtain ⟨m1, h1, h2⟩ := hpp
            exact ⟨m1, _, h1, h2⟩
    obtain ⟨m1, n1, h1, h2⟩ := step
    rw [h1, ok_bind]
    exact ih (i + 1) m1 n1 h2 (fun l hl => hp l (by simp [hl]))

theorem convertAbif_total (cw ar : Bool) (text : Str)
    (hp : ∀ l ∈ textLines cw text, ∀ q p, readVote (beforeHash l) = some (q, p) → ∃ r, parsePrefstr p = .ok r)
    (hne : votesOf cw text ≠ []) : ∃ m, convertAbif cw ar false text = .ok m := by
  have base : ∃ m, convertAbif cw false false text = .ok m := by
    rw [convertAbif_eq]
    obtain ⟨m0, h0⟩ := processPlain_total 0 (textLines cw text) emptyishJabmod 0 rfl hp
    rw [h0, ok_bind]
    obtain ⟨vls, f1, f2, _⟩ := processPlain_ok h0 0 rfl
    unfold finish
    have hv : m0.votelines ≠ [] := by
      intro h
      rw [f2] at h
      have : vls = [] := (List.append_eq_nil_iff.1 h).2
      rw [this] at f1
      have hl := f1.length_eq
      exact hne (List.length_eq_zero_iff.1 hl)
    rw [if_neg hv]
    exact ⟨_, rfl⟩
  cases ar with
  | false => exact base
  | true =>
    obtain ⟨m, hm⟩ := base
    rw [convertAbif_rated, hm, ok_bind]
    exact ⟨_, rfl⟩

/-! ### candidate lines -/

theorem readCand_safe {tok d : Str} (ht : ∀ c ∈ tok, isUrlSafe c = true) (hd : ']' ∉ d) :
    readCand ('=' :: (tok ++ ':' :: '[' :: (d ++ [']']))) = some (tok, d) := by
  rw [readCand_cons_eq]
  have hstop : ∀ c ∈ tok, candTokCh c = true := by
    intro c hc
    show (!(c == ':' || c == '"' || c == ']')) = true
    obtain ⟨_, h2, h3, _, _, h6, _⟩ := urlSafe_props (ht c hc)
    have : c ≠ ']' := by rintro rfl; exact absurd h2 (by decide)
    simp [h3, h6, this]
  have e1 : List.dropWhile isSpace (tok ++ ':' :: '[' :: (d ++ [']'])) = tok ++ ':' :: '[' :: (d ++ [']']) := by
    cases tok with
    | nil => rfl
    | cons c t =>
      rw [List.cons_append, List.dropWhile_cons, if_neg]
      simp [(urlSafe_props (ht c (by simp))).1]
  have e2 : dropOne (fun c => c == '"' || c == '[') (tok ++ ':' :: '[' :: (d ++ [']'])) = tok ++ ':' :: '[' :: (d ++ [']']) := by
    cases tok with
    | nil => rfl
    | cons c t =>
      obtain ⟨_, h2, h3, _⟩ := urlSafe_props (ht c (by simp))
      have : c ≠ '[' := by rintro rfl; exact absurd h2 (by decide)
      rw [List.cons_append, dropOne, if_neg (by simp [h3, this])]
  rw [e1, e2]
  simp only
  rw [dropWhile_append_of_all hstop, List.takeWhile_append_of_pos hstop]
  have hdd : ∀ c ∈ d, (c != ']') = true := by
    intro c hc; simp; rintro rfl; exact hd hc
  have e3 : List.dropWhile (fun c => c != ']') (d ++ [']']) = [']'] := by
    rw [dropWhile_append_of_all hdd]; rfl
  have e4 : List.takeWhile (fun c => c != ']') (d ++ [']']) = d := by
    rw [List.takeWhile_append_of_pos hdd]; simp
  have e5 : List.dropWhile candTokCh (':' :: '[' :: (d ++ [']'])) = ':' :: '[' :: (d ++ [']']) := rfl
  have e6 : List.takeWhile candTokCh (':' :: '[' :: (d ++ [']'])) = [] := rfl
  rw [e5, e6]
  simp [dropOne, e3, e4]

/-- a bracketed token is never read back from a candidate line -/
theorem readCand_bracket {tok r : Str} (ht : ']' ∉ tok) : readCand ('=' :: '[' :: (tok ++ ']' :: ':' :: r)) = none := by
  rw [readCand_cons_eq]
  have e1 : dropOne (fun c => c == '"' || c == '[') (List.dropWhile isSpace ('[' :: (tok ++ ']' :: ':' :: r))) = tok ++ ']' :: ':' :: r := rfl
  rw [e1]
  simp only
  -- what is left after the token read
  have key : ∀ u : Str, ']' ∉ u → ∀ d : Str, List.dropWhile (fun c => c != ']') (dropOne (fun c => c == '[') (u ++ ']' :: ':' :: r)) = d →
      ¬ (d = [] ∨ d = [']']) := by
    intro u hu d hd
    have : dropOne (fun c => c == '[') (u ++ ']' :: ':' :: r) = u.tail ++ ']' :: ':' :: r ∨
        dropOne (fun c => c == '[') (u ++ ']' :: ':' :: r) = u ++ ']' :: ':' :: r := by
      cases u with
      | nil => right; rfl
      | cons c u =>
        rw [List.cons_append, dropOne]
        split
        · left; rfl
        · right; rfl
    have h2 : ∀ v : Str, ']' ∉ v → List.dropWhile (fun c => c != ']') (v ++ ']' :: ':' :: r) = ']' :: ':' :: r := by
      intro v hv
      rw [dropWhile_append_of_all (by intro c hc; simp; rintro rfl; exact hv hc)]
      rfl
    rcases this with h | h
    · rw [h, h2 _ (fun hm => hu (List.mem_of_mem_tail hm))] at hd
      subst hd; simp
    · rw [h, h2 _ hu] at hd
      subst hd; simp
  generalize hA : List.dropWhile candTokCh (tok ++ ']' :: ':' :: r) = A
  have hAform : ∃ u, A = u ++ ']' :: ':' :: r ∧ ']' ∉ u := by
    clear key e1
    induction tok generalizing A with
    | nil => exact ⟨[], hA.symm, by simp⟩
    | cons c tok ih =>
      rw [List.cons_append, List.dropWhile_cons] at hA
      split at hA
      · exact ih (by simp at ht; exact ht.2) A hA
      · exact ⟨c :: tok, hA.symm, ht⟩
  obtain ⟨u, rfl, hu⟩ := hAform
  have hB : ∃ v, dropOne (fun c => c == '"') (u ++ ']' :: ':' :: r) = v ++ ']' :: ':' :: r ∧ ']' ∉ v := by
    cases u with
    | nil => exact ⟨[], rfl, by simp⟩
    | cons c u =>
      rw [List.cons_append, dropOne]
      split
      · exact ⟨u, rfl, by simp at hu; exact hu.2⟩
      · exact ⟨c :: u, rfl, hu⟩
  obtain ⟨v, hv, hvn⟩ := hB
  rw [hv]
  split
  · rename_i d heq
    have : ∃ w, d = w ++ ']' :: ':' :: r ∧ ']' ∉ w := by
      cases v with
      | nil => cases heq
      | cons c v => cases heq; exact ⟨v, rfl, by simp at hvn; exact hvn⟩
    obtain ⟨w, rfl, hw⟩ := this
    rw [if_neg (key w hw _ rfl)]
  · rfl

end

end Verif
