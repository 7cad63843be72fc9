/-
Helper lemmas: which metadata lines of an exported text are read back, and as what.
-/
import Verif.Lib.MetaLine
import Verif.Lib.ExportFile
import Verif.Lib.JsonInj
import Verif.Spec.Meta

set_option linter.unusedSimpArgs false
set_option linter.unusedSectionVars false

namespace Verif
open Spec
variable [U : Uni]

theorem word_not_space {c : Char} (h : isWord c = true) : isSpace c = false := by
  unfold isWord at h
  split at h
  · simp only [isAsciiAlnum, isAsciiDigit, isAsciiUpper, isAsciiLower, Bool.or_eq_true, Bool.and_eq_true, decide_eq_true_eq,
      beq_iff_eq] at h
    have hn : c.toNat = 95 ∨ (48 ≤ c.toNat ∧ c.toNat ≤ 122) := by
      rcases h with h | rfl
      · omega
      · left; decide
    unfold isSpace
    simp only [Bool.or_eq_false_iff, Bool.and_eq_false_iff, decide_eq_false_iff_not, beq_eq_false_iff_ne]
    omega
  · exact U.wordHi_not_space c h

theorem plainKey_char {k : Str} (h : PlainKey k) : ∀ c ∈ k, keyChar c = true := by
  intro c hc
  rcases (h.2 c hc).1 with h | h <;> simp [keyChar, h]

theorem hash_not_key : keyChar '#' = false := by
  simp [keyChar, isWord, isAscii, isAsciiAlnum, isAsciiDigit, isAsciiUpper, isAsciiLower, isSpace]

theorem plainKey_noHash {k : Str} (h : PlainKey k) : '#' ∉ k := by
  intro hm
  have := plainKey_char h _ hm
  rw [hash_not_key] at this
  cases this

/-- the value of a metadata line, given the text after the colon -/
def valueOf (x : Str) : Option Str :=
  match readVal x with
  | some (val, r') => if afterQuote r' = ['}'] then some val else none
  | none => none

theorem valueOf_some {x val r' : Str} (h : readVal x = some (val, r')) :
    valueOf x = if afterQuote r' = ['}'] then some val else none := by
  unfold valueOf
  rw [h]

/-- the key part -/
theorem readMeta_key {k : Str} (h : PlainKey k) (x : Str) : readMeta ('{' :: (k ++ ':' :: x)) = (valueOf x).map (fun v => (k, v)) := by
  have hk : readKey (k ++ ':' :: x) = some (k, ':' :: x) := by
    obtain ⟨⟨c, t, rfl, hc⟩, hall⟩ := id h
    have hkey := plainKey_char h
    have hcq : ¬ quoteChar c = true := by
      intro hq
      have := hkey c (by simp)
      rw [quote_not_key hq] at this
      cases this
    have hs := takeWhile_split (p := keyChar) (X := c :: t) (Y := ':' :: x) hkey (by
      rintro y u e; cases e; exact colon_not_key)
    unfold readKey
    simp only
    rw [List.cons_append, List.dropWhile_cons_of_neg (by simp [word_not_space hc]), dropOne_neg hcq]
    rw [List.cons_append] at hs
    rw [hs.1, hs.2, if_pos (by simp)]
  have ha : afterQuote (':' :: x) = ':' :: x := by
    unfold afterQuote
    rw [dropOne_neg (by simp [colon_not_quote]), List.dropWhile_cons_of_neg (by simp [colon_not_space])]
  unfold readMeta valueOf
  simp only [hk, ha]
  cases readVal x with
  | none => rfl
  | some r =>
    simp only
    split <;> rfl

theorem readVal_stop {c : Char} {t : Str} (hv : valChar c = false) (hq : quoteChar c = false) (ht : c :: t ≠ ['}']) :
    valueOf (' ' :: c :: t) = none := by
  have hs : isSpace c = false := by
    cases h : isSpace c with
    | false => rfl
    | true => rw [space_val h] at hv; cases hv
  have h1 : readVal (' ' :: c :: t) = some ([' '], c :: t) := by
    unfold readVal
    simp only
    have hd : (' ' :: c :: t).dropWhile isSpace = c :: t := by
      rw [List.dropWhile_cons_of_pos (by decide), List.dropWhile_cons_of_neg (by simp [hs])]
    have htk : (' ' :: c :: t).takeWhile isSpace = [' '] := by
      rw [List.takeWhile_cons_of_pos (by decide), List.takeWhile_cons_of_neg (by simp [hs])]
    rw [hd, htk, dropOne_neg (by simp [hq]), List.takeWhile_cons_of_neg (by simp [hv]), if_neg (by simp), if_neg]
    · rfl
    · simp only [List.head?_cons, Option.some.injEq]
      rintro rfl
      rw [squote_val] at hv
      cases hv
  have h2 : afterQuote (c :: t) = c :: t := by
    unfold afterQuote
    rw [dropOne_neg (by simp [hq]), List.dropWhile_cons_of_neg (by simp [hs])]
  rw [valueOf_some h1]
  rw [h2, if_neg ht]

/-- a bare value -/
theorem readVal_bare {w : Str} (b : Str) (hb : ∀ c ∈ b, isSpace c = true) {c : Char} {t : Str} (hw : w = c :: t)
    (hs : isSpace c = false) (hq : quoteChar c = false) (hv : ∀ c ∈ w, valChar c = true) :
    readVal (b ++ (w ++ ['}'])) = some (w, ['}']) := by
  subst hw
  unfold readVal
  simp only
  rw [List.dropWhile_append_of_pos hb, List.cons_append, List.dropWhile_cons_of_neg (by simp [hs]), dropOne_neg (by simp [hq])]
  have h := takeWhile_split (p := valChar) (X := c :: t) (Y := ['}']) hv (by rintro y u e; cases e; exact brace_not_val)
  rw [List.cons_append] at h
  rw [h.1, h.2, if_pos (by simp)]

/-- a value in quotes -/
theorem readVal_quoted {s : Str} (b : Str) (hb : ∀ c ∈ b, isSpace c = true) {q : Char} (hq : quoteChar q = true) (hs : s ≠ [])
    (hv : ∀ c ∈ s, valChar c = true) (r : Str) (hr : NotStart valChar r) :
    readVal (b ++ (q :: (s ++ r))) = some (s, r) := by
  unfold readVal
  simp only
  rw [List.dropWhile_append_of_pos hb, List.dropWhile_cons_of_neg (by simp [quote_not_space hq]), dropOne_pos hq]
  have h := takeWhile_split (p := valChar) (X := s) (Y := r) hv hr
  rw [h.1, h.2, if_pos hs]

theorem afterQuote_brace : afterQuote ['}'] = ['}'] := by decide
theorem afterQuote_dquote (r : Str) : afterQuote ('"' :: r) = r.dropWhile isSpace := rfl

/-- a value in double quotes with a character that cannot stand in a value -/
theorem readVal_lost {p t : Str} {c : Char} (hp : ∀ c ∈ p, valChar c = true) (hc : valChar c = false) (hq : quoteChar c = false)
    (ht : t ≠ []) :
    valueOf (' ' :: '"' :: (p ++ c :: t)) = none := by
  have hs : isSpace c = false := by
    cases h : isSpace c with
    | false => rfl
    | true => rw [space_val h] at hc; cases hc
  have hr : NotStart valChar (c :: t) := by rintro y u e; cases e; exact hc
  have h2 : afterQuote (c :: t) = c :: t := by
    unfold afterQuote
    rw [dropOne_neg (by simp [hq]), List.dropWhile_cons_of_neg (by simp [hs])]
  by_cases h0 : p = []
  · subst h0
    have h1 : readVal (' ' :: '"' :: ([] ++ c :: t)) = some ([' '], '"' :: c :: t) := by
      unfold readVal
      simp only
      have hd : (' ' :: '"' :: ([] ++ c :: t)).dropWhile isSpace = '"' :: c :: t := by
        rw [List.dropWhile_cons_of_pos (by decide), List.dropWhile_cons_of_neg (by decide)]; rfl
      have htk : (' ' :: '"' :: ([] ++ c :: t)).takeWhile isSpace = [' '] := by
        rw [List.takeWhile_cons_of_pos (by decide), List.takeWhile_cons_of_neg (by decide)]
      rw [hd, htk, dropOne_pos (by decide), hr.take, if_neg (by simp), if_neg (by simp)]
      rfl
    rw [valueOf_some h1]
    rw [afterQuote_dquote, List.dropWhile_cons_of_neg (by simp [hs]), if_neg (by simp [ht])]
  · have h1 := readVal_quoted [' '] (by decide) (q := '"') (by decide) h0 hp (c :: t) hr
    have e : (' ' :: '"' :: (p ++ c :: t)) = [' '] ++ ('"' :: (p ++ c :: t)) := rfl
    rw [e, valueOf_some h1]
    rw [h2, if_neg (by simp [ht])]

theorem plain_val {c : Char} (h : plainValChar c = true) : valChar c = true := by
  simp only [plainValChar, Bool.and_eq_true] at h
  exact h.2

theorem plain_esc {c : Char} (h : plainValChar c = true) : jsonEscChar c = [c] := by
  have hv := plain_val h
  simp only [plainValChar, Bool.and_eq_true, decide_eq_true_eq] at h
  have hne : ∀ d : Char, valChar d = false → c ≠ d := by
    rintro d hd rfl
    rw [hd] at hv
    cases hv
  have h34 : c ≠ '"' := hne _ dquote_not_val
  have h92 : c ≠ '\\' := hne _ (by simp [valChar, isWord, isAscii, isAsciiAlnum, isAsciiDigit, isAsciiUpper, isAsciiLower, isSpace])
  have h10 : c ≠ '\n' := by rintro rfl; exact absurd h.1.1 (by decide)
  have h13 : c ≠ '\r' := by rintro rfl; exact absurd h.1.1 (by decide)
  have h9 : c ≠ '\t' := by rintro rfl; exact absurd h.1.1 (by decide)
  unfold jsonEscChar
  rw [if_neg h34, if_neg h92, if_neg h10, if_neg h13, if_neg h9, if_neg (by omega), if_neg (by omega), if_pos h.1]

theorem plain_escs {s : Str} (h : ∀ c ∈ s, plainValChar c = true) : s.flatMap jsonEscChar = s := by
  induction s with
  | nil => rfl
  | cons c s ih =>
    rw [List.flatMap_cons, plain_esc (h c (by simp)), ih (fun d hd => h d (by simp [hd]))]
    rfl

theorem notPlain_esc {c : Char} (h : ¬ plainValChar c = true) :
    ∃ d t, jsonEscChar c = d :: t ∧ valChar d = false ∧ quoteChar d = false := by
  have hb : valChar '\\' = false ∧ quoteChar '\\' = false :=
    ⟨by simp [valChar, isWord, isAscii, isAsciiAlnum, isAsciiDigit, isAsciiUpper, isAsciiLower, isSpace], by decide⟩
  unfold jsonEscChar
  split
  · exact ⟨_, _, rfl, hb⟩
  split
  · exact ⟨_, _, rfl, hb⟩
  split
  · exact ⟨_, _, rfl, hb⟩
  split
  · exact ⟨_, _, rfl, hb⟩
  split
  · exact ⟨_, _, rfl, hb⟩
  split
  · exact ⟨_, _, rfl, hb⟩
  split
  · exact ⟨_, _, rfl, hb⟩
  split
  · rename_i h1 _ _ _ _ _ _ h2
    have hv : valChar c = false := by
      cases hv : valChar c with
      | false => rfl
      | true =>
        exfalso
        apply h
        simp [plainValChar, h2, hv]
    refine ⟨c, [], rfl, hv, ?_⟩
    cases hq : quoteChar c with
    | false => rfl
    | true =>
      simp only [quoteChar, Bool.or_eq_true, beq_iff_eq] at hq
      rcases hq with rfl | rfl
      · rw [squote_val] at hv; cases hv
      · exact absurd rfl h1
  split
  · exact ⟨_, _, rfl, hb⟩
  · exact ⟨_, _, rfl, hb⟩

theorem split_first {p : Char → Bool} {s : Str} (h : ¬ s.all p = true) : ∃ a c t, s = a ++ c :: t ∧ (∀ d ∈ a, p d = true) ∧ ¬ p c = true := by
  induction s with
  | nil => exact absurd rfl h
  | cons c s ih =>
    by_cases hc : p c = true
    · obtain ⟨a, d, t, rfl, ha, hd⟩ := ih (by intro h2; apply h; simp [hc] at h2 ⊢; exact h2)
      exact ⟨c :: a, d, t, rfl, by intro x hx; rcases List.mem_cons.1 hx with rfl | hx; exacts [hc, ha x hx], hd⟩
    · exact ⟨[], c, s, rfl, by simp, hc⟩

/-- the value as it is read again -/
theorem readVal_dumps (j : Json) :
    valueOf (' ' :: (j.dumps ++ ['}'])) = rereadValue j := by
  have bare : ∀ w : Str, w ≠ [] → (∀ c ∈ w, valChar c = true ∧ isSpace c = false ∧ quoteChar c = false) →
      valueOf (' ' :: (w ++ ['}'])) = some w := by
    intro w hw hall
    cases hw' : w with
    | nil => exact absurd hw' hw
    | cons c t =>
      have hc := hall c (by simp [hw'])
      have e : ' ' :: (w ++ ['}']) = [' '] ++ (w ++ ['}']) := rfl
      rw [← hw', e, valueOf_some (readVal_bare [' '] (by decide) hw' hc.2.1 hc.2.2 (fun d hd => (hall d hd).1))]
      rw [afterQuote_brace, if_pos rfl]
  cases j with
  | null =>
    apply bare _ (by simp [Json.dumps])
    intro c hc
    simp only [Json.dumps, List.mem_cons, List.not_mem_nil, or_false] at hc
    rcases hc with rfl | rfl | rfl | rfl <;>
      exact ⟨by simp [valChar, isWord, isAscii, isAsciiAlnum, isAsciiDigit, isAsciiUpper, isAsciiLower, isSpace], by decide, by decide⟩
  | bool b =>
    cases b
    · apply bare _ (by simp [Json.dumps])
      intro c hc
      simp only [Json.dumps, List.mem_cons, List.not_mem_nil, or_false] at hc
      rcases hc with rfl | rfl | rfl | rfl | rfl <;>
        exact ⟨by simp [valChar, isWord, isAscii, isAsciiAlnum, isAsciiDigit, isAsciiUpper, isAsciiLower, isSpace], by decide, by decide⟩
    · apply bare _ (by simp [Json.dumps])
      intro c hc
      simp only [Json.dumps, List.mem_cons, List.not_mem_nil, or_false] at hc
      rcases hc with rfl | rfl | rfl | rfl <;>
        exact ⟨by simp [valChar, isWord, isAscii, isAsciiAlnum, isAsciiDigit, isAsciiUpper, isAsciiLower, isSpace], by decide, by decide⟩
  | int i =>
    show _ = some (intStr i)
    apply bare (intStr i)
    · intro h
      cases i with
      | ofNat n => exact natStr_ne n h
      | negSucc n => cases h
    · intro c hc
      have := intStr_numCh i c hc
      simp only [numCh, Bool.or_eq_true, beq_iff_eq] at this
      rcases this with h | rfl
      · simp only [isAsciiDigit, Bool.and_eq_true, decide_eq_true_eq] at h
        have hw : isWord c = true := by
          unfold isWord
          rw [if_pos (by simp only [isAscii, decide_eq_true_eq]; omega)]
          simp [isAsciiAlnum, isAsciiDigit, h]
        refine ⟨by simp [valChar, hw], word_not_space hw, ?_⟩
        cases hq : quoteChar c with
        | false => rfl
        | true =>
          simp only [quoteChar, Bool.or_eq_true, beq_iff_eq] at hq
          rcases hq with rfl | rfl
          · exact absurd h.1 (by decide)
          · exact absurd h.1 (by decide)
      · exact ⟨by simp [valChar], by decide, by decide⟩
  | str s =>
    show valueOf (' ' :: ('"' :: (List.flatMap jsonEscChar s ++ ['"']) ++ ['}'])) =
      (if s ≠ [] ∧ s.all plainValChar = true then some s else none)
    split
    · rename_i h
      have hall : ∀ c ∈ s, plainValChar c = true := by simpa using h.2
      have e : ' ' :: ('"' :: (List.flatMap jsonEscChar s ++ ['"']) ++ ['}']) = [' '] ++ ('"' :: (s ++ ['"', '}'])) := by
        rw [plain_escs hall]; simp
      rw [e, valueOf_some (readVal_quoted [' '] (by decide) (by decide) h.1 (fun c hc => plain_val (hall c hc)) ['"', '}']
        (by rintro y u e; cases e; exact dquote_not_val))]
      rfl
    · rename_i h
      by_cases h0 : s = []
      · subst h0
        have : readVal (' ' :: ('"' :: (List.flatMap jsonEscChar [] ++ ['"']) ++ ['}'])) = some ([' '], ['"', '"', '}']) := by
          unfold readVal
          simp only [List.flatMap_nil, List.nil_append, List.cons_append]
          have hd : (' ' :: '"' :: '"' :: ['}']).dropWhile isSpace = '"' :: '"' :: ['}'] := by decide
          have htk : (' ' :: '"' :: '"' :: ['}']).takeWhile isSpace = [' '] := by decide
          rw [hd, htk, dropOne_pos (by decide), List.takeWhile_cons_of_neg (by simp [dquote_not_val]), if_neg (by simp), if_neg (by decide)]
          rfl
        rw [valueOf_some this]
        rfl
      · have hnp : ¬ s.all plainValChar = true := fun hp => h ⟨h0, hp⟩
        obtain ⟨a, c, t, rfl, ha, hc⟩ := split_first hnp
        obtain ⟨d, u, hd, hdv, hdq⟩ := notPlain_esc hc
        have e : ' ' :: ('"' :: (List.flatMap jsonEscChar (a ++ c :: t) ++ ['"']) ++ ['}']) =
            ' ' :: '"' :: (a ++ d :: (u ++ List.flatMap jsonEscChar t ++ ['"', '}'])) := by
          rw [List.flatMap_append, plain_escs ha, List.flatMap_cons, hd]
          simp
        rw [e]
        exact readVal_lost (fun c hc => plain_val (ha c hc)) hdv hdq (by simp)
  | arr l =>
    unfold Json.dumps
    exact readVal_stop (by simp [valChar, isWord, isAscii, isAsciiAlnum, isAsciiDigit, isAsciiUpper, isAsciiLower, isSpace]) (by decide) (by simp)
  | obj l =>
    unfold Json.dumps
    exact readVal_stop (by simp [valChar, isWord, isAscii, isAsciiAlnum, isAsciiDigit, isAsciiUpper, isAsciiLower, isSpace]) (by decide) (by simp)


/-- no top-level string value with a `#` -/
def NoHash (j : Json) : Prop := ∀ s, j = .str s → '#' ∉ s

theorem esc_noHash {s : Str} (h : '#' ∉ s) : '#' ∉ s.flatMap jsonEscChar := by
  intro hm
  obtain ⟨c, hc, hm⟩ := List.mem_flatMap.1 hm
  have hu : ∀ n, '#' ∉ uEscape n := by
    intro n hn
    have hx : ∀ n, '#' ≠ hexLower n := by
      intro n
      unfold hexLower
      have : n % 16 < 16 := Nat.mod_lt _ (by decide)
      generalize n % 16 = k at this
      have : k = 0 ∨ k = 1 ∨ k = 2 ∨ k = 3 ∨ k = 4 ∨ k = 5 ∨ k = 6 ∨ k = 7 ∨ k = 8 ∨ k = 9 ∨ k = 10 ∨ k = 11 ∨ k = 12 ∨ k = 13 ∨ k = 14 ∨ k = 15 := by omega
      rcases this with rfl | rfl | rfl | rfl | rfl | rfl | rfl | rfl | rfl | rfl | rfl | rfl | rfl | rfl | rfl | rfl <;> decide
    simp only [uEscape, List.mem_cons, List.not_mem_nil, or_false] at hn
    rcases hn with h | h | h | h | h | h
    · exact absurd h (by decide)
    · exact absurd h (by decide)
    all_goals exact hx _ h
  unfold jsonEscChar at hm
  split at hm
  · exact absurd hm (by decide)
  split at hm
  · exact absurd hm (by decide)
  split at hm
  · exact absurd hm (by decide)
  split at hm
  · exact absurd hm (by decide)
  split at hm
  · exact absurd hm (by decide)
  split at hm
  · exact absurd hm (by decide)
  split at hm
  · exact absurd hm (by decide)
  split at hm
  · simp only [List.mem_cons, List.not_mem_nil, or_false] at hm
    exact h (hm ▸ hc)
  split at hm
  · exact hu _ hm
  · rcases List.mem_append.1 hm with hm | hm
    · exact hu _ hm
    · exact hu _ hm

/-- what is read from an exported metadata value -/
def rereadText (j : Json) : Option Str := valueOf (' ' :: beforeHash (j.dumps ++ ['}']))

/-- what an exported metadata line is read as -/
theorem readMeta_metaLine {k : Str} (hk : PlainKey k) (j : Json) :
    readMeta (beforeHash (metaLine (k, j))) = (rereadText j).map (fun v => (k, v)) := by
  have hline : beforeHash (metaLine (k, j)) = '{' :: (k ++ ':' :: ' ' :: beforeHash (j.dumps ++ ['}'])) := by
    unfold metaLine
    rw [beforeHash_cons (by decide), beforeHash_append (plainKey_noHash hk), beforeHash_cons (by decide), beforeHash_cons (by decide)]
  rw [hline, readMeta_key hk]
  rfl

theorem rereadText_eq {j : Json} (hj : NoHash j) : rereadText j = rereadValue j := by
  unfold rereadText
  have scalar : '#' ∉ j.dumps → valueOf (' ' :: beforeHash (j.dumps ++ ['}'])) = rereadValue j := by
    intro h
    rw [beforeHash_of_not_mem (by simp [h])]
    exact readVal_dumps j
  cases j with
  | null => exact scalar (by simp [Json.dumps])
  | bool b => cases b <;> exact scalar (by simp [Json.dumps])
  | int i =>
    apply scalar
    intro h
    have := intStr_numCh i '#' h
    exact absurd this (by decide)
  | str s =>
    apply scalar
    intro h
    simp only [Json.dumps, jsonStr, List.mem_cons, List.mem_append, List.not_mem_nil, or_false] at h
    rcases h with h | h | h
    · exact absurd h (by decide)
    · exact esc_noHash (hj s rfl) h
    · exact absurd h (by decide)
  | arr l =>
    have e : Json.dumps (.arr l) ++ ['}'] = '[' :: (Json.dumpsArr l ++ [']'] ++ ['}']) := by simp [Json.dumps]
    rw [e, beforeHash_cons (by decide)]
    exact readVal_stop (by simp [valChar, isWord, isAscii, isAsciiAlnum, isAsciiDigit, isAsciiUpper, isAsciiLower, isSpace]) (by decide) (by simp)
  | obj l =>
    have e : Json.dumps (.obj l) ++ ['}'] = '{' :: (Json.dumpsObj l ++ ['}'] ++ ['}']) := by simp [Json.dumps]
    rw [e, beforeHash_cons (by decide)]
    exact readVal_stop (by simp [valChar, isWord, isAscii, isAsciiAlnum, isAsciiDigit, isAsciiUpper, isAsciiLower, isSpace]) (by decide) (by simp)

theorem readMeta_head_none {c : Char} {t : Str} (h : c ≠ '{') : readMeta (c :: t) = none := by
  unfold readMeta
  split
  · rename_i e
    cases e
    exact absurd rfl h
  · rfl

/-- the metadata of an exported file, line by line -/
theorem metas_file {md : Dict Str Json} {cs : Dict Str (Option Str)} {vls : List Voteline} {vlines : List Str}
    (hv : List.Forall₂ PrintedAs vls vlines) (hk : ∀ kv ∈ md, PlainKey kv.1) :
    (fileLines md cs vlines).filterMap (fun l => readMeta (beforeHash l)) =
      md.filterMap (fun kv => (rereadText kv.2).map (fun v => (kv.1, v))) := by
  have h0 : ∀ t : Str, readMeta (beforeHash ('#' :: t)) = none := by
    intro t
    have : beforeHash ('#' :: t) = [] := by simp [beforeHash]
    rw [this]; rfl
  have hcand : (cs.map candLine).filterMap (fun l => readMeta (beforeHash l)) = [] := by
    rw [List.filterMap_eq_nil_iff]
    intro l hl
    obtain ⟨kv, _, rfl⟩ := List.mem_map.1 hl
    unfold candLine
    rw [beforeHash_cons (by decide)]
    exact readMeta_head_none (by decide)
  have hvote : vlines.filterMap (fun l => readMeta (beforeHash l)) = [] := by
    rw [List.filterMap_eq_nil_iff]
    refine forall₂_right (R := PrintedAs) (P := fun l => readMeta (beforeHash l) = none) ?_ hv
    rintro a b hab
    rw [(printed_facts hab).1]
    obtain ⟨p, prefs', _, _, hr, _⟩ := hab
    rw [← matchMeta_eq]
    exact matchMeta_none_of_vote hr
  have hmd : (md.map metaLine).filterMap (fun l => readMeta (beforeHash l)) =
      md.filterMap (fun kv => (rereadText kv.2).map (fun v => (kv.1, v))) := by
    rw [List.filterMap_map]
    apply List.filterMap_congr
    rintro ⟨k, j⟩ hm
    exact readMeta_metaLine (hk _ hm) j
  have e1 : readMeta (beforeHash headMeta) = none := h0 _
  have e2 : readMeta (beforeHash headCand) = none := h0 _
  have e3 : readMeta (beforeHash headVote) = none := h0 _
  unfold fileLines
  simp only [List.filterMap_cons, List.filterMap_append, e1, e2, e3]
  rw [hcand, hvote, hmd]
  simp

/-- where a metadata key is filed -/
def filedAs (k : Str) : Str := if k = c!"ballotcount" then c!"ballotcount_abif_metadata" else k

theorem metas_none (md : Dict Str Json) (k : Str) (h : ∀ kv ∈ md, filedAs kv.1 ≠ k) :
    (md.filterMap (fun kv => (rereadText kv.2).map (fun v => (kv.1, v)))).filter (fun kv => decide (filedAs kv.1 = k)) = [] := by
  rw [List.filter_eq_nil_iff]
  rintro ⟨a, v⟩ hm
  obtain ⟨kv, hkv, e⟩ := List.mem_filterMap.1 hm
  obtain ⟨v', _, e⟩ := Option.map_eq_some_iff.1 e
  cases e
  simpa using h kv hkv

theorem metas_last {md : Dict Str Json} (hwf : Dict.WF md) {k0 k : Str} (hf : filedAs k0 = k)
    (huniq : ∀ kv ∈ md, filedAs kv.1 = k → kv.1 = k0) :
    (((md.filterMap (fun kv => (rereadText kv.2).map (fun v => (kv.1, v)))).filter
      (fun kv => decide (filedAs kv.1 = k))).getLast?).map Prod.snd = (Dict.get? md k0).bind rereadText := by
  induction md with
  | nil => rfl
  | cons e md ih =>
    obtain ⟨a, j⟩ := e
    have hwf' : Dict.WF md := by
      unfold Dict.WF at hwf ⊢
      exact (List.nodup_cons.1 hwf).2
    have ha : a ∉ Dict.keys md := (List.nodup_cons.1 hwf).1
    by_cases hak : a = k0
    · subst hak
      have hnone := metas_none md k (by
        intro kv hkv e
        have := huniq kv (by simp [hkv]) e
        apply ha
        rw [← this]
        exact List.mem_map_of_mem (f := Prod.fst) hkv)
      rw [List.filterMap_cons]
      simp only [Dict.get?, if_true, Option.bind_some]
      cases hr : rereadText j with
      | none => simp only [Option.map_none, hnone]; rfl
      | some v => simp only [Option.map_some, List.filter_cons, hf, decide_true, if_true, hnone]; rfl
    · have hne : ¬ filedAs a = k := fun e => hak (huniq (a, j) (by simp) e)
      have hrec := ih hwf' (fun kv hkv => huniq kv (by simp [hkv]))
      rw [List.filterMap_cons]
      simp only [Dict.get?, if_neg hak]
      rw [← hrec]
      cases rereadText j with
      | none => rfl
      | some v => simp only [Option.map_some, List.filter_cons, hne, decide_false, Bool.false_eq_true, if_false]

end Verif
