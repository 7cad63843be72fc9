/-
Helper lemmas on percent-encoding and UTF-8.
-/
import Verif.Py.Url
import Verif.Lib.JsonInj

set_option linter.unusedSimpArgs false
set_option linter.unusedSectionVars false

namespace Verif

theorem char_ofNat_toNat (c : Char) : Char.ofNat c.toNat = c := Char.ofNat_toNat c

theorem decodeUtf8_char (c : Char) (t : List Nat) : decodeUtf8 (utf8Bytes c ++ t) = c :: decodeUtf8 t := by
  have hsc := char_scalar c
  have hc := char_ofNat_toNat c
  generalize hn : c.toNat = n at hsc hc
  unfold utf8Bytes
  simp only [hn]
  by_cases h1 : n < 0x80
  · simp only [h1, if_true, List.cons_append, List.nil_append]
    rw [decodeUtf8.eq_def]; simp only; rw [if_pos h1, hc]
  · by_cases h2 : n < 0x800
    · simp only [h1, h2, if_true, if_false, List.cons_append, List.nil_append]
      rw [decodeUtf8.eq_def]; simp only; rw [if_neg (by omega), if_pos (by simp; omega)]
      rw [if_pos (by unfold isCont; simp; omega), show (0xC0 + n / 64 - 0xC0) * 64 + (0x80 + n % 64 - 0x80) = n by omega, hc]
    · by_cases h3 : n < 0x10000
      · simp only [h1, h2, h3, if_true, if_false, List.cons_append, List.nil_append]
        rw [decodeUtf8.eq_def]; simp only; rw [if_neg (by omega), if_neg (by simp; omega), if_pos (by simp; omega)]
        rw [if_pos (by unfold okSecond3 isCont; simp; omega)]
        rw [if_pos (by unfold isCont; simp; omega),
          show (0xE0 + n / 4096 - 0xE0) * 4096 + (0x80 + n / 64 % 64 - 0x80) * 64 + (0x80 + n % 64 - 0x80) = n by omega, hc]
      · simp only [h1, h2, h3, if_true, if_false, List.cons_append, List.nil_append]
        rw [decodeUtf8.eq_def]; simp only; rw [if_neg (by omega), if_neg (by simp; omega), if_neg (by simp; omega), if_pos (by simp; omega)]
        rw [if_pos (by unfold okSecond4 isCont; simp; omega)]
        rw [if_pos (by unfold isCont; simp; omega)]
        rw [if_pos (by unfold isCont; simp; omega),
          show (0xF0 + n / 262144 - 0xF0) * 262144 + (0x80 + n / 4096 % 64 - 0x80) * 4096 + (0x80 + n / 64 % 64 - 0x80) * 64 +
            (0x80 + n % 64 - 0x80) = n by omega, hc]

theorem decodeUtf8_encode (s : Str) : decodeUtf8 (s.flatMap utf8Bytes) = s := by
  induction s with
  | nil => simp [decodeUtf8]
  | cons c s ih => rw [List.flatMap_cons, decodeUtf8_char, ih]

theorem utf8Bytes_lt (c : Char) : ∀ b ∈ utf8Bytes c, b < 256 := by
  have hsc := char_scalar c
  unfold utf8Bytes
  generalize c.toNat = n at hsc
  intro b hb
  simp only at hb
  split at hb
  · simp at hb; omega
  · split at hb
    · simp at hb; omega
    · split at hb
      · simp at hb; omega
      · simp at hb; omega

theorem hexVal_hexUpper (n : Nat) : hexVal (hexUpper n) = some (n % 16) := by
  have : hexUpper n = hexUpper (n % 16) := by unfold hexUpper; simp
  rw [this]
  have h : n % 16 < 16 := Nat.mod_lt _ (by decide)
  generalize n % 16 = m at h
  have : m = 0 ∨ m = 1 ∨ m = 2 ∨ m = 3 ∨ m = 4 ∨ m = 5 ∨ m = 6 ∨ m = 7 ∨ m = 8 ∨ m = 9 ∨ m = 10 ∨ m = 11 ∨ m = 12 ∨
    m = 13 ∨ m = 14 ∨ m = 15 := by omega
  rcases this with rfl | rfl | rfl | rfl | rfl | rfl | rfl | rfl | rfl | rfl | rfl | rfl | rfl | rfl | rfl | rfl <;> rfl

theorem unquoteBytes_cons {c : Char} (h : c ≠ '%') (t : Str) : unquoteBytes (c :: t) = c.toNat :: unquoteBytes t := by
  match t with
  | [] => simp [unquoteBytes]
  | [d] => simp [unquoteBytes]
  | a :: b :: t =>
    rw [unquoteBytes]
    split
    · rw [if_neg h]
    · rfl

theorem unquoteBytes_pct {b : Nat} (h : b < 256) (t : Str) : unquoteBytes (pctByte b ++ t) = b :: unquoteBytes t := by
  unfold pctByte
  simp only [List.cons_append, List.nil_append]
  rw [unquoteBytes, hexVal_hexUpper, hexVal_hexUpper]
  simp only [if_true]
  congr 1
  omega

theorem unquoteBytes_pcts {bs : List Nat} (h : ∀ b ∈ bs, b < 256) (t : Str) :
    unquoteBytes (bs.flatMap pctByte ++ t) = bs ++ unquoteBytes t := by
  induction bs with
  | nil => rfl
  | cons b bs ih =>
    rw [List.flatMap_cons, List.append_assoc, unquoteBytes_pct (h b (by simp)), ih (fun b hb => h b (by simp [hb]))]
    rfl

/-- what `quote_plus` produces for one character, with `+` read back as a blank -/
def quotedBack (c : Char) : Str := (quotePlusChar c).map (fun c => if c = '+' then ' ' else c)

theorem hexUpper_props (n : Nat) : hexUpper n ≠ '+' ∧ isAscii (hexUpper n) = true ∧ isSpace (hexUpper n) = false ∧
    isLineBreak (hexUpper n) = false ∧ hexUpper n ≠ '&' ∧ hexUpper n ≠ '=' := by
  have : hexUpper n = hexUpper (n % 16) := by unfold hexUpper; simp
  rw [this]
  have h : n % 16 < 16 := Nat.mod_lt _ (by decide)
  generalize n % 16 = m at h
  have : m = 0 ∨ m = 1 ∨ m = 2 ∨ m = 3 ∨ m = 4 ∨ m = 5 ∨ m = 6 ∨ m = 7 ∨ m = 8 ∨ m = 9 ∨ m = 10 ∨ m = 11 ∨ m = 12 ∨
    m = 13 ∨ m = 14 ∨ m = 15 := by omega
  rcases this with rfl | rfl | rfl | rfl | rfl | rfl | rfl | rfl | rfl | rfl | rfl | rfl | rfl | rfl | rfl | rfl <;>
    decide

theorem pct_back (bs : List Nat) : (bs.flatMap pctByte).map (fun c => if c = '+' then ' ' else c) = bs.flatMap pctByte := by
  induction bs with
  | nil => rfl
  | cons b bs ih =>
    rw [List.flatMap_cons, List.map_append, ih]
    unfold pctByte
    simp [(hexUpper_props (b / 16)).1, (hexUpper_props b).1]

theorem urlSafe_ascii {c : Char} (h : isUrlSafe c = true) : c.toNat < 128 ∧ c ≠ '+' ∧ c ≠ '%' ∧ c ≠ '&' ∧ c ≠ '=' ∧
    isSpace c = false ∧ isLineBreak c = false := by
  have hcases : c.toNat = 95 ∨ c.toNat = 46 ∨ c.toNat = 45 ∨ c.toNat = 126 ∨ (48 ≤ c.toNat ∧ c.toNat ≤ 57) ∨
      (65 ≤ c.toNat ∧ c.toNat ≤ 90) ∨ (97 ≤ c.toNat ∧ c.toNat ≤ 122) := by
    simp only [isUrlSafe, isAsciiAlnum, isAsciiDigit, isAsciiUpper, isAsciiLower, Bool.or_eq_true, Bool.and_eq_true,
      decide_eq_true_eq, beq_iff_eq] at h
    rcases h with (((h | h) | h) | h) | h
    · rcases h with (h | h) | h <;> omega
    · rw [h]; decide
    · rw [h]; decide
    · rw [h]; decide
    · rw [h]; decide
  have hne : ∀ d : Char, c.toNat ≠ d.toNat → c ≠ d := fun d h e => h (by rw [e])
  refine ⟨by omega, hne _ (by simp; omega), hne _ (by simp; omega), hne _ (by simp; omega), hne _ (by simp; omega), ?_, ?_⟩
  · unfold isSpace; simp; omega
  · unfold isLineBreak; simp; omega

theorem quotedBack_bytes (c : Char) (t : Str) : unquoteBytes (quotedBack c ++ t) = utf8Bytes c ++ unquoteBytes t := by
  unfold quotedBack quotePlusChar
  split
  · rename_i h
    obtain ⟨h1, h2, h3, _⟩ := urlSafe_ascii h
    simp only [List.map_cons, List.map_nil, h2, if_false, List.cons_append, List.nil_append]
    rw [unquoteBytes_cons h3]
    unfold utf8Bytes; simp [h1]
  · split
    · rename_i h
      subst h
      simp only [List.map_cons, List.map_nil, if_true, List.cons_append, List.nil_append]
      rw [unquoteBytes_cons (by decide)]
      rfl
    · rw [pct_back, unquoteBytes_pcts (utf8Bytes_lt c)]

theorem quotedBack_ascii (c : Char) : ∀ d ∈ quotedBack c, isAscii d = true := by
  unfold quotedBack quotePlusChar
  split
  · rename_i h
    obtain ⟨h1, h2, _⟩ := urlSafe_ascii h
    intro d hd
    simp [h2] at hd
    subst hd; simp [isAscii, h1]
  · split
    · intro d hd; simp at hd; subst hd; decide
    · rw [pct_back]
      intro d hd
      obtain ⟨b, _, hd⟩ := List.mem_flatMap.1 hd
      unfold pctByte at hd
      simp only [List.mem_cons, List.not_mem_nil, or_false] at hd
      rcases hd with rfl | rfl | rfl
      · decide
      · exact (hexUpper_props _).2.1
      · exact (hexUpper_props _).2.1

theorem unquoteAux_ascii {s : Str} (h : ∀ c ∈ s, isAscii c = true) (acc : Str) :
    unquoteAux s acc = decodeUtf8 (unquoteBytes (acc.reverse ++ s)) := by
  induction s generalizing acc with
  | nil => simp [unquoteAux]
  | cons c s ih =>
    rw [unquoteAux, if_pos (h c (by simp)), ih (fun c hc => h c (by simp [hc]))]; simp

/-- decoding what `quote_plus` encoded gives the text back -/
theorem unquotePlus_quotePlus (s : Str) : unquotePlus (quotePlus s) = s := by
  have e : (quotePlus s).map (fun c => if c = '+' then ' ' else c) = s.flatMap quotedBack := by
    unfold quotePlus quotedBack; rw [List.map_flatMap]
  unfold unquotePlus unquote
  rw [e, unquoteAux_ascii]
  · rw [List.reverse_nil, List.nil_append]
    have : unquoteBytes (s.flatMap quotedBack) = s.flatMap utf8Bytes := by
      induction s with
      | nil => rfl
      | cons c s ih =>
        rw [List.flatMap_cons, quotedBack_bytes, List.flatMap_cons]
        rw [ih (by unfold quotePlus quotedBack; rw [List.map_flatMap])]
    rw [this, decodeUtf8_encode]
  · intro c hc
    obtain ⟨d, _, hd⟩ := List.mem_flatMap.1 hc
    exact quotedBack_ascii d c hd

/-- `quote_plus` produces no separator, blank or line break -/
theorem quotePlus_clean (s : Str) : ∀ c ∈ quotePlus s, c ≠ '&' ∧ c ≠ '=' ∧ isSpace c = false ∧ isLineBreak c = false := by
  intro c hc
  obtain ⟨d, _, hd⟩ := List.mem_flatMap.1 hc
  unfold quotePlusChar at hd
  split at hd
  · rename_i h
    simp at hd; subst hd
    obtain ⟨_, _, _, h1, h2, h3, h4⟩ := urlSafe_ascii h
    exact ⟨h1, h2, h3, h4⟩
  · split at hd
    · simp at hd; subst hd; decide
    · obtain ⟨b, _, hd⟩ := List.mem_flatMap.1 hd
      unfold pctByte at hd
      simp only [List.mem_cons, List.not_mem_nil, or_false] at hd
      have hx := fun n => (hexUpper_props n).2.2
      rcases hd with rfl | rfl | rfl
      · decide
      · exact ⟨(hx _).2.2.1, (hx _).2.2.2, (hx _).1, (hx _).2.1⟩
      · exact ⟨(hx _).2.2.1, (hx _).2.2.2, (hx _).1, (hx _).2.1⟩

/-! ### splitting -/

theorem splitCharAux_no {sep : Char} {s : Str} (h : ∀ c ∈ s, c ≠ sep) (cur t : Str) :
    splitCharAux sep (s ++ sep :: t) cur = (cur.reverse ++ s) :: splitCharAux sep t [] := by
  induction s generalizing cur with
  | nil => simp [splitCharAux]
  | cons c s ih =>
    rw [List.cons_append, splitCharAux, if_neg (h c (by simp)), ih (fun c hc => h c (by simp [hc]))]; simp

theorem splitCharAux_end {sep : Char} {s : Str} (h : ∀ c ∈ s, c ≠ sep) (cur : Str) :
    splitCharAux sep s cur = [cur.reverse ++ s] := by
  induction s generalizing cur with
  | nil => simp [splitCharAux]
  | cons c s ih =>
    rw [splitCharAux, if_neg (h c (by simp)), ih (fun c hc => h c (by simp [hc]))]; simp

/-- splitting joined pieces gives them back (the empty list gives one empty piece) -/
theorem splitChar_join {sep : Char} {ps : List Str} (h : ∀ p ∈ ps, ∀ c ∈ p, c ≠ sep) (hne : ps ≠ []) :
    splitChar sep (joinStr [sep] ps) = ps := by
  unfold splitChar
  induction ps with
  | nil => exact absurd rfl hne
  | cons p ps ih =>
    cases ps with
    | nil => rw [joinStr, splitCharAux_end (h p (by simp))]; rfl
    | cons q ps =>
      rw [joinStr, List.append_assoc, List.cons_append, List.nil_append, splitCharAux_no (h p (by simp)),
        ih (fun p hp => h p (by simp [hp])) (by simp)]
      rfl

theorem splitEq_append {k : Str} (h : ∀ c ∈ k, c ≠ '=') (v : Str) : splitEq (k ++ '=' :: v) = some (k, v) := by
  induction k with
  | nil => simp [splitEq]
  | cons c k ih =>
    rw [List.cons_append, splitEq, if_neg (h c (by simp)), ih (fun c hc => h c (by simp [hc]))]; rfl

/-- grouping pairs with distinct names gives each name its one value -/
theorem parseQsGroup_nodup {ps : List (Str × Str)} {d : Dict Str (List Str)}
    (h : (d.map Prod.fst ++ ps.map Prod.fst).Nodup) :
    parseQsGroup ps d = d ++ ps.map (fun (p : Str × Str) => (p.1, [p.2])) := by
  induction ps generalizing d with
  | nil => simp [parseQsGroup]
  | cons p ps ih =>
    obtain ⟨k, v⟩ := p
    have hk : k ∉ Dict.keys d := by
      intro hk
      rw [List.nodup_append] at h
      exact h.2.2 k hk k (by simp) rfl
    rw [parseQsGroup, Dict.get?_eq_none.2 hk, Dict.set_of_not_mem _ hk, ih]
    · simp
    · simpa using h

end Verif
