/-
Properties of short tokens (C45, C46).
-/
import Verif.Model.Token
import Verif.Lib.Export

set_option linter.unusedSectionVars false
set_option linter.unusedSimpArgs false

namespace Verif.Props

/-- a character of `[A-Za-z0-9_]` -/
def TokChar (c : Char) : Prop := isAsciiAlnum c = true ∨ c = '_'

theorem collapse_tok (b : Bool) (s : Str) : ∀ c ∈ collapseAux b s, TokChar c := by
  induction s generalizing b with
  | nil => simp [collapseAux]
  | cons a s ih =>
    intro c hc
    unfold collapseAux at hc
    split at hc
    · rename_i h
      rcases List.mem_cons.1 hc with rfl | hc
      · exact .inl h
      · exact ih _ c hc
    · split at hc
      · exact ih _ c hc
      · rcases List.mem_cons.1 hc with rfl | hc
        · exact .inr rfl
        · exact ih _ c hc

theorem reSubAux_mem (m : Str → Option Nat) (repl : Str) (n : Nat) (s : Str) :
    ∀ c ∈ reSubAux m repl n s, c ∈ repl ∨ c ∈ s := by
  induction s generalizing n with
  | nil => intro c hc; cases n <;> simp [reSubAux] at hc
  | cons a s ih =>
    intro c hc
    cases n with
    | succ n =>
      rw [reSubAux] at hc
      rcases ih n c hc with h | h
      · exact .inl h
      · exact .inr (by simp [h])
    | zero =>
      rw [reSubAux] at hc
      split at hc
      · rcases List.mem_append.1 hc with h | h
        · exact .inl h
        · rcases ih _ c h with h | h
          · exact .inl h
          · exact .inr (by simp [h])
      · rcases List.mem_cons.1 hc with rfl | h
        · exact .inr (by simp)
        · rcases ih _ c h with h | h
          · exact .inl h
          · exact .inr (by simp [h])

theorem cleaned_tok (n : Nat) (s : Str) : ∀ c ∈ (writeInSub (collapseAux false s)).take n, TokChar c := by
  intro c hc
  have hc := List.mem_of_mem_take hc
  rcases reSubAux_mem _ _ _ _ c hc with h | h
  · simp only [List.mem_cons, List.not_mem_nil, or_false] at h
    rcases h with rfl | rfl | rfl
    · exact .inl (by decide)
    · exact .inl (by decide)
    · exact .inr rfl
  · exact collapse_tok _ _ c h

/-- the letters and digits meant in this file and in the model's character classes -/
def lettersAndDigits : Str := c!"0123456789ABCDEFGHIJKLMNOPQRSTUVWXYZabcdefghijklmnopqrstuvwxyz"

theorem ascii_class {p : Char → Bool} {L : Str} (hp : ∀ c, p c = true → c.toNat < 128)
    (h : ∀ n < 128, p (Char.ofNat n) = L.contains (Char.ofNat n)) (hL : ∀ c ∈ L, c.toNat < 128) (c : Char) : p c = true ↔ c ∈ L := by
  have key : c.toNat < 128 → (p c = true ↔ c ∈ L) := by
    intro hc
    have := h _ hc
    rw [Char.ofNat_toNat] at this
    rw [this]
    simp
  exact ⟨fun hc => (key (hp c hc)).1 hc, fun hc => (key (hL c hc)).2 hc⟩

/-- C46: which characters count as letters and digits. -/
theorem C46_letters (c : Char) : isAsciiAlnum c = true ↔ c ∈ lettersAndDigits := by
  refine ascii_class ?_ (by decide +kernel) (by decide +kernel) c
  intro c hc
  unfold isAsciiAlnum isAsciiDigit isAsciiUpper isAsciiLower at hc
  simp at hc
  omega

/-- C46.  A token has at most `max_length` characters. -/
theorem C46_length (n : Nat) (s : Str) : (abifToken n s).length ≤ n := by
  unfold abifToken
  split
  · rename_i h; simp only [Bool.and_eq_true, decide_eq_true_eq] at h; exact h.1
  · exact List.length_take_le _ _

/-- C46.  All characters of a token are in `[A-Za-z0-9_]`.  Missing for the full claim: names that end with a line
break (see `C46_newline`). -/
theorem C46_chars_partial (n : Nat) (s : Str) (hs : s.getLast? ≠ some '\n') : ∀ c ∈ abifToken n s, TokChar c := by
  unfold abifToken
  split
  · rename_i h
    simp only [Bool.and_eq_true, decide_eq_true_eq] at h
    have h := h.2
    unfold alnumMatch at h
    simp only [Bool.or_eq_true, Bool.and_eq_true, bne_iff_ne, ne_eq, beq_iff_eq, List.all_eq_true] at h
    rcases h with h | h
    · intro c hc; exact .inl (h.2 c hc)
    · exact absurd h.1.1 hs
  · exact cleaned_tok n s

/-- C46.  Such a token is written in .abif text as it is, without brackets. -/
theorem C46_no_quoting (n : Nat) (s : Str) (hs : s.getLast? ≠ some '\n') : tokenQuote (abifToken n s) = abifToken n s := by
  have hq : quotePlus (abifToken n s) = abifToken n s := by
    rw [quotePlus_eq_iff]
    intro c hc
    rcases C46_chars_partial n s hs c hc with h | h
    · unfold isUrlSafe; simp [h]
    · rw [h]; decide
  unfold tokenQuote; simp [hq]

/-- C46.  A non-empty name of letters and digits that is short enough is its own token. -/
theorem C46_short (n : Nat) (s : Str) (hne : s ≠ []) (ha : ∀ c ∈ s, isAsciiAlnum c = true) (hl : s.length ≤ n) :
    abifToken n s = s := by
  unfold abifToken
  rw [if_pos]
  simp only [Bool.and_eq_true, decide_eq_true_eq]
  refine ⟨hl, ?_⟩
  unfold alnumMatch
  simp only [Bool.or_eq_true, Bool.and_eq_true, bne_iff_ne, ne_eq, List.all_eq_true]
  exact .inl ⟨hne, ha⟩

/-- The limit of C46: a short alphanumeric name followed by a line break is returned with the line break. -/
theorem C46_newline : abifToken 20 c!"Ann\n" = c!"Ann\n" ∧ ¬ ∀ c ∈ abifToken 20 c!"Ann\n", TokChar c := by
  have h : abifToken 20 c!"Ann\n" = c!"Ann\n" := by decide
  refine ⟨h, ?_⟩
  rw [h]
  intro hc
  rcases hc '\n' (by simp) with h | h
  · exact absurd h (by decide)
  · exact absurd h (by decide)

set_option maxRecDepth 20000 in
example : abifToken 20 c!"WRITE-IN: José O'Neil, Jr." = c!"wi_Jos_O_Neil_Jr_" := by decide +kernel
example : (c!"José O'Neil").getLast? ≠ some '\n' := by decide
example : (∀ c ∈ c!"Candidate7", isAsciiAlnum c = true) ∧ (c!"Candidate7").length ≤ 20 := by decide

theorem alnum_not_space {c : Char} (h : isSpace c = true) : isAsciiAlnum c = false := by
  unfold isSpace at h
  unfold isAsciiAlnum isAsciiDigit isAsciiUpper isAsciiLower
  simp only [Bool.or_eq_true, Bool.and_eq_true, decide_eq_true_eq, beq_iff_eq] at h
  simp only [Bool.or_eq_false_iff, Bool.and_eq_false_iff, decide_eq_false_iff_not]
  omega

theorem words_filter (s cur : Str) : ((wordsAux s cur).map (fun w => w.filter isAsciiAlnum)).flatten = (cur.reverse ++ s).filter isAsciiAlnum := by
  induction s generalizing cur with
  | nil =>
    cases cur with
    | nil => simp [wordsAux]
    | cons c cur => simp [wordsAux]
  | cons c t ih =>
    unfold wordsAux
    split
    · rename_i hc
      have hn : isAsciiAlnum c = false := alnum_not_space hc
      split
      · rename_i h0
        subst h0
        rw [ih]
        simp [hn]
      · rw [List.map_cons, List.flatten_cons, ih]
        simp [hn]
    · rw [ih]
      simp

/-- C46.  The token of a Debian option that is not short and alphanumeric already: the first twenty letters and digits of its
name, whatever is between them. -/
theorem C46_debian (sha : Str → Str) (s : Str) (h : 20 < s.length ∨ ∃ c ∈ s, isAsciiAlnum c = false ∧ c ≠ '\n') :
    debToken sha 20 false s = (s.filter isAsciiAlnum).take 20 := by
  unfold debToken
  rw [if_neg, if_neg (by simp)]
  · unfold debClean pySplit
    rw [words_filter]
    rfl
  · simp only [Bool.and_eq_true, decide_eq_true_eq, not_and]
    intro hl
    rcases h with h | ⟨c, hc, h1, h2⟩
    · omega
    · unfold alnumMatch
      simp only [Bool.or_eq_true, Bool.and_eq_true, List.all_eq_true, not_or]
      refine ⟨fun hx => ?_, fun hx => ?_⟩
      · rw [hx.2 c hc] at h1; cases h1
      · have hlast := hx.1.1
        have hne : s ≠ [] := List.ne_nil_of_mem hc
        have hs := List.dropLast_append_getLast hne
        rw [← hs, List.mem_append] at hc
        rcases hc with hc | hc
        · rw [hx.2 c hc] at h1; cases h1
        · have h3 : c = s.getLast hne := by simpa using hc
          rw [List.getLast?_eq_some_getLast hne] at hlast
          apply h2
          rw [h3]
          simpa using hlast

example : 20 < (c!"Bdale Garbee, of the Debian project").length ∧
    debToken id 20 false c!"Moshe Zadka's" = c!"MosheZadkas" := by decide

/-- C46 for Debian options: with the program's hash (four letters or digits) every token has at most twenty characters, all
of them letters or digits (names are taken from lines, so they hold no line break). -/
theorem C46_debian_token (sha : Str → Str) (hlen : ∀ s, (sha s).length ≤ 4) (hch : ∀ s, ∀ c ∈ sha s, isAsciiAlnum c = true) (b : Bool) (s : Str)
    (hs : '\n' ∉ s) : (debToken sha 20 b s).length ≤ 20 ∧ ∀ c ∈ debToken sha 20 b s, isAsciiAlnum c = true := by
  have hclean : ∀ c ∈ debClean s, isAsciiAlnum c = true := by
    intro c hc
    unfold debClean pySplit at hc
    rw [words_filter] at hc
    exact (List.mem_filter.1 hc).2
  unfold debToken
  split
  · rename_i h
    simp only [Bool.and_eq_true, decide_eq_true_eq] at h
    refine ⟨h.1, ?_⟩
    have h2 := h.2
    unfold alnumMatch at h2
    simp only [Bool.or_eq_true, Bool.and_eq_true, bne_iff_ne, ne_eq, beq_iff_eq, List.all_eq_true] at h2
    rcases h2 with h2 | h2
    · exact h2.2
    · exact absurd (List.mem_of_getLast? h2.1.1) hs
  · split
    · have := hlen s
      refine ⟨?_, ?_⟩
      · rw [List.length_append, List.length_take]; omega
      · intro c hc
        rcases List.mem_append.1 hc with hc | hc
        · exact hclean c (List.mem_of_mem_take hc)
        · exact hch s c hc
    · exact ⟨List.length_take_le _ _, fun c hc => hclean c (List.mem_of_mem_take hc)⟩

theorem debTokensAux_length (sha : Str → Str) (names seen : List Str) : (debTokensAux sha names seen).length = names.length := by
  induction names generalizing seen with
  | nil => rfl
  | cons o t ih => simp [debTokensAux, ih]

theorem debTokensAux_rule (sha : Str → Str) (names seen : List Str) (i : Nat) (o t : Str) (ho : names[i]? = some o)
    (ht : (debTokensAux sha names seen)[i]? = some t) :
    t = if debToken sha 20 false (notaSub o) ∈ (debTokensAux sha names seen).take i ∨ debToken sha 20 false (notaSub o) ∈ seen
      then debToken sha 20 true (notaSub o) else debToken sha 20 false (notaSub o) := by
  induction names generalizing seen i with
  | nil => cases ho
  | cons n names ih =>
    unfold debTokensAux at ht ⊢
    simp only at ht ⊢
    cases i with
    | zero =>
      simp only [List.getElem?_cons_zero, Option.some.injEq] at ho ht
      subst ho
      rw [← ht]
      simp only [List.take_zero, List.not_mem_nil, false_or]
    | succ i =>
      simp only [List.getElem?_cons_succ] at ho ht
      rw [ih _ i ho ht, List.take_succ_cons]
      simp only [List.mem_cons]
      congr 1
      apply propext
      constructor
      · rintro (h | h | h)
        · exact .inl (.inr h)
        · exact .inl (.inl h)
        · exact .inr h
      · rintro ((h | h) | h)
        · exact .inr (.inl h)
        · exact .inl h
        · exact .inr (.inr h)

/-- C45/C46, Debian import: there is one token per option, in order; it is the plain token of its option unless an earlier
option has that token, and then the hashed token. -/
theorem C45_debian_rule (sha : Str → Str) (names : List Str) :
    (debTokens sha names).length = names.length ∧
    ∀ i o t, names[i]? = some o → (debTokens sha names)[i]? = some t →
      (debToken sha 20 false (notaSub o) ∉ (debTokens sha names).take i → t = debToken sha 20 false (notaSub o)) ∧
      (debToken sha 20 false (notaSub o) ∈ (debTokens sha names).take i → t = debToken sha 20 true (notaSub o)) := by
  refine ⟨debTokensAux_length sha names [], ?_⟩
  intro i o t ho ht
  have := debTokensAux_rule sha names [] i o t ho ht
  simp only [List.not_mem_nil, or_false] at this
  refine ⟨fun h => ?_, fun h => ?_⟩
  · rw [this]; exact if_neg h
  · rw [this]; exact if_pos h

-- a clash, and the hash added to the second option
example : debTokens (fun _ => c!"ABCD") [c!"Ann Lee", c!"Ann-Lee"] = [c!"AnnLee", c!"AnnLeeABCD"] := by decide +kernel

/-! ### collisions (C45) -/

/-- C45 for names that are already good tokens: for every importer the tokens are the names themselves, so different
candidates keep different tokens.  Missing for the full claim: all other names (see the collisions below). -/
theorem C45_distinct_partial (sha : Str → Str) (names : List Str)
    (h : ∀ s ∈ names, s ≠ [] ∧ (∀ c ∈ s, isAsciiAlnum c = true) ∧ s.length ≤ 20) (hd : names.Nodup)
    (hn : ∀ s ∈ names, notaSub s = s) :
    (names.map (abifToken 20)).Nodup ∧ (names.map preflibToken).Nodup ∧ (debTokens sha names).Nodup ∧
    names.map (abifToken 20) = names ∧ names.map preflibToken = names ∧ debTokens sha names = names := by
  have h1 : names.map (abifToken 20) = names := by
    refine (List.map_congr_left ?_).trans (List.map_id names)
    intro s hs
    obtain ⟨a, b, c⟩ := h s hs
    exact C46_short 20 s a b c
  have h2 : names.map preflibToken = names := by
    refine (List.map_congr_left ?_).trans (List.map_id names)
    intro s hs
    unfold preflibToken
    rw [id_eq, List.filter_eq_self]
    intro c hc
    have := (h s hs).2.1 c hc
    simp only [bne_iff_ne, ne_eq]
    rintro rfl
    exact absurd this (by decide)
  have h3 : ∀ seen, debTokensAux sha names seen = names := by
    clear h1 h2 hd
    induction names with
    | nil => intro seen; rfl
    | cons s names ih =>
      intro seen
      obtain ⟨a, b, c⟩ := h s (by simp)
      have hm : (decide (s.length ≤ 20) && alnumMatch s) = true := by
        simp only [Bool.and_eq_true, decide_eq_true_eq]
        refine ⟨c, ?_⟩
        unfold alnumMatch
        simp only [Bool.or_eq_true, Bool.and_eq_true, bne_iff_ne, ne_eq, List.all_eq_true]
        exact .inl ⟨a, b⟩
      have ht : ∀ x, debToken sha 20 x s = s := by
        intro x; unfold debToken; rw [if_pos hm]
      rw [debTokensAux, hn s (by simp), ht, ht]
      simp only [ite_self]
      rw [ih (fun s hs => h s (by simp [hs])) (fun s hs => hn s (by simp [hs]))]
  have h4 : debTokens sha names = names := h3 []
  refine ⟨by rw [h1]; exact hd, by rw [h2]; exact hd, by rw [h4]; exact hd, h1, h2, h4⟩

/-- C45 for PrefLib: two alternatives get different tokens exactly when their names differ in more than blanks. -/
theorem C45_preflib (a b : Str) : preflibToken a = preflibToken b ↔ a.filter (· ≠ ' ') = b.filter (· ≠ ' ') := by
  unfold preflibToken
  simp only [bne_iff_ne, ne_eq]
  have : ∀ s : Str, s.filter (fun c => c != ' ') = s.filter (fun c => decide (¬ c = ' ')) := by
    intro s
    apply List.filter_congr
    intro c _
    rw [Bool.eq_iff_iff]; simp
  rw [this, this]

/-- C45 is false of the PrefLib import: "Al Bo" and "A lBo" get the same token. -/
theorem C45_preflib_collision : c!"Al Bo" ≠ c!"A lBo" ∧ preflibToken c!"Al Bo" = preflibToken c!"A lBo" := by decide

set_option maxRecDepth 20000 in
/-- C45 is false of the San Francisco import and of `utf8_string_to_abif_token`: names that differ only in
punctuation, or only after the 20th character, get the same token. -/
theorem C45_token_collision :
    abifToken 20 c!"O'Neil" = abifToken 20 c!"O Neil" ∧
    abifToken 20 c!"MARIA DEL CARMEN GOMEZ" = abifToken 20 c!"MARIA DEL CARMEN GOMES" := by decide +kernel

set_option maxRecDepth 20000 in
/-- C45 is false of the Debian import, whatever the hash function: after the option "A!" the option "A" gets the
same token, because the hash is only added to names that are not already short tokens. -/
theorem C45_debian_collision (sha : Str → Str) : debTokens sha [c!"A!", c!"A"] = [c!"A", c!"A"] := by
  have h1 : notaSub c!"A!" = c!"A!" := by decide +kernel
  have h2 : notaSub c!"A" = c!"A" := by decide +kernel
  have h3 : debToken sha 20 false c!"A!" = c!"A" := by
    unfold debToken
    rw [if_neg (by decide)]
    simp only [Bool.false_eq_true, if_false]
    decide
  have h4 : ∀ b, debToken sha 20 b c!"A" = c!"A" := by
    intro b; unfold debToken; rw [if_pos (by decide)]
  unfold debTokens
  rw [debTokensAux, debTokensAux, debTokensAux, h1, h2]
  simp only [h3, h4, ite_self, List.not_mem_nil, if_false]

set_option maxRecDepth 20000 in
/-- The Debian import does separate names whose shortened forms coincide when the later one is not itself a short
token and the hash differs. -/
example (sha : Str → Str) (h : sha c!"A?" = c!"QQQQ") : debTokens sha [c!"A!", c!"A?"] = [c!"A", c!"AQQQQ"] := by
  have h1 : notaSub c!"A!" = c!"A!" := by decide +kernel
  have h2 : notaSub c!"A?" = c!"A?" := by decide +kernel
  have h3 : debToken sha 20 false c!"A!" = c!"A" := by
    unfold debToken
    rw [if_neg (by decide)]
    simp only [Bool.false_eq_true, if_false]
    decide
  have h4 : debToken sha 20 false c!"A?" = c!"A" := by
    unfold debToken
    rw [if_neg (by decide)]
    simp only [Bool.false_eq_true, if_false]
    decide
  have h5 : debToken sha 20 true c!"A?" = c!"AQQQQ" := by
    unfold debToken
    rw [if_neg (by decide), h]
    simp only [if_true]
    decide
  unfold debTokens
  rw [debTokensAux, debTokensAux, debTokensAux, h1, h2]
  simp [h3, h4, h5]

set_option maxRecDepth 20000 in
example : ∀ s ∈ [c!"Alice", c!"Bob", c!"C3"], notaSub s = s := by decide +kernel

end Verif.Props
