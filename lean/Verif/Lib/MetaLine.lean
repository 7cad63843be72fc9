/-
Helper lemmas: the metadata regular expression, with its backtracking, reads exactly what `Spec.readMeta` says.
-/
import Verif.Lib.Lines

set_option linter.unusedSimpArgs false
set_option linter.unusedSectionVars false

namespace Verif
open Spec

/-- a greedy star that has to give back exactly one character -/
theorem starGo_back {α : Type} (p : Char → Bool) (k : Str → Str → Option α) (b : Str) (c : Char) (u acc : Str) (r : α)
    (hb : ∀ x ∈ b, p x = true) (hc : p c = true) (hu : ∀ x t, u = x :: t → p x = false)
    (h1 : k u (c :: (b.reverse ++ acc)) = none) (h2 : k (c :: u) (b.reverse ++ acc) = some r) :
    starGo p k (b ++ c :: u) acc = some r := by
  induction b generalizing acc with
  | nil =>
    simp only [List.nil_append, List.reverse_nil] at h1 h2 ⊢
    unfold starGo
    rw [if_pos hc]
    have : starGo p k u (c :: acc) = none := by
      cases u with
      | nil => simpa [starGo] using h1
      | cons x t =>
        unfold starGo
        rw [if_neg (by simp [hu x t rfl])]
        exact h1
    rw [this]
    simpa using h2
  | cons x b ih =>
    simp only [List.cons_append]
    unfold starGo
    rw [if_pos (hb x (by simp))]
    have := ih (x :: acc) (fun y hy => hb y (by simp [hy])) (by simpa using h1) (by simpa using h2)
    rw [this]
    rfl

theorem dropOne_pos {p : Char → Bool} {c : Char} {t : Str} (h : p c = true) : dropOne p (c :: t) = t := by
  simp [dropOne, h]
theorem dropOne_neg {p : Char → Bool} {c : Char} {t : Str} (h : ¬ p c = true) : dropOne p (c :: t) = c :: t := by
  simp [dropOne, h]

section
variable [U : Uni]

theorem isMetaVal_eq (c : Char) : isMetaVal c = valChar c := by
  rw [Bool.eq_iff_iff]
  simp only [isMetaVal, valChar, Bool.or_eq_true, beq_iff_eq, List.contains_eq_mem, decide_eq_true_eq, List.mem_cons,
    List.not_mem_nil, or_false]
  simp only [or_assoc]

theorem isMetaVal_fun : (isMetaVal : Char → Bool) = valChar := funext isMetaVal_eq
theorem isMetaKey_fun : (isMetaKey : Char → Bool) = keyChar := rfl
theorem isQuoteCh_fun : isQuoteCh = quoteChar := rfl

theorem space_key {c : Char} (h : isSpace c = true) : keyChar c = true := by simp [keyChar, h]
theorem space_val {c : Char} (h : isSpace c = true) : valChar c = true := by simp [valChar, h]
theorem quote_not_key {c : Char} (h : quoteChar c = true) : keyChar c = false := by
  simp only [quoteChar, Bool.or_eq_true, beq_iff_eq] at h
  rcases h with rfl | rfl <;> simp [keyChar, isWord, isAscii, isAsciiAlnum, isAsciiDigit, isAsciiUpper, isAsciiLower, isSpace]
theorem quote_not_space {c : Char} (h : quoteChar c = true) : isSpace c = false := by
  cases hs : isSpace c with
  | false => rfl
  | true => have := quote_not_key h; rw [space_key hs] at this; cases this
theorem space_not_quote {c : Char} (h : isSpace c = true) : quoteChar c = false := by
  cases hs : quoteChar c with
  | false => rfl
  | true => rw [quote_not_space hs] at h; cases h
theorem dquote_not_val : valChar '"' = false := by
  simp [valChar, isWord, isAscii, isAsciiAlnum, isAsciiDigit, isAsciiUpper, isAsciiLower, isSpace]
theorem squote_val : valChar '\'' = true := by simp [valChar]
theorem brace_not_val : valChar '}' = false := by
  simp [valChar, isWord, isAscii, isAsciiAlnum, isAsciiDigit, isAsciiUpper, isAsciiLower, isSpace]
theorem brace_not_space : isSpace '}' = false := by decide
theorem brace_not_quote : quoteChar '}' = false := by decide
theorem colon_not_key : keyChar ':' = false := by
  simp [keyChar, isWord, isAscii, isAsciiAlnum, isAsciiDigit, isAsciiUpper, isAsciiLower, isSpace]
theorem colon_not_space : isSpace ':' = false := by decide
theorem colon_not_quote : quoteChar ':' = false := by decide

/-- the atoms after the value -/
def tailAtoms : List Atom := [.star isSpace, .opt quoteChar, .star isSpace, .one (fun c => c == '}')]
/-- the atoms after the colon -/
def valAtoms : List Atom := .star isSpace :: .opt quoteChar :: .plus valChar :: tailAtoms
/-- the atoms after the key -/
def midAtoms : List Atom := .star isSpace :: .opt quoteChar :: .star isSpace :: .one (fun c => c == ':') :: valAtoms
/-- the atoms after the brace -/
def keyAtoms : List Atom := .star isSpace :: .opt quoteChar :: .plus keyChar :: midAtoms

theorem metaAtoms_eq : metaAtoms = .one (fun c => c == '{') :: keyAtoms := by
  unfold metaAtoms keyAtoms midAtoms valAtoms tailAtoms
  rw [isMetaVal_fun, isMetaKey_fun, isQuoteCh_fun]

/-- an optional quote followed by something that succeeds after it -/
theorem rmatch_opt_first (fin : Str → Bool) (p : Char → Bool) (as : List Atom) (s : Str) (r : List Str × Str)
    (h : rmatch fin as (dropOne p s) = some r) : ∃ q, rmatch fin (.opt p :: as) s = some (q :: r.1, r.2) := by
  cases s with
  | nil => exact ⟨[], by rw [rmatch_opt_nil]; simp only [dropOne] at h; rw [h]; rfl⟩
  | cons c t =>
    rw [rmatch_opt_cons]
    by_cases hc : p c = true
    · rw [dropOne_pos hc] at h
      rw [if_pos hc]
      exact ⟨[c], by rw [h]; rfl⟩
    · rw [dropOne_neg hc] at h
      rw [if_neg hc]
      exact ⟨[], by rw [h]; rfl⟩

/-- the text does not start with a character of the class -/
def NotStart (p : Char → Bool) (s : Str) : Prop := ∀ x t, s = x :: t → p x = false

theorem NotStart.drop {p : Char → Bool} {s : Str} (h : NotStart p s) : s.dropWhile p = s := by
  cases s with
  | nil => rfl
  | cons c t => rw [List.dropWhile_cons, if_neg (by simp [h c t rfl])]

theorem NotStart.take {p : Char → Bool} {s : Str} (h : NotStart p s) : s.takeWhile p = [] := by
  cases s with
  | nil => rfl
  | cons c t => rw [List.takeWhile_cons, if_neg (by simp [h c t rfl])]

theorem notStart_dropWhile (p : Char → Bool) (s : Str) : NotStart p (s.dropWhile p) := by
  intro x t h
  induction s with
  | nil => cases h
  | cons c s ih =>
    rw [List.dropWhile_cons] at h
    split at h
    · exact ih h
    · rename_i hc
      cases h
      simpa using hc

theorem NotStart.of_take {p : Char → Bool} {s : Str} (h : s.takeWhile p = []) : NotStart p s := by
  rintro x t rfl
  rw [List.takeWhile_cons] at h
  split at h
  · cases h
  · rename_i hc; simpa using hc

theorem NotStart.mono {p q : Char → Bool} (hpq : ∀ c, p c = true → q c = true) {s : Str} (h : NotStart q s) : NotStart p s := by
  intro x t e
  cases hp : p x with
  | false => rfl
  | true => have := hpq x hp; rw [h x t e] at this; cases this

/-- after the value -/
theorem tail_run {r : Str} (h0 : NotStart isSpace r) (h : afterQuote r = ['}']) :
    ∃ ps, rmatch List.isEmpty tailAtoms r = some (ps, []) ∧ ps.length = 4 := by
  have h1 : rmatch List.isEmpty [.one (fun c => c == '}')] ['}'] = some ([['}']], []) := rfl
  have h2 := rmatch_star_greedy List.isEmpty isSpace [.one (fun c => c == '}')] (dropOne quoteChar r) ([['}']], [])
    (by unfold afterQuote at h; rw [h]; exact h1)
  obtain ⟨q, h3⟩ := rmatch_opt_first List.isEmpty quoteChar (.star isSpace :: [.one (fun c => c == '}')]) r _ h2
  have h4 := rmatch_star_greedy List.isEmpty isSpace (.opt quoteChar :: .star isSpace :: [.one (fun c => c == '}')]) r _
    (by rw [h0.drop]; exact h3)
  exact ⟨_, h4, rfl⟩

/-- the value run itself -/
theorem plusVal_run {s r : Str} (hs : s.takeWhile valChar ≠ []) (hr : s.dropWhile valChar = r) (h : afterQuote r = ['}']) :
    ∃ ps, rmatch List.isEmpty (.plus valChar :: tailAtoms) s = some (s.takeWhile valChar :: ps, []) ∧ ps.length = 4 := by
  have h0 : NotStart isSpace r := by rw [← hr]; exact (notStart_dropWhile valChar s).mono (fun c hc => space_val hc)
  obtain ⟨ps, h1, h2⟩ := tail_run h0 h
  exact ⟨ps, rmatch_plus_greedy List.isEmpty valChar tailAtoms s (ps, []) hs (by rw [hr]; exact h1), h2⟩

theorem plusVal_none {s : Str} (hs : NotStart valChar s) : rmatch List.isEmpty (.plus valChar :: tailAtoms) s = none := by
  cases s with
  | nil => rfl
  | cons c t => rw [rmatch_plus_cons, if_neg (by simp [hs c t rfl])]

theorem val_run {v val r : Str} (hv : readVal v = some (val, r)) (h : afterQuote r = ['}']) :
    ∃ w q ps, rmatch List.isEmpty valAtoms v = some (w :: q :: val :: ps, []) ∧ ps.length = 4 := by
  unfold readVal at hv
  simp only at hv
  have hu := notStart_dropWhile isSpace v
  split at hv
  · rename_i hne
    cases hv
    obtain ⟨ps, h1, h2⟩ := plusVal_run hne rfl h
    obtain ⟨q, h3⟩ := rmatch_opt_first List.isEmpty quoteChar (.plus valChar :: tailAtoms) (v.dropWhile isSpace) _ h1
    have h4 := rmatch_star_greedy List.isEmpty isSpace (.opt quoteChar :: .plus valChar :: tailAtoms) v _ h3
    exact ⟨_, q, ps, h4, h2⟩
  · rename_i hne
    have hnv : NotStart valChar (dropOne quoteChar (v.dropWhile isSpace)) := NotStart.of_take (by simpa using hne)
    split at hv
    · rename_i hq
      cases hv
      cases hd : v.dropWhile isSpace with
      | nil => rw [hd] at hq; cases hq
      | cons c t =>
        rw [hd] at hq hnv h
        cases hq
        have hdr : dropOne quoteChar ('\'' :: t) = t := dropOne_pos (by decide)
        rw [hdr] at hnv h
        have ht : ('\'' :: t).takeWhile valChar = ['\''] := by
          rw [List.takeWhile_cons, if_pos squote_val, hnv.take]
        have hd2 : ('\'' :: t).dropWhile valChar = t := by
          rw [List.dropWhile_cons, if_pos squote_val, hnv.drop]
        obtain ⟨ps, h1, h2⟩ := plusVal_run (s := '\'' :: t) (by rw [ht]; simp) hd2 h
        rw [ht] at h1
        have h3 : rmatch List.isEmpty (.opt quoteChar :: .plus valChar :: tailAtoms) ('\'' :: t) = some ([] :: ['\''] :: ps, []) := by
          rw [rmatch_opt_cons, if_pos (by decide), plusVal_none hnv, h1]
          rfl
        have h4 := rmatch_star_greedy List.isEmpty isSpace (.opt quoteChar :: .plus valChar :: tailAtoms) v _ (by rw [hd]; exact h3)
        exact ⟨_, [], ps, h4, h2⟩
    · rename_i hq
      obtain ⟨c, hc, hcr⟩ := Option.map_eq_some_iff.1 hv
      cases hcr
      obtain ⟨b, hb⟩ : ∃ b, v.takeWhile isSpace = b ++ [c] := by
        obtain ⟨b, hb⟩ := List.getLast?_eq_some_iff.1 hc
        exact ⟨b, hb⟩
      have hcs : isSpace c = true := (takeWhile_mem (show c ∈ v.takeWhile isSpace by rw [hb]; simp)).1
      have hbs : ∀ x ∈ b, isSpace x = true := fun x hx => (takeWhile_mem (show x ∈ v.takeWhile isSpace by rw [hb]; simp [hx])).1
      have hvs : v = b ++ c :: v.dropWhile isSpace := by
        conv => lhs; rw [← List.takeWhile_append_dropWhile (p := isSpace) (l := v), hb]
        simp
      generalize v.dropWhile isSpace = u at *
      have huv : NotStart valChar u := by
        rintro x t rfl
        by_cases hx : quoteChar x = true
        · simp only [quoteChar, Bool.or_eq_true, beq_iff_eq] at hx
          rcases hx with rfl | rfl
          · simp at hq
          · exact dquote_not_val
        · have hdr : dropOne quoteChar (x :: t) = x :: t := dropOne_neg hx
          rw [hdr] at hnv
          exact hnv x t rfl
      have hnone : rmatch List.isEmpty (.opt quoteChar :: .plus valChar :: tailAtoms) u = none := by
        cases u with
        | nil => rfl
        | cons x t =>
          rw [rmatch_opt_cons]
          by_cases hx : quoteChar x = true
          · rw [if_pos hx, plusVal_none huv]
            have hdr : dropOne quoteChar (x :: t) = t := dropOne_pos hx
            rw [hdr] at hnv
            rw [plusVal_none hnv]
            rfl
          · rw [if_neg hx, plusVal_none huv]; rfl
      have ht : (c :: u).takeWhile valChar = [c] := by rw [List.takeWhile_cons, if_pos (space_val hcs), huv.take]
      have hd2 : (c :: u).dropWhile valChar = u := by rw [List.dropWhile_cons, if_pos (space_val hcs), huv.drop]
      obtain ⟨ps, h1, h2⟩ := plusVal_run (s := c :: u) (by rw [ht]; simp) hd2 h
      rw [ht] at h1
      have h3 : rmatch List.isEmpty (.opt quoteChar :: .plus valChar :: tailAtoms) (c :: u) = some ([] :: [c] :: ps, []) := by
        rw [rmatch_opt_cons, if_neg (by simp [space_not_quote hcs]), h1]
        rfl
      refine ⟨b, [], ps, ?_, h2⟩
      unfold valAtoms
      rw [rmatch_star_eq, hvs]
      apply starGo_back
      · exact hbs
      · exact hcs
      · exact hu
      · simp only [hnone]; rfl
      · simp only [h3]
        simp

theorem mid_run {r v val r' : Str} (h0 : NotStart isSpace r) (hm : afterQuote r = ':' :: v) (hv : readVal v = some (val, r'))
    (h : afterQuote r' = ['}']) :
    ∃ w1 q1 w2 w q ps, rmatch List.isEmpty midAtoms r = some (w1 :: q1 :: w2 :: [':'] :: w :: q :: val :: ps, []) ∧ ps.length = 4 := by
  obtain ⟨w, q, ps, h1, h2⟩ := val_run hv h
  have h3 : rmatch List.isEmpty (.one (fun c => c == ':') :: valAtoms) (':' :: v) = some ([':'] :: w :: q :: val :: ps, []) := by
    rw [rmatch_one, if_pos (by decide), h1]; rfl
  have h4 := rmatch_star_greedy List.isEmpty isSpace (.one (fun c => c == ':') :: valAtoms) (dropOne quoteChar r) _
    (by unfold afterQuote at hm; rw [hm]; exact h3)
  obtain ⟨q1, h5⟩ := rmatch_opt_first List.isEmpty quoteChar (.star isSpace :: .one (fun c => c == ':') :: valAtoms) r _ h4
  have h6 := rmatch_star_greedy List.isEmpty isSpace (.opt quoteChar :: .star isSpace :: .one (fun c => c == ':') :: valAtoms) r _
    (by rw [h0.drop]; exact h5)
  exact ⟨_, q1, _, w, q, ps, h6, h2⟩

theorem plusKey_run {s r v val r' : Str} (hs : s.takeWhile keyChar ≠ []) (hr : s.dropWhile keyChar = r)
    (hm : afterQuote r = ':' :: v) (hv : readVal v = some (val, r')) (h : afterQuote r' = ['}']) :
    ∃ w1 q1 w2 w q ps, rmatch List.isEmpty (.plus keyChar :: midAtoms) s =
      some (s.takeWhile keyChar :: w1 :: q1 :: w2 :: [':'] :: w :: q :: val :: ps, []) ∧ ps.length = 4 := by
  have h0 : NotStart isSpace r := by rw [← hr]; exact (notStart_dropWhile keyChar s).mono (fun c hc => space_key hc)
  obtain ⟨w1, q1, w2, w, q, ps, h1, h2⟩ := mid_run h0 hm hv h
  exact ⟨w1, q1, w2, w, q, ps, rmatch_plus_greedy List.isEmpty keyChar midAtoms s _ hs (by rw [hr]; exact h1), h2⟩

theorem plusKey_none {s : Str} (hs : NotStart keyChar s) : rmatch List.isEmpty (.plus keyChar :: midAtoms) s = none := by
  cases s with
  | nil => rfl
  | cons c t => rw [rmatch_plus_cons, if_neg (by simp [hs c t rfl])]

theorem key_run {t key r v val r' : Str} (hk : readKey t = some (key, r)) (hm : afterQuote r = ':' :: v)
    (hv : readVal v = some (val, r')) (h : afterQuote r' = ['}']) :
    ∃ w0 q0 w1 q1 w2 w q ps, rmatch List.isEmpty keyAtoms t =
      some (w0 :: q0 :: key :: w1 :: q1 :: w2 :: [':'] :: w :: q :: val :: ps, []) ∧ ps.length = 4 := by
  unfold readKey at hk
  simp only at hk
  have hu := notStart_dropWhile isSpace t
  split at hk
  · rename_i hne
    cases hk
    obtain ⟨w1, q1, w2, w, q, ps, h1, h2⟩ := plusKey_run hne rfl hm hv h
    obtain ⟨q0, h3⟩ := rmatch_opt_first List.isEmpty quoteChar (.plus keyChar :: midAtoms) (t.dropWhile isSpace) _ h1
    have h4 := rmatch_star_greedy List.isEmpty isSpace (.opt quoteChar :: .plus keyChar :: midAtoms) t _ h3
    exact ⟨_, q0, w1, q1, w2, w, q, ps, h4, h2⟩
  · rename_i hne
    have hnv : NotStart keyChar (dropOne quoteChar (t.dropWhile isSpace)) := NotStart.of_take (by simpa using hne)
    obtain ⟨c, hc, hcr⟩ := Option.map_eq_some_iff.1 hk
    cases hcr
    obtain ⟨b, hb⟩ : ∃ b, t.takeWhile isSpace = b ++ [c] := by
      obtain ⟨b, hb⟩ := List.getLast?_eq_some_iff.1 hc
      exact ⟨b, hb⟩
    have hcs : isSpace c = true := (takeWhile_mem (show c ∈ t.takeWhile isSpace by rw [hb]; simp)).1
    have hbs : ∀ x ∈ b, isSpace x = true := fun x hx => (takeWhile_mem (show x ∈ t.takeWhile isSpace by rw [hb]; simp [hx])).1
    have hvs : t = b ++ c :: t.dropWhile isSpace := by
      conv => lhs; rw [← List.takeWhile_append_dropWhile (p := isSpace) (l := t), hb]
      simp
    generalize t.dropWhile isSpace = u at *
    have huv : NotStart keyChar u := by
      rintro x t rfl
      by_cases hx : quoteChar x = true
      · exact quote_not_key hx
      · have hdr : dropOne quoteChar (x :: t) = x :: t := dropOne_neg hx
        rw [hdr] at hnv
        exact hnv x t rfl
    have hnone : rmatch List.isEmpty (.opt quoteChar :: .plus keyChar :: midAtoms) u = none := by
      cases u with
      | nil => rfl
      | cons x t =>
        rw [rmatch_opt_cons]
        by_cases hx : quoteChar x = true
        · rw [if_pos hx, plusKey_none huv]
          have hdr : dropOne quoteChar (x :: t) = t := dropOne_pos hx
          rw [hdr] at hnv
          rw [plusKey_none hnv]
          rfl
        · rw [if_neg hx, plusKey_none huv]; rfl
    have ht : (c :: u).takeWhile keyChar = [c] := by rw [List.takeWhile_cons, if_pos (space_key hcs), huv.take]
    have hd2 : (c :: u).dropWhile keyChar = u := by rw [List.dropWhile_cons, if_pos (space_key hcs), huv.drop]
    obtain ⟨w1, q1, w2, w, q, ps, h1, h2⟩ := plusKey_run (s := c :: u) (by rw [ht]; simp) hd2 hm hv h
    rw [ht] at h1
    have h3 : rmatch List.isEmpty (.opt quoteChar :: .plus keyChar :: midAtoms) (c :: u) =
        some ([] :: [c] :: w1 :: q1 :: w2 :: [':'] :: w :: q :: val :: ps, []) := by
      rw [rmatch_opt_cons, if_neg (by simp [space_not_quote hcs]), h1]
      rfl
    refine ⟨b, [], w1, q1, w2, w, q, ps, ?_, h2⟩
    unfold keyAtoms
    rw [rmatch_star_eq, hvs]
    apply starGo_back
    · exact hbs
    · exact hcs
    · exact hu
    · simp only [hnone]; rfl
    · simp only [h3]
      simp

/-- the matcher finds what `readMeta` says -/
theorem matchMeta_of_readMeta {s key val : Str} (h : readMeta s = some (key, val)) : matchMeta s = some (key, val) := by
  unfold readMeta at h
  split at h
  · rename_i t
    split at h
    · rename_i k r hk
      split at h
      · rename_i v hm
        split at h
        · rename_i vl r' hv
          split at h
          · rename_i ht
            cases h
            obtain ⟨w0, q0, w1, q1, w2, w, q, ps, h1, h2⟩ := key_run hk hm hv ht
            have h3 : fullMatch metaAtoms ('{' :: t) =
                some (['{'] :: w0 :: q0 :: key :: w1 :: q1 :: w2 :: [':'] :: w :: q :: val :: ps) := by
              unfold fullMatch
              rw [metaAtoms_eq, rmatch_one, if_pos (by decide), h1]
              rfl
            unfold matchMeta
            rw [h3]
            match ps, h2 with
            | [_, _, _, _], _ => rfl
          · cases h
        · cases h
      · cases h
    · cases h
  · cases h

/-- a run of class characters, blanks, an optional quote and blanks, up to a stop character -/
theorem run_split (p : Char → Bool) (hsp : ∀ c, isSpace c = true → p c = true) (stop : Char) (hs1 : p stop = false)
    (hs2 : isSpace stop = false) (hs3 : quoteChar stop = false)
    (x w q w' : Str) (rest : Str) (hx : x ≠ []) (hxp : ∀ c ∈ x, p c = true) (hw : ∀ c ∈ w, isSpace c = true)
    (hq : q = [] ∨ ∃ c, q = [c] ∧ quoteChar c = true) (hw' : ∀ c ∈ w', isSpace c = true) :
    ∃ X Y : Str, x ++ w ++ q ++ w' ++ stop :: rest = X ++ Y ∧ X ≠ [] ∧ (∀ c ∈ X, p c = true) ∧ NotStart p Y ∧
      afterQuote Y = stop :: rest := by
  have hstop : afterQuote (stop :: rest) = stop :: rest := by
    unfold afterQuote
    rw [dropOne_neg (by simp [hs3]), List.dropWhile_cons, if_neg (by simp [hs2])]
  have hall : ∀ c ∈ x ++ w, p c = true := by
    intro c hc
    rcases List.mem_append.1 hc with h | h
    · exact hxp c h
    · exact hsp c (hw c h)
  have hns : NotStart p (stop :: rest) := by
    rintro y t e
    cases e
    exact hs1
  rcases hq with rfl | ⟨c, rfl, hc⟩
  · refine ⟨x ++ w ++ w', stop :: rest, by simp, by simp [hx], ?_, hns, hstop⟩
    intro c hc
    rcases List.mem_append.1 hc with h | h
    · exact hall c h
    · exact hsp c (hw' c h)
  · cases hp : p c with
    | false =>
      refine ⟨x ++ w, c :: (w' ++ stop :: rest), by simp, by simp [hx], hall, ?_, ?_⟩
      · rintro y t e
        cases e
        exact hp
      · unfold afterQuote
        rw [dropOne_pos hc, List.dropWhile_append_of_pos hw', List.dropWhile_cons, if_neg (by simp [hs2])]
    | true =>
      refine ⟨x ++ w ++ c :: w', stop :: rest, by simp, by simp [hx], ?_, hns, hstop⟩
      intro d hd
      rcases List.mem_append.1 hd with h | h
      · exact hall d h
      · rcases List.mem_cons.1 h with rfl | h
        · exact hp
        · exact hsp d (hw' d h)

theorem takeWhile_split {p : Char → Bool} {X Y : Str} (hX : ∀ c ∈ X, p c = true) (hY : NotStart p Y) :
    (X ++ Y).takeWhile p = X ∧ (X ++ Y).dropWhile p = Y := by
  constructor
  · rw [List.takeWhile_append_of_pos hX, hY.take, List.append_nil]
  · rw [List.dropWhile_append_of_pos hX, hY.drop]

theorem afterQuote_blank {p : Char → Bool} (hsp : ∀ c, isSpace c = true → p c = true) {stop : Char} {rest Y : Str}
    (hs1 : p stop = false) (hs2 : isSpace stop = false) (hs3 : quoteChar stop = false) (h : afterQuote Y = stop :: rest) :
    afterQuote ((dropOne quoteChar Y).dropWhile p) = stop :: rest := by
  unfold afterQuote at h
  have hb : ∀ c ∈ (dropOne quoteChar Y).takeWhile isSpace, p c = true := fun c hc => hsp c (takeWhile_mem hc).1
  have h2 : (dropOne quoteChar Y).dropWhile p = stop :: rest := by
    rw [← List.takeWhile_append_dropWhile (p := isSpace) (l := dropOne quoteChar Y), h,
      List.dropWhile_append_of_pos hb, List.dropWhile_cons, if_neg (by simp [hs1])]
  rw [h2]
  unfold afterQuote
  rw [dropOne_neg (by simp [hs3]), List.dropWhile_cons, if_neg (by simp [hs2])]

/-- blanks at the start of a run -/
theorem blank_cases (X Y : Str) (hY : NotStart isSpace Y) :
    ((∀ c ∈ X, isSpace c = true) ∧ (X ++ Y).dropWhile isSpace = Y ∧ (X ++ Y).takeWhile isSpace = X) ∨
    (∃ B c Z, X = B ++ c :: Z ∧ isSpace c = false ∧ (X ++ Y).dropWhile isSpace = c :: Z ++ Y) := by
  by_cases h : ∀ c ∈ X, isSpace c = true
  · exact .inl ⟨h, (takeWhile_split h hY).2, (takeWhile_split h hY).1⟩
  · refine .inr ?_
    have hd : X.dropWhile isSpace ≠ [] := by
      intro e
      apply h
      rw [← List.takeWhile_append_dropWhile (p := isSpace) (l := X), e, List.append_nil]
      exact fun c hc => (takeWhile_mem hc).1
    obtain ⟨c, Z, hcz⟩ : ∃ c Z, X.dropWhile isSpace = c :: Z := by
      cases hX : X.dropWhile isSpace with
      | nil => exact absurd hX hd
      | cons c Z => exact ⟨c, Z, rfl⟩
    have hX : X = X.takeWhile isSpace ++ c :: Z := by rw [← hcz, List.takeWhile_append_dropWhile]
    have hc : isSpace c = false := notStart_dropWhile isSpace X c Z hcz
    refine ⟨X.takeWhile isSpace, c, Z, hX, hc, ?_⟩
    conv => lhs; rw [hX]
    rw [List.append_assoc, List.dropWhile_append_of_pos (fun c hc => (takeWhile_mem hc).1), List.cons_append,
      List.dropWhile_cons, if_neg (by simp [hc])]

theorem getLast?_ne {X : Str} (h : X ≠ []) : ∃ c, X.getLast? = some c := by
  cases hX : X.getLast? with
  | none => exact absurd (List.getLast?_eq_none_iff.1 hX) h
  | some c => exact ⟨c, rfl⟩

theorem readKey_complete {w q key w2 q2 w3 v0 : Str} (hw : ∀ c ∈ w, isSpace c = true)
    (hq : q = [] ∨ ∃ c, q = [c] ∧ quoteChar c = true) (hk : key ≠ []) (hkc : ∀ c ∈ key, keyChar c = true)
    (hw2 : ∀ c ∈ w2, isSpace c = true) (hq2 : q2 = [] ∨ ∃ c, q2 = [c] ∧ quoteChar c = true)
    (hw3 : ∀ c ∈ w3, isSpace c = true) :
    ∃ k r, readKey (w ++ q ++ (key ++ w2 ++ q2 ++ w3 ++ ':' :: v0)) = some (k, r) ∧ afterQuote r = ':' :: v0 := by
  have hsk : ∀ c, isSpace c = true → keyChar c = true := fun c h => space_key h
  rcases hq with rfl | ⟨c, rfl, hc⟩
  · obtain ⟨X, Y, e, hX, hXk, hY, hYa⟩ := run_split keyChar hsk ':' colon_not_key colon_not_space colon_not_quote
      (w ++ key) w2 q2 w3 v0 (by simp [hk])
      (fun c hc => (List.mem_append.1 hc).elim (fun h => hsk c (hw c h)) (fun h => hkc c h)) hw2 hq2 hw3
    have e' : w ++ [] ++ (key ++ w2 ++ q2 ++ w3 ++ ':' :: v0) = X ++ Y := by rw [← e]; simp
    rw [e']
    unfold readKey
    simp only
    rcases blank_cases X Y (hY.mono hsk) with ⟨hb, hd, ht⟩ | ⟨B, c, Z, hXe, hcs, hd⟩
    · rw [hd, ht]
      split
      · exact ⟨_, _, rfl, afterQuote_blank hsk colon_not_key colon_not_space colon_not_quote hYa⟩
      · obtain ⟨c, hc⟩ := getLast?_ne hX
        exact ⟨[c], Y, by rw [hc]; rfl, hYa⟩
    · have hck : keyChar c = true := hXk c (by simp [hXe])
      have hcq : ¬ quoteChar c = true := by
        intro h
        rw [quote_not_key h] at hck
        cases hck
      rw [hd, List.cons_append, dropOne_neg hcq]
      have hs := takeWhile_split (p := keyChar) (X := c :: Z) (Y := Y) (fun d hd => hXk d (by rw [hXe]; exact List.mem_append.2 (.inr hd))) hY
      rw [List.cons_append] at hs
      rw [hs.1, hs.2]
      exact ⟨c :: Z, Y, by simp, hYa⟩
  · obtain ⟨X, Y, e, hX, hXk, hY, hYa⟩ := run_split keyChar hsk ':' colon_not_key colon_not_space colon_not_quote
      key w2 q2 w3 v0 hk hkc hw2 hq2 hw3
    rw [e]
    unfold readKey
    simp only
    have hd : (w ++ [c] ++ (X ++ Y)).dropWhile isSpace = c :: (X ++ Y) := by
      rw [List.append_assoc, List.dropWhile_append_of_pos hw, List.singleton_append, List.dropWhile_cons,
        if_neg (by simp [quote_not_space hc])]
    rw [hd, dropOne_pos hc]
    have hs := takeWhile_split hXk hY
    rw [hs.1, hs.2]
    exact ⟨X, Y, by simp [hX], hYa⟩

theorem readVal_complete {w q val w2 q2 w3 : Str} (hw : ∀ c ∈ w, isSpace c = true)
    (hq : q = [] ∨ ∃ c, q = [c] ∧ quoteChar c = true) (hk : val ≠ []) (hkc : ∀ c ∈ val, valChar c = true)
    (hw2 : ∀ c ∈ w2, isSpace c = true) (hq2 : q2 = [] ∨ ∃ c, q2 = [c] ∧ quoteChar c = true)
    (hw3 : ∀ c ∈ w3, isSpace c = true) :
    ∃ k r, readVal (w ++ q ++ (val ++ w2 ++ q2 ++ w3 ++ ['}'])) = some (k, r) ∧ afterQuote r = ['}'] := by
  have hsk : ∀ c, isSpace c = true → valChar c = true := fun c h => space_val h
  rcases hq with rfl | ⟨c, rfl, hc⟩
  · obtain ⟨X, Y, e, hX, hXk, hY, hYa⟩ := run_split valChar hsk '}' brace_not_val brace_not_space brace_not_quote
      (w ++ val) w2 q2 w3 [] (by simp [hk])
      (fun c hc => (List.mem_append.1 hc).elim (fun h => hsk c (hw c h)) (fun h => hkc c h)) hw2 hq2 hw3
    have e' : w ++ [] ++ (val ++ w2 ++ q2 ++ w3 ++ ['}']) = X ++ Y := by rw [← e]; simp
    rw [e']
    unfold readVal
    simp only
    rcases blank_cases X Y (hY.mono hsk) with ⟨hb, hd, ht⟩ | ⟨B, c, Z, hXe, hcs, hd⟩
    · rw [hd, ht]
      split
      · exact ⟨_, _, rfl, afterQuote_blank hsk brace_not_val brace_not_space brace_not_quote hYa⟩
      · have hh : ¬ Y.head? = some '\'' := by
          intro h
          cases Y with
          | nil => cases h
          | cons y t =>
            simp only [List.head?_cons, Option.some.injEq] at h
            have := hY y t rfl
            rw [h, squote_val] at this
            cases this
        rw [if_neg hh]
        obtain ⟨c, hc⟩ := getLast?_ne hX
        exact ⟨[c], Y, by rw [hc]; rfl, hYa⟩
    · have hXs : ∀ d ∈ c :: Z, valChar d = true := by
        intro d hd
        apply hXk
        rw [hXe]
        exact List.mem_append.2 (.inr hd)
      rw [hd, List.cons_append]
      by_cases hcq : quoteChar c = true
      · rw [dropOne_pos hcq]
        have hs := takeWhile_split (p := valChar) (X := Z) (Y := Y) (fun d hd => hXs d (by simp [hd])) hY
        rw [hs.1, hs.2]
        have hc' : c = '\'' := by
          have hcv := hXs c (by simp)
          simp only [quoteChar, Bool.or_eq_true, beq_iff_eq] at hcq
          rcases hcq with h | h
          · exact h
          · rw [h, dquote_not_val] at hcv; cases hcv
        by_cases hZ : Z = []
        · subst hZ
          rw [if_neg (by simp), if_pos (by simp [hc'])]
          exact ⟨_, _, rfl, hYa⟩
        · rw [if_pos hZ]
          exact ⟨_, _, rfl, hYa⟩
      · rw [dropOne_neg hcq]
        have hs := takeWhile_split (p := valChar) (X := c :: Z) (Y := Y) hXs hY
        rw [List.cons_append] at hs
        rw [hs.1, hs.2]
        exact ⟨c :: Z, Y, by simp, hYa⟩
  · obtain ⟨X, Y, e, hX, hXk, hY, hYa⟩ := run_split valChar hsk '}' brace_not_val brace_not_space brace_not_quote
      val w2 q2 w3 [] hk hkc hw2 hq2 hw3
    rw [e]
    unfold readVal
    simp only
    have hd : (w ++ [c] ++ (X ++ Y)).dropWhile isSpace = c :: (X ++ Y) := by
      rw [List.append_assoc, List.dropWhile_append_of_pos hw, List.singleton_append, List.dropWhile_cons,
        if_neg (by simp [quote_not_space hc])]
    rw [hd, dropOne_pos hc]
    have hs := takeWhile_split hXk hY
    rw [hs.1, hs.2]
    exact ⟨X, Y, by simp [hX], hYa⟩

/-- every line of the metadata form is read -/
theorem readMeta_isSome_of_form {s k v : Str} (h : MetaForm s k v) : (readMeta s).isSome = true := by
  obtain ⟨w1, q1, w2, q2, w3, w4, q3, w5, q4, w6, hs, hw, hq, hk0, hk, hv0, hv⟩ := h
  have hqq : ∀ q, (q = [] ∨ q = ['\''] ∨ q = ['"']) → q = [] ∨ ∃ c, q = [c] ∧ quoteChar c = true := by
    rintro q (rfl | rfl | rfl)
    · exact .inl rfl
    · exact .inr ⟨_, rfl, by decide⟩
    · exact .inr ⟨_, rfl, by decide⟩
  obtain ⟨key, r, hkey, ha⟩ := readKey_complete (w := w1) (q := q1) (key := k) (w2 := w2) (q2 := q2) (w3 := w3)
    (v0 := w4 ++ q3 ++ (v ++ w5 ++ q4 ++ w6 ++ ['}'])) (hw w1 (by simp)) (hqq q1 (hq q1 (by simp))) hk0 hk (hw w2 (by simp))
    (hqq q2 (hq q2 (by simp))) (hw w3 (by simp))
  obtain ⟨val, r', hval, hb⟩ := readVal_complete (w := w4) (q := q3) (val := v) (w2 := w5) (q2 := q4) (w3 := w6)
    (hw w4 (by simp)) (hqq q3 (hq q3 (by simp))) hv0 hv (hw w5 (by simp)) (hqq q4 (hq q4 (by simp))) (hw w6 (by simp))
  have hs' : s = '{' :: (w1 ++ q1 ++ (k ++ w2 ++ q2 ++ w3 ++ ':' :: (w4 ++ q3 ++ (v ++ w5 ++ q4 ++ w6 ++ ['}'])))) := by
    rw [hs]; simp
  have : readMeta s = some (key, val) := by
    rw [hs']
    unfold readMeta
    simp only [hkey, ha, hval, hb, if_true]
  rw [this]
  rfl

/-- the matcher and the reader agree on every line -/
theorem matchMeta_eq (s : Str) : matchMeta s = readMeta s := by
  cases h : readMeta s with
  | some r => exact matchMeta_of_readMeta h
  | none =>
    cases hm : matchMeta s with
    | none => rfl
    | some r =>
      have := readMeta_isSome_of_form (matchMeta_sound (k := r.1) (v := r.2) hm)
      rw [h] at this
      cases this

end
end Verif
