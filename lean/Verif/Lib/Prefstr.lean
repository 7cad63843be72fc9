/-
Helper lemmas: parsing a written preference string.
-/
import Verif.Lib.Parsed
import Verif.Spec.Prefstr

set_option linter.unusedSimpArgs false
set_option linter.unusedSectionVars false

namespace Verif
open Spec
variable [U : Uni]

theorem isPrefSep_eq : isPrefSep = isSepChar := by
  funext c
  rw [Bool.eq_iff_iff]
  simp [isPrefSep, isSepChar, or_assoc]

/-! ### character classes -/

theorem space_not_sep {c : Char} (h : isSpace c = true) : isSepChar c = false := by
  cases hs : isSepChar c with
  | false => rfl
  | true =>
    simp [isSepChar] at hs
    rcases hs with rfl | rfl | rfl | rfl | rfl <;> exact absurd h (by decide)

theorem digit_ascii {c : Char} (hc : isAscii c = true) (h : isAsciiDigit c = false) : isDigit c = false := by
  simp [isDigit, decVal, hc, h]

theorem digit_not_sep {c : Char} (h : isDigit c = true) : isSepChar c = false := by
  cases hs : isSepChar c with
  | false => rfl
  | true =>
    simp [isSepChar] at hs
    rcases hs with rfl | rfl | rfl | rfl | rfl <;>
      rw [digit_ascii (by decide) (by decide)] at h <;> cases h

theorem digit_not_slash {c : Char} (h : isDigit c = true) : c ≠ '/' := by
  rintro rfl; rw [digit_ascii (by decide) (by decide)] at h; cases h

theorem digit_not_quote {c : Char} (h : isDigit c = true) : c ≠ '"' := by
  rintro rfl; rw [digit_ascii (by decide) (by decide)] at h; cases h

theorem digit_not_space {c : Char} (h : isDigit c = true) : isSpace c = false := by
  unfold isDigit decVal at h
  split at h
  · split at h
    · rename_i hd
      simp [isAsciiDigit] at hd
      simp [isSpace]
      omega
    · cases h
  · obtain ⟨d, hd⟩ := Option.isSome_iff_exists.1 h
    exact U.decHi_not_space c d hd

/-! ### strip -/

theorem lstrip_spaces {w s : Str} (h : ∀ c ∈ w, isSpace c = true) : lstrip (w ++ s) = lstrip s := by
  unfold lstrip; exact dropWhile_append_of_all h

theorem rstrip_spaces {w s : Str} (h : ∀ c ∈ w, isSpace c = true) : rstrip (s ++ w) = rstrip s := by
  unfold rstrip
  rw [List.reverse_append, dropWhile_append_of_all (by simpa using h)]

theorem lstrip_of_head {s : Str} (h : ∀ c, s.head? = some c → isSpace c = false) : lstrip s = s := by
  cases s with
  | nil => rfl
  | cons c t => unfold lstrip; rw [List.dropWhile_cons, if_neg (by simp [h c rfl])]

theorem rstrip_of_last {s : Str} (h : ∀ c, s.getLast? = some c → isSpace c = false) : rstrip s = s := by
  have : rstrip s = (lstrip s.reverse).reverse := rfl
  rw [this, lstrip_of_head, List.reverse_reverse]
  intro c hc
  apply h
  rwa [List.head?_reverse] at hc

theorem strip_of_ends {s : Str} (h1 : ∀ c, s.head? = some c → isSpace c = false)
    (h2 : ∀ c, s.getLast? = some c → isSpace c = false) : strip s = s := by
  unfold strip; rw [lstrip_of_head h1, rstrip_of_last h2]

theorem lstrip_head {s : Str} {c : Char} (h : (lstrip s).head? = some c) : isSpace c = false := by
  unfold lstrip at h
  cases hd : s.dropWhile isSpace with
  | nil => rw [hd] at h; cases h
  | cons d t => rw [hd] at h; cases h; exact head_dropWhile_not hd

theorem rstrip_last {s : Str} {c : Char} (h : (rstrip s).getLast? = some c) : isSpace c = false := by
  have e : rstrip s = (lstrip s.reverse).reverse := rfl
  rw [e, List.getLast?_reverse] at h
  exact lstrip_head h

/-- `rstrip s` is an initial part of `s` -/
theorem rstrip_prefix (s : Str) : rstrip s <+: s := by
  unfold rstrip
  have h := List.dropWhile_suffix isSpace (l := s.reverse)
  have := List.reverse_prefix.2 h
  simpa using this

theorem strip_head {s : Str} {c : Char} (h : (strip s).head? = some c) : isSpace c = false := by
  unfold strip at h
  obtain ⟨t, ht⟩ := rstrip_prefix (lstrip s)
  apply lstrip_head (s := s)
  rw [← ht]
  cases hr : rstrip (lstrip s) with
  | nil => rw [hr] at h; cases h
  | cons d u => rw [hr] at h; cases h; rfl

theorem strip_last {s : Str} {c : Char} (h : (strip s).getLast? = some c) : isSpace c = false := rstrip_last h

theorem strip_eq_iff {s : Str} : strip s = s ↔
    (∀ c, s.head? = some c → isSpace c = false) ∧ (∀ c, s.getLast? = some c → isSpace c = false) :=
  ⟨fun h => ⟨fun c hc => strip_head (s := s) (by rw [h]; exact hc), fun c hc => strip_last (s := s) (by rw [h]; exact hc)⟩,
   fun h => strip_of_ends h.1 h.2⟩

theorem strip_pad {w1 w2 s : Str} (h1 : ∀ c ∈ w1, isSpace c = true) (h2 : ∀ c ∈ w2, isSpace c = true)
    (hs : strip s = s) : strip (w1 ++ (s ++ w2)) = s := by
  unfold strip
  rw [lstrip_spaces h1]
  obtain ⟨a1, a2⟩ := strip_eq_iff.1 hs
  cases s with
  | nil =>
    simp only [List.nil_append]
    have : lstrip w2 = [] := dropWhile_all h2
    rw [this]; rfl
  | cons c t =>
    rw [lstrip_of_head (by intro d hd; cases hd; exact a1 c rfl), rstrip_spaces h2]
    exact rstrip_of_last a2

theorem strip_spaces {w : Str} (h : ∀ c ∈ w, isSpace c = true) : strip w = [] := by
  have := strip_pad (w1 := w) (w2 := []) (s := []) h (by simp) rfl
  simpa using this

/-! ### splitting -/

theorem splitKeepAux_none {p : Char → Bool} {s : Str} (h : ∀ c ∈ s, p c = false) (cur : Str) :
    splitKeepAux p s cur = [cur.reverse ++ s] := by
  induction s generalizing cur with
  | nil => simp [splitKeepAux]
  | cons c t ih =>
    unfold splitKeepAux
    rw [if_neg (by simp [h c (by simp)]), ih (fun d hd => h d (by simp [hd]))]
    simp

theorem splitKeepAux_append {p : Char → Bool} {s t : Str} {c : Char} (hc : p c = true) (cur : Str) :
    splitKeepAux p (s ++ c :: t) cur = splitKeepAux p s cur ++ [c] :: splitKeepAux p t [] := by
  induction s generalizing cur with
  | nil => simp [splitKeepAux, hc]
  | cons d s ih =>
    simp only [List.cons_append, splitKeepAux]
    split
    · rw [ih]; simp
    · rw [ih]

theorem splitKeep_none {p : Char → Bool} {s : Str} (h : ∀ c ∈ s, p c = false) : splitKeep p s = [s] := by
  unfold splitKeep; rw [splitKeepAux_none h]; rfl

theorem splitKeep_append {p : Char → Bool} {s t : Str} {c : Char} (hc : p c = true) :
    splitKeep p (s ++ c :: t) = splitKeep p s ++ [c] :: splitKeep p t := splitKeepAux_append hc []

theorem splitKeep_flatten (p : Char → Bool) (s : Str) : (splitKeep p s).flatten = s := by
  have : ∀ cur, (splitKeepAux p s cur).flatten = cur.reverse ++ s := by
    induction s with
    | nil => intro cur; simp [splitKeepAux]
    | cons c t ih =>
      intro cur
      unfold splitKeepAux
      split
      · simp [ih]
      · rw [ih]; simp
  exact this []

theorem exLoop_append (s : ExSt) (a b : List Str) : exLoop s (a ++ b) = (exLoop s a >>= fun s' => exLoop s' b) := by
  induction a generalizing s with
  | nil => rfl
  | cons x a ih =>
    show (exStep s x >>= fun s' => exLoop s' (a ++ b)) = ((exStep s x >>= fun s' => exLoop s' a) >>= fun s' => exLoop s' b)
    cases exStep s x with
    | error e => rfl
    | ok s1 => exact ih s1

/-! ### token recognisers -/

theorem startsQuote_false {t : Str} (hs : ∀ c, t.head? = some c → isSpace c = false) (hq : t.head? ≠ some '"') :
    startsQuote t = false := by
  unfold startsQuote prefixMatch
  rw [rmatch_star_det]
  · cases t with
    | nil => simp [rmatch_one_nil]
    | cons c u =>
      have h1 := hs c rfl
      have h2 : c ≠ '"' := fun h => hq (by simp [h])
      simp [h1, rmatch_one, h2]
  · intro c t hc
    rw [rmatch_one]
    rw [if_neg]
    · simp; rintro rfl; exact absurd hc (by decide)

theorem quoted_none {t : Str} (hs : ∀ c, t.head? = some c → isSpace c = false) (hq : t.head? ≠ some '"') :
    quotedRated t = none ∧ quotedBare t = none := by
  have key : ∀ as, prefixMatch (.star isSpace :: .one (fun c => c == '"') :: as) t = none := by
    intro as
    unfold prefixMatch
    rw [rmatch_star_det]
    · cases t with
      | nil => simp [rmatch_one_nil]
      | cons c u =>
        have h1 := hs c rfl
        have h2 : c ≠ '"' := fun h => hq (by simp [h])
        simp [h1, rmatch_one, h2]
    · intro c t hc
      rw [rmatch_one, if_neg]
      simp; rintro rfl; exact absurd hc (by decide)
  unfold quotedRated quotedBare
  rw [key, key]
  exact ⟨rfl, rfl⟩

theorem startsPlain_eq {t : Str} (hs : ∀ c, t.head? = some c → isSpace c = false) :
    startsPlain t = t.head?.any (fun c => !isSepChar c) := by
  unfold startsPlain prefixMatch
  cases t with
  | nil => simp [rmatch, starGo]
  | cons c u =>
    have h1 := hs c rfl
    rw [rmatch_star_eq]
    unfold starGo
    rw [if_neg (by simp [h1])]
    simp only [rmatch_one, isPrefSep_eq]
    cases h : isSepChar c <;> simp [rmatch, h]

/-- `/(\d+)$` matched at the start of a string: exactly slash and digits -/
def slashHere (s : Str) : Option (List Str × Str) :=
  match s with
  | '/' :: ds => if ds ≠ [] ∧ ∀ c ∈ ds, isDigit c = true then some ([['/'], ds], []) else none
  | _ => none

theorem rmatch_slash (s : Str) : rmatch List.isEmpty [.one (fun c => c == '/'), .plus isDigit] s = slashHere s := by
  unfold slashHere
  cases s with
  | nil => rfl
  | cons c t =>
    rw [rmatch_one]
    by_cases hc : c = '/'
    · subst hc
      simp only [beq_self_eq_true, if_true]
      rw [rmatch_plus_det]
      · by_cases h : t ≠ [] ∧ ∀ c ∈ t, isDigit c = true
        · rw [if_pos h, if_neg (by rw [takeWhile_all h.2]; exact h.1), takeWhile_all h.2, dropWhile_all h.2]
          simp [rmatch]
        · rw [if_neg h]
          by_cases ht : t.takeWhile isDigit = []
          · rw [if_pos ht]; rfl
          · rw [if_neg ht]
            have : t.dropWhile isDigit ≠ [] := by
              intro he
              refine h ⟨?_, dropWhile_eq_nil_of he⟩
              rintro rfl
              exact ht rfl
            cases hd : t.dropWhile isDigit with
            | nil => exact absurd hd this
            | cons a b => simp [rmatch]
      · intro d u hd
        simp [rmatch]
    · rw [if_neg (by simpa using hc)]
      split
      · rename_i h; cases h; exact absurd rfl hc
      · rfl

theorem slashRating_rated {t ds : Str} (hne : ds ≠ []) (hd : ∀ c ∈ ds, isDigit c = true) :
    slashRating (t ++ '/' :: ds) = some (t, ds) := by
  have : searchMatch List.isEmpty [.one (fun c => c == '/'), .plus isDigit] (t ++ '/' :: ds) =
      some (t, [['/'], ds], []) := by
    induction t with
    | nil =>
      show searchMatch _ _ ('/' :: ds) = _
      unfold searchMatch
      rw [rmatch_slash]
      simp only [slashHere]
      rw [if_pos ⟨hne, hd⟩]
    | cons c t ih =>
      show searchMatch _ _ (c :: (t ++ '/' :: ds)) = _
      unfold searchMatch
      rw [rmatch_slash, ih]
      have : slashHere (c :: (t ++ '/' :: ds)) = none := by
        unfold slashHere
        split
        · rename_i x h
          cases h
          rw [if_neg]
          rintro ⟨_, h⟩
          exact digit_not_slash (h '/' (by simp)) rfl
        · rfl
      rw [this]
      rfl
  unfold slashRating
  rw [this]

theorem slashRating_none {t : Str} (h : ¬ ∃ a ds, t = a ++ '/' :: ds ∧ ds ≠ [] ∧ ∀ c ∈ ds, isDigit c = true) :
    slashRating t = none := by
  have : searchMatch List.isEmpty [.one (fun c => c == '/'), .plus isDigit] t = none := by
    induction t with
    | nil => rfl
    | cons c t ih =>
      unfold searchMatch
      rw [rmatch_slash, ih (by rintro ⟨a, ds, rfl, h2⟩; exact h ⟨c :: a, ds, rfl, h2⟩)]
      have : slashHere (c :: t) = none := by
        unfold slashHere
        split
        · rename_i x hx
          cases hx
          rw [if_neg]
          intro hh
          exact h ⟨[], t, rfl, hh⟩
        · rfl
      rw [this]; rfl
  unfold slashRating
  rw [this]

/-! ### one item -/

/-- the raw rating recorded by the tokenizer -/
def rawValue (it : Item) : Option RVal :=
  match it.rating with
  | none => none
  | some ds =>
    match it.style with
    | .quoted => some (.str ds)
    | _ => some (.int (digitsVal ds))

theorem exStep_skip {s : ExSt} {tok : Str} (h1 : s.inbrackets = false) (h2 : s.inquotes = false)
    (ht : strip tok = [] ∨ strip tok = ['>'] ∨ strip tok = ['='] ∨ strip tok = [',']) : exStep s tok = .ok s := by
  unfold exStep
  simp only [h1, h2, Bool.or_self, Bool.false_eq_true, if_false]
  rcases ht with h | h | h | h <;> rw [h] <;> rfl

theorem exStep_open {s : ExSt} (h1 : s.inbrackets = false) (h2 : s.inquotes = false) :
    exStep s ['['] = .ok { s with inbrackets := true } := by
  unfold exStep
  simp only [h1, h2, Bool.or_self, Bool.false_eq_true, if_false]
  rfl

theorem exStep_close {s : ExSt} (h1 : s.inbrackets = true) :
    exStep s [']'] = .ok { s with inbrackets := false, ccand := some s.quotetok, retval := s.retval ++ [(s.quotetok, none)], quotetok := [] } := by
  unfold exStep
  have : strip [']'] = [']'] := by decide
  simp [h1, this]

theorem exStep_inside {s : ExSt} {t : Str} (h1 : s.inbrackets = true) (hc : CleanToken t) (hh : t.head? ≠ some ']') :
    exStep s t = .ok { s with quotetok := s.quotetok ++ t } := by
  obtain ⟨hne, hst, hq⟩ := hc
  unfold exStep
  have hs := (strip_eq_iff.1 hst).1
  simp only [hst, h1, Bool.true_or, if_true, Bool.true_eq_false, and_false, if_false, hh, false_and,
    startsQuote_false hs hq, Bool.false_eq_true, hne, ne_eq, not_false_eq_true]

theorem exLoop_inside {s : ExSt} {ps : List Str} (h1 : s.inbrackets = true) (hc : ∀ t ∈ ps, CleanToken t)
    (hh : ∀ t ∈ ps, t.head? ≠ some ']') : exLoop s ps = .ok { s with quotetok := s.quotetok ++ ps.flatten } := by
  induction ps generalizing s with
  | nil => simp [exLoop]
  | cons t ps ih =>
    show (exStep s t >>= fun s' => exLoop s' ps) = _
    rw [exStep_inside h1 (hc t (by simp)) (hh t (by simp)), ok_bind,
      ih (s := { s with quotetok := s.quotetok ++ t }) h1 (fun t ht => hc t (by simp [ht])) (fun t ht => hh t (by simp [ht]))]
    simp

/-- a plain token, with or without rating -/
theorem exStep_plain {s : ExSt} {tok t : Str} (h1 : s.inbrackets = false) (h2 : s.inquotes = false)
    (hst : strip tok = t) (hc : CleanToken t) (hsep : t.head?.any (fun c => !isSepChar c) = true)
    (hno : ¬ ∃ a ds, t = a ++ '/' :: ds ∧ ds ≠ [] ∧ ∀ c ∈ ds, isDigit c = true) :
    exStep s tok = .ok { s with ccand := some t, retval := s.retval ++ [(t, none)] } := by
  obtain ⟨hne, hss, hq⟩ := hc
  have hs := (strip_eq_iff.1 hss).1
  unfold exStep
  obtain ⟨q1, q2⟩ := quoted_none hs hq
  simp only [hst, h1, h2, Bool.or_self, Bool.false_eq_true, if_false, q1, q2, startsPlain_eq hs, hsep, if_true,
    slashRating_none hno, ne_eq, hne, not_false_eq_true]

theorem exStep_rated {s : ExSt} {tok t ds : Str} (h1 : s.inbrackets = false) (h2 : s.inquotes = false)
    (hst : strip tok = t ++ '/' :: ds) (hc : CleanToken t) (hsep : t.head?.any (fun c => !isSepChar c) = true)
    (hne : ds ≠ []) (hd : ∀ c ∈ ds, isDigit c = true) :
    exStep s tok = .ok { s with ccand := some t, retval := s.retval ++ [(t, some (.int (digitsVal ds)))] } := by
  obtain ⟨htne, hss, hq⟩ := hc
  have hh : (t ++ '/' :: ds).head? = t.head? := by cases t with | nil => exact absurd rfl htne | cons => rfl
  have hs : ∀ c, (t ++ '/' :: ds).head? = some c → isSpace c = false := by
    rw [hh]; exact (strip_eq_iff.1 hss).1
  unfold exStep
  obtain ⟨q1, q2⟩ := quoted_none hs (by rw [hh]; exact hq)
  simp only [hst, h1, h2, Bool.or_self, Bool.false_eq_true, if_false, q1, q2, startsPlain_eq hs, hh, hsep, if_true,
    slashRating_rated hne hd, ne_eq, htne, not_false_eq_true]
  simp [setLast]

/-- the `/digits` left over after a closing bracket -/
theorem exStep_lateRating {s : ExSt} {tok ds : Str} {c : Str} (h1 : s.inbrackets = false) (h2 : s.inquotes = false)
    (hst : strip tok = '/' :: ds) (hne : ds ≠ []) (hd : ∀ c ∈ ds, isDigit c = true) (hcc : s.ccand = some c)
    (l : List (Str × Option RVal)) (x : Str × Option RVal) (hr : s.retval = l ++ [x]) :
    exStep s tok = .ok { s with retval := l ++ [(c, some (.int (digitsVal ds)))] } := by
  have hs : ∀ c, ('/' :: ds).head? = some c → isSpace c = false := by
    intro c hc; cases hc; decide
  have hsl : slashRating ('/' :: ds) = some ([], ds) := slashRating_rated (t := []) hne hd
  unfold exStep
  obtain ⟨q1, q2⟩ := quoted_none hs (by simp)
  have hsp : startsPlain ('/' :: ds) = true := by rw [startsPlain_eq hs]; simp [isSepChar]
  simp only [hst, h1, h2, Bool.or_self, Bool.false_eq_true, if_false, q1, q2, hsp, if_true,
    hsl, ne_eq, not_true_eq_false, hcc, hr]
  simp [setLast]

theorem exStep_quoted {s : ExSt} {tok t ds : Str} (h1 : s.inbrackets = false) (h2 : s.inquotes = false)
    (hst : strip tok = '"' :: (t ++ '"' :: '/' :: ds)) (hq : '"' ∉ t)
    (hne : ds ≠ []) (hd : ∀ c ∈ ds, isDigit c = true) :
    exStep s tok = .ok { s with ccand := some t, retval := s.retval ++ [(t, some (.str ds))] } := by
  have hqr : quotedRated ('"' :: (t ++ '"' :: '/' :: ds)) = some (t, ds) := by
    unfold quotedRated prefixMatch
    have hall : ∀ c ∈ t, (c != '"') = true := by
      intro c hc; simp; rintro rfl; exact hq hc
    rw [rmatch_star_greedy _ _ _ _ ([['"'], t, ['"'], ['/'], ds], [])]
    rw [List.dropWhile_cons, if_neg (by decide)]
    apply rmatch_one_ok _ _ _ _ _ ([t, ['"'], ['/'], ds], []) (by decide)
    have e1 : (t ++ '"' :: '/' :: ds).takeWhile (fun c => c != '"') = t := by
      rw [takeWhile_append_of_all hall]; simp
    have e2 : (t ++ '"' :: '/' :: ds).dropWhile (fun c => c != '"') = '"' :: '/' :: ds := by
      rw [dropWhile_append_of_all hall]; simp
    rw [rmatch_star_greedy _ _ _ _ ([['"'], ['/'], ds], []), e1]
    rw [e2]
    apply rmatch_one_ok _ _ _ _ _ ([['/'], ds], []) (by decide)
    apply rmatch_one_ok _ _ _ _ _ ([ds], []) (by decide)
    rw [rmatch_plus_greedy _ _ _ _ ([], []) (by rw [takeWhile_all hd]; exact hne), takeWhile_all hd]
    rw [dropWhile_all hd]; rfl
  unfold exStep
  simp only [hst, h1, h2, Bool.or_self, Bool.false_eq_true, if_false, hqr]

/-! ### a whole item, and a whole list -/

theorem ratingText_nosep {it : Item} (h : it.Ok) : ∀ c ∈ it.ratingText, isSepChar c = false := by
  intro c hc
  unfold Item.ratingText at hc
  split at hc
  · rename_i ds hds
    rcases List.mem_cons.1 hc with rfl | hc
    · decide
    · exact digit_not_sep ((h.2.2.1 ds hds).2 c hc)
  · simp at hc

theorem strip_rated {t ds : Str} (ht : strip t = t) (htne : t ≠ []) (hd : ∀ c ∈ ds, isDigit c = true) (hne : ds ≠ []) :
    strip (t ++ '/' :: ds) = t ++ '/' :: ds := by
  rw [strip_eq_iff]
  refine ⟨?_, ?_⟩
  · cases t with
    | nil => exact absurd rfl htne
    | cons c u => intro d hd; exact (strip_eq_iff.1 ht).1 d hd
  · intro c hc
    obtain ⟨a, l, rfl⟩ : ∃ a l, ds = l ++ [a] := ⟨_, _, (List.dropLast_append_getLast hne).symm⟩
    rw [show t ++ '/' :: (l ++ [a]) = (t ++ '/' :: l) ++ [a] by simp, List.getLast?_concat] at hc
    cases hc
    exact digit_not_space (hd _ (by simp))

/-- the tokenizer state after reading one item -/
theorem exLoop_item {s : ExSt} {it : Item} (h : it.Ok) (h1 : s.inbrackets = false) (h2 : s.inquotes = false)
    (h3 : s.quotetok = []) :
    exLoop s (splitKeep isPrefSep it.text) =
      .ok { s with ccand := some it.tok, retval := s.retval ++ [(it.tok, rawValue it)] } := by
  rw [isPrefSep_eq]
  obtain ⟨hpre, hpost, hrat, hst⟩ := h
  have h := (⟨hpre, hpost, hrat, hst⟩ : it.Ok)
  have hnpre : ∀ c ∈ it.pre, isSepChar c = false := fun c hc => space_not_sep (hpre c hc)
  have hnpost : ∀ c ∈ it.post, isSepChar c = false := fun c hc => space_not_sep (hpost c hc)
  have hnr := ratingText_nosep h
  obtain ⟨pre, style, tok, rating, post⟩ := it
  cases style with
  | bare =>
    obtain ⟨hct, hns, hslash⟩ := hst
    have htext : (Item.mk pre .bare tok rating post).text = pre ++ ((tok ++ (Item.mk pre .bare tok rating post).ratingText) ++ post) := by
      simp [Item.text, Item.tokText]
    rw [splitKeep_none (by
      intro c hc
      rw [htext] at hc
      simp only [List.mem_append] at hc
      rcases hc with hc | (hc | hc) | hc
      · exact hnpre c hc
      · exact hns c hc
      · exact hnr c hc
      · exact hnpost c hc)]
    have hsep : tok.head?.any (fun c => !isSepChar c) = true := by
      cases tok with
      | nil => exact absurd rfl hct.1
      | cons c t => simpa using hns c (by simp)
    show (exStep s _ >>= fun s' => exLoop s' []) = _
    cases rating with
    | none =>
      rw [exStep_plain (t := tok) h1 h2 _ hct hsep (hslash rfl)]
      · rfl
      · rw [htext]
        simp only [Item.ratingText, List.append_nil]
        exact strip_pad hpre hpost hct.2.1
    | some ds =>
      obtain ⟨hne, hd⟩ := hrat ds rfl
      rw [exStep_rated (t := tok) (ds := ds) h1 h2 _ hct hsep hne hd]
      · rfl
      · rw [htext]
        simp only [Item.ratingText]
        exact strip_pad hpre hpost (strip_rated hct.2.1 hct.1 hd hne)
  | quoted =>
    obtain ⟨hq, hns, hrr⟩ := hst
    cases rating with
    | none => exact absurd rfl hrr
    | some ds =>
      obtain ⟨hne, hd⟩ := hrat ds rfl
      have htext : (Item.mk pre .quoted tok (some ds) post).text = pre ++ (('"' :: (tok ++ '"' :: '/' :: ds)) ++ post) := by
        simp [Item.text, Item.tokText, Item.ratingText]
      rw [splitKeep_none (by
        intro c hc
        rw [htext] at hc
        simp only [List.mem_append, List.mem_cons] at hc
        rcases hc with hc | (rfl | hc | rfl | rfl | hc) | hc
        · exact hnpre c hc
        · decide
        · exact hns c hc
        · decide
        · decide
        · exact digit_not_sep (hd c hc)
        · exact hnpost c hc)]
      show (exStep s _ >>= fun s' => exLoop s' []) = _
      rw [exStep_quoted (t := tok) (ds := ds) h1 h2 _ hq hne hd]
      · rfl
      · rw [htext]
        apply strip_pad hpre hpost
        have := strip_rated (t := '"' :: (tok ++ ['"'])) (ds := ds) (by
          rw [strip_eq_iff]
          refine ⟨by intro c hc; cases hc; decide, ?_⟩
          intro c hc
          rw [show '"' :: (tok ++ ['"']) = ('"' :: tok) ++ ['"'] by simp, List.getLast?_concat] at hc
          cases hc; decide) (by simp) hd hne
        simpa using this
  | bracket =>
    obtain ⟨hnb, hparts⟩ := hst
    have htext : (Item.mk pre .bracket tok rating post).text =
        pre ++ '[' :: (tok ++ ']' :: ((Item.mk pre .bracket tok rating post).ratingText ++ post)) := by
      simp [Item.text, Item.tokText]
    rw [htext, splitKeep_append (by decide), splitKeep_append (by decide), splitKeep_none hnpre,
      splitKeep_none (s := _ ++ post) (by
        intro c hc
        rcases List.mem_append.1 hc with hc | hc
        · exact hnr c hc
        · exact hnpost c hc)]
    simp only [List.cons_append, List.nil_append]
    show (exStep s pre >>= fun s' => exLoop s' _) = _
    rw [exStep_skip h1 h2 (.inl (strip_spaces hpre)), ok_bind]
    show (exStep s ['['] >>= fun s' => exLoop s' _) = _
    rw [exStep_open h1 h2, ok_bind, exLoop_append,
      exLoop_inside rfl hparts (by
        intro t ht
        intro hh
        apply hnb
        rw [← splitKeep_flatten isSepChar tok, List.mem_flatten]
        refine ⟨t, ht, ?_⟩
        cases t with
        | nil => cases hh
        | cons c u => cases hh; simp), ok_bind, splitKeep_flatten]
    show (exStep _ [']'] >>= fun s' => exLoop s' _) = _
    rw [exStep_close rfl, ok_bind]
    simp only [h3, List.nil_append]
    show (exStep _ _ >>= fun s' => exLoop s' []) = _
    cases rating with
    | none =>
      simp only [Item.ratingText, List.nil_append]
      rw [exStep_skip (by rfl) (by exact h2) (.inl (strip_spaces (w := post) hpost))]
      show Except.ok _ = _
      simp [rawValue, h1, h3]
    | some ds =>
      obtain ⟨hne, hd⟩ := hrat ds rfl
      rw [exStep_lateRating (ds := ds) (c := tok) (by rfl) (by exact h2) _ hne hd (by rfl) s.retval (tok, none) (by rfl)]
      · show Except.ok _ = _
        simp [rawValue, h1, h3]
      · simp only [Item.ratingText]
        have := strip_pad (w1 := []) (w2 := post) (s := '/' :: ds) (by simp) hpost (by
          rw [strip_eq_iff]
          refine ⟨by intro c hc; cases hc; decide, ?_⟩
          intro c hc
          obtain ⟨a, l, rfl⟩ : ∃ a l, ds = l ++ [a] := ⟨_, _, (List.dropLast_append_getLast hne).symm⟩
          rw [show '/' :: (l ++ [a]) = ('/' :: l) ++ [a] by simp, List.getLast?_concat] at hc
          cases hc
          exact digit_not_space (hd _ (by simp)))
        simpa using this

theorem exLoop_items {s : ExSt} {its : List Item} {ds : List Char} (h : ∀ it ∈ its, it.Ok)
    (hd : ∀ d ∈ ds, d = '>' ∨ d = '=' ∨ d = ',') (hlen : ds.length + 1 = its.length)
    (h1 : s.inbrackets = false) (h2 : s.inquotes = false) (h3 : s.quotetok = []) :
    ∃ s', exLoop s (splitKeep isPrefSep (writeItems its ds)) = .ok s' ∧
      s'.retval = s.retval ++ its.map (fun it => (it.tok, rawValue it)) := by
  induction its generalizing s ds with
  | nil => simp at hlen
  | cons it its ih =>
    cases its with
    | nil =>
      refine ⟨_, exLoop_item (h it (by simp)) h1 h2 h3, by simp⟩
    | cons it2 its =>
      cases ds with
      | nil => simp at hlen
      | cons d ds =>
        have hdd := hd d (by simp)
        have hsep : isPrefSep d = true := by rcases hdd with rfl | rfl | rfl <;> decide
        show ∃ s', exLoop s (splitKeep isPrefSep (it.text ++ d :: writeItems (it2 :: its) ds)) = .ok s' ∧ _
        rw [splitKeep_append hsep, exLoop_append, exLoop_item (h it (by simp)) h1 h2 h3, ok_bind]
        show ∃ s', (exStep _ [d] >>= fun s' => exLoop s' _) = .ok s' ∧ _
        rw [exStep_skip (tok := [d]) (by exact h1) (by exact h2) (by rcases hdd with rfl | rfl | rfl <;> decide), ok_bind]
        obtain ⟨s', hs', hr⟩ := ih (s := { s with ccand := some it.tok, retval := s.retval ++ [(it.tok, rawValue it)] })
          (ds := ds) (fun x hx => h x (by simp [hx])) (fun x hx => hd x (by simp [hx])) (by simpa using hlen) h1 h2 h3
        exact ⟨s', hs', by rw [hr]; simp⟩

/-! ### delimiters -/

/-- the delimiter filter -/
def isDelim (c : Char) : Bool := c == '>' || c == ',' || c == '='

theorem reSubAux_skip (m : Str → Option Nat) (r a t : Str) : reSubAux m r a.length (a ++ t) = reSubAux m r 0 t := by
  induction a with
  | nil => rfl
  | cons c a ih => exact ih

theorem matchLen_bracket_none {c : Char} {t : Str} (h : c ≠ '[') : matchLen bracketAtoms (c :: t) = none := by
  unfold matchLen prefixMatch bracketAtoms
  rw [rmatch_one, if_neg (by simpa using h)]; rfl

theorem matchLen_bracket {tok t : Str} (h : ']' ∉ tok) :
    matchLen bracketAtoms ('[' :: (tok ++ ']' :: t)) = some (tok.length + 1 + 1) := by
  unfold matchLen prefixMatch bracketAtoms
  have hall : ∀ c ∈ tok, (c != ']') = true := by
    intro c hc; simp; rintro rfl; exact h hc
  rw [rmatch_one_ok _ _ _ _ _ ([tok, [']']], t) (by decide)]
  · simp [piecesLen]; omega
  · rw [rmatch_star_greedy _ _ _ _ ([[']']], t)]
    · rw [takeWhile_append_of_all hall]; simp
    · rw [dropWhile_append_of_all hall, List.dropWhile_cons, if_neg (by decide)]
      exact rmatch_one_ok _ _ _ _ _ ([], t) (by decide) rfl

theorem reSub_plain {a t : Str} (h : '[' ∉ a) (r : Str) :
    reSub (matchLen bracketAtoms) r (a ++ t) = a ++ reSub (matchLen bracketAtoms) r t := by
  induction a with
  | nil => rfl
  | cons c a ih =>
    have hc : c ≠ '[' := by rintro rfl; simp at h
    have := ih (fun hh => h (by simp [hh]))
    unfold reSub at this ⊢
    simp only [List.cons_append, reSubAux, matchLen_bracket_none hc]
    rw [this]

theorem reSub_bracket {tok t : Str} (h : ']' ∉ tok) (r : Str) :
    reSub (matchLen bracketAtoms) r ('[' :: (tok ++ ']' :: t)) = r ++ reSub (matchLen bracketAtoms) r t := by
  unfold reSub
  rw [reSubAux, matchLen_bracket h]
  simp only
  congr 1
  have := reSubAux_skip (matchLen bracketAtoms) r (tok ++ [']']) t
  simpa using this

theorem not_sep_not_delim {c : Char} (h : isSepChar c = false) : isDelim c = false := by
  cases hd : isDelim c with
  | false => rfl
  | true =>
    simp [isDelim] at hd
    rcases hd with (rfl | rfl) | rfl <;> exact absurd h (by decide)

theorem not_sep_not_open {s : Str} (h : ∀ c ∈ s, isSepChar c = false) : '[' ∉ s := by
  intro hm; exact absurd (h _ hm) (by decide)

theorem filter_delim_nosep {s : Str} (h : ∀ c ∈ s, isSepChar c = false) : s.filter isDelim = [] := by
  rw [List.filter_eq_nil_iff]
  intro c hc
  simp [not_sep_not_delim (h c hc)]

theorem reSub_item {it : Item} (h : it.Ok) (t : Str) :
    (reSub (matchLen bracketAtoms) c!"[PLACEHOLDER]" (it.text ++ t)).filter isDelim =
      (reSub (matchLen bracketAtoms) c!"[PLACEHOLDER]" t).filter isDelim := by
  obtain ⟨hpre, hpost, hrat, hst⟩ := h
  have h := (⟨hpre, hpost, hrat, hst⟩ : it.Ok)
  have hnpre : ∀ c ∈ it.pre, isSepChar c = false := fun c hc => space_not_sep (hpre c hc)
  have hnpost : ∀ c ∈ it.post, isSepChar c = false := fun c hc => space_not_sep (hpost c hc)
  have hnr := ratingText_nosep h
  have htail : ∀ c ∈ it.ratingText ++ it.post, isSepChar c = false := by
    intro c hc
    rcases List.mem_append.1 hc with hc | hc
    · exact hnr c hc
    · exact hnpost c hc
  have hnt : it.style ≠ .bracket → ∀ c ∈ it.tokText, isSepChar c = false := by
    intro hs c hc
    unfold Item.tokText at hc
    cases hst' : it.style with
    | bare => rw [hst'] at hc hst; exact hst.2.1 c hc
    | bracket => exact absurd hst' hs
    | quoted =>
      rw [hst'] at hc hst
      simp only [List.mem_cons, List.mem_append, List.not_mem_nil, or_false] at hc
      rcases hc with rfl | hc | rfl
      · decide
      · exact hst.2.1 c hc
      · decide
  have hsplit : it.text ++ t = it.pre ++ (it.tokText ++ ((it.ratingText ++ it.post) ++ t)) := by
    simp [Item.text]
  rw [hsplit, reSub_plain (not_sep_not_open hnpre), List.filter_append, filter_delim_nosep hnpre, List.nil_append]
  by_cases hs : it.style = .bracket
  · have e : it.tokText = '[' :: (it.tok ++ [']']) := by unfold Item.tokText; rw [hs]
    rw [hs] at hst
    rw [e]
    rw [show ('[' :: (it.tok ++ [']']) ++ ((it.ratingText ++ it.post) ++ t)) =
      '[' :: (it.tok ++ ']' :: ((it.ratingText ++ it.post) ++ t)) by simp, reSub_bracket hst.1,
      reSub_plain (not_sep_not_open htail), List.filter_append, List.filter_append, filter_delim_nosep htail]
    rfl
  · rw [reSub_plain (not_sep_not_open (hnt hs)), reSub_plain (not_sep_not_open htail), List.filter_append,
      List.filter_append, filter_delim_nosep (hnt hs), filter_delim_nosep htail]
    rfl

theorem delims_items {its : List Item} {ds : List Char} (h : ∀ it ∈ its, it.Ok)
    (hd : ∀ d ∈ ds, d = '>' ∨ d = '=' ∨ d = ',') (hlen : ds.length + 1 = its.length) :
    (reSub (matchLen bracketAtoms) c!"[PLACEHOLDER]" (writeItems its ds)).filter isDelim = ds := by
  induction its generalizing ds with
  | nil => simp at hlen
  | cons it its ih =>
    cases its with
    | nil =>
      simp at hlen
      subst hlen
      have := reSub_item (h it (by simp)) []
      rw [List.append_nil] at this
      exact this
    | cons it2 its =>
      cases ds with
      | nil => simp at hlen
      | cons d ds =>
        have hdd := hd d (by simp)
        show (reSub _ _ (it.text ++ d :: writeItems (it2 :: its) ds)).filter _ = _
        rw [reSub_item (h it (by simp))]
        have : reSub (matchLen bracketAtoms) c!"[PLACEHOLDER]" ([d] ++ writeItems (it2 :: its) ds) = _ :=
          reSub_plain (by rcases hdd with rfl | rfl | rfl <;> decide) _
        rw [List.singleton_append] at this
        rw [this, List.filter_append, ih (fun x hx => h x (by simp [hx])) (fun x hx => hd x (by simp [hx])) (by simpa using hlen)]
        rcases hdd with rfl | rfl | rfl <;> rfl

/-- the mode chosen for given delimiters -/
def modeOf (ds : List Char) : RankOrRate :=
  match ds with
  | [] => .rankone
  | d :: _ => if d = '>' ∨ d = '=' then .rank else .rate

theorem determine_items {its : List Item} {ds : List Char} (h : ∀ it ∈ its, it.Ok)
    (hd : ∀ d ∈ ds, d = '>' ∨ d = '=' ∨ d = ',') (hlen : ds.length + 1 = its.length) :
    determineRankOrRate (writeItems its ds) = (modeOf ds, ds) := by
  unfold determineRankOrRate
  have := delims_items h hd hlen
  unfold isDelim at this
  simp only [this]
  cases ds with
  | nil => rfl
  | cons d ds =>
    simp only [modeOf]
    split <;> rfl

/-! ### the preference loop on distinct candidates -/

/-- the rank written by the loop -/
def modeRank (mode : RankOrRate) (rank : Int) : Option Int :=
  match mode with
  | .rankone => some 1
  | .rank => some rank
  | .rate => none

theorem prefLoop_cons (mode : RankOrRate) (ds : List Char) (n i : Nat) (rank : Int) (c : Str) (r : Option RVal)
    (rest : List (Str × Option RVal)) (prefs : Dict Str Pref) :
    prefLoop mode ds n i rank ((c, r) :: rest) prefs =
      if i + 1 < n then
        match ds[i]? with
        | none => .error .indexError
        | some d => prefLoop mode ds n (i + 1) (if mode = .rank ∧ d = '>' then rank + 1 else rank) rest
            (prefs.set c { rating := if ratingTruthy r then r else none, rank := modeRank mode rank, nextdelim := some [d] })
      else prefLoop mode ds n (i + 1) rank rest
        (prefs.set c { rating := if ratingTruthy r then r else none, rank := modeRank mode rank }) := rfl

/-- the entry written for the `j`-th candidate -/
def loopEntry (mode : RankOrRate) (ds : List Char) (j : Nat) (rating : Option RVal) : Pref where
  rating := if ratingTruthy rating then rating else none
  rank := modeRank mode (1 + ((ds.take j).count '>' : Nat))
  nextdelim := ds[j]?.map (fun d => [d])

theorem take_succ_count (ds : List Char) (j : Nat) (d : Char) (h : ds[j]? = some d) :
    (ds.take (j + 1)).count '>' = (ds.take j).count '>' + (if d = '>' then 1 else 0) := by
  rw [List.take_succ, h]
  simp only [Option.toList_some, List.count_append]
  congr 1
  by_cases hd : d = '>' <;> simp [hd]

theorem prefLoop_eq {mode : RankOrRate} {ds : List Char} {n : Nat} {cps : List (Str × Option RVal)} {i : Nat}
    {rank : Int} {prefs : Dict Str Pref} (hn : ds.length + 1 = n) (hi : i + cps.length = n)
    (hnd : (prefs.keys ++ cps.map Prod.fst).Nodup)
    (hrank : mode = .rank → rank = 1 + ((ds.take i).count '>' : Nat)) :
    prefLoop mode ds n i rank cps prefs =
      .ok (prefs ++ (cps.zipIdx i).map (fun x => (x.1.1, loopEntry mode ds x.2 x.1.2))) := by
  induction cps generalizing i rank prefs with
  | nil => simp [prefLoop]
  | cons e cps ih =>
    obtain ⟨c, r⟩ := e
    simp only [List.length_cons] at hi
    have hcn : c ∉ prefs.keys := by
      intro hm
      rw [List.nodup_append] at hnd
      exact hnd.2.2 c hm c (by simp) rfl
    have hkeys : ∀ p : Pref, (Dict.keys (prefs ++ [(c, p)]) ++ cps.map Prod.fst).Nodup := by
      intro p
      have : Dict.keys (prefs ++ [(c, p)]) ++ cps.map Prod.fst = prefs.keys ++ ((c, r) :: cps).map Prod.fst := by
        simp [Dict.keys]
      rw [this]; exact hnd
    rw [prefLoop_cons]
    simp only [List.zipIdx_cons, List.map_cons]
    have hrk : modeRank mode rank = (loopEntry mode ds i r).rank := by
      unfold loopEntry modeRank
      cases mode with
      | rank => simp only; rw [hrank rfl]
      | rate => rfl
      | rankone => rfl
    by_cases hlast : i + 1 < n
    · rw [if_pos hlast]
      have hget : ∃ d, ds[i]? = some d := ⟨ds[i]'(by omega), List.getElem?_eq_getElem (by omega)⟩
      obtain ⟨d, hdget⟩ := hget
      rw [hdget]
      simp only
      have hent : ({ rating := if ratingTruthy r = true then r else none,
                     rank := modeRank mode rank,
                     nextdelim := some [d] } : Pref) = loopEntry mode ds i r := by
        rw [hrk]
        unfold loopEntry
        rw [hdget]
        rfl
      rw [hent, Dict.set_of_not_mem _ hcn, ih (by omega) (hkeys _)]
      · simp
      · intro hm
        rw [take_succ_count ds i d hdget]
        subst hm
        rw [hrank rfl]
        by_cases hd : d = '>'
        · rw [if_pos ⟨rfl, hd⟩, if_pos hd]; push_cast; omega
        · rw [if_neg (by simp [hd]), if_neg hd]; rfl
    · rw [if_neg hlast]
      have hcps : cps = [] := List.length_eq_zero_iff.1 (by omega)
      subst hcps
      have hnone : ds[i]? = none := List.getElem?_eq_none (by omega)
      have hent : ({ rating := if ratingTruthy r = true then r else none,
                     rank := modeRank mode rank } : Pref) =
          loopEntry mode ds i r := by
        rw [hrk]
        unfold loopEntry
        rw [hnone]
        rfl
      rw [hent, Dict.set_of_not_mem _ hcn]
      simp [prefLoop]

/-! ### ranks from ratings -/

theorem Dict.set_get {κ α : Type} [DecidableEq κ] {d : Dict κ α} {k : κ} {v : α} (h : d.get? k = some v) : d.set k v = d := by
  induction d with
  | nil => cases h
  | cons e d ih =>
    obtain ⟨k', v'⟩ := e
    simp only [Dict.get?] at h
    simp only [Dict.set]
    split at h
    · rename_i hk
      cases h
      rw [if_pos hk]
    · rename_i hk
      rw [if_neg hk, ih h]

theorem Dict.modify_id {κ α : Type} [DecidableEq κ] {d : Dict κ α} {k : κ} {f : α → α}
    (h : ∀ v, d.get? k = some v → f v = v) : d.modify k f = d := by
  unfold Dict.modify
  cases hg : d.get? k with
  | none => rfl
  | some v => simp only; rw [h v hg, Dict.set_get hg]

/-- pairs as score entries -/
def asScores (L : List (Str × Int)) : List (Str × ScoreEntry) :=
  L.map (fun e => (e.1, { candname := none, score := e.2, votercount := 0 }))

/-- the previous rate as an option -/
def prevOf (first : Bool) (rate : Int) : Option Int := if first then none else some rate

theorem addRanksLoop_eq {first : Bool} {prevrate prevrank : Int} {L : List (Str × Int)} {prefs : Dict Str Pref}
    (hs : L.Pairwise (fun x y => y.2 ≤ x.2)) (hf : first = true ∧ prevrank = 0 ∨ first = false ∧ ∀ e ∈ L, e.2 ≤ prevrate)
    (hnd : (L.map Prod.fst).Nodup) :
    ∃ out, addRanksLoop first prevrate prevrank L prefs = .ok out ∧ out.keys = prefs.keys ∧
      ∀ c, out.get? c = (prefs.get? c).map (fun p => if rankTruthy p.rank then p else
        match Dict.get? (scoreRanks (prevOf first prevrate) prevrank (asScores L)) c with
        | some r => { p with rank := some r }
        | none => p) := by
  induction L generalizing first prevrate prevrank prefs with
  | nil =>
    refine ⟨prefs, rfl, rfl, fun c => ?_⟩
    simp [asScores, scoreRanks, Dict.get?]
  | cons e L ih =>
    obtain ⟨c0, rate⟩ := e
    rw [List.pairwise_cons] at hs
    simp only [List.map_cons, List.nodup_cons] at hnd
    let tr : Int := incRank (prevOf first prevrate) prevrank rate
    have hloop : addRanksLoop first prevrate prevrank ((c0, rate) :: L) prefs =
        addRanksLoop false rate tr L (prefs.modify c0 (fun p => if rankTruthy p.rank then p else { p with rank := some tr })) := by
      rw [addRanksLoop]
      simp only
      rcases hf with ⟨hf, hpr⟩ | ⟨hf, hle⟩
      · subst hf hpr
        rfl
      · subst hf
        have hle := hle _ (List.mem_cons_self)
        simp only at hle
        simp only [Bool.false_eq_true, if_false]
        by_cases h1 : rate < prevrate
        · rw [if_pos h1]
          have : tr = prevrank + 1 := by simp [tr, incRank, prevOf, h1]
          rw [this]
        · rw [if_neg h1, if_pos (by omega)]
          have : tr = prevrank := by simp [tr, incRank, prevOf, h1]
          rw [this]
    obtain ⟨out, ho, hk, hg⟩ := ih (first := false) (prevrate := rate) (prevrank := tr)
      (prefs := prefs.modify c0 (fun p => if rankTruthy p.rank then p else { p with rank := some tr }))
      hs.2 (.inr ⟨rfl, fun e he => hs.1 e he⟩) hnd.2
    refine ⟨out, by rw [hloop, ho], by rw [hk, Dict.keys_modify], ?_⟩
    intro c
    rw [hg c, Dict.get?_modify]
    have hsc : scoreRanks (prevOf first prevrate) prevrank (asScores ((c0, rate) :: L)) =
        (c0, tr) :: scoreRanks (some rate) tr (asScores L) := rfl
    rw [hsc]
    by_cases hc : c0 = c
    · subst hc
      rw [if_pos rfl]
      have hnone : Dict.get? (scoreRanks (prevOf false rate) tr (asScores L)) c0 = none := by
        rw [Dict.get?_eq_none]
        have : Dict.keys (scoreRanks (prevOf false rate) tr (asScores L)) = L.map Prod.fst := by
          rw [scoreRanks_eq]
          · simp [Dict.keys, asScores, List.map_map, Function.comp_def]
          · unfold asScores
            rw [List.pairwise_map]
            exact hs.2
          · intro p hp e he
            simp only [prevOf, Bool.false_eq_true, if_false, Option.some.injEq] at hp
            subst hp
            obtain ⟨x, hx, rfl⟩ := List.mem_map.1 he
            exact hs.1 x hx
        rw [this]
        exact hnd.1
      rw [hnone]
      cases hp : prefs.get? c0 with
      | none => rfl
      | some p =>
        simp only [Option.map_some, Dict.get?, if_true]
        cases ht : rankTruthy p.rank with
        | true => simp [ht]
        | false => simp
    · rw [if_neg hc]
      simp only [Dict.get?, if_neg hc]
      rfl

theorem firsts_length_perm {l l' : List Int} (hp : l.Perm l') : (firsts l).length = (firsts l').length := by
  have : (firsts l).Perm (firsts l') := by
    rw [List.perm_ext_iff_of_nodup (nodup_firsts _) (nodup_firsts _)]
    intro a
    rw [mem_firsts, mem_firsts, hp.mem_iff]
  exact this.length_eq

theorem denseRank_perm {l l' : List Int} (hp : l.Perm l') (s : Int) : denseRank l s = denseRank l' s := by
  unfold denseRank
  rw [firsts_length_perm (hp.filter _)]

/-- the number read from an entry's rating -/
def entryNum (p : Pref) : Int := match ratingInt p.rating with | .ok i => i | .error _ => 0

/-- `_add_ranks_to_prefjab_by_rating` on a well-formed dict with readable ratings: entries without a rank
get the dense rank of their rating. -/
theorem addRanksByRating_eq {prefs : Dict Str Pref} (hw : prefs.WF)
    (hr : ∀ e ∈ prefs, ∃ i, ratingInt e.2.rating = .ok i) :
    addRanksByRating prefs = .ok (prefs.map (fun e => (e.1, if rankTruthy e.2.rank then e.2 else
      { e.2 with rank := some (denseRank (prefs.map (fun x => entryNum x.2)) (entryNum e.2)) }))) := by
  unfold addRanksByRating
  have hks : ratedKeys prefs = .ok (prefs.map (fun e => (e.1, entryNum e.2))) := by
    unfold ratedKeys
    apply mapM_eq_map
    intro e he
    obtain ⟨i, hi⟩ := hr e he
    rw [hi]
    simp only [ok_bind, entryNum, hi]
  rw [hks, ok_bind]
  have hperm := sortByKeyDesc_perm Prod.snd (prefs.map (fun e => (e.1, entryNum e.2)))
  have hsorted := sortByKeyDesc_sorted Prod.snd (prefs.map (fun e => (e.1, entryNum e.2)))
  have hnd : ((sortByKeyDesc Prod.snd (prefs.map (fun e => (e.1, entryNum e.2)))).map Prod.fst).Nodup := by
    rw [(hperm.map Prod.fst).nodup_iff]
    simpa [List.map_map, Function.comp_def, Dict.WF, Dict.keys] using hw
  obtain ⟨out, ho, hk, hg⟩ := addRanksLoop_eq (first := true) (prevrate := 0) (prevrank := 0) (prefs := prefs)
    hsorted (.inl ⟨rfl, rfl⟩) hnd
  rw [ho]
  congr 1
  apply Dict.ext_of_wf
  · unfold Dict.WF; rw [hk]; exact hw
  · unfold Dict.WF; rw [Dict.keys_map prefs]; exact hw
  · rw [hk, Dict.keys_map prefs]
  · intro c
    rw [hg c, Dict.get?_map prefs (fun _ p => if rankTruthy p.rank then p else
      { p with rank := some (denseRank (prefs.map (fun x => entryNum x.2)) (entryNum p)) })]
    cases hp : prefs.get? c with
    | none => rfl
    | some p =>
      simp only [Option.map_some]
      congr 1
      cases rankTruthy p.rank with
      | true => rfl
      | false =>
        simp only [Bool.false_eq_true, if_false]
        have hrank : Dict.get? (scoreRanks (prevOf true 0) 0 (asScores (sortByKeyDesc Prod.snd (prefs.map (fun e => (e.1, entryNum e.2)))))) c =
            some (denseRank (prefs.map (fun x => entryNum x.2)) (entryNum p)) := by
          rw [scoreRanks_eq]
          · apply Dict.get?_of_mem
            · unfold Dict.WF Dict.keys
              rw [List.map_map]
              unfold asScores
              rw [List.map_map]
              exact hnd
            · rw [List.mem_map]
              refine ⟨(c, { candname := none, score := entryNum p, votercount := 0 }), ?_, ?_⟩
              · unfold asScores
                rw [List.mem_map]
                refine ⟨(c, entryNum p), ?_, rfl⟩
                rw [hperm.mem_iff, List.mem_map]
                exact ⟨(c, p), Dict.mem_of_get? hp, rfl⟩
              · simp only [Int.zero_add]
                congr 1
                show between none _ _ = _
                have hp2 : ((asScores (sortByKeyDesc Prod.snd (prefs.map (fun e => (e.1, entryNum e.2))))).map (fun e => e.2.score)).Perm
                    (prefs.map (fun x => entryNum x.2)) := by
                  unfold asScores
                  rw [List.map_map]
                  have := hperm.map Prod.snd
                  rw [List.map_map] at this
                  exact this
                rw [between_dense, denseRank_perm hp2]
                rw [hp2.mem_iff, List.mem_map]
                exact ⟨(c, p), Dict.mem_of_get? hp, rfl⟩
          · unfold asScores
            rw [List.pairwise_map]
            exact hsorted
          · intro p hp; cases hp
        rw [hrank]

/-- all entries ranked: nothing changes -/
theorem addRanksByRating_id {prefs : Dict Str Pref} (hw : prefs.WF)
    (hr : ∀ e ∈ prefs, ∃ i, ratingInt e.2.rating = .ok i) (hall : ∀ e ∈ prefs, rankTruthy e.2.rank = true) :
    addRanksByRating prefs = .ok prefs := by
  rw [addRanksByRating_eq hw hr]
  congr 1
  conv => rhs; rw [← List.map_id prefs]
  apply List.map_congr_left
  intro e he
  simp [hall e he]

/-! ### digit strings -/

theorem pyInt_digits {ds : Str} (hne : ds ≠ []) (hd : ∀ c ∈ ds, isDigit c = true) : pyIntOfStr ds = .ok (digitsVal ds) := by
  have hst : strip ds = ds := by
    rw [strip_eq_iff]
    exact ⟨fun c hc => digit_not_space (hd c (List.mem_of_head? hc)), fun c hc => digit_not_space (hd c (List.mem_of_getLast? hc))⟩
  have hnu : ∀ c ∈ ds, c ≠ '_' := by
    rintro c hc rfl
    have := hd _ hc
    rw [digit_ascii (by decide) (by decide)] at this
    cases this
  have hfil : ds.filter (fun c => c != '_') = ds := by
    rw [List.filter_eq_self]
    intro c hc; simpa using hnu c hc
  have hns : ∀ x : Char, isDigit x = false → ds.head? ≠ some x := by
    intro x hx hh
    rw [hd x (List.mem_of_head? hh)] at hx
    cases hx
  have hm : signSplit ds = (false, ds) := by
    unfold signSplit
    split
    · exact absurd rfl (hns '-' (digit_ascii (by decide) (by decide)))
    · exact absurd rfl (hns '+' (digit_ascii (by decide) (by decide)))
    · rfl
  have hall : ds.all (fun c => isDigit c || c == '_') = true := by
    rw [List.all_eq_true]; intro c hc; simp [hd c hc]
  have hh : ds.head?.any isDigit = true := by
    cases ds with
    | nil => exact absurd rfl hne
    | cons c t => simpa using hd c (by simp)
  have hl : ds.getLast?.any isDigit = true := by
    rw [List.getLast?_eq_some_getLast hne]
    simpa using hd _ (List.getLast_mem hne)
  have hz : (ds.zip ds.tail).all (fun p => !(p.1 == '_' && p.2 == '_')) = true := by
    rw [List.all_eq_true]
    intro p hp
    have := hnu p.1 (List.of_mem_zip hp).1
    simp [this]
  unfold pyIntOfStr
  simp only [hst, hm, hh, hl, hall, hz, Bool.and_self, if_true, hfil, Bool.false_eq_true, if_false]

theorem rawValue_readable {it : Item} (h : it.Ok) :
    ratingInt (if ratingTruthy (rawValue it) then rawValue it else none) = .ok it.number ∧
    (if ratingTruthy (rawValue it) then rawValue it else none) = it.value := by
  have hrat := h.2.2.1
  unfold rawValue Item.number Item.value
  cases hr : it.rating with
  | none => simp [ratingTruthy, ratingInt]
  | some ds =>
    obtain ⟨hne, hd⟩ := hrat ds hr
    cases it.style with
    | quoted => simp [ratingTruthy, hne, ratingInt, pyInt_digits hne hd]
    | bare =>
      by_cases h0 : digitsVal ds = 0
      · simp [ratingTruthy, ratingInt, h0]
      · simp [ratingTruthy, ratingInt, h0]
    | bracket =>
      by_cases h0 : digitsVal ds = 0
      · simp [ratingTruthy, ratingInt, h0]
      · simp [ratingTruthy, ratingInt, h0]

/-! ### the whole preference string -/

/-- rank of the `j`-th written candidate -/
def itemRank (its : List Item) (ds : List Char) (j : Nat) (it : Item) : Int :=
  if ds.head? = some ',' then denseRank (its.map Item.number) it.number
  else 1 + ((ds.take j).count '>' : Nat)

/-- entry of the `j`-th written candidate -/
def itemEntry (its : List Item) (ds : List Char) (x : Item × Nat) : Pref where
  rating := x.1.value
  rank := some (itemRank its ds x.2 x.1)
  nextdelim := ds[x.2]?.map (fun d => [d])

theorem parsePrefstr_items {its : List Item} {ds : List Char} (h : ∀ it ∈ its, it.Ok)
    (hd : ∀ d ∈ ds, d = '>' ∨ d = '=' ∨ d = ',') (hlen : ds.length + 1 = its.length)
    (hnd : (its.map Item.tok).Nodup) :
    parsePrefstr (writeItems its ds) =
      .ok (its.zipIdx.map (fun x => (x.1.tok, itemEntry its ds x)), its.map Item.tok) := by
  unfold parsePrefstr
  rw [determine_items h hd hlen]
  simp only
  obtain ⟨s', hs', hret⟩ := exLoop_items (s := {}) h hd hlen rfl rfl rfl
  have hex : extractCandprefs (writeItems its ds) = .ok (its.map (fun it => (it.tok, rawValue it))) := by
    unfold extractCandprefs
    rw [hs', ok_bind, hret]; rfl
  rw [hex, ok_bind]
  have hfst : (its.map (fun it => (it.tok, rawValue it))).map Prod.fst = its.map Item.tok := by
    rw [List.map_map]; rfl
  have hpl := prefLoop_eq (mode := modeOf ds) (ds := ds) (n := (its.map (fun it => (it.tok, rawValue it))).length) (i := 0) (rank := 1)
    (cps := its.map (fun it => (it.tok, rawValue it))) (prefs := []) (by simp; omega) (by simp)
    (by rw [hfst]; exact hnd) (by intro _; simp)
  rw [hpl, ok_bind]
  have hzip : (([] : Dict Str Pref) ++ ((its.map (fun it => (it.tok, rawValue it))).zipIdx 0).map
      (fun x => (x.1.1, loopEntry (modeOf ds) ds x.2 x.1.2))) =
      (its.zipIdx.map (fun x => (x.1.tok, loopEntry (modeOf ds) ds x.2 (rawValue x.1)))) := by
    rw [List.nil_append, List.zipIdx_map, List.map_map]
    rfl
  rw [hzip]
  have hkeys : ∀ f : Item × Nat → Pref, Dict.keys (its.zipIdx.map (fun x => (x.1.tok, f x))) = its.map Item.tok := by
    intro f
    unfold Dict.keys
    rw [List.map_map]
    have : (Prod.fst ∘ fun x : Item × Nat => (x.1.tok, f x)) = Item.tok ∘ Prod.fst := rfl
    rw [this, ← List.map_map, List.zipIdx_map_fst]
  have hwf : Dict.WF (its.zipIdx.map (fun x => (x.1.tok, loopEntry (modeOf ds) ds x.2 (rawValue x.1)))) := by
    unfold Dict.WF; rw [hkeys]; exact hnd
  have hread : ∀ e ∈ (its.zipIdx.map (fun x => (x.1.tok, loopEntry (modeOf ds) ds x.2 (rawValue x.1)))),
      ∃ i, ratingInt e.2.rating = .ok i := by
    intro e he
    obtain ⟨x, hx, rfl⟩ := List.mem_map.1 he
    exact ⟨_, (rawValue_readable (h x.1 (List.mem_zipIdx hx |>.2.2 ▸ List.getElem_mem _))).1⟩
  rw [addRanksByRating_eq hwf hread, ok_bind]
  have hmem : ∀ x ∈ its.zipIdx, x.1 ∈ its := by
    intro x hx
    exact List.mem_zipIdx hx |>.2.2 ▸ List.getElem_mem _
  have hnums : (its.zipIdx.map (fun x => (x.1.tok, loopEntry (modeOf ds) ds x.2 (rawValue x.1)))).map (fun x => entryNum x.2) =
      its.map Item.number := by
    rw [List.map_map]
    have e2 : its.map Item.number = its.zipIdx.map (fun x => x.1.number) := by
      conv => lhs; rw [← List.zipIdx_map_fst 0 its, List.map_map]
      rfl
    rw [e2]
    apply List.map_congr_left
    intro x hx
    simp only [Function.comp_apply, entryNum, loopEntry]
    rw [(rawValue_readable (h x.1 (hmem x hx))).1]
  rw [hnums, List.map_map]
  have hfinal : (its.zipIdx.map ((fun e : Str × Pref => (e.1, if rankTruthy e.2.rank then e.2 else
        { e.2 with rank := some (denseRank (its.map Item.number) (entryNum e.2)) })) ∘
        (fun x : Item × Nat => (x.1.tok, loopEntry (modeOf ds) ds x.2 (rawValue x.1))))) =
      its.zipIdx.map (fun x => (x.1.tok, itemEntry its ds x)) := by
    apply List.map_congr_left
    intro x hx
    simp only [Function.comp_apply]
    congr 1
    obtain ⟨r1, r2⟩ := rawValue_readable (h x.1 (hmem x hx))
    unfold entryNum loopEntry itemEntry
    simp only
    rw [r1, r2]
    unfold itemRank modeOf
    cases ds with
    | nil =>
      have : x.2 < its.length := by
        have := List.mem_zipIdx hx
        omega
      simp [modeRank, rankTruthy]
    | cons d ds =>
      rcases hd d (by simp) with rfl | rfl | rfl
      · simp only [true_or, if_true, modeRank, rankTruthy, List.head?_cons, Option.some.injEq]
        rw [if_pos (by simp; omega), if_neg (by decide)]
      · simp only [or_true, if_true, modeRank, rankTruthy, List.head?_cons, Option.some.injEq]
        rw [if_pos (by simp; omega), if_neg (by decide)]
      · simp [modeRank, rankTruthy]
  rw [hfinal]
  have hne : its ≠ [] := by rintro rfl; simp at hlen
  obtain ⟨i0, its', rfl⟩ := List.exists_cons_of_ne_nil hne
  simp only [List.map_cons]
  have hget : Dict.get? ((i0 :: its').zipIdx.map (fun x => (x.1.tok, itemEntry (i0 :: its') ds x))) i0.tok = some
        (itemEntry (i0 :: its') ds (i0, 0)) := by
    rw [List.zipIdx_cons]
    simp [Dict.get?]
  rw [hget]
  simp only
  have htr : rankTruthy (itemEntry (i0 :: its') ds (i0, 0)).rank = true := by
    show (itemRank (i0 :: its') ds 0 i0 != 0) = true
    unfold itemRank denseRank
    split <;> (rw [bne_iff_ne]; omega)
  rw [htr]
  simp only [Bool.not_true, Bool.and_false, Bool.false_eq_true, if_false, ok_bind, List.map_map]
  rfl

end Verif
