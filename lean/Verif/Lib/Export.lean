/-
Helper lemmas: the text that export prints for a ballot, as a written list of items.
-/
import Verif.Model.Export
import Verif.Lib.Prefstr
import Verif.Lib.StrLe
import Verif.Lib.ParseTop
import Verif.Spec.Export

set_option linter.unusedSimpArgs false
set_option linter.unusedSectionVars false

namespace Verif
open Spec

/-! ### quoting -/

theorem utf8Bytes_ne (c : Char) : utf8Bytes c ≠ [] := by
  unfold utf8Bytes
  simp only
  split
  · simp
  · split
    · simp
    · split <;> simp

theorem quotePlusChar_ne (c : Char) : quotePlusChar c ≠ [] := by
  unfold quotePlusChar
  split
  · simp
  split
  · simp
  · cases h : utf8Bytes c with
    | nil => exact absurd h (utf8Bytes_ne c)
    | cons b bs => simp [pctByte]

theorem quotePlus_length (s : Str) : s.length ≤ (quotePlus s).length := by
  induction s with
  | nil => simp [quotePlus]
  | cons c t ih =>
    have hq : quotePlus (c :: t) = quotePlusChar c ++ quotePlus t := rfl
    rw [hq, List.length_append]
    have := List.length_pos_iff.2 (quotePlusChar_ne c)
    simp only [List.length_cons]; omega

/-- `quote_plus` leaves exactly the url-safe strings alone -/
theorem quotePlus_eq_iff (s : Str) : quotePlus s = s ↔ ∀ c ∈ s, isUrlSafe c = true := by
  induction s with
  | nil => simp [quotePlus]
  | cons c t ih =>
    have hq : quotePlus (c :: t) = quotePlusChar c ++ quotePlus t := rfl
    rw [hq]
    by_cases hc : isUrlSafe c = true
    · have : quotePlusChar c = [c] := by unfold quotePlusChar; rw [if_pos hc]
      rw [this]
      simp only [List.cons_append, List.nil_append, List.cons.injEq, true_and, List.mem_cons, forall_eq_or_imp, hc]
      exact ih
    · refine ⟨fun h => absurd h ?_, fun h => absurd (h c (by simp)) hc⟩
      by_cases hsp : c = ' '
      · subst hsp
        have : quotePlusChar ' ' = ['+'] := by decide
        rw [this]; simp
      · intro h
        have hl := congrArg List.length h
        have hlen : 3 ≤ (quotePlusChar c).length := by
          unfold quotePlusChar
          rw [if_neg hc, if_neg hsp]
          cases hb : utf8Bytes c with
          | nil => exact absurd hb (utf8Bytes_ne c)
          | cons b bs => simp [pctByte]
        have := quotePlus_length t
        simp only [List.length_append, List.length_cons] at hl
        omega

theorem urlSafe_props {c : Char} (h : isUrlSafe c = true) : isSpace c = false ∧ isSepChar c = false ∧ c ≠ '"' ∧ c ≠ '/' ∧
    c ≠ '#' ∧ c ≠ ':' ∧ isLineBreak c = false := by
  have hr : (45 ≤ c.toNat ∧ c.toNat ≤ 46) ∨ (48 ≤ c.toNat ∧ c.toNat ≤ 57) ∨ (65 ≤ c.toNat ∧ c.toNat ≤ 90) ∨ c.toNat = 95 ∨
      (97 ≤ c.toNat ∧ c.toNat ≤ 122) ∨ c.toNat = 126 := by
    unfold isUrlSafe isAsciiAlnum isAsciiDigit isAsciiUpper isAsciiLower at h
    simp only [Bool.or_eq_true, Bool.and_eq_true, decide_eq_true_eq, beq_iff_eq] at h
    have e95 : '_'.toNat = 95 := rfl
    have e46 : '.'.toNat = 46 := rfl
    have e45 : '-'.toNat = 45 := rfl
    have e126 : '~'.toNat = 126 := rfl
    rcases h with (((h | rfl) | rfl) | rfl) | rfl
    · omega
    all_goals omega
  have ne : ∀ d : Char, ¬ ((45 ≤ d.toNat ∧ d.toNat ≤ 46) ∨ (48 ≤ d.toNat ∧ d.toNat ≤ 57) ∨ (65 ≤ d.toNat ∧ d.toNat ≤ 90) ∨ d.toNat = 95 ∨
      (97 ≤ d.toNat ∧ d.toNat ≤ 122) ∨ d.toNat = 126) → c ≠ d := by
    rintro d hd rfl; exact hd hr
  refine ⟨?_, ?_, ne _ (by decide), ne _ (by decide), ne _ (by decide), ne _ (by decide), ?_⟩
  · unfold isSpace
    simp only [Bool.or_eq_false_iff, Bool.and_eq_false_iff, decide_eq_false_iff_not, beq_eq_false_iff_ne]
    omega
  · unfold isSepChar
    simp only [List.contains_cons, List.contains_nil, Bool.or_false, Bool.or_eq_false_iff, beq_eq_false_iff_ne]
    exact ⟨ne _ (by decide), ne _ (by decide), ne _ (by decide), ne _ (by decide), ne _ (by decide)⟩
  · unfold isLineBreak
    simp only [Bool.or_eq_false_iff, Bool.and_eq_false_iff, decide_eq_false_iff_not, beq_eq_false_iff_ne]
    omega

/-! ### decimal numbers -/

section
variable [U : Uni]

theorem digitChar_dec {n : Nat} (h : n < 10) : decVal (Nat.digitChar n) = some n := by
  have : n = 0 ∨ n = 1 ∨ n = 2 ∨ n = 3 ∨ n = 4 ∨ n = 5 ∨ n = 6 ∨ n = 7 ∨ n = 8 ∨ n = 9 := by omega
  rcases this with rfl | rfl | rfl | rfl | rfl | rfl | rfl | rfl | rfl | rfl <;> rfl

theorem digitsVal_append_single (s : Str) (c : Char) : digitsVal (s ++ [c]) = 10 * digitsVal s + (decVal c).getD 0 := by
  unfold digitsVal; rw [List.foldl_append]; rfl

theorem natStr_spec (n : Nat) : natStr n ≠ [] ∧ (∀ c ∈ natStr n, isDigit c = true) ∧ digitsVal (natStr n) = n := by
  unfold natStr
  induction n using Nat.strongRecOn with
  | _ n ih =>
    rw [Nat.toDigits_eq_if (by decide)]
    split
    · rename_i h
      refine ⟨by simp, ?_, ?_⟩
      · intro c hc
        simp only [List.mem_singleton] at hc
        subst hc
        unfold isDigit; rw [digitChar_dec h]; rfl
      · show 10 * 0 + (decVal (Nat.digitChar n)).getD 0 = n
        rw [digitChar_dec h]; simp
    · rename_i h
      obtain ⟨i1, i2, i3⟩ := ih (n / 10) (by omega)
      have hd : decVal (Nat.digitChar (n % 10)) = some (n % 10) := digitChar_dec (by omega)
      refine ⟨by simp, ?_, ?_⟩
      · intro c hc
        rcases List.mem_append.1 hc with hc | hc
        · exact i2 c hc
        · simp only [List.mem_singleton] at hc
          subst hc
          unfold isDigit; rw [hd]; rfl
      · rw [digitsVal_append_single, i3, hd]
        simp; omega

theorem intStr_nonneg {i : Int} (h : 0 ≤ i) : intStr i = natStr i.toNat := by
  cases i with
  | ofNat n => rfl
  | negSucc n => omega

/-! ### printed items -/

/-- the rating as printed, if any -/
def printedRating : Option RVal → Option Str
  | none => none
  | some .null => none
  | some r => some (ratingStr r)

/-- the item printed for a candidate -/
def exItem (tok : Str) (r : Option RVal) : Item where
  style := if quotePlus tok = tok then .bare else .bracket
  tok := tok
  rating := printedRating r

theorem exItem_text (tok : Str) (r : Option RVal) : (exItem tok r).text = tokenQuote tok ++ (exItem tok r).ratingText := by
  unfold Item.text
  have : (exItem tok r).tokText = tokenQuote tok := by
    unfold Item.tokText exItem tokenQuote
    by_cases h : quotePlus tok = tok
    · simp [h]
    · simp [h]
  rw [this]
  simp [exItem]

theorem printedRating_digits {r : Option RVal} (h : PlainRating r) {ds : Str} (hd : printedRating r = some ds) :
    ds ≠ [] ∧ (∀ c ∈ ds, isDigit c = true) ∧ (digitsVal ds : Int) = ratingNumber r := by
  match r with
  | none => cases hd
  | some .null => cases hd
  | some (.int i) =>
    have hi : 0 ≤ i := h
    simp only [printedRating, ratingStr, Option.some.injEq] at hd
    subst hd
    rw [intStr_nonneg hi]
    obtain ⟨a, b, c⟩ := natStr_spec i.toNat
    refine ⟨a, b, ?_⟩
    rw [c]; simp only [ratingNumber]; omega
  | some (.str s) =>
    simp only [printedRating, ratingStr, Option.some.injEq] at hd
    subst hd
    exact ⟨h.1, h.2, rfl⟩

theorem exItem_ok {tok : Str} {r : Option RVal} (ht : Printable tok) (hr : PlainRating r) : (exItem tok r).Ok := by
  unfold Item.Ok
  refine ⟨by simp [exItem], by simp [exItem], ?_, ?_⟩
  · intro ds hds
    obtain ⟨a, b, _⟩ := printedRating_digits hr hds
    exact ⟨a, b⟩
  · obtain ⟨hne, hbr, hh, hlb, hparts⟩ := ht
    by_cases h : quotePlus tok = tok
    · have hs : (exItem tok r).style = .bare := by simp [exItem, h]
      rw [hs]
      have hsafe := (quotePlus_eq_iff tok).1 h
      simp only [exItem]
      refine ⟨⟨hne, ?_, ?_⟩, ?_, ?_⟩
      · rw [strip_eq_iff]
        exact ⟨fun c hc => (urlSafe_props (hsafe c (List.mem_of_head? hc))).1,
          fun c hc => (urlSafe_props (hsafe c (List.mem_of_getLast? hc))).1⟩
      · intro hc
        exact (urlSafe_props (hsafe _ (List.mem_of_head? hc))).2.2.1 rfl
      · exact fun c hc => (urlSafe_props (hsafe c hc)).2.1
      · rintro _ ⟨t, ds, h1, _⟩
        have : '/' ∈ tok := by rw [h1]; simp
        exact (urlSafe_props (hsafe _ this)).2.2.2.1 rfl
    · have hs : (exItem tok r).style = .bracket := by simp [exItem, h]
      rw [hs]
      exact ⟨hbr, hparts⟩

theorem exItem_number {tok : Str} {r : Option RVal} (hr : PlainRating r) : (exItem tok r).number = ratingNumber r := by
  unfold Item.number
  have : (exItem tok r).rating = printedRating r := rfl
  rw [this]
  cases h : printedRating r with
  | none =>
    match r with
    | none => rfl
    | some .null => rfl
    | some (.int i) => simp [printedRating] at h
    | some (.str s) => simp [printedRating] at h
  | some ds => exact (printedRating_digits hr h).2.2

theorem exItem_value {tok : Str} {r : Option RVal} (hr : PlainRating r) :
    ratingNumber (exItem tok r).value = ratingNumber r := by
  rw [← exItem_number (tok := tok) hr]
  unfold Item.value Item.number
  have hst : (exItem tok r).style ≠ .quoted := by
    unfold exItem; simp only; split <;> simp
  cases (exItem tok r).rating with
  | none => rfl
  | some ds =>
    simp only
    split
    · rename_i h0; simp [ratingNumber, h0]
    · rfl

/-- what follows the first item of a printed list, given the key of the item before -/
def printTail {α : Type} (key : α → Int) (item : α → Str) : Int → List α → Str
  | _, [] => []
  | k, a :: rest => (if key a = k then '=' else '>') :: (item a ++ printTail key item (key a) rest)

/-- delimiters between consecutive items: `=` for equal keys, `>` otherwise -/
def adjDelims {α : Type} (key : α → Int) : List α → List Char
  | [] => []
  | [_] => []
  | a :: b :: t => (if key b = key a then '=' else '>') :: adjDelims key (b :: t)

theorem adjDelims_length {α : Type} (key : α → Int) (a : α) (l : List α) : (adjDelims key (a :: l)).length = l.length := by
  induction l generalizing a with
  | nil => rfl
  | cons b l ih => simp [adjDelims, ih]

theorem adjDelims_mem {α : Type} (key : α → Int) (l : List α) : ∀ d ∈ adjDelims key l, d = '>' ∨ d = '=' := by
  match l with
  | [] => simp [adjDelims]
  | [_] => simp [adjDelims]
  | a :: b :: t =>
    intro d hd
    simp only [adjDelims, List.mem_cons] at hd
    rcases hd with rfl | hd
    · split <;> simp
    · exact adjDelims_mem key (b :: t) d hd

theorem writeItems_tail {α : Type} (key : α → Int) (item : α → Item) (a : α) (l : List α) :
    writeItems ((a :: l).map item) (adjDelims key (a :: l)) =
      (item a).text ++ printTail key (fun x => (item x).text) (key a) l := by
  induction l generalizing a with
  | nil => simp [writeItems, printTail]
  | cons b l ih =>
    have := ih b
    simp only [List.map_cons, adjDelims] at this ⊢
    rw [writeItems, this]
    · rfl
    all_goals simp

/-! ### the ranked branch -/

theorem prefstrRanked_eq {key : Str × Pref → Int} {L : List (Str × Pref)} (hne : L ≠ [])
    (hr : ∀ e ∈ L, e.2.rank = some (key e)) (hs : L.Pairwise (fun a b => key a ≤ key b)) (r0 : Int) :
    prefstrRanked r0 L = .ok (writeItems (L.map (fun e => exItem e.1 e.2.rating)) (adjDelims key L)) := by
  induction L generalizing r0 with
  | nil => exact absurd rfl hne
  | cons e rest ih =>
    obtain ⟨name, p⟩ := e
    have h1 : p.rank = some (key (name, p)) := hr (name, p) (by simp)
    have hhead : tokenQuote name ++ ratingSuffix p.rating = (exItem name p.rating).text := by
      rw [exItem_text]
      congr 1
      unfold Item.ratingText exItem printedRating
      match p.rating with
      | none => rfl
      | some .null => rfl
      | some (.int i) => rfl
      | some (.str s) => rfl
    unfold prefstrRanked
    simp only [h1, Option.getD_some]
    rw [hhead]
    cases rest with
    | nil => simp [writeItems]
    | cons e2 rest =>
      obtain ⟨n2, q⟩ := e2
      have h2 : q.rank = some (key (n2, q)) := hr (n2, q) (by simp)
      have hle : key (name, p) ≤ key (n2, q) := (List.pairwise_cons.1 hs).1 _ (by simp)
      have hih := ih (by simp) (fun e he => hr e (by simp [List.mem_cons] at he ⊢; tauto)) (List.pairwise_cons.1 hs).2 (key (name, p))
      simp only [h2]
      rw [writeItems_tail, printTail]
      rw [writeItems_tail] at hih
      rw [hih]
      by_cases hlt : key (name, p) < key (n2, q)
      · rw [if_pos hlt, if_neg (by omega)]; rfl
      · have heq : key (name, p) = key (n2, q) := by omega
        rw [if_neg hlt, if_pos heq, if_pos heq.symm]; rfl

/-! ### the rated branch -/

theorem joinStr_append_single (sep : Str) (l : List Str) (x : Str) (h : l ≠ []) :
    joinStr sep (l ++ [x]) = joinStr sep l ++ (sep ++ x) := by
  induction l with
  | nil => exact absurd rfl h
  | cons a l ih =>
    cases l with
    | nil => simp [joinStr]
    | cons b l =>
      have := ih (by simp)
      simp only [List.cons_append, joinStr] at this ⊢
      rw [this]; simp

/-- one printed candidate of a tier -/
def tierItem (e : Str × RVal) : Str := tokenQuote e.1 ++ '/' :: ratingStr e.2

theorem prefstrTiers_eq (currating : Int) (cur : List (Str × RVal)) (rest : List (Str × RVal × Int)) (h : cur ≠ []) :
    prefstrTiers (ratingTiers currating cur rest) =
      joinStr ['='] (cur.map tierItem) ++ printTail (fun x => x.2.2) (fun x => tierItem (x.1, x.2.1)) currating rest := by
  induction rest generalizing currating cur with
  | nil =>
    unfold ratingTiers prefstrTiers
    rw [if_neg h]
    simp only [List.map_cons, List.map_nil, joinStr, printTail, List.append_nil]
    rfl
  | cons e rest ih =>
    obtain ⟨name, rv, rating⟩ := e
    unfold ratingTiers
    by_cases hr : rating = currating
    · rw [if_neg (by simp [hr]), ih _ _ (by simp)]
      rw [List.map_append, List.map_singleton, joinStr_append_single _ _ _ (by simpa using h)]
      simp [printTail, hr]
    · rw [if_pos hr, if_neg h]
      have := ih rating [(name, rv)] (by simp)
      unfold prefstrTiers at this ⊢
      have hne : (ratingTiers rating [(name, rv)] rest) ≠ [] := by
        intro hnil
        have hx : ∀ (rest : List (Str × RVal × Int)) c cur, cur ≠ [] → ratingTiers c cur rest ≠ [] := by
          intro rest
          induction rest with
          | nil => intro c cur hc; simp [ratingTiers, hc]
          | cons e rest ih =>
            obtain ⟨n, rv, r⟩ := e
            intro c cur hc
            unfold ratingTiers
            split
            · simp [hc]
            · exact ih _ _ (by simp)
        exact hx _ _ _ (by simp) hnil
      rw [List.singleton_append, List.map_cons]
      cases hrt : ratingTiers rating [(name, rv)] rest with
      | nil => exact absurd hrt hne
      | cons t ts =>
        rw [hrt] at this
        simp only [List.map_cons] at this ⊢
        rw [joinStr, this]
        simp only [printTail, if_neg hr, joinStr, List.map_nil, List.append_assoc, List.cons_append, List.nil_append]
        rfl

theorem prefstrTiers_top (x : Str × RVal × Int) (rest : List (Str × RVal × Int)) :
    prefstrTiers (ratingTiers 0 [] (x :: rest)) =
      tierItem (x.1, x.2.1) ++ printTail (fun x => x.2.2) (fun x => tierItem (x.1, x.2.1)) x.2.2 rest := by
  obtain ⟨name, rv, rating⟩ := x
  have : ratingTiers 0 [] ((name, rv, rating) :: rest) = ratingTiers rating [(name, rv)] rest := by
    rw [ratingTiers]
    split
    · simp
    · rename_i h
      have h : rating = 0 := by simpa using h
      subst h; rfl
  rw [this, prefstrTiers_eq _ _ _ (by simp)]
  simp [joinStr]

end

end Verif
