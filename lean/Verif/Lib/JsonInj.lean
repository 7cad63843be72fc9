/-
Helper lemmas: `json.dumps` is injective (on strings of Unicode scalar values).
-/
import Verif.Py.Json
import Verif.Lib.Export

set_option linter.unusedSimpArgs false
set_option linter.unusedSectionVars false

namespace Verif

/-! ### strings -/

theorem hexLower_inj {a b : Nat} (ha : a < 16) (hb : b < 16) (h : hexLower a = hexLower b) : a = b := by
  unfold hexLower at h
  rw [Nat.mod_eq_of_lt ha, Nat.mod_eq_of_lt hb] at h
  have : ∀ a < 16, ∀ b < 16, Nat.digitChar a = Nat.digitChar b → a = b := by decide
  exact this a ha b hb h

theorem hexLower_mod (n : Nat) : hexLower n = hexLower (n % 16) := by
  unfold hexLower; rw [Nat.mod_mod]

theorem uEscape_inj {a b : Nat} {x y : Str} (ha : a < 65536) (hb : b < 65536) (h : uEscape a ++ x = uEscape b ++ y) :
    a = b ∧ x = y := by
  unfold uEscape at h
  simp only [List.cons_append, List.nil_append, List.cons.injEq, true_and] at h
  obtain ⟨h1, h2, h3, h4, rfl⟩ := h
  rw [hexLower_mod (a / 4096), hexLower_mod (b / 4096)] at h1
  rw [hexLower_mod (a / 256), hexLower_mod (b / 256)] at h2
  rw [hexLower_mod (a / 16), hexLower_mod (b / 16)] at h3
  rw [hexLower_mod a, hexLower_mod b] at h4
  have l : ∀ n : Nat, n % 16 < 16 := fun n => Nat.mod_lt _ (by decide)
  have e1 := hexLower_inj (l _) (l _) h1
  have e2 := hexLower_inj (l _) (l _) h2
  have e3 := hexLower_inj (l _) (l _) h3
  have e4 := hexLower_inj (l _) (l _) h4
  exact ⟨by omega, rfl⟩

/-- the seven short escapes -/
def shortOf (c : Char) : Option Char :=
  if c = '"' then some '"' else if c = '\\' then some '\\' else if c = '\n' then some 'n' else if c = '\r' then some 'r'
  else if c = '\t' then some 't' else if c.toNat = 12 then some 'f' else if c.toNat = 8 then some 'b' else none

theorem jsonEscChar_eq (c : Char) : jsonEscChar c =
    match shortOf c with
    | some d => ['\\', d]
    | none => if 32 ≤ c.toNat ∧ c.toNat ≤ 126 then [c] else if c.toNat < 0x10000 then uEscape c.toNat
      else uEscape (0xd800 + (c.toNat - 0x10000) / 1024) ++ uEscape (0xdc00 + (c.toNat - 0x10000) % 1024) := by
  unfold jsonEscChar shortOf
  repeat' split
  all_goals first | rfl | (rename_i h; cases h) | skip
  all_goals simp_all

theorem shortOf_inj {c c' d : Char} (h : shortOf c = some d) (h' : shortOf c' = some d) : c = c' := by
  unfold shortOf at h h'
  have key : ∀ (n : Nat) (x y : Char), x.toNat = n → y.toNat = n → x = y := fun n x y hx hy => Char.toNat_inj.1 (by omega)
  repeat' split at h
  all_goals (try cases h)
  all_goals
    repeat' split at h'
    all_goals (try cases h')
  all_goals first | (subst_vars; rfl) | (exact key _ _ _ (by assumption) (by assumption))

theorem shortOf_ne_u {c d : Char} (h : shortOf c = some d) : d ≠ 'u' := by
  unfold shortOf at h
  repeat' split at h
  all_goals (try cases h)
  all_goals decide

theorem char_scalar (c : Char) : c.toNat < 0xd800 ∨ 0xdfff < c.toNat ∧ c.toNat < 0x110000 := by
  have := c.valid
  rcases this with h | h
  · left; exact h
  · right; exact ⟨h.1, h.2⟩

theorem uEscape_head (n : Nat) (x : Str) : uEscape n ++ x = '\\' :: 'u' :: ([hexLower (n / 4096), hexLower (n / 256), hexLower (n / 16), hexLower n] ++ x) := rfl

/-- escapes of single characters can be told apart from the left -/
theorem jsonEscChar_inj {c d : Char} {x y : Str} (h : jsonEscChar c ++ x = jsonEscChar d ++ y) : c = d ∧ x = y := by
  rw [jsonEscChar_eq, jsonEscChar_eq] at h
  have plain_ne : ∀ c : Char, shortOf c = none → c ≠ '\\' := by
    rintro c hc rfl
    exact absurd hc (by decide)
  cases hc : shortOf c with
  | some e =>
    rw [hc] at h
    cases hd : shortOf d with
    | some f =>
      rw [hd] at h
      simp only [List.cons_append, List.nil_append, List.cons.injEq, true_and] at h
      obtain ⟨rfl, rfl⟩ := h
      exact ⟨shortOf_inj hc hd, rfl⟩
    | none =>
      rw [hd] at h
      simp only at h
      split at h
      · simp only [List.cons_append, List.nil_append, List.cons.injEq] at h
        exact absurd h.1.symm (plain_ne d hd)
      · split at h
        · rw [uEscape_head] at h
          simp only [List.cons_append, List.nil_append, List.cons.injEq, true_and] at h
          exact absurd h.1 (shortOf_ne_u hc)
        · rw [List.append_assoc, uEscape_head] at h
          simp only [List.cons_append, List.nil_append, List.cons.injEq, true_and] at h
          exact absurd h.1 (shortOf_ne_u hc)
  | none =>
    rw [hc] at h
    cases hd : shortOf d with
    | some f =>
      rw [hd] at h
      simp only at h
      split at h
      · simp only [List.cons_append, List.nil_append, List.cons.injEq] at h
        exact absurd h.1 (plain_ne c hc)
      · split at h
        · rw [uEscape_head] at h
          simp only [List.cons_append, List.nil_append, List.cons.injEq, true_and] at h
          exact absurd h.1.symm (shortOf_ne_u hd)
        · rw [List.append_assoc, uEscape_head] at h
          simp only [List.cons_append, List.nil_append, List.cons.injEq, true_and] at h
          exact absurd h.1.symm (shortOf_ne_u hd)
    | none =>
      rw [hd] at h
      simp only at h
      have sc := char_scalar c
      have sd := char_scalar d
      split at h
      · split at h
        · simp only [List.cons_append, List.nil_append, List.cons.injEq] at h
          exact h
        · split at h
          · rw [uEscape_head] at h
            simp only [List.cons_append, List.nil_append, List.cons.injEq] at h
            exact absurd h.1 (plain_ne c hc)
          · rw [List.append_assoc, uEscape_head] at h
            simp only [List.cons_append, List.nil_append, List.cons.injEq] at h
            exact absurd h.1 (plain_ne c hc)
      · split at h
        · split at h
          · rw [uEscape_head] at h
            simp only [List.cons_append, List.nil_append, List.cons.injEq] at h
            exact absurd h.1.symm (plain_ne d hd)
          · split at h
            · obtain ⟨h1, h2⟩ := uEscape_inj (by assumption) (by assumption) h
              exact ⟨Char.toNat_inj.1 h1, h2⟩
            · rw [List.append_assoc] at h
              obtain ⟨h1, h2⟩ := uEscape_inj (by assumption) (by omega) h
              omega
        · split at h
          · rw [List.append_assoc, uEscape_head] at h
            simp only [List.cons_append, List.nil_append, List.cons.injEq] at h
            exact absurd h.1.symm (plain_ne d hd)
          · split at h
            · rw [List.append_assoc] at h
              obtain ⟨h1, h2⟩ := uEscape_inj (by omega) (by assumption) h
              omega
            · rw [List.append_assoc, List.append_assoc] at h
              obtain ⟨h1, h2⟩ := uEscape_inj (by omega) (by omega) h
              obtain ⟨h3, h4⟩ := uEscape_inj (by omega) (by omega) h2
              exact ⟨Char.toNat_inj.1 (by omega), h4⟩

theorem jsonEscChar_head (c : Char) (x y : Str) : jsonEscChar c ++ x ≠ '"' :: y := by
  rw [jsonEscChar_eq]
  cases hc : shortOf c with
  | some e => simp
  | none =>
    simp only
    split
    · intro h
      simp only [List.cons_append, List.nil_append, List.cons.injEq] at h
      obtain ⟨rfl, _⟩ := h
      exact absurd hc (by decide)
    · split
      · rw [uEscape_head]; simp
      · rw [List.append_assoc, uEscape_head]; simp

theorem jsonStr_inj {s t r r' : Str} (h : jsonStr s ++ r = jsonStr t ++ r') : s = t ∧ r = r' := by
  unfold jsonStr at h
  simp only [List.cons_append, List.append_assoc, List.cons.injEq, true_and, List.nil_append] at h
  induction s generalizing t with
  | nil =>
    cases t with
    | nil => simpa using h
    | cons c t =>
      simp only [List.flatMap_nil, List.nil_append, List.flatMap_cons, List.append_assoc] at h
      exact absurd h.symm (jsonEscChar_head c _ _)
  | cons c s ih =>
    cases t with
    | nil =>
      simp only [List.flatMap_nil, List.nil_append, List.flatMap_cons, List.append_assoc] at h
      exact absurd h (jsonEscChar_head c _ _)
    | cons d t =>
      simp only [List.flatMap_cons, List.append_assoc] at h
      obtain ⟨hx, hy⟩ := jsonEscChar_inj h; clear h; have h := hy; clear hy; subst hx
      obtain ⟨hx, hy⟩ := ih h; clear h; have h := hy; clear hy; subst hx
      exact ⟨rfl, h⟩

/-! ### numbers -/

/-- what may follow a JSON value inside a document -/
def Stop (r : Str) : Prop := r = [] ∨ ∃ c t, r = c :: t ∧ (c = ',' ∨ c = ']' ∨ c = '}')

def numCh (c : Char) : Bool := isAsciiDigit c || c == '-'

theorem natStr_numCh (n : Nat) : ∀ c ∈ natStr n, isAsciiDigit c = true := by
  intro c hc
  have := Nat.isDigit_of_mem_toDigits (by decide) (by decide) hc
  simp only [Char.isDigit, Bool.and_eq_true, decide_eq_true_eq] at this
  obtain ⟨h1, h2⟩ := this
  have h1 : 48 ≤ c.toNat := h1
  have h2 : c.toNat ≤ 57 := h2
  simp [isAsciiDigit, h1, h2]

theorem natStr_inj {a b : Nat} (h : natStr a = natStr b) : a = b := by
  let := Uni.ascii
  rw [← (natStr_spec a).2.2, ← (natStr_spec b).2.2, h]

theorem natStr_ne (a : Nat) : natStr a ≠ [] := by
  let := Uni.ascii
  exact (natStr_spec a).1

theorem intStr_numCh (i : Int) : ∀ c ∈ intStr i, numCh c = true := by
  intro c hc
  unfold numCh
  cases i with
  | ofNat n => simp [natStr_numCh n c hc]
  | negSucc n =>
    rcases List.mem_cons.1 hc with rfl | hc
    · decide
    · simp [natStr_numCh _ c hc]

theorem intStr_inj {a b : Int} (h : intStr a = intStr b) : a = b := by
  have hyph : ∀ n m : Nat, natStr n ≠ '-' :: natStr m := by
    intro n m he
    have := natStr_numCh n '-' (by rw [he]; simp)
    exact absurd this (by decide)
  cases a with
  | ofNat n =>
    cases b with
    | ofNat m => rw [natStr_inj (show natStr n = natStr m from h)]
    | negSucc m => exact absurd h (hyph _ _)
  | negSucc n =>
    cases b with
    | ofNat m => exact absurd h.symm (hyph _ _)
    | negSucc m =>
      have := natStr_inj (List.cons.inj (show '-' :: natStr (n + 1) = '-' :: natStr (m + 1) from h)).2
      have : n = m := by omega
      rw [this]

theorem intStr_stop_inj {a b : Int} {r r' : Str} (h : intStr a ++ r = intStr b ++ r') (hr : Stop r) (hr' : Stop r') :
    a = b ∧ r = r' := by
  have key : ∀ (i : Int) (r : Str), Stop r → List.takeWhile numCh (intStr i ++ r) = intStr i := by
    intro i r hr
    rw [List.takeWhile_append_of_pos (intStr_numCh i)]
    rcases hr with rfl | ⟨c, t, rfl, hc⟩
    · simp
    · rw [List.takeWhile_cons, if_neg (by rcases hc with rfl | rfl | rfl <;> decide)]; simp
  have h1 := congrArg (List.takeWhile numCh) h
  rw [key a r hr, key b r' hr'] at h1
  rw [h1] at h
  exact ⟨intStr_inj h1, List.append_cancel_left h⟩

/-! ### values -/

/-- the constructor of a value -/
def Json.kind : Json → Nat
  | .null => 0
  | .bool true => 1
  | .bool false => 2
  | .int _ => 3
  | .str _ => 4
  | .arr _ => 5
  | .obj _ => 6

/-- the constructor announced by the first character of its text -/
def headKind (c : Char) : Nat :=
  if c = 'n' then 0 else if c = 't' then 1 else if c = 'f' then 2 else if c = '"' then 4 else if c = '[' then 5
  else if c = '{' then 6 else if numCh c then 3 else 7

theorem dumps_head (j : Json) : ∃ c t, j.dumps = c :: t ∧ headKind c = j.kind := by
  match j with
  | .null => exact ⟨_, _, by unfold Json.dumps; rfl, by decide⟩
  | .bool true => exact ⟨_, _, by unfold Json.dumps; rfl, by decide⟩
  | .bool false => exact ⟨_, _, by unfold Json.dumps; rfl, by decide⟩
  | .int i =>
    unfold Json.dumps
    have hne : intStr i ≠ [] := by
      cases i with
      | ofNat n => exact natStr_ne n
      | negSucc n => simp [intStr]
    cases hi : intStr i with
    | nil => exact absurd hi hne
    | cons c t =>
      have hc := intStr_numCh i c (by rw [hi]; simp)
      refine ⟨c, t, rfl, ?_⟩
      unfold headKind Json.kind
      have hn : ∀ d : Char, numCh d = false → c ≠ d := by rintro d hd rfl; rw [hc] at hd; cases hd
      rw [if_neg (hn _ (by decide)), if_neg (hn _ (by decide)), if_neg (hn _ (by decide)), if_neg (hn _ (by decide)),
        if_neg (hn _ (by decide)), if_neg (hn _ (by decide)), if_pos hc]
  | .str s => exact ⟨_, _, by unfold Json.dumps jsonStr; rfl, rfl⟩
  | .arr l => exact ⟨_, _, by unfold Json.dumps; rfl, rfl⟩
  | .obj l => exact ⟨_, _, by unfold Json.dumps; rfl, rfl⟩

theorem kind_eq {j k : Json} {r r' : Str} (h : j.dumps ++ r = k.dumps ++ r') : j.kind = k.kind := by
  obtain ⟨c, t, h1, h2⟩ := dumps_head j
  obtain ⟨c', t', h1', h2'⟩ := dumps_head k
  rw [h1, h1'] at h
  have hc : c = c' := by simpa using congrArg List.head? h
  rw [← h2, ← h2', hc]

theorem kind_lt (j : Json) : j.kind < 7 := by
  match j with
  | .null => decide
  | .bool true => decide
  | .bool false => decide
  | .int _ => simp [Json.kind]
  | .str _ => simp [Json.kind]
  | .arr _ => simp [Json.kind]
  | .obj _ => simp [Json.kind]

theorem dumps_not_close (j : Json) (r x : Str) (c : Char) (hc : headKind c = 7) : j.dumps ++ r ≠ c :: x := by
  obtain ⟨d, t, h1, h2⟩ := dumps_head j
  rw [h1]
  intro h
  have hd : d = c := by simpa using congrArg List.head? h
  subst hd
  have := kind_lt j
  omega

theorem stop_comma (x : Str) : Stop (',' :: x) := .inr ⟨_, _, rfl, .inl rfl⟩
theorem stop_brack (x : Str) : Stop (']' :: x) := .inr ⟨_, _, rfl, .inr (.inl rfl)⟩
theorem stop_brace (x : Str) : Stop ('}' :: x) := .inr ⟨_, _, rfl, .inr (.inr rfl)⟩

mutual
theorem dumps_inj : ∀ (j k : Json) (r r' : Str), Stop r → Stop r' → j.dumps ++ r = k.dumps ++ r' → j = k ∧ r = r'
  | j, k, r, r', hr, hr', h => by
    have hk := kind_eq h
    match j, k with
    | .null, .null => exact ⟨rfl, List.append_cancel_left h⟩
    | .bool true, .bool true => exact ⟨rfl, List.append_cancel_left h⟩
    | .bool false, .bool false => exact ⟨rfl, List.append_cancel_left h⟩
    | .int a, .int b =>
      unfold Json.dumps at h
      obtain ⟨hx, hy⟩ := intStr_stop_inj h hr hr'
      exact ⟨by rw [hx], hy⟩
    | .str s, .str t =>
      unfold Json.dumps at h
      obtain ⟨hx, hy⟩ := jsonStr_inj h; clear h; have h := hy; clear hy; subst hx
      exact ⟨rfl, h⟩
    | .arr l, .arr l' =>
      unfold Json.dumps at h
      simp only [List.cons_append, List.append_assoc, List.nil_append, List.cons.injEq, true_and] at h
      obtain ⟨hx, hy⟩ := dumpsArr_inj l l' r r' h; clear h; have h := hy; clear hy; subst hx
      exact ⟨rfl, h⟩
    | .obj l, .obj l' =>
      unfold Json.dumps at h
      simp only [List.cons_append, List.append_assoc, List.nil_append, List.cons.injEq, true_and] at h
      obtain ⟨hx, hy⟩ := dumpsObj_inj l l' r r' h; clear h; have h := hy; clear hy; subst hx
      exact ⟨rfl, h⟩
    | .null, .bool true | .null, .bool false | .null, .int _ | .null, .str _ | .null, .arr _ | .null, .obj _
    | .bool true, .null | .bool true, .bool false | .bool true, .int _ | .bool true, .str _ | .bool true, .arr _ | .bool true, .obj _
    | .bool false, .null | .bool false, .bool true | .bool false, .int _ | .bool false, .str _ | .bool false, .arr _ | .bool false, .obj _
    | .int _, .null | .int _, .bool true | .int _, .bool false | .int _, .str _ | .int _, .arr _ | .int _, .obj _
    | .str _, .null | .str _, .bool true | .str _, .bool false | .str _, .int _ | .str _, .arr _ | .str _, .obj _
    | .arr _, .null | .arr _, .bool true | .arr _, .bool false | .arr _, .int _ | .arr _, .str _ | .arr _, .obj _
    | .obj _, .null | .obj _, .bool true | .obj _, .bool false | .obj _, .int _ | .obj _, .str _ | .obj _, .arr _ =>
      simp [Json.kind] at hk
termination_by j => (sizeOf j, 0)
theorem dumpsArr_inj : ∀ (l l' : List Json) (r r' : Str),
    Json.dumpsArr l ++ (']' :: r) = Json.dumpsArr l' ++ (']' :: r') → l = l' ∧ r = r'
  | l, l', r, r', h => by
    match l, l' with
    | [], [] => simpa [Json.dumpsArr] using h
    | [], [x] =>
      simp only [Json.dumpsArr, List.nil_append] at h
      exact absurd h.symm (dumps_not_close _ _ _ _ (by decide))
    | [], x :: y :: t =>
      simp only [Json.dumpsArr, List.nil_append, List.append_assoc] at h
      exact absurd h.symm (dumps_not_close _ _ _ _ (by decide))
    | [x], [] =>
      simp only [Json.dumpsArr, List.nil_append] at h
      exact absurd h (dumps_not_close _ _ _ _ (by decide))
    | x :: y :: t, [] =>
      simp only [Json.dumpsArr, List.nil_append, List.append_assoc] at h
      exact absurd h (dumps_not_close _ _ _ _ (by decide))
    | [x], [x'] =>
      simp only [Json.dumpsArr] at h
      obtain ⟨hx, hy⟩ := dumps_inj x x' _ _ (stop_brack _) (stop_brack _) h; clear h; have h := hy; clear hy; subst hx
      cases h; exact ⟨rfl, rfl⟩
    | [x], x' :: y' :: t' =>
      simp only [Json.dumpsArr, List.append_assoc, List.cons_append] at h
      obtain ⟨hx, hy⟩ := dumps_inj x x' _ _ (stop_brack _) (stop_comma _) h; clear h; have h := hy; clear hy; clear hx
      cases h
    | x :: y :: t, [x'] =>
      simp only [Json.dumpsArr, List.append_assoc, List.cons_append] at h
      obtain ⟨hx, hy⟩ := dumps_inj x x' _ _ (stop_comma _) (stop_brack _) h; clear h; have h := hy; clear hy; clear hx
      cases h
    | x :: y :: t, x' :: y' :: t' =>
      simp only [Json.dumpsArr, List.append_assoc, List.cons_append] at h
      obtain ⟨hx, hy⟩ := dumps_inj x x' _ _ (stop_comma _) (stop_comma _) h; clear h; have h := hy; clear hy; subst hx
      simp only [List.cons.injEq, true_and] at h
      obtain ⟨h1, h2⟩ := dumpsArr_inj (y :: t) (y' :: t') r r' h
      rw [h1]; exact ⟨rfl, h2⟩
termination_by l => (sizeOf l, 1)
theorem dumpsObj_inj : ∀ (l l' : List (Str × Json)) (r r' : Str),
    Json.dumpsObj l ++ ('}' :: r) = Json.dumpsObj l' ++ ('}' :: r') → l = l' ∧ r = r'
  | l, l', r, r', h => by
    match l, l' with
    | [], [] => simpa [Json.dumpsObj] using h
    | [], [(k, x)] =>
      simp only [Json.dumpsObj, List.nil_append, jsonStr, List.cons_append] at h
      cases h
    | [], (k, x) :: y :: t =>
      simp only [Json.dumpsObj, List.nil_append, jsonStr, List.cons_append] at h
      cases h
    | [(k, x)], [] =>
      simp only [Json.dumpsObj, List.nil_append, jsonStr, List.cons_append] at h
      cases h
    | (k, x) :: y :: t, [] =>
      simp only [Json.dumpsObj, List.nil_append, jsonStr, List.cons_append] at h
      cases h
    | [(k, x)], [(k', x')] =>
      simp only [Json.dumpsObj, List.append_assoc, List.cons_append] at h
      obtain ⟨hx, hy⟩ := jsonStr_inj h; clear h; have h := hy; clear hy; subst hx
      simp only [List.cons.injEq, true_and] at h
      obtain ⟨hx, hy⟩ := dumps_inj x x' _ _ (stop_brace _) (stop_brace _) h; clear h; have h := hy; clear hy; subst hx
      cases h; exact ⟨rfl, rfl⟩
    | [(k, x)], (k', x') :: y' :: t' =>
      simp only [Json.dumpsObj, List.append_assoc, List.cons_append] at h
      obtain ⟨hx, hy⟩ := jsonStr_inj h; clear h; have h := hy; clear hy; subst hx
      simp only [List.cons.injEq, true_and] at h
      obtain ⟨hx, hy⟩ := dumps_inj x x' _ _ (stop_brace _) (stop_comma _) h; clear h; have h := hy; clear hy; clear hx
      cases h
    | (k, x) :: y :: t, [(k', x')] =>
      simp only [Json.dumpsObj, List.append_assoc, List.cons_append] at h
      obtain ⟨hx, hy⟩ := jsonStr_inj h; clear h; have h := hy; clear hy; subst hx
      simp only [List.cons.injEq, true_and] at h
      obtain ⟨hx, hy⟩ := dumps_inj x x' _ _ (stop_comma _) (stop_brace _) h; clear h; have h := hy; clear hy; clear hx
      cases h
    | (k, x) :: y :: t, (k', x') :: y' :: t' =>
      simp only [Json.dumpsObj, List.append_assoc, List.cons_append] at h
      obtain ⟨hx, hy⟩ := jsonStr_inj h; clear h; have h := hy; clear hy; subst hx
      simp only [List.cons.injEq, true_and] at h
      obtain ⟨hx, hy⟩ := dumps_inj x x' _ _ (stop_comma _) (stop_comma _) h; clear h; have h := hy; clear hy; subst hx
      simp only [List.cons.injEq, true_and] at h
      obtain ⟨h1, h2⟩ := dumpsObj_inj (y :: t) (y' :: t') r r' h
      rw [h1]; exact ⟨rfl, h2⟩
termination_by l => (sizeOf l, 1)
end

/-- `json.dumps` is injective -/
theorem dumps_injective {j k : Json} (h : j.dumps = k.dumps) : j = k :=
  (dumps_inj j k [] [] (.inl rfl) (.inl rfl) (by simpa using h)).1

end Verif
