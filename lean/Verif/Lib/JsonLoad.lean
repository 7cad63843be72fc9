/-
`json.loads` reads every JSON text of a value (floats excepted) as that value.
-/
import Verif.Py.JsonLoad
import Verif.Spec.Json
import Verif.Lib.JsonInj
import Verif.Lib.Dict

set_option linter.unusedSimpArgs false
set_option linter.unusedSectionVars false
set_option linter.unusedVariables false

namespace Verif
open Spec

/-! ### strings -/

theorem hexDigitVal_lower (n : Nat) : hexDigitVal (hexLower n) = some (n % 16) := by
  rw [hexLower_mod]
  have : ∀ k < 16, hexDigitVal (hexLower k) = some k := by decide
  exact this _ (Nat.mod_lt _ (by decide))

theorem hexDigitVal_of {d : Char} {k : Nat} (h : HexDigit d k) : hexDigitVal d = some k := by
  obtain ⟨hk, h⟩ := h
  have h1 : ∀ k < 16, (c!"0123456789abcdef"[k]?.bind hexDigitVal) = some k := by decide
  have h2 : ∀ k < 16, (c!"0123456789ABCDEF"[k]?.bind hexDigitVal) = some k := by decide
  rcases h with h | h
  · have := h1 k hk
    rw [h] at this
    exact this
  · have := h2 k hk
    rw [h] at this
    exact this

theorem hexDigit_of {d : Char} {k : Nat} (h : hexDigitVal d = some k) : HexDigit d k := by
  unfold hexDigitVal at h
  have e : d = Char.ofNat d.toNat := (Char.ofNat_toNat d).symm
  have key : ∀ n < 128, hexDigitVal (Char.ofNat n) = some k → HexDigit (Char.ofNat n) k := by
    intro n hn h
    have all : ∀ n < 128, ∀ k ∈ (hexDigitVal (Char.ofNat n)).toList, k < 16 ∧
        (c!"0123456789abcdef"[k]? = some (Char.ofNat n) ∨ c!"0123456789ABCDEF"[k]? = some (Char.ofNat n)) := by decide +kernel
    exact all n hn k (by rw [h]; simp)
  have hlt : d.toNat < 128 := by
    unfold isAsciiDigit at h
    repeat' split at h
    all_goals first
      | (cases h; done)
      | (simp at *; omega)
  rw [e]
  refine key _ hlt ?_
  rw [← e]
  exact h

theorem hexDigit_lower (n : Nat) : HexDigit (hexLower n) (n % 16) := hexDigit_of (hexDigitVal_lower n)

theorem unitText_lower (n : Nat) (h : n < 65536) : UnitText n (uEscape n) :=
  ⟨_, _, _, _, _, _, _, _, hexDigit_lower _, hexDigit_lower _, hexDigit_lower _, hexDigit_lower _, by omega, rfl⟩

theorem hex4_unit {n : Nat} {s : Str} (h : UnitText n s) (r : Str) : ∃ t, s = '\\' :: 'u' :: t ∧ hex4 (t ++ r) = some (n, r) := by
  obtain ⟨a, b, c, d, ka, kb, kc, kd, ha, hb, hc, hd, rfl, rfl⟩ := h
  refine ⟨[a, b, c, d], rfl, ?_⟩
  show hex4 (a :: b :: c :: d :: r) = _
  unfold hex4
  simp only [hexDigitVal_of ha, hexDigitVal_of hb, hexDigitVal_of hc, hexDigitVal_of hd]

theorem unit_hex4 {s r : Str} {n : Nat} (h : hex4 s = some (n, r)) : ∃ t, s = t ++ r ∧ UnitText n ('\\' :: 'u' :: t) := by
  unfold hex4 at h
  split at h
  · rename_i a b c d r'
    split at h
    · rename_i ka kb kc kd ha hb hc hd
      cases h
      exact ⟨[a, b, c, d], rfl, _, _, _, _, _, _, _, _, hexDigit_of ha, hexDigit_of hb, hexDigit_of hc, hexDigit_of hd, rfl, rfl⟩
    · cases h
  · cases h

theorem simpleEsc_short {c d : Char} (h : shortOf c = some d) : simpleEsc d = some c := by
  unfold shortOf at h
  have key : ∀ (n : Nat), c.toNat = n → c = Char.ofNat n := fun n hn => by rw [← hn, Char.ofNat_toNat]
  repeat' split at h
  all_goals (try cases h)
  all_goals (try subst_vars)
  all_goals first
    | rfl
    | (rename_i hn; rw [key _ hn]; rfl)

theorem scanStep_u (r : Str) : scanStep ('\\' :: 'u' :: r) = uniEsc r := rfl

theorem shortText_esc {c d : Char} (h : shortOf c = some d) : ShortText c ['\\', d] := by
  unfold shortOf at h
  have key : ∀ (n : Nat), c.toNat = n → c = Char.ofNat n := fun n hn => by rw [← hn, Char.ofNat_toNat]
  repeat' split at h
  all_goals (try cases h)
  all_goals (try subst_vars)
  all_goals (unfold ShortText)
  all_goals first
    | decide
    | (rename_i hn; rw [key _ hn]; decide)

/-- `json.dumps` escapes characters as JSON allows -/
theorem charText_esc (c : Char) : CharText c (jsonEscChar c) := by
  rw [jsonEscChar_eq]
  cases hs : shortOf c with
  | some d => exact .inr (.inl (shortText_esc hs))
  | none =>
    simp only
    split
    · rename_i h
      refine .inl ⟨rfl, ?_, ?_, by omega⟩
      · rintro rfl; exact absurd hs (by decide)
      · rintro rfl; exact absurd hs (by decide)
    · split
      · rename_i h1 h2
        exact .inr (.inr (.inl (unitText_lower _ h2)))
      · rename_i h1 h2
        have hc : c.toNat < 0x110000 := by rcases char_scalar c with h | h <;> omega
        exact .inr (.inr (.inr ⟨_, _, _, _, unitText_lower (0xd800 + (c.toNat - 0x10000) / 1024) (by omega),
          unitText_lower (0xdc00 + (c.toNat - 0x10000) % 1024) (by omega), by omega, by omega, by omega, by omega, by omega, rfl⟩))

theorem scanStep_char {c : Char} {a : Str} (h : CharText c a) (r : Str) : scanStep (a ++ r) = .ok (.char c r) := by
  rcases h with ⟨rfl, h1, h2, h3⟩ | h | h | ⟨hi, lo, s1, s2, h1, h2, h3, h4, h5, h6, h7, rfl⟩
  · show scanStep (c :: r) = _
    unfold scanStep
    simp only
    rw [if_neg h1, if_neg h2, if_neg (by omega)]
  · unfold ShortText at h
    simp only [List.mem_cons, List.not_mem_nil, or_false] at h
    rcases h with h | h | h | h | h | h | h | h <;> (cases h; rfl)
  · obtain ⟨t, rfl, g⟩ := hex4_unit h r
    show scanStep ('\\' :: 'u' :: (t ++ r)) = _
    rw [scanStep_u]
    unfold uniEsc
    rw [g]
    simp only
    rw [if_neg (by rcases char_scalar c with h | h <;> omega), if_neg (by rcases char_scalar c with h | h <;> omega), Char.ofNat_toNat]
  · obtain ⟨t2, rfl, g2⟩ := hex4_unit h2 r
    obtain ⟨t1, rfl, g1⟩ := hex4_unit h1 ('\\' :: 'u' :: (t2 ++ r))
    have e : '\\' :: 'u' :: t1 ++ '\\' :: 'u' :: t2 ++ r = '\\' :: 'u' :: (t1 ++ '\\' :: 'u' :: (t2 ++ r)) := by simp
    rw [e, scanStep_u]
    unfold uniEsc
    rw [g1]
    simp only
    rw [if_pos ⟨h3, h4⟩]
    unfold lowHalf
    simp only
    rw [g2]
    simp only
    rw [if_pos ⟨h5, h6⟩, ← h7, Char.ofNat_toNat]

theorem charText_ne {c : Char} {a : Str} (h : CharText c a) : 1 ≤ a.length := by
  have := scanStep_char h []
  cases a with
  | nil => cases this
  | cons c t => simp

theorem scanString_text {s t : Str} (h : StrText s t) (n : Nat) (hn : t.length < n) (r : Str) :
    scanString n (t ++ '"' :: r) = .ok (s, r) := by
  induction h generalizing n with
  | nil =>
    obtain ⟨m, rfl⟩ : ∃ m, n = m + 1 := ⟨n - 1, by simp at hn; omega⟩
    rfl
  | cons c s a t hc _ ih =>
    obtain ⟨m, rfl⟩ : ∃ m, n = m + 1 := ⟨n - 1, by omega⟩
    have := charText_ne hc
    rw [List.length_append] at hn
    rw [List.append_assoc]
    unfold scanString
    rw [scanStep_char hc]
    simp only
    rw [ih m (by omega)]

theorem strText_dumps (s : Str) : StrText s (s.flatMap jsonEscChar) := by
  induction s with
  | nil => exact .nil
  | cons c s ih => exact .cons c s _ _ (charText_esc c) ih

/-! ### numbers -/

/-- what may follow a number -/
def NumStop (r : Str) : Prop := ∀ c t, r = c :: t → isAsciiDigit c = false ∧ c ≠ '.' ∧ c ≠ 'e' ∧ c ≠ 'E'

theorem natStr_head (n : Nat) (t : Str) (h : natStr n = '0' :: t) : n = 0 ∧ t = [] := by
  unfold natStr at h
  induction n using Nat.strongRecOn generalizing t with
  | _ n ih =>
    rw [Nat.toDigits_eq_if (by decide)] at h
    split at h
    · rename_i hn
      have : ∀ k < 10, Nat.digitChar k = '0' → k = 0 := by decide
      exact ⟨this n hn (List.cons.inj h).1, (List.cons.inj h).2.symm⟩
    · rename_i hn
      exfalso
      cases hd : Nat.toDigits 10 (n / 10) with
      | nil => exact (natStr_ne (n / 10)) hd
      | cons x xs =>
        rw [hd] at h
        have hx : x = '0' := (List.cons.inj h).1
        subst hx
        have := ih (n / 10) (by omega) xs hd
        omega

theorem asciiVal_natStr (n : Nat) : asciiVal (natStr n) = n := by
  let := Uni.ascii
  have h := (natStr_spec n).2.2
  have hd := natStr_numCh n
  have : ∀ (s : Str) (a : Nat), (∀ c ∈ s, isAsciiDigit c = true) →
      s.foldl (fun a c => 10 * a + (c.toNat - 48)) a = s.foldl (fun a c => 10 * a + (decVal c).getD 0) a := by
    intro s
    induction s with
    | nil => intros; rfl
    | cons c s ih =>
      intro a hs
      have hc := hs c List.mem_cons_self
      have : (decVal c).getD 0 = c.toNat - 48 := by
        unfold decVal
        have ha : isAscii c = true := by
          unfold isAsciiDigit at hc
          unfold isAscii
          simp at hc ⊢
          omega
        rw [if_pos ha, if_pos hc]
        rfl
      rw [List.foldl_cons, List.foldl_cons, this]
      exact ih _ (fun c hc => hs c (List.mem_cons_of_mem _ hc))
  unfold asciiVal
  rw [this _ _ hd]
  exact h

theorem jsonNat_natStr (n : Nat) (r : Str) (hr : NumStop r) : jsonNat (natStr n ++ r) = some (natStr n, r) := by
  unfold jsonNat
  have hstop : r.takeWhile isAsciiDigit = [] ∧ r.dropWhile isAsciiDigit = r := by
    cases r with
    | nil => exact ⟨rfl, rfl⟩
    | cons c t =>
      have := (hr c t rfl).1
      exact ⟨List.takeWhile_cons_of_neg (by simp [this]), List.dropWhile_cons_of_neg (by simp [this])⟩
  have hd := natStr_numCh n
  cases hs : natStr n with
  | nil => exact absurd hs (natStr_ne n)
  | cons c t =>
    by_cases hc : c = '0'
    · subst hc
      obtain ⟨rfl, rfl⟩ := natStr_head n t hs
      rfl
    · rw [if_neg (by simpa using hc)]
      rw [← hs]
      have h1 : (natStr n ++ r).takeWhile isAsciiDigit = natStr n := by
        rw [List.takeWhile_append_of_pos hd, hstop.1, List.append_nil]
      have h2 : (natStr n ++ r).dropWhile isAsciiDigit = r := by
        rw [List.dropWhile_append_of_pos hd, hstop.2]
      rw [h1, h2, if_neg (natStr_ne n)]

theorem floatTail_stop {r : Str} (h : NumStop r) : floatTail r = false := by
  unfold floatTail
  cases r with
  | nil => rfl
  | cons c t =>
    obtain ⟨_, h1, h2, h3⟩ := h c t rfl
    simp only
    rw [if_neg h1, if_neg (by simp [h2, h3])]

theorem jsonNumber_intStr (i : Int) (r : Str) (hr : NumStop r) : jsonNumber (intStr i ++ r) = .ok (.int i, r) := by
  unfold jsonNumber
  cases i with
  | ofNat n =>
    have hne : ¬ ((intStr (.ofNat n) ++ r).head? = some '-') := by
      show ¬ (natStr n ++ r).head? = some '-'
      cases hs : natStr n with
      | nil => exact absurd hs (natStr_ne n)
      | cons c t =>
        intro h
        have : c = '-' := by simpa using h
        have := natStr_numCh n c (by rw [hs]; simp)
        subst c
        exact absurd this (by decide)
    simp only [if_neg hne]
    show (match jsonNat (natStr n ++ r) with | none => _ | some (d, r) => _) = _
    rw [jsonNat_natStr n r hr]
    simp only
    rw [floatTail_stop hr, asciiVal_natStr]
    rfl
  | negSucc n =>
    have he : (intStr (.negSucc n) ++ r).head? = some '-' := rfl
    simp only [if_pos he]
    show (match jsonNat (natStr (n + 1) ++ r) with | none => _ | some (d, r) => _) = _
    rw [jsonNat_natStr (n + 1) r hr]
    simp only
    rw [floatTail_stop hr, asciiVal_natStr]
    rfl

/-! ### blanks -/

theorem blank_jsonWs {w : Str} (h : Blank w) : ∀ c ∈ w, jsonWs c = true := by
  intro c hc
  rcases h c hc with rfl | rfl | rfl | rfl <;> rfl

theorem skipWs_blank {w : Str} (h : Blank w) (r : Str) : skipWs (w ++ r) = skipWs r := by
  unfold skipWs
  rw [List.dropWhile_append_of_pos (blank_jsonWs h)]

theorem skipWs_cons {c : Char} (h : jsonWs c = false) (r : Str) : skipWs (c :: r) = c :: r := by
  unfold skipWs
  rw [List.dropWhile_cons_of_neg (by simp [h])]

theorem skipWs_only {w : Str} (h : Blank w) : skipWs w = [] := by
  have := skipWs_blank h []
  rw [List.append_nil] at this
  rw [this]
  rfl

theorem numStop_blank {w : Str} (h : Blank w) (c : Char) (r : Str) (hc : isAsciiDigit c = false ∧ c ≠ '.' ∧ c ≠ 'e' ∧ c ≠ 'E') :
    NumStop (w ++ c :: r) := by
  intro d t he
  cases w with
  | nil => cases he; exact hc
  | cons x w =>
    have hx : x = d := (List.cons.inj he).1
    subst hx
    rcases h x List.mem_cons_self with rfl | rfl | rfl | rfl <;> decide

theorem numStop_only {w : Str} (h : Blank w) : NumStop w := by
  intro d t he
  subst he
  rcases h d List.mem_cons_self with rfl | rfl | rfl | rfl <;> decide

theorem intStr_ne_nil (i : Int) : intStr i ≠ [] := by
  intro hs
  cases i with
  | ofNat n => exact absurd hs (natStr_ne n)
  | negSucc n => cases hs

theorem intText_facts {i : Int} {s : Str} (h : IntText i s) : s ≠ [] ∧ ∀ c ∈ s, numCh c = true := by
  rcases h with rfl | ⟨_, rfl⟩
  · exact ⟨intStr_ne_nil i, fun c hc => intStr_numCh i c hc⟩
  · exact ⟨by decide, by decide⟩

/-- first character of a value's text -/
theorem textOf_head {j : Json} {s : Str} (h : TextOf j s) : ∃ c t, s = c :: t ∧ jsonWs c = false ∧ c ≠ ']' ∧ c ≠ '}' := by
  cases j with
  | null => exact ⟨_, _, h, by decide, by decide, by decide⟩
  | bool b => cases b <;> exact ⟨_, _, h, by decide, by decide, by decide⟩
  | int i =>
    obtain ⟨hne, hall⟩ := intText_facts h
    cases s with
    | nil => exact absurd rfl hne
    | cons c t =>
      have hc := hall c (by simp)
      refine ⟨c, t, rfl, ?_, ?_, ?_⟩
      · cases hw : jsonWs c with
        | false => rfl
        | true =>
          unfold jsonWs at hw
          simp only [Bool.or_eq_true, beq_iff_eq] at hw
          rcases hw with ((rfl | rfl) | rfl) | rfl <;> exact absurd hc (by decide)
      · rintro rfl; exact absurd hc (by decide)
      · rintro rfl; exact absurd hc (by decide)
  | str x =>
    obtain ⟨t, _, rfl⟩ := h
    exact ⟨_, _, rfl, by decide, by decide, by decide⟩
  | arr l =>
    obtain ⟨t, _, rfl⟩ := h
    exact ⟨_, _, rfl, by decide, by decide, by decide⟩
  | obj l =>
    obtain ⟨t, _, rfl⟩ := h
    exact ⟨_, _, rfl, by decide, by decide, by decide⟩

theorem foldl_set_nodup (kvs : List (Str × Json)) (h : (kvs.map Prod.fst).Nodup) :
    kvs.foldl (fun d kv => Dict.set d kv.1 kv.2) ([] : List (Str × Json)) = kvs := by
  have key : ∀ (kvs acc : List (Str × Json)), ((acc ++ kvs).map Prod.fst).Nodup →
      kvs.foldl (fun d kv => Dict.set d kv.1 kv.2) acc = acc ++ kvs := by
    intro kvs
    induction kvs with
    | nil => intro acc _; simp
    | cons kv kvs ih =>
      intro acc hn
      rw [List.foldl_cons]
      have hnot : kv.1 ∉ Dict.keys acc := by
        intro hm
        rw [List.map_append, List.map_cons] at hn
        have := (List.nodup_append.1 hn).2.2 kv.1 hm kv.1 List.mem_cons_self
        exact this rfl
      rw [show Dict.set acc kv.1 kv.2 = acc ++ [(kv.1, kv.2)] from Dict.set_of_not_mem (d := acc) kv.2 hnot, ih]
      · simp
      · simpa using hn
  exact key kvs [] h

/-! ### values -/

theorem jsonVal_quote (m : Nat) (r : Str) : jsonVal (m + 1) ('"' :: r) =
    match scanString (r.length + 1) r with
    | .error e => .error e
    | .ok (t, r') => .ok (.str t, r') := by rw [jsonVal]; rfl
theorem jsonVal_brack (m : Nat) (r : Str) : jsonVal (m + 1) ('[' :: r) =
    if (skipWs r).head? = some ']' then .ok (.arr [], (skipWs r).tail)
    else match jsonElems m r with
      | .error e => .error e
      | .ok (vs, r') => .ok (.arr vs, r') := by rw [jsonVal]; rfl
theorem jsonVal_brace (m : Nat) (r : Str) : jsonVal (m + 1) ('{' :: r) =
    if (skipWs r).head? = some '}' then .ok (.obj [], (skipWs r).tail)
    else match jsonMembers m r with
      | .error e => .error e
      | .ok (kvs, r') => .ok (.obj (kvs.foldl (fun d kv => Dict.set d kv.1 kv.2) []), r') := by rw [jsonVal]; rfl

theorem jsonNumber_val (n : Nat) (i : Int) (r : Str) (hr : NumStop r) : jsonVal (n + 1) (intStr i ++ r) = .ok (.int i, r) := by
  have hnum := jsonNumber_intStr i r hr
  cases hs : intStr i with
  | nil =>
    cases i with
    | ofNat k => exact absurd hs (natStr_ne k)
    | negSucc k => cases hs
  | cons c t =>
    rw [hs] at hnum
    have hc := intStr_numCh i c (by rw [hs]; simp)
    have hpre : ∀ (d : Char) (w : Str), isAsciiDigit d = false → d ≠ '-' → ¬ (d :: w) <+: (c :: (t ++ r)) := by
      intro d w h1 h2 hp
      have : d = c := by
        obtain ⟨u, hu⟩ := hp
        exact (List.cons.inj hu).1
      subst this
      unfold numCh at hc
      simp [h1, h2] at hc
    show jsonVal (n + 1) (c :: (t ++ r)) = _
    unfold jsonVal
    simp only
    rw [if_neg (by rintro rfl; exact absurd hc (by decide)), if_neg (by rintro rfl; exact absurd hc (by decide)),
      if_neg (by rintro rfl; exact absurd hc (by decide)), if_neg (hpre _ _ (by decide) (by decide)),
      if_neg (hpre _ _ (by decide) (by decide)), if_neg (hpre _ _ (by decide) (by decide)), if_neg]
    · exact hnum
    · rintro (h | h | h)
      · exact hpre _ _ (by decide) (by decide) h
      · exact hpre _ _ (by decide) (by decide) h
      · -- `-Infinity` is not a number's text
        cases i with
        | ofNat k =>
          have hk := natStr_numCh k c (by rw [show natStr k = c :: t from hs]; simp)
          obtain ⟨u, hu⟩ := h
          have : '-' = c := (List.cons.inj hu).1
          subst this
          exact absurd hk (by decide)
        | negSucc k =>
          have ht : t = natStr (k + 1) := (List.cons.inj hs).2.symm
          cases htt : t with
          | nil => rw [htt] at ht; exact natStr_ne _ ht.symm
          | cons d t' =>
            have hd := natStr_numCh (k + 1) d (by rw [← ht, htt]; simp)
            rw [htt] at h
            obtain ⟨u, hu⟩ := h
            have : 'I' = d := (List.cons.inj (List.cons.inj hu).2).1
            subst this
            exact absurd hd (by decide)

theorem jsonVal_minusZero (n : Nat) (r : Str) (hr : NumStop r) : jsonVal (n + 1) (c!"-0" ++ r) = .ok (.int 0, r) := by
  have h : jsonVal (n + 1) (c!"-0" ++ r) = jsonNumber (c!"-0" ++ r) := by
    show jsonVal (n + 1) ('-' :: '0' :: r) = _
    unfold jsonVal
    simp only
    rw [if_neg (by decide), if_neg (by decide), if_neg (by decide), if_neg, if_neg, if_neg, if_neg]
    · rfl
    · rintro (⟨u, hu⟩ | ⟨u, hu⟩ | ⟨u, hu⟩)
      · cases hu
      · cases hu
      · cases hu
    all_goals (rintro ⟨u, hu⟩; cases hu)
  rw [h]
  show (if floatTail r then Except.error PyErr.other else Except.ok (Json.int (-(0 : Int)), r)) = _
  rw [floatTail_stop hr]
  rfl

theorem elems_not_close : ∀ (x : Json) (l : List Json) (b : Str), ElemsText (x :: l) b → ∀ r, ¬ ((skipWs (b ++ r)).head? = some ']')
  | x, [], b, h, r => by
    obtain ⟨a, t, b', ha, ht, hb', rfl⟩ := h
    obtain ⟨c, t', rfl, hw, hc, _⟩ := textOf_head ht
    rw [List.append_assoc, List.append_assoc, skipWs_blank ha]
    show ¬ (skipWs (c :: (t' ++ (b' ++ r)))).head? = some ']'
    rw [skipWs_cons hw]
    simpa using hc
  | x, y :: l, b, h, r => by
    obtain ⟨a, t, b', r', ha, ht, hb', _, rfl⟩ := h
    obtain ⟨c, t', rfl, hw, hc, _⟩ := textOf_head ht
    rw [List.append_assoc, List.append_assoc, List.append_assoc, skipWs_blank ha]
    show ¬ (skipWs (c :: (t' ++ _))).head? = some ']'
    rw [skipWs_cons hw]
    simpa using hc
theorem members_not_close : ∀ (e : Str × Json) (l : List (Str × Json)) (b : Str), MembersText (e :: l) b → ∀ r, ¬ ((skipWs (b ++ r)).head? = some '}')
  | (k, v), [], b, h, r => by
    obtain ⟨a, q, a2, a3, t, b', ha, hq, h2, h3, ht, hb', rfl⟩ := h
    rw [List.append_assoc, skipWs_blank ha, List.cons_append, skipWs_cons (by decide)]
    simp
  | (k, v), e :: l, b, h, r => by
    obtain ⟨a, q, a2, a3, t, b', r', ha, hq, h2, h3, ht, hb', _, rfl⟩ := h
    rw [List.append_assoc, skipWs_blank ha, List.cons_append, skipWs_cons (by decide)]
    simp

mutual
theorem jsonVal_text : ∀ (j : Json) (s : Str), TextOf j s → ∀ (n : Nat) (r : Str), 2 * s.length ≤ n → NumStop r →
    jsonVal n (s ++ r) = .ok (asDicts j, r)
  | .null, s, h, n, r, hn, _ => by
    cases h
    obtain ⟨m, rfl⟩ : ∃ m, n = m + 1 := ⟨n - 1, by simp at hn; omega⟩
    rfl
  | .bool true, s, h, n, r, hn, _ => by
    cases h
    obtain ⟨m, rfl⟩ : ∃ m, n = m + 1 := ⟨n - 1, by simp at hn; omega⟩
    rfl
  | .bool false, s, h, n, r, hn, _ => by
    cases h
    obtain ⟨m, rfl⟩ : ∃ m, n = m + 1 := ⟨n - 1, by simp at hn; omega⟩
    rfl
  | .int i, s, h, n, r, hn, hr => by
    obtain ⟨c, t, hs, _⟩ := textOf_head (j := .int i) (s := s) h
    obtain ⟨m, rfl⟩ : ∃ m, n = m + 1 := ⟨n - 1, by rw [hs] at hn; simp at hn; omega⟩
    rcases h with rfl | ⟨rfl, rfl⟩
    · exact jsonNumber_val m i r hr
    · exact jsonVal_minusZero m r hr
  | .str x, s, h, n, r, hn, _ => by
    obtain ⟨t, ht, rfl⟩ := h
    obtain ⟨m, rfl⟩ : ∃ m, n = m + 1 := ⟨n - 1, by simp at hn; omega⟩
    show jsonVal (m + 1) ('"' :: (t ++ ['"'] ++ r)) = _
    rw [jsonVal_quote]
    have : t ++ ['"'] ++ r = t ++ '"' :: r := by simp
    rw [this, scanString_text ht _ (by simp; omega)]
    rfl
  | .arr [], s, h, n, r, hn, _ => by
    obtain ⟨b, hb, rfl⟩ := h
    obtain ⟨m, rfl⟩ : ∃ m, n = m + 1 := ⟨n - 1, by simp at hn; omega⟩
    show jsonVal (m + 1) ('[' :: (b ++ [']'] ++ r)) = _
    rw [jsonVal_brack]
    have : skipWs (b ++ [']'] ++ r) = ']' :: r := by
      rw [List.append_assoc, skipWs_blank hb]
      exact skipWs_cons (by decide) r
    rw [this]
    rfl
  | .arr (x :: l), s, h, n, r, hn, _ => by
    obtain ⟨b, hb, rfl⟩ := h
    obtain ⟨m, rfl⟩ : ∃ m, n = m + 1 := ⟨n - 1, by simp at hn; omega⟩
    simp only [List.length_cons, List.length_append] at hn
    show jsonVal (m + 1) ('[' :: (b ++ [']'] ++ r)) = _
    have e : b ++ [']'] ++ r = b ++ ']' :: r := by simp
    rw [jsonVal_brack, e, if_neg, jsonElems_text x l b hb m r (by omega)]
    · rfl
    · exact elems_not_close x l b hb _
  | .obj [], s, h, n, r, hn, _ => by
    obtain ⟨b, hb, rfl⟩ := h
    obtain ⟨m, rfl⟩ : ∃ m, n = m + 1 := ⟨n - 1, by simp at hn; omega⟩
    show jsonVal (m + 1) ('{' :: (b ++ ['}'] ++ r)) = _
    rw [jsonVal_brace]
    have : skipWs (b ++ ['}'] ++ r) = '}' :: r := by
      rw [List.append_assoc, skipWs_blank hb]
      exact skipWs_cons (by decide) r
    rw [this]
    rfl
  | .obj (e :: l), s, h, n, r, hn, _ => by
    obtain ⟨b, hb, rfl⟩ := h
    obtain ⟨m, rfl⟩ : ∃ m, n = m + 1 := ⟨n - 1, by simp at hn; omega⟩
    simp only [List.length_cons, List.length_append] at hn
    show jsonVal (m + 1) ('{' :: (b ++ ['}'] ++ r)) = _
    have e' : b ++ ['}'] ++ r = b ++ '}' :: r := by simp
    rw [jsonVal_brace, e', if_neg, jsonMembers_text e l b hb m r (by omega)]
    · rfl
    · exact members_not_close e l b hb _
termination_by j s h n r hn hr => n
theorem jsonElems_text : ∀ (x : Json) (l : List Json) (b : Str), ElemsText (x :: l) b → ∀ (n : Nat) (r : Str),
    2 * b.length + 1 ≤ n → jsonElems n (b ++ ']' :: r) = .ok (asDictsArr (x :: l), r)
  | x, [], b, h, n, r, hn => by
    obtain ⟨a, t, b', ha, ht, hb', rfl⟩ := h
    obtain ⟨m, rfl⟩ : ∃ m, n = m + 1 := ⟨n - 1, by omega⟩
    simp only [List.length_append] at hn
    unfold jsonElems
    have e : a ++ t ++ b' ++ ']' :: r = a ++ (t ++ (b' ++ ']' :: r)) := by simp
    obtain ⟨c, t', hc, hw, _⟩ := textOf_head ht
    rw [e, skipWs_blank ha, show skipWs (t ++ (b' ++ ']' :: r)) = t ++ (b' ++ ']' :: r) by rw [hc]; exact skipWs_cons hw _,
      jsonVal_text x t ht m _ (by omega) (numStop_blank hb' _ _ (by decide))]
    simp only
    rw [skipWs_blank hb', skipWs_cons (by decide)]
    simp only
    rw [if_pos trivial]
    rfl
  | x, y :: l, b, h, n, r, hn => by
    obtain ⟨a, t, b', r', ha, ht, hb', hr', rfl⟩ := h
    obtain ⟨m, rfl⟩ : ∃ m, n = m + 1 := ⟨n - 1, by omega⟩
    simp only [List.length_append, List.length_cons] at hn
    unfold jsonElems
    have e : a ++ t ++ b' ++ ',' :: r' ++ ']' :: r = a ++ (t ++ (b' ++ ',' :: (r' ++ ']' :: r))) := by simp
    obtain ⟨c, t', hc, hw, _⟩ := textOf_head ht
    rw [e, skipWs_blank ha, show skipWs (t ++ (b' ++ ',' :: (r' ++ ']' :: r))) = t ++ (b' ++ ',' :: (r' ++ ']' :: r)) by rw [hc]; exact skipWs_cons hw _,
      jsonVal_text x t ht m _ (by omega) (numStop_blank hb' _ _ (by decide))]
    simp only
    rw [skipWs_blank hb', skipWs_cons (by decide)]
    simp only
    rw [if_neg (by decide), if_pos trivial, jsonElems_text y l r' hr' m r (by omega)]
    rfl
termination_by x l b h n r hn => n
theorem jsonMembers_text : ∀ (e : Str × Json) (l : List (Str × Json)) (b : Str), MembersText (e :: l) b → ∀ (n : Nat) (r : Str),
    2 * b.length + 1 ≤ n → jsonMembers n (b ++ '}' :: r) = .ok (asDictsObj (e :: l), r)
  | (k, v), [], b, h, n, r, hn => by
    obtain ⟨a, q, a2, a3, t, b', ha, hq, h2, h3, ht, hb', rfl⟩ := h
    obtain ⟨m, rfl⟩ : ∃ m, n = m + 1 := ⟨n - 1, by omega⟩
    simp only [List.length_append, List.length_cons] at hn
    have e : a ++ '"' :: (q ++ '"' :: (a2 ++ ':' :: (a3 ++ t ++ b'))) ++ '}' :: r =
      a ++ ('"' :: (q ++ '"' :: (a2 ++ (':' :: (a3 ++ (t ++ (b' ++ '}' :: r))))))) := by simp
    obtain ⟨c, t', hc, hw, _⟩ := textOf_head ht
    unfold jsonMembers
    rw [e, skipWs_blank ha, skipWs_cons (by decide)]
    simp only
    rw [if_pos trivial, scanString_text hq _ (by simp; omega)]
    simp only
    rw [skipWs_blank h2, skipWs_cons (by decide)]
    simp only
    rw [if_pos trivial, skipWs_blank h3, show skipWs (t ++ (b' ++ '}' :: r)) = t ++ (b' ++ '}' :: r) by rw [hc]; exact skipWs_cons hw _,
      jsonVal_text v t ht m _ (by omega) (numStop_blank hb' _ _ (by decide))]
    simp only
    rw [skipWs_blank hb', skipWs_cons (by decide)]
    simp only
    rw [if_pos trivial]
    rfl
  | (k, v), e2 :: l, b, h, n, r, hn => by
    obtain ⟨a, q, a2, a3, t, b', r', ha, hq, h2, h3, ht, hb', hr', rfl⟩ := h
    obtain ⟨m, rfl⟩ : ∃ m, n = m + 1 := ⟨n - 1, by omega⟩
    simp only [List.length_append, List.length_cons] at hn
    have e : a ++ '"' :: (q ++ '"' :: (a2 ++ ':' :: (a3 ++ t ++ b' ++ ',' :: r'))) ++ '}' :: r =
      a ++ ('"' :: (q ++ '"' :: (a2 ++ (':' :: (a3 ++ (t ++ (b' ++ ',' :: (r' ++ '}' :: r)))))))) := by simp
    obtain ⟨c, t', hc, hw, _⟩ := textOf_head ht
    unfold jsonMembers
    rw [e, skipWs_blank ha, skipWs_cons (by decide)]
    simp only
    rw [if_pos trivial, scanString_text hq _ (by simp; omega)]
    simp only
    rw [skipWs_blank h2, skipWs_cons (by decide)]
    simp only
    rw [if_pos trivial, skipWs_blank h3, show skipWs (t ++ (b' ++ ',' :: (r' ++ '}' :: r))) = t ++ (b' ++ ',' :: (r' ++ '}' :: r)) by rw [hc]; exact skipWs_cons hw _,
      jsonVal_text v t ht m _ (by omega) (numStop_blank hb' _ _ (by decide))]
    simp only
    rw [skipWs_blank hb', skipWs_cons (by decide)]
    simp only
    rw [if_neg (by decide), if_pos trivial, jsonMembers_text e2 l r' hr' m r (by omega)]
    rfl
termination_by e l b h n r hn => n
end

mutual
theorem asDicts_distinct : ∀ j : Json, DistinctKeys j → asDicts j = j
  | .null, _ => rfl
  | .bool _, _ => rfl
  | .int _, _ => rfl
  | .str _, _ => rfl
  | .arr l, h => by
    show Json.arr (asDictsArr l) = _
    rw [asDictsArr_distinct l h]
  | .obj l, h => by
    show Json.obj ((asDictsObj l).foldl (fun d kv => Dict.set d kv.1 kv.2) []) = _
    rw [asDictsObj_distinct l h.2, foldl_set_nodup _ h.1]
theorem asDictsArr_distinct : ∀ l : List Json, DistinctKeysArr l → asDictsArr l = l
  | [], _ => rfl
  | x :: t, h => by
    show asDicts x :: asDictsArr t = _
    rw [asDicts_distinct x h.1, asDictsArr_distinct t h.2]
theorem asDictsObj_distinct : ∀ l : List (Str × Json), DistinctKeysObj l → asDictsObj l = l
  | [], _ => rfl
  | (k, v) :: t, h => by
    show (k, asDicts v) :: asDictsObj t = _
    rw [asDicts_distinct v h.1, asDictsObj_distinct t h.2]
end

/-- `json.loads` on a JSON text with blanks before and after it -/
theorem jsonLoads_raw {j : Json} {s a b : Str} (ha : Blank a) (hb : Blank b) (h : TextOf j s) :
    jsonLoads (a ++ s ++ b) = .ok (asDicts j) := by
  unfold jsonLoads
  obtain ⟨c, t', hc, hw, _⟩ := textOf_head h
  rw [if_neg]
  · have e : a ++ s ++ b = a ++ (s ++ b) := by simp
    rw [e, skipWs_blank ha, show skipWs (s ++ b) = s ++ b by rw [hc]; exact skipWs_cons hw _,
      jsonVal_text j s h _ b (by simp only [List.length_append]; omega) (numStop_only hb)]
    simp only
    rw [skipWs_only hb]
    rfl
  · intro hf
    cases a with
    | cons x a =>
      have : x = Char.ofNat 0xfeff := by simpa using hf
      rcases ha x List.mem_cons_self with rfl | rfl | rfl | rfl <;> exact absurd this (by decide)
    | nil =>
      rw [List.nil_append] at hf
      cases j with
      | null => cases h; exact absurd (Option.some.inj hf) (by decide)
      | bool b => cases b <;> (cases h; exact absurd (Option.some.inj hf) (by decide))
      | int i =>
        have hn := (intText_facts h).2 c (by rw [hc]; simp)
        rw [hc] at hf
        have : c = Char.ofNat 0xfeff := by simpa using hf
        subst this
        exact absurd hn (by decide)
      | str x => obtain ⟨t, _, rfl⟩ := h; exact absurd (Option.some.inj hf) (by decide)
      | arr x => obtain ⟨t, _, rfl⟩ := h; exact absurd (Option.some.inj hf) (by decide)
      | obj x => obtain ⟨t, _, rfl⟩ := h; exact absurd (Option.some.inj hf) (by decide)

theorem jsonLoads_text {j : Json} {s a b : Str} (ha : Blank a) (hb : Blank b) (h : TextOf j s) (hd : DistinctKeys j) :
    jsonLoads (a ++ s ++ b) = .ok j := by
  rw [jsonLoads_raw ha hb h, asDicts_distinct j hd]

/-! ### the printers write JSON text -/

theorem blank_nil : Blank [] := by intro c hc; cases hc
theorem blank_space : Blank [' '] := by intro c hc; left; simpa using hc
theorem blank_nlIndent (k : Nat) : Blank (nlIndent k) := by
  intro c hc
  unfold nlIndent at hc
  rcases List.mem_cons.1 hc with rfl | hc
  · exact .inr (.inr (.inl rfl))
  · exact .inl (List.eq_of_mem_replicate hc)

mutual
theorem dumps_textOf : ∀ j : Json, TextOf j j.dumps
  | .null => rfl
  | .bool true => rfl
  | .bool false => rfl
  | .int _ => .inl rfl
  | .str s => ⟨_, strText_dumps s, rfl⟩
  | .arr l => ⟨_, dumpsArr_text l [] blank_nil, by rw [List.nil_append]; rfl⟩
  | .obj l => ⟨_, dumpsObj_text l [] blank_nil, by rw [List.nil_append]; rfl⟩
theorem dumpsArr_text : ∀ (l : List Json) (w : Str), Blank w → ElemsText l (w ++ Json.dumpsArr l)
  | [], w, hw => by
    show Blank (w ++ [])
    rw [List.append_nil]; exact hw
  | [x], w, hw => ⟨w, x.dumps, [], hw, dumps_textOf x, blank_nil, by rw [List.append_nil]; rfl⟩
  | x :: y :: t, w, hw => ⟨w, x.dumps, [], [' '] ++ Json.dumpsArr (y :: t), hw, dumps_textOf x, blank_nil,
      dumpsArr_text (y :: t) [' '] blank_space, by
        show w ++ (x.dumps ++ (',' :: ' ' :: Json.dumpsArr (y :: t))) = _
        simp⟩
theorem dumpsObj_text : ∀ (l : List (Str × Json)) (w : Str), Blank w → MembersText l (w ++ Json.dumpsObj l)
  | [], w, hw => by
    show Blank (w ++ [])
    rw [List.append_nil]; exact hw
  | [(k, v)], w, hw => ⟨w, k.flatMap jsonEscChar, [], [' '], v.dumps, [], hw, strText_dumps k, blank_nil, blank_space, dumps_textOf v,
      blank_nil, by
        show w ++ (jsonStr k ++ (':' :: ' ' :: v.dumps)) = _
        simp [jsonStr]⟩
  | (k, v) :: e :: t, w, hw => ⟨w, k.flatMap jsonEscChar, [], [' '], v.dumps, [], [' '] ++ Json.dumpsObj (e :: t), hw, strText_dumps k, blank_nil, blank_space,
      dumps_textOf v, blank_nil, dumpsObj_text (e :: t) [' '] blank_space, by
        show w ++ (jsonStr k ++ (':' :: ' ' :: (v.dumps ++ (',' :: ' ' :: Json.dumpsObj (e :: t))))) = _
        simp [jsonStr]⟩
end

mutual
theorem pretty_textOf : ∀ (j : Json) (k : Nat), TextOf j (j.pretty k)
  | .null, k => by show Json.pretty k .null = _; rfl
  | .bool true, k => by show Json.pretty k (.bool true) = _; rfl
  | .bool false, k => by show Json.pretty k (.bool false) = _; rfl
  | .int i, k => .inl (by show Json.pretty k (.int i) = _; rfl)
  | .str s, k => ⟨_, strText_dumps s, by rfl⟩
  | .arr [], k => ⟨[], blank_nil, by rfl⟩
  | .arr (x :: l), k => ⟨_, prettyArr_text (x :: l) (List.cons_ne_nil _ _) (k + 4) (nlIndent (k + 4)) (nlIndent k) (blank_nlIndent _) (blank_nlIndent _), by
      show '[' :: (nlIndent (k + 4) ++ Json.prettyArr (k + 4) (x :: l) ++ nlIndent k ++ [']']) = _
      simp⟩
  | .obj [], k => ⟨[], blank_nil, by rfl⟩
  | .obj (e :: l), k => ⟨_, prettyObj_text (e :: l) (List.cons_ne_nil _ _) (k + 4) (nlIndent (k + 4)) (nlIndent k) (blank_nlIndent _) (blank_nlIndent _), by
      show '{' :: (nlIndent (k + 4) ++ Json.prettyObj (k + 4) (e :: l) ++ nlIndent k ++ ['}']) = _
      simp⟩
theorem prettyArr_text : ∀ (l : List Json), l ≠ [] → ∀ (k : Nat) (w u : Str), Blank w → Blank u → ElemsText l (w ++ Json.prettyArr k l ++ u)
  | [], hne, _, _, _, _, _ => absurd rfl hne
  | [x], _, k, w, u, hw, hu => ⟨w, x.pretty k, u, hw, pretty_textOf x k, hu, by rfl⟩
  | x :: y :: t, _, k, w, u, hw, hu => ⟨w, x.pretty k, [], nlIndent k ++ Json.prettyArr k (y :: t) ++ u, hw, pretty_textOf x k, blank_nil,
      prettyArr_text (y :: t) (List.cons_ne_nil _ _) k (nlIndent k) u (blank_nlIndent k) hu, by
        show w ++ (x.pretty k ++ (',' :: (nlIndent k ++ Json.prettyArr k (y :: t)))) ++ u = _
        simp⟩
theorem prettyObj_text : ∀ (l : List (Str × Json)), l ≠ [] → ∀ (k : Nat) (w u : Str), Blank w → Blank u → MembersText l (w ++ Json.prettyObj k l ++ u)
  | [], hne, _, _, _, _, _ => absurd rfl hne
  | [(n, v)], _, k, w, u, hw, hu => ⟨w, n.flatMap jsonEscChar, [], [' '], v.pretty k, u, hw, strText_dumps n, blank_nil, blank_space, pretty_textOf v k, hu, by
        show w ++ (jsonStr n ++ (':' :: ' ' :: v.pretty k)) ++ u = _
        simp [jsonStr]⟩
  | (n, v) :: e :: t, _, k, w, u, hw, hu => ⟨w, n.flatMap jsonEscChar, [], [' '], v.pretty k, [], nlIndent k ++ Json.prettyObj k (e :: t) ++ u, hw, strText_dumps n,
      blank_nil, blank_space, pretty_textOf v k, blank_nil,
      prettyObj_text (e :: t) (List.cons_ne_nil _ _) k (nlIndent k) u (blank_nlIndent k) hu, by
        show w ++ (jsonStr n ++ (':' :: ' ' :: (v.pretty k ++ (',' :: (nlIndent k ++ Json.prettyObj k (e :: t)))))) ++ u = _
        simp [jsonStr]⟩
end

end Verif
