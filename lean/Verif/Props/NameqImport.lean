/-
C93: what the import of a `.nameq` text makes of any text, and the decoding of names.
-/
import Verif.Lib.Nameq
import Verif.Spec.Json
import Verif.Lib.Url
import Verif.Lib.Prefs
import Verif.Props.Nameq
import Verif.Props.Output
import Verif.Props.Configtool
import Mathlib.Data.List.Forall2

set_option linter.unusedSimpArgs false
set_option linter.unusedSectionVars false

namespace Verif.Props
open Verif Spec

/-- `s` spells the bytes `bs`, each as `%` and two hexadecimal digits (of either case) -/
inductive Escaped : List Nat → Str → Prop
  | nil : Escaped [] []
  | cons (b x y : Nat) (cx cy : Char) (bs : List Nat) (s : Str) : HexDigit cx x → HexDigit cy y → b = 16 * x + y →
      Escaped bs s → Escaped (b :: bs) ('%' :: cx :: cy :: s)

/-- `s` is a way to write the text `r` in a query string: `+` for a blank, a character's UTF-8 bytes escaped, any other character
(`%` and `+` excepted) itself -/
inductive Encodes : Str → Str → Prop
  | nil : Encodes [] []
  | blank (s r : Str) : Encodes s r → Encodes ('+' :: s) (' ' :: r)
  | itself (c : Char) (s r : Str) : c ≠ '+' → c ≠ '%' → Encodes s r → Encodes (c :: s) (c :: r)
  | escape (c : Char) (e s r : Str) : Escaped (utf8Bytes c) e → Encodes s r → Encodes (e ++ s) (c :: r)

theorem hexVal_digit {d : Char} {k : Nat} (h : HexDigit d k) : hexVal d = some k := by
  obtain ⟨hk, h⟩ := h
  have h1 : ∀ k < 16, (c!"0123456789abcdef"[k]?.bind hexVal) = some k := by decide
  have h2 : ∀ k < 16, (c!"0123456789ABCDEF"[k]?.bind hexVal) = some k := by decide
  rcases h with h | h
  · have := h1 k hk
    rw [h] at this
    exact this
  · have := h2 k hk
    rw [h] at this
    exact this

theorem hexVal_ascii {c : Char} {n : Nat} (h : hexVal c = some n) : isAscii c = true ∧ c ≠ '+' := by
  unfold hexVal at h
  unfold isAscii
  simp only at h
  constructor
  · simp only [decide_eq_true_eq]
    split at h
    · rename_i h1; simp at h1; omega
    · split at h
      · rename_i h1; simp at h1; omega
      · split at h
        · rename_i h1; simp at h1; omega
        · cases h
  · rintro rfl
    revert h
    simp

theorem escaped_plain {bs : List Nat} {e : Str} (h : Escaped bs e) :
    (e.map fun c => if c = '+' then ' ' else c) = e ∧ ∀ c ∈ e, isAscii c = true := by
  induction h with
  | nil => exact ⟨rfl, by simp⟩
  | cons b x y cx cy bs s hx hy hb _ ih =>
    obtain ⟨a1, a2⟩ := hexVal_ascii (hexVal_digit hx)
    obtain ⟨b1, b2⟩ := hexVal_ascii (hexVal_digit hy)
    constructor
    · simp only [List.map_cons, if_neg a2, if_neg b2, ih.1]
      rfl
    · intro c hc
      simp only [List.mem_cons] at hc
      rcases hc with rfl | rfl | rfl | hc
      · decide
      · exact a1
      · exact b1
      · exact ih.2 c hc

theorem escaped_bytes {bs : List Nat} {e : Str} (h : Escaped bs e) (t : Str) : unquoteBytes (e ++ t) = bs ++ unquoteBytes t := by
  induction h with
  | nil => rfl
  | cons b x y cx cy bs s hx hy hb _ ih =>
    show unquoteBytes ('%' :: cx :: cy :: (s ++ t)) = _
    rw [unquoteBytes, hexVal_digit hx, hexVal_digit hy]
    simp only [if_true]
    rw [ih, hb]
    rfl

/-- the run of ASCII characters read so far stands for `w`, whatever follows -/
def ClosedRun (acc w : Str) : Prop := ∀ t, decodeUtf8 (unquoteBytes (acc.reverse ++ t)) = w ++ decodeUtf8 (unquoteBytes t)

theorem unquoteAux_append {s : Str} (h : ∀ c ∈ s, isAscii c = true) (t acc : Str) :
    unquoteAux (s ++ t) acc = unquoteAux t (s.reverse ++ acc) := by
  induction s generalizing acc with
  | nil => rfl
  | cons c s ih =>
    rw [List.cons_append, unquoteAux, if_pos (h c (by simp)), ih (fun d hd => h d (by simp [hd]))]
    simp

theorem ascii_decode {c : Char} (h : isAscii c = true) (t : List Nat) : decodeUtf8 (c.toNat :: t) = c :: decodeUtf8 t := by
  have := decodeUtf8_char c t
  have h' : c.toNat < 128 := by simpa [isAscii] using h
  have e : utf8Bytes c = [c.toNat] := by
    unfold utf8Bytes
    simp only
    rw [if_pos (by omega)]
  rw [e] at this
  exact this

theorem decode_run {s r : Str} (h : Encodes s r) (acc w : Str) (hc : ClosedRun acc w) :
    unquoteAux (s.map fun c => if c = '+' then ' ' else c) acc = w ++ r := by
  have one : ∀ (c : Char) (acc w : Str), isAscii c = true → c ≠ '%' → ClosedRun acc w → ClosedRun (c :: acc) (w ++ [c]) := by
    intro c acc w ha hp hc t
    rw [List.reverse_cons, List.append_assoc, hc]
    show w ++ decodeUtf8 (unquoteBytes (c :: t)) = _
    rw [unquoteBytes_cons hp, ascii_decode ha]
    simp
  induction h generalizing acc w with
  | nil =>
    have := hc []
    rw [List.append_nil] at this
    show decodeUtf8 (unquoteBytes acc.reverse) = _
    rw [this]
    simp [unquoteBytes, decodeUtf8]
  | blank s r _ ih =>
    simp only [List.map_cons, if_true]
    rw [unquoteAux, if_pos (by decide), ih _ _ (one ' ' acc w (by decide) (by decide) hc)]
    simp
  | itself c s r h1 h2 _ ih =>
    simp only [List.map_cons, if_neg h1]
    rw [unquoteAux]
    by_cases ha : isAscii c = true
    · rw [if_pos ha, ih _ _ (one c acc w ha h2 hc)]
      simp
    · rw [if_neg ha]
      have h0 := hc []
      rw [List.append_nil] at h0
      rw [h0, ih [] [] (by intro t; rfl)]
      simp [unquoteBytes, decodeUtf8]
  | escape c e s r he _ ih =>
    obtain ⟨p1, p2⟩ := escaped_plain he
    rw [List.map_append, p1, unquoteAux_append p2, ih (e.reverse ++ acc) (w ++ [c])]
    · simp
    · intro t
      rw [List.reverse_append, List.reverse_reverse, List.append_assoc, hc, escaped_bytes he, decodeUtf8_char]
      simp

/-- C93, names: every way of writing a text in a query string is read as that text. -/
theorem C93_decode (s r : Str) (h : Encodes s r) : unquotePlus s = r := by
  have := decode_run h [] [] (by intro t; rfl)
  simpa [unquotePlus, unquote] using this

theorem ofNat_toNat {n : Nat} (h : n.isValidChar) : (Char.ofNat n).toNat = n := by
  unfold Char.ofNat
  rw [dif_pos h]
  rfl

/-- C93, bytes that are not UTF-8: if the text read has no replacement character then the bytes are its UTF-8 encoding. -/
theorem C93_utf8 (bs : List Nat) (h : '\uFFFD' ∉ decodeUtf8 bs) : (decodeUtf8 bs).flatMap utf8Bytes = bs := by
  change uFFFD ∉ decodeUtf8 bs at h
  induction bs using decodeUtf8.induct with
  | case1 => rfl
  | case2 b t hb ih =>
    have e : decodeUtf8 (b :: t) = Char.ofNat b :: decodeUtf8 t := by
      rw [decodeUtf8.eq_def]
      simp only
      rw [if_pos hb]
    rw [e] at h ⊢
    rw [List.flatMap_cons, ih (fun hm => h (List.mem_cons_of_mem _ hm))]
    have : (Char.ofNat b).toNat = b := ofNat_toNat (.inl (by omega))
    unfold utf8Bytes
    simp only [this]
    rw [if_pos (by omega)]
    rfl
  | case4 b hb hb2 b1 t h1 ih =>
    have e : decodeUtf8 (b :: b1 :: t) = Char.ofNat ((b - 0xC0) * 64 + (b1 - 0x80)) :: decodeUtf8 t := by
      rw [decodeUtf8.eq_def]
      simp only
      rw [if_neg hb, if_pos hb2, if_pos h1]
    rw [e] at h ⊢
    rw [List.flatMap_cons, ih (fun hm => h (List.mem_cons_of_mem _ hm))]
    simp only [Bool.and_eq_true, decide_eq_true_eq, isCont] at hb2 h1
    have : (Char.ofNat ((b - 0xC0) * 64 + (b1 - 0x80))).toNat = (b - 0xC0) * 64 + (b1 - 0x80) := ofNat_toNat (.inl (by omega))
    unfold utf8Bytes
    simp only [this]
    rw [if_neg (by omega), if_pos (by omega)]
    have e1 : 0xC0 + ((b - 0xC0) * 64 + (b1 - 0x80)) / 64 = b := by omega
    have e2 : 0x80 + ((b - 0xC0) * 64 + (b1 - 0x80)) % 64 = b1 := by omega
    rw [e1, e2]
    rfl
  | case8 b hb hb2 hb3 b1 h1 b2 t h2 ih =>
    have e : decodeUtf8 (b :: b1 :: b2 :: t) = Char.ofNat ((b - 0xE0) * 4096 + (b1 - 0x80) * 64 + (b2 - 0x80)) :: decodeUtf8 t := by
      rw [decodeUtf8.eq_def]
      simp only
      rw [if_neg hb, if_neg hb2, if_pos hb3, if_pos h1, if_pos h2]
    rw [e] at h ⊢
    rw [List.flatMap_cons, ih (fun hm => h (List.mem_cons_of_mem _ hm))]
    simp only [Bool.and_eq_true, decide_eq_true_eq, isCont, okSecond3, Bool.or_eq_true, bne_iff_ne, ne_eq] at hb2 hb3 h1 h2
    have : (Char.ofNat ((b - 0xE0) * 4096 + (b1 - 0x80) * 64 + (b2 - 0x80))).toNat = (b - 0xE0) * 4096 + (b1 - 0x80) * 64 + (b2 - 0x80) :=
      ofNat_toNat (by unfold Nat.isValidChar; omega)
    unfold utf8Bytes
    simp only [this]
    rw [if_neg (by omega), if_neg (by omega), if_pos (by omega)]
    have e1 : 0xE0 + ((b - 0xE0) * 4096 + (b1 - 0x80) * 64 + (b2 - 0x80)) / 4096 = b := by omega
    have e2 : 0x80 + ((b - 0xE0) * 4096 + (b1 - 0x80) * 64 + (b2 - 0x80)) / 64 % 64 = b1 := by omega
    have e3 : 0x80 + ((b - 0xE0) * 4096 + (b1 - 0x80) * 64 + (b2 - 0x80)) % 64 = b2 := by omega
    rw [e1, e2, e3]
    rfl
  | case14 b hb hb2 hb3 hb4 b1 h1 b2 h2 b3 t h3 ih =>
    have e : decodeUtf8 (b :: b1 :: b2 :: b3 :: t) =
        Char.ofNat ((b - 0xF0) * 262144 + (b1 - 0x80) * 4096 + (b2 - 0x80) * 64 + (b3 - 0x80)) :: decodeUtf8 t := by
      rw [decodeUtf8.eq_def]
      simp only
      rw [if_neg hb, if_neg hb2, if_neg hb3, if_pos hb4, if_pos h1, if_pos h2, if_pos h3]
    rw [e] at h ⊢
    rw [List.flatMap_cons, ih (fun hm => h (List.mem_cons_of_mem _ hm))]
    simp only [Bool.and_eq_true, decide_eq_true_eq, isCont, okSecond4, Bool.or_eq_true, bne_iff_ne, ne_eq] at hb2 hb3 hb4 h1 h2 h3
    have : (Char.ofNat ((b - 0xF0) * 262144 + (b1 - 0x80) * 4096 + (b2 - 0x80) * 64 + (b3 - 0x80))).toNat =
        (b - 0xF0) * 262144 + (b1 - 0x80) * 4096 + (b2 - 0x80) * 64 + (b3 - 0x80) :=
      ofNat_toNat (by unfold Nat.isValidChar; omega)
    unfold utf8Bytes
    simp only [this]
    rw [if_neg (by omega), if_neg (by omega), if_neg (by omega)]
    have e1 : 0xF0 + ((b - 0xF0) * 262144 + (b1 - 0x80) * 4096 + (b2 - 0x80) * 64 + (b3 - 0x80)) / 262144 = b := by omega
    have e2 : 0x80 + ((b - 0xF0) * 262144 + (b1 - 0x80) * 4096 + (b2 - 0x80) * 64 + (b3 - 0x80)) / 4096 % 64 = b1 := by omega
    have e3 : 0x80 + ((b - 0xF0) * 262144 + (b1 - 0x80) * 4096 + (b2 - 0x80) * 64 + (b3 - 0x80)) / 64 % 64 = b2 := by omega
    have e4 : 0x80 + ((b - 0xF0) * 262144 + (b1 - 0x80) * 4096 + (b2 - 0x80) * 64 + (b3 - 0x80)) % 64 = b3 := by omega
    rw [e1, e2, e3, e4]
    rfl
  | _ =>
    exfalso
    apply h
    rw [decodeUtf8.eq_def]
    simp only
    repeat' (first | rw [if_pos (by assumption)] | rw [if_neg (by assumption)])
    try exact List.mem_cons_self

/-- `s` consists of the pieces `ps` with `&` between them -/
def Pieces (s : Str) (ps : List Str) : Prop := ps ≠ [] ∧ (∀ p ∈ ps, '&' ∉ p) ∧ s = c!"&".intercalate ps

/-- the fields of the pieces: name and value, both decoded; a piece without `=` or with nothing after its first `=` is none -/
inductive FieldsOf : List Str → List (Str × Str) → Prop
  | nil : FieldsOf [] []
  | noValue (p : Str) (ps : List Str) (fs : List (Str × Str)) : (∀ a b : Str, p = a ++ '=' :: b → '=' ∉ a → b = []) → FieldsOf ps fs →
      FieldsOf (p :: ps) fs
  | field (a b : Str) (ps : List Str) (fs : List (Str × Str)) : '=' ∉ a → b ≠ [] → FieldsOf ps fs →
      FieldsOf ((a ++ '=' :: b) :: ps) ((unquotePlus a, unquotePlus b) :: fs)

/-- the first value of a name -/
def FirstValue (fs : List (Str × Str)) (k v : Str) : Prop := ∃ a b : List (Str × Str), fs = a ++ (k, v) :: b ∧ ∀ x ∈ a, x.1 ≠ k

theorem splitEq_none {p : Str} (h : '=' ∉ p) : splitEq p = none := by
  induction p with
  | nil => rfl
  | cons c t ih =>
    simp only [List.mem_cons, not_or] at h
    rw [splitEq, if_neg (Ne.symm h.1), ih h.2]
    rfl

theorem split_eq (p : Str) : '=' ∉ p ∨ ∃ a b : Str, p = a ++ '=' :: b ∧ '=' ∉ a := by
  by_cases h : '=' ∈ p
  · right
    obtain ⟨a, b, e, hn⟩ := List.eq_append_cons_of_mem h
    exact ⟨a, b, e, hn⟩
  · exact .inl h

theorem fields_parse {ps : List Str} {fs : List (Str × Str)} (h : FieldsOf ps fs) : ps.filterMap parseQsPiece = fs := by
  induction h with
  | nil => rfl
  | noValue p ps fs hp _ ih =>
    rw [List.filterMap_cons_none, ih]
    unfold parseQsPiece
    rcases split_eq p with hn | ⟨a, b, rfl, ha⟩
    · rw [splitEq_none hn]
    · rw [splitEq_append (fun c hc => by rintro rfl; exact ha hc), hp a b rfl ha]
      rfl
  | field a b ps fs ha hb _ ih =>
    rw [List.filterMap_cons_some (b := (unquotePlus a, unquotePlus b)), ih]
    unfold parseQsPiece
    rw [splitEq_append (fun c hc => by rintro rfl; exact ha hc)]
    simp only
    rw [if_neg hb]

theorem pieces_parse {s : Str} {ps : List Str} {fs : List (Str × Str)} (hp : Pieces s ps) (hf : FieldsOf ps fs) : parseQsl s = fs := by
  obtain ⟨h1, h2, rfl⟩ := hp
  unfold parseQsl
  rw [← joinStr_intercalate, splitChar_join (fun p hp c hc => by rintro rfl; exact h2 p hp hc) h1, fields_parse hf]

/-- every line has pieces and fields -/
theorem fields_exist (s : Str) : ∃ ps fs, Pieces s ps ∧ FieldsOf ps fs := by
  have hp : ∀ s : Str, ∃ ps, Pieces s ps := by
    intro s
    induction s with
    | nil => exact ⟨[[]], by simp, by simp, rfl⟩
    | cons c t ih =>
      obtain ⟨ps, h1, h2, h3⟩ := ih
      cases ps with
      | nil => exact absurd rfl h1
      | cons p ps =>
        by_cases hc : c = '&'
        · subst hc
          refine ⟨[] :: p :: ps, by simp, ?_, ?_⟩
          · intro q hq
            simp only [List.mem_cons] at hq
            rcases hq with rfl | hq
            · simp
            · exact h2 q (by simpa using hq)
          · rw [h3]; rfl
        · refine ⟨(c :: p) :: ps, by simp, ?_, ?_⟩
          · intro q hq
            simp only [List.mem_cons] at hq
            rcases hq with rfl | hq
            · simp only [List.mem_cons, not_or]
              exact ⟨fun e => hc e.symm, h2 p (by simp)⟩
            · exact h2 q (by simp [hq])
          · rw [h3]
            cases ps <;> simp [List.intercalate, List.intersperse]
  have hf : ∀ ps : List Str, ∃ fs, FieldsOf ps fs := by
    intro ps
    induction ps with
    | nil => exact ⟨[], .nil⟩
    | cons p ps ih =>
      obtain ⟨fs, h⟩ := ih
      rcases split_eq p with hn | ⟨a, b, rfl, ha⟩
      · exact ⟨fs, .noValue p ps fs (by rintro a b rfl _; simp at hn) h⟩
      · by_cases hb : b = []
        · subst hb
          refine ⟨fs, .noValue _ ps fs ?_ h⟩
          intro a' b' e ha'
          have := splitEq_append (k := a) (v := []) (fun c hc => by rintro rfl; exact ha hc)
          rw [e, splitEq_append (fun c hc => by rintro rfl; exact ha' hc)] at this
          simpa using congrArg (fun o => (o.getD ([], [])).2) this
        · exact ⟨_, .field a b ps fs ha hb h⟩
  obtain ⟨ps, h1⟩ := hp s
  obtain ⟨fs, h2⟩ := hf ps
  exact ⟨ps, fs, h1, h2⟩

theorem keys_group (fs : List (Str × Str)) (d : Dict Str (List Str)) :
    (parseQsGroup fs d).keys = addKeys d.keys (fs.map Prod.fst) := by
  induction fs generalizing d with
  | nil => rfl
  | cons f fs ih =>
    obtain ⟨k, v⟩ := f
    rw [parseQsGroup, ih, Dict.keys_set]
    rfl

theorem get?_group (fs : List (Str × Str)) (d : Dict Str (List Str)) (k : Str) :
    Dict.get? (parseQsGroup fs d) k =
      match Dict.get? d k, (fs.filter fun f => decide (f.1 = k)).map Prod.snd with
      | some l, vs => some (l ++ vs)
      | none, [] => none
      | none, vs => some vs := by
  induction fs generalizing d with
  | nil => cases h : Dict.get? d k <;> simp [parseQsGroup, h]
  | cons f fs ih =>
    obtain ⟨k', v⟩ := f
    rw [parseQsGroup, ih, Dict.get?_set]
    by_cases hk : k' = k
    · subst hk
      rw [if_pos rfl, List.filter_cons_of_pos (by simp)]
      cases h : Dict.get? d k' <;> simp [h]
    · rw [if_neg hk, List.filter_cons_of_neg (by simpa using hk)]

theorem firstValue_filter (fs : List (Str × Str)) (k v : Str) :
    FirstValue fs k v ↔ ((fs.filter fun f => decide (f.1 = k)).map Prod.snd).head? = some v := by
  induction fs with
  | nil =>
    constructor
    · rintro ⟨a, b, h, _⟩
      have := congrArg List.length h
      simp at this
    · intro h; cases h
  | cons f fs ih =>
    obtain ⟨k', v'⟩ := f
    by_cases hk : k' = k
    · subst hk
      rw [List.filter_cons_of_pos (by simp)]
      constructor
      · rintro ⟨a, b, h, ha⟩
        cases a with
        | nil => cases h; rfl
        | cons x a =>
          cases h
          exact absurd rfl (ha _ List.mem_cons_self)
      · intro h
        cases h
        exact ⟨[], fs, rfl, by simp⟩
    · rw [List.filter_cons_of_neg (by simpa using hk), ← ih]
      constructor
      · rintro ⟨a, b, h, ha⟩
        cases a with
        | nil => cases h; exact absurd rfl hk
        | cons x a =>
          cases h
          exact ⟨a, b, rfl, fun x hx => ha x (by simp [hx])⟩
      · rintro ⟨a, b, rfl, ha⟩
        refine ⟨(k', v') :: a, b, rfl, ?_⟩
        intro x hx
        rcases List.mem_cons.1 hx with rfl | hx
        · exact hk
        · exact ha x hx

section
variable [U : Uni]

/-- the ballot of a line with these fields: one vote, the names in the order of their first appearance, each with its first value,
read as an integer, as its rank -/
def BallotOf (fs : List (Str × Str)) (vl : Voteline) : Prop :=
  vl.qty = 1 ∧ Dict.keys vl.prefs = firsts (fs.map Prod.fst) ∧
    ∀ k v, FirstValue fs k v → ∃ r : Int, pyIntOfStr v = .ok r ∧ Dict.get? vl.prefs k = some { rank := some r }

theorem qs_facts (s : Str) (fs : List (Str × Str)) (h : parseQsl s = fs) :
    Dict.keys (parseQs s) = firsts (fs.map Prod.fst) ∧ Dict.WF (parseQs s) ∧
    (∀ k v, FirstValue fs k v ↔ ∃ l, Dict.get? (parseQs s) k = some (v :: l)) ∧ (∀ k, Dict.get? (parseQs s) k ≠ some []) := by
  have hk : Dict.keys (parseQs s) = firsts (fs.map Prod.fst) := by
    unfold parseQs
    rw [h, keys_group]
    show addKeys [] _ = _
    rw [addKeys_nil]
  have hg : ∀ k, Dict.get? (parseQs s) k = match (fs.filter fun f => decide (f.1 = k)).map Prod.snd with
      | [] => none
      | vs => some vs := by
    intro k
    unfold parseQs
    rw [h, get?_group]
    show (match (none : Option (List Str)), (fs.filter fun f => decide (f.1 = k)).map Prod.snd with
      | some l, vs => some (l ++ vs)
      | none, [] => none
      | none, vs => some vs) = _
    cases (fs.filter fun f => decide (f.1 = k)).map Prod.snd <;> rfl
  refine ⟨hk, by unfold Dict.WF; rw [hk]; exact nodup_firsts _, ?_, ?_⟩
  · intro k v
    rw [firstValue_filter, hg]
    cases (fs.filter fun f => decide (f.1 = k)).map Prod.snd with
    | nil => simp
    | cons x l => simp
  · intro k
    rw [hg]
    cases (fs.filter fun f => decide (f.1 = k)).map Prod.snd with
    | nil => simp
    | cons x l => simp

theorem entries_forall₂ {Q : Dict Str (List Str)} {prefs : Dict Str Pref} (h : List.Forall₂ (fun a b => nameqEntry a = .ok b) Q prefs) :
    Dict.keys prefs = Dict.keys Q ∧ ∀ k v l, Dict.get? Q k = some (v :: l) → ∃ r : Int, pyIntOfStr v = .ok r ∧ Dict.get? prefs k = some { rank := some r } := by
  induction h with
  | nil => exact ⟨rfl, by intro k v l h; cases h⟩
  | @cons a b as bs hab _ ih =>
    obtain ⟨k', l'⟩ := a
    have hb : ∃ v' l'' r, l' = v' :: l'' ∧ pyIntOfStr v' = .ok r ∧ b = (k', { rank := some r }) := by
      unfold nameqEntry at hab
      cases l' with
      | nil => cases hab
      | cons v' l'' =>
        simp only at hab
        cases hi : pyIntOfStr v' with
        | error e => rw [hi] at hab; cases hab
        | ok r => rw [hi] at hab; cases hab; exact ⟨v', l'', r, rfl, hi, rfl⟩
    obtain ⟨v', l'', r, rfl, hi, rfl⟩ := hb
    constructor
    · show k' :: Dict.keys bs = k' :: Dict.keys as
      rw [ih.1]
    · intro k v l hg
      by_cases hk : k' = k
      · subst hk
        have : v' = v := by
          simp [Dict.get?] at hg
          exact hg.1
        subst this
        exact ⟨r, hi, by simp [Dict.get?]⟩
      · have hg' : Dict.get? as k = some (v :: l) := by
          simpa [Dict.get?, hk] using hg
        obtain ⟨r', h1, h2⟩ := ih.2 k v l hg'
        exact ⟨r', h1, by simpa [Dict.get?, hk] using h2⟩

theorem nameqLine_fields (line : Str) (fs : List (Str × Str)) (h : parseQsl (strip line) = fs) :
    ((∃ vl, nameqLine line = .ok vl) ↔ ∀ k v, FirstValue fs k v → ∃ r : Int, pyIntOfStr v = .ok r) ∧
    (∀ vl, nameqLine line = .ok vl → BallotOf fs vl) := by
  obtain ⟨q1, q2, q3, q4⟩ := qs_facts (strip line) fs h
  have hres : ∀ vl, nameqLine line = .ok vl → BallotOf fs vl := by
    intro vl hv
    unfold nameqLine at hv
    cases hm : (parseQs (strip line)).mapM nameqEntry with
    | error e => rw [hm] at hv; cases hv
    | ok prefs =>
      rw [hm] at hv
      cases hv
      obtain ⟨e1, e2⟩ := entries_forall₂ ((mapM_ok_iff₂ nameqEntry _ _).1 hm)
      refine ⟨rfl, e1.trans q1, ?_⟩
      intro k v hf
      obtain ⟨l, hl⟩ := (q3 k v).1 hf
      exact e2 k v l hl
  refine ⟨⟨?_, ?_⟩, hres⟩
  · rintro ⟨vl, hv⟩ k v hf
    obtain ⟨r, hr, _⟩ := (hres vl hv).2.2 k v hf
    exact ⟨r, hr⟩
  · intro hall
    have : ∃ prefs, (parseQs (strip line)).mapM nameqEntry = .ok prefs := by
      have hmem : ∀ kv ∈ parseQs (strip line), ∃ p, nameqEntry kv = .ok p := by
        rintro ⟨k, l⟩ hkv
        have hg := Dict.get?_of_mem q2 hkv
        cases l with
        | nil => exact absurd hg (q4 k)
        | cons v l =>
          obtain ⟨r, hr⟩ := hall k v ((q3 k v).2 ⟨l, hg⟩)
          refine ⟨(k, { rank := some r }), ?_⟩
          unfold nameqEntry
          simp only
          rw [hr]
      generalize parseQs (strip line) = Q at hmem
      clear q1 q2 q3 q4 hres
      induction Q with
      | nil => exact ⟨[], rfl⟩
      | cons x Q ih =>
        obtain ⟨p, hp⟩ := hmem x List.mem_cons_self
        obtain ⟨ps, hps⟩ := ih (fun kv hkv => hmem kv (List.mem_cons_of_mem _ hkv))
        exact ⟨p :: ps, (mapM_ok_iff₂ _ _ _).2 (.cons hp ((mapM_ok_iff₂ _ _ _).1 hps))⟩
    obtain ⟨prefs, hp⟩ := this
    exact ⟨_, by unfold nameqLine; rw [hp]⟩

theorem keys_nameqCands (vls : List Voteline) (d : Dict Str (Option Str)) :
    Dict.keys (nameqCands vls d) = addKeys (Dict.keys d) (vls.flatMap fun (vl : Voteline) => Dict.keys vl.prefs) := by
  induction vls generalizing d with
  | nil => rfl
  | cons vl vls ih =>
    rw [nameqCands, ih, List.flatMap_cons, addKeys_append]
    congr 1
    generalize Dict.keys vl.prefs = ks
    induction ks generalizing d with
    | nil => rfl
    | cons k ks ihk =>
      rw [List.foldl_cons, ihk, Dict.keys_set]
      rfl

/-- the fields of each line of a text, blanks at both ends of a line put aside -/
def LineFields (text : Str) (fss : List (List (Str × Str))) : Prop :=
  List.Forall₂ (fun (line : Str) fs => ∃ ps, Pieces (strip line) ps ∧ FieldsOf ps fs) (splitlines text) fss

/-- C93.  The import of a `.nameq` text succeeds exactly if in every line the first value of every name is an integer; then every line,
also an empty one, is one ballot with that line's names and ranks, in order; the candidates are all the names, in order of their
first appearance, each under its own name; the metadata are the version and the ballot count, the number of lines. -/
theorem C93_import (text : Str) (fss : List (List (Str × Str))) (h : LineFields text fss) :
    ((∃ m, nameqToJabmod text = .ok m) ↔ ∀ fs ∈ fss, ∀ k v, FirstValue fs k v → ∃ r : Int, pyIntOfStr v = .ok r) ∧
    (∀ m, nameqToJabmod text = .ok m →
      List.Forall₂ BallotOf fss m.votelines ∧
      Dict.keys m.candidates = firsts (fss.flatMap fun fs => fs.map Prod.fst) ∧
      (∀ c ∈ Dict.keys m.candidates, Dict.get? m.candidates c = some (some c)) ∧
      m.metadata = [(c!"version", .str c!"0.1"), (c!"ballotcount", .int fss.length)]) := by
  have hp : List.Forall₂ (fun (line : Str) fs => parseQsl (strip line) = fs) (splitlines text) fss :=
    h.imp (fun line fs ⟨ps, h1, h2⟩ => pieces_parse h1 h2)
  constructor
  · have hlines : ∀ (ls : List Str) (fss : List (List (Str × Str))), List.Forall₂ (fun (line : Str) fs => parseQsl (strip line) = fs) ls fss →
        ((∃ vls, ls.mapM nameqLine = .ok vls) ↔ ∀ fs ∈ fss, ∀ k v, FirstValue fs k v → ∃ r : Int, pyIntOfStr v = .ok r) := by
      intro ls fss hf
      induction hf with
      | nil => exact ⟨(by intro _ fs hfs; cases hfs), fun _ => ⟨[], rfl⟩⟩
      | @cons l fs ls fss hl _ ih =>
        have hl' := (nameqLine_fields l fs hl).1
        constructor
        · rintro ⟨vls, hv⟩ fs' hfs'
          cases (mapM_ok_iff₂ nameqLine _ _).1 hv with
          | cons hx hxs =>
            rcases List.mem_cons.1 hfs' with rfl | hfs'
            · exact hl'.1 ⟨_, hx⟩
            · exact ih.1 ⟨_, (mapM_ok_iff₂ nameqLine _ _).2 hxs⟩ fs' hfs'
        · intro hall
          obtain ⟨vl, hv⟩ := hl'.2 (hall fs List.mem_cons_self)
          obtain ⟨vls, hvs⟩ := ih.2 (fun fs' hfs' => hall fs' (List.mem_cons_of_mem _ hfs'))
          exact ⟨vl :: vls, (mapM_ok_iff₂ _ _ _).2 (.cons hv ((mapM_ok_iff₂ _ _ _).1 hvs))⟩
    rw [← hlines _ _ hp]
    unfold nameqToJabmod
    constructor
    · rintro ⟨m, hm⟩
      cases hv : (splitlines text).mapM nameqLine with
      | error e => rw [hv] at hm; cases hm
      | ok vls => exact ⟨vls, rfl⟩
    · rintro ⟨vls, hv⟩
      rw [hv]
      exact ⟨_, rfl⟩
  · intro m hm
    unfold nameqToJabmod at hm
    cases hv : (splitlines text).mapM nameqLine with
    | error e => rw [hv] at hm; cases hm
    | ok vls =>
      rw [hv] at hm
      cases hm
      have hb : List.Forall₂ BallotOf fss vls := by
        have h1 := (mapM_ok_iff₂ nameqLine _ _).1 hv
        generalize splitlines text = ls at hp h1
        clear hv h
        induction hp generalizing vls with
        | nil => cases h1; exact .nil
        | cons hl _ ih =>
          cases h1 with
          | cons hx hxs => exact .cons ((nameqLine_fields _ _ hl).2 _ hx) (ih _ hxs)
      refine ⟨hb, ?_, ?_, ?_⟩
      · show Dict.keys (nameqCands vls []) = _
        rw [keys_nameqCands]
        show addKeys [] _ = _
        have : ∀ ks : List Str, addKeys ks (vls.flatMap fun (vl : Voteline) => Dict.keys vl.prefs) = addKeys ks (fss.flatMap fun fs => fs.map Prod.fst) := by
          clear hv hp h
          induction hb with
          | nil => intro ks; rfl
          | cons hx _ ih =>
            intro ks
            rw [List.flatMap_cons, List.flatMap_cons, addKeys_append, addKeys_append, ih, hx.2.1, addKeys_firsts]
        rw [this, addKeys_nil]
      · intro c hc
        have := nameqCands_get vls [] c
        show Dict.get? (nameqCands vls []) c = _
        rw [this, if_pos]
        change c ∈ Dict.keys (nameqCands vls []) at hc
        rw [keys_nameqCands] at hc
        change c ∈ addKeys [] _ at hc
        rw [addKeys_nil, mem_firsts, List.mem_flatMap] at hc
        exact hc
      · rw [← hp.length_eq]

/-- the fields of the lines are always there -/
theorem lineFields_exist (text : Str) : ∃ fss, LineFields text fss := by
  unfold LineFields
  generalize splitlines text = ls
  induction ls with
  | nil => exact ⟨[], .nil⟩
  | cons l ls ih =>
    obtain ⟨fss, h⟩ := ih
    obtain ⟨ps, fs, h1, h2⟩ := fields_exist (strip l)
    exact ⟨fs :: fss, .cons ⟨ps, h1, h2⟩ h⟩

end

section
attribute [local instance] Uni.ascii
set_option maxRecDepth 20000

example : Encodes c!"J%c3%B6+a" c!"Jö a" := by
  refine .itself 'J' _ _ (by decide) (by decide) (.escape 'ö' c!"%c3%B6" _ _ ?_ (.blank _ _ (.itself 'a' _ _ (by decide) (by decide) .nil)))
  exact .cons 0xc3 12 3 'c' '3' _ _ ⟨by decide, by decide⟩ ⟨by decide, by decide⟩ (by decide) (.cons 0xb6 11 6 'B' '6' _ _ ⟨by decide, by decide⟩ ⟨by decide, by decide⟩ (by decide) .nil)

/-- a line with a blank value, a piece without `=`, a repeated name, and an empty line -/
example : LineFields c!" A=1&B=&C&A=2&D+E=3 \n\n" [[(c!"A", c!"1"), (c!"A", c!"2"), (c!"D E", c!"3")], []] := by
  have h1 : FieldsOf [c!"A=1", c!"B=", c!"C", c!"A=2", c!"D+E=3"] [(c!"A", c!"1"), (c!"A", c!"2"), (c!"D E", c!"3")] := by
    refine .field c!"A" c!"1" _ _ (by decide) (by decide) (.noValue _ _ _ ?_ (.noValue _ _ _ ?_ ?_))
    · intro a b e ha
      cases a with
      | nil => cases e
      | cons x a =>
        cases a with
        | nil => cases e; rfl
        | cons y a => cases a <;> cases e
    · intro a b e _
      have : '=' ∈ c!"C" := by rw [e]; simp
      simp at this
    · exact .field c!"A" c!"2" _ _ (by decide) (by decide) (.field c!"D+E" c!"3" _ _ (by decide) (by decide) .nil)
  have h2 : FieldsOf [[]] [] := by
    refine .noValue _ _ _ ?_ .nil
    intro a b e _
    cases a <;> cases e
  exact .cons ⟨_, ⟨by decide, by decide, by decide +kernel⟩, h1⟩ (.cons ⟨_, ⟨by decide, by decide, by decide +kernel⟩, h2⟩ .nil)

end

end Verif.Props
