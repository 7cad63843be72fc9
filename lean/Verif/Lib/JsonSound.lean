/-
What `json.loads` accepts is JSON text.
-/
import Verif.Lib.JsonLoad
import Mathlib.Data.List.Induction
import Mathlib.Tactic.Tauto

set_option linter.unusedSimpArgs false

namespace Verif
open Spec

theorem of_mem_takeWhile {p : Char → Bool} {s : Str} {c : Char} (h : c ∈ s.takeWhile p) : p c = true := by
  induction s with
  | nil => cases h
  | cons d s ih =>
    rw [List.takeWhile_cons] at h
    split at h
    · rcases List.mem_cons.1 h with rfl | h
      · assumption
      · exact ih h
    · cases h

theorem toNat_ofNat_scalar {n : Nat} (h : n < 0xd800 ∨ (0xdfff < n ∧ n < 0x110000)) : (Char.ofNat n).toNat = n := by
  have hv : n.isValidChar := h
  unfold Char.ofNat
  rw [dif_pos hv]
  unfold Char.toNat Char.ofNatAux
  simp only [UInt32.toNat, UInt32.toBitVec_ofNat]
  rfl

theorem unitText_lt {n : Nat} {s : Str} (h : UnitText n s) : n < 65536 := by
  obtain ⟨a, b, c, d, ka, kb, kc, kd, ha, hb, hc, hd, rfl, _⟩ := h
  have := ha.1; have := hb.1; have := hc.1; have := hd.1
  omega

theorem simpleEsc_text {e d : Char} (h : simpleEsc e = some d) : ShortText d ['\\', e] := by
  unfold simpleEsc at h
  repeat' split at h
  all_goals (try cases h)
  all_goals (subst_vars; unfold ShortText; decide)

theorem lowHalf_sound {hi : Nat} {s r : Str} {c : Char} (h : lowHalf hi s = .ok (.char c r)) (h1 : 0xd800 ≤ hi) (h2 : hi ≤ 0xdbff) :
    ∃ lo t, UnitText lo t ∧ 0xdc00 ≤ lo ∧ lo ≤ 0xdfff ∧ c.toNat = 0x10000 + ((hi - 0xd800) * 1024 + (lo - 0xdc00)) ∧ s = t ++ r := by
  unfold lowHalf at h
  split at h
  · rename_i r'
    split at h
    · cases h
    · rename_i lo r'' hx
      split at h
      · rename_i hlo
        obtain ⟨rfl, rfl⟩ := ScanStep.char.inj (Except.ok.inj h)
        obtain ⟨t, rfl, ht⟩ := unit_hex4 hx
        exact ⟨lo, _, ht, hlo.1, hlo.2, toNat_ofNat_scalar (.inr (by omega)), rfl⟩
      · cases h
  · cases h

theorem uniEsc_sound {s r : Str} {c : Char} (h : uniEsc s = .ok (.char c r)) : ∃ t, CharText c ('\\' :: 'u' :: t) ∧ s = t ++ r := by
  unfold uniEsc at h
  split at h
  · cases h
  · rename_i n r' hx
    obtain ⟨t, rfl, ht⟩ := unit_hex4 hx
    split at h
    · rename_i hn
      obtain ⟨lo, t2, ht2, h1, h2, h3, rfl⟩ := lowHalf_sound h hn.1 hn.2
      exact ⟨t ++ t2, .inr (.inr (.inr ⟨n, lo, _, _, ht, ht2, hn.1, hn.2, h1, h2, h3, rfl⟩)), by simp⟩
    · rename_i hn
      split at h
      · cases h
      · rename_i hn2
        cases h
        have := unitText_lt ht
        refine ⟨t, .inr (.inr (.inl ?_)), rfl⟩
        rw [toNat_ofNat_scalar (by omega)]
        exact ht

theorem uniEsc_not_stop {s r : Str} (h : uniEsc s = .ok (.stop r)) : False := by
  unfold uniEsc at h
  split at h
  · cases h
  · split at h
    · unfold lowHalf at h
      split at h
      · split at h
        · cases h
        · split at h <;> cases h
      · cases h
    · split at h <;> cases h

theorem scanStep_sound {s r : Str} {c : Char} (h : scanStep s = .ok (.char c r)) : ∃ a, CharText c a ∧ s = a ++ r := by
  unfold scanStep at h
  split at h
  · cases h
  · rename_i d s'
    split at h
    · cases h
    · rename_i h1
      split at h
      · rename_i h2
        subst h2
        split at h
        · cases h
        · rename_i e r'
          split at h
          · rename_i h3
            subst h3
            obtain ⟨t, ht, rfl⟩ := uniEsc_sound h
            exact ⟨_, ht, rfl⟩
          · split at h
            · rename_i d hd
              cases h
              exact ⟨_, .inr (.inl (simpleEsc_text hd)), rfl⟩
            · cases h
      · rename_i h2
        split at h
        · cases h
        · rename_i h3
          cases h
          exact ⟨[c], .inl ⟨rfl, h1, h2, by omega⟩, rfl⟩

theorem scanStep_stop {s r : Str} (h : scanStep s = .ok (.stop r)) : s = '"' :: r := by
  unfold scanStep at h
  split at h
  · cases h
  · rename_i d s'
    split at h
    · rename_i h1
      cases h
      rw [h1]
    · split at h
      · split at h
        · cases h
        · split at h
          · exact (uniEsc_not_stop h).elim
          · split at h <;> cases h
      · split at h <;> cases h

theorem scanString_sound : ∀ (n : Nat) (s t r : Str), scanString n s = .ok (t, r) → ∃ q, StrText t q ∧ s = q ++ '"' :: r := by
  intro n
  induction n with
  | zero => intro s t r h; cases h
  | succ n ih =>
    intro s t r h
    unfold scanString at h
    split at h
    · cases h
    · rename_i r' hs
      cases h
      exact ⟨[], .nil, scanStep_stop hs⟩
    · rename_i c r' hs
      split at h
      · cases h
      · rename_i t' r'' ht
        cases h
        obtain ⟨q, hq, rfl⟩ := ih _ _ _ ht
        obtain ⟨a, ha, rfl⟩ := scanStep_sound hs
        exact ⟨a ++ q, .cons _ _ _ _ ha hq, by simp⟩

/-! ### numbers -/

theorem asciiVal_append (s : Str) (c : Char) : asciiVal (s ++ [c]) = 10 * asciiVal s + (c.toNat - 48) := by
  unfold asciiVal
  rw [List.foldl_append]
  rfl

theorem digit_char {c : Char} (h : isAsciiDigit c = true) : Nat.digitChar (c.toNat - 48) = c ∧ c.toNat - 48 < 10 := by
  have hc : 48 ≤ c.toNat ∧ c.toNat ≤ 57 := by unfold isAsciiDigit at h; simpa using h
  have all : ∀ n, 48 ≤ n → n ≤ 57 → Nat.digitChar (n - 48) = Char.ofNat n := by
    intro n h1 h2
    have : ∀ k < 10, Nat.digitChar k = Char.ofNat (k + 48) := by decide
    have := this (n - 48) (by omega)
    rw [this]
    congr 1
    omega
  refine ⟨?_, by omega⟩
  rw [all _ hc.1 hc.2, Char.ofNat_toNat]

/-- decimal digits without a leading zero are the decimal representation of their value -/
theorem natStr_asciiVal (s : Str) (hne : s ≠ []) (hd : ∀ c ∈ s, isAsciiDigit c = true) (h0 : s.head? ≠ some '0') : natStr (asciiVal s) = s ∧ 0 < asciiVal s := by
  induction s using List.reverseRecOn with
  | nil => exact absurd rfl hne
  | append_singleton s c ih =>
    obtain ⟨hc1, hc2⟩ := digit_char (hd c (by simp))
    rw [asciiVal_append]
    cases s with
    | nil =>
      have hc0 : c ≠ '0' := by intro h; apply h0; rw [h]; rfl
      have hz : asciiVal [] = 0 := rfl
      rw [hz]
      have hpos : c.toNat - 48 ≠ 0 := by
        intro hz
        rw [hz] at hc1
        exact hc0 hc1.symm
      refine ⟨?_, by omega⟩
      unfold natStr
      rw [Nat.toDigits_eq_if (by decide), if_pos (by omega)]
      show [Nat.digitChar (10 * 0 + (c.toNat - 48))] = [c]
      rw [Nat.mul_zero, Nat.zero_add, hc1]
    | cons x s =>
      obtain ⟨ih1, ih2⟩ := ih (by simp) (fun c hc => hd c (by simp at hc ⊢; tauto)) (by simpa using h0)
      refine ⟨?_, by omega⟩
      unfold natStr at ih1 ⊢
      rw [Nat.toDigits_eq_if (by decide), if_neg (by omega)]
      have e1 : (10 * asciiVal (x :: s) + (c.toNat - 48)) / 10 = asciiVal (x :: s) := by omega
      have e2 : (10 * asciiVal (x :: s) + (c.toNat - 48)) % 10 = c.toNat - 48 := by omega
      rw [e1, e2, ih1, hc1]

theorem jsonNat_sound {s d r : Str} (h : jsonNat s = some (d, r)) : d = natStr (asciiVal d) ∧ s = d ++ r := by
  unfold jsonNat at h
  split at h
  · rename_i h0
    cases h
    cases s with
    | nil => cases h0
    | cons c s =>
      have : c = '0' := by simpa using h0
      subst this
      exact ⟨by decide, rfl⟩
  · rename_i h0
    split at h
    · cases h
    · rename_i hne
      cases h
      refine ⟨(natStr_asciiVal _ hne (fun c hc => ?_) ?_).1.symm, (List.takeWhile_append_dropWhile).symm⟩
      · exact of_mem_takeWhile hc
      · intro hh
        apply h0
        cases s with
        | nil => simp at hne
        | cons c s =>
          rw [List.takeWhile_cons] at hh
          split at hh
          · simpa using hh
          · cases hh

theorem jsonNumber_sound {s r : Str} {v : Json} (h : jsonNumber s = .ok (v, r)) : ∃ i t, v = .int i ∧ IntText i t ∧ s = t ++ r := by
  unfold jsonNumber at h
  simp only at h
  split at h
  · cases h
  · rename_i d r' hn
    split at h
    · cases h
    · obtain ⟨h1, h2⟩ := jsonNat_sound hn
      by_cases hneg : s.head? = some '-'
      · rw [if_pos hneg] at h h2
        cases h
        obtain ⟨x, hx⟩ : ∃ x, asciiVal d = x := ⟨_, rfl⟩
        have hs : s = '-' :: s.tail := by
          cases s with
          | nil => cases hneg
          | cons c s => have : c = '-' := by simpa using hneg
                        rw [this]; rfl
        refine ⟨_, '-' :: d, rfl, ?_, by rw [hs, h2]; rfl⟩
        cases x with
        | zero =>
          refine .inr ⟨by rw [hx]; rfl, ?_⟩
          rw [h1, hx]
          rfl
        | succ k =>
          left
          rw [hx]
          rw [h1, hx]
          rfl
      · rw [if_neg hneg] at h h2
        cases h
        exact ⟨_, d, rfl, .inl h1, h2⟩

/-! ### values -/

theorem skipWs_split (s : Str) : ∃ w, Blank w ∧ s = w ++ skipWs s := by
  refine ⟨s.takeWhile jsonWs, fun c hc => ?_, (List.takeWhile_append_dropWhile).symm⟩
  have h := of_mem_takeWhile hc
  unfold jsonWs at h
  simp only [Bool.or_eq_true, beq_iff_eq] at h
  tauto

theorem prefix_split {p s : Str} (h : p <+: s) : s = p ++ s.drop p.length := by
  obtain ⟨t, rfl⟩ := h
  simp

mutual
theorem jsonVal_sound : ∀ (n : Nat) (s r : Str) (v : Json), jsonVal n s = .ok (v, r) →
    ∃ raw t, TextOf raw t ∧ v = asDicts raw ∧ s = t ++ r
  | 0, _, _, _, h => by rw [jsonVal] at h; cases h
  | n + 1, s, r, v, h => by
    unfold jsonVal at h
    split at h
    · cases h
    · rename_i c s'
      split at h
      · rename_i hc
        subst hc
        split at h
        · cases h
        · rename_i t r' hs
          cases h
          obtain ⟨q, hq, rfl⟩ := scanString_sound _ _ _ _ hs
          exact ⟨.str t, '"' :: (q ++ ['"']), ⟨q, hq, rfl⟩, rfl, by simp⟩
      · split at h
        · rename_i hc
          subst hc
          obtain ⟨w, hw, hws⟩ := skipWs_split s'
          split at h
          · rename_i hh
            cases h
            have hs : skipWs s' = '}' :: (skipWs s').tail := by
              cases hk : skipWs s' with
              | nil => rw [hk] at hh; cases hh
              | cons d k => rw [hk] at hh; have : d = '}' := by simpa using hh
                            rw [this]; rfl
            refine ⟨.obj [], '{' :: (w ++ ['}']), ⟨w, hw, rfl⟩, rfl, ?_⟩
            conv_lhs => rw [hws, hs]
            simp
          · split at h
            · cases h
            · rename_i kvs r' hm
              cases h
              obtain ⟨raws, b, hne, hb, rfl, rfl⟩ := jsonMembers_sound n _ _ _ hm
              exact ⟨.obj raws, '{' :: (b ++ ['}']), ⟨b, hb, rfl⟩, rfl, by simp⟩
        · split at h
          · rename_i hc
            subst hc
            obtain ⟨w, hw, hws⟩ := skipWs_split s'
            split at h
            · rename_i hh
              cases h
              have hs : skipWs s' = ']' :: (skipWs s').tail := by
                cases hk : skipWs s' with
                | nil => rw [hk] at hh; cases hh
                | cons d k => rw [hk] at hh; have : d = ']' := by simpa using hh
                              rw [this]; rfl
              refine ⟨.arr [], '[' :: (w ++ [']']), ⟨w, hw, rfl⟩, rfl, ?_⟩
              conv_lhs => rw [hws, hs]
              simp
            · split at h
              · cases h
              · rename_i vs r' hm
                cases h
                obtain ⟨raws, b, hne, hb, rfl, rfl⟩ := jsonElems_sound n _ _ _ hm
                exact ⟨.arr raws, '[' :: (b ++ [']']), ⟨b, hb, rfl⟩, rfl, by simp⟩
          · split at h
            · rename_i hp
              cases h
              exact ⟨.null, _, rfl, rfl, prefix_split hp⟩
            · split at h
              · rename_i hp
                cases h
                exact ⟨.bool true, _, rfl, rfl, prefix_split hp⟩
              · split at h
                · rename_i hp
                  cases h
                  exact ⟨.bool false, _, rfl, rfl, prefix_split hp⟩
                · split at h
                  · cases h
                  · obtain ⟨i, t, rfl, ht, hs⟩ := jsonNumber_sound h
                    exact ⟨.int i, t, ht, rfl, hs⟩
termination_by n => n
theorem jsonElems_sound : ∀ (n : Nat) (s r : Str) (vs : List Json), jsonElems n s = .ok (vs, r) →
    ∃ raws b, raws ≠ [] ∧ ElemsText raws b ∧ vs = asDictsArr raws ∧ s = b ++ ']' :: r
  | 0, _, _, _, h => by rw [jsonElems] at h; cases h
  | n + 1, s, r, vs, h => by
    unfold jsonElems at h
    split at h
    · cases h
    · rename_i v r' hv
      obtain ⟨raw, t, ht, rfl, hs⟩ := jsonVal_sound n _ _ _ hv
      obtain ⟨w, hw, hws⟩ := skipWs_split s
      obtain ⟨w2, hw2, hws2⟩ := skipWs_split r'
      split at h
      · cases h
      · rename_i c r'' hc
        rw [hc] at hws2
        split at h
        · rename_i hb
          subst hb
          cases h
          refine ⟨[raw], w ++ t ++ w2, by simp, ⟨w, t, w2, hw, ht, hw2, rfl⟩, rfl, ?_⟩
          rw [hws, hs, hws2]
          simp
        · split at h
          · rename_i hb
            subst hb
            split at h
            · cases h
            · rename_i vs' r3 he
              cases h
              obtain ⟨raws, b, hne, hb, rfl, rfl⟩ := jsonElems_sound n _ _ _ he
              cases raws with
              | nil => exact absurd rfl hne
              | cons y l =>
                refine ⟨raw :: y :: l, w ++ t ++ w2 ++ ',' :: b, by simp, ⟨w, t, w2, b, hw, ht, hw2, hb, rfl⟩, rfl, ?_⟩
                rw [hws, hs, hws2]
                simp
          · cases h
termination_by n => n
theorem jsonMembers_sound : ∀ (n : Nat) (s r : Str) (kvs : List (Str × Json)), jsonMembers n s = .ok (kvs, r) →
    ∃ raws b, raws ≠ [] ∧ MembersText raws b ∧ kvs = asDictsObj raws ∧ s = b ++ '}' :: r
  | 0, _, _, _, h => by rw [jsonMembers] at h; cases h
  | n + 1, s, r, kvs, h => by
    unfold jsonMembers at h
    obtain ⟨w, hw, hws⟩ := skipWs_split s
    split at h
    · cases h
    · rename_i q s1 hq
      rw [hq] at hws
      split at h
      · rename_i hb
        subst hb
        split at h
        · cases h
        · rename_i k s2 hk
          obtain ⟨qt, hqt, rfl⟩ := scanString_sound _ _ _ _ hk
          obtain ⟨w2, hw2, hws2⟩ := skipWs_split s2
          split at h
          · cases h
          · rename_i q2 s3 hq2
            rw [hq2] at hws2
            split at h
            · rename_i hb
              subst hb
              obtain ⟨w3, hw3, hws3⟩ := skipWs_split s3
              split at h
              · cases h
              · rename_i v r' hv
                obtain ⟨raw, t, ht, rfl, hs⟩ := jsonVal_sound n _ _ _ hv
                obtain ⟨w4, hw4, hws4⟩ := skipWs_split r'
                split at h
                · cases h
                · rename_i c r'' hc
                  rw [hc] at hws4
                  split at h
                  · rename_i hb
                    subst hb
                    cases h
                    refine ⟨[(k, raw)], _, by simp, ⟨w, qt, w2, w3, t, w4, hw, hqt, hw2, hw3, ht, hw4, rfl⟩, rfl, ?_⟩
                    rw [hws, hws2, hws3, hs, hws4]
                    simp
                  · split at h
                    · rename_i hb
                      subst hb
                      split at h
                      · cases h
                      · rename_i vs' r3 he
                        cases h
                        obtain ⟨raws, b, hne, hb, rfl, rfl⟩ := jsonMembers_sound n _ _ _ he
                        cases raws with
                        | nil => exact absurd rfl hne
                        | cons y l =>
                          refine ⟨(k, raw) :: y :: l, _, by simp, ⟨w, qt, w2, w3, t, w4, b, hw, hqt, hw2, hw3, ht, hw4, hb, rfl⟩, rfl, ?_⟩
                          rw [hws, hws2, hws3, hs, hws4]
                          simp
                    · cases h
            · cases h
      · cases h
termination_by n => n
end

/-- `json.loads` accepts exactly the JSON texts without floats -/
theorem jsonLoads_iff (s : Str) (v : Json) : jsonLoads s = .ok v ↔
    ∃ raw a t b, Blank a ∧ TextOf raw t ∧ Blank b ∧ s = a ++ t ++ b ∧ v = asDicts raw := by
  constructor
  · intro h
    unfold jsonLoads at h
    split at h
    · cases h
    · split at h
      · cases h
      · rename_i v' r hv
        split at h
        · rename_i hr
          cases h
          obtain ⟨raw, t, ht, rfl, hs⟩ := jsonVal_sound _ _ _ _ hv
          obtain ⟨w, hw, hws⟩ := skipWs_split s
          obtain ⟨w2, hw2, hws2⟩ := skipWs_split r
          rw [hr, List.append_nil] at hws2
          subst hws2
          refine ⟨raw, w, t, r, hw, ht, hw2, ?_, rfl⟩
          rw [hws, hs]
          simp
        · cases h
  · rintro ⟨raw, a, t, b, ha, ht, hb, rfl, rfl⟩
    exact jsonLoads_raw ha hb ht

/-! ### the recursion bounds are never reached -/

theorem skipWs_length (s : Str) : (skipWs s).length ≤ s.length := by
  obtain ⟨w, _, h⟩ := skipWs_split s
  have := congrArg List.length h
  rw [List.length_append] at this
  omega

theorem scanStep_nofuel (s : Str) : scanStep s ≠ .error .fuel := by
  intro h
  unfold scanStep uniEsc lowHalf at h
  repeat' split at h
  all_goals cases h

theorem scanString_nofuel : ∀ (n : Nat) (s : Str), s.length < n → scanString n s ≠ .error .fuel := by
  intro n
  induction n with
  | zero => intro s h; omega
  | succ n ih =>
    intro s hn h
    unfold scanString at h
    split at h
    · rename_i e he
      cases h
      exact scanStep_nofuel s he
    · cases h
    · rename_i c r hs
      obtain ⟨a, ha, rfl⟩ := scanStep_sound hs
      have := charText_ne ha
      rw [List.length_append] at hn
      split at h
      · rename_i e he
        cases h
        exact ih r (by omega) he
      · cases h

theorem jsonNumber_nofuel (s : Str) : jsonNumber s ≠ .error .fuel := by
  intro h
  unfold jsonNumber at h
  simp only at h
  split at h
  · cases h
  · split at h <;> cases h

mutual
theorem jsonVal_nofuel : ∀ (n : Nat) (s : Str), 2 * s.length + 1 ≤ n → jsonVal n s ≠ .error .fuel
  | 0, _, hn, h => by omega
  | n + 1, s, hn, h => by
    unfold jsonVal at h
    split at h
    · cases h
    · rename_i c s'
      rw [List.length_cons] at hn
      split at h
      · split at h
        · rename_i e he
          cases h
          exact scanString_nofuel _ _ (Nat.lt_succ_self _) he
        · cases h
      · split at h
        · split at h
          · cases h
          · split at h
            · rename_i e he
              cases h
              exact jsonMembers_nofuel n s' (by omega) he
            · cases h
        · split at h
          · split at h
            · cases h
            · split at h
              · rename_i e he
                cases h
                exact jsonElems_nofuel n s' (by omega) he
              · cases h
          · repeat' split at h
            all_goals first
              | (cases h; done)
              | exact jsonNumber_nofuel _ h
termination_by n => n
theorem jsonElems_nofuel : ∀ (n : Nat) (s : Str), 2 * s.length + 2 ≤ n → jsonElems n s ≠ .error .fuel
  | 0, _, hn, h => by omega
  | n + 1, s, hn, h => by
    have hl := skipWs_length s
    unfold jsonElems at h
    split at h
    · rename_i e he
      cases h
      exact jsonVal_nofuel n _ (by omega) he
    · rename_i v r hv
      obtain ⟨raw, t, ht, _, hs⟩ := jsonVal_sound n _ _ _ hv
      have h1 := congrArg List.length hs
      rw [List.length_append] at h1
      have h2 := skipWs_length r
      split at h
      · cases h
      · rename_i c r' hc
        rw [hc, List.length_cons] at h2
        split at h
        · cases h
        · split at h
          · split at h
            · rename_i e he
              cases h
              exact jsonElems_nofuel n r' (by omega) he
            · cases h
          · cases h
termination_by n => n
theorem jsonMembers_nofuel : ∀ (n : Nat) (s : Str), 2 * s.length + 2 ≤ n → jsonMembers n s ≠ .error .fuel
  | 0, _, hn, h => by omega
  | n + 1, s, hn, h => by
    have hl := skipWs_length s
    unfold jsonMembers at h
    split at h
    · cases h
    · rename_i q s1 hq
      rw [hq, List.length_cons] at hl
      split at h
      · split at h
        · rename_i e he
          cases h
          exact scanString_nofuel _ _ (Nat.lt_succ_self _) he
        · rename_i k s2 hk
          obtain ⟨qt, _, hs1⟩ := scanString_sound _ _ _ _ hk
          have h1 := congrArg List.length hs1
          rw [List.length_append, List.length_cons] at h1
          have h2 := skipWs_length s2
          split at h
          · cases h
          · rename_i q2 s3 hq2
            rw [hq2, List.length_cons] at h2
            have h3 := skipWs_length s3
            split at h
            · split at h
              · rename_i e he
                cases h
                exact jsonVal_nofuel n _ (by omega) he
              · rename_i v r hv
                obtain ⟨raw, t, ht, _, hs⟩ := jsonVal_sound n _ _ _ hv
                have h4 := congrArg List.length hs
                rw [List.length_append] at h4
                have h5 := skipWs_length r
                split at h
                · cases h
                · rename_i c r' hc
                  rw [hc, List.length_cons] at h5
                  split at h
                  · cases h
                  · split at h
                    · split at h
                      · rename_i e he
                        cases h
                        exact jsonMembers_nofuel n r' (by omega) he
                      · cases h
                    · cases h
            · cases h
      · cases h
termination_by n => n
end

theorem jsonLoads_nofuel (s : Str) : jsonLoads s ≠ .error .fuel := by
  intro h
  unfold jsonLoads at h
  split at h
  · cases h
  · split at h
    · rename_i e he
      cases h
      have := skipWs_length s
      exact jsonVal_nofuel _ _ (by omega) he
    · split at h <;> cases h

/-! ### floats -/

theorem intText_jsonNat {i : Int} {s : Str} (h : IntText i s) (r : Str) (hr : ∀ c t, r = c :: t → isAsciiDigit c = false) :
    ∃ d, jsonNat (if (s ++ r).head? = some '-' then (s ++ r).tail else s ++ r) = some (d, r) := by
  have nat : ∀ n, jsonNat (natStr n ++ r) = some (natStr n, r) := by
    intro n
    unfold jsonNat
    have hstop : r.takeWhile isAsciiDigit = [] ∧ r.dropWhile isAsciiDigit = r := by
      cases r with
      | nil => exact ⟨rfl, rfl⟩
      | cons c t =>
        have := hr c t rfl
        exact ⟨List.takeWhile_cons_of_neg (by simp [this]), List.dropWhile_cons_of_neg (by simp [this])⟩
    have hd := natStr_numCh n
    cases hs : natStr n with
    | nil => exact absurd hs (natStr_ne n)
    | cons c t =>
      by_cases hc : c = '0'
      · subst hc
        obtain ⟨rfl, rfl⟩ := natStr_head n t hs
        rfl
      · rw [if_neg (by simpa using hc), ← hs, List.takeWhile_append_of_pos hd, hstop.1, List.append_nil,
          List.dropWhile_append_of_pos hd, hstop.2, if_neg (natStr_ne n)]
  rcases h with rfl | ⟨_, rfl⟩
  · cases i with
    | ofNat n =>
      have hne : ¬ ((intStr (.ofNat n) ++ r).head? = some '-') := by
        show ¬ (natStr n ++ r).head? = some '-'
        cases hs : natStr n with
        | nil => exact absurd hs (natStr_ne n)
        | cons c t =>
          intro h
          have : c = '-' := by simpa using h
          have := natStr_numCh n c (by rw [hs]; simp)
          subst c
          exact absurd this (by decide)
      rw [if_neg hne]
      exact ⟨_, nat n⟩
    | negSucc n =>
      have he : (intStr (.negSucc n) ++ r).head? = some '-' := rfl
      rw [if_pos he]
      exact ⟨_, nat (n + 1)⟩
  · exact ⟨_, rfl⟩

/-- the first two characters of an integer's text -/
theorem intText_head {i : Int} {s : Str} (h : IntText i s) : ∃ c t, s = c :: t ∧ (isAsciiDigit c = true ∨ (c = '-' ∧ ∃ d t', t = d :: t' ∧ isAsciiDigit d = true)) := by
  have nat : ∀ n, ∃ c t, natStr n = c :: t ∧ isAsciiDigit c = true := by
    intro n
    cases hs : natStr n with
    | nil => exact absurd hs (natStr_ne n)
    | cons c t => exact ⟨c, t, rfl, natStr_numCh n c (by rw [hs]; simp)⟩
  rcases h with rfl | ⟨_, rfl⟩
  · cases i with
    | ofNat n =>
      obtain ⟨c, t, h1, h2⟩ := nat n
      exact ⟨c, t, h1, .inl h2⟩
    | negSucc n =>
      obtain ⟨c, t, h1, h2⟩ := nat (n + 1)
      exact ⟨'-', natStr (n + 1), rfl, .inr ⟨rfl, c, t, h1, h2⟩⟩
  · exact ⟨_, _, rfl, .inr ⟨rfl, _, _, rfl, by decide⟩⟩

theorem jsonVal_number (n : Nat) {i : Int} {s : Str} (h : IntText i s) (r : Str) : jsonVal (n + 1) (s ++ r) = jsonNumber (s ++ r) := by
  obtain ⟨c, t, rfl, hc⟩ := intText_head h
  have hn : ∀ d : Char, isAsciiDigit d = false → d ≠ '-' → c ≠ d := by
    rintro d h1 h2 rfl
    rcases hc with hc | ⟨hc, _⟩
    · rw [h1] at hc; cases hc
    · exact h2 hc
  have hpre : ∀ (d : Char) (w : Str), isAsciiDigit d = false → d ≠ '-' → ¬ (d :: w) <+: (c :: (t ++ r)) := by
    rintro d w h1 h2 ⟨u, hu⟩
    exact hn d h1 h2 (List.cons.inj hu).1.symm
  show jsonVal (n + 1) (c :: (t ++ r)) = _
  unfold jsonVal
  simp only
  rw [if_neg (hn _ (by decide) (by decide)), if_neg (hn _ (by decide) (by decide)),
    if_neg (hn _ (by decide) (by decide)), if_neg (hpre _ _ (by decide) (by decide)),
    if_neg (hpre _ _ (by decide) (by decide)), if_neg (hpre _ _ (by decide) (by decide)), if_neg]
  · rfl
  · rintro (h | h | h)
    · exact hpre _ _ (by decide) (by decide) h
    · exact hpre _ _ (by decide) (by decide) h
    · obtain ⟨u, hu⟩ := h
      rcases hc with hc | ⟨_, d, t', rfl, hd⟩
      · have : '-' = c := (List.cons.inj hu).1
        subst this
        exact absurd hc (by decide)
      · have : 'I' = d := (List.cons.inj (List.cons.inj hu).2).1
        subst this
        exact absurd hd (by decide)

/-- a number with a fraction or an exponent is a Python float, which the model does not have -/
theorem jsonLoads_float {i : Int} {a s r : Str} (ha : Blank a) (h : IntText i s) (hr : floatTail r = true) :
    jsonLoads (a ++ s ++ r) = .error .other := by
  have hrd : ∀ c t, r = c :: t → isAsciiDigit c = false := by
    rintro c t rfl
    unfold floatTail at hr
    simp only at hr
    split at hr
    · rename_i h; subst h; decide
    · split at hr
      · rename_i h; rcases h with rfl | rfl <;> decide
      · cases hr
  unfold jsonLoads
  obtain ⟨c, t, hct, hw, _⟩ := textOf_head (j := .int i) h
  rw [if_neg]
  · have hk : skipWs (a ++ s ++ r) = s ++ r := by
      rw [List.append_assoc, skipWs_blank ha, hct]
      exact skipWs_cons hw _
    rw [hk, jsonVal_number _ h]
    obtain ⟨d, hd⟩ := intText_jsonNat h r hrd
    unfold jsonNumber
    simp only
    rw [hd]
    simp only
    rw [if_pos hr]
  · intro hf
    cases a with
    | cons x a =>
      have : x = Char.ofNat 0xfeff := by simpa using hf
      rcases ha x List.mem_cons_self with rfl | rfl | rfl | rfl <;> exact absurd this (by decide)
    | nil =>
      rw [hct] at hf
      have hc : c = Char.ofNat 0xfeff := by simpa using hf
      have := (intText_facts h).2 c (by rw [hct]; simp)
      rw [hc] at this
      exact absurd this (by decide)

end Verif
