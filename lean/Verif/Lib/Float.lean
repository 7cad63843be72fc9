/-
Doubles: `fround` gives the nearest double, the error is at most half a unit in the last of 53 digits.
-/
import Verif.Py.Float
import Mathlib.Algebra.Order.Field.Rat
import Mathlib.Algebra.Order.Field.Power
import Mathlib.Data.Rat.Cast.Order
import Mathlib.Tactic.Linarith
import Mathlib.Tactic.Positivity
import Mathlib.Tactic.FieldSimp
import Mathlib.Tactic.Ring
import Mathlib.Tactic.NormNum
import Mathlib.Tactic.GCongr

namespace Verif

theorem pow2_eq (e : Int) : pow2 e = (2 : ℚ) ^ e := by
  unfold pow2
  split
  · rename_i h
    obtain ⟨n, rfl⟩ := Int.eq_ofNat_of_zero_le h
    simp
  · rename_i h
    obtain ⟨n, hn⟩ := Int.eq_ofNat_of_zero_le (show 0 ≤ -e by omega)
    obtain rfl : e = -(n : Int) := by omega
    simp

theorem pow2_pos (e : Int) : 0 < pow2 e := by rw [pow2_eq]; positivity

/-- rounding to a natural number is off by at most one half, and no integer is nearer -/
theorem roundHalfEven_near (n d : Nat) (hd : 0 < d) :
    |((roundHalfEven n d : Nat) : ℚ) - (n : ℚ) / d| ≤ 1 / 2 ∧
    ∀ j : Int, |((roundHalfEven n d : Nat) : ℚ) - (n : ℚ) / d| ≤ |(j : ℚ) - (n : ℚ) / d| := by
  have hd' : (0 : ℚ) < d := by exact_mod_cast hd
  have hdm : (d : ℚ) * ((n / d : Nat) : ℚ) + ((n % d : Nat) : ℚ) = n := by exact_mod_cast Nat.div_add_mod n d
  have hlt : ((n % d : Nat) : ℚ) < d := by exact_mod_cast Nat.mod_lt n hd
  have hge : (0 : ℚ) ≤ ((n % d : Nat) : ℚ) := by positivity
  generalize hq : n / d = q at *
  generalize hr : n % d = r at *
  have hv : (n : ℚ) / d = q + (r : ℚ) / d := by
    rw [← hdm]; field_simp
  have h0 : (0 : ℚ) ≤ (r : ℚ) / d := by positivity
  have h1 : (r : ℚ) / d < 1 := by rw [div_lt_one hd']; exact hlt
  have key : ((roundHalfEven n d : Nat) : ℚ) = q ∧ (r : ℚ) / d ≤ 1 / 2 ∨ ((roundHalfEven n d : Nat) : ℚ) = q + 1 ∧ 1 / 2 ≤ (r : ℚ) / d := by
    have low : 2 * r ≤ d → (r : ℚ) / d ≤ 1 / 2 := by
      intro h
      rw [div_le_iff₀ hd']
      have : (2 : ℚ) * r ≤ d := by exact_mod_cast h
      linarith
    have high : d ≤ 2 * r → 1 / 2 ≤ (r : ℚ) / d := by
      intro h
      rw [le_div_iff₀ hd']
      have : (d : ℚ) ≤ 2 * r := by exact_mod_cast h
      linarith
    unfold roundHalfEven
    rw [hq, hr]
    split
    · exact .inl ⟨rfl, low (by omega)⟩
    · split
      · exact .inr ⟨by push_cast; ring, high (by omega)⟩
      · split
        · exact .inl ⟨rfl, low (by omega)⟩
        · exact .inr ⟨by push_cast; ring, high (by omega)⟩
  rw [hv]
  generalize (r : ℚ) / d = t at *
  have far : ∀ j : Int, t ≤ |(j : ℚ) - (q + t)| ∨ 1 - t ≤ |(j : ℚ) - (q + t)| := by
    intro j
    rcases le_or_gt j (q : Int) with h | h
    · left
      have : (j : ℚ) ≤ q := by exact_mod_cast h
      rw [abs_of_nonpos (by linarith)]; linarith
    · right
      have : (q : ℚ) + 1 ≤ j := by exact_mod_cast h
      rw [abs_of_nonneg (by linarith)]; linarith
  rcases key with ⟨hm, ht⟩ | ⟨hm, ht⟩ <;> rw [hm]
  · have e : |(q : ℚ) - (q + t)| = t := by rw [abs_of_nonpos (by linarith)]; ring
    rw [e]
    refine ⟨ht, fun j => ?_⟩
    rcases far j with h | h <;> linarith
  · have e : |(q : ℚ) + 1 - (q + t)| = 1 - t := by rw [abs_of_nonneg (by linarith)]; ring
    rw [e]
    refine ⟨by linarith, fun j => ?_⟩
    rcases far j with h | h <;> linarith

theorem scaleDown_eq (n d : Nat) (hd : 0 < d) (e : Int) :
    0 < (scaleDown n d e).2 ∧ ((scaleDown n d e).1 : ℚ) / (scaleDown n d e).2 = (n : ℚ) / d / pow2 e := by
  unfold scaleDown
  have hd' : (d : ℚ) ≠ 0 := by exact_mod_cast hd.ne'
  split
  · rename_i h
    refine ⟨by positivity, ?_⟩
    unfold pow2
    rw [if_pos h]
    push_cast
    rw [div_div]
  · rename_i h
    refine ⟨hd, ?_⟩
    unfold pow2
    rw [if_neg h]
    push_cast
    field_simp

theorem log2_bounds (n : Nat) (h : 0 < n) : (2 : ℚ) ^ n.log2 ≤ n ∧ (n : ℚ) < 2 ^ (n.log2 + 1) := by
  constructor
  · exact_mod_cast Nat.log2_self_le (by omega)
  · exact_mod_cast Nat.lt_log2_self (n := n)

/-- where the last digit is -/
theorem lastDigit_spec (n d : Nat) (hn : 0 < n) (hd : 0 < d) :
    -1074 ≤ lastDigit n d ∧ (n : ℚ) / d < 2 ^ 53 * pow2 (lastDigit n d) ∧
    (lastDigit n d = -1074 ∨ 2 ^ 52 * pow2 (lastDigit n d) ≤ (n : ℚ) / d) := by
  obtain ⟨n1, n2⟩ := log2_bounds n hn
  obtain ⟨d1, d2⟩ := log2_bounds d hd
  have hd' : (0 : ℚ) < d := by exact_mod_cast hd
  have hn' : (0 : ℚ) < n := by exact_mod_cast hn
  generalize he : (n.log2 : Int) - (d.log2 : Int) - 52 = e
  have hv : (n : ℚ) / d < 2 ^ (53 : ℕ) * pow2 e := by
    rw [pow2_eq, div_lt_iff₀ hd', ← he]
    have : (2 : ℚ) ^ 53 * 2 ^ ((n.log2 : Int) - (d.log2 : Int) - 52) * d = 2 ^ (n.log2 + 1) * (d / 2 ^ d.log2) := by
      rw [zpow_sub₀ (by norm_num), zpow_sub₀ (by norm_num)]
      simp only [zpow_natCast]
      rw [show (2 : ℚ) ^ (52 : ℤ) = 2 ^ (52 : ℕ) by norm_cast]
      field_simp
      ring
    rw [this]
    have h1 : (1 : ℚ) ≤ d / 2 ^ d.log2 := by rw [le_div_iff₀ (by positivity)]; linarith
    calc (n : ℚ) < 2 ^ (n.log2 + 1) * 1 := by linarith
      _ ≤ _ := by gcongr
  have hv2 : 2 ^ (51 : ℕ) * pow2 e ≤ (n : ℚ) / d := by
    rw [pow2_eq, le_div_iff₀ hd', ← he]
    have : (2 : ℚ) ^ 51 * 2 ^ ((n.log2 : Int) - (d.log2 : Int) - 52) * d = 2 ^ n.log2 * (d / 2 ^ (d.log2 + 1)) := by
      rw [zpow_sub₀ (by norm_num), zpow_sub₀ (by norm_num)]
      simp only [zpow_natCast]
      rw [show (2 : ℚ) ^ (52 : ℤ) = 2 ^ (52 : ℕ) by norm_cast]
      field_simp
      ring
    rw [this]
    have h1 : d / 2 ^ (d.log2 + 1) ≤ (1 : ℚ) := by rw [div_le_iff₀ (by positivity)]; linarith
    calc _ ≤ (2 : ℚ) ^ n.log2 * 1 := by gcongr
      _ ≤ n := by linarith
  have hhalf : pow2 (e - 1) = pow2 e / 2 := by
    rw [pow2_eq, pow2_eq, zpow_sub₀ (by norm_num)]; simp
  obtain ⟨s1, s2⟩ := scaleDown_eq n d hd e
  -- the exponent before it is cut off
  have pre : (n : ℚ) / d < 2 ^ 53 * pow2 (if (scaleDown n d e).1 < 2 ^ 52 * (scaleDown n d e).2 then e - 1 else e) ∧
      2 ^ 52 * pow2 (if (scaleDown n d e).1 < 2 ^ 52 * (scaleDown n d e).2 then e - 1 else e) ≤ (n : ℚ) / d := by
    have hp := pow2_pos e
    have s1' : (0 : ℚ) < ((scaleDown n d e).2 : ℚ) := by exact_mod_cast s1
    rw [eq_div_iff hp.ne'] at s2
    split
    · rename_i h
      have h' : ((scaleDown n d e).1 : ℚ) < 2 ^ 52 * (scaleDown n d e).2 := by exact_mod_cast h
      rw [hhalf]
      constructor
      · have : ((scaleDown n d e).1 : ℚ) / (scaleDown n d e).2 < 2 ^ 52 := by rw [div_lt_iff₀ s1']; exact h'
        rw [← s2]
        nlinarith
      · linarith
    · rename_i h
      have h' : (2 : ℚ) ^ 52 * (scaleDown n d e).2 ≤ ((scaleDown n d e).1 : ℚ) := by exact_mod_cast not_lt.1 h
      refine ⟨hv, ?_⟩
      have : (2 : ℚ) ^ 52 ≤ ((scaleDown n d e).1 : ℚ) / (scaleDown n d e).2 := by rw [le_div_iff₀ s1']; exact h'
      rw [← s2]
      gcongr
  have hdef : lastDigit n d = max (if (scaleDown n d e).1 < 2 ^ 52 * (scaleDown n d e).2 then e - 1 else e) (-1074) := by
    unfold lastDigit; rw [he]
  generalize (if (scaleDown n d e).1 < 2 ^ 52 * (scaleDown n d e).2 then e - 1 else e) = f at *
  rw [hdef]
  rcases le_total f (-1074) with h | h
  · rw [max_eq_right h]
    refine ⟨le_refl _, ?_, .inl rfl⟩
    refine lt_of_lt_of_le pre.1 ?_
    have : pow2 f ≤ pow2 (-1074) := by rw [pow2_eq, pow2_eq]; gcongr; norm_num
    linarith
  · rw [max_eq_left h]
    exact ⟨h, pre.1, .inr pre.2⟩

/-- The finite doubles, without the limit on their size: a whole number of at most 53 binary digits times a power of two
not below `2 ^ -1074`. -/
def IsDouble (x : Rat) : Prop := ∃ (k e : Int), |k| ≤ 2 ^ 53 ∧ -1074 ≤ e ∧ x = (k : ℚ) * (2 : ℚ) ^ e

/-- rounding a positive number: the result is a double, no double is nearer, and the error is at most half a unit of the
last digit -/
theorem roundPos_spec (n d : Nat) (hn : 0 < n) (hd : 0 < d) :
    IsDouble (roundPos n d) ∧ 0 ≤ roundPos n d ∧ (∀ y, IsDouble y → |roundPos n d - (n : ℚ) / d| ≤ |y - (n : ℚ) / d|) ∧
    |roundPos n d - (n : ℚ) / d| ≤ pow2 (lastDigit n d) / 2 := by
  obtain ⟨l1, l2, l3⟩ := lastDigit_spec n d hn hd
  generalize hE : lastDigit n d = e at *
  obtain ⟨s1, s2⟩ := scaleDown_eq n d hd e
  obtain ⟨r1, r2⟩ := roundHalfEven_near (scaleDown n d e).1 (scaleDown n d e).2 s1
  have hp := pow2_pos e
  have hdef : roundPos n d = (roundHalfEven (scaleDown n d e).1 (scaleDown n d e).2 : ℚ) * pow2 e := by
    unfold roundPos; rw [hE]
  rw [s2] at r1 r2
  generalize roundHalfEven (scaleDown n d e).1 (scaleDown n d e).2 = m at *
  have hvm : (n : ℚ) / d = (n : ℚ) / d / pow2 e * pow2 e := by field_simp
  have hv0 : (0 : ℚ) ≤ (n : ℚ) / d := by positivity
  generalize hvv : (n : ℚ) / d = v at *
  generalize hw : v / pow2 e = w at *
  have hdist : |roundPos n d - v| = |(m : ℚ) - w| * pow2 e := by
    rw [hdef, hvm, ← sub_mul, abs_mul, abs_of_pos hp]
  refine ⟨?_, ?_, ?_, ?_⟩
  · refine ⟨m, e, ?_, l1, by rw [hdef, pow2_eq]; norm_cast⟩
    have hw2 : w < 2 ^ 53 := by rw [hvm] at l2; exact lt_of_mul_lt_mul_right l2 hp.le
    have h53 := r2 ((2 ^ 53 : Nat) : Int)
    rw [show ((((2 ^ 53 : Nat) : Int)) : ℚ) = 2 ^ 53 by norm_num] at h53
    rw [abs_of_nonneg (show (0 : ℚ) ≤ 2 ^ 53 - w by linarith)] at h53
    have : (m : ℚ) ≤ 2 ^ 53 := by
      have := le_abs_self ((m : ℚ) - w)
      linarith
    rw [abs_of_nonneg (by positivity)]
    exact_mod_cast this
  · rw [hdef]; positivity
  · rintro y ⟨k, f, hk, hf, rfl⟩
    rw [hdist]
    rcases le_or_gt e f with hef | hef
    · -- a multiple of the last digit
      obtain ⟨g, hg⟩ := Int.eq_ofNat_of_zero_le (show 0 ≤ f - e by omega)
      have := r2 (k * 2 ^ g)
      have hy : (k : ℚ) * (2 : ℚ) ^ f = ((k * 2 ^ g : Int) : ℚ) * pow2 e := by
        rw [pow2_eq, show f = (g : Int) + e by omega, zpow_add₀ (by norm_num)]
        push_cast
        rw [zpow_natCast]
        ring
      rw [hy]
      calc |(m : ℚ) - w| * pow2 e ≤ |((k * 2 ^ g : Int) : ℚ) - w| * pow2 e := by gcongr
        _ = |((k * 2 ^ g : Int) : ℚ) * pow2 e - v| := by
          rw [hvm, ← sub_mul, abs_mul, abs_of_pos hp]
    · -- finer than the last digit: then it is smaller
      have hl : 2 ^ 52 * pow2 e ≤ v := by
        rcases l3 with h | h
        · omega
        · exact h
      have hy : (k : ℚ) * (2 : ℚ) ^ f ≤ 2 ^ 52 * pow2 e := by
        have h1 : (k : ℚ) ≤ 2 ^ 53 := by
          have : k ≤ 2 ^ 53 := le_trans (le_abs_self k) hk
          exact_mod_cast this
        have h2 : (2 : ℚ) ^ f ≤ pow2 e / 2 := by
          rw [pow2_eq, show (2 : ℚ) ^ e / 2 = 2 ^ (e - 1) by rw [zpow_sub₀ (by norm_num)]; simp]
          gcongr
          · norm_num
          · omega
        have h3 : (0 : ℚ) < (2 : ℚ) ^ f := by positivity
        calc (k : ℚ) * (2 : ℚ) ^ f ≤ 2 ^ 53 * (2 : ℚ) ^ f := by gcongr
          _ ≤ 2 ^ 53 * (pow2 e / 2) := by gcongr
          _ = 2 ^ 52 * pow2 e := by ring
      have h52 := r2 ((2 ^ 52 : Nat) : Int)
      rw [show ((((2 ^ 52 : Nat) : Int)) : ℚ) = 2 ^ 52 by norm_num] at h52
      have hw52 : (2 : ℚ) ^ 52 ≤ w := by
        rw [hvm] at hl
        exact le_of_mul_le_mul_right hl hp
      rw [abs_of_nonpos (show (2 : ℚ) ^ 52 - w ≤ 0 by linarith)] at h52
      rw [abs_of_nonpos (show (k : ℚ) * (2 : ℚ) ^ f - v ≤ 0 by linarith)]
      calc |(m : ℚ) - w| * pow2 e ≤ -(2 ^ 52 - w) * pow2 e := by gcongr
        _ = v - 2 ^ 52 * pow2 e := by rw [hvm]; ring
        _ ≤ _ := by linarith
  · rw [hdist]
    calc |(m : ℚ) - w| * pow2 e ≤ 1 / 2 * pow2 e := by gcongr
      _ = _ := by ring

theorem roundPos_zero (d : Nat) : roundPos 0 d = 0 := by
  unfold roundPos
  have : (scaleDown 0 d (lastDigit 0 d)).1 = 0 := by
    unfold scaleDown; split <;> simp
  simp only [this]
  have : ∀ k, roundHalfEven 0 k = 0 := by
    intro k; unfold roundHalfEven; cases k <;> simp
  rw [this]; simp

theorem fround_zero : fround 0 = 0 := by
  unfold fround
  rw [if_neg (by simp)]
  exact roundPos_zero _

/-- a positive number as numerator over denominator -/
theorem fround_pos {q : Rat} (h : 0 < q) : fround q = roundPos q.num.natAbs q.den ∧ 0 < q.num.natAbs ∧
    ((q.num.natAbs : Nat) : ℚ) / q.den = q := by
  have hn : 0 < q.num := Rat.num_pos.2 h
  refine ⟨?_, by omega, ?_⟩
  · unfold fround; rw [if_neg (by omega)]
  · rw [show ((q.num.natAbs : Nat) : ℚ) = (q.num : ℚ) by
      rw [← Int.cast_natCast, Int.natAbs_of_nonneg hn.le]]
    exact Rat.num_div_den q

theorem fround_neg (q : Rat) : fround (-q) = -fround q := by
  unfold fround
  rcases lt_trichotomy q.num 0 with h | h | h
  · rw [if_pos h, Rat.num_neg_eq_neg_num, if_neg (by omega), Rat.den_neg_eq_den, Int.natAbs_neg, neg_neg]
  · rw [Rat.num_neg_eq_neg_num, h]
    simp [roundPos_zero]
  · rw [Rat.num_neg_eq_neg_num, if_pos (by omega), if_neg (by omega), Rat.den_neg_eq_den, Int.natAbs_neg]

theorem IsDouble.neg {x : Rat} (h : IsDouble x) : IsDouble (-x) := by
  obtain ⟨k, e, h1, h2, rfl⟩ := h
  exact ⟨-k, e, by rwa [abs_neg], h2, by push_cast; ring⟩

theorem isDouble_zero : IsDouble 0 := ⟨0, 0, by norm_num, by norm_num, by norm_num⟩

/-- Rounding gives a double, and no double is nearer. -/
theorem fround_nearest (q : Rat) : IsDouble (fround q) ∧ ∀ y, IsDouble y → |fround q - q| ≤ |y - q| := by
  have pos : ∀ q : Rat, 0 < q → IsDouble (fround q) ∧ ∀ y, IsDouble y → |fround q - q| ≤ |y - q| := by
    intro q h
    obtain ⟨f1, f2, f3⟩ := fround_pos h
    obtain ⟨r1, _, r2, _⟩ := roundPos_spec _ _ f2 q.den_pos
    rw [f3] at r2
    rw [f1]
    exact ⟨r1, r2⟩
  rcases lt_trichotomy q 0 with h | h | h
  · obtain ⟨h1, h2⟩ := pos (-q) (by linarith)
    rw [fround_neg] at h1 h2
    refine ⟨by simpa using h1.neg, fun y hy => ?_⟩
    have := h2 (-y) hy.neg
    rw [show -fround q - -q = -(fround q - q) by ring, show -y - -q = -(y - q) by ring, abs_neg, abs_neg] at this
    exact this
  · subst h
    rw [fround_zero]
    exact ⟨isDouble_zero, fun y _ => by simp⟩
  · exact pos q h

/-- doubles are rounded to themselves -/
theorem fround_exact {q : Rat} (h : IsDouble q) : fround q = q := by
  have := (fround_nearest q).2 q h
  rw [sub_self, abs_zero] at this
  have := abs_nonpos_iff.1 this
  linarith

/-- relative error of rounding: at most `2 ^ -53` from `2 ^ -1022` on -/
theorem fround_rel {q : Rat} (h : (2 : ℚ) ^ (-1022 : ℤ) ≤ q) : |fround q - q| ≤ q / 2 ^ 53 ∧ 0 ≤ fround q := by
  have h0 : 0 < q := lt_of_lt_of_le (by positivity) h
  obtain ⟨f1, f2, f3⟩ := fround_pos h0
  obtain ⟨_, l2, l3⟩ := lastDigit_spec _ _ f2 q.den_pos
  obtain ⟨_, r0, _, r4⟩ := roundPos_spec _ _ f2 q.den_pos
  rw [f3] at l2 l3 r4
  rw [f1]
  refine ⟨?_, r0⟩
  have hl : 2 ^ 52 * pow2 (lastDigit q.num.natAbs q.den) ≤ q := by
    rcases l3 with h' | h'
    · rw [h', pow2_eq]
      calc (2 : ℚ) ^ 52 * 2 ^ (-1074 : ℤ) = 2 ^ (-1022 : ℤ) := by
            rw [show (-1022 : ℤ) = 52 + (-1074) by norm_num, zpow_add₀ (by norm_num)]; norm_cast
        _ ≤ q := h
    · exact h'
  calc _ ≤ pow2 (lastDigit q.num.natAbs q.den) / 2 := r4
    _ = 2 ^ 52 * pow2 (lastDigit q.num.natAbs q.den) / 2 ^ 53 := by ring
    _ ≤ q / 2 ^ 53 := by gcongr

end Verif
