/-
C27: `scaled_scores`, with Python's floating-point numbers.
-/
import Verif.Lib.Float
import Verif.Props.Tally
import Verif.Props.ParsedTally
import Verif.Props.Irv
import Verif.Lib.ParsedRatings

set_option linter.unusedSectionVars false

namespace Verif.Props
open Verif Verif.Spec

/-! ### rounding, once -/

theorem pow2_add (a b : Int) : pow2 (a + b) = pow2 a * pow2 b := by
  rw [pow2_eq, pow2_eq, pow2_eq, zpow_add₀ (by norm_num)]

theorem pow2_mono {a b : Int} (h : a ≤ b) : pow2 a ≤ pow2 b := by
  rw [pow2_eq, pow2_eq]
  exact zpow_le_zpow_right₀ (by norm_num) h

attribute [local irreducible] pow2

/-- `x` is `q` up to a rounding error of one part in `2 ^ 53` -/
def RoundedOnce (x q : Rat) : Prop := |x - q| ≤ q / 2 ^ 53

theorem toDouble_ok {q : Rat} (h : q = 0 ∨ pow2 (-1022) ≤ q) (hb : q ≤ pow2 1010) :
    ∃ x, toDouble q = .ok x ∧ RoundedOnce x q ∧ 0 ≤ x ∧ (x = 0 ∨ pow2 (-1022) ≤ x) := by
  have hlim : pow2 1010 + pow2 1010 / 2 ^ 53 < pow2 1024 := by
    have : pow2 1024 = pow2 1010 * 2 ^ 14 := by
      rw [show (1024 : ℤ) = 1010 + 14 by norm_num, pow2_add, pow2_eq 14]
      norm_cast
    have := pow2_pos 1010
    linarith
  have hpos := pow2_pos 1024
  rcases h with rfl | h
  · refine ⟨0, ?_, by simp [RoundedOnce], le_refl _, .inl rfl⟩
    unfold toDouble
    rw [fround_zero]
    rw [if_pos ⟨by linarith, hpos⟩]
  · obtain ⟨h1, h2⟩ := fround_rel (q := q) (by rw [← pow2_eq]; exact h)
    have h3 : pow2 (-1022) ≤ fround q := by
      have hn := (fround_nearest q).2 (pow2 (-1022)) ⟨1, -1022, by norm_num, by norm_num, by rw [pow2_eq]; simp⟩
      rw [abs_of_nonpos (show pow2 (-1022) - q ≤ 0 by linarith)] at hn
      have := neg_le_abs (fround q - q)
      linarith
    refine ⟨fround q, ?_, h1, h2, .inr h3⟩
    unfold toDouble
    have hle := le_abs_self (fround q - q)
    have : q / 2 ^ 53 ≤ pow2 1010 / 2 ^ 53 := by gcongr
    rw [if_pos ⟨by linarith, by linarith⟩]

/-- three roundings: a score made a float, times a rounded scale factor -/
theorem three_roundings {s t y c p : ℚ} (hs : 0 ≤ s) (ht : 0 ≤ t) (hy : RoundedOnce y s) (hc : RoundedOnce c t)
    (hp : RoundedOnce p (y * c)) : |p - s * t| ≤ s * t / 2 ^ 51 := by
  unfold RoundedOnce at *
  rw [div_eq_mul_inv] at *
  have hu0 : (0 : ℚ) ≤ (2 ^ 53)⁻¹ := by positivity
  have hu1 : ((2 : ℚ) ^ 53)⁻¹ ≤ 1 / 8 := by norm_num
  rw [show ((2 : ℚ) ^ 51)⁻¹ = 4 * (2 ^ 53)⁻¹ by norm_num]
  generalize ((2 : ℚ) ^ 53)⁻¹ = u at *
  rw [abs_le] at *
  have hy0 : s * (1 - u) ≤ y := by linarith
  have hy1 : y ≤ s * (1 + u) := by linarith
  have hc0 : t * (1 - u) ≤ c := by linarith
  have hc1 : c ≤ t * (1 + u) := by linarith
  have h1u : (0 : ℚ) ≤ 1 - u := by linarith
  have hyn : 0 ≤ y := le_trans (mul_nonneg hs h1u) hy0
  have hcn : 0 ≤ c := le_trans (mul_nonneg ht h1u) hc0
  have up : y * c ≤ s * t * (1 + u) ^ 2 := by
    calc y * c ≤ (s * (1 + u)) * (t * (1 + u)) := by gcongr
      _ = _ := by ring
  have lo : s * t * (1 - u) ^ 2 ≤ y * c := by
    calc s * t * (1 - u) ^ 2 = (s * (1 - u)) * (t * (1 - u)) := by ring
      _ ≤ y * c := by gcongr
  have hst : 0 ≤ s * t := mul_nonneg hs ht
  constructor
  · have h1 : s * t * (1 - u) ^ 2 * (1 - u) ≤ y * c * (1 - u) := by gcongr
    have h2 : (1 : ℚ) - 4 * u ≤ (1 - u) ^ 2 * (1 - u) := by nlinarith [mul_nonneg hu0 hu0, mul_nonneg (mul_nonneg hu0 hu0) hu0]
    have h3 : s * t * (1 - 4 * u) ≤ s * t * ((1 - u) ^ 2 * (1 - u)) := by gcongr
    nlinarith
  · have h1 : y * c * (1 + u) ≤ s * t * (1 + u) ^ 2 * (1 + u) := by gcongr
    have h2 : (1 + u) ^ 2 * (1 + u) ≤ (1 : ℚ) + 4 * u := by nlinarith [mul_nonneg hu0 hu0, mul_nonneg (mul_nonneg hu0 hu0) hu0]
    have h3 : s * t * ((1 + u) ^ 2 * (1 + u)) ≤ s * t * (1 + 4 * u) := by gcongr
    nlinarith

/-- adding up floats -/
theorem sum_roundings (B : ℚ) (hBn : 0 ≤ B) (hB : B ≤ pow2 1010) (ps : List Rat) :
    ∀ (acc : Rat), (acc = 0 ∨ pow2 (-1022) ≤ acc) → (∀ p ∈ ps, p = 0 ∨ pow2 (-1022) ≤ p) →
      acc + ps.sum + ps.length * (B / 2 ^ 53) ≤ B →
      ∃ S, ps.foldlM addFloat acc = .ok S ∧ |S - (acc + ps.sum)| ≤ ps.length * (B / 2 ^ 53) := by
  have nn : ∀ q : Rat, (q = 0 ∨ pow2 (-1022) ≤ q) → 0 ≤ q := by
    rintro q (rfl | h)
    · exact le_refl _
    · exact le_trans (pow2_pos _).le h
  induction ps with
  | nil =>
    intro acc _ _ _
    exact ⟨acc, by rw [List.foldlM_nil]; rfl, by simp⟩
  | cons p ps ih =>
    intro acc ha hps hle
    have hp := hps p (by simp)
    have hsum : ∀ l : List Rat, (∀ p ∈ l, p = 0 ∨ pow2 (-1022) ≤ p) → 0 ≤ l.sum := by
      intro l
      induction l with
      | nil => intro _; simp
      | cons x l ih2 =>
        intro hl
        rw [List.sum_cons]
        exact add_nonneg (nn x (hl x (by simp))) (ih2 (fun y hy => hl y (by simp [hy])))
    have h0 := hsum ps (fun x hx => hps x (by simp [hx]))
    simp only [List.sum_cons, List.length_cons, Nat.cast_add, Nat.cast_one] at hle ⊢
    have hx : acc + p = 0 ∨ pow2 (-1022) ≤ acc + p := by
      rcases ha with rfl | ha
      · simpa using hp
      · right; linarith [nn p hp]
    have hlen : (0 : ℚ) ≤ ps.length * (B / 2 ^ 53) := by positivity
    have hu : (0 : ℚ) ≤ B / 2 ^ 53 := by positivity
    have hxB : acc + p ≤ B := by linarith
    obtain ⟨x, hx1, hx2, hx3, hx4⟩ := toDouble_ok hx (le_trans hxB hB)
    have hxu : |x - (acc + p)| ≤ B / 2 ^ 53 := by
      refine le_trans hx2 ?_
      gcongr
    have hxu' := abs_le.1 hxu
    obtain ⟨S, hS, hS2⟩ := ih x hx4 (fun y hy => hps y (by simp [hy])) (by linarith)
    refine ⟨S, ?_, ?_⟩
    · rw [List.foldlM_cons, show addFloat acc p = .ok x from hx1, ok_bind]
      exact hS
    · have := abs_le.1 hS2
      rw [abs_le]
      constructor <;> linarith

/-! ### C27 -/

variable [U : Uni]

/-- C27.  The scale factor is target over total, rounded once; each scaled score is score times target over total up to one
part in `2 ^ 51`; the scaled scores add up to the target up to `n + 2` parts in `2 ^ 52` (`n` candidates); the highest rating is
the one in the metadata, if there is one.  When all scores total zero the result is a `ZeroDivisionError`. -/
theorem C27_scaled (m : Jabmod) (h : Scorable m) (hr : AllRanked m)
    (hbc : m.metadata.get? c!"ballotcount" = some (.int (m.votelines.map Voteline.qty).sum))
    (h2 : 2 ≤ m.candidates.length) (target : Int) :
    ((m.candidates.keys.map (scoreOf m)).sum = 0 → scaledScores m target = .error .zeroDivision) ∧
    ((∀ c ∈ m.candidates.keys, 0 ≤ scoreOf m c) → 0 < (m.candidates.keys.map (scoreOf m)).sum →
      (m.candidates.keys.map (scoreOf m)).sum ≤ 2 ^ 1000 → 0 < target → target ≤ 2 ^ 1000 → m.candidates.length ≤ 2 ^ 50 →
      ∃ r, scaledScores m target = .ok r ∧ r.canddict.keys = m.candidates.keys ∧
        r.maxRating = (Dict.get? m.metadata c!"max_rating").getD .null ∧
        r.totalAllScores = (m.candidates.keys.map (scoreOf m)).sum ∧
        |r.scaleFactor - (target : ℚ) / ((m.candidates.keys.map (scoreOf m)).sum : ℚ)| ≤
          (target : ℚ) / ((m.candidates.keys.map (scoreOf m)).sum : ℚ) / 2 ^ 53 ∧
        (∀ c e, (c, e) ∈ r.canddict → e.score = scoreOf m c ∧ m.candidates.get? c = some e.candname ∧
          |e.scaledScore - (scoreOf m c : ℚ) * (target : ℚ) / ((m.candidates.keys.map (scoreOf m)).sum : ℚ)| ≤
            (scoreOf m c : ℚ) * (target : ℚ) / ((m.candidates.keys.map (scoreOf m)).sum : ℚ) / 2 ^ 51) ∧
        |r.scaledTotal - (target : ℚ)| ≤ (target : ℚ) * (m.candidates.length + 2) / 2 ^ 52) := by
  constructor
  · intro h0
    rw [scaledScores_eq m h hr hbc h2, h0]
    unfold trueDiv
    rw [if_pos rfl, error_bind]
  intro hnn hpos hmax ht0 ht1 hn
  rw [scaledScores_eq m h hr hbc h2]
  generalize hN : (m.candidates.keys.map (scoreOf m)).sum = N at *
  have k1000 : pow2 1000 = ((2 ^ 1000 : Int) : ℚ) := by
    rw [pow2_eq, show (1000 : ℤ) = ((1000 : ℕ) : ℤ) from rfl, zpow_natCast, Int.cast_pow, Int.cast_ofNat]
  have hNq : (0 : ℚ) < N := by exact_mod_cast hpos
  have hNmax : (N : ℚ) ≤ pow2 1000 := by rw [k1000]; exact_mod_cast hmax
  have hN1 : (1 : ℚ) ≤ N := by exact_mod_cast hpos
  have hTq : (1 : ℚ) ≤ target := by exact_mod_cast ht0
  have hTmax : (target : ℚ) ≤ pow2 1000 := by rw [k1000]; exact_mod_cast ht1
  have hp1000 := pow2_pos 1000
  have hsmall : pow2 (-1000) * pow2 1000 = 1 := by rw [← pow2_add, pow2_eq]; norm_num
  have hsmallpos := pow2_pos (-1000)
  have h1003 : pow2 (-1003) * 8 = pow2 (-1000) := by
    rw [show (-1000 : Int) = -1003 + 3 by norm_num, pow2_add, pow2_eq 3]; norm_num
  have h1022 : pow2 (-1022) ≤ pow2 (-1003) := pow2_mono (by norm_num)
  have h1010 : pow2 1010 = pow2 1000 * 2 ^ 10 := by
    rw [show (1010 : Int) = 1000 + 10 by norm_num, pow2_add, pow2_eq 10]; norm_num
  -- the scale factor
  have ht : pow2 (-1000) ≤ (target : ℚ) / N := by
    rw [le_div_iff₀ hNq]
    calc pow2 (-1000) * N ≤ pow2 (-1000) * pow2 1000 := by gcongr
      _ = 1 := hsmall
      _ ≤ _ := hTq
  have htle : (target : ℚ) / N ≤ target := by
    rw [div_le_iff₀ hNq]; nlinarith
  obtain ⟨scale, hs1, hs2, hs3, _⟩ := toDouble_ok (q := (target : ℚ) / N) (.inr (by linarith)) (by linarith)
  have hscale : trueDiv target N = .ok scale := by
    unfold trueDiv
    rw [if_neg (by omega)]
    exact hs1
  generalize htt : (target : ℚ) / N = t at *
  have ht00 : 0 < t := by linarith
  have hscale_lo : t / 2 ≤ scale := by
    have := (abs_le.1 hs2).1
    linarith
  have hscale_hi : scale ≤ 2 * t := by
    have := (abs_le.1 hs2).2
    linarith
  -- one candidate
  have hle : ∀ c ∈ m.candidates.keys, scoreOf m c ≤ N := by
    rw [← hN]
    revert hnn
    clear hN
    generalize m.candidates.keys = l
    induction l with
    | nil => intro _ c hc; cases hc
    | cons x l ih =>
      intro hl c hc
      have hx := hl x (by simp)
      have hsum : 0 ≤ (l.map (scoreOf m)).sum := by
        clear ih hc
        induction l with
        | nil => simp
        | cons y l ih2 =>
          rw [List.map_cons, List.sum_cons]
          have := hl y (by simp)
          have := ih2 (fun z hz => hl z (by
            rcases List.mem_cons.1 hz with rfl | hz
            · simp
            · simp [hz]))
          omega
      rw [List.map_cons, List.sum_cons]
      rcases List.mem_cons.1 hc with rfl | hc
      · omega
      · have := ih (fun z hz => hl z (by simp [hz])) c hc
        omega
  have hone : ∀ c ∈ m.candidates.keys, ∃ p, mulFloat (scoreOf m c) scale = .ok p ∧ (p = 0 ∨ pow2 (-1022) ≤ p) ∧
      |p - (scoreOf m c : ℚ) * t| ≤ (scoreOf m c : ℚ) * t / 2 ^ 51 := by
    intro c hc
    have h0 := hnn c hc
    have h1 := hle c hc
    have h0q : (0 : ℚ) ≤ scoreOf m c := by exact_mod_cast h0
    have h1q : (scoreOf m c : ℚ) ≤ N := by exact_mod_cast h1
    have hsN : (scoreOf m c : ℚ) * t ≤ target := by
      calc (scoreOf m c : ℚ) * t ≤ N * t := by gcongr
        _ = target := by rw [← htt]; field_simp
    have hcase : scoreOf m c = 0 ∨ (1 : ℚ) ≤ scoreOf m c := by
      rcases Int.lt_or_eq_of_le h0 with h | h
      · right; exact_mod_cast h
      · left; exact h.symm
    obtain ⟨y, y1, y2, y3, _⟩ := toDouble_ok (q := (scoreOf m c : ℚ))
      (by rcases hcase with h | h
          · left; exact_mod_cast h
          · right
            have : pow2 (-1000) ≤ 1 := by rw [pow2_eq]; exact zpow_le_one_of_nonpos₀ (by norm_num) (by norm_num)
            linarith) (by linarith)
    have hylo : (scoreOf m c : ℚ) / 2 ≤ y := by have := (abs_le.1 y2).1; linarith
    have hyhi : y ≤ 2 * (scoreOf m c : ℚ) := by have := (abs_le.1 y2).2; linarith
    have hprod_hi : y * scale ≤ pow2 1010 := by
      calc y * scale ≤ (2 * (scoreOf m c : ℚ)) * (2 * t) := by gcongr
        _ = 4 * ((scoreOf m c : ℚ) * t) := by ring
        _ ≤ pow2 1010 := by linarith
    obtain ⟨p, p1, p2, _, p4⟩ := toDouble_ok (q := y * scale)
      (by rcases hcase with h | h
          · left
            have h' : (scoreOf m c : ℚ) = 0 := by exact_mod_cast h
            have : y = 0 := by linarith
            rw [this, zero_mul]
          · right
            calc pow2 (-1022) ≤ pow2 (-1003) := h1022
              _ ≤ 1 / 2 * (t / 2) := by linarith
              _ ≤ y * scale := by
                have : (1 : ℚ) / 2 ≤ y := by linarith
                gcongr) hprod_hi
    refine ⟨p, ?_, p4, three_roundings h0q ht00.le y2 hs2 p2⟩
    unfold mulFloat
    rw [y1, ok_bind]
    exact p1
  -- all candidates
  have hall : ∀ l : List (Str × Option Str), (∀ kv ∈ l, kv ∈ m.candidates) → ∃ cd : List (Str × ScaledEntry),
      l.mapM (fun kv => (do
        let s ← mulFloat (scoreOf m kv.1) scale
        .ok (kv.1, ({ candname := kv.2, scaledScore := s, score := scoreOf m kv.1 } : ScaledEntry)) : Except PyErr (Str × ScaledEntry))) =
        .ok cd ∧
      cd.map Prod.fst = l.map Prod.fst ∧
      (∀ c e, (c, e) ∈ cd → (c, e.candname) ∈ l ∧ e.score = scoreOf m c ∧ (e.scaledScore = 0 ∨ pow2 (-1022) ≤ e.scaledScore) ∧
        |e.scaledScore - (scoreOf m c : ℚ) * t| ≤ (scoreOf m c : ℚ) * t / 2 ^ 51) ∧
      |(cd.map (fun kv => kv.2.scaledScore)).sum - (((l.map Prod.fst).map (scoreOf m)).sum : ℚ) * t| ≤
        (((l.map Prod.fst).map (scoreOf m)).sum : ℚ) * t / 2 ^ 51 := by
    intro l
    induction l with
    | nil =>
      intro _
      refine ⟨[], by rw [List.mapM_nil]; rfl, rfl, ?_, ?_⟩
      · intro c e he
        cases he
      · simp
    | cons kv l ih =>
      intro hl
      have hkv := hl kv (by simp)
      obtain ⟨p, p1, p2, p3⟩ := hone kv.1 (List.mem_map_of_mem hkv)
      obtain ⟨cd, c1, c2, c3, c4⟩ := ih (fun x hx => hl x (by simp [hx]))
      refine ⟨(kv.1, { candname := kv.2, scaledScore := p, score := scoreOf m kv.1 }) :: cd, ?_, ?_, ?_, ?_⟩
      · rw [List.mapM_cons, p1, ok_bind, ok_bind, c1, ok_bind]
        rfl
      · simp [c2]
      · intro c e he
        rcases List.mem_cons.1 he with he | he
        · cases he
          exact ⟨by simp, rfl, p2, p3⟩
        · obtain ⟨a, b⟩ := c3 c e he
          exact ⟨by simp [a], b⟩
      · simp only [List.map_cons, List.sum_cons, Int.cast_add]
        rw [abs_le] at *
        constructor <;> linarith
  obtain ⟨cd, c1, c2, c3, c4⟩ := hall m.candidates (fun _ h => h)
  have hkeys : (m.candidates.map Prod.fst).map (scoreOf m) = m.candidates.keys.map (scoreOf m) := rfl
  rw [hkeys, hN] at c4
  have hNt : (N : ℚ) * t = target := by rw [← htt]; field_simp
  rw [hNt] at c4
  have hlen : cd.length = m.candidates.length := by
    have := congrArg List.length c2
    simpa using this
  have hnq : (m.candidates.length : ℚ) ≤ 2 ^ 50 := by exact_mod_cast hn
  obtain ⟨S, S1, S2⟩ := sum_roundings (2 * target) (by linarith) (by linarith) (cd.map (fun kv => kv.2.scaledScore)) 0 (.inl rfl)
    (by
      intro p hp
      obtain ⟨⟨c, e⟩, he, rfl⟩ := List.mem_map.1 hp
      exact (c3 c e he).2.2.1)
    (by
      rw [List.length_map, hlen, zero_add]
      have := (abs_le.1 c4).2
      have : (m.candidates.length : ℚ) * (2 * target / 2 ^ 53) ≤ 2 ^ 50 * (2 * target / 2 ^ 53) := by gcongr
      linarith)
  rw [List.length_map, hlen, zero_add] at S2
  refine ⟨{ maxRating := (Dict.get? m.metadata c!"max_rating").getD .null, totalAllScores := N, scaleFactor := scale,
            canddict := cd, scaledTotal := S }, by rw [hscale, ok_bind, c1, ok_bind, S1, ok_bind], c2, rfl, rfl, ?_, ?_, ?_⟩
  · simp only
    exact hs2
  · intro c e he
    obtain ⟨a, b, _, d⟩ := c3 c e he
    refine ⟨b, Dict.get?_of_mem h.cands a, ?_⟩
    have : (scoreOf m c : ℚ) * (target : ℚ) / N = (scoreOf m c : ℚ) * t := by rw [← htt]; ring
    rw [this]
    exact d
  · simp only
    have e : (target : ℚ) * (m.candidates.length + 2) / 2 ^ 52 = (m.candidates.length : ℚ) * (2 * target / 2 ^ 53) + target / 2 ^ 51 := by ring
    rw [e]
    rw [abs_le] at *
    constructor <;> linarith

/-- the ratings of a text, read without adding ratings, are not negative, so neither are the scores -/
theorem parsed_scores_nonneg (cw sc : Bool) (text : Str) (m : Jabmod) (h : convertAbif cw false sc text = .ok m) (c : Str) :
    0 ≤ scoreOf m c := by
  have hq := parsed_nonneg cw false sc text m h
  have hrate : ∀ vl ∈ m.votelines, 0 ≤ ratingOf vl c := by
    intro vl hvl
    obtain ⟨vls, f1, f2, _⟩ := C02_votelines cw sc text m h
    refine forall₂_right (P := fun v : Voteline => 0 ≤ ratingOf v c) ?_ f1 vl (f2.mem_iff.1 hvl)
    rintro src v ⟨_, ⟨cands, hp⟩, _⟩
    have := parsePrefstr_plain hp
    unfold ratingOf
    cases hg : Dict.get? v.prefs c with
    | none => exact le_refl _
    | some p =>
      have := this c p hg
      simp only
      cases hpr : p.rating with
      | none => simp [ratingInt]
      | some v =>
        rw [hpr] at this
        cases v with
        | null => simp [ratingInt]
        | int i => exact this
        | str x =>
          obtain ⟨x1, x2⟩ := this
          show 0 ≤ (match pyIntOfStr x with | .ok i => i | .error _ => 0)
          rw [pyInt_digits x1 x2]
          simp only
          omega
  unfold scoreOf
  have : ∀ l : List Voteline, (∀ vl ∈ l, 0 ≤ vl.qty * ratingOf vl c) → 0 ≤ (l.map (fun vl => vl.qty * ratingOf vl c)).sum := by
    intro l
    induction l with
    | nil => intro _; simp
    | cons v l ih =>
      intro hl
      have := hl v (by simp)
      have := ih (fun x hx => hl x (by simp [hx]))
      simp only [List.map_cons, List.sum_cons]
      omega
  exact this _ (fun vl hvl => mul_nonneg (hq vl hvl) (hrate vl hvl))

/-- C27 for every text: read without adding ratings, an election with at least two candidates and some rating above zero is scaled
as in `C27_scaled`. -/
theorem C27_parsed (cw sc : Bool) (text : Str) (m : Jabmod) (h : convertAbif cw false sc text = .ok m) (hlen : text.length < 2 ^ 61)
    (h2 : 2 ≤ m.candidates.length) (hn : m.candidates.length ≤ 2 ^ 50) (target : Int) (ht0 : 0 < target) (ht1 : target ≤ 2 ^ 1000)
    (hmax : (m.candidates.keys.map (scoreOf m)).sum ≤ 2 ^ 1000) :
    (scaledScores m target = .error .zeroDivision ∧ ∀ c ∈ m.candidates.keys, scoreOf m c = 0) ∨
    ∃ r, scaledScores m target = .ok r ∧ r.canddict.keys = m.candidates.keys ∧
      (∀ c e, (c, e) ∈ r.canddict → e.score = scoreOf m c ∧
        |e.scaledScore - (scoreOf m c : ℚ) * (target : ℚ) / ((m.candidates.keys.map (scoreOf m)).sum : ℚ)| ≤
          (scoreOf m c : ℚ) * (target : ℚ) / ((m.candidates.keys.map (scoreOf m)).sum : ℚ) / 2 ^ 51) ∧
      |r.scaledTotal - (target : ℚ)| ≤ (target : ℚ) * (m.candidates.length + 2) / 2 ^ 52 := by
  have hs := parsed_scorable cw false sc text m h
  have hr := parsed_allRanked cw false sc text m h hlen
  have hbc := (C01_ballotcount cw false sc text m h).1
  have hnn : ∀ c ∈ m.candidates.keys, 0 ≤ scoreOf m c := fun c _ => parsed_scores_nonneg cw sc text m h c
  obtain ⟨z, nz⟩ := C27_scaled m hs hr hbc h2 target
  have hsum : ∀ l : List Str, (∀ c ∈ l, 0 ≤ scoreOf m c) → 0 ≤ (l.map (scoreOf m)).sum ∧
      ((l.map (scoreOf m)).sum = 0 → ∀ c ∈ l, scoreOf m c = 0) := by
    intro l
    induction l with
    | nil => intro _; exact ⟨by simp, fun _ c hc => by cases hc⟩
    | cons x l ih =>
      intro hl
      have hx := hl x (by simp)
      obtain ⟨i1, i2⟩ := ih (fun y hy => hl y (by simp [hy]))
      simp only [List.map_cons, List.sum_cons]
      refine ⟨by omega, ?_⟩
      intro h0 c hc
      rcases List.mem_cons.1 hc with rfl | hc
      · omega
      · exact i2 (by omega) c hc
  obtain ⟨s1, s2⟩ := hsum _ hnn
  by_cases h0 : (m.candidates.keys.map (scoreOf m)).sum = 0
  · exact .inl ⟨z h0, s2 h0⟩
  · obtain ⟨r, r1, r2, _, _, _, r6, r7⟩ := nz hnn (by omega) hmax ht0 ht1 hn
    exact .inr ⟨r, r1, r2, fun c e he => ⟨(r6 c e he).1, (r6 c e he).2.2⟩, r7⟩

end Verif.Props

namespace Verif.Props
open Verif Verif.Spec
attribute [local instance] Uni.ascii
set_option maxRecDepth 40000

/-- scaled scores of a text, to look at -/
def scaledOf (text : Str) (target : Int) : Option (List (Str × Int × Rat) × Rat) :=
  match convertAbif true false false text with
  | .error _ => none
  | .ok m => match scaledScores m target with
    | .error _ => none
    | .ok r => some (r.canddict.map (fun kv => (kv.1, kv.2.score, kv.2.scaledScore)), r.scaledTotal)

/-- C27 is not exact: the scaled scores of one voter's ballot A/1, B/5 add up to `50 + 2 ^ -47`, which Python prints as
50.00000000000001, when they should add up to 50. -/
theorem C27_inexact : ∃ text m r, convertAbif true false false text = .ok m ∧ scaledScores m 50 = .ok r ∧
    r.scaledTotal = 50 + 1 / 2 ^ 47 := by
  have hd : (match scaledOf c!"1:A/1,B/5\n" 50 with
    | some (_, t) => decide (t = 50 + 1 / 2 ^ 47)
    | none => false) = true := by decide +kernel
  revert hd
  unfold scaledOf
  cases hm : convertAbif true false false c!"1:A/1,B/5\n" with
  | error e => intro hd; cases hd
  | ok m =>
    simp only
    cases hr : scaledScores m 50 with
    | error e => intro hd; cases hd
    | ok r => exact fun hd => ⟨_, m, r, hm, hr, of_decide_eq_true hd⟩

-- an election meeting the hypotheses of C27_scaled and C27_parsed: three candidates with scores 9, 5, 2 scaled to 100
example : scaledOf c!"2:A/4,B/1,C/1\n1:A/1,B/3\n" 100 =
    some ([(c!"A", 9, 56.25), (c!"B", 5, 31.25), (c!"C", 2, 12.5)], 100) := by decide +kernel

end Verif.Props
