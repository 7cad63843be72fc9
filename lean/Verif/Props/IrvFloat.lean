/-
C104: the instant-runoff count with Python's floats.
-/
import Verif.Model.IrvFloat
import Verif.Lib.Float
import Verif.Props.Irv
import Verif.Props.Tally

namespace Verif.Props

open Verif Verif.Spec

/-! ### sums of quantities -/

private theorem dict_sum_set : ∀ (d : Dict Str Int) (c : Str) (n v : Int), Dict.get? d c = some n →
    ((Dict.set d c v).map Prod.snd).sum = (d.map Prod.snd).sum - n + v
  | [], c, n, v, h => by cases h
  | (k, w) :: t, c, n, v, h => by
    unfold Dict.get? at h
    unfold Dict.set
    by_cases hk : k = c
    · simp only [hk, ↓reduceIte] at h ⊢
      cases h
      simp only [List.map_cons, List.sum_cons]
      omega
    · simp only [hk, ↓reduceIte] at h ⊢
      have := dict_sum_set t c n v h
      simp only [List.map_cons, List.sum_cons, this]
      omega

private theorem countLoop_total : ∀ (vls : List Voteline) (a a' : CountAcc), (∀ vl ∈ vls, 0 ≤ vl.qty) →
    countLoop vls a = .ok a' →
    (a.counts.map Prod.snd).sum ≤ (a'.counts.map Prod.snd).sum ∧
    (a'.counts.map Prod.snd).sum ≤ (a.counts.map Prod.snd).sum + (vls.map Voteline.qty).sum
  | [], a, a', _, h => by
    cases h
    simp
  | vl :: rest, a, a', hq, h => by
    unfold countLoop at h
    obtain ⟨r, _, h⟩ := bind_ok.1 h
    have h0 := hq vl (List.mem_cons_self ..)
    have hr : ∀ v ∈ rest, 0 ≤ v.qty := fun v hv => hq v (List.mem_cons_of_mem _ hv)
    simp only [List.map_cons, List.sum_cons]
    cases hc : credited r with
    | none =>
      simp only [hc] at h
      have := countLoop_total rest _ a' hr h
      simp only at this
      omega
    | some c =>
      simp only [hc] at h
      obtain ⟨n, hn, h⟩ := bind_ok.1 h
      have hg : Dict.get? a.counts c = some n := by
        unfold Dict.getE at hn
        cases hx : Dict.get? a.counts c with
        | none => rw [hx] at hn; cases hn
        | some x => rw [hx] at hn; cases hn; rfl
      have := countLoop_total rest _ a' hr h
      simp only [dict_sum_set _ _ _ _ hg] at this
      omega

private theorem discard_sum : ∀ (vls : List Voteline) (q : Int) (kept : List Voteline), (∀ vl ∈ vls, 0 ≤ vl.qty) →
    discardOvervotes vls = .ok (q, kept) →
    (∀ vl ∈ kept, 0 ≤ vl.qty) ∧ (kept.map Voteline.qty).sum ≤ (vls.map Voteline.qty).sum
  | [], q, kept, _, h => by cases h; simp
  | [vl], q, kept, hq, h => by
    have h0 := hq vl (List.mem_cons_self ..)
    unfold discardOvervotes at h
    obtain ⟨ov, _, h⟩ := bind_ok.1 h
    cases ov with
    | true => cases h; simpa using h0
    | false => cases h; simpa using h0
  | vl :: skipped :: rest, q, kept, hq, h => by
    have h0 := hq vl (List.mem_cons_self ..)
    have h1 := hq skipped (List.mem_cons_of_mem _ (List.mem_cons_self ..))
    rw [discardOvervotes.eq_def] at h
    obtain ⟨ov, _, h⟩ := bind_ok.1 h
    cases ov with
    | true =>
      simp only [↓reduceIte] at h
      obtain ⟨⟨q', kept'⟩, hk, h⟩ := bind_ok.1 h
      cases h
      have := discard_sum rest q' kept' (fun v hv => hq v (List.mem_cons_of_mem _ (List.mem_cons_of_mem _ hv))) hk
      refine ⟨fun v hv => ?_, ?_⟩
      · rcases List.mem_cons.1 hv with rfl | hv
        · exact h1
        · exact this.1 v hv
      · simp only [List.map_cons, List.sum_cons]
        omega
    | false =>
      simp only [Bool.false_eq_true, ↓reduceIte] at h
      obtain ⟨⟨q', kept'⟩, hk, h⟩ := bind_ok.1 h
      cases h
      have := discard_sum (skipped :: rest) q' kept' (fun v hv => hq v (List.mem_cons_of_mem _ hv)) hk
      refine ⟨fun v hv => ?_, ?_⟩
      · rcases List.mem_cons.1 hv with rfl | hv
        · exact h0
        · exact this.1 v hv
      · have h2 := this.2
        simp only [List.map_cons, List.sum_cons] at h2 ⊢
        omega

private theorem eliminate_qtys : ∀ (el : List Str) (vls : List Voteline),
    (eliminateCands el vls).map Voteline.qty = vls.map Voteline.qty
  | [], _ => rfl
  | c :: t, vls => by
    have := eliminate_qtys t (vls.map fun vl => { vl with prefs := vl.prefs.erase c })
    unfold eliminateCands at this ⊢
    rw [List.foldl_cons, this, List.map_map]
    rfl

/-! ### halves -/

attribute [local irreducible] pow2

/-- half an integer of at most 53 binary digits is a double -/
theorem half_isDouble (k : Int) (h : |k| ≤ 2 ^ 53) : IsDouble ((k : ℚ) / 2) :=
  ⟨k, -1, h, by norm_num, by rw [zpow_neg_one]; ring⟩

theorem toDouble_exact (q : ℚ) (h : IsDouble q) (hb : |q| ≤ 2 ^ 60) : toDouble q = .ok q := by
  have hb := abs_le.1 hb
  have hp : (2 : ℚ) ^ 60 < pow2 1024 := by
    rw [pow2_eq, show (1024 : ℤ) = ((1024 : ℕ) : ℤ) from rfl, zpow_natCast]
    exact pow_lt_pow_right₀ (by norm_num) (by norm_num)
  unfold toDouble
  rw [fround_exact h, if_pos ⟨by linarith [hb.1], by linarith [hb.2]⟩]

private theorem big (k : Int) (h : |k| ≤ 2 ^ 53) : |(k : ℚ) / 2| ≤ 2 ^ 60 := by
  have h1 : |(k : ℚ)| ≤ 2 ^ 53 := by exact_mod_cast h
  rw [abs_div]
  have h2 : (2 : ℚ) ^ 53 ≤ 2 ^ 60 := by norm_num
  have h3 : |(2 : ℚ)| = 2 := by norm_num
  rw [h3]
  have := abs_nonneg (k : ℚ)
  linarith

/-- `total / 2` is exact up to `2 ^ 53` -/
theorem trueDiv_half (k : Int) (h : |k| ≤ 2 ^ 53) : trueDiv k 2 = .ok ((k : ℚ) / 2) := by
  unfold trueDiv
  rw [if_neg (by decide)]
  have := toDouble_exact _ (half_isDouble k h) (big k h)
  exact_mod_cast this

theorem irvStops_exact (mn mx total : Int) (h : |total| ≤ 2 ^ 53) :
    irvStops mn mx total = .ok (decide (mn = mx ∨ 2 * mx > total)) := by
  unfold irvStops
  by_cases he : mn = mx
  · simp [he]
  · rw [if_neg he, trueDiv_half total h]
    have : ((mx : ℚ) > (total : ℚ) / 2) ↔ (2 * mx > total) := by
      rw [gt_iff_lt, div_lt_iff₀ (by norm_num), gt_iff_lt]
      constructor
      · intro h; have : total < mx * 2 := by exact_mod_cast h
        omega
      · intro h; have : total < mx * 2 := by omega
        exact_mod_cast this
    simp only [he, false_or]
    show Except.ok _ = _
    congr 1
    exact decide_eq_decide.2 this

/-! ### rounds -/

private theorem roundFinishF_eq (S : Sched) (prev : Option RoundMeta) (rn : Nat) (cands : List Str) (vls : List Voteline)
    (ov : Int) (pruned : List Voteline) (a : CountAcc) (h : |(a.counts.map Prod.snd).sum| ≤ 2 ^ 53) :
    roundFinishF S prev rn cands vls ov pruned a = roundFinish S prev rn cands vls ov pruned a := by
  unfold roundFinishF roundFinish
  cases hmn : listMin (a.counts.map Prod.snd) with
  | none => simp only [hmn]
  | some mn =>
    cases hmx : listMax (a.counts.map Prod.snd) with
    | none => simp only [hmn, hmx]
    | some mx =>
      simp only [hmn, hmx]
      rw [irvStops_exact _ _ _ h]
      rw [ok_bind]
      by_cases hc : mn = mx ∨ 2 * mx > (a.counts.map Prod.snd).sum
      · rw [if_pos hc, if_pos (decide_eq_true hc)]
      · rw [if_neg hc, if_neg (by simpa using hc)]

private theorem irvRoundF_eq (S : Sched) (prev : Option RoundMeta) (rn : Nat) (cands : List Str) (vls : List Voteline)
    (hq : ∀ vl ∈ vls, 0 ≤ vl.qty) (hs : (vls.map Voteline.qty).sum ≤ 2 ^ 53) :
    irvRoundF S prev rn cands vls = irvRound S prev rn cands vls := by
  unfold irvRoundF irvRound
  cases hd : discardOvervotes vls with
  | error e => rfl
  | ok d =>
    obtain ⟨ov, pruned⟩ := d
    obtain ⟨h1, h2⟩ := discard_sum vls ov pruned hq hd
    rw [ok_bind, ok_bind]
    simp only
    cases hc : countLoop pruned { counts := cands.map fun c => (c, 0) } with
    | error e => rfl
    | ok a =>
      rw [ok_bind, ok_bind]
      have ht := countLoop_total pruned _ a h1 hc
      have h0 : ((cands.map fun c => ((c, 0) : Str × Int)).map Prod.snd).sum = 0 := by
        rw [List.map_map]
        exact List.sum_eq_zero (by intro x hx; obtain ⟨_, _, rfl⟩ := List.mem_map.1 hx; rfl)
      simp only [h0] at ht
      exact roundFinishF_eq S prev rn cands vls ov pruned a (abs_le.2 ⟨by omega, by omega⟩)

private theorem next_qty {S : Sched} {prev : Option RoundMeta} {rn : Nat} {cands : List Str} {vls : List Voteline}
    {r : RoundOut} {cands' : List Str} {vls' : List Voteline} (hq : ∀ vl ∈ vls, 0 ≤ vl.qty)
    (h : irvRound S prev rn cands vls = .ok r) (hn : r.next = some (cands', vls')) :
    (∀ vl ∈ vls', 0 ≤ vl.qty) ∧ (vls'.map Voteline.qty).sum ≤ (vls.map Voteline.qty).sum := by
  unfold irvRound at h
  obtain ⟨⟨ov, pruned⟩, hd, h⟩ := bind_ok.1 h
  obtain ⟨h1, h2⟩ := discard_sum vls ov pruned hq hd
  obtain ⟨a, _, h⟩ := bind_ok.1 h
  unfold roundFinish at h
  cases hmn : listMin (a.counts.map Prod.snd) with
  | none => simp only [hmn] at h; cases h
  | some mn =>
    cases hmx : listMax (a.counts.map Prod.snd) with
    | none => simp only [hmn, hmx] at h; cases h
    | some mx =>
      simp only [hmn, hmx] at h
      split at h
      · cases h; cases hn
      · cases h
        simp only [Option.some.injEq, Prod.mk.injEq] at hn
        obtain ⟨-, rfl⟩ := hn
        refine ⟨fun v hv => ?_, by rw [eliminate_qtys]; exact h2⟩
        have : v.qty ∈ pruned.map Voteline.qty := by
          rw [← eliminate_qtys (chooseElim S rn a.counts mn (penultVotes (a.counts.map Prod.snd) mn mx)).eliminated pruned]
          exact List.mem_map_of_mem hv
        obtain ⟨w, hw, he⟩ := List.mem_map.1 this
        rw [← he]
        exact h1 w hw

private theorem irvCountF_eq (S : Sched) : ∀ (n : Nat) (prev : Option RoundMeta) (rn : Nat) (cands : List Str)
    (vls : List Voteline), (∀ vl ∈ vls, 0 ≤ vl.qty) → (vls.map Voteline.qty).sum ≤ 2 ^ 53 →
    irvCountF S n prev rn cands vls = irvCount S n prev rn cands vls
  | 0, _, _, _, _, _, _ => rfl
  | n + 1, prev, rn, cands, vls, hq, hs => by
    unfold irvCountF irvCount
    rw [irvRoundF_eq S prev rn cands vls hq hs]
    cases hr : irvRound S prev rn cands vls with
    | error e => rfl
    | ok r =>
      rw [ok_bind, ok_bind]
      cases hn : r.next with
      | none => rfl
      | some p =>
        obtain ⟨cands', vls'⟩ := p
        simp only
        obtain ⟨g1, g2⟩ := next_qty hq hr hn
        rw [irvCountF_eq S n (some r.info) (rn + 1) cands' vls' g1 (le_trans g2 hs)]

/-- C104.  With Python's floats in the majority test, the instant-runoff count of a model with at most `2 ^ 53` ballots is
the count in exact arithmetic: the same winners, the same rounds, the same records (or the same error), whatever the order of
sets and the random choices. -/
theorem C104_exact (S : Sched) (m : Jabmod) (hq : QtyNonneg m) (hs : (m.votelines.map Voteline.qty).sum ≤ 2 ^ 53) :
    irvDictF S m = irvDict S m := by
  unfold irvDictF irvDict
  rw [irvCountF_eq S _ none 1 _ _ hq hs]

/-- C104 for every text the parser accepts: the declared ballot count is what has to stay below `2 ^ 53`. -/
theorem C104_parsed [U : Uni] (S : Sched) (cw ar sc : Bool) (text : Str) (m : Jabmod) (h : convertAbif cw ar sc text = .ok m)
    (n : Int) (hn : m.metadata.get? c!"ballotcount" = some (.int n)) (hs : n ≤ 2 ^ 53) : irvDictF S m = irvDict S m := by
  have hb := (C01_ballotcount cw ar sc text m h).1
  rw [hn] at hb
  have he : n = (m.votelines.map Voteline.qty).sum := by
    have := Option.some.inj hb
    injection this
  exact C104_exact S m (parsed_nonneg cw ar sc text m h) (he ▸ hs)

/-- C104 beyond `2 ^ 53`: whether a round is the last one (no tie of all) is decided wrongly at most when the leader's votes
differ from half the votes by less than one part in `2 ^ 53`. -/
theorem C104_margin (mn mx total : Int) (ht : 0 < total) (hne : mn ≠ mx) (b : Bool) (h : irvStops mn mx total = .ok b) :
    (b = true → (total : ℚ) - total / 2 ^ 53 < 2 * mx) ∧ (b = false → 2 * mx ≤ (total : ℚ) + total / 2 ^ 53) := by
  unfold irvStops at h
  rw [if_neg hne] at h
  obtain ⟨x, hx, h⟩ := bind_ok.1 h
  unfold trueDiv at hx
  rw [if_neg (by decide)] at hx
  unfold toDouble at hx
  split at hx
  · have hx : fround ((total : ℚ) / ((2 : Int) : ℚ)) = x := Except.ok.inj hx
    have ht' : (1 : ℚ) ≤ total := by exact_mod_cast ht
    have hpos : (2 : ℚ) ^ (-1022 : ℤ) ≤ (total : ℚ) / ((2 : Int) : ℚ) := by
      have : (2 : ℚ) ^ (-1022 : ℤ) ≤ (2 : ℚ) ^ (-1 : ℤ) := zpow_le_zpow_right₀ (by norm_num) (by norm_num)
      rw [zpow_neg_one] at this
      push_cast
      linarith
    have hr := abs_le.1 (fround_rel hpos).1
    rw [hx] at hr
    push_cast at hr
    have hb : decide ((mx : ℚ) > x) = b := Except.ok.inj h
    constructor
    · intro hb'
      have : (mx : ℚ) > x := of_decide_eq_true (hb.trans hb')
      linarith [hr.1]
    · intro hb'
      have : ¬ (mx : ℚ) > x := of_decide_eq_false (hb.trans hb')
      linarith [hr.2]
  · cases hx

/-- C104, Copeland: the score `wins + ties * 0.5` is computed exactly as long as it has 53 binary digits. -/
theorem copelandFloat_exact (wins ties : Int) (h0 : 0 ≤ wins) (h1 : 0 ≤ ties) (h : 2 * wins + ties ≤ 2 ^ 53) :
    copelandFloat wins ties = .ok (((2 * wins + ties : Int) : ℚ) / 2) := by
  have ht : |ties| ≤ 2 ^ 53 := abs_le.2 ⟨by omega, by omega⟩
  have hw : |2 * wins| ≤ 2 ^ 53 := abs_le.2 ⟨by omega, by omega⟩
  have hwt : |2 * wins + ties| ≤ 2 ^ 53 := abs_le.2 ⟨by omega, by omega⟩
  have d0 : toDouble (ties : ℚ) = .ok (ties : ℚ) := by
    refine toDouble_exact _ ⟨ties, 0, ht, by norm_num, by simp⟩ ?_
    have h1 : |(ties : ℚ)| ≤ 2 ^ 53 := by exact_mod_cast ht
    linarith
  have d1 : toDouble ((ties : ℚ) * (1 / 2)) = .ok ((ties : ℚ) / 2) := by
    rw [mul_one_div]
    exact toDouble_exact _ (half_isDouble ties ht) (big ties ht)
  have d2 : toDouble (wins : ℚ) = .ok (wins : ℚ) := by
    have := toDouble_exact _ (half_isDouble (2 * wins) hw) (big (2 * wins) hw)
    have he : (((2 * wins : Int) : ℚ) / 2) = wins := by push_cast; ring
    rwa [he] at this
  have d3 : toDouble ((wins : ℚ) + (ties : ℚ) / 2) = .ok (((2 * wins + ties : Int) : ℚ) / 2) := by
    have := toDouble_exact _ (half_isDouble (2 * wins + ties) hwt) (big (2 * wins + ties) hwt)
    have he : (((2 * wins + ties : Int) : ℚ) / 2) = (wins : ℚ) + (ties : ℚ) / 2 := by push_cast; ring
    rw [he] at this ⊢
    exact this
  unfold copelandFloat mulFloat addFloat
  rw [d0, ok_bind, d1, ok_bind, d2, ok_bind, d3]

/-- C104, Copeland: in every tally of at most `2 ^ 50` candidates every score is computed exactly. -/
theorem C104_copeland (m : Jabmod) (hn : m.candidates.keys.Nodup) (hl : m.candidates.keys.length ≤ 2 ^ 50) :
    ∃ cc, fullCopecount m = .ok cc ∧ ∀ c ∈ m.candidates.keys, ∃ w, cc.winlosstie.get? c = some w ∧
      copelandFloat w.wins w.ties = .ok (((2 * w.wins + w.ties : Int) : ℚ) / 2) := by
  obtain ⟨cc, h1, _, _, _, h5, _⟩ := C21_partial m hn
  refine ⟨cc, h1, fun c hc => ?_⟩
  obtain ⟨w, g1, g2, g3, g4, g5⟩ := h5 c hc
  refine ⟨w, g1, copelandFloat_exact _ _ ?_ ?_ ?_⟩
  · rw [g2]; exact Int.natCast_nonneg _
  · rw [g4]; exact mul_nonneg (by norm_num) (Int.natCast_nonneg _)
  · have hl0 : 0 ≤ w.losses := by rw [g3]; exact Int.natCast_nonneg _
    have hlen : (m.candidates.keys.length : Int) ≤ 2 ^ 50 := by exact_mod_cast hl
    omega

/-! ### beyond: the rounding changes the winner -/

section
attribute [local instance] Uni.ascii
set_option maxRecDepth 40000

/-- three candidates; A has exactly half of the votes, one more than `2 ^ 53` -/
def hugeText : Str := c!"9007199254740993:A\n9007199254740992:B\n1:C>B\n"

/-- winners of the float count and of the exact count of a text -/
def bothCounts (S : Sched) (text : Str) : Option (List Str × List Str) :=
  match convertAbif true false false text with
  | .ok m =>
    match irvDictF S m, irvDict S m with
    | .ok d, .ok e => some (d.run.winner, e.run.winner)
    | _, _ => none
  | .error _ => none

/-- C104: the bound is needed.  Of 18014398509481986 ballots candidate A has exactly half.  In exact arithmetic nobody has a
majority, C's ballot goes to B and the count ends in a tie of A and B; the program declares A the winner in the first round. -/
theorem C104_refuted : ∃ text m d e, convertAbif true false false text = .ok m ∧ irvDictF Sched.std m = .ok d ∧
    irvDict Sched.std m = .ok e ∧ d.run.winner = [c!"A"] ∧ e.run.winner = [c!"A", c!"B"] := by
  have hd : bothCounts Sched.std hugeText = some ([c!"A"], [c!"A", c!"B"]) := by decide +kernel
  unfold bothCounts at hd
  cases hm : convertAbif true false false hugeText with
  | error e => rw [hm] at hd; cases hd
  | ok m =>
    rw [hm] at hd
    simp only at hd
    cases h1 : irvDictF Sched.std m with
    | error e => rw [h1] at hd; cases hd
    | ok d =>
      cases h2 : irvDict Sched.std m with
      | error e => rw [h1, h2] at hd; cases hd
      | ok e =>
        rw [h1, h2] at hd
        simp only [Option.some.injEq, Prod.mk.injEq] at hd
        exact ⟨_, m, d, e, hm, h1, h2, hd.1, hd.2⟩

/-- C104: with a ballot line of `10 ^ 400` the program crashes (`OverflowError`), where the count itself is plain. -/
theorem C104_overflow : ∃ text m e, convertAbif true false false text = .ok m ∧ irvDictF Sched.std m = .error .other ∧
    irvDict Sched.std m = .ok e ∧ e.run.winner = [c!"A"] := by
  have hd : (match convertAbif true false false (c!"1" ++ List.replicate 400 '0' ++ c!":A\n1:B\n") with
    | .ok m =>
      match irvDictF Sched.std m, irvDict Sched.std m with
      | .error x, .ok e => decide (x = .other ∧ e.run.winner = [c!"A"])
      | _, _ => false
    | .error _ => false) = true := by decide +kernel
  cases hm : convertAbif true false false (c!"1" ++ List.replicate 400 '0' ++ c!":A\n1:B\n") with
  | error e => rw [hm] at hd; cases hd
  | ok m =>
    rw [hm] at hd
    simp only at hd
    cases h1 : irvDictF Sched.std m with
    | ok d => rw [h1] at hd; cases hd
    | error x =>
      cases h2 : irvDict Sched.std m with
      | error e => rw [h1, h2] at hd; cases hd
      | ok e =>
        rw [h1, h2] at hd
        have := of_decide_eq_true hd
        exact ⟨_, m, e, hm, by rw [h1, this.1], h2, this.2⟩

/-- a case that meets the hypotheses of C104_parsed -/
example (S : Sched) (m : Jabmod) (h : convertAbif true false false c!"9007199254740991:A>B\n1:B>A\n" = .ok m) :
    irvDictF S m = irvDict S m := by
  refine C104_parsed S _ _ _ _ m h (2 ^ 53) ?_ le_rfl
  have hd : (match convertAbif true false false c!"9007199254740991:A>B\n1:B>A\n" with
    | .ok m => decide ((m.votelines.map Voteline.qty).sum = 2 ^ 53)
    | .error _ => false) = true := by decide +kernel
  rw [h] at hd
  rw [(C01_ballotcount _ _ _ _ m h).1, of_decide_eq_true hd]

end

end Verif.Props
