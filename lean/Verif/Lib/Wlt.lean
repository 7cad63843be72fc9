/-
Helper lemmas: the win-loss-tie table and Copeland scores.
-/
import Verif.Lib.Pairwise

set_option linter.unusedSimpArgs false
set_option linter.unusedSectionVars false

namespace Verif
open Spec

/-- the matrix `d` has the numbers `v a b` off the diagonal for all candidates -/
def Numbers (toks : List Str) (d : PairDict) (v : Str → Str → Int) : Prop :=
  ∀ a ∈ toks, ∀ b ∈ toks, (∃ o, pairGet d a b = .ok o) ∧ (a ≠ b → pairGet d a b = .ok (some (v a b)))

/-- 1 if true, else 0 -/
def ind (p : Prop) [Decidable p] : Int := if p then 1 else 0

/-- what the matchup of `a` and `b` adds to the record of `c` -/
def wltInc (v : Str → Str → Int) (a b c : Str) : WLT :=
  { wins := ind (a ≠ b ∧ v a b > v b a ∧ c = a)
    losses := ind (a ≠ b ∧ v a b > v b a ∧ c = b)
    ties := ind (a ≠ b ∧ v a b = v b a ∧ c = a) + ind (a ≠ b ∧ v a b = v b a ∧ c = b) }

def WLT.add (x y : WLT) : WLT := ⟨x.wins + y.wins, x.losses + y.losses, x.ties + y.ties⟩

theorem WLT.add_assoc (x y z : WLT) : (x.add y).add z = x.add (y.add z) := by
  unfold WLT.add; simp [Int.add_assoc]

/-- sum of records over a list -/
def wltSum (g : Str → WLT) : List Str → WLT
  | [] => {}
  | b :: bs => (g b).add (wltSum g bs)

theorem WLT.add_zero (x : WLT) : x.add {} = x := by
  unfold WLT.add; simp

theorem wltStep_ok {toks : List Str} {d : PairDict} {v : Str → Str → Int} (h : Numbers toks d v)
    {a b : Str} (ha : a ∈ toks) (hb : b ∈ toks) (acc : Dict Str WLT) :
    ∃ acc', wltStep d acc a b = .ok acc' ∧ acc'.keys = acc.keys ∧
      ∀ c, acc'.get? c = (acc.get? c).map (fun w => w.add (wltInc v a b c)) := by
  unfold wltStep
  obtain ⟨⟨o1, h1⟩, h1'⟩ := h a ha b hb
  obtain ⟨⟨o2, h2⟩, h2'⟩ := h b hb a ha
  by_cases hab : a = b
  · rw [h1, h2, ok_bind, ok_bind, if_pos hab]
    refine ⟨acc, rfl, rfl, ?_⟩
    intro c
    have : wltInc v a b c = {} := by simp [wltInc, ind, hab]
    rw [this]
    cases acc.get? c <;> simp [WLT.add_zero]
  · rw [h1' hab, h2' (Ne.symm hab), ok_bind, ok_bind, if_neg hab]
    simp only
    split
    · rename_i hgt
      refine ⟨_, rfl, by rw [Dict.keys_modify, Dict.keys_modify], ?_⟩
      intro c
      rw [Dict.get?_modify, Dict.get?_modify]
      have hne : ¬ v a b = v b a := by omega
      by_cases hca : a = c
      · have hcb : ¬ b = c := fun e => hab (hca.trans e.symm)
        rw [if_neg hcb, if_pos hca]
        congr 1
        funext w
        have hcb' : ¬ c = b := fun e => hcb e.symm
        simp [wltInc, WLT.add, ind, hab, hgt, hca.symm, hne, hcb']
      · by_cases hcb : b = c
        · rw [if_pos hcb, if_neg hca]
          congr 1
          funext w
          have hca' : ¬ c = a := fun e => hca e.symm
          subst hcb
          simp [wltInc, WLT.add, ind, hab, hgt, hne, hca']
        · rw [if_neg hcb, if_neg hca]
          have hca' : ¬ c = a := fun e => hca e.symm
          have hcb' : ¬ c = b := fun e => hcb e.symm
          have : wltInc v a b c = {} := by simp [wltInc, ind, hca', hcb']
          rw [this]
          cases acc.get? c <;> simp [WLT.add_zero]
    · rename_i hgt
      split
      · rename_i heq
        refine ⟨_, rfl, by rw [Dict.keys_modify, Dict.keys_modify], ?_⟩
        intro c
        rw [Dict.get?_modify, Dict.get?_modify]
        by_cases hca : a = c
        · have hcb : ¬ b = c := fun e => hab (hca.trans e.symm)
          rw [if_neg hcb, if_pos hca]
          congr 1
          funext w
          subst hca
          simp [wltInc, WLT.add, ind, hab, heq]
        · by_cases hcb : b = c
          · rw [if_pos hcb, if_neg hca]
            congr 1
            funext w
            subst hcb
            have hca' : ¬ b = a := fun e => hca e.symm
            simp [wltInc, WLT.add, ind, hab, heq, hca']
          · rw [if_neg hcb, if_neg hca]
            have hca' : ¬ c = a := fun e => hca e.symm
            have hcb' : ¬ c = b := fun e => hcb e.symm
            have : wltInc v a b c = {} := by simp [wltInc, ind, hca', hcb']
            rw [this]
            cases acc.get? c <;> simp [WLT.add_zero]
      · rename_i heq
        refine ⟨acc, rfl, rfl, ?_⟩
        intro c
        have : wltInc v a b c = {} := by simp [wltInc, ind, hgt, heq]
        rw [this]
        cases acc.get? c <;> simp [WLT.add_zero]

theorem wltInner_ok {toks : List Str} {d : PairDict} {v : Str → Str → Int} (h : Numbers toks d v)
    {a : Str} (ha : a ∈ toks) (bs : List Str) (hbs : ∀ b ∈ bs, b ∈ toks) (acc : Dict Str WLT) :
    ∃ acc', wltInner d a bs acc = .ok acc' ∧ acc'.keys = acc.keys ∧
      ∀ c, acc'.get? c = (acc.get? c).map (fun w => w.add (wltSum (fun b => wltInc v a b c) bs)) := by
  induction bs generalizing acc with
  | nil =>
    refine ⟨acc, rfl, rfl, ?_⟩
    intro c
    cases acc.get? c <;> simp [wltSum, WLT.add_zero]
  | cons b bs ih =>
    obtain ⟨acc1, e1, k1, g1⟩ := wltStep_ok h ha (hbs b (by simp)) acc
    obtain ⟨acc2, e2, k2, g2⟩ := ih (fun b hb => hbs b (by simp [hb])) acc1
    refine ⟨acc2, ?_, k2.trans k1, ?_⟩
    · unfold wltInner; rw [e1, ok_bind, e2]
    · intro c
      rw [g2, g1, Option.map_map]
      congr 1
      funext w
      simp [wltSum, WLT.add_assoc]

theorem wltOuter_ok {toks : List Str} {d : PairDict} {v : Str → Str → Int} (h : Numbers toks d v)
    (as : List Str) (has : ∀ a ∈ as, a ∈ toks) (acc : Dict Str WLT) :
    ∃ acc', wltOuter d toks as acc = .ok acc' ∧ acc'.keys = acc.keys ∧
      ∀ c, acc'.get? c = (acc.get? c).map
        (fun w => w.add (wltSum (fun a => wltSum (fun b => wltInc v a b c) toks) as)) := by
  induction as generalizing acc with
  | nil =>
    refine ⟨acc, rfl, rfl, ?_⟩
    intro c
    cases acc.get? c <;> simp [wltSum, WLT.add_zero]
  | cons a as ih =>
    obtain ⟨acc1, e1, k1, g1⟩ := wltInner_ok h (has a (by simp)) toks (fun b hb => hb) acc
    obtain ⟨acc2, e2, k2, g2⟩ := ih (fun b hb => has b (by simp [hb])) acc1
    refine ⟨acc2, ?_, k2.trans k1, ?_⟩
    · unfold wltOuter; rw [e1, ok_bind, e2]
    · intro c
      rw [g2, g1, Option.map_map]
      congr 1
      funext w
      simp [wltSum, WLT.add_assoc]

/-! ### the sums -/

def isum (g : Str → Int) (l : List Str) : Int := (l.map g).sum
theorem isum_nil (g : Str → Int) : isum g [] = 0 := rfl
theorem isum_cons (g : Str → Int) (a : Str) (l : List Str) : isum g (a :: l) = g a + isum g l := rfl
theorem isum_congr {g g' : Str → Int} {l : List Str} (h : ∀ a ∈ l, g a = g' a) : isum g l = isum g' l := by
  unfold isum; rw [List.map_congr_left h]
theorem isum_add (g g' : Str → Int) (l : List Str) : isum (fun a => g a + g' a) l = isum g l + isum g' l := by
  induction l with
  | nil => rfl
  | cons a l ih => simp only [isum_cons, ih]; omega
theorem isum_zero {g : Str → Int} {l : List Str} (h : ∀ a ∈ l, g a = 0) : isum g l = 0 := by
  induction l with
  | nil => rfl
  | cons a l ih => rw [isum_cons, h a (by simp), ih (fun b hb => h b (by simp [hb]))]; rfl
/-- only one term counts -/
theorem isum_single {g : Str → Int} {l : List Str} {c : Str} (hn : l.Nodup) (hc : c ∈ l)
    (h : ∀ a ∈ l, a ≠ c → g a = 0) : isum g l = g c := by
  induction l with
  | nil => simp at hc
  | cons a l ih =>
    rw [isum_cons]
    rw [List.nodup_cons] at hn
    rcases List.mem_cons.1 hc with rfl | hc'
    · rw [isum_zero (fun b hb => h b (by simp [hb]) (by rintro rfl; exact hn.1 hb))]; omega
    · have : a ≠ c := by rintro rfl; exact hn.1 hc'
      rw [h a (by simp) this, ih hn.2 hc' (fun b hb => h b (by simp [hb]))]; omega
theorem isum_ind (p : Str → Bool) (l : List Str) : isum (fun b => ind (p b = true)) l = ((l.filter p).length : Int) := by
  induction l with
  | nil => rfl
  | cons a l ih =>
    rw [isum_cons, ih, List.filter_cons]
    unfold ind
    cases p a <;> simp <;> omega
theorem isum_swap (f : Str → Str → Int) (l l' : List Str) :
    isum (fun a => isum (fun b => f a b) l') l = isum (fun b => isum (fun a => f a b) l) l' := by
  induction l with
  | nil => simp [isum_nil]; symm; exact isum_zero (fun _ _ => rfl)
  | cons a l ih =>
    rw [isum_cons, ih, ← isum_add]
    rfl

theorem wltSum_wins (g : Str → WLT) (l : List Str) : (wltSum g l).wins = isum (fun b => (g b).wins) l := by
  induction l with
  | nil => rfl
  | cons a l ih => simp only [wltSum, WLT.add, ih]; rfl
theorem wltSum_losses (g : Str → WLT) (l : List Str) : (wltSum g l).losses = isum (fun b => (g b).losses) l := by
  induction l with
  | nil => rfl
  | cons a l ih => simp only [wltSum, WLT.add, ih]; rfl
theorem wltSum_ties (g : Str → WLT) (l : List Str) : (wltSum g l).ties = isum (fun b => (g b).ties) l := by
  induction l with
  | nil => rfl
  | cons a l ih => simp only [wltSum, WLT.add, ih]; rfl

/-- sum over the row of `c` -/
theorem isum_row {toks : List Str} (hn : toks.Nodup) {c : Str} (hc : c ∈ toks) (R : Str → Str → Prop)
    [∀ a b, Decidable (R a b)] :
    isum (fun a => isum (fun b => ind (a ≠ b ∧ R a b ∧ c = a)) toks) toks = countOpp toks c (fun b => decide (R c b)) := by
  rw [isum_single hn hc (by
    intro a _ hac
    apply isum_zero
    intro b _
    have : ¬ c = a := fun e => hac e.symm
    simp [ind, this])]
  unfold countOpp
  rw [← isum_ind]
  apply isum_congr
  intro b _
  unfold ind
  by_cases h1 : c = b
  · subst h1; simp
  · have : ¬ b = c := fun e => h1 e.symm
    simp [h1, this]

/-- sum over the column of `c` -/
theorem isum_col {toks : List Str} (hn : toks.Nodup) {c : Str} (hc : c ∈ toks) (R : Str → Str → Prop)
    [∀ a b, Decidable (R a b)] :
    isum (fun a => isum (fun b => ind (a ≠ b ∧ R a b ∧ c = b)) toks) toks = countOpp toks c (fun a => decide (R a c)) := by
  rw [isum_swap]
  rw [isum_single hn hc (by
    intro a _ hac
    apply isum_zero
    intro b _
    have : ¬ c = a := fun e => hac e.symm
    simp [ind, this])]
  unfold countOpp
  rw [← isum_ind]
  apply isum_congr
  intro b _
  unfold ind
  by_cases h1 : c = b
  · subst h1; simp
  · have : ¬ b = c := fun e => h1 e.symm
    simp [h1, this]

/-- the record of a candidate as the program computes it -/
def wltOf (toks : List Str) (v : Str → Str → Int) (c : Str) : WLT :=
  { wins := countOpp toks c (fun b => decide (v c b > v b c))
    losses := countOpp toks c (fun b => decide (v b c > v c b))
    ties := 2 * countOpp toks c (fun b => decide (v c b = v b c)) }

theorem winLossTie_ok {toks : List Str} {d : PairDict} {v : Str → Str → Int} (hn : toks.Nodup) (h : Numbers toks d v) :
    winLossTie toks d = .ok (sortByKeyDesc (fun kv : Str × WLT => kv.2.wins) (toks.map (fun c => (c, wltOf toks v c)))) := by
  unfold winLossTie
  obtain ⟨acc, e, k, g⟩ := wltOuter_ok h toks (fun a ha => ha) (toks.map fun t => (t, ({} : WLT)))
  rw [e, ok_bind]
  have hk0 : Dict.keys (toks.map fun t => (t, ({} : WLT))) = toks := by
    simp [Dict.keys, List.map_map, Function.comp_def]
  have : acc = toks.map (fun c => (c, wltOf toks v c)) := by
    apply Dict.ext_of_wf
    · unfold Dict.WF; rw [k, hk0]; exact hn
    · unfold Dict.WF; simp [Dict.keys, List.map_map, Function.comp_def, hn]
    · rw [k, hk0]; simp [Dict.keys, List.map_map, Function.comp_def]
    · intro c
      rw [g, Dict.get?_mapKeys toks (fun _ => ({} : WLT)), Dict.get?_mapKeys toks (fun c => wltOf toks v c)]
      by_cases hc : c ∈ toks
      · rw [if_pos hc, if_pos hc, Option.map_some]
        congr 1
        have e1 := isum_row hn hc (fun a b => v a b > v b a)
        have e2 := isum_col hn hc (fun a b => v a b > v b a)
        have e3 := isum_row hn hc (fun a b => v a b = v b a)
        have e4 := isum_col hn hc (fun a b => v a b = v b a)
        have e5 : countOpp toks c (fun a => decide (v a c = v c a)) = countOpp toks c (fun b => decide (v c b = v b c)) := by
          congr 1; funext b; simp only [decide_eq_decide]; exact ⟨Eq.symm, Eq.symm⟩
        unfold WLT.add wltOf
        simp only [wltSum_wins, wltSum_losses, wltSum_ties, wltInc]
        rw [e1, e2]
        have e6 : isum (fun a => isum (fun b => ind (a ≠ b ∧ v a b = v b a ∧ c = a) + ind (a ≠ b ∧ v a b = v b a ∧ c = b)) toks) toks =
            countOpp toks c (fun b => decide (v c b = v b c)) + countOpp toks c (fun a => decide (v a c = v c a)) := by
          rw [← e3, ← e4, ← isum_add]
          apply isum_congr
          intro a _
          exact isum_add _ _ _
        rw [e6, e5]
        simp only [Int.zero_add, Int.two_mul]
      · rw [if_neg hc, if_neg hc]; rfl
  rw [this]

end Verif
