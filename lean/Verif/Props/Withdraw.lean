/-
C126: who has been eliminated may as well have withdrawn.
-/
import Verif.Spec.Withdraw
import Verif.Props.Precincts
import Verif.Props.IrvClones

set_option linter.unusedSimpArgs false
set_option linter.unusedSectionVars false

namespace Verif.Runoff
open Classical
variable {α : Type} {q : α → Int} {t : α → Finset Str → Option Str} {vs : List α}

theorem canWin_within {β : Type} {q2 : β → Int} {t2 : β → Finset Str → Option Str} {ws : List β} {K : Finset Str}
    (hv : ∀ C, C ⊆ K → ∀ x, votes q t vs C x = votes q2 t2 ws C x) (hc : ∀ C, C ⊆ K → counted q t vs C = counted q2 t2 ws C) {C : Finset Str} {w : Str}
    (h : CanWin q t vs C w) (hC : C ⊆ K) : CanWin q2 t2 ws C w := by
  induction h with
  | won C w h => exact .won _ _ ⟨h.1, by rw [← hc C hC, ← hv C hC]; exact h.2⟩
  | drop C w x hx hmin h ih =>
    exact .drop _ _ x hx (fun y hy => by rw [← hv C hC, ← hv C hC]; exact hmin y hy) (ih ((Finset.erase_subset _ _).trans hC))

theorem wsum_filter (p : α → Prop) (f : α → Bool) (h : ∀ v ∈ vs, p v → f v = true) : wsum q (vs.filter f) p = wsum q vs p := by
  induction vs with
  | nil => rfl
  | cons v vs ih =>
    have ih := ih (fun u hu => h u (by simp [hu]))
    by_cases hf : f v = true
    · rw [List.filter_cons_of_pos hf, wsum_cons, wsum_cons, ih]
    · rw [List.filter_cons_of_neg hf, wsum_cons, ih, if_neg (fun hp => hf (h v (by simp) hp))]
      simp

theorem wsum_forall₂ {β : Type} {q2 : β → Int} {ws : List β} {p : α → Prop} {r : β → Prop} (h : List.Forall₂ (fun v w => q2 w = q v ∧ (p v ↔ r w)) vs ws) :
    wsum q vs p = wsum q2 ws r := by
  induction h with
  | nil => rfl
  | @cons v w _ _ h _ ih =>
    rw [wsum_cons, wsum_cons, ih, h.1]
    by_cases hp : p v
    · rw [if_pos hp, if_pos (h.2.1 hp)]
    · rw [if_neg hp, if_neg (fun hr => hp (h.2.2 hr))]
end Verif.Runoff

namespace Verif.Props
open Verif Spec Runoff
open Classical

theorem listsOneOf_iff {K : List Str} {v : Voteline} : listsOneOf K v = true ↔ ∃ c ∈ K, c ∈ Dict.keys v.prefs := by
  unfold listsOneOf
  simp

theorem favourite_stays {K : List Str} {v v' : Voteline} (h : SameAmong K v v') {C : Finset Str} (hC : C ⊆ K.toFinset) :
    favourite v' C = favourite v C := by
  have hA : ∀ x ∈ C, x ∈ K := fun x hx => List.mem_toFinset.1 (hC hx)
  obtain ⟨_, h2, h3⟩ := h
  have key : ∀ x : Str, favourite v' C = some x ↔ favourite v C = some x := by
    intro x
    rw [favourite_some, favourite_some]
    constructor
    · rintro ⟨f1, f2, f3⟩
      exact ⟨f1, (h2 x (hA x f1)).1 f2, fun y hy hne => by rw [← h3 x (hA x f1) y (hA y hy)]; exact f3 y hy hne⟩
    · rintro ⟨f1, f2, f3⟩
      exact ⟨f1, (h2 x (hA x f1)).2 f2, fun y hy hne => by rw [h3 x (hA x f1) y (hA y hy)]; exact f3 y hy hne⟩
  cases h1 : favourite v' C with
  | some x => exact ((key x).1 h1).symm
  | none =>
    cases h2 : favourite v C with
    | none => rfl
    | some x => rw [(key x).2 h2] at h1; cases h1

theorem wsum_stays {K : List Str} {m m' : Jabmod} (h : Withdrawal K m m') (p r : Voteline → Prop) (hp : ∀ v, p v → ∃ c ∈ K, c ∈ Dict.keys v.prefs)
    (hr : ∀ v, r v → ∃ c ∈ K, c ∈ Dict.keys v.prefs) (hpr : ∀ v v', SameAmong K v v' → (p v ↔ r v')) :
    wsum Voteline.qty m.votelines p = wsum Voteline.qty m'.votelines r := by
  obtain ⟨l, hl, hf⟩ := h.ballots
  rw [← wsum_filter (q := Voteline.qty) p (listsOneOf K) (fun v _ hv => listsOneOf_iff.2 (hp v hv)),
    ← wsum_filter (q := Voteline.qty) (vs := m'.votelines) r (listsOneOf K) (fun v _ hv => listsOneOf_iff.2 (hr v hv)), ← wsum_perm hl]
  exact wsum_forall₂ (hf.imp (fun v v' hvv => ⟨hvv.1, hpr v v' hvv⟩))

theorem canWin_stays {K : List Str} {m m' : Jabmod} (h : Withdrawal K m m') {C : Finset Str} (hC : C ⊆ K.toFinset) {w : Str}
    (hw : CanWin Voteline.qty favourite m'.votelines C w) : CanWin Voteline.qty favourite m.votelines C w := by
  refine canWin_within (K := K.toFinset) (fun D hD x => ?_) (fun D hD => ?_) hw hC
  · refine (wsum_stays h _ _ ?_ ?_ (fun v v' hvv => by rw [favourite_stays hvv hD])).symm
    all_goals
      intro v hv
      obtain ⟨f1, f2, _⟩ := favourite_some.1 hv
      exact ⟨x, List.mem_toFinset.1 (hD f1), f2⟩
  · refine (wsum_stays h _ _ ?_ ?_ (fun v v' hvv => by rw [favourite_stays hvv hD])).symm
    all_goals
      intro v hv
      obtain ⟨x, hx⟩ := Option.ne_none_iff_exists'.1 hv
      obtain ⟨f1, f2, _⟩ := favourite_some.1 hx
      exact ⟨x, List.mem_toFinset.1 (hD f1), f2⟩

theorem support_stays {K : List Str} {m m' : Jabmod} (h : Withdrawal K m m') {a b : Str} (ha : a ∈ K) (hb : b ∈ K) : support m' a b = support m a b := by
  have e : ∀ vs : List Voteline, qtySum (fun vl => prefers vl a b) vs = wsum Voteline.qty vs (fun vl => prefers vl a b = true) := by
    intro vs
    induction vs with
    | nil => rfl
    | cons v vs ih =>
      rw [qtySum_cons, wsum_cons, ih]
      congr 1
      by_cases hp : prefers v a b = true
      · rw [if_pos hp, if_pos hp]
      · rw [if_neg hp, if_neg hp]
  have hk : ∀ v : Voteline, prefers v a b = true → ∃ c ∈ K, c ∈ Dict.keys v.prefs := by
    intro v hv
    refine ⟨a, ha, ?_⟩
    by_contra hn
    rw [prefers_eq] at hv
    unfold prefersP at hv
    rw [Dict.get?_eq_none.2 hn] at hv
    cases hv
  unfold support
  rw [e, e]
  exact (wsum_stays h _ _ hk hk (fun v v' hvv => by rw [hvv.2.2 a ha b hb])).symm

section
variable {S : Sched} {m : Jabmod} {d : IrvDict} (he : StrictElection m) (hd : irvDict S m = .ok d)
include he hd

theorem round_mem_candidates : ∀ (k : Nat) (rm : RoundMeta), d.run.roundmeta[k]? = some rm → ∀ c ∈ rm.startingCands, c ∈ Dict.keys m.candidates := by
  intro k
  induction k with
  | zero =>
    intro rm hk c hc
    obtain ⟨rf, hf, _, hfc⟩ := (C29_partial _ m d he.countable hd).1
    rw [hf] at hk
    rw [← hfc, Option.some.inj hk]
    exact hc
  | succ k ih =>
    intro rm' hk' c hc
    have hlt : k < d.run.roundmeta.length := by have := (List.getElem?_eq_some_iff.1 hk').1; omega
    have hk : d.run.roundmeta[k]? = some d.run.roundmeta[k] := List.getElem?_eq_getElem hlt
    obtain ⟨cnt, hcnt, _⟩ := run_count he hd hk
    obtain ⟨_, _, e3, _⟩ := run_drop he hd hk hk' hcnt
    refine ih _ hk c ?_
    have : c ∈ rm'.startingCands.toFinset := List.mem_toFinset.2 hc
    rw [e3] at this
    exact List.mem_toFinset.1 (Finset.mem_filter.1 this).1
end

/-- C126, instant runoff.  The count of an election without ties on the ballots is clear cut and ends with one winner.  Candidates withdraw: all who
have been eliminated before one of its rounds, and nobody else.  Then the count without them has the same winner. -/
theorem C126_irv (S S' : Sched) (m m' : Jabmod) (d d' : IrvDict) (he : StrictElection m) (he' : StrictElection m') (hd : irvDict S m = .ok d)
    (hd' : irvDict S' m' = .ok d') (k : Nat) (rm : RoundMeta) (hk : d.run.roundmeta[k]? = some rm) (h : Withdrawal rm.startingCands m m')
    (hcut : ClearCut d) (w : Str) (hw : d.run.winner = [w]) : d'.run.winner = [w] := by
  have hK : (Dict.keys m'.candidates).toFinset = rm.startingCands.toFinset := by
    ext c
    rw [List.mem_toFinset, List.mem_toFinset, h.cands c]
    exact ⟨fun h => h.2, fun h => ⟨round_mem_candidates he hd k rm hk c h, h⟩⟩
  refine run_unique he' hd' (fun w' hw' => ?_)
  rw [hK] at hw'
  exact run_only_at he hd hcut hw hk (canWin_stays h (Finset.Subset.refl _) hw')

/-- C126, Copeland.  If the winner beats every other candidate head to head, any others may withdraw: it is still the only Copeland winner. -/
theorem C126_copeland (K : List Str) (m m' : Jabmod) (h : Withdrawal K m m') (hr' : Spec.AllRanked m') (hn' : (Dict.keys m'.candidates).Nodup) (w : Str)
    (hw : w ∈ Dict.keys m.candidates) (hK : w ∈ K) (hbeat : ∀ c ∈ Dict.keys m.candidates, c ≠ w → support m c w < support m w c) :
    CopelandWinners m' [w] := by
  refine copeland_condorcet m' hr' hn' w ((h.cands w).2 ⟨hw, hK⟩) (fun c hc hcw => ?_)
  obtain ⟨hc1, hc2⟩ := (h.cands c).1 hc
  rw [support_stays h hc2 hK, support_stays h hK hc2]
  exact hbeat c hc1 hcw

theorem losses_stays {K : List Str} {m m' : Jabmod} (h : Withdrawal K m m') (hn : (Dict.keys m.candidates).Nodup) (hn' : (Dict.keys m'.candidates).Nodup)
    (hbeat : ∀ a ∈ Dict.keys m.candidates, a ∈ K → ∀ b ∈ Dict.keys m.candidates, b ∉ K → support m b a < support m a b) {c : Str}
    (hc : c ∈ Dict.keys m'.candidates) : lossesOf m' c = lossesOf m c := by
  obtain ⟨hc1, hc2⟩ := (h.cands c).1 hc
  unfold lossesOf countOpp
  have hp : (m'.candidates.keys.filter (fun b => decide (b ≠ c) && decide (support m' b c > support m' c b))).Perm
      (m.candidates.keys.filter (fun b => decide (b ≠ c) && decide (support m b c > support m c b))) := by
    rw [List.perm_ext_iff_of_nodup (hn'.filter _) (hn.filter _)]
    intro b
    simp only [List.mem_filter, Bool.and_eq_true, decide_eq_true_eq]
    constructor
    · rintro ⟨h1, h2, h3⟩
      obtain ⟨b1, b2⟩ := (h.cands b).1 h1
      rw [support_stays h b2 hc2, support_stays h hc2 b2] at h3
      exact ⟨b1, h2, h3⟩
    · rintro ⟨h1, h2, h3⟩
      by_cases hb : b ∈ K
      · refine ⟨(h.cands b).2 ⟨h1, hb⟩, h2, ?_⟩
        rw [support_stays h hb hc2, support_stays h hc2 hb]
        exact h3
      · have := hbeat c hc1 hc2 b h1 hb
        omega
  rw [hp.length_eq]

/-- C126, Copeland.  If each of some candidates beats every other candidate head to head, the others may withdraw: the Copeland winners are the same. -/
theorem C126_copeland_set (K : List Str) (m m' : Jabmod) (h : Withdrawal K m m') (hr : Spec.AllRanked m) (hr' : Spec.AllRanked m')
    (hn : (Dict.keys m.candidates).Nodup) (hn' : (Dict.keys m'.candidates).Nodup) (hne : ∃ a ∈ Dict.keys m.candidates, a ∈ K)
    (hbeat : ∀ a ∈ Dict.keys m.candidates, a ∈ K → ∀ b ∈ Dict.keys m.candidates, b ∉ K → support m b a < support m a b) :
    ∃ ws ws', CopelandWinners m ws ∧ CopelandWinners m' ws' ∧ ws.Perm ws' := by
  obtain ⟨a, ha, haK⟩ := hne
  have ha' := (h.cands a).2 ⟨ha, haK⟩
  obtain ⟨cc, ws, e1, e2, e3, e4, hiff⟩ := C86_fewest_losses m hr hn (List.ne_nil_of_mem ha)
  obtain ⟨cc', ws', f1, f2, f3, f4, hiff'⟩ := C86_fewest_losses m' hr' hn' (List.ne_nil_of_mem ha')
  have hsm : ∃ cc' ws', fullCopecount m = .ok cc' ∧ copelandWinners cc'.winlosstie = .ok ws' ∧ ws' ≠ [] ∧ ∀ x ∈ ws', x ∈ K :=
    C86_smith m hr hn K ⟨a, haK, ha⟩ (fun d hd1 hd2 x hx hxK => hbeat d hd2 hd1 x hx hxK)
  have hsub : ∀ x ∈ ws, x ∈ K := by
    obtain ⟨cc2, ws2, g1, g2, _, g4⟩ := hsm
    rw [e1] at g1; cases g1
    rw [e2] at g2; cases g2
    exact g4
  have hl : ∀ c ∈ Dict.keys m'.candidates, lossesOf m' c = lossesOf m c := fun c hc => losses_stays h hn hn' hbeat hc
  refine ⟨ws, ws', ⟨cc, e1, e2⟩, ⟨cc', f1, f2⟩, ?_⟩
  rw [List.perm_ext_iff_of_nodup e3 f3]
  intro c
  rw [hiff']
  constructor
  · intro hc
    obtain ⟨c1, c2⟩ := (hiff c).1 hc
    have hc' := (h.cands c).2 ⟨c1, hsub c hc⟩
    refine ⟨hc', fun d hd => ?_⟩
    rw [hl c hc', hl d hd]
    exact c2 d ((h.cands d).1 hd).1
  · rintro ⟨c1, c2⟩
    obtain ⟨x, hx⟩ := List.exists_mem_of_ne_nil _ e4
    obtain ⟨x1, x2⟩ := (hiff x).1 hx
    have hx' := (h.cands x).2 ⟨x1, hsub x hx⟩
    refine (hiff c).2 ⟨((h.cands c).1 c1).1, fun d hd => ?_⟩
    have h1 := c2 x hx'
    rw [hl c c1, hl x hx'] at h1
    have h2 := x2 d hd
    omega

section
attribute [local instance] Uni.ascii
set_option maxRecDepth 40000

theorem withdrawal_of {K : List Str} {m m' : Jabmod} (h1 : ∀ c ∈ Dict.keys m'.candidates, c ∈ Dict.keys m.candidates ∧ c ∈ K)
    (h2 : ∀ c ∈ Dict.keys m.candidates, c ∈ K → c ∈ Dict.keys m'.candidates)
    (h3 : (m.votelines.filter (listsOneOf K)).length = (m'.votelines.filter (listsOneOf K)).length)
    (h4 : ∀ v ∈ (m.votelines.filter (listsOneOf K)).zip (m'.votelines.filter (listsOneOf K)), v.2.qty = v.1.qty ∧
      (∀ x ∈ K, x ∈ Dict.keys v.2.prefs ↔ x ∈ Dict.keys v.1.prefs) ∧ ∀ x ∈ K, ∀ y ∈ K, prefers v.2 x y = prefers v.1 x y) :
    Withdrawal K m m' :=
  ⟨fun c => ⟨h1 c, fun h => h2 c h.1 h.2⟩, _, List.Perm.refl _, forall₂_of_zip h3 h4⟩

def leaverText : Str := c!"6:B>A>D\n5:A>D>C\n3:D>A>B\n1:C>A>D\n1:C\n"
/-- without `C` and `D`, who are eliminated in the first two rounds; one ballot is dropped -/
def leaverText2 : Str := c!"6:B>A\n5:A\n3:A>B\n1:A\n"

/-- `C126_irv` applies -/
example : ∃ (d d' : IrvDict) (rm : RoundMeta), irvDict Sched.std (readText leaverText) = .ok d ∧ irvDict Sched.std (readText leaverText2) = .ok d' ∧
    StrictElection (readText leaverText) ∧ StrictElection (readText leaverText2) ∧ d.run.roundmeta[2]? = some rm ∧ rm.startingCands.length = 2 ∧
    Withdrawal rm.startingCands (readText leaverText) (readText leaverText2) ∧ ClearCut d ∧ d.run.winner = [c!"A"] := by
  have hall : ∀ x ∈ (irvDict Sched.std (readText leaverText)).toOption.toList, (x.run.roundmeta[2]?.map RoundMeta.startingCands) = some [c!"B", c!"A"] ∧
      ∀ k < x.run.roundmeta.length, ∀ rm ∈ x.run.roundmeta[k]?.toList, ∀ rm' ∈ x.run.roundmeta[k + 1]?.toList,
        ∀ cnt ∈ x.run.rounds[k]?.toList, ∀ c ∈ rm'.startingCands, ∀ v ∈ (Dict.get? cnt c).toList,
          (rm.eliminated.map (fun e => (Dict.get? cnt e).getD 0)).sum < v := by decide +kernel
  obtain ⟨d, hd, hw⟩ := irvOf_some (m := readText leaverText) (ws := [c!"A"]) (by decide +kernel)
  obtain ⟨d', hd', _⟩ := irvOf_some (m := readText leaverText2) (ws := [c!"A"]) (by decide +kernel)
  rw [hd] at hall
  obtain ⟨h1, h2⟩ := hall d (by simp [Except.toOption])
  obtain ⟨rm, hrm, hs⟩ := Option.map_eq_some_iff.1 h1
  refine ⟨d, d', rm, hd, hd', strict_text (by decide +kernel) (by decide +kernel) (by decide +kernel) (by unfold Strict; decide +kernel),
    strict_text (by decide +kernel) (by decide +kernel) (by decide +kernel) (by unfold Strict; decide +kernel), hrm, by rw [hs]; rfl, ?_,
    clearCut_of h2, hw⟩
  rw [hs]
  exact withdrawal_of (by decide +kernel) (by decide +kernel) (by decide +kernel) (by decide +kernel)

/-- four voters for `A`, five for `C` and three for `B`, who is in between -/
def pivotText : Str := c!"4:A>B>C\n3:B>A>C\n5:C>B>A\n"
def pivotText2 : Str := c!"4:A>B\n3:B>A\n5:B>A\n"

/-- five candidates in a cycle -/
def fiveText : Str := c!"2:E>B>A>C>D\n1:D>C>E>B>A\n2:A>C>B>D>E\n"
def fiveText2 : Str := c!"2:A>C>D\n1:D>C>A\n2:A>C>D\n"

/-- `C126_copeland` applies: `B` beats both others, and `A` withdraws -/
example : Withdrawal [c!"B", c!"C"] (readText pivotText) (readText c!"4:B>C\n3:B>C\n5:C>B\n") ∧
    ∀ c ∈ Dict.keys (readText pivotText).candidates, c ≠ c!"B" → support (readText pivotText) c c!"B" < support (readText pivotText) c!"B" c :=
  ⟨withdrawal_of (by decide +kernel) (by decide +kernel) (by decide +kernel) (by decide +kernel), by decide +kernel⟩

/-- three candidates in a cycle, and two more -/
def trioText : Str := c!"3:A>B>C>D>E\n3:B>C>A>E>D\n2:C>A>B>D>E\n"

/-- `C126_copeland_set` applies: all three of the cycle win, with the others or without -/
example : Withdrawal [c!"A", c!"B", c!"C"] (readText trioText) (readText c!"3:A>B>C\n3:B>C>A\n2:C>A>B\n") ∧
    (∀ a ∈ Dict.keys (readText trioText).candidates, a ∈ [c!"A", c!"B", c!"C"] → ∀ b ∈ Dict.keys (readText trioText).candidates,
      b ∉ [c!"A", c!"B", c!"C"] → support (readText trioText) b a < support (readText trioText) a b) ∧
    CopelandWinners (readText trioText) [c!"A", c!"B", c!"C"] :=
  ⟨withdrawal_of (by decide +kernel) (by decide +kernel) (by decide +kernel) (by decide +kernel), by decide +kernel, copeland_of (by decide +kernel)⟩

/-- It has to be those who were eliminated first.  `A` wins against `C` in the last round; if `C` withdraws, `B` wins. -/
theorem C126_irv_refuted : ∃ (m m' : Jabmod) (d d' : IrvDict), convertAbif true false false pivotText = .ok m ∧
    convertAbif true false false pivotText2 = .ok m' ∧ StrictElection m ∧ StrictElection m' ∧ Withdrawal [c!"A", c!"B"] m m' ∧
    irvDict Sched.std m = .ok d ∧ ClearCut d ∧ d.run.winner = [c!"A"] ∧ irvDict Sched.std m' = .ok d' ∧ d'.run.winner = [c!"B"] := by
  have hall : ∀ x ∈ (irvDict Sched.std (readText pivotText)).toOption.toList,
      ∀ k < x.run.roundmeta.length, ∀ rm ∈ x.run.roundmeta[k]?.toList, ∀ rm' ∈ x.run.roundmeta[k + 1]?.toList,
        ∀ cnt ∈ x.run.rounds[k]?.toList, ∀ c ∈ rm'.startingCands, ∀ v ∈ (Dict.get? cnt c).toList,
          (rm.eliminated.map (fun e => (Dict.get? cnt e).getD 0)).sum < v := by decide +kernel
  obtain ⟨d, hd, hw⟩ := irvOf_some (m := readText pivotText) (ws := [c!"A"]) (by decide +kernel)
  obtain ⟨d', hd', hw'⟩ := irvOf_some (m := readText pivotText2) (ws := [c!"B"]) (by decide +kernel)
  rw [hd] at hall
  exact ⟨_, _, d, d', readText_eq (by decide +kernel), readText_eq (by decide +kernel),
    strict_text (by decide +kernel) (by decide +kernel) (by decide +kernel) (by unfold Strict; decide +kernel),
    strict_text (by decide +kernel) (by decide +kernel) (by decide +kernel) (by unfold Strict; decide +kernel),
    withdrawal_of (by decide +kernel) (by decide +kernel) (by decide +kernel) (by decide +kernel),
    hd, clearCut_of (hall d (by simp [Except.toOption])), hw, hd', hw'⟩

/-- Of five candidates `C` is the only Copeland winner, beaten by `A` only; without `B` and `E`, `A` is the only one. -/
theorem C126_copeland_refuted : ∃ m m' : Jabmod, convertAbif true false false fiveText = .ok m ∧ convertAbif true false false fiveText2 = .ok m' ∧
    Withdrawal [c!"A", c!"C", c!"D"] m m' ∧ CopelandWinners m [c!"C"] ∧ CopelandWinners m' [c!"A"] :=
  ⟨_, _, readText_eq (by decide +kernel), readText_eq (by decide +kernel),
    withdrawal_of (by decide +kernel) (by decide +kernel) (by decide +kernel) (by decide +kernel), copeland_of (by decide +kernel),
    copeland_of (by decide +kernel)⟩

end
end Verif.Props
