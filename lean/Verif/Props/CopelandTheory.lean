/-
C86: which candidates the Copeland winners can be.
-/
import Verif.Props.Tally
import Verif.Props.ParsedTally
import Verif.Lib.Output
import Verif.Props.IrvPairwise
import Mathlib.Data.List.Forall2

set_option linter.unusedSimpArgs false
set_option linter.unusedSectionVars false

namespace Verif.Props
open Spec

/-- C86.  Since a tie counts as a whole win (C22), the Copeland winners are exactly the candidates beaten by the fewest others. -/
theorem C86_fewest_losses (m : Jabmod) (hr : Spec.AllRanked m) (hn : m.candidates.keys.Nodup) (hne : m.candidates.keys ≠ []) :
    ∃ cc ws, fullCopecount m = .ok cc ∧ copelandWinners cc.winlosstie = .ok ws ∧ ws.Nodup ∧ ws ≠ [] ∧
      ∀ c, c ∈ ws ↔ c ∈ m.candidates.keys ∧ ∀ d ∈ m.candidates.keys, lossesOf m c ≤ lossesOf m d := by
  obtain ⟨cc, ws, rep, e1, e2, _, hws, hnd, _, hiff, _⟩ := C23_copeland m hn hne
  obtain ⟨cc', e1', hperm, _, hscore⟩ := C22_partial m hn
  rw [e1] at e1'
  cases e1'
  refine ⟨cc, ws, e1, e2, hnd, hws, ?_⟩
  -- the scores through losses
  have hcell : ∀ a ∈ m.candidates.keys, ∀ b ∈ m.candidates.keys, a ≠ b → cellNum cc.winningvotes a b = support m a b := by
    intro a ha b hb hab
    have hcc : cc.winningvotes = pairwiseCount m := by
      rw [fullCopecount_eq m hn] at e1
      cases e1; rfl
    unfold cellNum
    rw [hcc, pairwiseCount_support m hr, pairGet_matrixOf ha hb, if_neg hab]
  have hs : ∀ c s, (c, s) ∈ copelandScores2 cc.winlosstie → c ∈ m.candidates.keys ∧ s = 2 * ((m.candidates.keys.length : Int) - 1 - lossesOf m c) := by
    intro c s hcs
    have hc : c ∈ m.candidates.keys := hperm.mem_iff.1 (List.mem_map.2 ⟨_, hcs, rfl⟩)
    refine ⟨hc, ?_⟩
    have h := hscore c s hcs
    have tri := countOpp_trichotomy hn hc (support m)
    have eq : ∀ (p q : Str → Bool), (∀ b ∈ m.candidates.keys, b ≠ c → p b = q b) → countOpp m.candidates.keys c p = countOpp m.candidates.keys c q := by
      intro p q hpq
      unfold countOpp
      congr 2
      apply List.filter_congr
      intro b hb
      by_cases hbc : b = c
      · simp [hbc]
      · rw [hpq b hb hbc]
    rw [eq (fun b => decide (cellNum cc.winningvotes c b > cellNum cc.winningvotes b c)) (fun b => decide (support m c b > support m b c))
        (fun b hb hbc => by rw [hcell c hc b hb (Ne.symm hbc), hcell b hb c hc hbc]),
      eq (fun b => decide (cellNum cc.winningvotes c b = cellNum cc.winningvotes b c)) (fun b => decide (support m c b = support m b c))
        (fun b hb hbc => by rw [hcell c hc b hb (Ne.symm hbc), hcell b hb c hc hbc])] at h
    unfold lossesOf
    omega
  intro c
  rw [hiff]
  constructor
  · rintro ⟨s, h1, h2⟩
    obtain ⟨hc, hs1⟩ := hs c s h1
    refine ⟨hc, fun d hd => ?_⟩
    obtain ⟨⟨d', t⟩, hd', rfl⟩ := List.mem_map.1 (hperm.mem_iff.2 hd)
    have h3 := h2 _ hd'
    have := (hs _ _ hd').2
    simp only at h3 ⊢
    omega
  · rintro ⟨hc, hmin⟩
    obtain ⟨⟨c', s⟩, hc', rfl⟩ := List.mem_map.1 (hperm.mem_iff.2 hc)
    refine ⟨s, hc', ?_⟩
    intro e he
    obtain ⟨g1, g2⟩ := hs e.1 e.2 he
    have := (hs _ _ hc').2
    have h3 := hmin e.1 g1
    simp only at h3
    omega

theorem countOpp_le {toks : List Str} {a b : Str} {p q : Str → Bool} (h : ∀ c ∈ toks, c ≠ a → p c = true → c ≠ b ∧ q c = true) :
    countOpp toks a p ≤ countOpp toks b q := by
  unfold countOpp
  have : (toks.filter (fun c => decide (c ≠ a) && p c)).length ≤ (toks.filter (fun c => decide (c ≠ b) && q c)).length := by
    rw [← List.countP_eq_length_filter, ← List.countP_eq_length_filter]
    apply List.countP_mono_left
    intro c hc hp
    simp only [Bool.and_eq_true, decide_eq_true_eq] at hp ⊢
    exact h c hc hp.1 hp.2
  exact_mod_cast this

theorem countOpp_lt {toks : List Str} {a b x : Str} {p q : Str → Bool} (h : ∀ c ∈ toks, c ≠ a → p c = true → c ≠ b ∧ q c = true)
    (hx : x ∈ toks) (hxb : x ≠ b) (hq : q x = true) (hxa : x = a ∨ p x = false) : countOpp toks a p < countOpp toks b q := by
  unfold countOpp
  have : (toks.filter (fun c => decide (c ≠ a) && p c)).length < (toks.filter (fun c => decide (c ≠ b) && q c)).length := by
    have e : toks.filter (fun c => decide (c ≠ a) && p c) = (toks.filter (fun c => decide (c ≠ b) && q c)).filter (fun c => decide (c ≠ a) && p c) := by
      rw [List.filter_filter]
      apply List.filter_congr
      intro c hc
      by_cases hca : c = a
      · simp [hca]
      · by_cases hp : p c = true
        · obtain ⟨h1, h2⟩ := h c hc hca hp
          simp [hca, hp, h1, h2]
        · simp [hp]
    rw [e, List.length_filter_lt_length_iff_exists]
    refine ⟨x, List.mem_filter.2 ⟨hx, by simp [hxb, hq]⟩, ?_⟩
    rcases hxa with rfl | hp
    · simp
    · simp [hp]
  exact_mod_cast this

/-- C86, Smith criterion: if every candidate of a group beats every candidate outside it, head to head, all Copeland winners
belong to the group. -/
theorem C86_smith (m : Jabmod) (hr : Spec.AllRanked m) (hn : m.candidates.keys.Nodup) (D : List Str)
    (hD : ∃ d ∈ D, d ∈ m.candidates.keys)
    (hdom : ∀ d ∈ D, d ∈ m.candidates.keys → ∀ x ∈ m.candidates.keys, x ∉ D → support m d x > support m x d) :
    ∃ cc ws, fullCopecount m = .ok cc ∧ copelandWinners cc.winlosstie = .ok ws ∧ ws ≠ [] ∧ ∀ w ∈ ws, w ∈ D := by
  obtain ⟨d, hdD, hd⟩ := hD
  obtain ⟨cc, ws, e1, e2, _, e3, hiff⟩ := C86_fewest_losses m hr hn (List.ne_nil_of_mem hd)
  refine ⟨cc, ws, e1, e2, e3, ?_⟩
  intro w hw
  by_contra hwD
  obtain ⟨hwm, hmin⟩ := (hiff w).1 hw
  have h1 := hmin d hd
  have h2 : lossesOf m d < lossesOf m w := by
    unfold lossesOf
    refine countOpp_lt (x := d) ?_ hd (by rintro rfl; exact hwD hdD) (by simpa using hdom d hdD hd w hwm hwD) (.inl rfl)
    intro c hc hcd hp
    have hp' : support m c d > support m d c := by simpa using hp
    by_cases hcD : c ∈ D
    · exact ⟨by rintro rfl; exact hwD hcD, by simpa using hdom c hcD hc w hwm hwD⟩
    · have := hdom d hdD hd c hc hcD
      omega
  omega

/-- C86: a candidate beaten by every other is not a Copeland winner (when there is another), nor is it announced as the STAR
winner. -/
theorem C86_loser (m : Jabmod) (hr : Spec.AllRanked m) (hn : m.candidates.keys.Nodup) (l : Str) (hl : CondorcetLoser m l)
    (h2 : ∃ x ∈ m.candidates.keys, x ≠ l) :
    ∃ cc ws, fullCopecount m = .ok cc ∧ copelandWinners cc.winlosstie = .ok ws ∧ l ∉ ws := by
  obtain ⟨x, hx, hxl⟩ := h2
  obtain ⟨cc, ws, e1, e2, _, h⟩ := C86_smith m hr hn (m.candidates.keys.filter (fun c => decide (c ≠ l)))
    ⟨x, List.mem_filter.2 ⟨hx, by simpa using hxl⟩, hx⟩ (by
      intro d hd hdm y hy hyD
      have hdl : d ≠ l := by simpa using (List.mem_filter.1 hd).2
      have hyl : y = l := by
        by_contra hne
        exact hyD (List.mem_filter.2 ⟨hy, by simpa using hne⟩)
      rw [hyl]
      exact hl d hdm hdl)
  refine ⟨cc, ws, e1, e2, fun hw => ?_⟩
  have := (List.mem_filter.1 (h l hw)).2
  simp at this

theorem C86_loser_star [Uni] (m : Jabmod) (h : Scorable m) (hr : Spec.AllRanked m)
    (hbc : Dict.get? m.metadata c!"ballotcount" = some (.int (m.votelines.map Voteline.qty).sum)) (h2 : 2 ≤ m.candidates.length)
    (l : Str) (hl : CondorcetLoser m l) :
    ∃ r, starResult m = .ok r ∧ (r.fin1 = l → r.winner = .won r.fin2n) ∧ (r.fin2 = l → r.winner = .won r.fin1n) := by
  obtain ⟨r, hs, m1, m2, hne, _, _, _, _, v1, v2, hw, _⟩ := C26_star m h hr hbc h2
  refine ⟨r, hs, fun e => ?_, fun e => ?_⟩
  · have := hl r.fin2 m2 (by rw [← e]; exact Ne.symm hne)
    rw [← e] at this
    rcases hw with ⟨_, g⟩ | ⟨g, _⟩ | ⟨_, g⟩
    · omega
    · exact g
    · omega
  · have := hl r.fin1 m1 (by rw [← e]; exact hne)
    rw [← e] at this
    rcases hw with ⟨g, _⟩ | ⟨_, g⟩ | ⟨_, g⟩
    · exact g
    · omega
    · omega

/-- The second line puts `w` nowhere lower than the first and does not change the order of the others. -/
def Raises (w : Str) (v v' : Voteline) : Prop :=
  (∀ b, prefers v w b = true → prefers v' w b = true) ∧ (∀ b, prefers v' b w = true → prefers v b w = true) ∧
  (∀ b c, b ≠ w → c ≠ w → prefers v' b c = prefers v b c)

theorem qtySum_mono {p q : Voteline → Bool} {l l' : List Voteline} {R : Voteline → Voteline → Prop}
    (h : List.Forall₂ (fun v v' => v.qty = v'.qty ∧ 0 ≤ v.qty ∧ R v v') l l') (hpq : ∀ v v', R v v' → p v = true → q v' = true) :
    qtySum p l ≤ qtySum q l' := by
  induction h with
  | nil => exact Int.le_refl _
  | @cons v v' l l' h _ ih =>
    rw [qtySum_cons, qtySum_cons]
    cases hp : p v
    · simp only [Bool.false_eq_true, if_false]
      split <;> omega
    · rw [hpq v v' h.2.2 hp]
      simp only [if_true]
      omega

/-- C86, monotonicity: a Copeland winner that voters move up stays a Copeland winner, and nobody else becomes one. -/
theorem C86_monotone (m m' : Jabmod) (hc : m'.candidates = m.candidates) (hr : Spec.AllRanked m) (hr' : Spec.AllRanked m')
    (hn : m.candidates.keys.Nodup) (w : Str)
    (h : List.Forall₂ (fun v v' => v.qty = v'.qty ∧ 0 ≤ v.qty ∧ Raises w v v') m.votelines m'.votelines)
    (cc : Copecount) (ws : List Str) (e1 : fullCopecount m = .ok cc) (e2 : copelandWinners cc.winlosstie = .ok ws) (hw : w ∈ ws) :
    ∃ cc' ws', fullCopecount m' = .ok cc' ∧ copelandWinners cc'.winlosstie = .ok ws' ∧ w ∈ ws' ∧ ∀ x ∈ ws', x ∈ ws := by
  have hne : m.candidates.keys ≠ [] := by
    intro h0
    rw [fullCopecount_eq m hn] at e1
    cases e1
    simp only [h0] at e2
    cases e2
  obtain ⟨cc0, ws0, f1, f2, _, _, hiff⟩ := C86_fewest_losses m hr hn hne
  rw [e1] at f1; cases f1
  rw [e2] at f2; cases f2
  obtain ⟨cc', ws', g1, g2, _, _, hiff'⟩ := C86_fewest_losses m' hr' (by rw [hc]; exact hn) (by rw [hc]; exact hne)
  have hback : List.Forall₂ (fun v' v => v'.qty = v.qty ∧ 0 ≤ v'.qty ∧ Raises w v v') m'.votelines m.votelines := by
    have := h.flip
    exact this.imp (fun v' v hv => ⟨hv.1.symm, by rw [← hv.1]; exact hv.2.1, hv.2.2⟩)
  have up : ∀ b, support m w b ≤ support m' w b := fun b => qtySum_mono h (fun v v' r hp => r.1 b hp)
  have down : ∀ b, support m' b w ≤ support m b w := fun b => qtySum_mono hback (fun v' v r hp => r.2.1 b hp)
  have same : ∀ b c, b ≠ w → c ≠ w → support m' b c = support m b c := by
    intro b c hb hcw
    apply Int.le_antisymm
    · exact qtySum_mono hback (fun v' v r hp => by rw [← r.2.2 b c hb hcw]; exact hp)
    · exact qtySum_mono h (fun v v' r hp => by rw [r.2.2 b c hb hcw]; exact hp)
  have hlw : lossesOf m' w ≤ lossesOf m w := by
    unfold lossesOf
    rw [hc]
    apply countOpp_le
    intro c _ hcw hp
    have h1 := up c; have h2 := down c
    simp only [decide_eq_true_eq] at hp ⊢
    exact ⟨hcw, by omega⟩
  have hlx : ∀ x, x ≠ w → lossesOf m x ≤ lossesOf m' x := by
    intro x hx
    unfold lossesOf
    rw [hc]
    apply countOpp_le
    intro c _ hcx hp
    simp only [decide_eq_true_eq] at hp ⊢
    refine ⟨hcx, ?_⟩
    by_cases hcw : c = w
    · subst hcw
      have h1 := up x; have h2 := down x
      omega
    · rw [same c x hcw hx, same x c hx hcw]; exact hp
  obtain ⟨hwm, hmin⟩ := (hiff w).1 hw
  refine ⟨cc', ws', g1, g2, ?_, ?_⟩
  · rw [hiff', hc]
    refine ⟨hwm, fun d hd => ?_⟩
    by_cases hdw : d = w
    · rw [hdw]; exact Int.le_refl _
    · exact Int.le_trans hlw (Int.le_trans (hmin d hd) (hlx d hdw))
  · intro x hx
    by_cases hxw : x = w
    · rw [hxw]; exact hw
    · obtain ⟨hxm, hxmin⟩ := (hiff' x).1 hx
      rw [hc] at hxm hxmin
      rw [hiff]
      refine ⟨hxm, fun d hd => ?_⟩
      have a1 := hxmin w hwm
      have a2 := hlx x hxw
      have a3 := hmin d hd
      omega

theorem prefers_trans_left {v : Voteline} {a b c : Str} (h : prefers v a b = true) (h' : prefers v b c = true) : prefers v a c = true := by
  unfold prefers at h h' ⊢
  revert h h'
  cases rankOf v a <;> cases rankOf v b <;> cases rankOf v c <;> simp
  omega

/-- C86, Pareto: a candidate to which all voters prefer another one is not a Copeland winner. -/
theorem C86_pareto (m : Jabmod) (hr : Spec.AllRanked m) (hn : m.candidates.keys.Nodup) (a b : Str) (ha : a ∈ m.candidates.keys)
    (hall : ∀ vl ∈ m.votelines, 0 ≤ vl.qty ∧ prefers vl a b = true) (hsome : ∃ vl ∈ m.votelines, 0 < vl.qty) :
    ∃ cc ws, fullCopecount m = .ok cc ∧ copelandWinners cc.winlosstie = .ok ws ∧ b ∉ ws := by
  obtain ⟨cc, ws, e1, e2, _, _, hiff⟩ := C86_fewest_losses m hr hn (List.ne_nil_of_mem ha)
  refine ⟨cc, ws, e1, e2, fun hb => ?_⟩
  obtain ⟨hbm, hmin⟩ := (hiff b).1 hb
  have hsame : List.Forall₂ (fun v v' : Voteline => v.qty = v'.qty ∧ 0 ≤ v.qty ∧ (v = v' ∧ prefers v a b = true)) m.votelines m.votelines := by
    have : ∀ l : List Voteline, (∀ vl ∈ l, 0 ≤ vl.qty ∧ prefers vl a b = true) →
        List.Forall₂ (fun v v' : Voteline => v.qty = v'.qty ∧ 0 ≤ v.qty ∧ (v = v' ∧ prefers v a b = true)) l l := by
      intro l
      induction l with
      | nil => exact fun _ => .nil
      | cons v l ih => exact fun h => .cons ⟨rfl, (h v (by simp)).1, rfl, (h v (by simp)).2⟩ (ih (fun x hx => h x (by simp [hx])))
    exact this _ hall
  -- b loses to a
  have hzero : support m b a = 0 := by
    unfold support qtySum
    rw [List.filter_eq_nil_iff.2]
    · rfl
    · intro v hv hp
      have h1 := (hall v hv).2
      have := prefers_trans_left h1 hp
      unfold prefers at this
      revert this
      cases rankOf v a <;> simp
  have hpos : 0 < support m a b := by
    obtain ⟨vl, hvl, hq⟩ := hsome
    have : ∀ l : List Voteline, (∀ v ∈ l, 0 ≤ v.qty) → 0 ≤ qtySum (fun vl => prefers vl a b) l := by
      intro l
      induction l with
      | nil => intro _; exact Int.le_refl _
      | cons v l ih =>
        intro h
        rw [qtySum_cons]
        have h1 := ih (fun x hx => h x (by simp [hx]))
        have h2 := h v (by simp)
        split <;> omega
    unfold support
    obtain ⟨l1, l2, e⟩ := List.append_of_mem hvl
    rw [e, qtySum_append, qtySum_cons, if_pos (hall vl hvl).2]
    have h1 := this l1 (fun v hv => (hall v (by rw [e]; simp [hv])).1)
    have h2 := this l2 (fun v hv => (hall v (by rw [e]; simp [hv])).1)
    omega
  have hab : a ≠ b := by
    rintro rfl
    rw [hzero] at hpos
    omega
  have h2 : lossesOf m a < lossesOf m b := by
    unfold lossesOf
    refine countOpp_lt (x := a) ?_ ha hab (by simpa using by omega) (.inl rfl)
    intro c hc hca hp
    have hp' : support m c a > support m a c := by simpa using hp
    have hcb : c ≠ b := by
      rintro rfl
      omega
    refine ⟨hcb, ?_⟩
    have i1 : support m c a ≤ support m c b := qtySum_mono hsame (fun v v' r hp => by rw [← r.1]; exact prefers_trans_left hp r.2)
    have i2 : support m b c ≤ support m a c := qtySum_mono hsame (fun v v' r hp => by rw [← r.1]; exact prefers_trans_left r.2 hp)
    simp only [decide_eq_true_eq]
    omega
  have := hmin a ha
  omega

/-! ### examples -/

/-- `Raises` needs to be checked for the listed candidates only -/
theorem raises_of_listed {w : Str} {v v' : Voteline} (K : List Str) (hK : ∀ c, c ∈ Dict.keys v.prefs ∨ c ∈ Dict.keys v'.prefs → c ∈ K)
    (h1 : ∀ b ∈ K, prefers v w b = true → prefers v' w b = true) (h2 : ∀ b ∈ K, prefers v' b w = true → prefers v b w = true)
    (h3 : ∀ b ∈ K, ∀ c ∈ K, b ≠ w → c ≠ w → prefers v' b c = prefers v b c)
    (h4 : ∀ b ∈ w :: K, (rankOf v b).isSome = (rankOf v' b).isSome) : Raises w v v' := by
  have none_of : ∀ b, b ∉ K → rankOf v b = none ∧ rankOf v' b = none := by
    intro b hb
    unfold rankOf
    rw [Dict.get?_eq_none.2 (fun h => hb (hK b (.inl h))), Dict.get?_eq_none.2 (fun h => hb (hK b (.inr h)))]
    exact ⟨rfl, rfl⟩
  have right : ∀ x : Voteline, ∀ a b, rankOf x b = none → prefers x a b = (rankOf x a).isSome := by
    intro x a b hb
    unfold prefers
    rw [hb]
    cases rankOf x a <;> rfl
  have left : ∀ x : Voteline, ∀ a b, rankOf x a = none → prefers x a b = false := by
    intro x a b ha
    unfold prefers
    rw [ha]
  refine ⟨fun b hp => ?_, fun b hp => ?_, fun b c hb hc => ?_⟩
  · by_cases hbK : b ∈ K
    · exact h1 b hbK hp
    · rw [right v w b (none_of b hbK).1, h4 w (by simp)] at hp
      rw [right v' w b (none_of b hbK).2]; exact hp
  · by_cases hbK : b ∈ K
    · exact h2 b hbK hp
    · rw [left v' b w (none_of b hbK).2] at hp; cases hp
  · by_cases hbK : b ∈ K
    · by_cases hcK : c ∈ K
      · exact h3 b hbK c hcK hb hc
      · rw [right v' b c (none_of c hcK).2, right v b c (none_of c hcK).1, h4 b (by simp [hbK])]
    · rw [left v' b c (none_of b hbK).2, left v b c (none_of b hbK).1]

section
attribute [local instance] Uni.ascii
set_option maxRecDepth 20000

/-- a cycle A > B > C > A, and L below them all -/
def cycleText : Str := c!"2:A>B>C>L\n2:B>C>A>L\n2:C>A>B>L\n"
/-- the same after the second group moved A up -/
def raisedText : Str := c!"2:A>B>C>L\n2:B>A>C>L\n2:C>A>B>L\n"
/-- the parsed examples -/
def cycleModel : Jabmod := (convertAbif true false false cycleText).toOption.getD emptyishJabmod
def raisedModel : Jabmod := (convertAbif true false false raisedText).toOption.getD emptyishJabmod

theorem cycleModel_parsed : convertAbif true false false cycleText = .ok cycleModel := by
  unfold cycleModel
  have h : (convertAbif true false false cycleText).toOption.isSome = true := by decide +kernel
  cases hc : convertAbif true false false cycleText with
  | error e => rw [hc] at h; cases h
  | ok m => rfl

theorem raisedModel_parsed : convertAbif true false false raisedText = .ok raisedModel := by
  unfold raisedModel
  have h : (convertAbif true false false raisedText).toOption.isSome = true := by decide +kernel
  cases hc : convertAbif true false false raisedText with
  | error e => rw [hc] at h; cases h
  | ok m => rfl

/-- the Copeland winners, for the examples -/
def copeOf (m : Jabmod) : Option (List Str) := (fullCopecount m >>= fun cc => copelandWinners cc.winlosstie).toOption

example : copeOf cycleModel = some [c!"A", c!"B", c!"C"] ∧ copeOf raisedModel = some [c!"A"] := by decide +kernel
example : Spec.AllRanked cycleModel := parsed_allRanked _ _ _ _ _ cycleModel_parsed (by decide +kernel)
/-- the group {A, B, C} of `C86_smith` -/
example : ∀ d ∈ [c!"A", c!"B", c!"C"], d ∈ cycleModel.candidates.keys → ∀ x ∈ cycleModel.candidates.keys, x ∉ [c!"A", c!"B", c!"C"] →
    support cycleModel d x > support cycleModel x d := by decide +kernel
example : CondorcetLoser cycleModel c!"L" := by unfold CondorcetLoser; decide +kernel
/-- `C86_pareto`: all prefer A to L -/
example : (∀ vl ∈ cycleModel.votelines, 0 ≤ vl.qty ∧ prefers vl c!"A" c!"L" = true) ∧ ∃ vl ∈ cycleModel.votelines, 0 < vl.qty := by decide +kernel
/-- `C86_monotone`: A is moved up -/
example : List.Forall₂ (fun v v' => v.qty = v'.qty ∧ 0 ≤ v.qty ∧ Raises c!"A" v v') cycleModel.votelines raisedModel.votelines := by
  have h : cycleModel.votelines.length = raisedModel.votelines.length ∧ ∀ x ∈ cycleModel.votelines.zip raisedModel.votelines,
      x.1.qty = x.2.qty ∧ 0 ≤ x.1.qty ∧
      (∀ b ∈ [c!"A", c!"B", c!"C", c!"L"], prefers x.1 c!"A" b = true → prefers x.2 c!"A" b = true) ∧
      (∀ b ∈ [c!"A", c!"B", c!"C", c!"L"], prefers x.2 b c!"A" = true → prefers x.1 b c!"A" = true) ∧
      (∀ b ∈ [c!"A", c!"B", c!"C", c!"L"], ∀ c ∈ [c!"A", c!"B", c!"C", c!"L"], b ≠ c!"A" → c ≠ c!"A" → prefers x.2 b c = prefers x.1 b c) ∧
      (∀ b ∈ c!"A" :: [c!"A", c!"B", c!"C", c!"L"], (rankOf x.1 b).isSome = (rankOf x.2 b).isSome) ∧
      (∀ c ∈ Dict.keys x.1.prefs ++ Dict.keys x.2.prefs, c ∈ [c!"A", c!"B", c!"C", c!"L"]) := by decide +kernel
  refine List.forall₂_iff_zip.2 ⟨h.1, fun {a b} hab => ?_⟩
  obtain ⟨g1, g2, g3, g4, g5, g6, g7⟩ := h.2 (a, b) hab
  exact ⟨g1, g2, raises_of_listed [c!"A", c!"B", c!"C", c!"L"] (fun c hc => g7 c (List.mem_append.2 hc)) g3 g4 g5 g6⟩

end

end Verif.Props
