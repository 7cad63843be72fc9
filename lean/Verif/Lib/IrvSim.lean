/-
Helper lemmas: sums over classes of ballots; two instant-runoff counts side by side.
-/
import Verif.Lib.IrvExact
import Verif.Lib.IrvStrict
import Verif.Spec.Order
import Mathlib.Data.List.Forall2

set_option linter.unusedSimpArgs false
set_option linter.unusedSectionVars false

namespace Verif
open Spec

/-! ### sums over classes -/

theorem qtySum_split (p q : Voteline → Bool) (l : List Voteline) :
    qtySum p l = qtySum p (l.filter q) + qtySum p (l.filter (fun v => !q v)) := by
  induction l with
  | nil => rfl
  | cons v l ih =>
    rw [qtySum_cons, ih]
    cases h : q v
    · rw [List.filter_cons_of_neg (by simp [h]), List.filter_cons_of_pos (by simp [h]), qtySum_cons]; omega
    · rw [List.filter_cons_of_pos (by simp [h]), List.filter_cons_of_neg (by simp [h]), qtySum_cons]; omega

theorem qtySum_const {p : Voteline → Bool} {b : Bool} {l : List Voteline} (h : ∀ v ∈ l, p v = b) :
    qtySum p l = if b then qtySum (fun _ => true) l else 0 := by
  unfold qtySum
  cases b
  · rw [List.filter_eq_nil_iff.2 (fun v hv => by simp [h v hv])]; rfl
  · rw [List.filter_eq_self.2 (fun v hv => by simp [h v hv])]; simp

theorem qtySum_all_filter (q : Voteline → Bool) (l : List Voteline) : qtySum (fun _ => true) (l.filter q) = qtySum q l := by
  unfold qtySum
  rw [List.filter_eq_self.2 (by simp)]

open Classical in
/-- a sum of quantities is determined by the sums over the classes of an equivalence -/
theorem qtySum_classes {R : Voteline → Voteline → Prop} (hr : ∀ v, R v v) (hs : ∀ v w, R v w → R w v)
    (ht : ∀ u v w, R u v → R v w → R u w) (P : Voteline → Prop) (p : Voteline → Bool)
    (hp : ∀ v w, P v → P w → R v w → p v = p w) : ∀ (n : Nat) (l l' : List Voteline), l.length + l'.length ≤ n →
    (∀ v ∈ l, P v) → (∀ v ∈ l', P v) → (∀ v, holders R l v = holders R l' v) → qtySum p l = qtySum p l'
  | 0, l, l', hn, _, _, _ => by
    have h1 : l = [] := List.length_eq_zero_iff.1 (by omega)
    have h2 : l' = [] := List.length_eq_zero_iff.1 (by omega)
    rw [h1, h2]
  | n + 1, l, l', hn, hl, hl', h => by
    by_cases hne : l ++ l' = []
    · rw [List.append_eq_nil_iff] at hne
      rw [hne.1, hne.2]
    obtain ⟨v, hv⟩ := List.exists_mem_of_ne_nil _ hne
    have hPv : P v := by
      rcases List.mem_append.1 hv with hv | hv
      · exact hl v hv
      · exact hl' v hv
    let same : Voteline → Bool := fun u => decide (R u v)
    have hclass : ∀ (l : List Voteline), (∀ u ∈ l, P u) → qtySum p (l.filter same) = if p v then holders R l v else 0 := by
      intro l hl
      rw [qtySum_const (b := p v) (fun u hu => ?_), qtySum_all_filter]
      · rfl
      · obtain ⟨h1, h2⟩ := List.mem_filter.1 hu
        exact hp u v (hl u h1) hPv (by simpa [same] using h2)
    have hshort : (l.filter (fun u => !same u)).length + (l'.filter (fun u => !same u)).length ≤ n := by
      have a1 := List.length_filter_le (fun u => !same u) l
      have a2 := List.length_filter_le (fun u => !same u) l'
      have hstrict : ∀ l : List Voteline, v ∈ l → (l.filter (fun u => !same u)).length < l.length := by
        intro l hv
        rw [List.length_filter_lt_length_iff_exists]
        exact ⟨v, hv, by simp [same, hr]⟩
      rcases List.mem_append.1 hv with hv | hv
      · have := hstrict l hv; omega
      · have := hstrict l' hv; omega
    have hrest : ∀ (l : List Voteline) (u : Voteline), holders R (l.filter (fun u => !same u)) u = if R u v then 0 else holders R l u := by
      intro l u
      unfold holders
      by_cases hu : R u v
      · rw [if_pos hu, qtySum_const (b := false)]
        · rfl
        · intro w hw
          obtain ⟨_, h2⟩ := List.mem_filter.1 hw
          simp only [same, Bool.not_eq_true', decide_eq_false_iff_not] at h2 ⊢
          exact fun h => h2 (ht _ _ _ h hu)
      · rw [if_neg hu, qtySum_split _ same l, qtySum_const (b := false) (l := l.filter same)]
        · simp
        · intro w hw
          obtain ⟨_, h2⟩ := List.mem_filter.1 hw
          simp only [same, decide_eq_true_eq, decide_eq_false_iff_not] at h2 ⊢
          exact fun h => hu (ht _ _ _ (hs _ _ h) h2)
    rw [qtySum_split p same l, qtySum_split p same l', hclass l hl, hclass l' hl', h v]
    rw [qtySum_classes hr hs ht P p hp n _ _ hshort (fun u hu => hl u (List.mem_filter.1 hu).1)
      (fun u hu => hl' u (List.mem_filter.1 hu).1) (fun u => by rw [hrest, hrest, h u])]

theorem Spec.AgreeOn.refl {C : List Str} (v : Voteline) : AgreeOn C v v := fun _ _ _ _ => rfl
theorem Spec.AgreeOn.symm {C : List Str} {v w : Voteline} (h : AgreeOn C v w) : AgreeOn C w v := fun a ha b hb => (h a ha b hb).symm
theorem Spec.AgreeOn.trans {C : List Str} {u v w : Voteline} (h : AgreeOn C u v) (h' : AgreeOn C v w) : AgreeOn C u w :=
  fun a ha b hb => (h a ha b hb).trans (h' a ha b hb)

theorem Spec.SameOrder.refl (v : Voteline) : SameOrder v v := ⟨fun _ => Iff.rfl, .refl v⟩
theorem Spec.SameOrder.symm {v w : Voteline} (h : SameOrder v w) : SameOrder w v :=
  ⟨fun c => (h.1 c).symm, fun a ha b hb => (h.2 a ((h.1 a).2 ha) b ((h.1 b).2 hb)).symm⟩
theorem Spec.SameOrder.trans {u v w : Voteline} (h : SameOrder u v) (h' : SameOrder v w) : SameOrder u w :=
  ⟨fun c => (h.1 c).trans (h'.1 c), fun a ha b hb => (h.2 a ha b hb).trans (h'.2 a ((h.1 a).1 ha) b ((h.1 b).1 hb))⟩

/-- the weight of lists related line by line -/
theorem holders_forall₂ {R T : Voteline → Voteline → Prop} (hs : ∀ v w, R v w → R w v)
    (ht : ∀ u v w, R u v → R v w → R u w) (hT : ∀ v w, T v w → R v w) {l l' : List Voteline}
    (h : List.Forall₂ (fun v w => v.qty = w.qty ∧ T v w) l l') (u : Voteline) : holders R l u = holders R l' u := by
  classical
  unfold holders
  induction h with
  | nil => rfl
  | @cons v w l l' h _ ih =>
    rw [qtySum_cons, qtySum_cons, ih, h.1]
    have : (decide (R v u)) = decide (R w u) := by
      rw [decide_eq_decide]
      exact ⟨fun k => ht _ _ _ (hs _ _ (hT _ _ h.2)) k, fun k => ht _ _ _ (hT _ _ h.2) k⟩
    rw [this]

/-! ### what a ballot counts for depends on its order alone -/

theorem tops_sameOrder {v w : Voteline} (h : SameOrder v w) (c : Str) : c ∈ tops v ↔ c ∈ tops w := by
  rw [mem_tops, mem_tops]
  constructor
  · rintro ⟨h1, h2⟩
    refine ⟨(h.1 c).1 h1, fun d hd => ?_⟩
    rw [← h.2 d ((h.1 d).2 hd) c h1]
    exact h2 d ((h.1 d).2 hd)
  · rintro ⟨h1, h2⟩
    refine ⟨(h.1 c).2 h1, fun d hd => ?_⟩
    rw [h.2 d hd c ((h.1 c).2 h1)]
    exact h2 d ((h.1 d).1 hd)

theorem overvoted_sameOrder {v w : Voteline} (h : SameOrder v w) (hv : Dict.WF v.prefs) (hw : Dict.WF w.prefs) : overvoted v = overvoted w := by
  have n1 : (tops v).Nodup := List.Nodup.sublist List.filter_sublist hv
  have n2 : (tops w).Nodup := List.Nodup.sublist List.filter_sublist hw
  have hp : (tops v).Perm (tops w) := (List.perm_ext_iff_of_nodup n1 n2).2 (tops_sameOrder h)
  unfold overvoted
  rw [hp.length_eq]

theorem firstAlone_sameOrder {v w : Voteline} (h : SameOrder v w) (c : Str) : firstAlone c v = firstAlone c w := by
  have key : ∀ v w : Voteline, SameOrder v w → firstAlone c v = true → firstAlone c w = true := by
    intro v w h hf
    have hind : ∀ a ∈ Dict.keys v.prefs, ∀ b ∈ Dict.keys v.prefs, indifferent v a b = indifferent w a b := by
      intro a ha b hb
      unfold indifferent
      rw [h.2 a ha b hb, h.2 b hb a ha]
    unfold firstAlone at hf ⊢
    simp only [Bool.and_eq_true, decide_eq_true_eq, List.all_eq_true, Bool.or_eq_true, Bool.not_eq_true', List.any_eq_true] at hf ⊢
    obtain ⟨⟨h1, h2⟩, h3⟩ := hf
    refine ⟨⟨(h.1 c).1 h1, fun d hd => ?_⟩, fun d hd => ?_⟩
    · have hd' := (h.1 d).2 hd
      rw [← hind c h1 d hd']; exact h2 d hd'
    · have hd' := (h.1 d).2 hd
      rw [← h.2 d hd' c h1]
      rcases h3 d hd' with k | ⟨e, he, k1, k2⟩
      · exact .inl k
      · exact .inr ⟨e, (h.1 e).1 he, k1, by rw [← hind d hd' e he]; exact k2⟩
  rw [Bool.eq_iff_iff]
  exact ⟨key v w h, key w v h.symm⟩

theorem topOf_sameOrder {v w : Voteline} (h : SameOrder v w) (hv : CountLine v) (hw : CountLine w) : topOf v = topOf w := by
  apply Option.ext
  intro c
  have h1 := topOf_exact hv c
  have h2 := topOf_exact hw c
  rw [firstAlone_sameOrder h, ← h2] at h1
  have := Bool.eq_iff_iff.1 h1
  simpa using this

theorem sameOrder_filter {v w : Voteline} (h : SameOrder v w) (p : Str → Bool) :
    SameOrder { v with prefs := v.prefs.filter (fun e => p e.1) } { w with prefs := w.prefs.filter (fun e => p e.1) } := by
  refine ⟨fun c => ?_, ?_⟩
  · show c ∈ Dict.keys (v.prefs.filter (fun e => p e.1)) ↔ c ∈ Dict.keys (w.prefs.filter (fun e => p e.1))
    rw [mem_keys_filterKey, mem_keys_filterKey, h.1 c]
  · intro a ha b hb
    obtain ⟨ha1, ha2⟩ := mem_keys_filterKey.1 ha
    obtain ⟨hb1, hb2⟩ := mem_keys_filterKey.1 hb
    rw [prefers_filter ha2 hb2, prefers_filter ha2 hb2]
    exact h.2 a ha1 b hb1

/-! ### two counts side by side -/

/-- two counts whose votelines stay in a relation that fixes every number of the round are equal -/
theorem irvCount_sim (S : Sched) (R : List Voteline → List Voteline → Prop)
    (hR : ∀ vls vls', R vls vls' → ∃ q kept kept', discardOvervotes vls = .ok (q, kept) ∧ discardOvervotes vls' = .ok (q, kept') ∧
      (∀ c, tally kept' c = tally kept c) ∧ exhaustedQty kept' = exhaustedQty kept ∧ qtot vls' = qtot vls ∧ qtot kept' = qtot kept ∧
      ∀ el, R (eliminateCands el kept) (eliminateCands el kept')) :
    ∀ (n : Nat) (prev : Option RoundMeta) (rn : Nat) (cands : List Str) (vls vls' : List Voteline), IrvState cands vls →
      IrvState cands vls' → cands ≠ [] → R vls vls' → irvCount S n prev rn cands vls' = irvCount S n prev rn cands vls
  | 0, _, _, _, _, _, _, _, _, _ => rfl
  | n + 1, prev, rn, cands, vls, vls', hs, hs', hne, hrel => by
    obtain ⟨q, kept, mn, mx, k1, k2, k3, a1, a2, b1, b2, h⟩ := irvRound_eq S prev rn hs hne
    obtain ⟨q', kept', mn', mx', k1', k2', k3', a1', a2', b1', b2', h'⟩ := irvRound_eq S prev rn hs' hne
    obtain ⟨q0, kept0, kept0', e1, e2, ht0, hex, hq, hqk, hnext⟩ := hR _ _ hrel
    have i1 := k1.symm.trans e1
    have i2 := k1'.symm.trans e2
    injection i1 with i1; injection i2 with i2
    injection i1 with i1 j1; injection i2 with i2 j2
    subst i1; subst i2; subst j1; subst j2
    have ht : tally kept' = tally kept := funext ht0
    have hmn : mn' = mn := by
      obtain ⟨x, hx, rfl⟩ := a1; obtain ⟨y, hy, rfl⟩ := a1'
      have h1 := a2 y hy; have h2 := a2' x hx
      rw [ht] at h2 ⊢; omega
    have hmx : mx' = mx := by
      obtain ⟨x, hx, rfl⟩ := b1; obtain ⟨y, hy, rfl⟩ := b1'
      have h1 := b2 y hy; have h2 := b2' x hx
      rw [ht] at h2 ⊢; omega
    subst hmn; subst hmx
    have hc : countsOf cands kept' = countsOf cands kept := by unfold countsOf; rw [ht]
    have htot : totalOf cands kept' = totalOf cands kept := by unfold totalOf; rw [ht]
    have hel : elimOf S rn cands kept' mn' mx' = elimOf S rn cands kept mn' mx' := by unfold elimOf; rw [hc, ht]
    have hinfo : infoOf S prev rn cands vls' q' kept' mn' mx' = infoOf S prev rn cands vls q' kept mn' mx' := by
      unfold infoOf; rw [hq, hqk, hex, htot, ht, hel]
    have hld : leaders cands kept' mx' = leaders cands kept mx' := by unfold leaders; rw [ht]
    unfold irvCount
    rcases h with ⟨x, h⟩ | ⟨x, h⟩ <;> rcases h' with ⟨x', h'⟩ | ⟨x', h'⟩
    · rw [h, h', hc, hinfo, hld]
    · rw [htot] at x'; omega
    · rw [htot] at x'; omega
    · rw [h, h', hc, hinfo, hel, ok_bind, ok_bind]
      simp only
      have hnn := (next_nonempty (S := S) (rn := rn) a1 a2 b1 x.1).1
      rw [irvCount_sim S R hR n _ _ _ _ _ (next_state (S := S) (rn := rn) hs k2 _)
        (next_state (S := S) (rn := rn) hs' k2' _) hnn (hnext _)]

/-- the count depends on each line's order and quantity alone -/
theorem irvCount_lines (S : Sched) (n : Nat) (prev : Option RoundMeta) (rn : Nat) (cands : List Str) (vls vls' : List Voteline)
    (hs : IrvState cands vls) (hs' : IrvState cands vls') (hne : cands ≠ []) (hg : ∀ vl ∈ vls, CountLine vl) (hg' : ∀ vl ∈ vls', CountLine vl)
    (h : List.Forall₂ (fun v w => v.qty = w.qty ∧ SameOrder v w) vls vls') :
    irvCount S n prev rn cands vls' = irvCount S n prev rn cands vls := by
  refine irvCount_sim S (fun l l' => List.Forall₂ (fun v w => v.qty = w.qty ∧ SameOrder v w ∧ CountLine v ∧ CountLine w) l l')
    ?_ n prev rn cands vls vls' hs hs' hne ?_
  · intro l l' hl
    have g1 : ∀ v ∈ l, CountLine v := by
      clear hs hs' hg hg' h
      induction hl with
      | nil => simp
      | cons h _ ih => intro v hv; rcases List.mem_cons.1 hv with rfl | hv; exacts [h.2.2.1, ih v hv]
    have g2 : ∀ v ∈ l', CountLine v := by
      clear hs hs' hg hg' h g1
      induction hl with
      | nil => simp
      | cons h _ ih => intro v hv; rcases List.mem_cons.1 hv with rfl | hv; exacts [h.2.2.2, ih v hv]
    have hk : ∀ b, List.Forall₂ (fun v w => v.qty = w.qty ∧ SameOrder v w ∧ CountLine v ∧ CountLine w) (keptFrom b l) (keptFrom b l') ∧
        qtot (thrownFrom b l) = qtot (thrownFrom b l') := by
      clear hs hs' hg hg' h g1 g2
      induction hl with
      | nil => intro b; exact ⟨.nil, rfl⟩
      | @cons v w l l' h _ ih =>
        intro b
        have ho := overvoted_sameOrder h.2.1 h.2.2.1.wf h.2.2.2.wf
        unfold keptFrom thrownFrom
        rw [ho]
        cases overvoted w <;> cases b <;> simp only [if_true, Bool.false_eq_true, if_false]
        · exact ⟨.cons h (ih _).1, (ih _).2⟩
        · exact ⟨.cons h (ih _).1, (ih _).2⟩
        · exact ⟨(ih _).1, by rw [qtot_cons, qtot_cons, (ih _).2, h.1]⟩
        · exact ⟨.cons h (ih _).1, (ih _).2⟩
    have hq : ∀ (l l' : List Voteline), List.Forall₂ (fun v w => v.qty = w.qty ∧ SameOrder v w ∧ CountLine v ∧ CountLine w) l l' →
        qtot l' = qtot l ∧ (∀ t, qtySum (fun vl => topOf vl == t) l' = qtySum (fun vl => topOf vl == t) l) := by
      intro l l' h
      induction h with
      | nil => exact ⟨rfl, fun _ => rfl⟩
      | @cons v w l l' h _ ih =>
        refine ⟨by rw [qtot_cons, qtot_cons, ih.1, h.1], fun t => ?_⟩
        rw [qtySum_cons, qtySum_cons, ih.2 t, h.1, topOf_sameOrder h.2.1 h.2.2.1 h.2.2.2]
    have kk := hq _ _ (hk false).1
    refine ⟨qtot (thrownFrom false l), keptFrom false l, keptFrom false l', discard_from _ g1, ?_, fun c => kk.2 _, kk.2 _, (hq _ _ hl).1, kk.1, ?_⟩
    · rw [discard_from _ g2, (hk false).2]
    · intro el
      rw [eliminate_eq el _ (fun v hv => (g1 v ((keptFrom_sub _ _).subset hv)).wf),
        eliminate_eq el _ (fun v hv => (g2 v ((keptFrom_sub _ _).subset hv)).wf)]
      rw [List.forall₂_map_left_iff, List.forall₂_map_right_iff]
      exact (hk false).1.imp (fun v w h => ⟨h.1, sameOrder_filter h.2.1 (fun c => decide (c ∉ el)),
        countLine_filter h.2.2.1 _, countLine_filter h.2.2.2 _⟩)
  · clear hs hs'
    induction h with
    | nil => exact .nil
    | cons h _ ih =>
      exact .cons ⟨h.1, h.2, hg _ (by simp), hg' _ (by simp)⟩ (ih (fun v hv => hg v (by simp [hv])) (fun v hv => hg' v (by simp [hv])))

/-- on strict ballots only the number of voters casting each ballot matters -/
theorem irvCount_ballots (S : Sched) (n : Nat) (prev : Option RoundMeta) (rn : Nat) (cands : List Str) (vls vls' : List Voteline)
    (hs : IrvState cands vls) (hs' : IrvState cands vls') (hne : cands ≠ []) (hg : ∀ vl ∈ vls, CountLine vl) (hg' : ∀ vl ∈ vls', CountLine vl)
    (hst : ∀ vl ∈ vls, StrictLine vl) (hst' : ∀ vl ∈ vls', StrictLine vl) (h : SameBallots vls vls') :
    irvCount S n prev rn cands vls' = irvCount S n prev rn cands vls := by
  refine irvCount_sim S (fun l l' => SameBallots l l' ∧ (∀ v ∈ l, CountLine v ∧ StrictLine v) ∧ ∀ v ∈ l', CountLine v ∧ StrictLine v)
    ?_ n prev rn cands vls vls' hs hs' hne ⟨h, fun v hv => ⟨hg v hv, hst v hv⟩, fun v hv => ⟨hg' v hv, hst' v hv⟩⟩
  rintro l l' ⟨hb, hl, hl'⟩
  have sum : ∀ p : Voteline → Bool, (∀ v w, CountLine v ∧ StrictLine v → CountLine w ∧ StrictLine w → SameOrder v w → p v = p w) →
      qtySum p l' = qtySum p l := fun p hp =>
    (qtySum_classes .refl (fun _ _ h => h.symm) (fun _ _ _ h h' => h.trans h') _ p hp _ l l' (Nat.le_refl _) hl hl' hb).symm
  have top : ∀ t, qtySum (fun vl => topOf vl == t) l' = qtySum (fun vl => topOf vl == t) l := fun t =>
    sum _ (fun v w hv hw hvw => by rw [topOf_sameOrder hvw hv.1 hw.1])
  have hq : qtot l' = qtot l := by
    have := sum (fun _ => true) (fun _ _ _ _ _ => rfl)
    unfold qtySum at this
    rw [List.filter_eq_self.2 (by simp), List.filter_eq_self.2 (by simp)] at this
    exact this
  refine ⟨0, l, l', discard_strict (fun v hv => (hl v hv).1) (fun v hv => (hl v hv).2),
    discard_strict (fun v hv => (hl' v hv).1) (fun v hv => (hl' v hv).2), fun c => top _, top _, hq, hq, fun el => ?_⟩
  rw [eliminate_eq el l (fun v hv => (hl v hv).1.wf), eliminate_eq el l' (fun v hv => (hl' v hv).1.wf)]
  let f : Voteline → Voteline := fun vl => { vl with prefs := vl.prefs.filter (fun e => (fun c => decide (c ∉ el)) e.1) }
  have hgood : ∀ v, CountLine v ∧ StrictLine v → CountLine (f v) ∧ StrictLine (f v) := fun v hv =>
    ⟨countLine_filter hv.1 _, strict_filter hv.2 (fun c => decide (c ∉ el))⟩
  refine ⟨fun u => ?_, ?_, ?_⟩
  · classical
    have hm : ∀ (p : Voteline → Bool) (l : List Voteline), qtySum p (l.map f) = qtySum (fun v => p (f v)) l := by
      intro p l
      induction l with
      | nil => rfl
      | cons v l ih =>
        rw [List.map_cons, qtySum_cons, qtySum_cons, ih]
    show qtySum (fun w => decide (SameOrder w u)) (l.map f) = qtySum (fun w => decide (SameOrder w u)) (l'.map f)
    rw [hm, hm]
    refine (sum (fun v => decide (SameOrder (f v) u)) (fun v w _ _ hvw => ?_)).symm
    have := sameOrder_filter hvw (fun c => decide (c ∉ el))
    rw [decide_eq_decide]
    exact ⟨fun k => SameOrder.trans this.symm k, fun k => SameOrder.trans this k⟩
  · intro v hv
    obtain ⟨v, hv', rfl⟩ := List.mem_map.1 hv
    exact hgood v (hl v hv')
  · intro v hv
    obtain ⟨v, hv', rfl⟩ := List.mem_map.1 hv
    exact hgood v (hl' v hv')

end Verif
