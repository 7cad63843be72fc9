/-
Helper lemmas: strict ballots (order of votelines, batch elimination) and `all_eliminated`.
-/
import Verif.Lib.IrvLock

set_option linter.unusedSimpArgs false
set_option linter.unusedSectionVars false

namespace Verif
open Spec

theorem Dict.get?_filterKey {α : Type} (d : Dict Str α) (p : Str → Bool) (k : Str) :
    Dict.get? (d.filter (fun e => p e.1)) k = if p k then Dict.get? d k else none := by
  induction d with
  | nil => simp [Dict.get?]
  | cons e d ih =>
    obtain ⟨a, v⟩ := e
    rw [List.filter_cons]
    by_cases ha : p a = true
    · rw [if_pos ha]
      unfold Dict.get?
      by_cases hk : a = k
      · subst hk; simp [ha]
      · simp [hk, ih]
    · rw [if_neg ha, ih]
      conv => rhs; unfold Dict.get?
      by_cases hk : a = k
      · subst hk; simp [ha]
      · simp [hk]

theorem mem_keys_filterKey {α : Type} {d : Dict Str α} {p : Str → Bool} {k : Str} :
    k ∈ Dict.keys (d.filter (fun e => p e.1)) ↔ k ∈ Dict.keys d ∧ p k = true := by
  unfold Dict.keys
  constructor
  · intro h
    obtain ⟨e, he, rfl⟩ := List.mem_map.1 h
    obtain ⟨h1, h2⟩ := List.mem_filter.1 he
    exact ⟨List.mem_map.2 ⟨e, h1, rfl⟩, h2⟩
  · rintro ⟨h, hp⟩
    obtain ⟨e, he, rfl⟩ := List.mem_map.1 h
    exact List.mem_map.2 ⟨e, List.mem_filter.2 ⟨he, hp⟩, rfl⟩

/-- a line without equal ranks -/
def StrictLine (vl : Voteline) : Prop :=
  ∀ a ∈ Dict.keys vl.prefs, ∀ b ∈ Dict.keys vl.prefs, a ≠ b → prefers vl a b = true ∨ prefers vl b a = true

theorem prefers_filter {vl : Voteline} {p : Str → Bool} {a b : Str} (ha : p a = true) (hb : p b = true) :
    prefers { vl with prefs := vl.prefs.filter (fun e => p e.1) } a b = prefers vl a b := by
  unfold prefers rankOf
  rw [Dict.get?_filterKey, Dict.get?_filterKey, if_pos ha, if_pos hb]

theorem strict_filter {vl : Voteline} (h : StrictLine vl) (p : Str → Bool) :
    StrictLine { vl with prefs := vl.prefs.filter (fun e => p e.1) } := by
  intro a ha b hb hab
  obtain ⟨ha1, ha2⟩ := mem_keys_filterKey.1 ha
  obtain ⟨hb1, hb2⟩ := mem_keys_filterKey.1 hb
  rw [prefers_filter ha2 hb2, prefers_filter hb2 ha2]
  exact h a ha1 b hb1 hab

theorem mem_tops {vl : Voteline} {c : Str} :
    c ∈ tops vl ↔ c ∈ Dict.keys vl.prefs ∧ ∀ d ∈ Dict.keys vl.prefs, prefers vl d c = false := by
  unfold tops
  rw [List.mem_filter]
  simp

theorem strict_not_overvoted {vl : Voteline} (hw : Dict.WF vl.prefs) (h : StrictLine vl) : overvoted vl = false := by
  unfold overvoted
  rw [decide_eq_false_iff_not]
  intro hl
  have hn : (tops vl).Nodup := List.Nodup.sublist List.filter_sublist hw
  match ht : tops vl with
  | [] => rw [ht] at hl; simp at hl
  | [_] => rw [ht] at hl; simp at hl
  | a :: b :: t =>
    rw [ht] at hn
    have hab : a ≠ b := by
      rintro rfl
      simp at hn
    have ha := mem_tops.1 (show a ∈ tops vl by simp [ht])
    have hb := mem_tops.1 (show b ∈ tops vl by simp [ht])
    rcases h a ha.1 b hb.1 hab with hp | hp
    · rw [hb.2 a ha.1] at hp; cases hp
    · rw [ha.2 b hb.1] at hp; cases hp

theorem tops_unique {vl : Voteline} (ho : overvoted vl = false) {a b : Str} (ha : a ∈ tops vl) (hb : b ∈ tops vl) : a = b := by
  unfold overvoted at ho
  rw [decide_eq_false_iff_not] at ho
  match ht : tops vl with
  | [] => rw [ht] at ha; cases ha
  | [x] => rw [ht] at ha hb; simp at ha hb; rw [ha, hb]
  | _ :: _ :: _ => rw [ht] at ho; simp at ho

theorem soleTop_mem {vl : Voteline} (ho : overvoted vl = false) {c : Str} : soleTop c vl = true ↔ c ∈ tops vl := by
  unfold soleTop
  rw [beq_iff_eq]
  constructor
  · intro h; simp [h]
  · intro h
    unfold overvoted at ho
    rw [decide_eq_false_iff_not] at ho
    match ht : tops vl with
    | [] => rw [ht] at h; cases h
    | [x] => rw [ht] at h; simp at h; rw [h]
    | _ :: _ :: _ => rw [ht] at ho; simp at ho

theorem qtySum_perm (p : Voteline → Bool) {l l' : List Voteline} (h : l.Perm l') : qtySum p l = qtySum p l' :=
  perm_sum ((h.filter p).map _)

theorem qtot_perm {l l' : List Voteline} (h : l.Perm l') : qtot l = qtot l' := perm_sum (h.map _)

theorem adjacent_false {vls : List Voteline} (h : ∀ vl ∈ vls, overvoted vl = false) : adjacentOvervotes vls = false := by
  induction vls with
  | nil => rfl
  | cons v rest ih =>
    cases rest with
    | nil => rfl
    | cons w r =>
      unfold adjacentOvervotes
      rw [h v (by simp), ih (fun x hx => h x (by simp [List.mem_cons.1 hx]))]
      rfl

theorem discard_strict {vls : List Voteline} (hg : ∀ vl ∈ vls, CountLine vl) (hst : ∀ vl ∈ vls, StrictLine vl) :
    discardOvervotes vls = .ok (0, vls) := by
  have ho : ∀ vl ∈ vls, overvoted vl = false := fun v hv => strict_not_overvoted (hg v hv).wf (hst v hv)
  rw [discard_eq vls hg (adjacent_false ho)]
  have h1 : vls.filter (fun vl => !overvoted vl) = vls := List.filter_eq_self.2 (fun v hv => by simp [ho v hv])
  have h2 : qtySum overvoted vls = 0 := by
    unfold qtySum
    rw [List.filter_eq_nil_iff.2 (fun v hv => by simp [ho v hv])]
    rfl
  rw [h1, h2]

theorem IrvState.perm {cands : List Str} {vls vls' : List Voteline} (h : IrvState cands vls) (hp : vls'.Perm vls) :
    IrvState cands vls' :=
  ⟨h.nodup, fun v hv => h.wf v (hp.mem_iff.1 hv), fun v hv => h.ranked v (hp.mem_iff.1 hv),
    fun v hv => h.known v (hp.mem_iff.1 hv)⟩

theorem eliminate_perm {el : List Str} {l l' : List Voteline} (hw : ∀ vl ∈ l, Dict.WF vl.prefs) (h : l'.Perm l) :
    (eliminateCands el l').Perm (eliminateCands el l) := by
  rw [eliminate_eq el l hw, eliminate_eq el l' (fun v hv => hw v (h.mem_iff.1 hv))]
  exact h.map _

/-- on strict ballots the count does not depend on the order of the votelines -/
theorem irvCount_perm (S : Sched) : ∀ (n : Nat) (prev : Option RoundMeta) (rn : Nat) (cands : List Str)
    (vls vls' : List Voteline), IrvState cands vls → cands ≠ [] → (∀ vl ∈ vls, CountLine vl) → (∀ vl ∈ vls, StrictLine vl) →
    vls'.Perm vls → irvCount S n prev rn cands vls' = irvCount S n prev rn cands vls
  | 0, _, _, _, _, _, _, _, _, _, _ => rfl
  | n + 1, prev, rn, cands, vls, vls', hs, hne, hg, hst, hp => by
    have hs' := hs.perm hp
    have hg' : ∀ vl ∈ vls', CountLine vl := fun v hv => hg v (hp.mem_iff.1 hv)
    have hst' : ∀ vl ∈ vls', StrictLine vl := fun v hv => hst v (hp.mem_iff.1 hv)
    obtain ⟨q, kept, mn, mx, k1, k2, k3, a1, a2, b1, b2, h⟩ := irvRound_eq S prev rn hs hne
    obtain ⟨q', kept', mn', mx', k1', k2', k3', a1', a2', b1', b2', h'⟩ := irvRound_eq S prev rn hs' hne
    rw [discard_strict hg hst] at k1
    rw [discard_strict hg' hst'] at k1'
    cases k1; cases k1'
    have ht : tally vls' = tally vls := by
      funext c; exact qtySum_perm _ hp
    have hex : exhaustedQty vls' = exhaustedQty vls := qtySum_perm _ hp
    have hq : qtot vls' = qtot vls := qtot_perm hp
    have hmn : mn' = mn := by
      obtain ⟨x, hx, rfl⟩ := a1; obtain ⟨y, hy, rfl⟩ := a1'
      have h1 := a2 y hy; have h2 := a2' x hx
      rw [ht] at h2 ⊢; omega
    have hmx : mx' = mx := by
      obtain ⟨x, hx, rfl⟩ := b1; obtain ⟨y, hy, rfl⟩ := b1'
      have h1 := b2 y hy; have h2 := b2' x hx
      rw [ht] at h2 ⊢; omega
    subst hmn; subst hmx
    have hc : countsOf cands vls' = countsOf cands vls := by unfold countsOf; rw [ht]
    have htot : totalOf cands vls' = totalOf cands vls := by unfold totalOf; rw [ht]
    have hel : elimOf S rn cands vls' mn' mx' = elimOf S rn cands vls mn' mx' := by unfold elimOf; rw [hc, ht]
    have hinfo : infoOf S prev rn cands vls' 0 vls' mn' mx' = infoOf S prev rn cands vls 0 vls mn' mx' := by
      unfold infoOf; rw [hq, hex, htot, ht, hel]
    have hld : leaders cands vls' mx' = leaders cands vls mx' := by unfold leaders; rw [ht]
    unfold irvCount
    rcases h with ⟨x, h⟩ | ⟨x, h⟩ <;> rcases h' with ⟨x', h'⟩ | ⟨x', h'⟩
    · rw [h, h', hc, hinfo, hld]
    · rw [htot] at x'; omega
    · rw [htot] at x'; omega
    · rw [h, h', hc, hinfo, hel, ok_bind, ok_bind]
      simp only
      have hnn := (next_nonempty (S := S) (rn := rn) a1 a2 b1 x.1).1
      rw [irvCount_perm S n _ _ _ _ _ (next_state (S := S) (rn := rn) hs k2 _) hnn]
      · intro vl hv
        rw [eliminate_eq _ _ hs.wf] at hv
        obtain ⟨v, hv', rfl⟩ := List.mem_map.1 hv
        exact countLine_filter (hg v hv') _
      · intro vl hv
        rw [eliminate_eq _ _ hs.wf] at hv
        obtain ⟨v, hv', rfl⟩ := List.mem_map.1 hv
        exact strict_filter (hst v hv') (fun c => decide (c ∉ _))
      · exact eliminate_perm hs.wf hp

/-! ### batch elimination -/

theorem restrictLine_eq (C : List Str) (vl : Voteline) :
    restrictLine C vl = { vl with prefs := vl.prefs.filter (fun e => (fun c => decide (c ∈ C)) e.1) } := rfl

theorem mem_tops_restrict {C : List Str} {vl : Voteline} {c : Str} : c ∈ tops (restrictLine C vl) ↔
    c ∈ Dict.keys vl.prefs ∧ c ∈ C ∧ ∀ d ∈ Dict.keys vl.prefs, d ∈ C → prefers vl d c = false := by
  rw [mem_tops, restrictLine_eq]
  have hk : ∀ k, k ∈ Dict.keys (vl.prefs.filter (fun e => (fun c => decide (c ∈ C)) e.1)) ↔
      k ∈ Dict.keys vl.prefs ∧ decide (k ∈ C) = true := fun k =>
    mem_keys_filterKey (p := fun c => decide (c ∈ C))
  show (c ∈ Dict.keys (vl.prefs.filter (fun e => (fun c => decide (c ∈ C)) e.1)) ∧
    ∀ d ∈ Dict.keys (vl.prefs.filter (fun e => (fun c => decide (c ∈ C)) e.1)), _) ↔ _
  rw [hk]
  constructor
  · rintro ⟨⟨h1, h2⟩, h3⟩
    refine ⟨h1, by simpa using h2, ?_⟩
    intro d hd hdC
    rw [← h3 d ((hk d).2 ⟨hd, by simpa using hdC⟩), prefers_filter (p := fun c => decide (c ∈ C)) (by simpa using hdC) h2]
  · rintro ⟨h1, h2, h3⟩
    refine ⟨⟨h1, by simpa using h2⟩, ?_⟩
    intro d hd
    obtain ⟨hd1, hd2⟩ := (hk d).1 hd
    rw [prefers_filter (p := fun c => decide (c ∈ C)) hd2 (by simpa using h2)]
    exact h3 d hd1 (by simpa using hd2)

/-- votes for `c` when only the candidates in `C` count -/
def votesAmong (vls : List Voteline) (C : List Str) (c : Str) : Int := qtySum (soleTop c) (restrict C vls)

theorem qtySum_map (p : Voteline → Bool) (f : Voteline → Voteline) (hf : ∀ v, (f v).qty = v.qty) (l : List Voteline) :
    qtySum p (l.map f) = qtySum (fun v => p (f v)) l := by
  induction l with
  | nil => rfl
  | cons v l ih => rw [List.map_cons, qtySum_cons, qtySum_cons, ih, hf]

theorem votesAmong_eq (vls : List Voteline) (C : List Str) (c : Str) :
    votesAmong vls C c = qtySum (fun v => soleTop c (restrictLine C v)) vls :=
  qtySum_map (soleTop c) (restrictLine C) (fun _ => rfl) vls

theorem qtySum_mono {p q : Voteline → Bool} {l : List Voteline} (hn : ∀ v ∈ l, 0 ≤ v.qty)
    (h : ∀ v ∈ l, p v = true → q v = true) : qtySum p l ≤ qtySum q l := by
  induction l with
  | nil => simp [qtySum]
  | cons v l ih =>
    have := ih (fun x hx => hn x (by simp [hx])) (fun x hx => h x (by simp [hx]))
    have hv := hn v (by simp)
    have hh := h v (by simp)
    rw [qtySum_cons, qtySum_cons]
    by_cases hp : p v = true
    · rw [if_pos hp, if_pos (hh hp)]; omega
    · rw [if_neg hp]; split <;> omega

theorem qtySum_or {p q : Voteline → Bool} {l : List Voteline} (h : ∀ v ∈ l, p v = true → q v = false) :
    qtySum p l + qtySum q l = qtySum (fun v => p v || q v) l := by
  induction l with
  | nil => rfl
  | cons v l ih =>
    have := ih (fun x hx => h x (by simp [hx]))
    have hh := h v (by simp)
    rw [qtySum_cons, qtySum_cons, qtySum_cons]
    by_cases hp : p v = true
    · simp [hp, hh hp]; omega
    · simp only [Bool.not_eq_true] at hp
      simp [hp]; split <;> omega

theorem votes_sum {vls : List Voteline} {C : List Str} (ho : ∀ v ∈ vls, overvoted (restrictLine C v) = false) :
    ∀ B : List Str, B.Nodup → (B.map (votesAmong vls C)).sum = qtySum (fun v => B.any (fun b => soleTop b (restrictLine C v))) vls
  | [], _ => by simp [qtySum]
  | b :: B, hn => by
    rw [List.nodup_cons] at hn
    rw [List.map_cons, List.sum_cons, votes_sum ho B hn.2, votesAmong_eq, qtySum_or]
    · rfl
    · intro v hv hb
      rw [soleTop_mem (ho v hv)] at hb
      rw [Bool.eq_false_iff]
      intro hany
      obtain ⟨x, hx, hx2⟩ := List.any_eq_true.1 hany
      rw [soleTop_mem (ho v hv)] at hx2
      exact hn.1 (tops_unique (ho v hv) hb hx2 ▸ hx)

theorem exists_min {B : List Str} (f : Str → Int) (h : B ≠ []) : ∃ b ∈ B, ∀ c ∈ B, f b ≤ f c := by
  induction B with
  | nil => exact absurd rfl h
  | cons a B ih =>
    cases B with
    | nil => exact ⟨a, by simp, by simp⟩
    | cons a' B' =>
      obtain ⟨b, hb, hmin⟩ := ih (by simp)
      by_cases hab : f a ≤ f b
      · refine ⟨a, by simp, ?_⟩
        intro c hc
        rcases List.mem_cons.1 hc with rfl | hc
        · omega
        · have := hmin c hc; omega
      · refine ⟨b, List.mem_cons_of_mem _ hb, ?_⟩
        intro c hc
        rcases List.mem_cons.1 hc with rfl | hc
        · omega
        · exact hmin c hc

theorem batch_order {vls : List Voteline} (hn : ∀ v ∈ vls, 0 ≤ v.qty) (hg : ∀ v ∈ vls, CountLine v)
    (hst : ∀ v ∈ vls, StrictLine v) : ∀ (n : Nat) (B C : List Str), B.length = n → B.Nodup → C.Nodup → (∀ b ∈ B, b ∈ C) →
    (∀ x ∈ C, x ∉ B → (B.map (votesAmong vls C)).sum ≤ votesAmong vls C x) →
    ∃ L : List Str, L.Perm B ∧ ∀ i (hi : i < L.length), ∀ c ∈ C.filter (fun c => c ∉ L.take i),
      votesAmong vls (C.filter (fun c => c ∉ L.take i)) L[i] ≤ votesAmong vls (C.filter (fun c => c ∉ L.take i)) c
  | 0, B, C, hl, _, _, _, _ => by
    rw [List.length_eq_zero_iff] at hl
    subst hl
    exact ⟨[], .refl _, fun i hi => by simp at hi⟩
  | n + 1, B, C, hl, hB, hC, hsub, hsum => by
    have hov : ∀ (C : List Str) (v : Voteline), v ∈ vls → overvoted (restrictLine C v) = false := by
      intro C v hv
      exact strict_not_overvoted (wf_filter _ (hg v hv).wf) (strict_filter (hst v hv) (fun c => decide (c ∈ C)))
    have hne : B ≠ [] := by intro h; rw [h] at hl; simp at hl
    obtain ⟨b, hb, hbmin⟩ := exists_min (votesAmong vls C) hne
    let C' := C.filter (fun c => c ≠ b)
    let B' := B.erase b
    have hBp : B.Perm (b :: B') := List.perm_cons_erase hb
    have hB' : B'.Nodup := hB.erase b
    have hb' : b ∉ B' := by
      intro h
      have := (hBp.nodup_iff.1 hB)
      rw [List.nodup_cons] at this
      exact this.1 h
    have hmono : ∀ x ∈ C, x ≠ b → votesAmong vls C x ≤ votesAmong vls C' x := by
      intro x hx hxb
      rw [votesAmong_eq, votesAmong_eq]
      apply qtySum_mono hn
      intro v hv h
      rw [soleTop_mem (hov _ v hv)] at h ⊢
      rw [mem_tops_restrict] at h ⊢
      exact ⟨h.1, List.mem_filter.2 ⟨hx, by simpa using hxb⟩, fun d hd hdC => h.2.2 d hd (List.mem_filter.1 hdC).1⟩
    have hshrink : (B'.map (votesAmong vls C')).sum ≤ (B.map (votesAmong vls C)).sum := by
      rw [votes_sum (fun v hv => hov C' v hv) B' hB', votes_sum (fun v hv => hov C v hv) B hB]
      apply qtySum_mono hn
      intro v hv h
      obtain ⟨c, hc, hc2⟩ := List.any_eq_true.1 h
      rw [soleTop_mem (hov _ v hv)] at hc2
      have hc3 := mem_tops_restrict.1 hc2
      have hcC : c ∈ C := (List.mem_filter.1 hc3.2.1).1
      rw [List.any_eq_true]
      -- top under the larger set
      have hnonempty : tops (restrictLine C v) ≠ [] := by
        intro h0
        have := (tops_nil_iff (vl := restrictLine C v) (wf_filter _ (hg v hv).wf) (countLine_filter (hg v hv) _).ranked).1 h0
        have hm : c ∈ Dict.keys (restrictLine C v).prefs := by
          rw [restrictLine_eq]
          exact (mem_keys_filterKey (p := fun c => decide (c ∈ C))).2 ⟨hc3.1, by simpa using hcC⟩
        rw [this] at hm; cases hm
      obtain ⟨x, hx⟩ := List.exists_mem_of_ne_nil _ hnonempty
      have hx' := mem_tops_restrict.1 hx
      by_cases hxb : x = b
      · exact ⟨b, hb, by rw [soleTop_mem (hov _ v hv)]; exact hxb ▸ hx⟩
      · have hxt : x ∈ tops (restrictLine C' v) := by
          rw [mem_tops_restrict]
          exact ⟨hx'.1, List.mem_filter.2 ⟨hx'.2.1, by simpa using hxb⟩, fun d hd hdC => hx'.2.2 d hd (List.mem_filter.1 hdC).1⟩
        have : x = c := tops_unique (hov _ v hv) hxt hc2
        exact ⟨x, by rw [this]; exact hBp.mem_iff.2 (List.mem_cons_of_mem _ hc), by rw [soleTop_mem (hov _ v hv)]; exact hx⟩
    obtain ⟨L, hL, hLi⟩ := batch_order hn hg hst n B' C' (by
        have := hBp.length_eq; simp at this; omega) hB' (hC.filter _) (by
        intro x hx
        refine List.mem_filter.2 ⟨hsub x (hBp.mem_iff.2 (List.mem_cons_of_mem _ hx)), ?_⟩
        simp only [ne_eq, decide_eq_true_eq]
        rintro rfl; exact hb' hx) (by
        intro x hx hxB
        obtain ⟨hx1, hx2⟩ := List.mem_filter.1 hx
        simp only [ne_eq, decide_eq_true_eq] at hx2
        have hxB' : x ∉ B := fun h => by
          rcases List.mem_cons.1 (hBp.mem_iff.1 h) with h | h
          · exact hx2 h
          · exact hxB h
        have := hsum x hx1 hxB'
        have := hmono x hx1 hx2
        omega)
    refine ⟨b :: L, (hL.cons b).trans hBp.symm, ?_⟩
    intro i hi
    cases i with
    | zero =>
      have h0 : C.filter (fun c => decide (c ∉ (b :: L).take 0)) = C := List.filter_eq_self.2 (fun c _ => by simp)
      rw [h0]
      intro c hc
      simp only [List.getElem_cons_zero]
      by_cases hcB : c ∈ B
      · exact hbmin c hcB
      · have h1 := hsum c hc hcB
        have h2 : votesAmong vls C b ≤ (B.map (votesAmong vls C)).sum := by
          rw [perm_sum (hBp.map (votesAmong vls C)), List.map_cons, List.sum_cons]
          have : 0 ≤ (B'.map (votesAmong vls C)).sum := by
            rw [votes_sum (fun v hv => hov C v hv) B' hB']
            have := qtySum_mono (p := fun _ => false) (q := fun v => B'.any (fun b => soleTop b (restrictLine C v))) hn (by simp)
            have h00 : qtySum (fun _ => false) vls = 0 := by simp [qtySum]
            rw [h00] at this; exact this
          omega
        omega
    | succ i =>
      have hset : C.filter (fun c => decide (c ∉ (b :: L).take (i + 1))) = C'.filter (fun c => decide (c ∉ L.take i)) := by
        show _ = (C.filter _).filter _
        rw [List.filter_filter]
        apply List.filter_congr
        intro c _
        rw [Bool.eq_iff_iff]
        simp
        tauto
      rw [hset]
      intro c hc
      have := hLi i (by simpa using hi) c hc
      simpa using this

theorem run_startNodup {S : Sched} {prev : Option RoundMeta} {rn : Nat} {cands : List Str} {vls : List Voteline} {run : IrvRun}
    (h : Steps S prev rn cands vls run) (hs : IrvState cands vls) (hne : cands ≠ []) :
    ∀ rm ∈ run.roundmeta, rm.startingCands.Nodup := by
  refine steps_induction (S := S) (P := fun _ _ _ _ run => ∀ rm ∈ run.roundmeta, rm.startingCands.Nodup) ?_ ?_ h hs hne
  · intro prev rn cands vls q kept mn mx hs hne k1 k2 k3 a1 a2 b1 b2 hc rm hrm
    simp only [List.mem_singleton] at hrm
    subst hrm
    exact hs.nodup
  · intro prev rn cands vls q kept mn mx t hs hne k1 k2 k3 a1 a2 b1 b2 hlt hle ht hst ih rm hrm
    rcases List.mem_cons.1 hrm with rfl | hrm
    · exact hs.nodup
    · exact ih rm hrm

/-! ### `all_eliminated` -/

theorem mem_setUnion {a b : List Str} {x : Str} : x ∈ setUnion a b ↔ x ∈ a ∨ x ∈ b := by
  unfold setUnion
  induction b generalizing a with
  | nil => simp
  | cons y b ih =>
    rw [List.foldl_cons, ih]
    split
    · rename_i h
      simp only [List.mem_cons]
      constructor
      · rintro (h1 | h1)
        · exact .inl h1
        · exact .inr (.inr h1)
      · rintro (h1 | rfl | h1)
        · exact .inl h1
        · exact .inl h
        · exact .inr h1
    · simp only [List.mem_append, List.mem_cons, List.not_mem_nil, or_false]
      tauto

theorem mem_allElim (S : Sched) (prev : Option RoundMeta) (rn : Nat) (cands : List Str) (kept : List Voteline) (mn mx : Int) (c : Str) :
    c ∈ allElimOf prev (elimOf S rn cands kept mn mx) ↔
      (∃ p, prev = some p ∧ c ∈ p.allEliminated) ∨
      (c ∈ (elimOf S rn cands kept mn mx).eliminated ∧ (prev = none → (elimOf S rn cands kept mn mx).batch = false)) := by
  unfold allElimOf
  rcases elimOf_cases S rn cands kept mn mx with ⟨_, _, h⟩ | ⟨_, _, h⟩ | ⟨_, h⟩ <;> rw [h] <;> cases prev with
  | none => simp [mem_setUnion]
  | some p => simp [mem_setUnion]

theorem run_allElim {S : Sched} {prev : Option RoundMeta} {rn : Nat} {cands : List Str} {vls : List Voteline} {run : IrvRun}
    (h : Steps S prev rn cands vls run) (hs : IrvState cands vls) (hne : cands ≠ []) :
    ∀ (k : Nat) (rm rm' : RoundMeta), run.roundmeta[k]? = some rm → run.roundmeta[k + 1]? = some rm' → ∀ c,
      (c ∈ rm.allEliminated ↔ (∃ p, prev = some p ∧ c ∈ p.allEliminated) ∨
        ∃ j rj, j ≤ k ∧ run.roundmeta[j]? = some rj ∧ c ∈ rj.eliminated ∧ (j = 0 → prev = none → rj.batchElim = false)) := by
  refine steps_induction (S := S) (P := fun prev _ _ _ run =>
    ∀ (k : Nat) (rm rm' : RoundMeta), run.roundmeta[k]? = some rm → run.roundmeta[k + 1]? = some rm' → ∀ c,
      (c ∈ rm.allEliminated ↔ (∃ p, prev = some p ∧ c ∈ p.allEliminated) ∨
        ∃ j rj, j ≤ k ∧ run.roundmeta[j]? = some rj ∧ c ∈ rj.eliminated ∧ (j = 0 → prev = none → rj.batchElim = false))) ?_ ?_ h hs hne
  · intro prev rn cands vls q kept mn mx hs hne k1 k2 k3 a1 a2 b1 b2 hc k rm rm' h1 h2
    simp at h2
  · intro prev rn cands vls q kept mn mx t hs hne k1 k2 k3 a1 a2 b1 b2 hlt hle ht hst ih k rm rm' h1 h2 c
    have h0 := mem_allElim S prev rn cands kept mn mx c
    cases k with
    | zero =>
      simp only [List.getElem?_cons_zero, Option.some.injEq] at h1
      subst h1
      show c ∈ allElimOf prev (elimOf S rn cands kept mn mx) ↔ _
      rw [h0]
      constructor
      · rintro (h | ⟨h, hb⟩)
        · exact .inl h
        · exact .inr ⟨0, _, Nat.le_refl _, rfl, h, fun _ => hb⟩
      · rintro (h | ⟨j, rj, hj, hr, hc, hb⟩)
        · exact .inl h
        · obtain rfl : j = 0 := by omega
          simp only [List.getElem?_cons_zero, Option.some.injEq] at hr
          subst hr
          exact .inr ⟨hc, hb rfl⟩
    | succ k =>
      simp only [List.getElem?_cons_succ] at h1 h2
      rw [ih k rm rm' h1 h2 c]
      constructor
      · rintro (⟨p, hp, hc⟩ | ⟨j, rj, hj, hr, hc, hb⟩)
        · cases hp
          have hc : c ∈ allElimOf prev (elimOf S rn cands kept mn mx) := hc
          rw [h0] at hc
          rcases hc with hc | ⟨hc, hb⟩
          · exact .inl hc
          · exact .inr ⟨0, _, by omega, rfl, hc, fun _ => hb⟩
        · exact .inr ⟨j + 1, rj, by omega, by simpa using hr, hc, by intro h; omega⟩
      · rintro (h | ⟨j, rj, hj, hr, hc, hb⟩)
        · left
          exact ⟨_, rfl, h0.2 (.inl h)⟩
        · cases j with
          | zero =>
            simp only [List.getElem?_cons_zero, Option.some.injEq] at hr
            subst hr
            exact .inl ⟨_, rfl, h0.2 (.inr ⟨hc, hb rfl⟩)⟩
          | succ j =>
            exact .inr ⟨j, rj, by omega, by simpa using hr, hc, fun _ h => by cases h⟩

end Verif
