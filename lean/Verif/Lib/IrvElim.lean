/-
Helper lemmas: eliminations, overvotes and credits along a run; lockstep of two runs.
-/
import Verif.Lib.IrvRun

set_option linter.unusedSimpArgs false
set_option linter.unusedSectionVars false

namespace Verif
open Spec

/-! ### eliminations -/

theorem penult_le {cands : List Str} {kept : List Voteline} {mn mx : Int} (hlt : mn < mx)
    (hmx : ∃ c ∈ cands, tally kept c = mx) {c : Str} (hc : c ∈ cands) (hcv : mn < tally kept c) :
    penultVotes (cands.map (tally kept)) mn mx ≤ tally kept c := by
  unfold penultVotes
  rw [if_neg (by omega)]
  have hm : tally kept c ∈ (cands.map (tally kept)).filter (fun v => decide (v > mn)) :=
    List.mem_filter.2 ⟨List.mem_map.2 ⟨c, hc, rfl⟩, by simpa using hcv⟩
  obtain ⟨p, hp⟩ := listMin_isSome (List.ne_nil_of_mem hm)
  rw [hp]
  exact (listMin_some.1 hp).2 _ hm

/-- what a non-final round says about its eliminations -/
def ElimOk (rm : RoundMeta) (cnt : Dict Str Int) : Prop :=
  rm.eliminated ≠ [] ∧ rm.eliminated.Nodup ∧ (∀ e ∈ rm.eliminated, e ∈ rm.startingCands) ∧
  (∀ e ∈ rm.eliminated, ∀ v, Dict.get? cnt e = some v → ∀ c v', Dict.get? cnt c = some v' → v ≤ v') ∧
  (rm.batchElim = false → rm.eliminated.length = 1) ∧
  (rm.batchElim = true → rm.randomElim = false ∧
    (∀ c ∈ rm.startingCands, c ∉ rm.eliminated → ∀ v, Dict.get? cnt c = some v →
      (∀ e ∈ rm.eliminated, ∀ v', Dict.get? cnt e = some v' → v' < v) ∧
      (rm.eliminated.map (fun e => (Dict.get? cnt e).getD 0)).sum ≤ v))

theorem elimOk_of (S : Sched) (prev : Option RoundMeta) (rn : Nat) {cands : List Str} (vls : List Voteline) (q : Int)
    {kept : List Voteline} {mn mx : Int} (hn : cands.Nodup) (a1 : ∃ c ∈ cands, tally kept c = mn)
    (a2 : ∀ c ∈ cands, mn ≤ tally kept c) (b1 : ∃ c ∈ cands, tally kept c = mx) (hlt : mn < mx) :
    ElimOk (infoOf S prev rn cands vls q kept mn mx) (countsOf cands kept) := by
  obtain ⟨e1, e2⟩ := elimOf_spec (mx := mx) S rn a1 a2
  refine ⟨e1, ?_, fun e he => (e2 e he).1, ?_, ?_, ?_⟩
  · show (elimOf S rn cands kept mn mx).eliminated.Nodup
    rcases elimOf_cases S rn cands kept mn mx with ⟨_, _, h⟩ | ⟨_, _, h⟩ | ⟨_, h⟩ <;> rw [h]
    · exact hn.filter _
    · simp
    · exact hn.filter _
  · intro e he v hv c v' hv'
    obtain ⟨f1, f2⟩ := e2 e he
    rw [get?_countsOf, if_pos f1] at hv
    cases hv
    rw [get?_countsOf] at hv'
    split at hv'
    · rename_i hc; cases hv'; rw [f2]; exact a2 c hc
    · cases hv'
  · show (elimOf S rn cands kept mn mx).batch = false → (elimOf S rn cands kept mn mx).eliminated.length = 1
    rcases elimOf_cases S rn cands kept mn mx with ⟨_, _, h⟩ | ⟨_, _, h⟩ | ⟨hl, h⟩ <;> rw [h] <;> intro hb
    · cases hb
    · rfl
    · have : bottoms cands kept mn ≠ [] := by rw [h] at e1; exact e1
      have := List.length_pos_iff.2 this
      simp only; omega
  · show (elimOf S rn cands kept mn mx).batch = true → (elimOf S rn cands kept mn mx).random = false ∧
      ∀ c ∈ cands, c ∉ (elimOf S rn cands kept mn mx).eliminated → _
    rcases elimOf_cases S rn cands kept mn mx with ⟨_, hP, h⟩ | ⟨_, _, h⟩ | ⟨hl, h⟩
    · intro _
      refine ⟨by rw [h], ?_⟩
      intro c hc hce v hv
      have hE : (infoOf S prev rn cands vls q kept mn mx).eliminated = bottoms cands kept mn := by
        show (elimOf S rn cands kept mn mx).eliminated = _; rw [h]
      rw [hE]
      rw [h] at hce
      simp only at hce
      rw [get?_countsOf, if_pos hc] at hv
      cases hv
      have hcv : mn < tally kept c := by
        have := a2 c hc
        rcases Int.lt_or_eq_of_le this with h' | h'
        · exact h'
        · exact absurd ((mem_bottoms a2).2 ⟨hc, h'.symm⟩) hce
      refine ⟨?_, ?_⟩
      · intro e he v' hv'
        obtain ⟨f1, f2⟩ := (mem_bottoms a2).1 he
        rw [get?_countsOf, if_pos f1] at hv'
        cases hv'
        omega
      · have h1 := penult_le hlt b1 hc hcv
        have h2 : (bottoms cands kept mn).map (fun e => (Dict.get? (countsOf cands kept) e).getD 0) =
            (bottoms cands kept mn).map (tally kept) := by
          apply List.map_congr_left
          intro e he
          rw [get?_countsOf, if_pos ((mem_bottoms a2).1 he).1]; rfl
        rw [h2]; omega
    · rw [h]; intro hb; cases hb
    · rw [h]; intro hb; cases hb

theorem run_elims {S : Sched} {prev : Option RoundMeta} {rn : Nat} {cands : List Str} {vls : List Voteline} {run : IrvRun}
    (h : Steps S prev rn cands vls run) (hs : IrvState cands vls) (hne : cands ≠ []) :
    (∀ k rm rm' cnt, run.roundmeta[k]? = some rm → run.roundmeta[k + 1]? = some rm' → run.rounds[k]? = some cnt →
      ElimOk rm cnt ∧ rm.winner = none ∧
      rm'.startingCands.Perm (rm.startingCands.filter (fun c => c ∉ rm.eliminated))) ∧
    (∀ (k : Nat) (rm : RoundMeta), run.roundmeta[k]? = some rm → (∀ c ∈ rm.startingCands, c ∈ cands)) ∧
    (∀ (j k : Nat) (rm rm' : RoundMeta), j < k → run.roundmeta[j]? = some rm → run.roundmeta[k]? = some rm' →
      ∀ c ∈ rm.eliminated, c ∉ rm'.startingCands) := by
  refine steps_induction (S := S) (P := fun _ _ cands _ run =>
    (∀ k rm rm' cnt, run.roundmeta[k]? = some rm → run.roundmeta[k + 1]? = some rm' → run.rounds[k]? = some cnt →
      ElimOk rm cnt ∧ rm.winner = none ∧
      rm'.startingCands.Perm (rm.startingCands.filter (fun c => c ∉ rm.eliminated))) ∧
    (∀ (k : Nat) (rm : RoundMeta), run.roundmeta[k]? = some rm → (∀ c ∈ rm.startingCands, c ∈ cands)) ∧
    (∀ (j k : Nat) (rm rm' : RoundMeta), j < k → run.roundmeta[j]? = some rm → run.roundmeta[k]? = some rm' →
      ∀ c ∈ rm.eliminated, c ∉ rm'.startingCands)) ?_ ?_ h hs hne
  · intro prev rn cands vls q kept mn mx hs hne k1 k2 k3 a1 a2 b1 b2 hc
    refine ⟨fun k rm rm' cnt _ h2 => by simp at h2, ?_, ?_⟩
    · intro k rm hk
      cases k with
      | succ k => simp at hk
      | zero => simp at hk; subst hk; exact fun c hc => hc
    · intro j k rm rm' hjk _ hk
      cases k with
      | succ k => simp at hk
      | zero => omega
  · intro prev rn cands vls q kept mn mx t hs hne k1 k2 k3 a1 a2 b1 b2 hlt hle ht hst ih
    obtain ⟨i1, i2, i3⟩ := ih
    refine ⟨?_, ?_, ?_⟩
    · intro k rm rm' cnt hk hk' hcnt
      cases k with
      | succ k => exact i1 k rm rm' cnt (by simpa using hk) (by simpa using hk') (by simpa using hcnt)
      | zero =>
        simp only [List.getElem?_cons_zero, Option.some.injEq, List.getElem?_cons_succ] at hk hcnt hk'
        subst hk; subst hcnt
        refine ⟨elimOk_of S prev rn vls q hs.nodup a1 a2 b1 hlt, rfl, ?_⟩
        obtain ⟨rm'', g1, _, g2, _⟩ := run_head ht hst (next_nonempty (S := S) (rn := rn) a1 a2 b1 hlt).1
        rw [g1] at hk'
        cases hk'
        rw [g2]
        exact S.setOrder_perm rn _
    · intro k rm hk c hc
      cases k with
      | zero =>
        simp only [List.getElem?_cons_zero, Option.some.injEq] at hk
        subst hk; exact hc
      | succ k =>
        have := i2 k rm (by simpa using hk) c hc
        rw [(S.setOrder_perm rn _).mem_iff] at this
        exact (List.mem_filter.1 this).1
    · intro j k rm rm' hjk hj hk c hc hc'
      cases k with
      | zero => omega
      | succ k =>
        cases j with
        | succ j => exact i3 j k rm rm' (by omega) (by simpa using hj) (by simpa using hk) c hc hc'
        | zero =>
          simp only [List.getElem?_cons_zero, Option.some.injEq] at hj
          subst hj
          have := i2 k rm' (by simpa using hk) c hc'
          rw [(S.setOrder_perm rn _).mem_iff, List.mem_filter] at this
          have h2 := this.2
          simp only [decide_eq_true_eq] at h2
          exact h2 hc

/-! ### credits -/

theorem restrict_self {C : List Str} {vls : List Voteline} (h : ∀ vl ∈ vls, ∀ c ∈ Dict.keys vl.prefs, c ∈ C) :
    restrict C vls = vls := by
  unfold restrict
  conv => rhs; rw [← List.map_id vls]
  apply List.map_congr_left
  intro v hv
  unfold restrictLine
  have : v.prefs.filter (fun e => decide (e.1 ∈ C)) = v.prefs := by
    apply List.filter_eq_self.2
    intro e he
    simpa using h v hv e.1 (List.mem_map.2 ⟨e, he, rfl⟩)
  rw [this]; rfl

theorem restrict_eliminate {C el : List Str} {vls : List Voteline} (hw : ∀ vl ∈ vls, Dict.WF vl.prefs)
    (hd : ∀ c ∈ C, c ∉ el) : restrict C (eliminateCands el vls) = restrict C vls := by
  rw [eliminate_eq el vls hw]
  unfold restrict
  rw [List.map_map]
  apply List.map_congr_left
  intro v _
  unfold restrictLine
  simp only [Function.comp_apply]
  rw [List.filter_filter]
  congr 1
  apply List.filter_congr
  intro e _
  by_cases he : e.1 ∈ C
  · simp [he, hd _ he]
  · simp [he]

theorem entering_eliminate {C el : List Str} {Cs : List (List Str)} {vls : List Voteline} (hw : ∀ vl ∈ vls, Dict.WF vl.prefs)
    (hd : ∀ c ∈ C, c ∉ el) : entering (C :: Cs) (eliminateCands el vls) = entering (C :: Cs) vls := by
  unfold entering
  rw [restrict_eliminate hw hd]

/-- a line that is not overvoted is credited to its sole top -/
theorem topOf_eq {vl : Voteline} (h : CountLine vl) (ho : overvoted vl = false) :
    topOf vl = credited (tops vl).head? := by
  unfold topOf
  rw [validTop_eq h.wf h.ranked h.below ho]

theorem soleTop_iff {vl : Voteline} (h : CountLine vl) (ho : overvoted vl = false) (he : [] ∉ Dict.keys vl.prefs) (c : Str) :
    (topOf vl == some c) = soleTop c vl := by
  rw [topOf_eq h ho]
  unfold overvoted at ho
  unfold soleTop
  have hmem : ∀ x ∈ tops vl, x ∈ Dict.keys vl.prefs := fun x hx => (List.mem_filter.1 hx).1
  rw [Bool.eq_iff_iff]
  match ht : tops vl with
  | [] => simp [credited]
  | [x] =>
    have hx : x ≠ [] := fun h => he (h ▸ hmem x (by simp [ht]))
    cases x with
    | nil => exact absurd rfl hx
    | cons a x => simp [credited]
  | _ :: _ :: _ => rw [ht] at ho; simp at ho

theorem exhausted_iff {vl : Voteline} (h : CountLine vl) (ho : overvoted vl = false) (he : [] ∉ Dict.keys vl.prefs) :
    (topOf vl == none) = exhausted vl := by
  rw [topOf_eq h ho]
  unfold overvoted at ho
  have hmem : ∀ x ∈ tops vl, x ∈ Dict.keys vl.prefs := fun x hx => (List.mem_filter.1 hx).1
  rw [Bool.eq_iff_iff]
  match ht : tops vl with
  | [] =>
    have := (tops_nil_iff h.wf h.ranked).1 ht
    simp [credited, exhausted, this, Dict.keys]
  | [x] =>
    have hx : x ≠ [] := fun h => he (h ▸ hmem x (by simp [ht]))
    have hx2 := hmem x (by simp [ht])
    cases x with
    | nil => exact absurd rfl hx
    | cons a x =>
      have : Dict.keys vl.prefs ≠ [] := List.ne_nil_of_mem hx2
      simp [credited, exhausted, this]
  | _ :: _ :: _ => rw [ht] at ho; simp at ho

theorem qtySum_filter (p q : Voteline → Bool) (l : List Voteline) (h : ∀ v ∈ l, p v = true → q v = true) :
    qtySum p (l.filter q) = qtySum p l := by
  unfold qtySum
  rw [List.filter_filter]
  congr 2
  apply List.filter_congr
  intro v hv
  by_cases hp : p v = true
  · simp [hp, h v hv hp]
  · simp [hp]

theorem qtySum_congr {p q : Voteline → Bool} {l : List Voteline} (h : ∀ v ∈ l, p v = q v) : qtySum p l = qtySum q l := by
  unfold qtySum
  rw [List.filter_congr h]

theorem tally_eq {vls : List Voteline} (hg : ∀ vl ∈ vls, CountLine vl) (he : ∀ vl ∈ vls, [] ∉ Dict.keys vl.prefs) (c : Str) :
    tally (vls.filter (fun vl => !overvoted vl)) c = qtySum (soleTop c) vls := by
  unfold tally
  rw [qtySum_congr (q := soleTop c)]
  · apply qtySum_filter
    intro v _ h
    unfold soleTop at h
    simp only [beq_iff_eq] at h
    simp [overvoted, h]
  · intro v hv
    obtain ⟨h1, h2⟩ := List.mem_filter.1 hv
    exact soleTop_iff (hg v h1) (by simpa using h2) (he v h1) c

theorem exhaustedQty_eq {vls : List Voteline} (hg : ∀ vl ∈ vls, CountLine vl) (he : ∀ vl ∈ vls, [] ∉ Dict.keys vl.prefs) :
    exhaustedQty (vls.filter (fun vl => !overvoted vl)) = qtySum exhausted vls := by
  unfold exhaustedQty
  rw [qtySum_congr (q := exhausted)]
  · apply qtySum_filter
    intro v hv h
    unfold exhausted at h
    have hp : v.prefs = [] := by simpa [Dict.keys] using h
    have : tops v = [] := (tops_nil_iff (hg v hv).wf (hg v hv).ranked).2 hp
    simp [overvoted, this]
  · intro v hv
    obtain ⟨h1, h2⟩ := List.mem_filter.1 hv
    exact exhausted_iff (hg v h1) (by simpa using h2) (he v h1)

theorem countLine_filter {vl : Voteline} (h : CountLine vl) (p : Str × Pref → Bool) :
    CountLine { vl with prefs := vl.prefs.filter p } where
  wf := wf_filter p h.wf
  ranked := fun e he => h.ranked e (List.mem_filter.1 he).1
  below := fun e he => h.below e (List.mem_filter.1 he).1

theorem run_credits {S : Sched} {prev : Option RoundMeta} {rn : Nat} {cands : List Str} {vls : List Voteline} {run : IrvRun}
    (h : Steps S prev rn cands vls run) (hs : IrvState cands vls) (hne : cands ≠ [])
    (hg : ∀ vl ∈ vls, CountLine vl) (hnil : [] ∉ cands)
    (hadj : ∀ E ∈ entering (run.roundmeta.map RoundMeta.startingCands) vls, adjacentOvervotes E = false) :
    ∀ (k : Nat) (rm : RoundMeta) (cnt : Dict Str Int) (E : List Voteline), run.roundmeta[k]? = some rm → run.rounds[k]? = some cnt →
      (entering (run.roundmeta.map RoundMeta.startingCands) vls)[k]? = some E →
      (∀ c ∈ rm.startingCands, Dict.get? cnt c = some (qtySum (soleTop c) E)) ∧
      rm.overvoteqty = qtySum overvoted E ∧ rm.exhaustedqty = qtySum exhausted E := by
  revert hg hnil hadj
  refine steps_induction (S := S) (P := fun _ _ cands vls run => (∀ vl ∈ vls, CountLine vl) → [] ∉ cands →
    (∀ E ∈ entering (run.roundmeta.map RoundMeta.startingCands) vls, adjacentOvervotes E = false) →
    ∀ (k : Nat) (rm : RoundMeta) (cnt : Dict Str Int) (E : List Voteline), run.roundmeta[k]? = some rm → run.rounds[k]? = some cnt →
      (entering (run.roundmeta.map RoundMeta.startingCands) vls)[k]? = some E →
      (∀ c ∈ rm.startingCands, Dict.get? cnt c = some (qtySum (soleTop c) E)) ∧
      rm.overvoteqty = qtySum overvoted E ∧ rm.exhaustedqty = qtySum exhausted E) ?_ ?_ h hs hne
  · intro prev rn cands vls q kept mn mx hs hne k1 k2 k3 a1 a2 b1 b2 hc hg hnil hadj k rm cnt E h1 h2 h3
    cases k with
    | succ k => simp at h1
    | zero =>
      simp only [List.getElem?_cons_zero, Option.some.injEq, List.map_cons, entering] at h1 h2 h3
      subst h1; subst h2; subst h3
      have hself := restrict_self (C := cands) hs.known
      rw [List.map_cons] at hadj
      unfold entering at hadj
      have hadj0 := hadj _ (List.mem_cons_self ..)
      simp only [infoOf] at hadj0 ⊢
      rw [hself] at hadj0 ⊢
      rw [discard_eq vls hg hadj0] at k1
      cases k1
      have he : ∀ vl ∈ vls, [] ∉ Dict.keys vl.prefs := fun v hv hh => hnil (hs.known v hv _ hh)
      refine ⟨?_, rfl, exhaustedQty_eq hg he⟩
      intro c hc
      rw [get?_countsOf, if_pos hc, tally_eq hg he]
  · intro prev rn cands vls q kept mn mx t hs hne k1 k2 k3 a1 a2 b1 b2 hlt hle ht hst ih hg hnil hadj k rm cnt E h1 h2 h3
    have hself := restrict_self (C := cands) hs.known
    have he : ∀ vl ∈ vls, [] ∉ Dict.keys vl.prefs := fun v hv hh => hnil (hs.known v hv _ hh)
    rw [List.map_cons] at hadj h3
    unfold entering at hadj h3
    have hadj0 := hadj _ (List.mem_cons_self ..)
    simp only [infoOf] at hadj0 hadj h3
    rw [hself] at hadj0 hadj h3
    rw [discard_eq vls hg hadj0] at k1
    have k1' := k1
    cases k1
    have hwk : ∀ vl ∈ vls.filter (fun vl => !overvoted vl), Dict.WF vl.prefs := fun v hv => hs.wf v (List.mem_filter.1 hv).1
    -- the rest of the run starts from the eliminated lines
    obtain ⟨rm0, g1, _, g2, _⟩ := run_head ht hst (next_nonempty (S := S) (rn := rn) a1 a2 b1 hlt).1
    have hcons : ∃ tl, t.roundmeta = rm0 :: tl := by
      cases hm : t.roundmeta with
      | nil => rw [hm] at g1; simp at g1
      | cons x tl => rw [hm] at g1; simp at g1; exact ⟨tl, by rw [g1]⟩
    obtain ⟨tl, htl⟩ := hcons
    have hent : entering (t.roundmeta.map RoundMeta.startingCands)
        (eliminateCands (elimOf S rn cands (vls.filter (fun vl => !overvoted vl)) mn mx).eliminated (vls.filter (fun vl => !overvoted vl))) =
        entering (t.roundmeta.map RoundMeta.startingCands) (vls.filter (fun vl => !overvoted vl)) := by
      rw [htl, List.map_cons]
      apply entering_eliminate hwk
      intro c hc
      rw [g2, (S.setOrder_perm rn _).mem_iff, List.mem_filter] at hc
      simpa using hc.2
    cases k with
    | zero =>
      simp only [List.getElem?_cons_zero, Option.some.injEq] at h1 h2 h3
      subst h1; subst h2; subst h3
      refine ⟨?_, rfl, exhaustedQty_eq hg he⟩
      intro c hc
      have hc : c ∈ cands := hc
      rw [get?_countsOf, if_pos hc, tally_eq hg he]
    | succ k =>
      simp only [List.getElem?_cons_succ] at h1 h2 h3
      apply ih
      · intro vl hv
        rw [eliminate_eq _ _ hwk] at hv
        obtain ⟨v, hv', rfl⟩ := List.mem_map.1 hv
        exact countLine_filter (hg v (List.mem_filter.1 hv').1) _
      · intro hh
        rw [(S.setOrder_perm rn _).mem_iff] at hh
        exact hnil (List.mem_filter.1 hh).1
      · intro E' hE'
        rw [hent] at hE'
        exact hadj E' (List.mem_cons_of_mem _ hE')
      · exact h1
      · exact h2
      · rw [hent]; exact h3

end Verif
