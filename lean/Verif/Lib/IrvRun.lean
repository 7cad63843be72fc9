/-
Helper lemmas: facts about whole runs of the instant-runoff count.
-/
import Verif.Lib.IrvRound

set_option linter.unusedSimpArgs false
set_option linter.unusedSectionVars false

namespace Verif
open Spec

theorem Spec.Countable.state {m : Jabmod} (h : Countable m) : IrvState (Dict.keys m.candidates) m.votelines where
  nodup := h.cands
  wf := h.dicts
  ranked := by
    intro vl hv e he
    obtain ⟨r, hr⟩ := h.ranked vl hv e.1 e.2 (Dict.get?_of_mem (h.dicts vl hv) he)
    simp [hr]
  known := h.known

/-- every kept ballot is credited to one candidate or exhausted -/
theorem qtot_split {cands : List Str} (hn : cands.Nodup) (kept : List Voteline)
    (hk : ∀ vl ∈ kept, ∀ c, topOf vl = some c → c ∈ cands) : qtot kept = totalOf cands kept + exhaustedQty kept := by
  unfold totalOf
  induction kept with
  | nil =>
    have : cands.map (tally []) = cands.map (fun _ => (0 : Int)) := by
      apply List.map_congr_left; intro c _; simp [tally, qtySum]
    rw [this]
    have hz : ∀ l : List Str, (l.map (fun _ => (0 : Int))).sum = 0 := by
      intro l; induction l with
      | nil => rfl
      | cons a l ih => simp [ih]
    rw [hz]
    simp [qtot, exhaustedQty, qtySum]
  | cons v rest ih =>
    have ih := ih (fun x hx => hk x (by simp [hx]))
    have h1 : ∀ l : List Str, (l.map (tally (v :: rest))).sum =
        (l.map (fun c => if topOf v == some c then v.qty else 0)).sum + (l.map (tally rest)).sum := by
      intro l
      induction l with
      | nil => rfl
      | cons c l ihl =>
        simp only [List.map_cons, List.sum_cons, ihl]
        unfold tally
        rw [qtySum_cons]
        omega
    rw [h1, qtot_cons, ih]
    unfold exhaustedQty
    rw [qtySum_cons]
    have hz : ∀ l : List Str, (∀ c ∈ l, topOf v ≠ some c) → (l.map (fun c => if topOf v == some c then v.qty else 0)).sum = 0 := by
      intro l hl
      induction l with
      | nil => rfl
      | cons a l ihl =>
        simp only [List.map_cons, List.sum_cons]
        rw [ihl (fun c hc => hl c (by simp [hc]))]
        have := hl a (by simp)
        simp [this]
    cases ht : topOf v with
    | none =>
      have := hz cands (by intro c _; simp [ht])
      rw [ht] at this
      rw [this]
      simp; omega
    | some c =>
      have hc := hk v (by simp) c ht
      have hone : ∀ l : List Str, l.Nodup → c ∈ l →
          (l.map (fun d => if (some c == some d) then v.qty else 0)).sum = v.qty := by
        intro l hl hcl
        induction l with
        | nil => cases hcl
        | cons a l ihl =>
          rw [List.nodup_cons] at hl
          simp only [List.map_cons, List.sum_cons]
          by_cases ha : a = c
          · subst ha
            have := hz l (by intro d hd; rw [ht]; intro h; cases h; exact hl.1 hd)
            rw [ht] at this
            rw [this]; simp
          · have hcl' : c ∈ l := by
              rcases List.mem_cons.1 hcl with h | h
              · exact absurd h.symm ha
              · exact h
            have hne : (some c == some a) = false := by simpa using fun h => ha h.symm
            rw [ihl hl.2 hcl', hne]; simp
      rw [hone cands hn hc]
      simp; omega

theorem qtot_eliminate (el : List Str) {kept : List Voteline} (hw : ∀ vl ∈ kept, Dict.WF vl.prefs) :
    qtot (eliminateCands el kept) = qtot kept := by
  rw [eliminate_eq el kept hw]
  unfold qtot
  rw [List.map_map]; rfl

theorem countsOf_sum (cands : List Str) (kept : List Voteline) :
    ((countsOf cands kept).map Prod.snd).sum = totalOf cands kept := by
  unfold countsOf totalOf
  rw [List.map_map]; rfl

theorem keys_countsOf (cands : List Str) (kept : List Voteline) : Dict.keys (countsOf cands kept) = cands := by
  unfold Dict.keys countsOf
  rw [List.map_map]
  exact List.map_id cands

theorem get?_countsOf {cands : List Str} (kept : List Voteline) {c : Str} :
    Dict.get? (countsOf cands kept) c = if c ∈ cands then some (tally kept c) else none := by
  unfold countsOf
  rw [Dict.get?_mapKeys]
  by_cases hc : c ∈ cands <;> simp [hc]

theorem run_lengths {S : Sched} {prev : Option RoundMeta} {rn : Nat} {cands : List Str} {vls : List Voteline} {run : IrvRun}
    (h : Steps S prev rn cands vls run) (hs : IrvState cands vls) (hne : cands ≠ []) :
    run.roundmeta.length = run.rounds.length ∧ run.rounds.length ≤ cands.length ∧ 1 ≤ run.rounds.length ∧
    run.winner ≠ [] ∧ run.winner.Nodup ∧ (∀ w ∈ run.winner, w ∈ cands) := by
  refine steps_induction (S := S) (P := fun _ _ cands _ run => run.roundmeta.length = run.rounds.length ∧
    run.rounds.length ≤ cands.length ∧ 1 ≤ run.rounds.length ∧
    run.winner ≠ [] ∧ run.winner.Nodup ∧ (∀ w ∈ run.winner, w ∈ cands)) ?_ ?_ h hs hne
  · intro prev rn cands vls q kept mn mx hs hne k1 k2 k3 a1 a2 b1 b2 hc
    refine ⟨rfl, ?_, by simp, ?_, hs.nodup.filter _, fun w hw => (List.mem_filter.1 hw).1⟩
    · exact List.length_pos_iff.2 hne
    · obtain ⟨c, hc1, hc2⟩ := b1
      exact List.ne_nil_of_mem (List.mem_filter.2 ⟨hc1, by simpa using hc2⟩)
  · intro prev rn cands vls q kept mn mx t hs hne k1 k2 k3 a1 a2 b1 b2 hlt hle ht hst ih
    obtain ⟨i1, i2, i3, i4, i5, i6⟩ := ih
    have hl := (next_nonempty (S := S) (rn := rn) a1 a2 b1 hlt).2
    refine ⟨by simp [i1], by simp; omega, by simp, i4, i5, ?_⟩
    intro w hw
    have := i6 w hw
    rw [(S.setOrder_perm rn _).mem_iff] at this
    exact (List.mem_filter.1 this).1

/-- the first round of a run -/
theorem run_head {S : Sched} {prev : Option RoundMeta} {rn : Nat} {cands : List Str} {vls : List Voteline} {run : IrvRun}
    (h : Steps S prev rn cands vls run) (hs : IrvState cands vls) (hne : cands ≠ []) :
    ∃ rm, run.roundmeta[0]? = some rm ∧ rm.startingqty = qtot vls ∧ rm.startingCands = cands ∧ rm.roundnum = rn := by
  refine steps_induction (S := S) (P := fun _ rn cands vls run => ∃ rm, run.roundmeta[0]? = some rm ∧
    rm.startingqty = qtot vls ∧ rm.startingCands = cands ∧ rm.roundnum = rn) ?_ ?_ h hs hne
  · intro prev rn cands vls q kept mn mx hs hne k1 k2 k3 a1 a2 b1 b2 hc
    exact ⟨_, rfl, rfl, rfl, rfl⟩
  · intro prev rn cands vls q kept mn mx t hs hne k1 k2 k3 a1 a2 b1 b2 hlt hle ht hst ih
    exact ⟨_, rfl, rfl, rfl, rfl⟩

theorem run_accounts {S : Sched} {prev : Option RoundMeta} {rn : Nat} {cands : List Str} {vls : List Voteline} {run : IrvRun}
    (h : Steps S prev rn cands vls run) (hs : IrvState cands vls) (hne : cands ≠ []) :
    ∀ k rm cnt, run.roundmeta[k]? = some rm → run.rounds[k]? = some cnt →
      rm.startingqty = (cnt.map Prod.snd).sum + rm.exhaustedqty + rm.overvoteqty ∧
      rm.ballotcount = (cnt.map Prod.snd).sum + rm.exhaustedqty ∧
      rm.countedqty = (cnt.map Prod.snd).sum - rm.exhaustedqty ∧
      Dict.keys cnt = rm.startingCands ∧ rm.roundnum = rn + k ∧
      ∀ rm', run.roundmeta[k + 1]? = some rm' → rm'.startingqty = rm.startingqty - rm.overvoteqty := by
  refine steps_induction (S := S) (P := fun _ rn cands vls run => ∀ k rm cnt, run.roundmeta[k]? = some rm →
      run.rounds[k]? = some cnt →
      rm.startingqty = (cnt.map Prod.snd).sum + rm.exhaustedqty + rm.overvoteqty ∧
      rm.ballotcount = (cnt.map Prod.snd).sum + rm.exhaustedqty ∧
      rm.countedqty = (cnt.map Prod.snd).sum - rm.exhaustedqty ∧
      Dict.keys cnt = rm.startingCands ∧ rm.roundnum = rn + k ∧
      ∀ rm', run.roundmeta[k + 1]? = some rm' → rm'.startingqty = rm.startingqty - rm.overvoteqty) ?_ ?_ h hs hne
  · intro prev rn cands vls q kept mn mx hs hne k1 k2 k3 a1 a2 b1 b2 hc k rm cnt h1 h2
    cases k with
    | succ k => simp at h1
    | zero =>
      simp only [List.getElem?_cons_zero, Option.some.injEq] at h1 h2
      subst h1; subst h2
      have := qtot_split hs.nodup kept (fun v hv c hc => topOf_mem hs (k2.subset hv) hc)
      rw [countsOf_sum, keys_countsOf]
      refine ⟨?_, this, rfl, rfl, rfl, by simp⟩
      show qtot vls = totalOf cands kept + exhaustedQty kept + q
      omega
  · intro prev rn cands vls q kept mn mx t hs hne k1 k2 k3 a1 a2 b1 b2 hlt hle ht hst ih k rm cnt h1 h2
    cases k with
    | succ k =>
      obtain ⟨x1, x2, x3, x4, x5, x6⟩ := ih k rm cnt (by simpa using h1) (by simpa using h2)
      exact ⟨x1, x2, x3, x4, by omega, fun rm' hr' => x6 rm' (by simpa using hr')⟩
    | zero =>
      simp only [List.getElem?_cons_zero, Option.some.injEq] at h1 h2
      subst h1; subst h2
      have := qtot_split hs.nodup kept (fun v hv c hc => topOf_mem hs (k2.subset hv) hc)
      rw [countsOf_sum, keys_countsOf]
      refine ⟨?_, this, rfl, rfl, rfl, ?_⟩
      · show qtot vls = totalOf cands kept + exhaustedQty kept + q
        omega
      · intro rm' hr'
        obtain ⟨rm'', g1, g2, _⟩ := run_head ht hst (next_nonempty (S := S) (rn := rn) a1 a2 b1 hlt).1
        simp only [List.getElem?_cons_succ] at hr'
        rw [g1] at hr'
        cases hr'
        rw [g2, qtot_eliminate _ (fun v hv => hs.wf v (k2.subset hv))]
        show qtot kept = qtot vls - q
        omega

/-- the winners and how the last round ended -/
theorem run_end {S : Sched} {prev : Option RoundMeta} {rn : Nat} {cands : List Str} {vls : List Voteline} {run : IrvRun}
    (h : Steps S prev rn cands vls run) (hs : IrvState cands vls) (hne : cands ≠ []) :
    ∃ cnt rm mx, run.rounds.getLast? = some cnt ∧ run.roundmeta.getLast? = some rm ∧ rm.winner = some run.winner ∧
      (∀ c v, Dict.get? cnt c = some v → v ≤ mx) ∧
      run.winner = (Dict.keys cnt).filter (fun c => decide (Dict.get? cnt c = some mx)) ∧
      ((∀ c v, Dict.get? cnt c = some v → v = mx) ∨ 2 * mx > (cnt.map Prod.snd).sum) ∧
      rm.eliminated = rm.startingCands.filter (fun c => c ∉ run.winner) ∧ cnt.keys = rm.startingCands ∧ Dict.WF cnt := by
  refine steps_induction (S := S) (P := fun _ _ _ _ run => ∃ cnt rm mx, run.rounds.getLast? = some cnt ∧
      run.roundmeta.getLast? = some rm ∧ rm.winner = some run.winner ∧
      (∀ c v, Dict.get? cnt c = some v → v ≤ mx) ∧
      run.winner = (Dict.keys cnt).filter (fun c => decide (Dict.get? cnt c = some mx)) ∧
      ((∀ c v, Dict.get? cnt c = some v → v = mx) ∨ 2 * mx > (cnt.map Prod.snd).sum) ∧
      rm.eliminated = rm.startingCands.filter (fun c => c ∉ run.winner) ∧ cnt.keys = rm.startingCands ∧ Dict.WF cnt) ?_ ?_ h hs hne
  · intro prev rn cands vls q kept mn mx hs hne k1 k2 k3 a1 a2 b1 b2 hc
    refine ⟨countsOf cands kept, _, mx, rfl, rfl, rfl, ?_, ?_, ?_, rfl, keys_countsOf _ _, ?_⟩
    · intro c v hv
      rw [get?_countsOf] at hv
      split at hv
      · rename_i hcm; cases hv; exact b2 c hcm
      · cases hv
    · rw [keys_countsOf]
      apply List.filter_congr
      intro c hcm
      rw [get?_countsOf, if_pos hcm]
      simp
    · rcases hc with h | h
      · left
        intro c v hv
        rw [get?_countsOf] at hv
        split at hv
        · rename_i hcm; cases hv
          have h1 := a2 c hcm; have h2 := b2 c hcm; omega
        · cases hv
      · right; rw [countsOf_sum]; exact h
    · unfold Dict.WF; rw [keys_countsOf]; exact hs.nodup
  · intro prev rn cands vls q kept mn mx t hs hne k1 k2 k3 a1 a2 b1 b2 hlt hle ht hst ih
    obtain ⟨cnt, rm, mx', g1, g2, g⟩ := ih
    refine ⟨cnt, rm, mx', ?_, ?_, g⟩
    · rw [List.getLast?_cons, g1]; rfl
    · rw [List.getLast?_cons, g2]; rfl

theorem tally_nonneg {kept : List Voteline} (h : ∀ vl ∈ kept, 0 ≤ vl.qty) (c : Str) : 0 ≤ tally kept c := by
  unfold tally
  induction kept with
  | nil => simp [qtySum]
  | cons v l ih =>
    have := ih (fun x hx => h x (by simp [hx]))
    have hv := h v (by simp)
    rw [qtySum_cons]
    split <;> omega

theorem eliminate_nonneg {el : List Str} {kept : List Voteline} (hw : ∀ vl ∈ kept, Dict.WF vl.prefs)
    (h : ∀ vl ∈ kept, 0 ≤ vl.qty) : ∀ vl ∈ eliminateCands el kept, 0 ≤ vl.qty := by
  rw [eliminate_eq el kept hw]
  intro vl hv
  obtain ⟨v, hv', rfl⟩ := List.mem_map.1 hv
  exact h v hv'

theorem run_nonneg {S : Sched} {prev : Option RoundMeta} {rn : Nat} {cands : List Str} {vls : List Voteline} {run : IrvRun}
    (h : Steps S prev rn cands vls run) (hs : IrvState cands vls) (hne : cands ≠ []) (hq : ∀ vl ∈ vls, 0 ≤ vl.qty) :
    ∀ cnt ∈ run.rounds, ∀ e ∈ cnt, 0 ≤ e.2 := by
  revert hq
  refine steps_induction (S := S) (P := fun _ _ _ vls run => (∀ vl ∈ vls, 0 ≤ vl.qty) → ∀ cnt ∈ run.rounds, ∀ e ∈ cnt, 0 ≤ e.2) ?_ ?_ h hs hne
  · intro prev rn cands vls q kept mn mx hs hne k1 k2 k3 a1 a2 b1 b2 hc hq cnt hcnt e he
    simp only [List.mem_cons, List.not_mem_nil, or_false] at hcnt
    subst hcnt
    obtain ⟨c, _, rfl⟩ := List.mem_map.1 he
    exact tally_nonneg (fun v hv => hq v (k2.subset hv)) c
  · intro prev rn cands vls q kept mn mx t hs hne k1 k2 k3 a1 a2 b1 b2 hlt hle ht hst ih hq cnt hcnt e he
    rcases List.mem_cons.1 hcnt with rfl | hcnt
    · obtain ⟨c, _, rfl⟩ := List.mem_map.1 he
      exact tally_nonneg (fun v hv => hq v (k2.subset hv)) c
    · exact ih (eliminate_nonneg (fun v hv => hs.wf v (k2.subset hv)) (fun v hv => hq v (k2.subset hv))) cnt hcnt e he

/-- two candidates' counts together are at most the total -/
theorem two_le_sum {d : Dict Str Int} (hw : Dict.WF d) (hn : ∀ e ∈ d, 0 ≤ e.2) {a b : Str} {x y : Int} (hab : a ≠ b)
    (ha : Dict.get? d a = some x) (hb : Dict.get? d b = some y) : x + y ≤ (d.map Prod.snd).sum := by
  have one : ∀ {d : Dict Str Int}, (∀ e ∈ d, 0 ≤ e.2) → ∀ {b y}, Dict.get? d b = some y → y ≤ (d.map Prod.snd).sum ∧ 0 ≤ (d.map Prod.snd).sum := by
    intro d
    induction d with
    | nil => intro _ b y h; cases h
    | cons e d ih =>
      intro hn b y h
      have h0 : ∀ l : List (Str × Int), (∀ e ∈ l, 0 ≤ e.2) → 0 ≤ (l.map Prod.snd).sum := by
        intro l hl
        induction l with
        | nil => simp
        | cons a l ih => have := ih (fun e he => hl e (by simp [he])); have := hl a (by simp); simp; omega
      have he := hn e (by simp)
      have hd := h0 d (fun e he => hn e (by simp [he]))
      obtain ⟨k, v⟩ := e
      unfold Dict.get? at h
      simp only [List.map_cons, List.sum_cons]
      split at h
      · cases h; simp only at he; omega
      · have := ih (fun e he => hn e (by simp [he])) h
        simp only at he; omega
  induction d with
  | nil => cases ha
  | cons e d ih =>
    obtain ⟨k, v⟩ := e
    have hw' : Dict.WF d := (List.nodup_cons.1 hw).2
    have hn' : ∀ e ∈ d, 0 ≤ e.2 := fun e he => hn e (by simp [he])
    have hv := hn (k, v) (by simp)
    unfold Dict.get? at ha hb
    simp only [List.map_cons, List.sum_cons]
    split at ha
    · rename_i hk
      cases ha
      rw [if_neg (by rw [hk]; exact hab)] at hb
      have := one hn' hb; omega
    · split at hb
      · cases hb
        have := one hn' ha; omega
      · have := ih hw' hn' ha hb
        simp only at hv; omega

end Verif
