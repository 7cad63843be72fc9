/-
C98: more ballots for the winner of an instant-runoff count.
-/
import Verif.Props.IrvLater
import Verif.Props.IrvPairwise

set_option linter.unusedSimpArgs false
set_option linter.unusedSectionVars false

namespace Verif.Props
open Spec

/-- a line the count can use, without equal ranks, topped by `w` -/
structure TopLine (w : Str) (v : Voteline) : Prop where
  good : CountLine v
  strict : StrictLine v
  top : w ∈ tops v

theorem TopLine.topOf {w : Str} {v : Voteline} (h : TopLine w v) (hw : w ≠ []) : topOf v = some w := by
  have ho := strict_not_overvoted h.good.wf h.strict
  rw [topOf_eq h.good ho]
  have := (soleTop_mem ho).2 h.top
  unfold soleTop at this
  rw [beq_iff_eq.1 this]
  cases w with
  | nil => exact absurd rfl hw
  | cons a t => rfl

theorem TopLine.filter {w : Str} {v : Voteline} (h : TopLine w v) {p : Str → Bool} (hp : p w = true) :
    TopLine w { v with prefs := v.prefs.filter (fun e => p e.1) } := by
  refine ⟨countLine_filter h.good _, strict_filter h.strict p, ?_⟩
  obtain ⟨h1, h2⟩ := mem_tops.1 h.top
  rw [mem_tops]
  refine ⟨mem_keys_filterKey.2 ⟨h1, hp⟩, fun d hd => ?_⟩
  obtain ⟨hd1, hd2⟩ := mem_keys_filterKey.1 hd
  rw [prefers_filter hd2 hp]
  exact h2 d hd1

theorem tally_more {w : Str} (hw : w ≠ []) {vls extra vls' : List Voteline} (hp : vls'.Perm (vls ++ extra))
    (hx : ∀ v ∈ extra, TopLine w v) (c : Str) : tally vls' c = tally vls c + if c = w then qtot extra else 0 := by
  unfold tally
  rw [qtySum_perm _ hp, qtySum_append]
  congr 1
  by_cases hc : c = w
  · rw [if_pos hc]
    unfold qtySum qtot
    rw [List.filter_eq_self.2]
    intro v hv
    rw [(hx v hv).topOf hw, hc]
    simp
  · rw [if_neg hc]
    unfold qtySum
    rw [List.filter_eq_nil_iff.2]
    · rfl
    · intro v hv
      rw [(hx v hv).topOf hw]
      simpa using fun h => hc h.symm

theorem sum_indicator {w : Str} (q : Int) : ∀ {l : List Str}, l.Nodup → w ∈ l → (l.map (fun c => if c = w then q else 0)).sum = q
  | [], _, h => by cases h
  | a :: l, hn, h => by
    rw [List.nodup_cons] at hn
    rw [List.map_cons, List.sum_cons]
    rcases List.mem_cons.1 h with rfl | h
    · have : (l.map (fun c => if c = w then q else (0 : Int))).sum = 0 := by
        have h0 : l.map (fun c => if c = w then q else (0 : Int)) = l.map (fun _ => 0) := by
          apply List.map_congr_left
          intro c hc
          rw [if_neg (fun he : c = w => hn.1 (he ▸ hc))]
        rw [h0]
        clear h0 hn h
        induction l with
        | nil => rfl
        | cons b l ih => rw [List.map_cons, List.sum_cons, ih]; rfl
      rw [this]; simp
    · rw [sum_indicator q hn.2 h, if_neg (fun he : a = w => hn.1 (he ▸ h))]
      omega

theorem qtot_nonneg {l : List Voteline} (h : ∀ v ∈ l, 0 ≤ v.qty) : 0 ≤ qtot l := by
  induction l with
  | nil => exact Int.le_refl _
  | cons a l ih =>
    rw [qtot_cons]
    have h1 := h a (by simp)
    have h2 := ih (fun v hv => h v (by simp [hv]))
    omega

theorem sum_map_add (f g : Str → Int) (l : List Str) : (l.map (fun c => f c + g c)).sum = (l.map f).sum + (l.map g).sum := by
  induction l with
  | nil => rfl
  | cons a l ih => rw [List.map_cons, List.map_cons, List.map_cons, List.sum_cons, List.sum_cons, List.sum_cons, ih]; omega

theorem penult_le {l : List Str} {f g : Str → Int} {mn mx mx' : Int} (hfg : ∀ c ∈ l, f c ≤ g c) (hgf : ∀ c ∈ l, g c > mn → f c > mn)
    (hlt : mn < mx) (hlt' : mn < mx') (h1 : ∃ c ∈ l, g c = mx') :
    penultVotes (l.map f) mn mx ≤ penultVotes (l.map g) mn mx' := by
  unfold penultVotes
  rw [if_neg (by omega), if_neg (by omega)]
  obtain ⟨c, hc, hc'⟩ := h1
  have hne : (l.map g).filter (fun v => decide (v > mn)) ≠ [] := by
    apply List.ne_nil_of_mem (a := g c)
    rw [List.mem_filter]
    exact ⟨List.mem_map.2 ⟨c, hc, rfl⟩, by simp; omega⟩
  obtain ⟨y, hy⟩ := listMin_isSome hne
  obtain ⟨hy1, hy2⟩ := listMin_some.1 hy
  obtain ⟨hy3, hy4⟩ := List.mem_filter.1 hy1
  obtain ⟨d, hd, rfl⟩ := List.mem_map.1 hy3
  have hfd := hgf d hd (by simpa using hy4)
  have hmem : f d ∈ (l.map f).filter (fun v => decide (v > mn)) := List.mem_filter.2 ⟨List.mem_map.2 ⟨d, hd, rfl⟩, by simpa using hfd⟩
  obtain ⟨x, hx⟩ := listMin_isSome (List.ne_nil_of_mem hmem)
  have := (listMin_some.1 hx).2 _ hmem
  have := hfg d hd
  rw [hx, hy]
  simp only [Option.getD_some]
  omega

/-- The run with more ballots for `w` in step with the run without them, until `w` wins. -/
theorem more_lockstep {S S' : Sched} {w : Str} (hw : w ≠ []) {prev : Option RoundMeta} {rn : Nat} {cands : List Str} {vls : List Voteline}
    {run : IrvRun} (h : Steps S prev rn cands vls run) (hs : IrvState cands vls) (hne : cands ≠ [])
    (hdet : ∀ rm ∈ run.roundmeta.dropLast, rm.randomElim = false) (hwin : run.winner = [w])
    (hg : ∀ v ∈ vls, CountLine v) (hst : ∀ v ∈ vls, StrictLine v)
    {prev' : Option RoundMeta} {rn' : Nat} {cands' : List Str} {extra vls' : List Voteline} {run' : IrvRun} (hp : cands'.Perm cands)
    (hx : ∀ v ∈ extra, TopLine w v ∧ 0 ≤ v.qty) (hpv : vls'.Perm (vls ++ extra)) (hs' : IrvState cands' vls')
    (h' : Steps S' prev' rn' cands' vls' run') : run'.winner = [w] := by
  revert hdet hwin hg hst prev' rn' cands' extra vls' run'
  refine steps_induction (S := S) (P := fun _ _ cands vls run => (∀ rm ∈ run.roundmeta.dropLast, rm.randomElim = false) →
    run.winner = [w] → (∀ v ∈ vls, CountLine v) → (∀ v ∈ vls, StrictLine v) →
    ∀ {prev' : Option RoundMeta} {rn' : Nat} {cands' : List Str} {extra vls' : List Voteline} {run' : IrvRun}, cands'.Perm cands →
      (∀ v ∈ extra, TopLine w v ∧ 0 ≤ v.qty) → vls'.Perm (vls ++ extra) → IrvState cands' vls' →
      Steps S' prev' rn' cands' vls' run' → run'.winner = [w]) ?_ ?_ h hs hne
  · -- the last round of the count without the new ballots
    intro prev rn cands vls q kept mn mx hs hne k1 k2 k3 a1 a2 b1 b2 hc hdet hwin hg hst prev' rn' cands' extra vls' run' hp hx hpv hs' h'
    have hne' : cands' ≠ [] := fun hh => hne (by rw [hh] at hp; exact hp.symm.eq_nil)
    rw [discard_strict hg hst] at k1
    cases k1
    have hg' : ∀ v ∈ vls', CountLine v := by
      intro v hv
      rcases List.mem_append.1 (hpv.mem_iff.1 hv) with h | h
      exacts [hg v h, (hx v h).1.good]
    have hst' : ∀ v ∈ vls', StrictLine v := by
      intro v hv
      rcases List.mem_append.1 (hpv.mem_iff.1 hv) with h | h
      exacts [hst v h, (hx v h).1.strict]
    obtain ⟨q', kept', mn', mx', j1, j2, c1, c2, d1, d2, hr⟩ := steps_cases h' hs' hne'
    rw [discard_strict hg' hst'] at j1
    cases j1
    have ht := tally_more hw hpv (fun v hv => (hx v hv).1)
    have hq : 0 ≤ qtot extra := by
      exact qtot_nonneg (fun v hv => (hx v hv).2)
    have hl : leaders cands vls mx = [w] := hwin
    have hwl : w ∈ cands ∧ tally vls w = mx := by
      have : w ∈ leaders cands vls mx := by rw [hl]; simp
      unfold leaders at this
      simpa using List.mem_filter.1 this
    have hothers : ∀ c ∈ cands, c ≠ w → tally vls c < mx := by
      intro c hcc hcw
      have h1 := b2 c hcc
      have h2 : tally vls c ≠ mx := by
        intro he
        have : c ∈ leaders cands vls mx := List.mem_filter.2 ⟨hcc, by simpa using he⟩
        rw [hl] at this
        exact hcw (by simpa using this)
      omega
    have hwt : tally vls' w = mx + qtot extra := by rw [ht, if_pos rfl, hwl.2]
    have hot : ∀ c ∈ cands, c ≠ w → tally vls' c = tally vls c := by
      intro c _ hcw
      rw [ht, if_neg hcw]; omega
    have hmx' : mx' = mx + qtot extra := by
      obtain ⟨y, hy, rfl⟩ := d1
      have h1 := d2 w (hp.mem_iff.2 hwl.1)
      by_cases hyw : y = w
      · rw [hyw, hwt]
      · have h2 := hothers y (hp.mem_iff.1 hy) hyw
        rw [hot y (hp.mem_iff.1 hy) hyw] at h1
        omega
    have hl' : (leaders cands' vls' mx').Perm [w] := by
      refine (hp.filter _).trans ?_
      rw [← hl]
      unfold leaders
      rw [List.filter_congr]
      intro c hcc
      by_cases hcw : c = w
      · subst hcw
        rw [hwt, hmx', hwl.2]; simp
      · have h1 := hothers c hcc hcw
        rw [hot c hcc hcw]
        rw [decide_eq_false (by omega), decide_eq_false (by omega)]
    have htot : totalOf cands' vls' = totalOf cands vls + qtot extra := by
      rw [totalOf_perm hp]
      unfold totalOf
      have : cands.map (tally vls') = cands.map (fun c => tally vls c + if c = w then qtot extra else 0) := by
        apply List.map_congr_left
        intro c _
        exact ht c
      rw [this, sum_map_add, sum_indicator _ hs.nodup hwl.1]
    rcases hr with ⟨_, rfl⟩ | ⟨hxx, _⟩
    · exact List.perm_singleton.1 hl'
    · rcases hc with hc | hc
      · -- all tied: `w` is the only candidate
        obtain ⟨y, hy, hym⟩ := c1
        by_cases hyw : y = w
        · subst hyw
          omega
        · have h1 := hothers y (hp.mem_iff.1 hy) hyw
          have h2 := a2 y (hp.mem_iff.1 hy)
          omega
      · omega
  · intro prev rn cands vls q kept mn mx t hs hne k1 k2 k3 a1 a2 b1 b2 hlt hle ht0 hst0 ih hdet hwin hg hst prev' rn' cands' extra vls' run' hp hx hpv hs' h'
    have hne' : cands' ≠ [] := fun hh => hne (by rw [hh] at hp; exact hp.symm.eq_nil)
    rw [discard_strict hg hst] at k1
    cases k1
    have hg' : ∀ v ∈ vls', CountLine v := by
      intro v hv
      rcases List.mem_append.1 (hpv.mem_iff.1 hv) with h | h
      exacts [hg v h, (hx v h).1.good]
    have hst' : ∀ v ∈ vls', StrictLine v := by
      intro v hv
      rcases List.mem_append.1 (hpv.mem_iff.1 hv) with h | h
      exacts [hst v h, (hx v h).1.strict]
    obtain ⟨q', kept', mn', mx', j1, j2, c1, c2, d1, d2, hr⟩ := steps_cases h' hs' hne'
    rw [discard_strict hg' hst'] at j1
    cases j1
    have ht := tally_more hw hpv (fun v hv => (hx v hv).1)
    have hq : 0 ≤ qtot extra := by
      exact qtot_nonneg (fun v hv => (hx v hv).2)
    have hnn := next_nonempty (S := S) (rn := rn) a1 a2 b1 hlt
    have htwin : t.winner = [w] := hwin
    have hwin' : w ∈ cands ∧ w ∉ (elimOf S rn cands vls mn mx).eliminated := by
      have := (run_lengths ht0 hst0 hnn.1).2.2.2.2.2 w (by rw [htwin]; simp)
      rw [(S.setOrder_perm rn _).mem_iff, List.mem_filter] at this
      simpa using this
    have htne : t.roundmeta ≠ [] := by
      have := run_lengths ht0 hst0 hnn.1
      intro hh; rw [hh] at this; simp at this; omega
    have hd0 : (elimOf S rn cands vls mn mx).random = false := by
      have := hdet (infoOf S prev rn cands vls 0 vls mn mx) (by
        simp only [List.dropLast_cons_of_ne_nil htne]; exact List.mem_cons_self ..)
      exact this
    have hEB : (elimOf S rn cands vls mn mx).eliminated = bottoms cands vls mn := by
      rcases elimOf_cases S rn cands vls mn mx with ⟨y1, y2, h2⟩ | ⟨y1, y2, h2⟩ | ⟨y1, h2⟩
      · rw [h2]
      · rw [h2] at hd0; cases hd0
      · rw [h2]
    have hwb : mn < tally vls w := by
      have h1 := a2 w hwin'.1
      have h2 : tally vls w ≠ mn := fun he => hwin'.2 (by rw [hEB, mem_bottoms a2]; exact ⟨hwin'.1, he⟩)
      omega
    have hot : ∀ c, c ≠ w → tally vls' c = tally vls c := by
      intro c hcw
      rw [ht, if_neg hcw]; omega
    have hwt : tally vls' w = tally vls w + qtot extra := by rw [ht, if_pos rfl]
    have hge : ∀ c, tally vls c ≤ tally vls' c := by
      intro c
      by_cases hcw : c = w
      · subst hcw; omega
      · rw [hot c hcw]; omega
    have hmn : mn' = mn := by
      obtain ⟨x, hxc, hxm⟩ := a1
      have hxw : x ≠ w := by rintro rfl; omega
      have h1 := c2 x (hp.mem_iff.2 hxc)
      rw [hot x hxw] at h1
      obtain ⟨y, hy, hym⟩ := c1
      have h2 := a2 y (hp.mem_iff.1 hy)
      have h3 := hge y
      omega
    subst hmn
    have hmx : mx ≤ mx' := by
      obtain ⟨x, hxc, hxm⟩ := b1
      have h1 := d2 x (hp.mem_iff.2 hxc)
      have h2 := hge x
      omega
    have htot : totalOf cands' vls' = totalOf cands vls + qtot extra := by
      rw [totalOf_perm hp]
      unfold totalOf
      have : cands.map (tally vls') = cands.map (fun c => tally vls c + if c = w then qtot extra else 0) := by
        apply List.map_congr_left
        intro c _
        exact ht c
      rw [this, sum_map_add, sum_indicator _ hs.nodup hwin'.1]
    rcases hr with ⟨hend, rfl⟩ | ⟨_, t', ht', hst2, rfl⟩
    · -- the new ballots end the count here
      have hmxx : mx < mx' := by omega
      show leaders cands' vls' mx' = [w]
      apply List.perm_singleton.1
      obtain ⟨y, hy, hym⟩ := d1
      have hyw : y = w := by
        by_contra hyw
        have := b2 y (hp.mem_iff.1 hy)
        rw [hot y hyw] at hym
        omega
      have hone : (leaders cands' vls' mx').Nodup := hs'.nodup.filter _
      rw [List.perm_ext_iff_of_nodup hone (by simp)]
      intro c
      unfold leaders
      rw [List.mem_filter, List.mem_singleton]
      constructor
      · rintro ⟨hc, he⟩
        by_contra hcw
        have := b2 c (hp.mem_iff.1 hc)
        rw [hot c hcw] at he
        simp at he
        omega
      · rintro rfl
        subst hyw
        exact ⟨hy, by simpa using hym⟩
    · -- the same candidates go out
      have hB : (bottoms cands' vls' mn').Perm (bottoms cands vls mn') := by
        refine (hp.filter _).trans ?_
        have : cands.filter (fun c => decide (tally vls' c ≤ mn')) = cands.filter (fun c => decide (tally vls c ≤ mn')) := by
          apply List.filter_congr
          intro c _
          by_cases hcw : c = w
          · subst hcw
            rw [decide_eq_false (by omega), decide_eq_false (by omega)]
          · rw [hot c hcw]
        rw [this]
        exact List.Perm.refl _
      have hBl := hB.length_eq
      have hBs : ((bottoms cands' vls' mn').map (tally vls')).sum = ((bottoms cands vls mn').map (tally vls)).sum := by
        rw [perm_sum (hB.map (tally vls'))]
        congr 1
        apply List.map_congr_left
        intro c hc
        rw [hot c]
        rintro rfl
        rw [mem_bottoms a2] at hc
        omega
      have hP : penultVotes (cands.map (tally vls)) mn' mx ≤ penultVotes (cands'.map (tally vls')) mn' mx' := by
        rw [penult_perm (hp.map (tally vls')) mn' mx']
        refine penult_le (fun c _ => hge c) ?_ hlt (by omega) ?_
        · intro c _ hc
          by_cases hcw : c = w
          · subst hcw; omega
          · rw [hot c hcw] at hc; exact hc
        · obtain ⟨y, hy, hym⟩ := d1
          exact ⟨y, hp.mem_iff.1 hy, hym⟩
      have hE : (elimOf S' rn' cands' vls' mn' mx').eliminated.Perm (elimOf S rn cands vls mn' mx).eliminated := by
        rcases elimOf_cases S' rn' cands' vls' mn' mx' with ⟨x1, x2, h1⟩ | ⟨x1, x2, h1⟩ | ⟨x1, h1⟩ <;>
        rcases elimOf_cases S rn cands vls mn' mx with ⟨y1, y2, h2⟩ | ⟨y1, y2, h2⟩ | ⟨y1, h2⟩
        · rw [h1, h2]; exact hB
        · rw [h2] at hd0; cases hd0
        · omega
        · omega
        · rw [h2] at hd0; cases hd0
        · omega
        · omega
        · omega
        · rw [h1, h2]; exact hB
      have hcs : (S'.setOrder rn' (cands'.filter (fun c => c ∉ (elimOf S' rn' cands' vls' mn' mx').eliminated))).Perm
          (S.setOrder rn (cands.filter (fun c => c ∉ (elimOf S rn cands vls mn' mx).eliminated))) := by
        refine (S'.setOrder_perm rn' _).trans (.trans ?_ (S.setOrder_perm rn _).symm)
        have : (fun c => decide (c ∉ (elimOf S' rn' cands' vls' mn' mx').eliminated)) =
            (fun c => decide (c ∉ (elimOf S rn cands vls mn' mx).eliminated)) := by
          funext c
          simp only [hE.mem_iff]
        rw [this]
        exact hp.filter _
      have hw1 : ∀ v ∈ vls, Dict.WF v.prefs := fun v hv => (hg v hv).wf
      have hw2 : ∀ v ∈ vls', Dict.WF v.prefs := fun v hv => (hg' v hv).wf
      rw [eliminate_eq _ _ hw1] at ih
      rw [eliminate_eq _ _ hw2] at ht' hst2
      have hwe : decide (w ∉ (elimOf S rn cands vls mn' mx).eliminated) = true := by simpa using hwin'.2
      show t'.winner = [w]
      refine ih (extra := extra.map (fun vl => { vl with prefs := vl.prefs.filter (fun e => decide (e.1 ∉ (elimOf S rn cands vls mn' mx).eliminated)) }))
        (fun rm hrm => hdet rm (by
        simp only [List.dropLast_cons_of_ne_nil htne]; exact List.mem_cons_of_mem _ hrm)) htwin ?_ ?_ hcs ?_ ?_ hst2 ht'
      · intro v hv
        obtain ⟨u, hu, rfl⟩ := List.mem_map.1 hv
        exact countLine_filter (hg u hu) _
      · intro v hv
        obtain ⟨u, hu, rfl⟩ := List.mem_map.1 hv
        exact strict_filter (hst u hu) (fun x => decide (x ∉ (elimOf S rn cands vls mn' mx).eliminated))
      · intro v hv
        obtain ⟨u, hu, rfl⟩ := List.mem_map.1 hv
        exact ⟨(hx u hu).1.filter (p := fun x => decide (x ∉ (elimOf S rn cands vls mn' mx).eliminated)) hwe, (hx u hu).2⟩
      · rw [← List.map_append]
        have : (fun vl : Voteline => { vl with prefs := vl.prefs.filter (fun e => decide (e.1 ∉ (elimOf S' rn' cands' vls' mn' mx').eliminated)) }) =
            (fun vl : Voteline => { vl with prefs := vl.prefs.filter (fun e => decide (e.1 ∉ (elimOf S rn cands vls mn' mx).eliminated)) }) := by
          funext v
          simp only [hE.mem_iff]
        rw [this]
        exact hpv.map _

/-- C98.  More ballots with the winner on top keep it the winner: if `w` alone wins the instant-runoff count of an election without
equal ranks, and that count made no random elimination, then in every election that has, beside the same ballots, further ones with `w`
alone on top (in whatever order the lines stand), `w` alone wins again, whatever happens by chance. -/
theorem C98_support (S S' : Sched) (m m' : Jabmod) (d d' : IrvDict) (he : StrictElection m) (he' : StrictElection m')
    (hcd : (Dict.keys m'.candidates).Perm (Dict.keys m.candidates)) (extra : List Voteline)
    (hv : m'.votelines.Perm (m.votelines ++ extra)) (w : Str) (htop : ∀ v ∈ extra, soleTop w v = true)
    (hd : irvDict S m = .ok d) (hd' : irvDict S' m' = .ok d')
    (hdet : ∀ rm ∈ d.run.roundmeta.dropLast, rm.randomElim = false) (hwin : d.run.winner = [w]) : d'.run.winner = [w] := by
  have hne := irvDict_nonempty he.countable hd
  have hw : w ≠ [] := by
    rintro rfl
    have := (run_lengths (irvDict_steps hd) he.countable.state hne).2.2.2.2.2 [] (by rw [hwin]; simp)
    exact he.noEmpty this
  have hmem : ∀ v ∈ extra, v ∈ m'.votelines := fun v hx => hv.mem_iff.2 (List.mem_append_right _ hx)
  have hs' := he'.countable.state
  refine more_lockstep hw (irvDict_steps hd) he.countable.state hne hdet hwin (good_of he.countable he.below) he.strict hcd ?_ hv hs'
    (irvDict_steps hd')
  intro v hx
  refine ⟨⟨good_of he'.countable he'.below v (hmem v hx), he'.strict v (hmem v hx), ?_⟩, he'.nonneg v (hmem v hx)⟩
  have := htop v hx
  unfold soleTop at this
  rw [beq_iff_eq.1 this]
  simp

section
attribute [local instance] Uni.ascii
set_option maxRecDepth 40000

def supportText : Str := c!"5:A>C>B\n4:B>C>A\n3:C>B\n"
/-- two voters more for the winner B -/
def supportText2 : Str := c!"5:A>C>B\n4:B>C>A\n3:C>B\n2:B>A\n"
def threeText : Str := c!"2:A\n2:B>C\n2:C>B\n"
/-- one voter more for A, one of the three tied winners -/
def threeText2 : Str := c!"2:A\n2:B>C\n2:C>B\n1:A\n"

/-- the hypotheses of `C98_support` are met, with two rounds in the first count -/
example : ∃ m m' v d, convertAbif true false false supportText = .ok m ∧ convertAbif true false false supportText2 = .ok m' ∧
    StrictElection m ∧ StrictElection m' ∧ Dict.keys m'.candidates = Dict.keys m.candidates ∧ m'.votelines = m.votelines ++ [v] ∧
    soleTop c!"B" v = true ∧ irvDict Sched.std m = .ok d ∧ d.run.winner = [c!"B"] ∧ d.run.rounds.length = 2 ∧
    (∀ rm ∈ d.run.roundmeta, rm.randomElim = false) ∧ irvOf m' = some [c!"B"] := by
  have e1 : convertAbif true false false supportText = .ok (readText supportText) := readText_eq (by decide +kernel)
  have e2 : convertAbif true false false supportText2 = .ok (readText supportText2) := readText_eq (by decide +kernel)
  have hd : ∃ d, irvDict Sched.std (readText supportText) = .ok d ∧ d.run.winner = [c!"B"] ∧ d.run.rounds.length = 2 ∧
      (∀ rm ∈ d.run.roundmeta, rm.randomElim = false) := by
    have h : ∀ d ∈ (irvDict Sched.std (readText supportText)).toOption.toList, d.run.winner = [c!"B"] ∧ d.run.rounds.length = 2 ∧
      (∀ rm ∈ d.run.roundmeta, rm.randomElim = false) := by decide +kernel
    have h2 : (irvDict Sched.std (readText supportText)).toOption.isSome = true := by decide +kernel
    cases hd : irvDict Sched.std (readText supportText) with
    | error e => rw [hd] at h2; cases h2
    | ok d => rw [hd] at h; exact ⟨d, rfl, h d (by simp [Except.toOption])⟩
  obtain ⟨d, g1, g2, g3, g4⟩ := hd
  have hlast : ∃ v, (readText supportText2).votelines = (readText supportText).votelines ++ [v] ∧ soleTop c!"B" v = true := by
    cases hv : (readText supportText2).votelines.getLast? with
    | none =>
      have : (readText supportText2).votelines.getLast?.isSome = true := by decide +kernel
      rw [hv] at this
      cases this
    | some v =>
      have h : ∀ w ∈ (readText supportText2).votelines.getLast?.toList,
          (readText supportText2).votelines = (readText supportText).votelines ++ [w] ∧ soleTop c!"B" w = true := by decide +kernel
      rw [hv] at h
      exact ⟨v, h v (by simp)⟩
  obtain ⟨v, h1, h2⟩ := hlast
  refine ⟨_, _, v, d, e1, e2, ?_, ?_, by decide +kernel, h1, h2, g1, g2, g3, g4, by decide +kernel⟩
  · exact ⟨parsed_countable _ _ _ _ _ e1, parsed_below _ _ _ _ _ e1 (by decide +kernel), parsed_nonneg _ _ _ _ _ e1, by decide +kernel, by decide +kernel⟩
  · exact ⟨parsed_countable _ _ _ _ _ e2, parsed_below _ _ _ _ _ e2 (by decide +kernel), parsed_nonneg _ _ _ _ _ e2, by decide +kernel, by decide +kernel⟩

/-- A candidate that wins only in a tie of all can lose by a further ballot for it alone: A, B and C are tied with two votes each, and
with one more for A the random elimination of B makes C win. -/
theorem C98_support_tied_refuted : ∃ (m m' : Jabmod) (v : Voteline) (d d' : IrvDict),
    convertAbif true false false threeText = .ok m ∧ convertAbif true false false threeText2 = .ok m' ∧
    m'.votelines = m.votelines ++ [v] ∧ soleTop c!"A" v = true ∧
    irvDict Sched.std m = .ok d ∧ d.run.winner = [c!"A", c!"B", c!"C"] ∧ irvDict Sched.std m' = .ok d' ∧ d'.run.winner = [c!"C"] := by
  obtain ⟨d, hd, hw⟩ := irvOf_some (m := readText threeText) (ws := [c!"A", c!"B", c!"C"]) (by decide +kernel)
  obtain ⟨d', hd', hw'⟩ := irvOf_some (m := readText threeText2) (ws := [c!"C"]) (by decide +kernel)
  have hlast : ∃ v, (readText threeText2).votelines = (readText threeText).votelines ++ [v] ∧ soleTop c!"A" v = true := by
    cases hv : (readText threeText2).votelines.getLast? with
    | none =>
      have : (readText threeText2).votelines.getLast?.isSome = true := by decide +kernel
      rw [hv] at this
      cases this
    | some v =>
      have h : ∀ w ∈ (readText threeText2).votelines.getLast?.toList,
          (readText threeText2).votelines = (readText threeText).votelines ++ [w] ∧ soleTop c!"A" w = true := by decide +kernel
      rw [hv] at h
      exact ⟨v, h v (by simp)⟩
  obtain ⟨v, h1, h2⟩ := hlast
  exact ⟨_, _, v, d, d', readText_eq (by decide +kernel), readText_eq (by decide +kernel), h1, h2, hd, hw, hd', hw'⟩
end
end Verif.Props
