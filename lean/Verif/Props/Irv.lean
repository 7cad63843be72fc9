/-
C28-C38: the instant-runoff count (`IRV_dict_from_jabmod`).

`S : Sched` ranges over everything Python leaves open: set enumeration order and `random.choice`.
`d.run.rounds[k]` / `d.run.roundmeta[k]` are the vote counts and the metadata of round `k + 1`.
-/
import Verif.Lib.StrLe
import Verif.Lib.IrvStrict
import Verif.Lib.Parsed
import Verif.Props.Parse

set_option linter.unusedSimpArgs false
set_option linter.unusedSectionVars false

namespace Verif.Props
open Spec

/-! ### glue -/

theorem irvDict_run {S : Sched} {m : Jabmod} {d : IrvDict} (h : irvDict S m = .ok d) :
    irvCount S (m.candidates.length + 1) none 1 m.candidates.keys m.votelines = .ok d.run := by
  unfold irvDict at h
  obtain ⟨run, h1, h2⟩ := bind_ok.1 h
  obtain ⟨w, _, h3⟩ := bind_ok.1 h2
  cases h3
  exact h1

theorem irvDict_steps {S : Sched} {m : Jabmod} {d : IrvDict} (h : irvDict S m = .ok d) :
    Steps S none 1 m.candidates.keys m.votelines d.run := irvCount_steps (irvDict_run h)

/-- with no candidate at all the count raises (`min()` of an empty sequence) -/
theorem irvDict_nonempty {S : Sched} {m : Jabmod} {d : IrvDict} (hc : Countable m) (h : irvDict S m = .ok d) :
    Dict.keys m.candidates ≠ [] := by
  intro h0
  have hr := irvDict_run h
  have hst := hc.state
  rw [h0] at hr hst
  unfold irvCount at hr
  obtain ⟨r, h1, _⟩ := bind_ok.1 hr
  obtain ⟨q, kept, _, _, _, h2⟩ := irvRound_split S none 1 hst
  rw [h2] at h1
  simp [roundFinish, accOf, countsOf, listMin] at h1

theorem good_of {m : Jabmod} (hc : Countable m) (hb : RanksBelowInfinity m) : ∀ vl ∈ m.votelines, CountLine vl := by
  intro vl hv
  refine ⟨hc.dicts vl hv, hc.state.ranked vl hv, ?_⟩
  intro e he
  have hg : Dict.get? vl.prefs e.1 = some e.2 := Dict.get?_of_mem (hc.dicts vl hv) he
  obtain ⟨r, hr⟩ := hc.ranked vl hv _ _ hg
  rw [hr]
  refine hb vl hv e.1 r ?_
  unfold rankOf
  rw [hg]
  exact hr

/-! ### C28 -/

/-- C28: whatever the schedule, the count returns; the winners are candidates, at least one; there are at
most as many rounds as candidates, and as many round records as rounds. -/
theorem C28_total (S : Sched) (m : Jabmod) (hc : Countable m) (hne : m.candidates ≠ [])
    (hnames : ∀ c, Dict.get? m.candidates c ≠ some none) :
    ∃ d, irvDict S m = .ok d ∧ d.run.winner ≠ [] ∧ d.run.winner.Nodup ∧ (∀ w ∈ d.run.winner, w ∈ m.candidates.keys) ∧
      d.run.rounds.length ≤ m.candidates.length ∧ d.run.roundmeta.length = d.run.rounds.length := by
  have hne' : Dict.keys m.candidates ≠ [] := by
    intro h; apply hne; simpa [Dict.keys] using h
  have hlen : (Dict.keys m.candidates).length = m.candidates.length := by simp [Dict.keys]
  obtain ⟨run, hrun⟩ := irvCount_total S (m.candidates.length + 1) none 1 _ _ hc.state hne' (by omega)
  obtain ⟨l1, l2, _, w1, w2, w3⟩ := run_lengths (irvCount_steps hrun) hc.state hne'
  have hget : ∀ w ∈ run.winner, ∃ n, Dict.get? m.candidates w = some (some n) := by
    intro w hw
    obtain ⟨x, hx⟩ := Dict.exists_get?_of_mem (w3 w hw)
    cases x with
    | none => exact absurd hx (hnames w)
    | some n => exact ⟨n, hx⟩
  have hjoin : ∀ ws : List Str, (∀ w ∈ ws, w ∈ run.winner) → ∃ s, joinNames m.candidates ws = .ok s := by
    intro ws hws
    have : ∀ l : List Str, (∀ w ∈ l, w ∈ run.winner) → ∃ r, l.mapM (nameOf m.candidates) = .ok r := by
      intro l
      induction l with
      | nil => intro _; exact ⟨[], rfl⟩
      | cons a l ih =>
        intro ha
        obtain ⟨r, hr⟩ := ih (fun w hw => ha w (by simp [hw]))
        obtain ⟨n, hn⟩ := hget a (ha a (by simp))
        refine ⟨n :: r, ?_⟩
        have hna : nameOf m.candidates a = .ok n := by unfold nameOf; rw [hn]
        rw [List.mapM_cons, hr, hna]; rfl
    obtain ⟨r, hr⟩ := this (pySort strLe ws) (fun w hw => hws w (mem_pySort.1 hw))
    exact ⟨_, by unfold joinNames; rw [hr]; rfl⟩
  have hws : ∃ s, winnerStr m.candidates run.winner = .ok s := by
    match hw : run.winner with
    | [] => exact absurd hw w1
    | [w] =>
      obtain ⟨n, hn⟩ := hget w (by simp [hw])
      exact ⟨_, Dict.getE_of_get? hn⟩
    | w :: w' :: ws =>
      obtain ⟨s, hs⟩ := hjoin (w :: w' :: ws) (fun x hx => by rw [hw]; exact hx)
      exact ⟨some s, by show (joinNames m.candidates (w :: w' :: ws)).map some = _; rw [hs]; rfl⟩
  have key : ∃ d, irvDict S m = .ok d ∧ d.run = run := by
    obtain ⟨s, hs⟩ := hws
    unfold irvDict
    rw [hrun, ok_bind, hs]
    exact ⟨_, rfl, rfl⟩
  obtain ⟨d, hd, rfl⟩ := key
  exact ⟨d, hd, w1, w2, w3, by omega, l1⟩

/-- what the count needs holds of every parsed text -/
theorem parsed_countable [U : Uni] (cw ar sc : Bool) (text : Str) (m : Jabmod) (h : convertAbif cw ar sc text = .ok m) :
    Countable m where
  cands := by rw [(C03_candidates cw ar sc text m h).1]; exact nodup_firsts _
  dicts := fun vl hvl => (C04_ranks cw ar sc text m h vl hvl).1
  known := (C03_candidates cw ar sc text m h).2.2
  ranked := fun vl hvl c p hc => by
    obtain ⟨r, hr, _⟩ := (C04_ranks cw ar sc text m h vl hvl).2 c p hc
    exact ⟨r, hr⟩

/-- ranks of a parsed text (shorter than about five billion characters) are below the stand-in for infinity -/
theorem parsed_below [U : Uni] (cw ar sc : Bool) (text : Str) (m : Jabmod) (h : convertAbif cw ar sc text = .ok m)
    (hlen : text.length < 4999999998) : RanksBelowInfinity m := by
  intro vl hvl c r hr
  unfold rankOf at hr
  cases hg : Dict.get? vl.prefs c with
  | none => rw [hg] at hr; cases hr
  | some p =>
    rw [hg] at hr
    obtain ⟨_, r', hr', _, hB⟩ := convertAbif_entries h vl hvl c p hg
    have : r = r' := by
      have : p.rank = some r := hr
      rw [hr'] at this; cases this; rfl
    omega

/-- quantities of a parsed text are not negative -/
theorem parsed_nonneg [U : Uni] (cw ar sc : Bool) (text : Str) (m : Jabmod) (h : convertAbif cw ar sc text = .ok m) :
    QtyNonneg m := by
  have key : ∀ m0, convertAbif cw false sc text = .ok m0 → ∀ vl ∈ m0.votelines, 0 ≤ vl.qty := by
    intro m0 h0 vl hvl
    obtain ⟨vls, f1, f2, _⟩ := C02_votelines cw sc text m0 h0
    have hall := forall₂_right (P := fun v : Voteline => 0 ≤ v.qty) (fun src v (hs : SaysBallot src v) => by
      rw [hs.1]; omega) f1
    exact hall vl (f2.mem_iff.1 hvl)
  intro vl hvl
  cases ar with
  | false => exact key m h vl hvl
  | true =>
    rw [convertAbif_rated] at h
    obtain ⟨m0, hm0, h⟩ := bind_ok.1 h
    cases h
    obtain ⟨v, hv, rfl⟩ := List.mem_map.1 hvl
    exact key m0 hm0 v hv

/-- C28 end to end: every parsed text with a candidate can be counted. -/
theorem C28_parsed [U : Uni] (S : Sched) (cw ar sc : Bool) (text : Str) (m : Jabmod) (h : convertAbif cw ar sc text = .ok m)
    (hne : m.candidates ≠ []) :
    ∃ d, irvDict S m = .ok d ∧ d.run.winner ≠ [] ∧ d.run.winner.Nodup ∧ (∀ w ∈ d.run.winner, w ∈ m.candidates.keys) ∧
      d.run.rounds.length ≤ m.candidates.length ∧ d.run.roundmeta.length = d.run.rounds.length := by
  refine C28_total S m (parsed_countable cw ar sc text m h) hne ?_
  intro c hc
  have := (C03_candidates cw ar sc text m h).2.1 c (Dict.mem_keys_of_get? hc)
  rw [hc] at this
  cases this

/-! ### C29 -/

/-- C29 without its last clause: every round's starting quantity is what is credited, exhausted or
overvoted; the next round starts without the overvotes; the first starts with everything.  (The reported
`countedqty` is not the credited total: see `C29_refuted`.) -/
theorem C29_partial (S : Sched) (m : Jabmod) (d : IrvDict) (hc : Countable m) (hd : irvDict S m = .ok d) :
    (∃ rm, d.run.roundmeta[0]? = some rm ∧ rm.startingqty = (m.votelines.map Voteline.qty).sum ∧
      rm.startingCands = m.candidates.keys) ∧
    ∀ k rm cnt, d.run.roundmeta[k]? = some rm → d.run.rounds[k]? = some cnt →
      rm.startingqty = (cnt.map Prod.snd).sum + rm.exhaustedqty + rm.overvoteqty ∧
      rm.ballotcount = (cnt.map Prod.snd).sum + rm.exhaustedqty ∧
      rm.countedqty = (cnt.map Prod.snd).sum - rm.exhaustedqty ∧
      Dict.keys cnt = rm.startingCands ∧ rm.roundnum = k + 1 ∧
      ∀ rm', d.run.roundmeta[k + 1]? = some rm' → rm'.startingqty = rm.startingqty - rm.overvoteqty := by
  have hs := irvDict_steps hd
  have hne := irvDict_nonempty hc hd
  refine ⟨?_, ?_⟩
  · obtain ⟨rm, h1, h2, h3, _⟩ := run_head hs hc.state hne
    exact ⟨rm, h1, h2, h3⟩
  · intro k rm cnt h1 h2
    obtain ⟨a, b, c, e, f, g⟩ := run_accounts hs hc.state hne k rm cnt h1 h2
    exact ⟨a, b, c, e, by omega, g⟩

/-! ### C30, C34 -/

/-- C30 for counts in which no two adjacent votelines are overvoted on entering a round: a candidate's
count is the quantity of entering ballots it alone tops, the overvotes are the ballots with several
candidates at the top, the exhausted ballots list nobody who is left.  (`C34_refuted`: adjacent overvoted
lines are not all discarded; `C30_refuted`: a candidate with the empty name is not credited.) -/
theorem C30_partial (S : Sched) (m : Jabmod) (d : IrvDict) (hc : Countable m) (hb : RanksBelowInfinity m)
    (hnil : [] ∉ m.candidates.keys) (hd : irvDict S m = .ok d)
    (hadj : ∀ E ∈ entering (d.run.roundmeta.map RoundMeta.startingCands) m.votelines, adjacentOvervotes E = false) :
    ∀ (k : Nat) (rm : RoundMeta) (cnt : Dict Str Int) (E : List Voteline), d.run.roundmeta[k]? = some rm → d.run.rounds[k]? = some cnt →
      (entering (d.run.roundmeta.map RoundMeta.startingCands) m.votelines)[k]? = some E →
      (∀ c ∈ rm.startingCands, Dict.get? cnt c = some (qtySum (soleTop c) E)) ∧
      rm.overvoteqty = qtySum overvoted E ∧ rm.exhaustedqty = qtySum exhausted E :=
  run_credits (irvDict_steps hd) hc.state (irvDict_nonempty hc hd) (good_of hc hb) hnil hadj

theorem overvoted_restrict {vl : Voteline} (hw : Dict.WF vl.prefs) (hs : StrictLine vl) (C : List Str) :
    overvoted (restrictLine C vl) = false :=
  strict_not_overvoted (wf_filter _ hw) (strict_filter hs (fun c => decide (c ∈ C)))

theorem restrict_restrict {C D : List Str} {vls : List Voteline} (h : ∀ c ∈ D, c ∈ C) :
    restrict D (restrict C vls) = restrict D vls := by
  unfold restrict
  rw [List.map_map]
  apply List.map_congr_left
  intro v _
  unfold restrictLine
  simp only [Function.comp_def, List.filter_filter]
  congr 1
  apply List.filter_congr
  intro e _
  by_cases he : e.1 ∈ D
  · simp [he, h _ he]
  · simp [he]

/-- on strict ballots nothing is lost from round to round -/
theorem entering_strict {vls : List Voteline} (hw : ∀ v ∈ vls, Dict.WF v.prefs) (hs : ∀ v ∈ vls, StrictLine v) :
    ∀ (Cs : List (List Str)), List.Pairwise (fun C D => ∀ c ∈ D, c ∈ C) Cs → entering Cs vls = Cs.map (fun C => restrict C vls) := by
  have main : ∀ (Cs : List (List Str)) (w : List Voteline), (∀ v ∈ w, Dict.WF v.prefs) → (∀ v ∈ w, StrictLine v) →
      (∀ C ∈ Cs, restrict C w = restrict C vls) → List.Pairwise (fun C D => ∀ c ∈ D, c ∈ C) Cs →
      entering Cs w = Cs.map (fun C => restrict C vls) := by
    intro Cs
    induction Cs with
    | nil => intros; rfl
    | cons C Cs ih =>
      intro w h1 h2 h3 h4
      rw [List.pairwise_cons] at h4
      unfold entering
      have hf : (restrict C w).filter (fun vl => !overvoted vl) = restrict C w := by
        apply List.filter_eq_self.2
        intro v hv
        obtain ⟨u, hu, rfl⟩ := List.mem_map.1 hv
        rw [overvoted_restrict (h1 u hu) (h2 u hu)]; rfl
      rw [hf, List.map_cons, h3 C (by simp)]
      congr 1
      apply ih
      · rw [← h3 C (by simp)]
        intro v hv
        obtain ⟨u, hu, rfl⟩ := List.mem_map.1 hv
        exact wf_filter _ (h1 u hu)
      · rw [← h3 C (by simp)]
        intro v hv
        obtain ⟨u, hu, rfl⟩ := List.mem_map.1 hv
        exact strict_filter (h2 u hu) (fun c => decide (c ∈ C))
      · intro D hD
        exact restrict_restrict (h4.1 D hD)
      · exact h4.2
  intro Cs hCs
  exact main Cs vls hw hs (fun _ _ => rfl) hCs

/-- the continuing candidates only ever get fewer -/
theorem run_shrinks {S : Sched} {prev : Option RoundMeta} {rn : Nat} {cands : List Str} {vls : List Voteline} {run : IrvRun}
    (h : Steps S prev rn cands vls run) (hs : IrvState cands vls) (hne : cands ≠ []) :
    List.Pairwise (fun C D => ∀ c ∈ D, c ∈ C) (run.roundmeta.map RoundMeta.startingCands) ∧
    ∀ rm ∈ run.roundmeta, ∀ c ∈ rm.startingCands, c ∈ cands := by
  refine steps_induction (S := S) (P := fun _ _ cands _ run =>
    List.Pairwise (fun C D => ∀ c ∈ D, c ∈ C) (run.roundmeta.map RoundMeta.startingCands) ∧
    ∀ rm ∈ run.roundmeta, ∀ c ∈ rm.startingCands, c ∈ cands) ?_ ?_ h hs hne
  · intro prev rn cands vls q kept mn mx hs hne k1 k2 k3 a1 a2 b1 b2 hc
    refine ⟨by simp, ?_⟩
    intro rm hrm c hcc
    simp only [List.mem_singleton] at hrm
    subst hrm
    exact hcc
  · intro prev rn cands vls q kept mn mx t hs hne k1 k2 k3 a1 a2 b1 b2 hlt hle ht hst ih
    have hsub : ∀ rm ∈ t.roundmeta, ∀ c ∈ rm.startingCands, c ∈ cands := by
      intro rm hrm c hcc
      have := ih.2 rm hrm c hcc
      exact (List.mem_filter.1 ((S.setOrder_perm _ _).mem_iff.1 this)).1
    refine ⟨?_, ?_⟩
    · simp only [List.map_cons]
      rw [List.pairwise_cons]
      refine ⟨?_, ih.1⟩
      intro D hD c hcD
      obtain ⟨rm, hrm, rfl⟩ := List.mem_map.1 hD
      exact hsub rm hrm c hcD
    · intro rm hrm c hcc
      rcases List.mem_cons.1 hrm with rfl | hrm
      · exact hcc
      · exact hsub rm hrm c hcc

/-- C30 on ballots without equal rankings, with no further assumption: in every round a candidate's count is
the quantity of ballots it tops once they are reduced to the continuing candidates; nothing is overvoted;
the exhausted ballots list no continuing candidate. -/
theorem C30_strict (S : Sched) (m : Jabmod) (d : IrvDict) (hc : Countable m) (hb : RanksBelowInfinity m)
    (hnil : [] ∉ m.candidates.keys) (hst : Strict m.votelines) (hd : irvDict S m = .ok d) :
    ∀ (k : Nat) (rm : RoundMeta) (cnt : Dict Str Int), d.run.roundmeta[k]? = some rm → d.run.rounds[k]? = some cnt →
      (∀ c ∈ rm.startingCands, Dict.get? cnt c = some (qtySum (soleTop c) (restrict rm.startingCands m.votelines))) ∧
      rm.overvoteqty = 0 ∧ rm.exhaustedqty = qtySum exhausted (restrict rm.startingCands m.votelines) := by
  have hs := irvDict_steps hd
  have hne := irvDict_nonempty hc hd
  have hst' : ∀ v ∈ m.votelines, StrictLine v := hst
  have hent := entering_strict hc.dicts hst' _ (run_shrinks hs hc.state hne).1
  have hov : ∀ (C : List Str), ∀ v ∈ restrict C m.votelines, overvoted v = false := by
    intro C v hv
    obtain ⟨u, hu, rfl⟩ := List.mem_map.1 hv
    exact overvoted_restrict (hc.dicts u hu) (hst' u hu) C
  have hadj : ∀ E ∈ entering (d.run.roundmeta.map RoundMeta.startingCands) m.votelines, adjacentOvervotes E = false := by
    rw [hent]
    intro E hE
    obtain ⟨C, _, rfl⟩ := List.mem_map.1 hE
    exact adjacent_false (hov C)
  intro k rm cnt h1 h2
  have hE : (entering (d.run.roundmeta.map RoundMeta.startingCands) m.votelines)[k]? = some (restrict rm.startingCands m.votelines) := by
    rw [hent]
    simp [h1]
  obtain ⟨e1, e2, e3⟩ := C30_partial S m d hc hb hnil hd hadj k rm cnt _ h1 h2 hE
  refine ⟨e1, ?_, e3⟩
  rw [e2]
  unfold qtySum
  rw [List.filter_eq_nil_iff.2 (fun v hv => by simp [hov rm.startingCands v hv])]
  rfl

/-- C34 for counts in which no two adjacent votelines are overvoted on entering a round.  In particular an
overvoted ballot adds to no candidate's count.  (`C34_refuted`: otherwise every second overvoted line of a
run of them stays in the count.) -/
theorem C34_partial (S : Sched) (m : Jabmod) (d : IrvDict) (hc : Countable m) (hb : RanksBelowInfinity m)
    (hnil : [] ∉ m.candidates.keys) (hd : irvDict S m = .ok d)
    (hadj : ∀ E ∈ entering (d.run.roundmeta.map RoundMeta.startingCands) m.votelines, adjacentOvervotes E = false) :
    ∀ (k : Nat) (rm : RoundMeta) (cnt : Dict Str Int) (E : List Voteline), d.run.roundmeta[k]? = some rm → d.run.rounds[k]? = some cnt →
      (entering (d.run.roundmeta.map RoundMeta.startingCands) m.votelines)[k]? = some E →
      rm.overvoteqty = qtySum overvoted E ∧
      ∀ c ∈ rm.startingCands, Dict.get? cnt c = some (qtySum (soleTop c) (E.filter (fun v => !overvoted v))) := by
  intro k rm cnt E h1 h2 h3
  obtain ⟨e1, e2, _⟩ := C30_partial S m d hc hb hnil hd hadj k rm cnt E h1 h2 h3
  refine ⟨e2, ?_⟩
  intro c hcc
  rw [e1 c hcc, qtySum_filter]
  intro v _ hv
  unfold soleTop at hv
  unfold overvoted
  rw [beq_iff_eq] at hv
  rw [hv]; rfl

/-! ### C31, C32 -/

/-- C31: the last round is an all-way tie of which everybody is the winner, or the winner is one candidate
with more than half of the credited votes. -/
theorem C31_end (S : Sched) (m : Jabmod) (d : IrvDict) (hc : Countable m) (hq : QtyNonneg m) (hd : irvDict S m = .ok d) :
    ∃ cnt rm, d.run.rounds.getLast? = some cnt ∧ d.run.roundmeta.getLast? = some rm ∧ rm.winner = some d.run.winner ∧
      ((∃ v, (∀ c ∈ rm.startingCands, Dict.get? cnt c = some v) ∧ d.run.winner = rm.startingCands) ∨
       (∃ w v, d.run.winner = [w] ∧ Dict.get? cnt w = some v ∧ 2 * v > (cnt.map Prod.snd).sum)) := by
  have hs := irvDict_steps hd
  have hne := irvDict_nonempty hc hd
  obtain ⟨cnt, rm, mx, h1, h2, h3, h4, h5, h6, _, h8, h9⟩ := run_end hs hc.state hne
  refine ⟨cnt, rm, h1, h2, h3, ?_⟩
  rcases h6 with h6 | h6
  · left
    refine ⟨mx, ?_, ?_⟩
    · intro c hcc
      rw [← h8] at hcc
      obtain ⟨v, hv⟩ := Dict.exists_get?_of_mem hcc
      rw [hv, h6 c v hv]
    · rw [h5, ← h8]
      apply List.filter_eq_self.2
      intro c hcc
      obtain ⟨v, hv⟩ := Dict.exists_get?_of_mem hcc
      rw [hv, h6 c v hv]; simp
  · right
    have hnn : ∀ e ∈ cnt, 0 ≤ e.2 := run_nonneg hs hc.state hne hq cnt (List.mem_of_getLast? h1)
    have hwne := (run_lengths hs hc.state hne).2.2.2.1
    have hwnd := (run_lengths hs hc.state hne).2.2.2.2.1
    have hval : ∀ w ∈ d.run.winner, Dict.get? cnt w = some mx := by
      intro w hw
      rw [h5] at hw
      simpa using (List.mem_filter.1 hw).2
    match hw : d.run.winner with
    | [] => exact absurd hw hwne
    | [w] => exact ⟨w, mx, rfl, hval w (by simp [hw]), h6⟩
    | a :: b :: t =>
      exfalso
      rw [hw] at hwnd
      have hab : a ≠ b := by rintro rfl; simp at hwnd
      have := two_le_sum h9 hnn hab (hval a (by simp [hw])) (hval b (by simp [hw]))
      omega

/-- C31, the other direction: as long as there is another round, nobody has more than half of the votes of the round, and the
counts are not all equal. -/
theorem C31_goes_on (S : Sched) (m : Jabmod) (d : IrvDict) (hc : Countable m) (hd : irvDict S m = .ok d) (k : Nat) (cnt : Dict Str Int)
    (h1 : d.run.rounds[k]? = some cnt) (h2 : k + 1 < d.run.rounds.length) :
    (∀ c v, Dict.get? cnt c = some v → 2 * v ≤ (cnt.map Prod.snd).sum) ∧
    ∃ a b va vb, Dict.get? cnt a = some va ∧ Dict.get? cnt b = some vb ∧ va < vb := by
  have key : ∀ (k : Nat) (cnt : Dict Str Int), d.run.rounds[k]? = some cnt → k + 1 < d.run.rounds.length →
      (∀ c v, Dict.get? cnt c = some v → 2 * v ≤ (cnt.map Prod.snd).sum) ∧
      ∃ a b va vb, Dict.get? cnt a = some va ∧ Dict.get? cnt b = some vb ∧ va < vb := by
    refine steps_induction (S := S) (P := fun _ _ _ _ run => ∀ (k : Nat) (cnt : Dict Str Int), run.rounds[k]? = some cnt →
      k + 1 < run.rounds.length → (∀ c v, Dict.get? cnt c = some v → 2 * v ≤ (cnt.map Prod.snd).sum) ∧
      ∃ a b va vb, Dict.get? cnt a = some va ∧ Dict.get? cnt b = some vb ∧ va < vb) ?_ ?_ (irvDict_steps hd) hc.state (irvDict_nonempty hc hd)
    · intro prev rn cands vls q kept mn mx hs hne k1 k2 k3 a1 a2 b1 b2 hc k cnt _ hlen
      simp at hlen
    · intro prev rn cands vls q kept mn mx t hs hne k1 k2 k3 a1 a2 b1 b2 hlt hle ht hst ih k cnt hk hlen
      cases k with
      | zero =>
        simp only [List.getElem?_cons_zero, Option.some.injEq] at hk
        subst hk
        refine ⟨?_, ?_⟩
        · intro c v hv
          rw [get?_countsOf] at hv
          rw [countsOf_sum]
          split at hv
          · rename_i hcm; cases hv
            have := b2 c hcm
            omega
          · cases hv
        · obtain ⟨a, ha, ea⟩ := a1
          obtain ⟨b, hb, eb⟩ := b1
          refine ⟨a, b, mn, mx, ?_, ?_, hlt⟩
          · rw [get?_countsOf, if_pos ha, ea]
          · rw [get?_countsOf, if_pos hb, eb]
      | succ k =>
        rw [List.getElem?_cons_succ] at hk
        exact ih k cnt hk (by simp only [List.length_cons] at hlen; omega)
  exact key k cnt h1 h2

/-- C32: a candidate credited with more than half of the first round's votes wins alone in the first
round. -/
theorem C32_majority (S : Sched) (m : Jabmod) (d : IrvDict) (hc : Countable m) (hq : QtyNonneg m) (hd : irvDict S m = .ok d)
    (cnt : Dict Str Int) (h0 : d.run.rounds[0]? = some cnt) (w : Str) (v : Int) (hw : Dict.get? cnt w = some v)
    (hmaj : 2 * v > (cnt.map Prod.snd).sum) : d.run.winner = [w] ∧ d.run.rounds.length = 1 := by
  have hs := irvDict_steps hd
  have hne := irvDict_nonempty hc hd
  obtain ⟨q, kept, mn, mx, k1, k2, a1, a2, b1, b2, h⟩ := steps_cases hs hc.state hne
  have hcount : cnt = countsOf (Dict.keys m.candidates) kept := by
    rcases h with ⟨_, h⟩ | ⟨_, t, _, _, h⟩ <;> rw [h] at h0 <;> simpa using h0.symm
  have hwc : w ∈ Dict.keys m.candidates := by
    have := Dict.mem_keys_of_get? hw
    rwa [hcount, keys_countsOf] at this
  have hv : v = tally kept w := by
    rw [hcount, get?_countsOf, if_pos hwc] at hw
    cases hw; rfl
  have htot : (cnt.map Prod.snd).sum = totalOf (Dict.keys m.candidates) kept := by rw [hcount, countsOf_sum]
  have hwmx := b2 w hwc
  rcases h with ⟨_, h⟩ | ⟨⟨_, h⟩, _⟩
  · have hlen : d.run.rounds.length = 1 := by rw [h]; rfl
    refine ⟨?_, hlen⟩
    have hnn : ∀ e ∈ cnt, 0 ≤ e.2 :=
      run_nonneg hs hc.state hne hq cnt (List.mem_of_getElem? h0)
    have hwf : Dict.WF cnt := by
      show (Dict.keys cnt).Nodup
      rw [hcount, keys_countsOf]; exact hc.cands
    have hother : ∀ c ∈ Dict.keys m.candidates, c ≠ w → tally kept c < tally kept w := by
      intro c hcc hcw
      have hg : Dict.get? cnt c = some (tally kept c) := by rw [hcount, get?_countsOf, if_pos hcc]
      have := two_le_sum hwf hnn hcw hg hw
      omega
    have hmxv : mx = tally kept w := by
      obtain ⟨x, hx, hxm⟩ := b1
      by_cases hxw : x = w
      · rw [← hxm, hxw]
      · have := hother x hx hxw; omega
    have hwin : d.run.winner = leaders (Dict.keys m.candidates) kept mx := by rw [h]
    have hmem : ∀ x, x ∈ d.run.winner ↔ x = w := by
      intro x
      rw [hwin]
      unfold leaders
      rw [List.mem_filter]
      constructor
      · rintro ⟨hx, hx2⟩
        by_cases hxw : x = w
        · exact hxw
        · have := hother x hx hxw
          simp at hx2
          omega
      · rintro rfl
        exact ⟨hwc, by simp [hmxv]⟩
    have hnd := (run_lengths hs hc.state hne).2.2.2.2.1
    match hwl : d.run.winner with
    | [] => have := (hmem w).2 rfl; rw [hwl] at this; cases this
    | [x] => rw [(hmem x).1 (by simp [hwl])]
    | a :: b :: t =>
      have ha := (hmem a).1 (by simp [hwl])
      have hb := (hmem b).1 (by simp [hwl])
      rw [hwl, ha, hb] at hnd
      simp at hnd
  · omega

/-! ### C33 -/

/-- C33: in a non-final round (one followed by another) the eliminated candidates have the smallest count;
there is exactly one of them, or it is a batch whose votes together do not exceed any remaining candidate's;
the next round has exactly the others; nobody eliminated is ever a candidate again. -/
theorem C33_eliminations (S : Sched) (m : Jabmod) (d : IrvDict) (hc : Countable m) (hd : irvDict S m = .ok d) :
    (∀ k rm rm' cnt, d.run.roundmeta[k]? = some rm → d.run.roundmeta[k + 1]? = some rm' → d.run.rounds[k]? = some cnt →
      rm.eliminated ≠ [] ∧ rm.eliminated.Nodup ∧ (∀ e ∈ rm.eliminated, e ∈ rm.startingCands) ∧
      (∀ e ∈ rm.eliminated, ∀ v, Dict.get? cnt e = some v → ∀ c v', Dict.get? cnt c = some v' → v ≤ v') ∧
      (rm.eliminated.length = 1 ∨
        rm.batchElim = true ∧ rm.randomElim = false ∧
        ∀ c ∈ rm.startingCands, c ∉ rm.eliminated → ∀ v, Dict.get? cnt c = some v →
          (∀ e ∈ rm.eliminated, ∀ v', Dict.get? cnt e = some v' → v' < v) ∧
          (rm.eliminated.map (fun e => (Dict.get? cnt e).getD 0)).sum ≤ v) ∧
      rm'.startingCands.Perm (rm.startingCands.filter (fun c => c ∉ rm.eliminated))) ∧
    (∀ (j k : Nat) (rm rm' : RoundMeta), j < k → d.run.roundmeta[j]? = some rm → d.run.roundmeta[k]? = some rm' →
      ∀ c ∈ rm.eliminated, c ∉ rm'.startingCands) := by
  obtain ⟨h1, _, h3⟩ := run_elims (irvDict_steps hd) hc.state (irvDict_nonempty hc hd)
  refine ⟨?_, h3⟩
  intro k rm rm' cnt e1 e2 e3
  obtain ⟨⟨a, b, c, e, f, g⟩, _, hp⟩ := h1 k rm rm' cnt e1 e2 e3
  refine ⟨a, b, c, e, ?_, hp⟩
  cases hb : rm.batchElim with
  | false => exact .inl (f hb)
  | true =>
    obtain ⟨g1, g2⟩ := g hb
    exact .inr ⟨rfl, g1, g2⟩

/-! ### C35 -/

/-- C35: if one run (schedule `S`) makes no random elimination before its last round, every other run
(schedule `S'`) has the same rounds (equal counts as maps), the same accounting in every round, the same
winners and the same winner string. -/
theorem C35_deterministic (S S' : Sched) (m : Jabmod) (d d' : IrvDict) (hc : Countable m)
    (hd : irvDict S m = .ok d) (hd' : irvDict S' m = .ok d')
    (hdet : ∀ rm ∈ d.run.roundmeta.dropLast, rm.randomElim = false) :
    List.Forall₂ List.Perm d'.run.rounds d.run.rounds ∧ List.Forall₂ SameRound d'.run.roundmeta d.run.roundmeta ∧
    d'.run.winner.Perm d.run.winner ∧ d'.winnerstr = d.winnerstr ∧ d'.hasTie = d.hasTie := by
  have hne := irvDict_nonempty hc hd
  obtain ⟨h1, h2, h3⟩ := lockstep (irvDict_steps hd) hc.state hne hdet (List.Perm.refl _) (irvDict_steps hd')
  refine ⟨h1, h2, h3, ?_, ?_⟩
  · have hj : joinNames m.candidates d'.run.winner = joinNames m.candidates d.run.winner := by
      unfold joinNames; rw [sorted_perm h3]
    unfold irvDict at hd hd'
    obtain ⟨run, r1, hd⟩ := bind_ok.1 hd
    obtain ⟨run', r1', hd'⟩ := bind_ok.1 hd'
    obtain ⟨ws, r2, hd⟩ := bind_ok.1 hd
    obtain ⟨ws', r2', hd'⟩ := bind_ok.1 hd'
    cases hd; cases hd'
    simp only at h3 hj ⊢
    have hl := h3.length_eq
    have hwin : winnerStr m.candidates run'.winner = winnerStr m.candidates run.winner := by
      match hw : run.winner, hw' : run'.winner with
      | [], [] => rfl
      | [], _ :: _ => rw [hw, hw'] at hl; simp at hl
      | _ :: _, [] => rw [hw, hw'] at hl; simp at hl
      | [w], [w'] =>
        rw [hw, hw'] at h3
        have : w' = w := by simpa using List.perm_singleton.1 h3
        rw [this]
      | [_], _ :: _ :: _ => rw [hw, hw'] at hl; simp at hl
      | _ :: _ :: _, [_] => rw [hw, hw'] at hl; simp at hl
      | a :: b :: t, a' :: b' :: t' =>
        rw [hw, hw'] at hj
        show (joinNames m.candidates (a' :: b' :: t')).map some = (joinNames m.candidates (a :: b :: t)).map some
        rw [hj]
    rw [hwin, r2] at r2'
    cases r2'; rfl
  · have key : ∀ (l l' : List RoundMeta), List.Forall₂ SameRound l l' →
        l.any (fun rm => rm.bottomtie.isSome) = l'.any (fun rm => rm.bottomtie.isSome) := by
      intro l l' h
      induction h with
      | nil => rfl
      | cons hab _ ih => rw [List.any_cons, List.any_cons, ih, hab.bottomtie]
    have e1 : d.hasTie = d.run.roundmeta.any (fun rm => rm.bottomtie.isSome) := by
      unfold irvDict at hd
      obtain ⟨run, r1, hd⟩ := bind_ok.1 hd
      obtain ⟨ws, r2, hd⟩ := bind_ok.1 hd
      cases hd; rfl
    have e2 : d'.hasTie = d'.run.roundmeta.any (fun rm => rm.bottomtie.isSome) := by
      unfold irvDict at hd'
      obtain ⟨run, r1, hd'⟩ := bind_ok.1 hd'
      obtain ⟨ws, r2, hd'⟩ := bind_ok.1 hd'
      cases hd'; rfl
    rw [e1, e2, key _ _ h2]

/-! ### C36 -/

/-- C36 on ballots without equal rankings: the order of the votelines changes nothing.  (`C36_refuted`: with
overvotes it does.) -/
theorem C36_partial (S : Sched) (m : Jabmod) (hc : Countable m) (hb : RanksBelowInfinity m) (hst : Strict m.votelines)
    (hne : m.candidates ≠ []) (vls : List Voteline) (hp : vls.Perm m.votelines) :
    irvDict S { m with votelines := vls } = irvDict S m := by
  have hne' : Dict.keys m.candidates ≠ [] := by
    intro h; apply hne; simpa [Dict.keys] using h
  have := irvCount_perm S (m.candidates.length + 1) none 1 _ m.votelines vls hc.state hne' (good_of hc hb) hst hp
  unfold irvDict
  simp only
  rw [this]

/-! ### C37 -/

/-- C37 in part: the `..._votes_percand` fields are the extremes of the round's counts; in every non-final
round `all_eliminated` is the set of candidates eliminated so far, except those eliminated by a batch
elimination in round 1.  (Missing, and false: `C37_refuted`.) -/
theorem C37_partial (S : Sched) (m : Jabmod) (d : IrvDict) (hc : Countable m) (hd : irvDict S m = .ok d) :
    (∀ (k : Nat) (rm : RoundMeta) (cnt : Dict Str Int), d.run.roundmeta[k]? = some rm → d.run.rounds[k]? = some cnt →
      (∃ c, Dict.get? cnt c = some rm.bottomVotesPercand) ∧ (∃ c, Dict.get? cnt c = some rm.leadingVotesPercand) ∧
      (∀ c v, Dict.get? cnt c = some v → rm.bottomVotesPercand ≤ v ∧ v ≤ rm.leadingVotesPercand) ∧
      rm.topVoteqty = rm.bottomVotesPercand ∧ rm.bottomVoteqty = rm.leadingVotesPercand) ∧
    (∀ (k : Nat) (rm rm' : RoundMeta), d.run.roundmeta[k]? = some rm → d.run.roundmeta[k + 1]? = some rm' → ∀ c,
      (c ∈ rm.allEliminated ↔
        ∃ j rj, j ≤ k ∧ d.run.roundmeta[j]? = some rj ∧ c ∈ rj.eliminated ∧ (j = 0 → rj.batchElim = false))) := by
  have hs := irvDict_steps hd
  have hne := irvDict_nonempty hc hd
  refine ⟨?_, ?_⟩
  · have fact : ∀ (S : Sched) (prev : Option RoundMeta) (rn : Nat) (cands : List Str) (vls : List Voteline) (q : Int) (kept : List Voteline) (mn mx : Int),
        (∃ c ∈ cands, tally kept c = mn) → (∀ c ∈ cands, mn ≤ tally kept c) →
        (∃ c ∈ cands, tally kept c = mx) → (∀ c ∈ cands, tally kept c ≤ mx) →
        (∃ c, Dict.get? (countsOf cands kept) c = some mn) ∧ (∃ c, Dict.get? (countsOf cands kept) c = some mx) ∧
        (∀ c v, Dict.get? (countsOf cands kept) c = some v → mn ≤ v ∧ v ≤ mx) := by
      intro S prev rn cands vls q kept mn mx ⟨x, hx, hx1⟩ a2 ⟨y, hy, hy1⟩ b2
      refine ⟨⟨x, by rw [get?_countsOf, if_pos hx, hx1]⟩, ⟨y, by rw [get?_countsOf, if_pos hy, hy1]⟩, ?_⟩
      intro c v hcv
      rw [get?_countsOf] at hcv
      split at hcv
      · rename_i hcc
        cases hcv
        exact ⟨a2 c hcc, b2 c hcc⟩
      · cases hcv
    refine steps_induction (S := S) (P := fun _ _ _ _ run => ∀ (k : Nat) (rm : RoundMeta) (cnt : Dict Str Int),
      run.roundmeta[k]? = some rm → run.rounds[k]? = some cnt →
      (∃ c, Dict.get? cnt c = some rm.bottomVotesPercand) ∧ (∃ c, Dict.get? cnt c = some rm.leadingVotesPercand) ∧
      (∀ c v, Dict.get? cnt c = some v → rm.bottomVotesPercand ≤ v ∧ v ≤ rm.leadingVotesPercand) ∧
      rm.topVoteqty = rm.bottomVotesPercand ∧ rm.bottomVoteqty = rm.leadingVotesPercand) ?_ ?_ hs hc.state hne
    · intro prev rn cands vls q kept mn mx hs hne k1 k2 k3 a1 a2 b1 b2 hc k rm cnt h1 h2
      cases k with
      | zero =>
        simp only [List.getElem?_cons_zero, Option.some.injEq] at h1 h2
        subst h1; subst h2
        obtain ⟨x, y, z⟩ := fact S prev rn cands vls q kept mn mx a1 a2 b1 b2
        exact ⟨x, y, z, rfl, rfl⟩
      | succ k => simp at h1
    · intro prev rn cands vls q kept mn mx t hs hne k1 k2 k3 a1 a2 b1 b2 hlt hle ht hst ih k rm cnt h1 h2
      cases k with
      | zero =>
        simp only [List.getElem?_cons_zero, Option.some.injEq] at h1 h2
        subst h1; subst h2
        obtain ⟨x, y, z⟩ := fact S prev rn cands vls q kept mn mx a1 a2 b1 b2
        exact ⟨x, y, z, rfl, rfl⟩
      | succ k =>
        simp only [List.getElem?_cons_succ] at h1 h2
        exact ih k rm cnt h1 h2
  · intro k rm rm' h1 h2 c
    rw [run_allElim hs hc.state hne k rm rm' h1 h2 c]
    simp

/-! ### C38 -/

/-- C38: on ballots without equal rankings, the candidates a batch elimination removes can be listed in an
order in which each is in last place, among the candidates still there, when it is its turn. -/
theorem C38_batch (S : Sched) (m : Jabmod) (d : IrvDict) (hc : Countable m) (hb : RanksBelowInfinity m)
    (hnil : [] ∉ m.candidates.keys) (hst : Strict m.votelines) (hq : QtyNonneg m) (hd : irvDict S m = .ok d)
    (k : Nat) (rm rm' : RoundMeta) (h1 : d.run.roundmeta[k]? = some rm) (h2 : d.run.roundmeta[k + 1]? = some rm') :
    ∃ L : List Str, L.Perm rm.eliminated ∧ ∀ i (hi : i < L.length),
      L[i] ∈ rm.startingCands.filter (fun c => c ∉ L.take i) ∧
      ∀ c ∈ rm.startingCands.filter (fun c => c ∉ L.take i),
        qtySum (soleTop L[i]) (restrict (rm.startingCands.filter (fun c => c ∉ L.take i)) m.votelines) ≤
        qtySum (soleTop c) (restrict (rm.startingCands.filter (fun c => c ∉ L.take i)) m.votelines) := by
  have hs := irvDict_steps hd
  have hne := irvDict_nonempty hc hd
  have hlen := (run_lengths hs hc.state hne).1
  obtain ⟨cnt, h3⟩ : ∃ cnt, d.run.rounds[k]? = some cnt := by
    have : k < d.run.rounds.length := by
      rw [← hlen]; exact (List.getElem?_eq_some_iff.1 h1).1
    exact ⟨_, List.getElem?_eq_getElem this⟩
  obtain ⟨e0, e1, e2, e3, e4, _⟩ := (C33_eliminations S m d hc hd).1 k rm rm' cnt h1 h2 h3
  obtain ⟨c1, _, _⟩ := C30_strict S m d hc hb hnil hst hd k rm cnt h1 h3
  have hnd : rm.startingCands.Nodup := by
    have hp := run_startNodup hs hc.state hne
    exact hp rm (List.mem_of_getElem? h1)
  have hsum : ∀ x ∈ rm.startingCands, x ∉ rm.eliminated →
      (rm.eliminated.map (votesAmong m.votelines rm.startingCands)).sum ≤ votesAmong m.votelines rm.startingCands x := by
    intro x hx hxe
    have hmap : rm.eliminated.map (fun e => (Dict.get? cnt e).getD 0) =
        rm.eliminated.map (votesAmong m.votelines rm.startingCands) := by
      apply List.map_congr_left
      intro e he
      rw [c1 e (e2 e he)]; rfl
    rcases e4 with h | ⟨_, _, h⟩
    · match hel : rm.eliminated with
      | [] => exact absurd hel e0
      | [e] =>
        have he := e3 e (by simp [hel]) _ (c1 e (e2 e (by simp [hel]))) x _ (c1 x hx)
        simpa [votesAmong] using he
      | _ :: _ :: _ => rw [hel] at h; simp at h
    · have := (h x hx hxe _ (c1 x hx)).2
      rw [hmap] at this
      exact this
  obtain ⟨L, hL, hLi⟩ := batch_order hq (good_of hc hb) hst _ rm.eliminated rm.startingCands rfl e1 hnd e2 hsum
  refine ⟨L, hL, ?_⟩
  intro i hi
  refine ⟨?_, hLi i hi⟩
  refine List.mem_filter.2 ⟨e2 _ (hL.mem_iff.1 (List.getElem_mem hi)), ?_⟩
  have hLn : L.Nodup := hL.nodup_iff.2 e1
  simp only [decide_eq_true_eq]
  intro hmem
  obtain ⟨j, hj, hji⟩ := List.mem_take_iff_getElem.1 hmem
  have hjl : j < i ∧ j < L.length := by omega
  have := (List.getElem_inj hLn).1 hji
  omega

/-! ### refutations and non-vacuity: concrete texts -/

/-- one particular schedule -/
def Sched.std : Sched where
  setOrder := fun _ l => l
  choice := fun _ l => l.headD []
  setOrder_perm := fun _ l => .refl l
  choice_mem := fun _ l h => by
    cases l with
    | nil => exact absurd rfl h
    | cons a l => simp

/-- another one: reversed sets, last of a tie -/
def Sched.rev : Sched where
  setOrder := fun _ l => l.reverse
  choice := fun _ l => l.getLastD []
  setOrder_perm := fun _ l => List.reverse_perm l
  choice_mem := fun _ l h => by
    cases l with
    | nil => exact absurd rfl h
    | cons a l => simp [List.getLastD, List.getLast_mem]

instance (vls : List Voteline) : Decidable (Strict vls) := by unfold Strict; infer_instance

section Examples
attribute [local instance] Uni.ascii
set_option maxRecDepth 20000

/-- the text parses and is counted under schedule `S`, with outcome satisfying `P` -/
def counts (S : Sched) (text : Str) (P : Jabmod → IrvDict → Bool) : Bool :=
  match convertAbif true false false text with
  | .ok m => match irvDict S m with
    | .ok d => P m d
    | _ => false
  | _ => false

theorem counts_exists {S : Sched} {text : Str} {P : Jabmod → IrvDict → Bool} (h : counts S text P = true) :
    ∃ m d, convertAbif true false false text = .ok m ∧ irvDict S m = .ok d ∧ P m d = true := by
  unfold counts at h
  split at h
  · split at h
    · exact ⟨_, _, by assumption, by assumption, h⟩
    · cases h
  · cases h

/-- C29's last clause fails: `countedqty` is the credited total minus the exhausted ballots, which were never
in it.  Two votes for A, one for B, and one ballot naming nobody who is left in round 2. -/
theorem C29_refuted : ∃ text m d, convertAbif true false false text = .ok m ∧ irvDict Sched.std m = .ok d ∧
    ∃ (k : Nat) (rm : RoundMeta) (cnt : Dict Str Int), d.run.roundmeta[k]? = some rm ∧ d.run.rounds[k]? = some cnt ∧
      rm.countedqty ≠ (cnt.map Prod.snd).sum := by
  obtain ⟨m, d, h1, h2, h3⟩ := counts_exists (S := Sched.std) (text := c!"3:A\n2:B>A\n2:D>B\n1:C\n") (P := fun _ d =>
    match d.run.roundmeta[1]?, d.run.rounds[1]? with
    | some rm, some cnt => rm.countedqty != (cnt.map Prod.snd).sum
    | _, _ => false) (by decide +kernel)
  refine ⟨_, m, d, h1, h2, 1, ?_⟩
  split at h3
  · exact ⟨_, _, by assumption, by assumption, by simpa using h3⟩
  · cases h3

/-- C30 fails for a candidate whose token is empty (the text `""/5>A/3` names one): its ballots are
reported exhausted although it is a continuing candidate alone at their top. -/
theorem C30_refuted : ∃ text m d, convertAbif true false false text = .ok m ∧ irvDict Sched.std m = .ok d ∧
    ∃ rm cnt c, d.run.roundmeta[0]? = some rm ∧ d.run.rounds[0]? = some cnt ∧ c ∈ rm.startingCands ∧
      qtySum (soleTop c) m.votelines = 2 ∧ Dict.get? cnt c = some 0 ∧ rm.exhaustedqty = 2 := by
  obtain ⟨m, d, h1, h2, h3⟩ := counts_exists (S := Sched.std) (text := c!"2:\"\"/5>A/3\n1:A/3\n") (P := fun m d =>
    match d.run.roundmeta[0]?, d.run.rounds[0]? with
    | some rm, some cnt => decide ([] ∈ rm.startingCands ∧ qtySum (soleTop []) m.votelines = 2 ∧
        Dict.get? cnt [] = some 0 ∧ rm.exhaustedqty = 2)
    | _, _ => false) (by decide +kernel)
  refine ⟨_, m, d, h1, h2, ?_⟩
  split at h3
  · exact ⟨_, _, [], by assumption, by assumption, by simpa using h3⟩
  · cases h3

/-- C34 fails when two overvoted lines are adjacent: the second is not discarded (and its vote goes to the
candidate below the tie). -/
theorem C34_refuted : ∃ text m d, convertAbif true false false text = .ok m ∧ irvDict Sched.std m = .ok d ∧
    ∃ rm cnt, d.run.roundmeta[0]? = some rm ∧ d.run.rounds[0]? = some cnt ∧
      qtySum overvoted m.votelines = 5 ∧ rm.overvoteqty = 3 ∧
      qtySum (soleTop c!"C") m.votelines = 1 ∧ Dict.get? cnt c!"C" = some 3 := by
  obtain ⟨m, d, h1, h2, h3⟩ := counts_exists (S := Sched.std) (text := c!"3:A=B>C\n2:A=B>C\n1:C\n") (P := fun m d =>
    match d.run.roundmeta[0]?, d.run.rounds[0]? with
    | some rm, some cnt => decide (qtySum overvoted m.votelines = 5 ∧ rm.overvoteqty = 3 ∧
      qtySum (soleTop c!"C") m.votelines = 1 ∧ Dict.get? cnt c!"C" = some 3)
    | _, _ => false) (by decide +kernel)
  refine ⟨_, m, d, h1, h2, ?_⟩
  split at h3
  · exact ⟨_, _, by assumption, by assumption, by simpa using h3⟩
  · cases h3

/-- C36 fails with overvotes: the same ballots in two orders have different winners. -/
theorem C36_refuted : ∃ text m vls d d', convertAbif true false false text = .ok m ∧ vls.Perm m.votelines ∧
    irvDict Sched.std m = .ok d ∧ irvDict Sched.std { m with votelines := vls } = .ok d' ∧
    d.run.winner = [c!"C"] ∧ d'.run.winner = [c!"A"] := by
  obtain ⟨m, d, h1, h2, h3⟩ := counts_exists (S := Sched.std) (text := c!"3:A=B>C\n3:A=B>C\n2:A\n") (P := fun m d =>
    match m.votelines with
    | [x, y, z] => d.run.winner == [c!"C"] && (match irvDict Sched.std { m with votelines := [x, z, y] } with
      | .ok d' => d'.run.winner == [c!"A"]
      | _ => false)
    | _ => false) (by decide +kernel)
  split at h3
  · rename_i x y z hv
    rw [Bool.and_eq_true] at h3
    obtain ⟨h3, h4⟩ := h3
    split at h4
    · rename_i d' hd'
      refine ⟨_, m, [x, z, y], d, d', h1, ?_, h2, hd', by simpa using h3, by simpa using h4⟩
      rw [hv]
      exact (List.Perm.swap y z []).cons x
    · cases h4
  · cases h3

/-- C37 fails: `top_voteqty` is the smallest count and `bottom_voteqty` the largest, and a batch eliminated
in round 1 is missing from `all_eliminated`. -/
theorem C37_refuted : ∃ text m d, convertAbif true false false text = .ok m ∧ irvDict Sched.std m = .ok d ∧
    ∃ rm cnt rm', d.run.roundmeta[0]? = some rm ∧ d.run.rounds[0]? = some cnt ∧ d.run.roundmeta[1]? = some rm' ∧
      (∃ c v, Dict.get? cnt c = some v ∧ rm.topVoteqty < v) ∧ (∃ c v, Dict.get? cnt c = some v ∧ v < rm.bottomVoteqty) ∧
      ∃ c ∈ rm.eliminated, c ∉ rm.allEliminated ∧ c ∉ rm'.allEliminated := by
  obtain ⟨m, d, h1, h2, h3⟩ := counts_exists (S := Sched.std) (text := c!"4:A\n4:B\n3:E\n1:C>A\n1:D>A\n") (P := fun _ d =>
    match d.run.roundmeta[0]?, d.run.rounds[0]?, d.run.roundmeta[1]? with
    | some rm, some cnt, some rm' => decide (Dict.get? cnt c!"A" = some 4 ∧ rm.topVoteqty < 4 ∧
        Dict.get? cnt c!"C" = some 1 ∧ 1 < rm.bottomVoteqty ∧ c!"C" ∈ rm.eliminated ∧ c!"C" ∉ rm.allEliminated ∧
        c!"C" ∉ rm'.allEliminated)
    | _, _, _ => false) (by decide +kernel)
  refine ⟨_, m, d, h1, h2, ?_⟩
  split at h3
  · rw [decide_eq_true_eq] at h3
    obtain ⟨a, b, c, e, f, g, h⟩ := h3
    exact ⟨_, _, _, by assumption, by assumption, by assumption, ⟨_, _, a, b⟩, ⟨_, _, c, e⟩, _, f, g, h⟩
  · cases h3

/-- With no candidate at all the count raises (C28 needs a candidate): `min()` of an empty sequence. -/
example : irvDict Sched.std { emptyishJabmod with candidates := [], votelines := [] } = .error .valueError := by decide +kernel

/-- no majority at first, then an elimination: strict ballots, an exhausted ballot in round 2 -/
def irvText : Str := c!"4:A>B\n3:B>C\n2:C\n"
/-- the parsed example -/
def irvModel : Jabmod := (convertAbif true false false irvText).toOption.getD emptyishJabmod

theorem irvModel_parsed : convertAbif true false false irvText = .ok irvModel := by
  unfold irvModel
  have h : (convertAbif true false false irvText).toOption.isSome = true := by decide +kernel
  cases hc : convertAbif true false false irvText with
  | error e => rw [hc] at h; cases h
  | ok m => rfl

example : Countable irvModel := parsed_countable _ _ _ _ _ irvModel_parsed
example : RanksBelowInfinity irvModel := parsed_below _ _ _ _ _ irvModel_parsed (by decide +kernel)
example : QtyNonneg irvModel := parsed_nonneg _ _ _ _ _ irvModel_parsed
example : [] ∉ irvModel.candidates.keys := by decide +kernel
example : Strict irvModel.votelines := by
  unfold Strict
  decide +kernel
example : (irvDict Sched.std irvModel).map (fun d => (d.run.winner, d.run.rounds.map (fun c => c.map Prod.snd))) =
    .ok ([c!"A"], [[4, 3, 2], [4, 3]]) := by decide +kernel
example : (irvDict Sched.std irvModel).map (fun d => d.run.roundmeta.map (fun r => (r.eliminated, r.exhaustedqty, r.randomElim))) =
    .ok [([c!"C"], 0, false), ([c!"B"], 2, false)] := by decide +kernel

/-- a batch elimination (C and D together), for C38 and C33 -/
example : counts Sched.rev c!"4:A\n4:B\n3:E\n1:C>A\n1:D>A\n" (fun m d =>
    match d.run.roundmeta[0]?, d.run.roundmeta[1]? with
    | some rm, some _ => rm.batchElim && rm.eliminated == [c!"C", c!"D"] && decide (Strict m.votelines)
    | _, _ => false) = true := by
  decide +kernel

/-- a random elimination: the two schedules really differ -/
example : counts Sched.std c!"3:A\n3:B\n4:C\n" (fun _ d => d.run.roundmeta.any (fun r => r.randomElim)) = true ∧
    counts Sched.std c!"3:A>B\n3:B>C\n4:C\n" (fun _ d => d.run.winner == [c!"B"]) = true ∧
    counts Sched.rev c!"3:A>B\n3:B>C\n4:C\n" (fun _ d => d.run.winner == [c!"C"]) = true := by
  refine ⟨?_, ?_, ?_⟩ <;> decide +kernel

/-- overvotes that are not adjacent: `C30_partial` and `C34_partial` apply -/
example : counts Sched.std c!"3:A=B>C\n2:A\n1:B=C\n" (fun m d =>
    (entering (d.run.roundmeta.map RoundMeta.startingCands) m.votelines).all (fun E => !adjacentOvervotes E) &&
    d.run.roundmeta.map RoundMeta.overvoteqty == [4]) = true := by decide +kernel

end Examples

end Verif.Props
