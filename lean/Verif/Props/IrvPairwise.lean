/-
C75, C76: the instant-runoff winner and the voters' head-to-head preferences.
-/
import Verif.Props.Irv

set_option linter.unusedSimpArgs false
set_option linter.unusedSectionVars false

namespace Verif.Props
open Verif Spec

/-! ### vocabulary -/

/-- The voters of this line rank every candidate of `X` above every other candidate. -/
def solidFor (m : Jabmod) (X : List Str) (vl : Voteline) : Bool :=
  m.candidates.keys.all (fun y => decide (y ∈ X) || X.all (fun x => prefers vl x y))

/-- `c` loses every head-to-head comparison -/
def CondorcetLoser (m : Jabmod) (c : Str) : Prop := ∀ b ∈ m.candidates.keys, b ≠ c → support m b c > support m c b

/-! ### one round of a count of strict ballots -/

/-- the assumptions of this file -/
structure StrictElection (m : Jabmod) : Prop where
  countable : Countable m
  below : RanksBelowInfinity m
  nonneg : QtyNonneg m
  noEmpty : [] ∉ m.candidates.keys
  strict : Strict m.votelines

theorem strict_round {S : Sched} {m : Jabmod} {d : IrvDict} (he : StrictElection m) (hd : irvDict S m = .ok d) {k : Nat} {rm : RoundMeta}
    {cnt : Dict Str Int} (h1 : d.run.roundmeta[k]? = some rm) (h2 : d.run.rounds[k]? = some cnt) :
    Dict.keys cnt = rm.startingCands ∧ rm.startingCands.Nodup ∧ (∀ c ∈ rm.startingCands, c ∈ m.candidates.keys) ∧
    (∀ c ∈ rm.startingCands, Dict.get? cnt c = some (votesAmong m.votelines rm.startingCands c)) ∧
    (cnt.map Prod.snd).sum = (rm.startingCands.map (votesAmong m.votelines rm.startingCands)).sum := by
  have hs := irvDict_steps hd
  have hne := irvDict_nonempty he.countable hd
  have hk := ((C29_partial S m d he.countable hd).2 k rm cnt h1 h2).2.2.2.1
  have hn := run_startNodup hs he.countable.state hne rm (List.mem_of_getElem? h1)
  have hv := (C30_strict S m d he.countable he.below he.noEmpty he.strict hd k rm cnt h1 h2).1
  refine ⟨hk, hn, (run_shrinks hs he.countable.state hne).2 rm (List.mem_of_getElem? h1), hv, ?_⟩
  have hwf : Dict.WF cnt := by unfold Dict.WF; rw [hk]; exact hn
  have hkeys : rm.startingCands.map (votesAmong m.votelines rm.startingCands) =
      cnt.map (fun e => votesAmong m.votelines rm.startingCands e.1) := by
    conv_lhs => arg 2; rw [← hk]
    unfold Dict.keys
    rw [List.map_map]
    rfl
  rw [hkeys]
  congr 1
  apply List.map_congr_left
  intro e hem
  have hc : e.1 ∈ rm.startingCands := by rw [← hk]; exact List.mem_map_of_mem hem
  have := hv e.1 hc
  rw [Dict.get?_of_mem hwf hem] at this
  injection this

theorem notOver {m : Jabmod} (he : StrictElection m) (C : List Str) : ∀ v ∈ m.votelines, overvoted (restrictLine C v) = false :=
  fun v hv => overvoted_restrict (he.countable.dicts v hv) (he.strict v hv) C

theorem rankedLine {m : Jabmod} (he : StrictElection m) {v : Voteline} (hv : v ∈ m.votelines) {c : Str} (hc : c ∈ Dict.keys v.prefs) :
    ∃ r, rankOf v c = some r := by
  obtain ⟨p, hp⟩ := Dict.exists_get?_of_mem hc
  obtain ⟨r, hr⟩ := he.countable.ranked v hv c p hp
  exact ⟨r, by unfold rankOf; rw [hp]; exact hr⟩

theorem prefers_listed {v : Voteline} {a b : Str} (h : prefers v a b = true) : a ∈ Dict.keys v.prefs := by
  unfold prefers rankOf at h
  cases hg : Dict.get? v.prefs a with
  | none => rw [hg] at h; simp at h
  | some p => exact Dict.mem_keys_of_get? hg

theorem prefers_unlisted {m : Jabmod} (he : StrictElection m) {v : Voteline} (hv : v ∈ m.votelines) {a b : Str} (ha : a ∈ Dict.keys v.prefs)
    (hb : b ∉ Dict.keys v.prefs) : prefers v a b = true := by
  obtain ⟨r, hr⟩ := rankedLine he hv ha
  have hg : Dict.get? v.prefs b = none := by
    cases hg : Dict.get? v.prefs b with
    | none => rfl
    | some p => exact absurd (Dict.mem_keys_of_get? hg) hb
  unfold prefers
  rw [hr]
  unfold rankOf
  rw [hg]
  rfl

/-- the sole top of a ballot reduced to `C` is preferred to every other candidate of `C` -/
theorem sole_prefers {m : Jabmod} (he : StrictElection m) {C : List Str} {v : Voteline} (hv : v ∈ m.votelines) {w c : Str} (hc : c ∈ C)
    (hcw : c ≠ w) (h : soleTop w (restrictLine C v) = true) : prefers v w c = true := by
  have ht := (soleTop_mem (notOver he C v hv)).1 h
  obtain ⟨t1, t2, t3⟩ := mem_tops_restrict.1 ht
  by_cases hl : c ∈ Dict.keys v.prefs
  · rcases he.strict v hv w t1 c hl (Ne.symm hcw) with h | h
    · exact h
    · rw [t3 c hl hc] at h; cases h
  · exact prefers_unlisted he hv t1 hl

/-- a ballot that lists a candidate of `C` has a sole top among `C` -/
theorem has_sole {m : Jabmod} (he : StrictElection m) {C : List Str} {v : Voteline} (hv : v ∈ m.votelines) {c : Str} (hc : c ∈ C)
    (hl : c ∈ Dict.keys v.prefs) : ∃ b ∈ C, soleTop b (restrictLine C v) = true := by
  have hw : Dict.WF (restrictLine C v).prefs := wf_filter _ (he.countable.dicts v hv)
  have hne : (restrictLine C v).prefs ≠ [] := by
    intro h0
    have : c ∈ Dict.keys (restrictLine C v).prefs := mem_keys_filterKey (p := fun c => decide (c ∈ C)).2 ⟨hl, by simpa using hc⟩
    rw [h0] at this
    cases this
  have hr : Ranked (restrictLine C v).prefs := by
    intro e hem
    exact he.countable.state.ranked v hv e (List.mem_of_mem_filter hem)
  have ht : tops (restrictLine C v) ≠ [] := fun h => hne ((tops_nil_iff hw hr).1 h)
  obtain ⟨b, hb⟩ := List.exists_mem_of_ne_nil _ ht
  exact ⟨b, (mem_tops_restrict.1 hb).2.1, (soleTop_mem (notOver he C v hv)).2 hb⟩

theorem strictLT {v : Voteline} {a b : Str} (h : prefers v a b = true) : prefers v b a = false := by
  unfold prefers at h ⊢
  cases ha : rankOf v a with
  | none => rw [ha] at h; simp at h
  | some ra =>
    cases hb : rankOf v b with
    | none => rfl
    | some rb =>
      rw [ha, hb] at h
      simp only [decide_eq_true_eq] at h
      simp only [decide_eq_false_iff_not]
      omega

/-- the votes of `w` in a round come from voters who prefer `w` to each other candidate -/
theorem votes_le_support {m : Jabmod} (he : StrictElection m) {C : List Str} {w c : Str} (hc : c ∈ C) (hcw : c ≠ w) :
    votesAmong m.votelines C w ≤ support m w c := by
  rw [votesAmong_eq]
  exact qtySum_mono he.nonneg (fun v hv h => sole_prefers he hv hc hcw h)

/-- voters who prefer `c` to `w` are credited to candidates other than `w` -/
theorem support_le_others {m : Jabmod} (he : StrictElection m) {C : List Str} (hn : C.Nodup) {w c : Str} (hc : c ∈ C) (hcw : c ≠ w) :
    votesAmong m.votelines C w + support m c w ≤ (C.map (votesAmong m.votelines C)).sum := by
  rw [votes_sum (notOver he C) C hn, votesAmong_eq]
  unfold support
  rw [qtySum_or]
  · apply qtySum_mono he.nonneg
    intro v hv h
    rw [Bool.or_eq_true] at h
    rw [List.any_eq_true]
    rcases h with h | h
    · refine ⟨w, ?_, h⟩
      exact (mem_tops_restrict.1 ((soleTop_mem (notOver he C v hv)).1 h)).2.1
    · exact has_sole he hv hc (prefers_listed h)
  · intro v hv h
    exact strictLT (sole_prefers he hv hc hcw h)

/-! ## C75 -/

/-- C75.  A sole instant-runoff winner beats every other candidate of the last round head to head. -/
theorem C75_last_round (S : Sched) (m : Jabmod) (d : IrvDict) (he : StrictElection m) (hd : irvDict S m = .ok d) (w : Str)
    (hw : d.run.winner = [w]) :
    ∃ rm, d.run.roundmeta.getLast? = some rm ∧ w ∈ rm.startingCands ∧
      ∀ c ∈ rm.startingCands, c ≠ w → support m w c > support m c w := by
  obtain ⟨cnt, rm, g1, g2, _, hend⟩ := C31_end S m d he.countable he.nonneg hd
  have hlen := (run_lengths (irvDict_steps hd) he.countable.state (irvDict_nonempty he.countable hd)).1
  rw [List.getLast?_eq_getElem?] at g1 g2
  rw [hlen] at g2
  obtain ⟨r1, r2, _, r4, r5⟩ := strict_round he hd g2 g1
  refine ⟨rm, by rw [List.getLast?_eq_getElem?, hlen]; exact g2, ?_⟩
  rcases hend with ⟨_, _, ht⟩ | ⟨w', v, ht, hv, hmaj⟩
  · rw [hw] at ht
    rw [← ht]
    refine ⟨by simp, fun c hc hcw => absurd (by simpa using hc) hcw⟩
  · rw [hw] at ht
    injection ht with ht
    subst ht
    have hwC : w ∈ rm.startingCands := by rw [← r1]; exact Dict.mem_keys_of_get? hv
    refine ⟨hwC, fun c hc hcw => ?_⟩
    rw [r4 w hwC] at hv
    injection hv with hv
    have a1 := votes_le_support he (w := w) hc hcw
    have a2 := support_le_others he r2 (w := w) hc hcw
    rw [r5] at hmaj
    omega

theorem sum_split {l e : List Str} (f : Str → Int) (hl : l.Nodup) (he : e.Nodup) (hsub : ∀ x ∈ e, x ∈ l) :
    (l.map f).sum = (e.map f).sum + ((l.filter (fun c => c ∉ e)).map f).sum := by
  have hp : l.Perm (e ++ l.filter (fun c => c ∉ e)) := by
    rw [List.perm_ext_iff_of_nodup hl]
    · intro a
      rw [List.mem_append, List.mem_filter]
      by_cases h : a ∈ e
      · simp [h, hsub a h]
      · simp [h]
    · rw [List.nodup_append]
      refine ⟨he, hl.filter _, ?_⟩
      intro a ha b hb hab
      subst hab
      simp only [List.mem_filter, decide_eq_true_eq] at hb
      exact hb.2 ha
  rw [perm_sum (hp.map f), List.map_append, List.sum_append]

/-- what the eliminated candidates of a round have together is at most what any remaining candidate has -/
theorem elim_le {S : Sched} {m : Jabmod} {d : IrvDict} (he : StrictElection m) (hd : irvDict S m = .ok d) {k : Nat} {rm rm' : RoundMeta}
    {cnt : Dict Str Int} (h1 : d.run.roundmeta[k]? = some rm) (h1' : d.run.roundmeta[k + 1]? = some rm') (h2 : d.run.rounds[k]? = some cnt) :
    rm.eliminated.Nodup ∧ (∀ e ∈ rm.eliminated, e ∈ rm.startingCands) ∧
    rm'.startingCands.Perm (rm.startingCands.filter (fun c => c ∉ rm.eliminated)) ∧
    ∀ c ∈ rm'.startingCands, (rm.eliminated.map (votesAmong m.votelines rm.startingCands)).sum ≤ votesAmong m.votelines rm.startingCands c := by
  obtain ⟨e1, e2, e3, e4, e5, e6⟩ := (C33_eliminations S m d he.countable hd).1 k rm rm' cnt h1 h1' h2
  obtain ⟨r1, r2, _, r4, r5⟩ := strict_round he hd h1 h2
  refine ⟨e2, e3, e6, fun c hc => ?_⟩
  have hc' := e6.mem_iff.1 hc
  simp only [List.mem_filter, decide_eq_true_eq] at hc'
  rcases e5 with e5 | ⟨_, _, e5⟩
  · obtain ⟨x, hx⟩ := List.length_eq_one_iff.1 e5
    rw [hx]
    simp only [List.map_cons, List.map_nil, List.sum_cons, List.sum_nil, Int.add_zero]
    exact e4 x (by simp [hx]) _ (r4 x (e3 x (by simp [hx]))) c _ (r4 c hc'.1)
  · have h := (e5 c hc'.1 hc'.2 _ (r4 c hc'.1)).2
    have heq : rm.eliminated.map (fun e => (Dict.get? cnt e).getD 0) = rm.eliminated.map (votesAmong m.votelines rm.startingCands) := by
      apply List.map_congr_left
      intro e hee
      rw [r4 e (e3 e hee)]
      rfl
    rw [heq] at h
    exact h

/-- C75.  With two or more candidates, a candidate that loses every head-to-head comparison is never the sole instant-runoff
winner. -/
theorem C75_loser (S : Sched) (m : Jabmod) (d : IrvDict) (he : StrictElection m) (hd : irvDict S m = .ok d) (h2 : 2 ≤ m.candidates.length)
    (w : Str) (hw : d.run.winner = [w]) : ¬ CondorcetLoser m w := by
  intro hl
  obtain ⟨rm, g, hwC, hbeat⟩ := C75_last_round S m d he hd w hw
  have hs := irvDict_steps hd
  have hne := irvDict_nonempty he.countable hd
  obtain ⟨hlen, _, hpos, _⟩ := run_lengths hs he.countable.state hne
  rw [List.getLast?_eq_getElem?] at g
  have hcands := (run_shrinks hs he.countable.state hne).2 rm (List.mem_of_getElem? g)
  by_cases hother : ∃ c ∈ rm.startingCands, c ≠ w
  · obtain ⟨c, hc, hcw⟩ := hother
    have a := hbeat c hc hcw
    have b := hl c (hcands c hc) hcw
    omega
  · -- only `w` is left in the last round
    have honly : ∀ c ∈ rm.startingCands, c = w := by
      intro c hc
      by_contra h
      exact hother ⟨c, hc, h⟩
    by_cases h1 : d.run.roundmeta.length = 1
    · obtain ⟨rm0, q1, _, q3, _⟩ := run_head hs he.countable.state hne
      rw [h1] at g
      rw [show (1 - 1 : Nat) = 0 from rfl, q1] at g
      cases g
      rw [q3] at honly
      have hn := he.countable.cands
      have : (Dict.keys m.candidates).length ≤ 1 := by
        match hk : Dict.keys m.candidates with
        | [] => simp
        | [_] => simp
        | a :: b :: t =>
          rw [hk] at honly hn
          have ha := honly a (by simp)
          have hb := honly b (by simp)
          rw [ha, hb] at hn
          simp at hn
      simp [Dict.keys] at this
      omega
    · obtain ⟨n, hn⟩ : ∃ n, d.run.roundmeta.length = n + 2 := ⟨d.run.roundmeta.length - 2, by omega⟩
      have g' : d.run.roundmeta[n + 1]? = some rm := by rw [hn] at g; exact g
      obtain ⟨rmp, hrmp⟩ : ∃ rmp, d.run.roundmeta[n]? = some rmp := by
        have : n < d.run.roundmeta.length := by omega
        exact ⟨_, List.getElem?_eq_getElem this⟩
      obtain ⟨cntp, hcntp⟩ : ∃ c, d.run.rounds[n]? = some c := by
        have : n < d.run.rounds.length := by omega
        exact ⟨_, List.getElem?_eq_getElem this⟩
      obtain ⟨e1, e2, e3, e4⟩ := elim_le he hd hrmp g' hcntp
      obtain ⟨r1, r2, r3, _, _⟩ := strict_round he hd hrmp hcntp
      have hel : rmp.eliminated ≠ [] := ((C33_eliminations S m d he.countable hd).1 n rmp rm cntp hrmp g' hcntp).1
      obtain ⟨x, hx⟩ := List.exists_mem_of_ne_nil _ hel
      have hxC := e2 x hx
      have hwP := e3.mem_iff.1 hwC
      simp only [List.mem_filter, decide_eq_true_eq] at hwP
      have hxw : x ≠ w := fun h => hwP.2 (h ▸ hx)
      have hsum := sum_split (votesAmong m.votelines rmp.startingCands) r2 e1 e2
      have hrest : ((rmp.startingCands.filter (fun c => c ∉ rmp.eliminated)).map (votesAmong m.votelines rmp.startingCands)).sum =
          votesAmong m.votelines rmp.startingCands w := by
        have hfn : (rmp.startingCands.filter (fun c => c ∉ rmp.eliminated)).Nodup := r2.filter _
        have : rmp.startingCands.filter (fun c => c ∉ rmp.eliminated) = [w] := by
          have hall : ∀ c ∈ rmp.startingCands.filter (fun c => c ∉ rmp.eliminated), c = w := fun c hc => honly c (e3.mem_iff.2 hc)
          have hmem : w ∈ rmp.startingCands.filter (fun c => c ∉ rmp.eliminated) := e3.mem_iff.1 hwC
          match hk : rmp.startingCands.filter (fun c => c ∉ rmp.eliminated) with
          | [] => rw [hk] at hmem; cases hmem
          | [a] => rw [hk] at hall; rw [hall a (by simp)]
          | a :: b :: t =>
            rw [hk] at hall hfn
            rw [hall a (by simp), hall b (by simp)] at hfn
            simp at hfn
        rw [this]
        simp
      have a1 := votes_le_support he (w := w) hxC hxw
      have a2 := support_le_others he r2 (w := w) hxC hxw
      have a3 := e4 w hwC
      have b := hl x (r3 x hxC) hxw
      omega

/-! ## C76 -/

/-- votes of the voters of a solid coalition stay with the coalition as long as one of its candidates is left -/
theorem solid_le {m : Jabmod} (he : StrictElection m) {X C : List Str} (hn : C.Nodup) (hC : ∀ c ∈ C, c ∈ m.candidates.keys)
    {x : Str} (hxX : x ∈ X) (hxC : x ∈ C) (hy : ∃ y ∈ m.candidates.keys, y ∉ X) :
    qtySum (solidFor m X) m.votelines ≤ ((C.filter (fun c => c ∈ X)).map (votesAmong m.votelines C)).sum := by
  rw [votes_sum (notOver he C) _ (hn.filter _)]
  apply qtySum_mono he.nonneg
  intro v hv h
  unfold solidFor at h
  rw [List.all_eq_true] at h
  obtain ⟨y, hyc, hyX⟩ := hy
  have hpy : ∀ z ∈ m.candidates.keys, z ∉ X → prefers v x z = true := by
    intro z hz hzX
    have := h z hz
    simp only [hzX, decide_false, Bool.false_or, List.all_eq_true] at this
    exact this x hxX
  have hxl := prefers_listed (hpy y hyc hyX)
  obtain ⟨b, hbC, hb⟩ := has_sole he hv hxC hxl
  rw [List.any_eq_true]
  refine ⟨b, ?_, hb⟩
  rw [List.mem_filter]
  refine ⟨hbC, ?_⟩
  by_contra hbX
  have hbX : b ∉ X := by simpa using hbX
  have hxb : x ≠ b := fun h => hbX (h ▸ hxX)
  have h1 := sole_prefers he hv hxC hxb hb
  have h2 := hpy b (hC b hbC) hbX
  rw [strictLT h1] at h2
  cases h2

theorem total_le {m : Jabmod} (he : StrictElection m) {C : List Str} (hn : C.Nodup) :
    (C.map (votesAmong m.votelines C)).sum ≤ (m.votelines.map Voteline.qty).sum := by
  rw [votes_sum (notOver he C) C hn]
  have : (m.votelines.map Voteline.qty).sum = qtySum (fun _ => true) m.votelines := by unfold qtySum; simp
  rw [this]
  exact qtySum_mono he.nonneg (fun _ _ _ => rfl)

theorem part_le {m : Jabmod} (he : StrictElection m) {C A B : List Str} (hA : A.Nodup) (hB : B.Nodup) (h : ∀ a ∈ A, a ∈ B) :
    (A.map (votesAmong m.votelines C)).sum ≤ (B.map (votesAmong m.votelines C)).sum := by
  rw [votes_sum (notOver he C) A hA, votes_sum (notOver he C) B hB]
  apply qtySum_mono he.nonneg
  intro v _ hv
  rw [List.any_eq_true] at hv ⊢
  obtain ⟨a, ha, h2⟩ := hv
  exact ⟨a, h a ha, h2⟩

/-- C76.  If more than half of the voters rank all candidates of `X` above all others, a candidate of `X` wins: `X` contains
one of the winners, and the winner if there is only one. -/
theorem C76_coalition (S : Sched) (m : Jabmod) (d : IrvDict) (he : StrictElection m) (hd : irvDict S m = .ok d) (X : List Str)
    (hX : ∃ x ∈ X, x ∈ m.candidates.keys)
    (hmaj : 2 * qtySum (solidFor m X) m.votelines > (m.votelines.map Voteline.qty).sum) :
    (∃ w ∈ d.run.winner, w ∈ X) ∧ ∀ w, d.run.winner = [w] → w ∈ X := by
  have main : ∃ w ∈ d.run.winner, w ∈ X := by
    have hs := irvDict_steps hd
    have hne := irvDict_nonempty he.countable hd
    obtain ⟨hlen, _, hpos, hwne, _, hwin⟩ := run_lengths hs he.countable.state hne
    by_cases hy : ∃ y ∈ m.candidates.keys, y ∉ X
    · have hinv : ∀ (k : Nat) (rm : RoundMeta), d.run.roundmeta[k]? = some rm → ∃ x ∈ X, x ∈ rm.startingCands := by
        intro k
        induction k with
        | zero =>
          intro rm hrm
          obtain ⟨rm0, q1, _, q3, _⟩ := run_head hs he.countable.state hne
          rw [q1] at hrm
          cases hrm
          rw [q3]
          exact hX
        | succ k ih =>
          intro rm' h1'
          have hk : k + 1 < d.run.roundmeta.length := (List.getElem?_eq_some_iff.1 h1').1
          have hrm : d.run.roundmeta[k]? = some (d.run.roundmeta[k]'(by omega)) := List.getElem?_eq_getElem (by omega)
          have hcnt : d.run.rounds[k]? = some (d.run.rounds[k]'(by omega)) := List.getElem?_eq_getElem (by omega)
          generalize (d.run.roundmeta[k]'(by omega)) = rm at hrm
          generalize (d.run.rounds[k]'(by omega)) = cnt at hcnt
          obtain ⟨x, hxX, hxC⟩ := ih rm hrm
          obtain ⟨e1, e2, e3, e4⟩ := elim_le he hd hrm h1' hcnt
          obtain ⟨r1, r2, r3, r4, r5⟩ := strict_round he hd hrm hcnt
          by_contra hnone
          -- the next round has candidates
          obtain ⟨c, hc⟩ : ∃ c, c ∈ rm'.startingCands := by
            obtain ⟨cl, rl, g1, g2, _, hend⟩ := C31_end S m d he.countable he.nonneg hd
            have hcnt' : ∃ cnt', d.run.rounds[k+1]? = some cnt' := ⟨_, List.getElem?_eq_getElem (by omega)⟩
            obtain ⟨w, hw⟩ := List.exists_mem_of_ne_nil _ hwne
            have hwl : w ∈ rl.startingCands := by
              rcases hend with ⟨_, _, ht⟩ | ⟨w', v, ht, hv, _⟩
              · rw [← ht]; exact hw
              · rw [ht] at hw
                have : w = w' := by simpa using hw
                subst this
                rw [List.getLast?_eq_getElem?] at g1 g2
                rw [hlen] at g2
                rw [← (strict_round he hd g2 g1).1]
                exact Dict.mem_keys_of_get? hv
            rw [List.getLast?_eq_getElem?] at g2
            have hpair := (run_shrinks hs he.countable.state hne).1
            rw [List.pairwise_iff_getElem] at hpair
            by_cases hkl : k + 1 = d.run.roundmeta.length - 1
            · rw [← hkl, h1'] at g2
              cases g2
              exact ⟨w, hwl⟩
            · refine ⟨w, ?_⟩
              have hp := hpair (k + 1) (d.run.roundmeta.length - 1) (by simpa using hk) (by rw [List.length_map]; omega) (by omega)
              rw [List.getElem_map, List.getElem_map] at hp
              rw [(List.getElem?_eq_some_iff.1 h1').2, (List.getElem?_eq_some_iff.1 g2).2] at hp
              exact hp w hwl
          have hsub : ∀ a ∈ rm.startingCands.filter (fun c => c ∈ X), a ∈ rm.eliminated := by
            intro a ha
            simp only [List.mem_filter, decide_eq_true_eq] at ha
            by_contra hae
            exact hnone ⟨a, ha.2, e3.mem_iff.2 (by simp [ha.1, hae])⟩
          have b1 := solid_le he (X := X) r2 r3 hxX hxC hy
          have b2 := part_le he (C := rm.startingCands) (r2.filter (fun c => decide (c ∈ X))) e1 hsub
          have b3 := e4 c hc
          have b4 := total_le he (C := rm.startingCands) r2
          have hcC := e3.mem_iff.1 hc
          simp only [List.mem_filter, decide_eq_true_eq] at hcC
          have b5 := part_le he (C := rm.startingCands) (A := c :: rm.eliminated) (List.nodup_cons.2 ⟨hcC.2, e1⟩) r2 (by
            intro a ha
            rcases List.mem_cons.1 ha with rfl | ha
            · exact hcC.1
            · exact e2 a ha)
          rw [List.map_cons, List.sum_cons] at b5
          omega
      obtain ⟨cnt, rm, g1, g2, _, hend⟩ := C31_end S m d he.countable he.nonneg hd
      rw [List.getLast?_eq_getElem?] at g1 g2
      rw [hlen] at g2
      obtain ⟨x, hxX, hxC⟩ := hinv _ rm g2
      obtain ⟨r1, r2, r3, r4, r5⟩ := strict_round he hd g2 g1
      rcases hend with ⟨_, _, ht⟩ | ⟨w, v, ht, hv, hm⟩
      · exact ⟨x, by rw [ht]; exact hxC, hxX⟩
      · refine ⟨w, by simp [ht], ?_⟩
        by_contra hwX
        have hwC : w ∈ rm.startingCands := by rw [← r1]; exact Dict.mem_keys_of_get? hv
        rw [r4 w hwC] at hv
        injection hv with hv
        have b1 := solid_le he (X := X) r2 r3 hxX hxC hy
        have b4 := total_le he (C := rm.startingCands) r2
        have b5 := part_le he (C := rm.startingCands) (A := w :: rm.startingCands.filter (fun c => c ∈ X)) (List.nodup_cons.2
          ⟨by simp [hwX], r2.filter _⟩) r2 (by
            intro a ha
            rcases List.mem_cons.1 ha with rfl | ha
            · exact hwC
            · exact List.mem_of_mem_filter ha)
        rw [List.map_cons, List.sum_cons] at b5
        rw [r5] at hm
        omega
    · obtain ⟨w, hw⟩ := List.exists_mem_of_ne_nil _ hwne
      refine ⟨w, hw, ?_⟩
      by_contra hwX
      exact hy ⟨w, hwin w hw, hwX⟩
  refine ⟨main, ?_⟩
  intro w hw
  obtain ⟨w', h1, h2⟩ := main
  rw [hw] at h1
  have : w' = w := by simpa using h1
  rwa [this] at h2

/-- Elections read from .abif text: strict ballots and no empty token are all that is needed. -/
theorem parsed_strictElection [U : Uni] (cw ar sc : Bool) (text : Str) (m : Jabmod) (h : convertAbif cw ar sc text = .ok m)
    (hlen : text.length < 4999999998) (hnil : [] ∉ m.candidates.keys) (hst : Strict m.votelines) : StrictElection m :=
  ⟨parsed_countable cw ar sc text m h, parsed_below cw ar sc text m h hlen, parsed_nonneg cw ar sc text m h, hnil, hst⟩

section
attribute [local instance] Uni.ascii
set_option maxRecDepth 20000

/-- two coalition partners X, Y against Z; Y is eliminated first -/
def coalitionText : Str := c!"3:X>Y>Z\n2:Y>X>Z\n4:Z>Y\n"
def coalitionModel : Jabmod := (convertAbif true false false coalitionText).toOption.getD emptyishJabmod

theorem coalitionModel_parsed : convertAbif true false false coalitionText = .ok coalitionModel := by
  unfold coalitionModel
  have h : (convertAbif true false false coalitionText).toOption.isSome = true := by decide +kernel
  cases hc : convertAbif true false false coalitionText with
  | error e => rw [hc] at h; cases h
  | ok m => rfl

theorem coalition_strict : StrictElection coalitionModel :=
  parsed_strictElection _ _ _ _ _ coalitionModel_parsed (by decide +kernel) (by decide +kernel) (by unfold Strict; decide +kernel)

-- the hypotheses of C75 and C76 hold, and the coalition's weaker candidate has been eliminated
example : (irvDict Sched.std coalitionModel).map (fun d => (d.run.winner, d.run.rounds.length)) = .ok ([c!"X"], 2) ∧
    2 * qtySum (solidFor coalitionModel [c!"X", c!"Y"]) coalitionModel.votelines > (coalitionModel.votelines.map Voteline.qty).sum ∧
    2 ≤ coalitionModel.candidates.length := by decide +kernel
-- Z has the most first choices, and loses both comparisons
example : support coalitionModel c!"X" c!"Z" > support coalitionModel c!"Z" c!"X" ∧
    support coalitionModel c!"Y" c!"Z" > support coalitionModel c!"Z" c!"Y" := by decide +kernel

/-- three candidates tied in the first round -/
def tiedModel : Jabmod := (convertAbif true false false c!"1:X>Y>Z\n1:Y>X>Z\n1:Z\n").toOption.getD emptyishJabmod

/-- Why C76 speaks of one of the winners when there are several: a count that ends in a tie of all candidates makes everybody
a winner, also the candidate outside the coalition (and here a Condorcet loser). -/
theorem C76_tie : (irvDict Sched.std tiedModel).map (fun d => d.run.winner) = .ok [c!"X", c!"Y", c!"Z"] ∧
    2 * qtySum (solidFor tiedModel [c!"X", c!"Y"]) tiedModel.votelines > (tiedModel.votelines.map Voteline.qty).sum := by
  decide +kernel
end

end Verif.Props
