/-
C119: blank ballots.
-/
import Verif.Lib.IrvShift
import Verif.Lib.MetaRound
import Verif.Lib.Tiers
import Verif.Lib.ImpExport
import Verif.Props.Merge
import Verif.Props.IrvClones

set_option linter.unusedSimpArgs false
set_option linter.unusedSectionVars false

namespace Verif.Props
open Verif Spec

/-- `m'` is the election `m` with `k` more ballots, which name nobody. -/
structure BlankAdded (k : Int) (m m' : Jabmod) : Prop where
  cands : m'.candidates = m.candidates
  lines : ∃ a b v, m.votelines = a ++ b ∧ m'.votelines = a ++ v :: b ∧ v.prefs = [] ∧ v.qty = k
  count : ∃ n : Int, Dict.get? m.metadata c!"ballotcount" = some (.int n) ∧ Dict.get? m'.metadata c!"ballotcount" = some (.int (n + k))

/-! ### the pairwise counts -/

theorem pairLine_blank {v : Voteline} (hv : v.prefs = []) (d : PairDict) (toks : List Str) (f : Str → Str → Option Int)
    (hd : d = toks.map (fun a => (a, toks.map (fun b => (b, if a = b then none else f a b))))) : pairLine v d = d := by
  subst hd
  unfold pairLine
  rw [List.map_map]
  apply List.map_congr_left
  intro a _
  simp only [Function.comp_apply, List.map_map, Prod.mk.injEq, true_and]
  apply List.map_congr_left
  intro b _
  simp only [Function.comp_apply, Prod.mk.injEq, true_and]
  unfold pairCell
  by_cases hab : a = b
  · rw [if_pos hab, if_pos hab]
  · rw [if_neg hab, if_neg hab]
    simp [lineRank, hv, Dict.get?]

theorem pairLine_shape (v : Voteline) (toks : List Str) (f : Str → Str → Option Int) :
    ∃ g : Str → Str → Option Int, pairLine v (toks.map (fun a => (a, toks.map (fun b => (b, if a = b then none else f a b))))) =
      toks.map (fun a => (a, toks.map (fun b => (b, if a = b then none else g a b)))) := by
  refine ⟨fun a b => pairCell v a b (f a b), ?_⟩
  unfold pairLine
  rw [List.map_map]
  apply List.map_congr_left
  intro a _
  simp only [Function.comp_apply, List.map_map, Prod.mk.injEq, true_and]
  apply List.map_congr_left
  intro b _
  simp only [Function.comp_apply, Prod.mk.injEq, true_and]
  by_cases hab : a = b
  · rw [if_pos hab, if_pos hab]; unfold pairCell; rw [if_pos hab]
  · rw [if_neg hab, if_neg hab]

theorem pairFold_shape (toks : List Str) : ∀ (l : List Voteline) (f : Str → Str → Option Int),
    ∃ g : Str → Str → Option Int, l.foldl (fun d vl => pairLine vl d) (toks.map (fun a => (a, toks.map (fun b => (b, if a = b then none else f a b))))) =
      toks.map (fun a => (a, toks.map (fun b => (b, if a = b then none else g a b))))
  | [], f => ⟨f, rfl⟩
  | v :: l, f => by
    obtain ⟨g, hg⟩ := pairLine_shape v toks f
    rw [List.foldl_cons, hg]
    exact pairFold_shape toks l g

/-- C119, pairwise and Copeland: blank ballots change no number of the pairwise matrix and of the win-loss-tie table. -/
theorem C119_pairwise (k : Int) (m m' : Jabmod) (h : BlankAdded k m m') :
    pairwiseCount m' = pairwiseCount m ∧ fullCopecount m' = fullCopecount m := by
  have key : pairwiseCount m' = pairwiseCount m := by
    obtain ⟨a, b, v, h1, h2, h3, _⟩ := h.lines
    unfold pairwiseCount
    rw [h1, h2, h.cands, List.foldl_append, List.foldl_append, List.foldl_cons]
    congr 1
    obtain ⟨g, hg⟩ := pairFold_shape (Dict.keys m.candidates) a (fun _ _ => some 0)
    exact pairLine_blank h3 _ _ g hg
  refine ⟨key, ?_⟩
  unfold fullCopecount
  rw [key, h.cands]

/-! ### scores -/

section
variable [U : Uni]

theorem scoreLines_blank {v : Voteline} (hv : v.prefs = []) (b : List Voteline) : ∀ (a : List Voteline) (d : Dict Str ScoreEntry),
    scoreLines (a ++ v :: b) d = scoreLines (a ++ b) d
  | [], d => by
    show scoreLines (v :: b) d = scoreLines b d
    rw [scoreLines, hv, scorePrefs, ok_bind]
  | u :: a, d => by
    show scoreLines (u :: (a ++ v :: b)) d = scoreLines (u :: (a ++ b)) d
    rw [scoreLines, scoreLines]
    cases scorePrefs u.qty u.prefs d with
    | error e => rfl
    | ok d' =>
      rw [ok_bind, ok_bind]
      exact scoreLines_blank hv b a d'

/-- C119, scores: blank ballots change no score, no number of supporters and no place; only the number of voters grows. -/
theorem C119_scores (k : Int) (m m' : Jabmod) (h : BlankAdded k m m') :
    basicScore m' = basicScore m ∧
    ∃ n : Int, Dict.get? m.metadata c!"ballotcount" = some (.int n) ∧
      enhancedScore m' = (enhancedScore m).map (fun r => { r with totalvoters := .int (n + k) }) ∧
      (∀ r, enhancedScore m = .ok r → r.totalvoters = .int n) := by
  have key : basicScore m' = basicScore m := by
    obtain ⟨a, b, v, h1, h2, h3, _⟩ := h.lines
    unfold basicScore
    rw [h1, h2, h.cands, scoreLines_blank h3]
  obtain ⟨n, c1, c2⟩ := h.count
  refine ⟨key, n, c1, ?_, ?_⟩
  · unfold enhancedScore
    rw [key]
    cases basicScore m with
    | error e => rfl
    | ok s =>
      rw [ok_bind, ok_bind, Dict.getE_of_get? c1, Dict.getE_of_get? c2]
      rfl
  · intro r hr
    unfold enhancedScore at hr
    obtain ⟨s, _, hr⟩ := bind_ok.1 hr
    rw [Dict.getE_of_get? c1, ok_bind] at hr
    cases hr
    rfl

/-- C119, STAR: with blank ballots the finalists, their votes and the winner are the same; the abstentions grow by the number of blank ballots. -/
theorem C119_star (k : Int) (m m' : Jabmod) (h : BlankAdded k m m') :
    ∃ n : Int, Dict.get? m.metadata c!"ballotcount" = some (.int n) ∧
      starResult m' = (starResult m).map (fun r =>
        { r with finalAbstentions := r.finalAbstentions + k, base := { r.base with totalvoters := .int (n + k) } }) := by
  obtain ⟨_, n, c1, c2, c3⟩ := C119_scores k m m' h
  refine ⟨n, c1, ?_⟩
  unfold starResult
  rw [c2, (C119_pairwise k m m' h).2]
  cases hr : enhancedScore m with
  | error e => rfl
  | ok r =>
    have hn := c3 r hr
    obtain ⟨sc, rk, rl, t, tv⟩ := r
    simp only at hn
    cases fullCopecount m with
    | error e => rfl
    | ok cc =>
      simp only [Except.map, ok_bind]
      match rl with
      | [] => rfl
      | [_] => rfl
      | fin1 :: fin2 :: _ =>
        simp only
        cases Dict.getE sc fin1 with
        | error e => rfl
        | ok e1 =>
          rw [ok_bind, ok_bind]
          cases Dict.getE sc fin2 with
          | error e => rfl
          | ok e2 =>
            rw [ok_bind, ok_bind]
            cases pairGet cc.winningvotes fin1 fin2 with
            | error e => rfl
            | ok v1 =>
              rw [ok_bind, ok_bind]
              cases pairGet cc.winningvotes fin2 fin1 with
              | error e => rfl
              | ok v2 =>
                rw [ok_bind, ok_bind, hn]
                cases v1 with
                | none => rfl
                | some x =>
                  cases v2 with
                  | none => rfl
                  | some y =>
                    refine congrArg Except.ok ?_
                    congr 1
                    show n + k - x - y = n - x - y + k
                    omega

end

/-! ### instant runoff -/

theorem topOf_blank {v : Voteline} (hv : v.prefs = []) : topOf v = none := by
  unfold topOf
  rw [hv]
  rfl

theorem eliminate_blank {el : List Str} {a b : List Voteline} {v : Voteline} (hv : v.prefs = []) :
    ∃ w, eliminateCands el (a ++ v :: b) = eliminateCands el a ++ w :: eliminateCands el b ∧ w.prefs = [] ∧ w.qty = v.qty := by
  induction el generalizing a b v with
  | nil => exact ⟨v, rfl, hv, rfl⟩
  | cons c el ih =>
    unfold eliminateCands
    simp only [List.foldl_cons, List.map_append, List.map_cons]
    obtain ⟨w, h1, h2, h3⟩ := ih (a := a.map (fun vl => { vl with prefs := vl.prefs.erase c })) (b := b.map (fun vl => { vl with prefs := vl.prefs.erase c }))
      (v := { v with prefs := v.prefs.erase c }) (by rw [hv]; rfl)
    exact ⟨w, h1, h2, h3⟩

theorem eliminate_append {el : List Str} {a b : List Voteline} : eliminateCands el (a ++ b) = eliminateCands el a ++ eliminateCands el b := by
  induction el generalizing a b with
  | nil => rfl
  | cons c el ih =>
    unfold eliminateCands at ih ⊢
    simp only [List.foldl_cons, List.map_append]
    exact ih

theorem eliminate_lines {el : List Str} {l : List Voteline} (hw : ∀ u ∈ l, Dict.WF u.prefs) {u : Voteline} (hu : u ∈ eliminateCands el l) :
    ∃ x ∈ l, u = { x with prefs := x.prefs.filter (fun e => (fun c => decide (c ∉ el)) e.1) } := by
  rw [eliminate_eq el l hw] at hu
  obtain ⟨x, hx, rfl⟩ := List.mem_map.1 hu
  exact ⟨x, hx, rfl⟩

theorem filter_prefs {p : Str → Bool} {d : Dict Str Pref} (h1 : Dict.WF d) (h2 : Ranked d) :
    Dict.WF (d.filter (fun e => p e.1)) ∧ Ranked (d.filter (fun e => p e.1)) :=
  ⟨wf_filter _ h1, fun e he => h2 e (List.mem_filter.1 he).1⟩

/-- the relation kept from round to round: somewhere in the list there is one more line, a blank one; unless it is the last one there are no
ties -/
def BlankIn (k : Int) (vls vls' : List Voteline) : Prop :=
  ∃ a b v, vls = a ++ b ∧ vls' = a ++ v :: b ∧ v.prefs = [] ∧ v.qty = k ∧ (∀ u ∈ vls, Dict.WF u.prefs ∧ Ranked u.prefs) ∧
    (b = [] ∨ (∀ u ∈ vls, CountLine u) ∧ ∀ u ∈ vls, StrictLine u)

theorem blank_countLine {v : Voteline} (hv : v.prefs = []) : CountLine v ∧ StrictLine v := by
  refine ⟨⟨?_, ?_, ?_⟩, ?_⟩
  · rw [hv]; exact List.nodup_nil
  · rw [hv]; intro e he; cases he
  · rw [hv]; intro e he; cases he
  · intro a ha; rw [hv] at ha; cases ha

theorem qtySum_insert (p : Voteline → Bool) (a b : List Voteline) (v : Voteline) :
    qtySum p (a ++ v :: b) = qtySum p (a ++ b) + if p v then v.qty else 0 := by
  induction a with
  | nil => rw [List.nil_append, List.nil_append, qtySum_cons]; omega
  | cons u a ih => rw [List.cons_append, List.cons_append, qtySum_cons, qtySum_cons, ih]; omega

theorem qtot_insert (a b : List Voteline) (v : Voteline) : qtot (a ++ v :: b) = qtot (a ++ b) + v.qty := by
  induction a with
  | nil => rw [List.nil_append, List.nil_append, qtot_cons]; omega
  | cons u a ih => rw [List.cons_append, List.cons_append, qtot_cons, qtot_cons, ih]; omega

theorem blankIn_round (k : Int) (vls vls' : List Voteline) (h : BlankIn k vls vls') :
    ∃ q kept kept', discardOvervotes vls = .ok (q, kept) ∧ discardOvervotes vls' = .ok (q, kept') ∧
      (∀ c, tally kept' c = tally kept c) ∧ exhaustedQty kept' = exhaustedQty kept + k ∧ qtot vls' = qtot vls + k ∧
      qtot kept' = qtot kept + k ∧ ∀ el, BlankIn k (eliminateCands el kept) (eliminateCands el kept') := by
  obtain ⟨a, b, v, rfl, rfl, hv, rfl, hr, hb⟩ := h
  have htop := topOf_blank hv
  have numbers : ∀ a b : List Voteline, (∀ c, tally (a ++ v :: b) c = tally (a ++ b) c) ∧
      exhaustedQty (a ++ v :: b) = exhaustedQty (a ++ b) + v.qty := by
    intro a b
    constructor
    · intro c; unfold tally; rw [qtySum_insert, htop]; simp
    · unfold exhaustedQty; rw [qtySum_insert, htop]; simp
  rcases hb with rfl | ⟨hc, hs⟩
  · rw [List.append_nil] at *
    obtain ⟨q, kept, k1, k2, k3⟩ := discard_total a (fun u hu => (hr u hu).2)
    have n1 := numbers kept []
    rw [List.append_nil] at n1
    have hk : ∀ u ∈ kept, Dict.WF u.prefs ∧ Ranked u.prefs := fun u hu => hr u (k2.subset hu)
    refine ⟨q, kept, kept ++ [v], k1, ?_, n1.1, n1.2, ?_, ?_, ?_⟩
    · rw [discard_snoc_blank hv, k1]; rfl
    · have := qtot_insert a [] v; rwa [List.append_nil] at this
    · have := qtot_insert kept [] v; rwa [List.append_nil] at this
    · intro el
      obtain ⟨w, e1, e2, e3⟩ := eliminate_blank (el := el) (a := kept) (b := []) hv
      have e4 : eliminateCands el [] = [] := by
        have := eliminate_eq el [] (by simp)
        simpa using this
      rw [e4] at e1
      refine ⟨eliminateCands el kept, [], w, by simp, e1, e2, e3, ?_, .inl rfl⟩
      intro u hu
      obtain ⟨x, hx, rfl⟩ := eliminate_lines (fun u hu => (hk u hu).1) hu
      exact filter_prefs (p := fun c => decide (c ∉ el)) (hk x hx).1 (hk x hx).2
  · have hmem : ∀ u ∈ a ++ v :: b, u = v ∨ u ∈ a ++ b := by
      intro u hu
      simp only [List.mem_append, List.mem_cons] at hu ⊢
      tauto
    have hc' : ∀ u ∈ a ++ v :: b, CountLine u := fun u hu => (hmem u hu).elim (fun e => e ▸ (blank_countLine hv).1) (hc u)
    have hs' : ∀ u ∈ a ++ v :: b, StrictLine u := fun u hu => (hmem u hu).elim (fun e => e ▸ (blank_countLine hv).2) (hs u)
    refine ⟨0, a ++ b, a ++ v :: b, discard_strict hc hs, discard_strict hc' hs', (numbers a b).1, (numbers a b).2, qtot_insert a b v,
      qtot_insert a b v, ?_⟩
    intro el
    obtain ⟨w, e1, e2, e3⟩ := eliminate_blank (el := el) (a := a) (b := b) hv
    have hline : ∀ u ∈ eliminateCands el a ++ eliminateCands el b, CountLine u ∧ StrictLine u := by
      intro u hu
      rw [← eliminate_append] at hu
      obtain ⟨x, hx, rfl⟩ := eliminate_lines (fun u hu => (hr u hu).1) hu
      exact ⟨countLine_filter (hc x hx) _, strict_filter (hs x hx) (fun c => decide (c ∉ _))⟩
    rw [eliminate_append]
    refine ⟨_, _, w, rfl, e1, e2, e3, fun u hu => ⟨(hline u hu).1.wf, (hline u hu).1.ranked⟩,
      .inr ⟨fun u hu => (hline u hu).1, fun u hu => (hline u hu).2⟩⟩

/-- C119, instant runoff: blank ballots change no number of votes in any round, nobody's elimination and not the winner, if no ballot has ties or
the blank line is the last one (the parser sorts the lines by quantity).  In every round the ballots and the exhausted ones are more by the number of
blank ballots (and the number called `countedqty`, which subtracts the exhausted ballots, see `C29_refuted`, is less by that number). -/
theorem C119_irv (S : Sched) (k : Int) (m m' : Jabmod) (h : BlankAdded k m m') (hc : Countable m)
    (hp : (RanksBelowInfinity m ∧ Strict m.votelines) ∨ ∃ v, m'.votelines = m.votelines ++ [v]) (d : IrvDict) (hd : irvDict S m = .ok d) :
    irvDict S m' = .ok { d with run := { d.run with roundmeta := d.run.roundmeta.map (fun rm =>
      { rm with startingqty := rm.startingqty + k, exhaustedqty := rm.exhaustedqty + k, ballotcount := rm.ballotcount + k,
                countedqty := rm.countedqty - k }) } } := by
  obtain ⟨a, b, v, h1, h2, h3, h4⟩ := h.lines
  have hne : Dict.keys m.candidates ≠ [] := by
    intro he
    unfold irvDict at hd
    rw [he] at hd
    obtain ⟨run, hrun, _⟩ := bind_ok.1 hd
    unfold irvCount at hrun
    obtain ⟨r, hr, _⟩ := bind_ok.1 hrun
    have := hc.state
    rw [he] at this
    obtain ⟨q, kept, _, _, _, e⟩ := irvRound_split S none 1 this
    rw [e] at hr
    unfold roundFinish at hr
    simp [accOf, countsOf, listMin] at hr
  have hrel : BlankIn k m.votelines m'.votelines := by
    have hr : ∀ u ∈ m.votelines, Dict.WF u.prefs ∧ Ranked u.prefs := fun u hu => ⟨hc.state.wf u hu, hc.state.ranked u hu⟩
    rcases hp with ⟨hb, hs⟩ | ⟨w, hw⟩
    · exact ⟨a, b, v, h1, h2, h3, h4, hr, .inr ⟨good_of hc hb, hs⟩⟩
    · have hwv : ∀ (l : List Voteline) (v : Voteline), v :: l = l ++ [w] → w = v := by
        intro l
        induction l with
        | nil => intro v e; simpa using e.symm
        | cons c l ih =>
          intro v e
          rw [List.cons_append, List.cons.injEq] at e
          rw [e.1]; exact ih c e.2
      have e : w = v := by
        refine hwv b v ?_
        rw [h1, h2, List.append_assoc] at hw
        exact List.append_cancel_left hw
      exact ⟨m.votelines, [], w, by simp, hw, e ▸ h3, e ▸ h4, hr, .inl rfl⟩
  have hs' : IrvState (Dict.keys m.candidates) m'.votelines := by
    have hmem : ∀ u ∈ m'.votelines, u = v ∨ u ∈ m.votelines := by
      intro u hu
      rw [h2] at hu
      rw [h1]
      simp only [List.mem_append, List.mem_cons] at hu ⊢
      tauto
    refine ⟨hc.state.nodup, fun u hu => ?_, fun u hu => ?_, fun u hu => ?_⟩
    · rcases hmem u hu with rfl | hu
      · exact (blank_countLine h3).1.wf
      · exact hc.state.wf u hu
    · rcases hmem u hu with rfl | hu
      · exact (blank_countLine h3).1.ranked
      · exact hc.state.ranked u hu
    · rcases hmem u hu with rfl | hu
      · rw [h3]; intro c hc; cases hc
      · exact hc.state.known u hu
  have hcount := irvCount_shift S k (BlankIn k) (blankIn_round k) (m.candidates.length + 1) none none rfl 1 (Dict.keys m.candidates) m.votelines
    m'.votelines hc.state hs' hne hrel
  unfold irvDict at hd ⊢
  rw [h.cands, hcount]
  obtain ⟨run, hrun, hd⟩ := bind_ok.1 hd
  rw [hrun]
  simp only [Except.map, ok_bind]
  show (winnerStr m.candidates run.winner >>= fun _ => _) = _
  obtain ⟨ws, hws, hd⟩ := bind_ok.1 hd
  rw [hws, ok_bind]
  cases hd
  simp only [shiftRun, List.any_map]
  rfl

/-! ### texts -/

variable [U : Uni]

theorem parsePrefstr_blank {p : Str} (hp : ∀ c ∈ p, isSpace c = true) : parsePrefstr p = .ok ([], []) := by
  have hsep : ∀ c ∈ p, isPrefSep c = false := by
    intro c hc
    cases hh : isPrefSep c with
    | false => rfl
    | true =>
      have hs := hp c hc
      unfold isPrefSep at hh
      simp only [Bool.or_eq_true, beq_iff_eq] at hh
      rcases hh with (((rfl | rfl) | rfl) | rfl) | rfl <;> exact absurd hs (by decide)
  have hstep : exStep {} p = .ok {} := by
    unfold exStep
    simp only [strip_spaces hp]
    rfl
  have hex : extractCandprefs p = .ok [] := by
    unfold extractCandprefs
    rw [splitKeep_none hsep]
    unfold exLoop
    rw [hstep]
    rfl
  unfold parsePrefstr
  simp only [hex]
  rfl

omit U in
theorem forall₂_split_left {R : (Str × Str × Option Str) → Voteline → Prop} {l₂ : List (Str × Str × Option Str)} : ∀ {l₁ : List (Str × Str × Option Str)}
    {r : List Voteline}, List.Forall₂ R (l₁ ++ l₂) r → ∃ r₁ r₂, r = r₁ ++ r₂ ∧ List.Forall₂ R l₁ r₁ ∧ List.Forall₂ R l₂ r₂
  | [], r, h => ⟨[], r, rfl, .nil, h⟩
  | x :: l₁, r, h => by
    cases h with
    | cons h1 h2 =>
      obtain ⟨r₁, r₂, rfl, e1, e2⟩ := forall₂_split_left h2
      exact ⟨_ :: r₁, r₂, rfl, .cons h1 e1, e2⟩

/-- taking one line out of the sorted lines, or putting it in -/
theorem sorted_insert (A B : List Voteline) (v : Voteline) :
    ∃ X Y, sortByKeyDesc Voteline.qty (A ++ B) = X ++ Y ∧ sortByKeyDesc Voteline.qty (A ++ v :: B) = X ++ v :: Y := by
  obtain ⟨h1, h2, h3⟩ := stableSorted (A ++ v :: B)
  have hf := h3 v.qty
  rw [List.filter_append, List.filter_cons, if_pos (by simp)] at hf
  obtain ⟨X, R, hs, hX, hR⟩ := List.filter_eq_append_iff.1 hf
  obtain ⟨R1, Y, rfl, hR1, _, hY⟩ := List.filter_eq_cons_iff.1 hR
  refine ⟨X ++ R1, Y, ?_, by rw [hs]; simp⟩
  have hs' : sortByKeyDesc Voteline.qty (A ++ v :: B) = (X ++ R1) ++ v :: Y := by rw [hs]; simp
  rw [hs'] at h1 h2 h3
  symm
  apply stableSorted_unique
  have hR1' : R1.filter (fun u => decide (u.qty = v.qty)) = [] := by
    rw [List.filter_eq_nil_iff]; exact fun u hu => hR1 u hu
  refine ⟨?_, ?_, ?_⟩
  · have e1 : ((X ++ R1) ++ v :: Y).Perm (v :: ((X ++ R1) ++ Y)) := List.perm_middle
    have e2 : (A ++ v :: B).Perm (v :: (A ++ B)) := List.perm_middle
    exact (List.perm_cons v).1 (e1.symm.trans (h1.trans e2))
  · rw [List.pairwise_append] at h2 ⊢
    obtain ⟨p1, p2, p3⟩ := h2
    exact ⟨p1, (List.pairwise_cons.1 p2).2, fun x hx y hy => p3 x hx y (List.mem_cons_of_mem _ hy)⟩
  · intro q
    by_cases e : v.qty = q
    · subst e
      simp only [List.filter_append] at hX hY hR1' ⊢
      rw [hX, hR1', hY]
      simp
    · have := h3 q
      simp only [List.filter_append, List.filter_cons, decide_eq_true_eq, if_neg e] at this ⊢
      exact this

/-- C119, texts: a line with nothing after the colon, put in at any line start of any text that is read, gives the same election with that many more
blank ballots. -/
theorem C119_text (cw ar : Bool) (a b line q p : Str) (ha : a = [] ∨ ∃ a', a = a' ++ ['\n']) (hbreak : ∀ c ∈ line, isLineBreak c = false)
    (hline : readVote (beforeHash (if cw then lstrip line else line)) = some (q, p)) (hp : ∀ c ∈ p, isSpace c = true) (m : Jabmod)
    (h : convertAbif cw ar false (a ++ b) = .ok m) :
    ∃ m', convertAbif cw ar false (a ++ line ++ '\n' :: b) = .ok m' ∧ BlankAdded (digitsVal q) m m' := by
  obtain ⟨t1, t2⟩ := textLines_insert cw a b line ha hbreak
  have hcand : readCand (beforeHash (if cw then lstrip line else line)) = none := by
    obtain ⟨c, t, e, hd⟩ := readVote_head hline
    rw [e]
    exact readCand_head_none (fun hc => by rw [hc, isDigit_eq] at hd; cases hd)
  have hpp := parsePrefstr_blank hp
  have hvote : Spec.lineVote (if cw then lstrip line else line) = some (q, p, hashComment (if cw then lstrip line else line)) := by
    unfold Spec.lineVote; rw [hline]; rfl
  have hment : lineMentions (if cw then lstrip line else line) = [] := by
    unfold lineMentions; rw [hcand, hline]
    simp only [ballotCands, hpp]
    rfl
  generalize hV : (q, p, hashComment (if cw then lstrip line else line)) = V at hvote
  obtain ⟨VA, VB, w1, w2⟩ : ∃ VA VB, votesOf cw (a ++ b) = VA ++ VB ∧ votesOf cw (a ++ line ++ '\n' :: b) = VA ++ V :: VB := by
    refine ⟨(textLines cw a).filterMap Spec.lineVote, (textLines cw b).filterMap Spec.lineVote, ?_, ?_⟩
    · unfold votesOf; rw [t2, List.filterMap_append]
    · unfold votesOf; rw [t1, List.filterMap_append, List.filterMap_cons, hvote]
  have base : ∀ m : Jabmod, convertAbif cw false false (a ++ b) = .ok m →
      ∃ m', convertAbif cw false false (a ++ line ++ '\n' :: b) = .ok m' ∧ BlankAdded (digitsVal q) m m' := by
    intro m h
    obtain ⟨m', hm'⟩ : ∃ m', convertAbif cw false false (a ++ line ++ '\n' :: b) = .ok m' := by
      rw [C09_accepted]
      obtain ⟨k1, k2⟩ := (C09_accepted cw false (a ++ b)).1 ⟨m, h⟩
      refine ⟨by rw [w2]; simp, fun v hv => ?_⟩
      rw [w2, List.mem_append, List.mem_cons] at hv
      rw [w1] at k2
      rcases hv with hv | rfl | hv
      · exact k2 v (by simp [hv])
      · exact ⟨_, by rw [← hV]; exact hpp⟩
      · exact k2 v (by simp [hv])
    obtain ⟨v, f1, _, f2, f3, f4, f5, _⟩ := convertAbif_ok h
    obtain ⟨v', g1, _, g2, g3, g4, g5, _⟩ := convertAbif_ok hm'
    rw [w1] at f1
    rw [w2] at g1
    obtain ⟨A, B, rfl, hA, hB⟩ := forall₂_split_left f1
    obtain ⟨A', R, rfl, hA', hR⟩ := forall₂_split_left g1
    cases hR with
    | @cons _ w _ B' hw hB' =>
      have := says_unique hA hA'; subst this
      have := says_unique hB hB'; subst this
      obtain ⟨k1, ⟨cs, k2⟩, _⟩ := hw
      rw [← hV] at k1 k2
      simp only at k1 k2
      rw [hpp] at k2
      have hwp : w.prefs = [] := (Prod.mk.inj (Except.ok.inj k2)).1.symm
      obtain ⟨X, Y, s1, s2⟩ := sorted_insert A B w
      have hkeys : Dict.keys m'.candidates = Dict.keys m.candidates := by
        rw [g3, f3, t1, t2, List.flatMap_append, List.flatMap_append, List.flatMap_cons, hment, List.nil_append]
      have hdec : ∀ c, declared (textLines cw (a ++ line ++ '\n' :: b)) c = declared (textLines cw (a ++ b)) c := by
        intro c
        unfold declared
        rw [t1, t2, List.filterMap_append, List.filterMap_append, List.filterMap_cons, hcand]
      refine ⟨m', hm', ⟨?_, ⟨X, Y, w, by rw [f2, s1], by rw [g2, s2], hwp, k1⟩, _, f5, ?_⟩⟩
      · apply Dict.ext_of_wf
        · unfold Dict.WF; rw [g3]; exact nodup_firsts _
        · unfold Dict.WF; rw [f3]; exact nodup_firsts _
        · exact hkeys
        · intro c
          by_cases hc : c ∈ Dict.keys m.candidates
          · rw [g4 c (hkeys ▸ hc), f4 c hc, hdec]
          · rw [Dict.get?_eq_none.2 hc, Dict.get?_eq_none.2 (hkeys ▸ hc)]
      · rw [g5]
        simp only [List.map_append, List.map_cons, List.sum_append, List.sum_cons, k1]
        congr 2
        omega
  cases ar with
  | false => exact base m h
  | true =>
    rw [convertAbif_rated] at h
    obtain ⟨m0, h0, h⟩ := bind_ok.1 h
    cases h
    obtain ⟨m1, h1, c1, ⟨X, Y, w, l1, l2, l3, l4⟩, n, n1, n2⟩ := base m0 h0
    rw [convertAbif_rated, h1, ok_bind]
    have hh : hasAnyRating m1 = hasAnyRating m0 := by
      unfold hasAnyRating
      rw [l1, l2]
      simp [l3]
    refine ⟨_, rfl, ⟨c1, ⟨X.map (ratedLine (hasAnyRating m0) m0.candidates.length), Y.map (ratedLine (hasAnyRating m0) m0.candidates.length),
      ratedLine (hasAnyRating m0) m0.candidates.length w, ?_, ?_, ?_, l4⟩, n, ?_, ?_⟩⟩
    · simp only [l1, List.map_append]
    · simp only [l2, hh, c1, List.map_append, List.map_cons]
    · simp [ratedLine, l3]
    · simp only
      split
      · rw [Dict.get?_set_ne _ _ (by decide)]; exact n1
      · exact n1
    · simp only
      split
      · rw [Dict.get?_set_ne _ _ (by decide)]; exact n2
      · exact n2

end Verif.Props

namespace Verif.Props
open Verif Spec
section
attribute [local instance] Uni.ascii
set_option maxRecDepth 40000

/-- `C119_text` applies: a blank ballot line with blanks and a comment -/
example : ∃ m, convertAbif true false false (c!"3:A>B\n" ++ c!"2:B>C\n") = .ok m ∧
    readVote (beforeHash (if true then lstrip c!"  4:  # nobody" else c!"  4:  # nobody")) = some (c!"4", c!"  ") ∧ digitsVal c!"4" = 4 :=
  ⟨_, readText_eq (t := c!"3:A>B\n" ++ c!"2:B>C\n") (by decide +kernel), (by decide +kernel), (by decide +kernel)⟩

def overText : Str := c!"3:A=B>C\n3:A=B>C\n2:A\n"
def overBlankText : Str := c!"3:A=B>C\n3:\n3:A=B>C\n2:A\n"

/-- Of two texts the second, the first with three blank ballots added between two lines with ties, is that election with blank ballots -/
theorem overBlank_added : ∃ m m', convertAbif true false false overText = .ok m ∧ convertAbif true false false overBlankText = .ok m' ∧
    m = readText overText ∧ m' = readText overBlankText ∧ BlankAdded 3 m m' := by
  have e1 := readText_eq (t := overText) (by decide +kernel)
  obtain ⟨m', h1, h2⟩ := C119_text true false c!"3:A=B>C\n" c!"3:A=B>C\n2:A\n" c!"3:" c!"3" [] (.inr ⟨c!"3:A=B>C", rfl⟩) (by decide +kernel)
    (by decide +kernel) (by simp) _ e1
  have e2 := readText_eq (t := overBlankText) (by decide +kernel)
  have h3 : convertAbif true false false overBlankText = .ok m' := h1
  have h4 : m' = readText overBlankText := by rw [h3] at e2; exact Except.ok.inj e2
  refine ⟨_, m', e1, h3, rfl, h4, ?_⟩
  have h5 : ((digitsVal c!"3" : Nat) : Int) = 3 := by decide +kernel
  rw [h5] at h2
  exact h2

/-- That no ballot has ties, or that the blank line is the last, is needed in `C119_irv`: three blank ballots between two lines with a tie at the top
change the winner of the instant runoff from `C` to `A` (the second of two adjacent such lines is not discarded, `C29_refuted`). -/
theorem C119_irv_refuted : ∃ m m' d d', convertAbif true false false overText = .ok m ∧ convertAbif true false false overBlankText = .ok m' ∧
    BlankAdded 3 m m' ∧ irvDict Sched.std m = .ok d ∧ irvDict Sched.std m' = .ok d' ∧ d.run.winner = [c!"C"] ∧ d'.run.winner = [c!"A"] := by
  obtain ⟨m, m', h1, h2, h3, h4, h5⟩ := overBlank_added
  obtain ⟨n, d, k1, k2, k3⟩ := counts_exists (S := Sched.std) (text := overText) (P := fun _ d => d.run.winner == [c!"C"]) (by decide +kernel)
  obtain ⟨n', d', l1, l2, l3⟩ := counts_exists (S := Sched.std) (text := overBlankText) (P := fun _ d => d.run.winner == [c!"A"]) (by decide +kernel)
  rw [h1] at k1; cases k1
  rw [h2] at l1; cases l1
  exact ⟨m, m', d, d', h1, h2, h5, k2, l2, by simpa using k3, by simpa using l3⟩

def stripedText : Str := c!"3:A/5>B/2>C/0\n2:C/4>B/1>A/0\n"

/-- `C119_pairwise`, `C119_scores`, `C119_star` and `C119_irv` apply -/
example : ∃ m m' d, convertAbif true false false stripedText = .ok m ∧ convertAbif true false false (stripedText ++ c!"2:\n") = .ok m' ∧ BlankAdded 2 m m' ∧
    Countable m ∧ RanksBelowInfinity m ∧ Strict m.votelines ∧ irvDict Sched.std m = .ok d := by
  have e1 := readText_eq (t := stripedText) (by decide +kernel)
  obtain ⟨m', h1, h2⟩ := C119_text true false stripedText [] c!"2:" c!"2" [] (.inr ⟨c!"3:A/5>B/2>C/0\n2:C/4>B/1>A/0", rfl⟩) (by decide +kernel)
    (by decide +kernel) (by simp) _ (by rw [List.append_nil]; exact e1)
  have h5 : ((digitsVal c!"2" : Nat) : Int) = 2 := by decide +kernel
  rw [h5] at h2
  obtain ⟨n', d, l1, l2, l3⟩ := counts_exists (S := Sched.std) (text := stripedText) (P := fun _ d => true) (by decide +kernel)
  rw [e1] at l1; cases l1
  exact ⟨_, m', d, e1, (by simpa using h1), h2, parsed_countable _ _ _ _ _ e1, parsed_below _ _ _ _ _ e1 (by decide +kernel), (by decide +kernel), l2⟩
end
end Verif.Props
