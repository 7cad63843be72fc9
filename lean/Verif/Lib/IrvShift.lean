/-
Helper lemmas: two instant-runoff counts side by side that differ in the number of exhausted ballots only.
-/
import Verif.Lib.IrvSim

set_option linter.unusedSimpArgs false

namespace Verif
open Spec

/-- the metadata of a round with `k` more ballots that name nobody -/
def shiftRound (k : Int) (rm : RoundMeta) : RoundMeta :=
  { rm with startingqty := rm.startingqty + k, exhaustedqty := rm.exhaustedqty + k, ballotcount := rm.ballotcount + k,
            countedqty := rm.countedqty - k }

def shiftRun (k : Int) (run : IrvRun) : IrvRun := { run with roundmeta := run.roundmeta.map (shiftRound k) }

theorem irvCount_shift (S : Sched) (k : Int) (R : List Voteline → List Voteline → Prop)
    (hR : ∀ vls vls', R vls vls' → ∃ q kept kept', discardOvervotes vls = .ok (q, kept) ∧ discardOvervotes vls' = .ok (q, kept') ∧
      (∀ c, tally kept' c = tally kept c) ∧ exhaustedQty kept' = exhaustedQty kept + k ∧ qtot vls' = qtot vls + k ∧
      qtot kept' = qtot kept + k ∧ ∀ el, R (eliminateCands el kept) (eliminateCands el kept')) :
    ∀ (n : Nat) (prev prev' : Option RoundMeta) (_ : prev'.map RoundMeta.allEliminated = prev.map RoundMeta.allEliminated) (rn : Nat)
      (cands : List Str) (vls vls' : List Voteline), IrvState cands vls →
      IrvState cands vls' → cands ≠ [] → R vls vls' →
      irvCount S n prev' rn cands vls' = (irvCount S n prev rn cands vls).map (shiftRun k)
  | 0, _, _, _, _, _, _, _, _, _, _, _ => rfl
  | n + 1, prev, prev', hprev, rn, cands, vls, vls', hs, hs', hne, hrel => by
    obtain ⟨q, kept, mn, mx, k1, k2, k3, a1, a2, b1, b2, h⟩ := irvRound_eq S prev rn hs hne
    obtain ⟨q', kept', mn', mx', k1', k2', k3', a1', a2', b1', b2', h'⟩ := irvRound_eq S prev' rn hs' hne
    obtain ⟨q0, kept0, kept0', e1, e2, ht0, hex, hq, hqk, hnext⟩ := hR _ _ hrel
    have i1 := k1.symm.trans e1
    have i2 := k1'.symm.trans e2
    injection i1 with i1; injection i2 with i2
    injection i1 with i1 j1; injection i2 with i2 j2
    subst i1; subst i2; subst j1; subst j2
    have ht : tally kept' = tally kept := funext ht0
    have hmn : mn' = mn := by
      obtain ⟨x, hx, rfl⟩ := a1; obtain ⟨y, hy, rfl⟩ := a1'
      have h1 := a2 y hy; have h2 := a2' x hx
      rw [ht] at h2 ⊢; omega
    have hmx : mx' = mx := by
      obtain ⟨x, hx, rfl⟩ := b1; obtain ⟨y, hy, rfl⟩ := b1'
      have h1 := b2 y hy; have h2 := b2' x hx
      rw [ht] at h2 ⊢; omega
    subst hmn; subst hmx
    have hc : countsOf cands kept' = countsOf cands kept := by unfold countsOf; rw [ht]
    have htot : totalOf cands kept' = totalOf cands kept := by unfold totalOf; rw [ht]
    have hel : elimOf S rn cands kept' mn' mx' = elimOf S rn cands kept mn' mx' := by unfold elimOf; rw [hc, ht]
    have hall : ∀ el, allElimOf prev' el = allElimOf prev el := by
      intro el
      unfold allElimOf
      cases prev with
      | none =>
        cases prev' with
        | none => rfl
        | some p => simp at hprev
      | some p =>
        cases prev' with
        | none => simp at hprev
        | some p' =>
          simp only [Option.map_some, Option.some.injEq] at hprev
          simp only [hprev]
    have hinfo : infoOf S prev' rn cands vls' q' kept' mn' mx' = shiftRound k (infoOf S prev rn cands vls q' kept mn' mx') := by
      unfold infoOf shiftRound
      simp only [hq, hqk, hex, htot, ht, hel, hall]
      congr 1
      omega
    have hld : leaders cands kept' mx' = leaders cands kept mx' := by unfold leaders; rw [ht]
    unfold irvCount
    rcases h with ⟨x, h⟩ | ⟨x, h⟩ <;> rcases h' with ⟨x', h'⟩ | ⟨x', h'⟩
    · rw [h, h', hc, hinfo, hld]
      rfl
    · rw [htot] at x'; omega
    · rw [htot] at x'; omega
    · rw [h, h', hc, hinfo, hel, ok_bind, ok_bind]
      simp only
      have hnn := (next_nonempty (S := S) (rn := rn) a1 a2 b1 x.1).1
      rw [irvCount_shift S k R hR n (some (infoOf S prev rn cands vls q' kept mn' mx'))
        (some (shiftRound k (infoOf S prev rn cands vls q' kept mn' mx'))) rfl _ _ _ _ (next_state (S := S) (rn := rn) hs k2 _)
        (next_state (S := S) (rn := rn) hs' k2' _) hnn (hnext _)]
      cases irvCount S n (some (infoOf S prev rn cands vls q' kept mn' mx')) (rn + 1)
        (S.setOrder rn (List.filter (fun c => decide (c ∉ (elimOf S rn cands kept mn' mx').eliminated)) cands))
        (eliminateCands (elimOf S rn cands kept mn' mx').eliminated kept) <;> rfl

/-- a blank line is looked at and left where it is -/
theorem discard_snoc_blank {v : Voteline} (hv : v.prefs = []) : ∀ (vls : List Voteline),
    discardOvervotes (vls ++ [v]) = (discardOvervotes vls).map (fun p => (p.1, p.2 ++ [v]))
  | [] => by
    show discardOvervotes [v] = _
    unfold discardOvervotes
    rw [hv]
    rfl
  | [u] => by
    show discardOvervotes [u, v] = _
    unfold discardOvervotes
    cases isOvervote u.prefs with
    | error e => rfl
    | ok b =>
      cases b
      · rw [ok_bind, ok_bind, if_neg (by simp), if_neg (by simp)]
        have := discard_snoc_blank hv []
        rw [List.nil_append] at this
        rw [this]
        rfl
      · rw [ok_bind, ok_bind, if_pos rfl, if_pos rfl]
        simp only [show discardOvervotes [] = .ok (0, []) from rfl, ok_bind]
        simp [Except.map]
  | u :: w :: rest => by
    show discardOvervotes (u :: w :: (rest ++ [v])) = _
    unfold discardOvervotes
    cases isOvervote u.prefs with
    | error e => rfl
    | ok b =>
      cases b
      · rw [ok_bind, ok_bind, if_neg (by simp), if_neg (by simp)]
        have := discard_snoc_blank hv (w :: rest)
        rw [List.cons_append] at this
        rw [this]
        cases discardOvervotes (w :: rest) <;> rfl
      · rw [ok_bind, ok_bind, if_pos rfl, if_pos rfl]
        simp only
        rw [discard_snoc_blank hv rest]
        cases discardOvervotes rest <;> rfl

end Verif
