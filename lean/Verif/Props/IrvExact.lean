/-
C30, C34: what the count does with tied ballots, for every election (no assumption on overvotes or tokens).
-/
import Verif.Props.Irv
import Verif.Lib.IrvExact

set_option linter.unusedSimpArgs false
set_option linter.unusedSectionVars false

namespace Verif.Props
open Verif Spec

theorem kept_overvotes : ∀ (b : Bool) (vls : List Voteline), qtot (thrownFrom b vls) + qtySum overvoted (keptFrom b vls) = qtySum overvoted vls
  | _, [] => rfl
  | b, v :: rest => by
    unfold thrownFrom keptFrom
    rw [qtySum_cons]
    cases hv : overvoted v
    · simp only [Bool.false_eq_true, if_false]
      rw [qtySum_cons, hv, ← kept_overvotes false rest]
      simp
    · simp only [if_true]
      cases b
      · simp only [Bool.false_eq_true, if_false]
        rw [qtot_cons, ← kept_overvotes true rest]; omega
      · simp only [if_true]
        rw [qtySum_cons, hv, ← kept_overvotes false rest]
        simp; omega

/-- C30, exactly: in every round of every count, the lines that stay are those not thrown out (`keptLines`), a
candidate's count is the quantity of the lines that stay in which it is the first candidate alone at its rank, and the
exhausted ballots are the lines that stay in which nobody is.  (A candidate with the empty token gets nothing.) -/
theorem C30_exact (S : Sched) (m : Jabmod) (d : IrvDict) (hc : Countable m) (hb : RanksBelowInfinity m) (hd : irvDict S m = .ok d) :
    ∀ (k : Nat) (rm : RoundMeta) (cnt : Dict Str Int) (E : List Voteline), d.run.roundmeta[k]? = some rm → d.run.rounds[k]? = some cnt →
      (enteringAsIs (d.run.roundmeta.map RoundMeta.startingCands) m.votelines)[k]? = some E →
      (∀ c ∈ rm.startingCands, Dict.get? cnt c = some (if c = [] then 0 else qtySum (firstAlone c) (keptLines E))) ∧
      rm.exhaustedqty = qtySum nobodyAlone (keptLines E) ∧ rm.startingqty = (E.map Voteline.qty).sum := by
  intro k rm cnt E h1 h2 h3
  obtain ⟨e1, _, e3, e4⟩ := run_exact (irvDict_steps hd) hc.state (irvDict_nonempty hc hd) (good_of hc hb) k rm cnt E h1 h2 h3
  refine ⟨?_, e3, e4⟩
  intro c hcc
  rw [e1 c hcc]
  by_cases h : c = []
  · simp [h, qtySum]
  · simp [h]

/-- C34, exactly: the overvotes reported in a round are the quantity of the first, third, fifth, ... line of each run of
adjacent overvoted lines; it falls short of all overvotes by the overvoted lines that stay. -/
theorem C34_exact (S : Sched) (m : Jabmod) (d : IrvDict) (hc : Countable m) (hb : RanksBelowInfinity m) (hd : irvDict S m = .ok d) :
    ∀ (k : Nat) (rm : RoundMeta) (E : List Voteline), d.run.roundmeta[k]? = some rm →
      (enteringAsIs (d.run.roundmeta.map RoundMeta.startingCands) m.votelines)[k]? = some E →
      rm.overvoteqty = ((thrownLines E).map Voteline.qty).sum ∧
      rm.overvoteqty = qtySum overvoted E - qtySum overvoted (keptLines E) := by
  intro k rm E h1 h3
  obtain ⟨cnt, h2⟩ : ∃ cnt, d.run.rounds[k]? = some cnt := by
    have hl := (run_lengths (irvDict_steps hd) hc.state (irvDict_nonempty hc hd)).1
    have hk := (List.getElem?_eq_some_iff.1 h1).1
    exact ⟨_, List.getElem?_eq_getElem (by omega)⟩
  obtain ⟨_, e2, _, _⟩ := run_exact (irvDict_steps hd) hc.state (irvDict_nonempty hc hd) (good_of hc hb) k rm cnt E h1 h2 h3
  refine ⟨e2, ?_⟩
  have := kept_overvotes false E
  rw [← thrownLines_eq, ← keptLines_eq] at this
  rw [e2]; omega

/-- C34 end to end, for a text: the first round. -/
theorem C34_text [U : Uni] (S : Sched) (cw ar sc : Bool) (text : Str) (m : Jabmod) (d : IrvDict)
    (h : convertAbif cw ar sc text = .ok m) (hlen : text.length < 4999999998) (hd : irvDict S m = .ok d) (rm : RoundMeta)
    (hr : d.run.roundmeta[0]? = some rm) : rm.overvoteqty = ((thrownLines m.votelines).map Voteline.qty).sum := by
  have hc := parsed_countable cw ar sc text m h
  obtain ⟨rm', g1, _, g2, _⟩ := run_head (irvDict_steps hd) hc.state (irvDict_nonempty hc hd)
  have e : rm' = rm := by
    rw [g1] at hr
    cases hr; rfl
  subst e
  refine (C34_exact S m d hc (parsed_below cw ar sc text m h hlen) hd 0 rm' m.votelines hr ?_).1
  cases hl : d.run.roundmeta with
  | nil => rw [hl] at hr; cases hr
  | cons x t =>
    have hx : x = rm' := by rw [hl] at hr; simpa using hr
    subst hx
    simp only [List.map_cons, enteringAsIs, List.getElem?_cons_zero, g2]
    rw [restrict_self]
    exact hc.known

section Examples
attribute [local instance] Uni.ascii
set_option maxRecDepth 20000

/-- three overvoted lines in a row: the first and third are thrown out, the second goes to the candidate below the tie -/
example : counts Sched.std c!"4:A=B>C\n3:A=B>C\n2:A=C>B\n1:C\n" (fun m d =>
    d.run.roundmeta.map RoundMeta.overvoteqty == [6] && d.run.rounds.map (fun c => Dict.get? c c!"C") == [some 4] &&
    (keptLines m.votelines).map Voteline.qty == [3, 1] && m.votelines.map (firstAlone c!"C") == [true, true, false, true]) = true := by
  decide +kernel

end Examples

end Verif.Props
