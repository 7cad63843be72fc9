/-
C21, C22 and C29: exactly when the reported numbers are the right ones.
-/
import Verif.Props.Tally
import Verif.Props.Irv

set_option linter.unusedSimpArgs false
set_option linter.unusedSectionVars false

namespace Verif.Props
open Verif Spec

theorem countOpp_eq_zero (ks : List Str) (c : Str) (p : Str → Bool) : countOpp ks c p = 0 ↔ ∀ b ∈ ks, b ≠ c → p b = false := by
  unfold countOpp
  constructor
  · intro h b hb hbc
    have h0 : ks.filter (fun b => decide (b ≠ c) && p b) = [] := by
      rw [← List.length_eq_zero_iff]; omega
    have := List.filter_eq_nil_iff.1 h0 b hb
    simpa [hbc] using this
  · intro h
    have h0 : ks.filter (fun b => decide (b ≠ c) && p b) = [] := by
      refine List.filter_eq_nil_iff.2 (fun b hb => ?_)
      by_cases hbc : b = c
      · simp [hbc]
      · simp [hbc, h b hb hbc]
    rw [h0]; rfl

theorem countOpp_nonneg (ks : List Str) (c : Str) (p : Str → Bool) : 0 ≤ countOpp ks c p := by
  unfold countOpp; omega

/-- C21, exactly when it holds: a candidate's record adds up to the number of its opponents if and only if it ties with none of
them. -/
theorem C21_exact (m : Jabmod) (hn : m.candidates.keys.Nodup) (c : Str) (hc : c ∈ m.candidates.keys) :
    ∃ cc w, fullCopecount m = .ok cc ∧ cc.winlosstie.get? c = some w ∧
      (w.wins + w.losses + w.ties = (m.candidates.keys.length : Int) - 1 ↔
        ∀ b ∈ m.candidates.keys, b ≠ c → cellNum cc.winningvotes c b ≠ cellNum cc.winningvotes b c) := by
  obtain ⟨cc, h1, _, _, _, h5, _⟩ := C21_partial m hn
  obtain ⟨w, g1, _, _, g4, g5⟩ := h5 c hc
  refine ⟨cc, w, h1, g1, ?_⟩
  have hz := countOpp_eq_zero m.candidates.keys c (fun b => decide (cellNum cc.winningvotes c b = cellNum cc.winningvotes b c))
  have hl : 1 ≤ m.candidates.keys.length := List.length_pos_of_mem hc
  constructor
  · intro h b hb hbc he
    have : countOpp m.candidates.keys c (fun b => decide (cellNum cc.winningvotes c b = cellNum cc.winningvotes b c)) = 0 := by omega
    have := hz.1 this b hb hbc
    simp [he] at this
  · intro h
    have := hz.2 (fun b hb hbc => by simpa using h b hb hbc)
    omega

/-- C22, exactly when it holds: a candidate's Copeland score (doubled) is twice its wins plus its ties if and only if it ties with no
opponent; otherwise it is too high, by half a win for each of them. -/
theorem C22_exact (m : Jabmod) (hn : m.candidates.keys.Nodup) (c : Str) (s : Int) (cc : Copecount)
    (hcc : fullCopecount m = .ok cc) (hs : (c, s) ∈ copelandScores2 cc.winlosstie) :
    (s = 2 * countOpp m.candidates.keys c (fun b => decide (cellNum cc.winningvotes c b > cellNum cc.winningvotes b c)) +
          countOpp m.candidates.keys c (fun b => decide (cellNum cc.winningvotes c b = cellNum cc.winningvotes b c)) ↔
        ∀ b ∈ m.candidates.keys, b ≠ c → cellNum cc.winningvotes c b ≠ cellNum cc.winningvotes b c) ∧
    s - (2 * countOpp m.candidates.keys c (fun b => decide (cellNum cc.winningvotes c b > cellNum cc.winningvotes b c)) +
          countOpp m.candidates.keys c (fun b => decide (cellNum cc.winningvotes c b = cellNum cc.winningvotes b c))) =
      countOpp m.candidates.keys c (fun b => decide (cellNum cc.winningvotes c b = cellNum cc.winningvotes b c)) := by
  obtain ⟨cc', h1, _, _, h4⟩ := C22_partial m hn
  rw [h1] at hcc
  have := Except.ok.inj hcc
  subst this
  have he := h4 c s hs
  have hz := countOpp_eq_zero m.candidates.keys c (fun b => decide (cellNum cc'.winningvotes c b = cellNum cc'.winningvotes b c))
  refine ⟨⟨?_, ?_⟩, by omega⟩
  · intro h b hb hbc hq
    have : countOpp m.candidates.keys c (fun b => decide (cellNum cc'.winningvotes c b = cellNum cc'.winningvotes b c)) = 0 := by omega
    have := hz.1 this b hb hbc
    simp [hq] at this
  · intro h
    have := hz.2 (fun b hb hbc => by simpa using h b hb hbc)
    omega

/-- C29, exactly when its last clause holds: the reported `countedqty` of a round is the quantity credited if and only if no ballot
is exhausted in that round. -/
theorem C29_exact (S : Sched) (m : Jabmod) (d : IrvDict) (hc : Countable m) (hd : irvDict S m = .ok d) (k : Nat) (rm : RoundMeta)
    (cnt : Dict Str Int) (h1 : d.run.roundmeta[k]? = some rm) (h2 : d.run.rounds[k]? = some cnt) :
    rm.countedqty = (cnt.map Prod.snd).sum ↔ rm.exhaustedqty = 0 := by
  obtain ⟨_, _, h, _⟩ := (C29_partial S m d hc hd).2 k rm cnt h1 h2
  constructor <;> intro g <;> omega

section
attribute [local instance] Uni.ascii
set_option maxRecDepth 20000

/-- non-vacuity: with `3:A>B>C`, `1:C` nobody ties; with `1:A>B`, `1:B>A` they do -/
example : ∃ m cc w, convertAbif true false false c!"3:A>B>C\n1:C\n" = .ok m ∧ fullCopecount m = .ok cc ∧
    cc.winlosstie.get? c!"A" = some w ∧ w.wins + w.losses + w.ties = (m.candidates.keys.length : Int) - 1 :=
  ⟨_, _, _, rfl, rfl, rfl, by decide +kernel⟩

end

end Verif.Props
