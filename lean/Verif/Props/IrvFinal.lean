import Verif.Props.Irv

/-!
C37, the last round of an IRV count: what `all_eliminated` lists there.  The round is first treated as if there
were to be another one — somebody is chosen for elimination — and only then is the winner declared.
-/

namespace Verif.Props
open Verif Verif.Spec

variable [U : Uni]

/-- `c` has the smallest count of the round -/
def IsLowest (cnt : Dict Str Int) (c : Str) : Prop :=
  ∃ v, Dict.get? cnt c = some v ∧ ∀ c' v', Dict.get? cnt c' = some v' → v ≤ v'

/-- what the last round of a run adds to `all_eliminated`, given what the round before it listed -/
theorem run_finalElim {S : Sched} {prev : Option RoundMeta} {rn : Nat} {cands : List Str} {vls : List Voteline} {run : IrvRun}
    (h : Steps S prev rn cands vls run) (hs : IrvState cands vls) (hne : cands ≠ []) :
    ∀ (k : Nat) (rm : RoundMeta) (cnt : Dict Str Int), run.roundmeta[k]? = some rm → run.rounds[k]? = some cnt →
      run.roundmeta[k + 1]? = none →
      ∃ chosen : List Str, chosen ≠ [] ∧ (∀ c ∈ chosen, IsLowest cnt c) ∧
        (rm.randomElim = false → ∀ c, IsLowest cnt c → c ∈ chosen) ∧
        (rm.randomElim = true → ∃ u, chosen = [u]) ∧
        ∀ c, (c ∈ rm.allEliminated ↔ (∃ p, (k = 0 ∧ prev = some p ∨ ∃ j, k = j + 1 ∧ run.roundmeta[j]? = some p) ∧ c ∈ p.allEliminated) ∨
          c ∈ chosen ∧ (k = 0 → prev = none → rm.batchElim = false)) := by
  refine steps_induction (S := S) (P := fun prev _ _ _ run =>
    ∀ (k : Nat) (rm : RoundMeta) (cnt : Dict Str Int), run.roundmeta[k]? = some rm → run.rounds[k]? = some cnt →
      run.roundmeta[k + 1]? = none →
      ∃ chosen : List Str, chosen ≠ [] ∧ (∀ c ∈ chosen, IsLowest cnt c) ∧
        (rm.randomElim = false → ∀ c, IsLowest cnt c → c ∈ chosen) ∧
        (rm.randomElim = true → ∃ u, chosen = [u]) ∧
        ∀ c, (c ∈ rm.allEliminated ↔ (∃ p, (k = 0 ∧ prev = some p ∨ ∃ j, k = j + 1 ∧ run.roundmeta[j]? = some p) ∧ c ∈ p.allEliminated) ∨
          c ∈ chosen ∧ (k = 0 → prev = none → rm.batchElim = false))) ?_ ?_ h hs hne
  · intro prev rn cands vls q kept mn mx hs hne k1 k2 k3 a1 a2 b1 b2 hc k rm cnt h1 h2 _
    cases k with
    | succ k => simp at h1
    | zero =>
      simp only [List.getElem?_cons_zero, Option.some.injEq] at h1 h2
      subst h1; subst h2
      have hlow : ∀ c, IsLowest (countsOf cands kept) c ↔ c ∈ cands ∧ tally kept c = mn := by
        intro c
        constructor
        · rintro ⟨v, hv, hall⟩
          rw [get?_countsOf] at hv
          split at hv
          · rename_i hcc
            cases hv
            obtain ⟨x, hx, hx1⟩ := a1
            have := hall x mn (by rw [get?_countsOf, if_pos hx, hx1])
            have := a2 c hcc
            exact ⟨hcc, by omega⟩
          · cases hv
        · rintro ⟨hcc, ht⟩
          refine ⟨mn, by rw [get?_countsOf, if_pos hcc, ht], ?_⟩
          intro c' v' hv'
          rw [get?_countsOf] at hv'
          split at hv'
          · rename_i hcc'; cases hv'; exact a2 c' hcc'
          · cases hv'
      obtain ⟨e1, e2⟩ := elimOf_spec S rn (mx := mx) a1 a2
      refine ⟨(elimOf S rn cands kept mn mx).eliminated, e1, fun c hc => (hlow c).2 (e2 c hc), ?_, ?_, ?_⟩
      · intro hr c hc
        have hcb := (mem_bottoms a2).2 ((hlow c).1 hc)
        have hr : (elimOf S rn cands kept mn mx).random = false := hr
        rcases elimOf_cases S rn cands kept mn mx with ⟨_, _, h⟩ | ⟨_, _, h⟩ | ⟨_, h⟩ <;> rw [h] at hr ⊢
        · exact hcb
        · cases hr
        · exact hcb
      · intro hr
        have hr : (elimOf S rn cands kept mn mx).random = true := hr
        rcases elimOf_cases S rn cands kept mn mx with ⟨_, _, h⟩ | ⟨_, _, h⟩ | ⟨_, h⟩ <;> rw [h] at hr ⊢
        · cases hr
        · exact ⟨_, rfl⟩
        · cases hr
      · intro c
        show c ∈ allElimOf prev (elimOf S rn cands kept mn mx) ↔ _
        rw [mem_allElim]
        constructor
        · rintro (⟨p, hp, hc⟩ | ⟨hc, hb⟩)
          · exact .inl ⟨p, .inl ⟨rfl, hp⟩, hc⟩
          · exact .inr ⟨hc, fun _ => hb⟩
        · rintro (⟨p, (⟨_, hp⟩ | ⟨j, hj, _⟩), hc⟩ | ⟨hc, hb⟩)
          · exact .inl ⟨p, hp, hc⟩
          · cases hj
          · exact .inr ⟨hc, hb rfl⟩
  · intro prev rn cands vls q kept mn mx t hs hne k1 k2 k3 a1 a2 b1 b2 hlt hle ht hst ih k rm cnt h1 h2 h3
    cases k with
    | zero =>
      have : t.roundmeta = [] := by
        simp only [Nat.zero_add, List.getElem?_cons_succ] at h3
        cases hr : t.roundmeta with
        | nil => rfl
        | cons a l => rw [hr] at h3; simp at h3
      have hne' : (S.setOrder rn (cands.filter (fun c => c ∉ (elimOf S rn cands kept mn mx).eliminated))) ≠ [] :=
        (next_nonempty a1 a2 b1 hlt).1
      obtain ⟨_, _, _, _, hm, _⟩ := run_end ht hst hne'
      rw [this] at hm
      simp at hm
    | succ k =>
      simp only [List.getElem?_cons_succ] at h1 h2 h3
      obtain ⟨chosen, c1, c2, c3, c4, c5⟩ := ih k rm cnt h1 h2 h3
      refine ⟨chosen, c1, c2, c3, c4, ?_⟩
      intro c
      rw [c5]
      constructor
      · rintro (⟨p, (⟨rfl, hp⟩ | ⟨j, rfl, hj⟩), hc⟩ | ⟨hc, hb⟩)
        · cases hp
          exact .inl ⟨_, .inr ⟨0, rfl, rfl⟩, hc⟩
        · exact .inl ⟨p, .inr ⟨j + 1, rfl, by simpa using hj⟩, hc⟩
        · exact .inr ⟨hc, fun h => by omega⟩
      · rintro (⟨p, (⟨h, _⟩ | ⟨j, hj, hp⟩), hc⟩ | ⟨hc, hb⟩)
        · omega
        · obtain rfl : k = j := by omega
          cases k with
          | zero =>
            simp only [List.getElem?_cons_zero, Option.some.injEq] at hp
            exact .inl ⟨p, .inl ⟨rfl, by rw [hp]⟩, hc⟩
          | succ k => exact .inl ⟨p, .inr ⟨k, rfl, by simpa using hp⟩, hc⟩
        · exact .inr ⟨hc, fun _ h => by cases h⟩

/-- C37 for the last round: some candidate with the smallest count of the round is chosen as if the count went on
(one of them drawn by lot under `random_elim`, all of them otherwise), and `all_eliminated` lists these together
with the candidates eliminated in earlier rounds — except, as in every round (`C37_partial`), a batch of round 1. -/
theorem C37_last (S : Sched) (m : Jabmod) (d : IrvDict) (hc : Countable m) (hd : irvDict S m = .ok d)
    (k : Nat) (rm : RoundMeta) (cnt : Dict Str Int) (h1 : d.run.roundmeta[k]? = some rm) (h2 : d.run.rounds[k]? = some cnt)
    (h3 : d.run.roundmeta[k + 1]? = none) :
    ∃ chosen : List Str, chosen ≠ [] ∧ (∀ c ∈ chosen, IsLowest cnt c) ∧
      (rm.randomElim = false → ∀ c, IsLowest cnt c → c ∈ chosen) ∧ (rm.randomElim = true → ∃ u, chosen = [u]) ∧
      ∀ c, (c ∈ rm.allEliminated ↔
        (∃ (j : Nat) (rj : RoundMeta), j < k ∧ d.run.roundmeta[j]? = some rj ∧ c ∈ rj.eliminated ∧ (j = 0 → rj.batchElim = false)) ∨
        c ∈ chosen ∧ (k = 0 → rm.batchElim = false)) := by
  have hs := irvDict_steps hd
  have hne := irvDict_nonempty hc hd
  obtain ⟨chosen, c1, c2, c3, c4, c5⟩ := run_finalElim hs hc.state hne k rm cnt h1 h2 h3
  refine ⟨chosen, c1, c2, c3, c4, ?_⟩
  intro c
  rw [c5]
  have hprev : (∃ p, (k = 0 ∧ (none : Option RoundMeta) = some p ∨ ∃ j, k = j + 1 ∧ d.run.roundmeta[j]? = some p) ∧ c ∈ p.allEliminated) ↔
      ∃ (j : Nat) (rj : RoundMeta), j < k ∧ d.run.roundmeta[j]? = some rj ∧ c ∈ rj.eliminated ∧ (j = 0 → rj.batchElim = false) := by
    constructor
    · rintro ⟨p, (⟨_, h⟩ | ⟨j, rfl, hj⟩), hcp⟩
      · cases h
      · obtain ⟨j', rj, a, b⟩ := ((C37_partial S m d hc hd).2 j p rm hj h1 c).1 hcp
        exact ⟨j', rj, by omega, b⟩
    · rintro ⟨j, rj, hj, b⟩
      cases k with
      | zero => omega
      | succ k =>
        have hk : k < d.run.roundmeta.length := by
          have := (List.getElem?_eq_some_iff.1 h1).1; omega
        exact ⟨_, .inr ⟨k, rfl, List.getElem?_eq_getElem hk⟩,
          ((C37_partial S m d hc hd).2 k _ rm (List.getElem?_eq_getElem hk) h1 c).2 ⟨j, rj, by omega, b⟩⟩
  rw [hprev]
  simp

/-- C37: the last round lists one of its own winners in `all_eliminated` exactly when all its candidates have the
same count (a lone candidate, or a tie), unless that round is also the first and treats them as a batch. -/
theorem C37_winner_iff (S : Sched) (m : Jabmod) (d : IrvDict) (hc : Countable m) (hd : irvDict S m = .ok d)
    (k : Nat) (rm : RoundMeta) (cnt : Dict Str Int) (h1 : d.run.roundmeta[k]? = some rm) (h2 : d.run.rounds[k]? = some cnt)
    (h3 : d.run.roundmeta[k + 1]? = none) :
    (∃ w ∈ d.run.winner, w ∈ rm.allEliminated) ↔
      (∀ a b va vb, Dict.get? cnt a = some va → Dict.get? cnt b = some vb → va = vb) ∧ (k = 0 → rm.batchElim = false) := by
  have hs := irvDict_steps hd
  have hne := irvDict_nonempty hc hd
  obtain ⟨chosen, c1, c2, c3, c4, c5⟩ := C37_last S m d hc hd k rm cnt h1 h2 h3
  have hlen := (run_lengths hs hc.state hne).1
  have hk : d.run.roundmeta.length = k + 1 := by
    have := (List.getElem?_eq_some_iff.1 h1).1
    have := List.getElem?_eq_none_iff.1 h3
    omega
  obtain ⟨cnt', rm', mx, e1, e2, _, e4, e5, e6, _, e8, _⟩ := run_end hs hc.state hne
  rw [List.getLast?_eq_getElem?] at e1 e2
  rw [show d.run.rounds.length - 1 = k by omega, h2] at e1
  rw [show d.run.roundmeta.length - 1 = k by omega, h1] at e2
  cases e1; cases e2
  have hwin : ∀ w, w ∈ d.run.winner ↔ Dict.get? cnt w = some mx := by
    intro w
    rw [e5, List.mem_filter, decide_eq_true_eq]
    constructor
    · exact fun h => h.2
    · exact fun h => ⟨Dict.mem_keys_of_get? h, h⟩
  constructor
  · rintro ⟨w, hw, hwe⟩
    have hw' := (hwin w).1 hw
    rcases (c5 w).1 hwe with ⟨j, rj, hj, hr, he, _⟩ | ⟨hcw, hb⟩
    · exfalso
      have := (C33_eliminations S m d hc hd).2 j k rj rm hj hr h1 w he
      rw [← e8] at this
      exact this (Dict.mem_keys_of_get? hw')
    · refine ⟨?_, hb⟩
      obtain ⟨v, hv, hlow⟩ := c2 w hcw
      rw [hw'] at hv
      cases hv
      intro a b va vb ha hb'
      have := hlow a va ha
      have := hlow b vb hb'
      have := e4 a va ha
      have := e4 b vb hb'
      omega
  · rintro ⟨hall, hb⟩
    obtain ⟨w, hw⟩ : ∃ w, w ∈ chosen := by
      cases hch : chosen with
      | nil => exact absurd hch c1
      | cons a l => exact ⟨a, by simp⟩
    obtain ⟨v, hv, _⟩ := c2 w hw
    refine ⟨w, ?_, (c5 w).2 (.inr ⟨hw, hb⟩)⟩
    rw [hwin]
    obtain ⟨x, hx⟩ : ∃ x, Dict.get? cnt x = some mx := by
      have hwn := (run_lengths hs hc.state hne).2.2.2.1
      cases hww : d.run.winner with
      | nil => exact absurd hww hwn
      | cons a l => exact ⟨a, (hwin a).1 (by rw [hww]; simp)⟩
    rw [hv, hall w x v mx hv hx]

end Verif.Props

namespace Verif.Props
open Verif Verif.Spec
attribute [local instance] Uni.ascii
set_option maxRecDepth 40000

/-- C37 fails in the last round too: the only candidate of an election wins and is listed as eliminated, and of two
tied winners one is. -/
theorem C37_winner_refuted :
    (∃ text m d, convertAbif true false false text = .ok m ∧ irvDict Sched.std m = .ok d ∧ d.run.winner = [c!"A"] ∧
      ∃ rm, d.run.roundmeta = [rm] ∧ c!"A" ∈ rm.allEliminated) ∧
    (∃ text m d, convertAbif true false false text = .ok m ∧ irvDict Sched.std m = .ok d ∧ d.run.winner = [c!"A", c!"B"] ∧
      ∃ rm rm', d.run.roundmeta = [rm, rm'] ∧ c!"A" ∉ rm.allEliminated ∧ c!"A" ∈ rm'.allEliminated ∧ c!"B" ∉ rm'.allEliminated) := by
  constructor
  · obtain ⟨m, d, h1, h2, h3⟩ := counts_exists (S := Sched.std) (text := c!"4:A\n") (P := fun _ d =>
      match d.run.roundmeta with
      | [rm] => decide (d.run.winner = [c!"A"] ∧ c!"A" ∈ rm.allEliminated)
      | _ => false) (by decide +kernel)
    refine ⟨_, m, d, h1, h2, ?_⟩
    split at h3
    · rename_i rm hr
      rw [decide_eq_true_eq] at h3
      exact ⟨h3.1, rm, hr, h3.2⟩
    · cases h3
  · obtain ⟨m, d, h1, h2, h3⟩ := counts_exists (S := Sched.std) (text := c!"4:A\n4:B\n1:C\n") (P := fun _ d =>
      match d.run.roundmeta with
      | [rm, rm'] => decide (d.run.winner = [c!"A", c!"B"] ∧ c!"A" ∉ rm.allEliminated ∧ c!"A" ∈ rm'.allEliminated ∧ c!"B" ∉ rm'.allEliminated)
      | _ => false) (by decide +kernel)
    refine ⟨_, m, d, h1, h2, ?_⟩
    split at h3
    · rename_i rm rm' hr
      rw [decide_eq_true_eq] at h3
      exact ⟨h3.1, rm, rm', hr, h3.2⟩
    · cases h3

-- a count with a majority in its second round, meeting the hypotheses of C37_last and C37_winner_iff: C is eliminated
-- in round 1, and round 2 also lists the runner-up B, but not the winner A
example : counts Sched.std c!"4:A>B\n3:B>A\n2:C>A\n" (fun m d =>
    match d.run.roundmeta with
    | [rm, rm'] => decide (d.run.winner = [c!"A"] ∧ rm.allEliminated = [c!"C"] ∧ rm'.allEliminated = [c!"C", c!"B"])
    | _ => false) = true := by decide +kernel

end Verif.Props
