/-
Helper lemmas: two runs in lockstep (determinism), permuted votelines, batch elimination.
-/
import Verif.Lib.IrvElim
import Mathlib.Data.List.Forall2

set_option linter.unusedSimpArgs false
set_option linter.unusedSectionVars false

namespace Verif
open Spec

/-- the shape of a run from a good state -/
theorem steps_cases {S : Sched} {prev : Option RoundMeta} {rn : Nat} {cands : List Str} {vls : List Voteline} {run : IrvRun}
    (h : Steps S prev rn cands vls run) (hs : IrvState cands vls) (hne : cands ≠ []) :
    ∃ q kept mn mx, discardOvervotes vls = .ok (q, kept) ∧ kept.Sublist vls ∧
      (∃ c ∈ cands, tally kept c = mn) ∧ (∀ c ∈ cands, mn ≤ tally kept c) ∧
      (∃ c ∈ cands, tally kept c = mx) ∧ (∀ c ∈ cands, tally kept c ≤ mx) ∧
      ((mn = mx ∨ 2 * mx > totalOf cands kept) ∧ run = {
        winner := leaders cands kept mx
        rounds := [countsOf cands kept]
        roundmeta := [{ infoOf S prev rn cands vls q kept mn mx with
                          winner := some (leaders cands kept mx)
                          eliminated := cands.filter (fun c => c ∉ leaders cands kept mx) }] } ∨
       (mn < mx ∧ 2 * mx ≤ totalOf cands kept) ∧ ∃ t,
        Steps S (some (infoOf S prev rn cands vls q kept mn mx)) (rn + 1)
          (S.setOrder rn (cands.filter (fun c => c ∉ (elimOf S rn cands kept mn mx).eliminated)))
          (eliminateCands (elimOf S rn cands kept mn mx).eliminated kept) t ∧
        IrvState (S.setOrder rn (cands.filter (fun c => c ∉ (elimOf S rn cands kept mn mx).eliminated)))
          (eliminateCands (elimOf S rn cands kept mn mx).eliminated kept) ∧
        run = {
          winner := t.winner
          rounds := countsOf cands kept :: t.rounds
          roundmeta := infoOf S prev rn cands vls q kept mn mx :: t.roundmeta }) := by
  refine steps_induction (S := S) (P := fun prev rn cands vls run => ∃ q kept mn mx, discardOvervotes vls = .ok (q, kept) ∧ kept.Sublist vls ∧
      (∃ c ∈ cands, tally kept c = mn) ∧ (∀ c ∈ cands, mn ≤ tally kept c) ∧
      (∃ c ∈ cands, tally kept c = mx) ∧ (∀ c ∈ cands, tally kept c ≤ mx) ∧
      ((mn = mx ∨ 2 * mx > totalOf cands kept) ∧ run = {
        winner := leaders cands kept mx
        rounds := [countsOf cands kept]
        roundmeta := [{ infoOf S prev rn cands vls q kept mn mx with
                          winner := some (leaders cands kept mx)
                          eliminated := cands.filter (fun c => c ∉ leaders cands kept mx) }] } ∨
       (mn < mx ∧ 2 * mx ≤ totalOf cands kept) ∧ ∃ t,
        Steps S (some (infoOf S prev rn cands vls q kept mn mx)) (rn + 1)
          (S.setOrder rn (cands.filter (fun c => c ∉ (elimOf S rn cands kept mn mx).eliminated)))
          (eliminateCands (elimOf S rn cands kept mn mx).eliminated kept) t ∧
        IrvState (S.setOrder rn (cands.filter (fun c => c ∉ (elimOf S rn cands kept mn mx).eliminated)))
          (eliminateCands (elimOf S rn cands kept mn mx).eliminated kept) ∧
        run = {
          winner := t.winner
          rounds := countsOf cands kept :: t.rounds
          roundmeta := infoOf S prev rn cands vls q kept mn mx :: t.roundmeta })) ?_ ?_ h hs hne
  · intro prev rn cands vls q kept mn mx hs hne k1 k2 k3 a1 a2 b1 b2 hc
    exact ⟨q, kept, mn, mx, k1, k2, a1, a2, b1, b2, .inl ⟨hc, rfl⟩⟩
  · intro prev rn cands vls q kept mn mx t hs hne k1 k2 k3 a1 a2 b1 b2 hlt hle ht hst ih
    exact ⟨q, kept, mn, mx, k1, k2, a1, a2, b1, b2, .inr ⟨⟨hlt, hle⟩, t, ht, hst, rfl⟩⟩

/-! ### determinism -/

/-- two rounds report the same, up to the order of candidates; `all_eliminated` is left out -/
structure SameRound (a b : RoundMeta) : Prop where
  startingqty : a.startingqty = b.startingqty
  exhaustedqty : a.exhaustedqty = b.exhaustedqty
  overvoteqty : a.overvoteqty = b.overvoteqty
  ballotcount : a.ballotcount = b.ballotcount
  countedqty : a.countedqty = b.countedqty
  startingCands : a.startingCands.Perm b.startingCands
  eliminated : a.eliminated.Perm b.eliminated
  bottomtie : a.bottomtie.isSome = b.bottomtie.isSome

theorem totalOf_perm {cands cands' : List Str} (h : cands.Perm cands') (kept : List Voteline) :
    totalOf cands kept = totalOf cands' kept := perm_sum (h.map _)

theorem listMin_perm {l l' : List Int} (h : l.Perm l') : listMin l = listMin l' := by
  cases hm : listMin l with
  | none =>
    cases l with
    | nil => rw [h.symm.eq_nil]; rfl
    | cons a l => cases hm
  | some m =>
    symm
    rw [listMin_some] at hm ⊢
    exact ⟨h.mem_iff.1 hm.1, fun x hx => hm.2 x (h.mem_iff.2 hx)⟩

theorem penult_perm {l l' : List Int} (h : l.Perm l') (mn mx : Int) : penultVotes l mn mx = penultVotes l' mn mx := by
  unfold penultVotes
  rw [listMin_perm (h.filter _)]

theorem lockstep {S S' : Sched} {prev : Option RoundMeta} {rn : Nat} {cands : List Str} {vls : List Voteline} {run : IrvRun}
    (h : Steps S prev rn cands vls run) (hs : IrvState cands vls) (hne : cands ≠ [])
    (hdet : ∀ rm ∈ run.roundmeta.dropLast, rm.randomElim = false)
    {prev' : Option RoundMeta} {rn' : Nat} {cands' : List Str} {run' : IrvRun} (hp : cands'.Perm cands)
    (h' : Steps S' prev' rn' cands' vls run') :
    List.Forall₂ List.Perm run'.rounds run.rounds ∧ List.Forall₂ SameRound run'.roundmeta run.roundmeta ∧
      run'.winner.Perm run.winner := by
  revert hdet prev' rn' cands' run'
  refine steps_induction (S := S) (P := fun _ _ cands vls run => (∀ rm ∈ run.roundmeta.dropLast, rm.randomElim = false) →
    ∀ {prev' : Option RoundMeta} {rn' : Nat} {cands' : List Str} {run' : IrvRun}, cands'.Perm cands →
      Steps S' prev' rn' cands' vls run' →
      List.Forall₂ List.Perm run'.rounds run.rounds ∧ List.Forall₂ SameRound run'.roundmeta run.roundmeta ∧
      run'.winner.Perm run.winner) ?_ ?_ h hs hne
  · intro prev rn cands vls q kept mn mx hs hne k1 k2 k3 a1 a2 b1 b2 hc hdet prev' rn' cands' run' hp h'
    have hs' : IrvState cands' vls := ⟨hp.nodup_iff.2 hs.nodup, hs.wf, hs.ranked, fun v hv c hcc => hp.mem_iff.2 (hs.known v hv c hcc)⟩
    have hne' : cands' ≠ [] := fun hh => hne (by rw [hh] at hp; exact hp.symm.eq_nil)
    obtain ⟨q', kept', mn', mx', j1, j2, c1, c2, d1, d2, hr⟩ := steps_cases h' hs' hne'
    rw [k1] at j1
    cases j1
    have hmn : mn' = mn := by
      obtain ⟨x, hx, rfl⟩ := a1; obtain ⟨y, hy, rfl⟩ := c1
      have := a2 y (hp.mem_iff.1 hy); have := c2 x (hp.mem_iff.2 hx); omega
    have hmx : mx' = mx := by
      obtain ⟨x, hx, rfl⟩ := b1; obtain ⟨y, hy, rfl⟩ := d1
      have := b2 y (hp.mem_iff.1 hy); have := d2 x (hp.mem_iff.2 hx); omega
    subst hmn; subst hmx
    have htot := totalOf_perm hp kept
    rcases hr with ⟨_, rfl⟩ | ⟨hx, _⟩
    · have hlead : (leaders cands' kept mx').Perm (leaders cands kept mx') := hp.filter _
      have hB : (bottoms cands' kept mn').Perm (bottoms cands kept mn') := hp.filter _
      refine ⟨.cons (hp.map _) .nil, .cons ?_ .nil, hlead⟩
      refine ⟨rfl, rfl, rfl, rfl, ?_, hp, ?_, ?_⟩
      · show totalOf cands' kept - _ = totalOf cands kept - _
        rw [htot]
      · show (cands'.filter _).Perm (cands.filter _)
        have : (fun c => decide (c ∉ leaders cands' kept mx')) = (fun c => decide (c ∉ leaders cands kept mx')) := by
          funext c
          simp only [hlead.mem_iff]
        rw [this]
        exact hp.filter _
      · show (elimOf _ _ _ _ _ _).bottomtie.isSome = (elimOf _ _ _ _ _ _).bottomtie.isSome
        have hBl := hB.length_eq
        rcases elimOf_cases S' rn' cands' kept mn' mx' with ⟨x1, x2, h1⟩ | ⟨x1, x2, h1⟩ | ⟨x1, h1⟩ <;>
        rcases elimOf_cases S rn cands kept mn' mx' with ⟨y1, y2, h2⟩ | ⟨y1, y2, h2⟩ | ⟨y1, h2⟩ <;>
        first | (rw [h1, h2]; done) | (rw [h1, h2]; rfl) | omega
    · rw [htot] at hx; omega
  · intro prev rn cands vls q kept mn mx t hs hne k1 k2 k3 a1 a2 b1 b2 hlt hle ht hst ih hdet prev' rn' cands' run' hp h'
    have hs' : IrvState cands' vls := ⟨hp.nodup_iff.2 hs.nodup, hs.wf, hs.ranked, fun v hv c hcc => hp.mem_iff.2 (hs.known v hv c hcc)⟩
    have hne' : cands' ≠ [] := fun hh => hne (by rw [hh] at hp; exact hp.symm.eq_nil)
    obtain ⟨q', kept', mn', mx', j1, j2, c1, c2, d1, d2, hr⟩ := steps_cases h' hs' hne'
    rw [k1] at j1
    cases j1
    have hmn : mn' = mn := by
      obtain ⟨x, hx, rfl⟩ := a1; obtain ⟨y, hy, rfl⟩ := c1
      have := a2 y (hp.mem_iff.1 hy); have := c2 x (hp.mem_iff.2 hx); omega
    have hmx : mx' = mx := by
      obtain ⟨x, hx, rfl⟩ := b1; obtain ⟨y, hy, rfl⟩ := d1
      have := b2 y (hp.mem_iff.1 hy); have := d2 x (hp.mem_iff.2 hx); omega
    subst hmn; subst hmx
    have htot := totalOf_perm hp kept
    rcases hr with ⟨hx, _⟩ | ⟨_, t', ht', hst', rfl⟩
    · rw [htot] at hx; omega
    · have htne : t.roundmeta ≠ [] := by
        have := run_lengths ht hst (next_nonempty (S := S) (rn := rn) a1 a2 b1 hlt).1
        intro hh; rw [hh] at this; simp at this; omega
      have hd0 : (elimOf S rn cands kept mn' mx').random = false := by
        have := hdet (infoOf S prev rn cands vls q kept mn' mx') (by
          simp only [List.dropLast_cons_of_ne_nil htne]; exact List.mem_cons_self ..)
        exact this
      have hB : (bottoms cands' kept mn').Perm (bottoms cands kept mn') := hp.filter _
      have hBl := hB.length_eq
      have hBs : ((bottoms cands' kept mn').map (tally kept)).sum = ((bottoms cands kept mn').map (tally kept)).sum :=
        perm_sum (hB.map _)
      have hP := penult_perm (hp.map (tally kept)) mn' mx'
      have hE : (elimOf S' rn' cands' kept mn' mx').eliminated.Perm (elimOf S rn cands kept mn' mx').eliminated ∧
          (elimOf S' rn' cands' kept mn' mx').bottomtie.isSome = (elimOf S rn cands kept mn' mx').bottomtie.isSome := by
        rcases elimOf_cases S' rn' cands' kept mn' mx' with ⟨x1, x2, h1⟩ | ⟨x1, x2, h1⟩ | ⟨x1, h1⟩ <;>
        rcases elimOf_cases S rn cands kept mn' mx' with ⟨y1, y2, h2⟩ | ⟨y1, y2, h2⟩ | ⟨y1, h2⟩
        · rw [h1, h2]; exact ⟨hB, rfl⟩
        · rw [h2] at hd0; cases hd0
        · omega
        · omega
        · rw [h2] at hd0; cases hd0
        · omega
        · omega
        · omega
        · rw [h1, h2]; exact ⟨hB, rfl⟩
      have hcs : (S'.setOrder rn' (cands'.filter (fun c => c ∉ (elimOf S' rn' cands' kept mn' mx').eliminated))).Perm
          (S.setOrder rn (cands.filter (fun c => c ∉ (elimOf S rn cands kept mn' mx').eliminated))) := by
        refine (S'.setOrder_perm rn' _).trans (.trans ?_ (S.setOrder_perm rn _).symm)
        have : (fun c => decide (c ∉ (elimOf S' rn' cands' kept mn' mx').eliminated)) =
            (fun c => decide (c ∉ (elimOf S rn cands kept mn' mx').eliminated)) := by
          funext c
          simp only [hE.1.mem_iff]
        rw [this]
        exact hp.filter _
      have hvl : eliminateCands (elimOf S' rn' cands' kept mn' mx').eliminated kept =
          eliminateCands (elimOf S rn cands kept mn' mx').eliminated kept := by
        rw [eliminate_eq _ _ (fun v hv => hs.wf v (k2.subset hv)), eliminate_eq _ _ (fun v hv => hs.wf v (k2.subset hv))]
        apply List.map_congr_left
        intro v _
        congr 1
        apply List.filter_congr
        intro e _
        simp only [hE.1.mem_iff]
      rw [hvl] at ht'
      obtain ⟨i1, i2, i3⟩ := ih (fun rm hrm => hdet rm (by
        simp only [List.dropLast_cons_of_ne_nil htne]; exact List.mem_cons_of_mem _ hrm)) hcs ht'
      refine ⟨.cons (hp.map _) i1, .cons ?_ i2, i3⟩
      refine ⟨rfl, rfl, rfl, rfl, ?_, hp, hE.1, hE.2⟩
      show totalOf cands' kept - _ = totalOf cands kept - _
      rw [htot]

end Verif
