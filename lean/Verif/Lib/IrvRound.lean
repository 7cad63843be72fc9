/-
Helper lemmas: one round of the instant-runoff count, and runs.
-/
import Verif.Lib.Irv

set_option linter.unusedSimpArgs false
set_option linter.unusedSectionVars false

namespace Verif
open Spec

/-! ### minimum and maximum -/

theorem foldl_min_spec (l : List Int) (x : Int) :
    (l.foldl min x ≤ x ∧ (∀ y ∈ l, l.foldl min x ≤ y)) ∧ (l.foldl min x = x ∨ l.foldl min x ∈ l) := by
  induction l generalizing x with
  | nil => simp
  | cons a l ih =>
    obtain ⟨⟨h1, h2⟩, h3⟩ := ih (min x a)
    simp only [List.foldl_cons, List.mem_cons, forall_eq_or_imp]
    refine ⟨⟨by omega, by omega, h2⟩, ?_⟩
    rcases h3 with h | h
    · by_cases hxa : x ≤ a
      · left; rw [h]; omega
      · right; left; rw [h]; omega
    · right; right; exact h

theorem foldl_max_spec (l : List Int) (x : Int) :
    (x ≤ l.foldl max x ∧ (∀ y ∈ l, y ≤ l.foldl max x)) ∧ (l.foldl max x = x ∨ l.foldl max x ∈ l) := by
  induction l generalizing x with
  | nil => simp
  | cons a l ih =>
    obtain ⟨⟨h1, h2⟩, h3⟩ := ih (max x a)
    simp only [List.foldl_cons, List.mem_cons, forall_eq_or_imp]
    refine ⟨⟨by omega, by omega, h2⟩, ?_⟩
    rcases h3 with h | h
    · by_cases hxa : x ≤ a
      · right; left; rw [h]; omega
      · left; rw [h]; omega
    · right; right; exact h

theorem listMin_some {l : List Int} {m : Int} : listMin l = some m ↔ m ∈ l ∧ ∀ x ∈ l, m ≤ x := by
  cases l with
  | nil => simp [listMin]
  | cons a l =>
    obtain ⟨⟨h1, h2⟩, h3⟩ := foldl_min_spec l a
    simp only [listMin, Option.some.injEq, List.mem_cons, forall_eq_or_imp]
    constructor
    · rintro rfl
      exact ⟨h3, h1, h2⟩
    · rintro ⟨hm, ha, hl⟩
      rcases hm with rfl | hm
      · rcases h3 with h | h
        · exact h
        · have := hl _ h; omega
      · have := h2 m hm
        rcases h3 with h | h
        · omega
        · have := hl _ h; omega

theorem listMax_some {l : List Int} {m : Int} : listMax l = some m ↔ m ∈ l ∧ ∀ x ∈ l, x ≤ m := by
  cases l with
  | nil => simp [listMax]
  | cons a l =>
    obtain ⟨⟨h1, h2⟩, h3⟩ := foldl_max_spec l a
    simp only [listMax, Option.some.injEq, List.mem_cons, forall_eq_or_imp]
    constructor
    · rintro rfl
      exact ⟨h3, h1, h2⟩
    · rintro ⟨hm, ha, hl⟩
      rcases hm with rfl | hm
      · rcases h3 with h | h
        · exact h
        · have := hl _ h; omega
      · have := h2 m hm
        rcases h3 with h | h
        · omega
        · have := hl _ h; omega

theorem listMin_isSome {l : List Int} (h : l ≠ []) : ∃ m, listMin l = some m := by
  cases l with
  | nil => exact absurd rfl h
  | cons a l => exact ⟨_, rfl⟩

theorem listMax_isSome {l : List Int} (h : l ≠ []) : ∃ m, listMax l = some m := by
  cases l with
  | nil => exact absurd rfl h
  | cons a l => exact ⟨_, rfl⟩

/-! ### one round -/

/-- what a round needs -/
structure IrvState (cands : List Str) (vls : List Voteline) : Prop where
  nodup : cands.Nodup
  wf : ∀ vl ∈ vls, Dict.WF vl.prefs
  ranked : ∀ vl ∈ vls, Ranked vl.prefs
  known : ∀ vl ∈ vls, ∀ c ∈ Dict.keys vl.prefs, c ∈ cands

/-- votes credited to `c` -/
def tally (kept : List Voteline) (c : Str) : Int := qtySum (fun vl => topOf vl == some c) kept
/-- votes credited to nobody -/
def exhaustedQty (kept : List Voteline) : Int := qtySum (fun vl => topOf vl == none) kept
/-- votes credited in total -/
def totalOf (cands : List Str) (kept : List Voteline) : Int := (cands.map (tally kept)).sum

/-- the counts of a round -/
def countsOf (cands : List Str) (kept : List Voteline) : Dict Str Int := cands.map (fun c => (c, tally kept c))

/-- counters after the counting loop -/
def accOf (cands : List Str) (kept : List Voteline) : CountAcc where
  counts := countsOf cands kept
  ballotcount := qtot kept
  exhausted := exhaustedQty kept

theorem topOf_mem {cands : List Str} {vls : List Voteline} (h : IrvState cands vls) {vl : Voteline} (hv : vl ∈ vls)
    {c : Str} (hc : topOf vl = some c) : c ∈ cands := by
  obtain ⟨_, _, _, h3⟩ := topOf_of_total (h.ranked vl hv)
  exact h.known vl hv c (h3 c hc)

theorem irvRound_split (S : Sched) (prev : Option RoundMeta) (rn : Nat) {cands : List Str} {vls : List Voteline}
    (h : IrvState cands vls) : ∃ q kept, discardOvervotes vls = .ok (q, kept) ∧ kept.Sublist vls ∧
      q + qtot kept = qtot vls ∧
      irvRound S prev rn cands vls = roundFinish S prev rn cands vls q kept (accOf cands kept) := by
  obtain ⟨q, kept, h1, h2, h3⟩ := discard_total vls h.ranked
  refine ⟨q, kept, h1, h2, h3, ?_⟩
  unfold irvRound
  rw [h1, ok_bind]
  simp only
  have := countLoop_eq cands h.nodup kept (fun _ => 0) 0 0 (fun v hv => h.ranked v (h2.subset hv))
    (fun v hv c hc => topOf_mem h (h2.subset hv) hc)
  rw [this, ok_bind]
  unfold accOf countsOf tally exhaustedQty
  simp

/-- the elimination of a round -/
def elimOf (S : Sched) (rn : Nat) (cands : List Str) (kept : List Voteline) (mn mx : Int) : Elim :=
  chooseElim S rn (countsOf cands kept) mn (penultVotes (cands.map (tally kept)) mn mx)

/-- the metadata of a round before it is known whether it is the last -/
def infoOf (S : Sched) (prev : Option RoundMeta) (rn : Nat) (cands : List Str) (vls : List Voteline) (q : Int)
    (kept : List Voteline) (mn mx : Int) : RoundMeta where
  roundnum := rn
  startingqty := qtot vls
  exhaustedqty := exhaustedQty kept
  overvoteqty := q
  ballotcount := qtot kept
  countedqty := totalOf cands kept - exhaustedQty kept
  bottomVotesPercand := mn
  leadingVotesPercand := mx
  penultimateVotesPercand := penultVotes (cands.map (tally kept)) mn mx
  startingCands := cands
  topVoteqty := mn
  bottomVoteqty := mx
  bottomtie := (elimOf S rn cands kept mn mx).bottomtie
  batchElim := (elimOf S rn cands kept mn mx).batch
  randomElim := (elimOf S rn cands kept mn mx).random
  eliminated := (elimOf S rn cands kept mn mx).eliminated
  allEliminated := allElimOf prev (elimOf S rn cands kept mn mx)

/-- the leaders of a round -/
def leaders (cands : List Str) (kept : List Voteline) (mx : Int) : List Str :=
  cands.filter (fun c => decide (tally kept c = mx))

theorem roundFinish_eq (S : Sched) (prev : Option RoundMeta) (rn : Nat) {cands : List Str} (vls : List Voteline) (q : Int)
    (kept : List Voteline) (hne : cands ≠ []) : ∃ mn mx, (∃ c ∈ cands, tally kept c = mn) ∧ (∀ c ∈ cands, mn ≤ tally kept c) ∧
      (∃ c ∈ cands, tally kept c = mx) ∧ (∀ c ∈ cands, tally kept c ≤ mx) ∧
      roundFinish S prev rn cands vls q kept (accOf cands kept) =
        if mn = mx ∨ 2 * mx > totalOf cands kept then
          .ok { counts := countsOf cands kept
                info := { infoOf S prev rn cands vls q kept mn mx with
                          winner := some (leaders cands kept mx)
                          eliminated := cands.filter (fun c => c ∉ leaders cands kept mx) }
                next := none }
        else
          .ok { counts := countsOf cands kept
                info := infoOf S prev rn cands vls q kept mn mx
                next := some (S.setOrder rn (cands.filter (fun c => c ∉ (elimOf S rn cands kept mn mx).eliminated)),
                  eliminateCands (elimOf S rn cands kept mn mx).eliminated kept) } := by
  have hv : (accOf cands kept).counts.map Prod.snd = cands.map (tally kept) := by
    unfold accOf countsOf; simp [List.map_map, Function.comp_def]
  have hvne : cands.map (tally kept) ≠ [] := by simpa using hne
  obtain ⟨mn, hmn⟩ := listMin_isSome hvne
  obtain ⟨mx, hmx⟩ := listMax_isSome hvne
  obtain ⟨a1, a2⟩ := listMin_some.1 hmn
  obtain ⟨b1, b2⟩ := listMax_some.1 hmx
  refine ⟨mn, mx, by simpa using a1, fun c hc => a2 _ (List.mem_map.2 ⟨c, hc, rfl⟩), by simpa using b1,
    fun c hc => b2 _ (List.mem_map.2 ⟨c, hc, rfl⟩), ?_⟩
  unfold roundFinish
  simp only
  rw [hv, hmn, hmx]
  simp only
  have hw : ((accOf cands kept).counts.filter (fun cv => decide (cv.2 = mx))).map Prod.fst = leaders cands kept mx := by
    unfold accOf countsOf leaders
    rw [List.filter_map, List.map_map]
    simp [Function.comp_def]
  rw [hw]
  rfl

/-- everything about one round of a good state -/
theorem irvRound_eq (S : Sched) (prev : Option RoundMeta) (rn : Nat) {cands : List Str} {vls : List Voteline}
    (h : IrvState cands vls) (hne : cands ≠ []) : ∃ q kept mn mx, discardOvervotes vls = .ok (q, kept) ∧ kept.Sublist vls ∧
      q + qtot kept = qtot vls ∧ (∃ c ∈ cands, tally kept c = mn) ∧ (∀ c ∈ cands, mn ≤ tally kept c) ∧
      (∃ c ∈ cands, tally kept c = mx) ∧ (∀ c ∈ cands, tally kept c ≤ mx) ∧
      ((mn = mx ∨ 2 * mx > totalOf cands kept) ∧ irvRound S prev rn cands vls =
          .ok { counts := countsOf cands kept
                info := { infoOf S prev rn cands vls q kept mn mx with
                          winner := some (leaders cands kept mx)
                          eliminated := cands.filter (fun c => c ∉ leaders cands kept mx) }
                next := none } ∨
       (mn < mx ∧ 2 * mx ≤ totalOf cands kept) ∧ irvRound S prev rn cands vls =
          .ok { counts := countsOf cands kept
                info := infoOf S prev rn cands vls q kept mn mx
                next := some (S.setOrder rn (cands.filter (fun c => c ∉ (elimOf S rn cands kept mn mx).eliminated)),
                  eliminateCands (elimOf S rn cands kept mn mx).eliminated kept) }) := by
  obtain ⟨q, kept, h1, h2, h3, h4⟩ := irvRound_split S prev rn h
  obtain ⟨mn, mx, a1, a2, b1, b2, h5⟩ := roundFinish_eq S prev rn vls q kept hne
  refine ⟨q, kept, mn, mx, h1, h2, h3, a1, a2, b1, b2, ?_⟩
  rw [h4, h5]
  by_cases hc : mn = mx ∨ 2 * mx > totalOf cands kept
  · left; exact ⟨hc, by rw [if_pos hc]⟩
  · right
    obtain ⟨c, hc1, rfl⟩ := a1
    have := b2 c hc1
    exact ⟨by omega, by rw [if_neg hc]⟩

/-! ### elimination -/

theorem eliminate_eq (el : List Str) (vls : List Voteline) (hw : ∀ vl ∈ vls, Dict.WF vl.prefs) :
    eliminateCands el vls = vls.map (fun vl => { vl with prefs := vl.prefs.filter (fun e => decide (e.1 ∉ el)) }) := by
  unfold eliminateCands
  induction el generalizing vls with
  | nil =>
    rw [List.foldl_nil]
    conv => lhs; rw [← List.map_id vls]
    apply List.map_congr_left
    intro v _
    have : v.prefs.filter (fun e => decide (e.1 ∉ ([] : List Str))) = v.prefs :=
      List.filter_eq_self.2 (fun e _ => by simp)
    rw [this]; rfl
  | cons c el ih =>
    rw [List.foldl_cons, ih]
    · rw [List.map_map]
      apply List.map_congr_left
      intro vl hv
      simp only [Function.comp_apply]
      rw [Dict.erase_eq_filter (hw vl hv), List.filter_filter]
      congr 1
      apply List.filter_congr
      intro e _
      rw [Bool.eq_iff_iff]
      simp [and_comm]
    · intro vl hv
      obtain ⟨v, hv', rfl⟩ := List.mem_map.1 hv
      simp only
      rw [Dict.erase_eq_filter (hw v hv')]
      exact List.Nodup.sublist (List.Sublist.map _ List.filter_sublist) (hw v hv')

theorem wf_filter {κ α : Type} {d : Dict κ α} [DecidableEq κ] (p : κ × α → Bool) (h : Dict.WF d) : Dict.WF (d.filter p) :=
  List.Nodup.sublist (List.Sublist.map _ List.filter_sublist) h

/-- the bottom candidates of a round -/
def bottoms (cands : List Str) (kept : List Voteline) (mn : Int) : List Str :=
  cands.filter (fun c => decide (tally kept c ≤ mn))

theorem elimOf_cases (S : Sched) (rn : Nat) (cands : List Str) (kept : List Voteline) (mn mx : Int) :
    let B := bottoms cands kept mn
    let P := penultVotes (cands.map (tally kept)) mn mx
    (B.length > 1 ∧ (B.map (tally kept)).sum ≤ P ∧ elimOf S rn cands kept mn mx =
        { bottomtie := some B, batch := true, eliminated := B, losers := none }) ∨
    (B.length > 1 ∧ P < (B.map (tally kept)).sum ∧ elimOf S rn cands kept mn mx =
        { bottomtie := some B, random := true, eliminated := [S.choice rn B], losers := some [S.choice rn B] }) ∨
    (B.length ≤ 1 ∧ elimOf S rn cands kept mn mx = { eliminated := B, losers := some B }) := by
  intro B P
  have h1 : ((countsOf cands kept).filter (fun cv => decide (cv.2 ≤ mn))).map Prod.fst = B := by
    unfold countsOf; rw [List.filter_map, List.map_map]; simp [Function.comp_def, B, bottoms]
  have h2 : ((countsOf cands kept).filter (fun cv => decide (cv.2 ≤ mn))).map Prod.snd = B.map (tally kept) := by
    unfold countsOf; rw [List.filter_map, List.map_map]; simp [Function.comp_def, B, bottoms]
  unfold elimOf chooseElim
  simp only
  rw [h1, h2]
  by_cases hb : B.length > 1
  · rw [if_pos hb]
    by_cases hp : (B.map (tally kept)).sum ≤ P
    · left; exact ⟨hb, hp, by rw [if_pos hp]⟩
    · right; left; exact ⟨hb, by omega, by rw [if_neg hp]⟩
  · right; right; exact ⟨by omega, by rw [if_neg hb]⟩

theorem mem_bottoms {cands : List Str} {kept : List Voteline} {mn : Int} (hmin : ∀ c ∈ cands, mn ≤ tally kept c) {c : Str} :
    c ∈ bottoms cands kept mn ↔ c ∈ cands ∧ tally kept c = mn := by
  unfold bottoms
  rw [List.mem_filter]
  constructor
  · rintro ⟨h1, h2⟩
    have := hmin c h1
    simp at h2
    exact ⟨h1, by omega⟩
  · rintro ⟨h1, h2⟩
    exact ⟨h1, by simp; omega⟩

/-- the eliminated candidates are at the bottom, and there is one -/
theorem elimOf_spec (S : Sched) (rn : Nat) {cands : List Str} {kept : List Voteline} {mn mx : Int}
    (hmn : ∃ c ∈ cands, tally kept c = mn) (hmin : ∀ c ∈ cands, mn ≤ tally kept c) :
    (elimOf S rn cands kept mn mx).eliminated ≠ [] ∧
    ∀ c ∈ (elimOf S rn cands kept mn mx).eliminated, c ∈ cands ∧ tally kept c = mn := by
  have hne : bottoms cands kept mn ≠ [] := by
    obtain ⟨c, hc, h⟩ := hmn
    exact List.ne_nil_of_mem ((mem_bottoms hmin).2 ⟨hc, h⟩)
  rcases elimOf_cases S rn cands kept mn mx with ⟨_, _, h⟩ | ⟨_, _, h⟩ | ⟨_, h⟩
  · rw [h]; exact ⟨hne, fun c hc => (mem_bottoms hmin).1 hc⟩
  · rw [h]
    refine ⟨by simp, ?_⟩
    intro c hc
    simp only [List.mem_cons, List.not_mem_nil, or_false] at hc
    subst hc
    exact (mem_bottoms hmin).1 (S.choice_mem rn _ hne)
  · rw [h]; exact ⟨hne, fun c hc => (mem_bottoms hmin).1 hc⟩

/-- the next state is good and smaller -/
theorem next_state {S : Sched} {rn : Nat} {cands : List Str} {vls kept : List Voteline} (h : IrvState cands vls)
    (hs : kept.Sublist vls) (el : List Str) :
    IrvState (S.setOrder rn (cands.filter (fun c => c ∉ el))) (eliminateCands el kept) := by
  have hw : ∀ vl ∈ kept, Dict.WF vl.prefs := fun vl hv => h.wf vl (hs.subset hv)
  rw [eliminate_eq el kept hw]
  refine ⟨?_, ?_, ?_, ?_⟩
  · exact (S.setOrder_perm rn _).nodup_iff.2 (h.nodup.filter _)
  · intro vl hv
    obtain ⟨v, hv', rfl⟩ := List.mem_map.1 hv
    exact wf_filter _ (hw v hv')
  · intro vl hv
    obtain ⟨v, hv', rfl⟩ := List.mem_map.1 hv
    intro e he
    exact h.ranked v (hs.subset hv') e (List.mem_filter.1 he).1
  · intro vl hv c hc
    obtain ⟨v, hv', rfl⟩ := List.mem_map.1 hv
    obtain ⟨e, he, rfl⟩ := List.mem_map.1 hc
    obtain ⟨he1, he2⟩ := List.mem_filter.1 he
    rw [(S.setOrder_perm rn _).mem_iff, List.mem_filter]
    exact ⟨h.known v (hs.subset hv') e.1 (List.mem_map.2 ⟨e, he1, rfl⟩), by simpa using he2⟩

theorem next_nonempty {S : Sched} {rn : Nat} {cands : List Str} {kept : List Voteline} {mn mx : Int}
    (hmn : ∃ c ∈ cands, tally kept c = mn) (hmin : ∀ c ∈ cands, mn ≤ tally kept c) (hmx : ∃ c ∈ cands, tally kept c = mx)
    (hlt : mn < mx) : S.setOrder rn (cands.filter (fun c => c ∉ (elimOf S rn cands kept mn mx).eliminated)) ≠ [] ∧
    (S.setOrder rn (cands.filter (fun c => c ∉ (elimOf S rn cands kept mn mx).eliminated))).length < cands.length := by
  obtain ⟨e1, e2⟩ := elimOf_spec (mx := mx) S rn hmn hmin
  constructor
  · obtain ⟨c, hc, rfl⟩ := hmx
    apply List.ne_nil_of_mem (a := c)
    rw [(S.setOrder_perm rn _).mem_iff, List.mem_filter]
    refine ⟨hc, ?_⟩
    simp only [decide_eq_true_eq]
    intro h
    have := (e2 c h).2
    omega
  · rw [(S.setOrder_perm rn _).length_eq]
    obtain ⟨e, he⟩ := List.exists_mem_of_ne_nil _ e1
    apply List.length_filter_lt_length_iff_exists.2
    exact ⟨e, (e2 e he).1, by simpa using he⟩

/-! ### runs -/

/-- the rounds of a run -/
inductive Steps (S : Sched) : Option RoundMeta → Nat → List Str → List Voteline → IrvRun → Prop
  | last {prev rn cands vls r} (h : irvRound S prev rn cands vls = .ok r) (hn : r.next = none) :
      Steps S prev rn cands vls { winner := r.info.winner.getD [], rounds := [r.counts], roundmeta := [r.info] }
  | more {prev rn cands vls r cands' vls' t} (h : irvRound S prev rn cands vls = .ok r)
      (hn : r.next = some (cands', vls')) (ht : Steps S (some r.info) (rn + 1) cands' vls' t) :
      Steps S prev rn cands vls { winner := t.winner, rounds := r.counts :: t.rounds, roundmeta := r.info :: t.roundmeta }

theorem irvCount_steps {S : Sched} : ∀ {n : Nat} {prev rn cands vls run}, irvCount S n prev rn cands vls = .ok run →
    Steps S prev rn cands vls run
  | 0, _, _, _, _, _, h => by cases h
  | n + 1, prev, rn, cands, vls, run, h => by
    unfold irvCount at h
    obtain ⟨r, h1, h2⟩ := bind_ok.1 h
    cases hn : r.next with
    | none =>
      rw [hn] at h2
      cases h2
      exact .last h1 hn
    | some nx =>
      obtain ⟨c', v'⟩ := nx
      rw [hn] at h2
      obtain ⟨t, h3, h4⟩ := bind_ok.1 h2
      cases h4
      exact .more h1 hn (irvCount_steps h3)

/-- a run exists from every good state with enough fuel -/
theorem irvCount_total (S : Sched) : ∀ (n : Nat) (prev : Option RoundMeta) (rn : Nat) (cands : List Str) (vls : List Voteline),
    IrvState cands vls → cands ≠ [] → cands.length < n → ∃ run, irvCount S n prev rn cands vls = .ok run
  | 0, _, _, _, _, _, _, h => by omega
  | n + 1, prev, rn, cands, vls, hs, hne, hn => by
    obtain ⟨q, kept, mn, mx, _, k2, _, a1, a2, b1, b2, h⟩ := irvRound_eq S prev rn hs hne
    rcases h with ⟨_, h⟩ | ⟨⟨hlt, _⟩, h⟩
    · unfold irvCount
      rw [h, ok_bind]
      exact ⟨_, rfl⟩
    · unfold irvCount
      rw [h, ok_bind]
      obtain ⟨e1, e2⟩ := next_nonempty (S := S) (rn := rn) a1 a2 b1 hlt
      simp only
      obtain ⟨t, ht⟩ := irvCount_total S n (some (infoOf S prev rn cands vls q kept mn mx)) (rn + 1) _ _ (next_state (S := S) (rn := rn) hs k2 (elimOf S rn cands kept mn mx).eliminated) e1 (by omega)
      rw [ht, ok_bind]
      exact ⟨_, rfl⟩

/-- Induction over the rounds of a run from a good state, with everything known about each round. -/
theorem steps_induction {S : Sched} {P : Option RoundMeta → Nat → List Str → List Voteline → IrvRun → Prop}
    (last : ∀ prev rn cands vls q kept mn mx, IrvState cands vls → cands ≠ [] →
      discardOvervotes vls = .ok (q, kept) → kept.Sublist vls → q + qtot kept = qtot vls →
      (∃ c ∈ cands, tally kept c = mn) → (∀ c ∈ cands, mn ≤ tally kept c) →
      (∃ c ∈ cands, tally kept c = mx) → (∀ c ∈ cands, tally kept c ≤ mx) →
      (mn = mx ∨ 2 * mx > totalOf cands kept) →
      P prev rn cands vls {
        winner := leaders cands kept mx
        rounds := [countsOf cands kept]
        roundmeta := [{ infoOf S prev rn cands vls q kept mn mx with
                          winner := some (leaders cands kept mx)
                          eliminated := cands.filter (fun c => c ∉ leaders cands kept mx) }] })
    (more : ∀ prev rn cands vls q kept mn mx t, IrvState cands vls → cands ≠ [] →
      discardOvervotes vls = .ok (q, kept) → kept.Sublist vls → q + qtot kept = qtot vls →
      (∃ c ∈ cands, tally kept c = mn) → (∀ c ∈ cands, mn ≤ tally kept c) →
      (∃ c ∈ cands, tally kept c = mx) → (∀ c ∈ cands, tally kept c ≤ mx) →
      mn < mx → 2 * mx ≤ totalOf cands kept →
      Steps S (some (infoOf S prev rn cands vls q kept mn mx)) (rn + 1)
        (S.setOrder rn (cands.filter (fun c => c ∉ (elimOf S rn cands kept mn mx).eliminated)))
        (eliminateCands (elimOf S rn cands kept mn mx).eliminated kept) t →
      IrvState (S.setOrder rn (cands.filter (fun c => c ∉ (elimOf S rn cands kept mn mx).eliminated)))
        (eliminateCands (elimOf S rn cands kept mn mx).eliminated kept) →
      P (some (infoOf S prev rn cands vls q kept mn mx)) (rn + 1)
        (S.setOrder rn (cands.filter (fun c => c ∉ (elimOf S rn cands kept mn mx).eliminated)))
        (eliminateCands (elimOf S rn cands kept mn mx).eliminated kept) t →
      P prev rn cands vls {
        winner := t.winner
        rounds := countsOf cands kept :: t.rounds
        roundmeta := infoOf S prev rn cands vls q kept mn mx :: t.roundmeta })
    {prev : Option RoundMeta} {rn : Nat} {cands : List Str} {vls : List Voteline} {run : IrvRun}
    (h : Steps S prev rn cands vls run) (hs : IrvState cands vls) (hne : cands ≠ []) : P prev rn cands vls run := by
  induction h with
  | last h hn =>
    rename_i prev rn cands vls r
    obtain ⟨q, kept, mn, mx, k1, k2, k3, a1, a2, b1, b2, hr⟩ := irvRound_eq S prev rn hs hne
    rcases hr with ⟨hc, hr⟩ | ⟨_, hr⟩
    · rw [hr] at h
      cases h
      exact last prev rn cands vls q kept mn mx hs hne k1 k2 k3 a1 a2 b1 b2 hc
    · rw [hr] at h
      cases h
      cases hn
  | more h hn ht ih =>
    rename_i prev rn cands vls r c' v' t
    obtain ⟨q, kept, mn, mx, k1, k2, k3, a1, a2, b1, b2, hr⟩ := irvRound_eq S prev rn hs hne
    rcases hr with ⟨_, hr⟩ | ⟨⟨hlt, hle⟩, hr⟩
    · rw [hr] at h
      cases h
      cases hn
    · rw [hr] at h
      cases h
      cases hn
      have hst := next_state (S := S) (rn := rn) hs k2 (elimOf S rn cands kept mn mx).eliminated
      have hnn := (next_nonempty (S := S) (rn := rn) a1 a2 b1 hlt).1
      exact more prev rn cands vls q kept mn mx t hs hne k1 k2 k3 a1 a2 b1 b2 hlt hle ht hst (ih hst hnn)

end Verif
