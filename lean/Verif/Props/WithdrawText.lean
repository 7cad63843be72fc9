/-
C126: candidates crossed off the paper.
-/
import Verif.Props.Withdraw
import Verif.Props.Paper
import Verif.Props.Borda

set_option linter.unusedSimpArgs false
set_option linter.unusedSectionVars false

namespace Verif.Props
open Verif Spec
variable [U : Uni] {K : List Str}

theorem onTier_stay {t : List Item} {x : Str} (hx : x ∈ K) : onTier (t.filter (fun it => decide (it.tok ∈ K))) x = onTier t x := by
  unfold onTier
  rw [List.any_filter]
  congr 1
  funext it
  by_cases h : it.tok = x
  · simp [h, hx]
  · simp [h]

theorem tierAbove_cross {x y : Str} (hx : x ∈ K) (hy : y ∈ K) : ∀ ts : List (List Item),
    tierAbove ((ts.map (fun t => t.filter (fun it => decide (it.tok ∈ K)))).filter (fun t => decide (t ≠ []))) x y = tierAbove ts x y := by
  intro ts
  induction ts with
  | nil => rfl
  | cons t ts ih =>
    rw [List.map_cons]
    by_cases h : t.filter (fun it => decide (it.tok ∈ K)) = []
    · rw [List.filter_cons_of_neg (by simp [h]), ih]
      have h1 : onTier t x = false := by rw [← onTier_stay hx, h]; rfl
      have h2 : onTier t y = false := by rw [← onTier_stay hy, h]; rfl
      simp [tierAbove, h1, h2]
    · rw [List.filter_cons_of_pos (by simpa using h)]
      simp only [tierAbove]
      rw [onTier_stay hx, onTier_stay hy, ih]

theorem crossOff_items (b : Ballot) : (crossOff K b).items = b.items.filter (fun it => decide (it.tok ∈ K)) := by
  cases b with
  | ranked ts =>
    show ((ts.map (fun t => t.filter (fun it => decide (it.tok ∈ K)))).filter (fun t => decide (t ≠ []))).flatten =
      ts.flatten.filter (fun it => decide (it.tok ∈ K))
    induction ts with
    | nil => rfl
    | cons t ts ih =>
      rw [List.map_cons, List.flatten_cons, List.filter_append]
      by_cases h : t.filter (fun it => decide (it.tok ∈ K)) = []
      · rw [List.filter_cons_of_neg (by simp [h]), ih, h, List.nil_append]
      · rw [List.filter_cons_of_pos (by simpa using h), List.flatten_cons, ih]
  | scored items =>
    unfold crossOff
    dsimp only
    split
    · rfl
    · show (List.map (fun it => [it]) (items.filter (fun it => decide (it.tok ∈ K)))).flatten = items.filter (fun it => decide (it.tok ∈ K))
      generalize items.filter (fun it => decide (it.tok ∈ K)) = l
      induction l with
      | nil => rfl
      | cons a l ih => rw [List.map_cons, List.flatten_cons, ih]; rfl

theorem crossOff_above {x y : Str} (hx : x ∈ K) (hy : y ∈ K) (b : Ballot) : (crossOff K b).above x y = b.above x y := by
  cases b with
  | ranked ts => exact tierAbove_cross hx hy ts
  | scored items =>
    have key : Ballot.above (.scored (items.filter (fun it => decide (it.tok ∈ K)))) x y = Ballot.above (.scored items) x y := by
      unfold Ballot.above
      dsimp only
      rw [List.any_filter]
      congr 1
      funext i
      rw [List.all_filter]
      by_cases hi : i.tok = x
      · simp only [hi, hx, decide_true, Bool.true_and]
        congr 1
        funext j
        by_cases hj : j.tok = y
        · simp [hj, hy]
        · simp [hj]
      · simp [hi]
    unfold crossOff
    dsimp only
    split
    · exact key
    · rename_i h
      rw [← key]
      generalize hl : items.filter (fun it => decide (it.tok ∈ K)) = l at h ⊢
      match l, h with
      | [], _ => rfl
      | [a], _ =>
        by_cases h1 : a.tok = x
        · by_cases h2 : a.tok = y
          · simp [Ballot.above, tierAbove, onTier, h1, h2]
          · simp [Ballot.above, tierAbove, onTier, h1, h2]
        · by_cases h2 : a.tok = y <;> simp [Ballot.above, tierAbove, onTier, h1, h2]
      | a :: b :: t, h => simp at h

theorem crossOff_ok {b : Ballot} (h : b.Ok) : (crossOff K b).Ok where
  items := by
    intro it hit
    rw [crossOff_items] at hit
    exact h.items it (List.mem_of_mem_filter hit)
  nodup := by
    rw [crossOff_items]
    exact h.nodup.sublist (List.filter_sublist.map _)
  tiers := by
    intro ts hts t ht
    cases b with
    | ranked ts' =>
      cases hts
      simpa using (List.mem_filter.1 ht).2
    | scored items =>
      unfold crossOff at hts
      dsimp only at hts
      split at hts
      · cases hts
      · cases hts
        obtain ⟨it, _, rfl⟩ := List.mem_map.1 ht
        simp
  two := by
    intro its hits
    cases b with
    | ranked ts' => cases hits
    | scored items =>
      unfold crossOff at hits
      dsimp only at hits
      split at hits
      · rename_i h2
        cases hits
        exact h2
      · cases hits

theorem namesOneOf_iff {b : Ballot} : namesOneOf K b = true ↔ ∃ x ∈ K, x ∈ b.items.map Item.tok := by
  unfold namesOneOf
  simp only [List.any_eq_true, decide_eq_true_eq, List.mem_map]
  constructor
  · rintro ⟨it, h1, h2⟩
    exact ⟨_, h2, it, h1, rfl⟩
  · rintro ⟨_, h2, it, h1, rfl⟩
    exact ⟨it, h1, h2⟩

theorem crossed_line {p : List PaperLine} {l' : PaperLine} (h : l' ∈ crossedPaper K p) :
    (∃ n b com, PaperLine.ballots n b com ∈ p ∧ namesOneOf K b = true ∧ l' = .ballots n (crossOff K b) com) ∨
    (∃ tok name, PaperLine.cand tok name ∈ p ∧ tok ∈ K ∧ l' = .cand tok name) ∨ ∃ t, PaperLine.note t ∈ p ∧ l' = .note t := by
  obtain ⟨l, hl, e⟩ := List.mem_filterMap.1 h
  cases l with
  | ballots n b com =>
    dsimp only at e
    split at e
    · rename_i hb
      cases e
      exact .inl ⟨n, b, com, hl, hb, rfl⟩
    · cases e
  | cand tok name =>
    dsimp only at e
    split at e
    · rename_i hk
      cases e
      exact .inr (.inl ⟨tok, name, hl, hk, rfl⟩)
    · cases e
  | note t => cases e; exact .inr (.inr ⟨t, hl, rfl⟩)

theorem crossed_ballots {p : List PaperLine} {n : Nat} {b : Ballot} {com : Option Str} (h : PaperLine.ballots n b com ∈ p) (hb : namesOneOf K b = true) :
    PaperLine.ballots n (crossOff K b) com ∈ crossedPaper K p :=
  List.mem_filterMap.2 ⟨_, h, by dsimp only; rw [if_pos hb]⟩

theorem crossed_ok {p : List PaperLine} (h : PaperOk p) (hK : ∃ v ∈ paperVotes p, namesOneOf K v.2 = true) : PaperOk (crossedPaper K p) := by
  refine ⟨fun l' hl' => ?_, ?_⟩
  · rcases crossed_line hl' with ⟨n, b, com, hm, _, rfl⟩ | ⟨tok, name, hm, _, rfl⟩ | ⟨t, hm, rfl⟩
    · obtain ⟨h1, h2⟩ := h.1 _ hm
      exact ⟨crossOff_ok h1, h2⟩
    · exact h.1 _ hm
    · exact h.1 _ hm
  · obtain ⟨v, hv, hb⟩ := hK
    obtain ⟨l, hl, e⟩ := List.mem_filterMap.1 hv
    cases l with
    | ballots n b com => cases e; exact ⟨n, _, com, crossed_ballots hl hb⟩
    | cand tok name => cases e
    | note t => cases e

theorem crossed_cands {p : List PaperLine} (c : Str) : c ∈ paperCands (crossedPaper K p) ↔ c ∈ paperCands p ∧ c ∈ K := by
  unfold paperCands
  rw [mem_firsts, mem_firsts, List.mem_flatMap, List.mem_flatMap]
  constructor
  · rintro ⟨l', hl', hc⟩
    rcases crossed_line hl' with ⟨n, b, com, hm, _, rfl⟩ | ⟨tok, name, hm, hk, rfl⟩ | ⟨t, hm, rfl⟩
    · obtain ⟨it, h1, rfl⟩ := List.mem_map.1 hc
      rw [crossOff_items, List.mem_filter, decide_eq_true_eq] at h1
      exact ⟨⟨_, hm, List.mem_map.2 ⟨it, h1.1, rfl⟩⟩, h1.2⟩
    · have : c = tok := by simpa [PaperLine.mentions] using hc
      subst this
      exact ⟨⟨_, hm, hc⟩, hk⟩
    · simp [PaperLine.mentions] at hc
  · rintro ⟨⟨l, hl, hc⟩, hk⟩
    cases l with
    | ballots n b com =>
      refine ⟨_, crossed_ballots hl (namesOneOf_iff.2 ⟨c, hk, hc⟩), ?_⟩
      obtain ⟨it, h1, rfl⟩ := List.mem_map.1 hc
      show _ ∈ (crossOff K b).items.map Item.tok
      rw [crossOff_items]
      exact List.mem_map.2 ⟨it, List.mem_filter.2 ⟨h1, by simpa using hk⟩, rfl⟩
    | cand tok name =>
      have : c = tok := by simpa [PaperLine.mentions] using hc
      subst this
      exact ⟨_, List.mem_filterMap.2 ⟨_, hl, by dsimp only; rw [if_pos hk]⟩, hc⟩
    | note t => simp [PaperLine.mentions] at hc

theorem crossed_votes (p : List PaperLine) :
    paperVotes (crossedPaper K p) = ((paperVotes p).filter (fun v => namesOneOf K v.2)).map (fun v => (v.1, crossOff K v.2)) := by
  induction p with
  | nil => rfl
  | cons l p ih =>
    unfold paperVotes crossedPaper at ih ⊢
    cases l with
    | ballots n b com =>
      by_cases hb : namesOneOf K b = true
      · simp only [List.filterMap_cons, if_pos hb, PaperLine.vote, List.filter_cons, hb, if_true, List.map_cons] at ih ⊢
        rw [ih]
      · simp only [List.filterMap_cons, if_neg hb, PaperLine.vote, List.filter_cons] at ih ⊢
        rw [ih]
    | cand tok name =>
      by_cases hk : tok ∈ K
      · simp only [List.filterMap_cons, if_pos hk, PaperLine.vote] at ih ⊢
        rw [ih]
      · simp only [List.filterMap_cons, if_neg hk, PaperLine.vote] at ih ⊢
        rw [ih]
    | note t =>
      simp only [List.filterMap_cons, PaperLine.vote] at ih ⊢
      rw [ih]

theorem listsOneOf_holds {v : Nat × Ballot} {vl : Voteline} (h : HoldsBallots v vl) : listsOneOf K vl = namesOneOf K v.2 := by
  rw [Bool.eq_iff_iff, listsOneOf_iff, namesOneOf_iff, h.2.2.1]

theorem same_holds {v : Nat × Ballot} {vl vl' : Voteline} (h : HoldsBallots v vl) (h' : HoldsBallots (v.1, crossOff K v.2) vl') : SameAmong K vl vl' := by
  refine ⟨h'.1.trans h.1.symm, fun x hx => ?_, fun x hx y hy => ?_⟩
  · rw [h.2.2.1, h'.2.2.1]
    show x ∈ (crossOff K v.2).items.map Item.tok ↔ _
    rw [crossOff_items]
    simp only [List.mem_map, List.mem_filter, decide_eq_true_eq]
    constructor
    · rintro ⟨it, h1, rfl⟩; exact ⟨it, h1.1, rfl⟩
    · rintro ⟨it, h1, rfl⟩; exact ⟨it, ⟨h1, hx⟩, rfl⟩
  · rw [h.2.1, h'.2.1]
    exact crossOff_above hx hy v.2

theorem holds_crossed {votes : List (Nat × Ballot)} {vls vls' : List Voteline} (f : List.Forall₂ HoldsBallots votes vls)
    (f' : List.Forall₂ HoldsBallots ((votes.filter (fun v => namesOneOf K v.2)).map (fun v => (v.1, crossOff K v.2))) vls') :
    List.Forall₂ (SameAmong K) (vls.filter (listsOneOf K)) (vls'.filter (listsOneOf K)) := by
  induction f generalizing vls' with
  | nil => cases f'; exact .nil
  | @cons v vl votes vls h _ ih =>
    by_cases hb : namesOneOf K v.2 = true
    · rw [List.filter_cons_of_pos (by exact hb), List.map_cons] at f'
      cases f' with
      | @cons _ vl' _ vls' h' f' =>
        have hb' : namesOneOf K (crossOff K v.2) = true := by
          rw [namesOneOf_iff] at hb ⊢
          obtain ⟨x, hx, hm⟩ := hb
          refine ⟨x, hx, ?_⟩
          obtain ⟨it, h1, rfl⟩ := List.mem_map.1 hm
          rw [crossOff_items]
          exact List.mem_map.2 ⟨it, List.mem_filter.2 ⟨h1, by simpa using hx⟩, rfl⟩
        rw [List.filter_cons_of_pos (by rw [listsOneOf_holds h]; exact hb), List.filter_cons_of_pos (by rw [listsOneOf_holds h']; exact hb')]
        exact .cons (same_holds h h') (ih f')
    · rw [List.filter_cons_of_neg (by exact hb)] at f'
      rw [List.filter_cons_of_neg (by rw [listsOneOf_holds h]; exact hb)]
      exact ih f'

/-- the ballots may have been sorted -/
theorem withdrawal_holds {m m' : Jabmod} {p : List PaperLine} {vls vls' : List Voteline} (f : List.Forall₂ HoldsBallots (paperVotes p) vls)
    (hp : m.votelines.Perm vls) (f' : List.Forall₂ HoldsBallots (paperVotes (crossedPaper K p)) vls') (hp' : m'.votelines.Perm vls')
    (hk : Dict.keys m.candidates = paperCands p) (hk' : Dict.keys m'.candidates = paperCands (crossedPaper K p)) : Withdrawal K m m' := by
  refine ⟨fun c => by rw [hk, hk', crossed_cands], ?_⟩
  rw [crossed_votes] at f'
  have h1 := holds_crossed f f'
  have h2 : Relation.Comp List.Perm (List.Forall₂ (SameAmong K)) (m.votelines.filter (listsOneOf K)) (vls'.filter (listsOneOf K)) :=
    ⟨_, hp.filter _, h1⟩
  rw [← List.forall₂_comp_perm_eq_perm_comp_forall₂] at h2
  obtain ⟨l, h3, h4⟩ := h2
  exact ⟨l, h4.trans (hp'.filter _).symm, h3⟩

/-- C126, texts.  If all candidates except `K` are crossed off the ballots and off the list of candidates of an .abif file, and somebody still names a
candidate, then reading both files gives elections of which the second is the first after the withdrawal. -/
theorem C126_text (cw : Bool) (p : List PaperLine) (h : PaperOk p) (hK : ∃ v ∈ paperVotes p, namesOneOf K v.2 = true) :
    ∃ m m', convertAbif cw false false (paperText p) = .ok m ∧ convertAbif cw false false (paperText (crossedPaper K p)) = .ok m' ∧
      Withdrawal K m m' := by
  obtain ⟨m, vls, h1, h2, h3, h4, _⟩ := convertAbif_paper h cw
  obtain ⟨m', vls', g1, g2, g3, g4, _⟩ := convertAbif_paper (crossed_ok h hK) cw
  exact ⟨m, m', h1, g1, withdrawal_holds h2 h3.1 g2 g3.1 h4 g4⟩

theorem crossed_strict {p : List PaperLine} (h : PaperStrict p) : PaperStrict (crossedPaper K p) := by
  intro v hv x hx y hy hne
  rw [crossed_votes] at hv
  obtain ⟨u, hu, rfl⟩ := List.mem_map.1 hv
  have hu := (List.mem_filter.1 hu).1
  have key : ∀ z, z ∈ (crossOff K u.2).items.map Item.tok → z ∈ u.2.items.map Item.tok ∧ z ∈ K := by
    intro z hz
    obtain ⟨it, h1, rfl⟩ := List.mem_map.1 hz
    rw [crossOff_items, List.mem_filter, decide_eq_true_eq] at h1
    exact ⟨List.mem_map.2 ⟨it, h1.1, rfl⟩, h1.2⟩
  obtain ⟨x1, x2⟩ := key x hx
  obtain ⟨y1, y2⟩ := key y hy
  show (crossOff K u.2).above x y = true ∨ (crossOff K u.2).above y x = true
  rw [crossOff_above x2 y2, crossOff_above y2 x2]
  exact h u hu x x1 y y1 hne

/-- C126, from the text to the winner.  An .abif file is counted by instant runoff; no ballot has equal preferences, and the count is clear cut and ends
with one winner.  Everybody eliminated before one of its rounds is crossed off the file.  The count of what is left has the same winner. -/
theorem C126_paper (S S' : Sched) (p : List PaperLine) (h : PaperOk p) (hs : PaperStrict p) (hnil : [] ∉ paperCands p)
    (hl : (paperText p).length < 4999999998) (m : Jabmod) (d : IrvDict) (hm : convertAbif false false false (paperText p) = .ok m)
    (hd : irvDict S m = .ok d) (k : Nat) (rm : RoundMeta) (hk : d.run.roundmeta[k]? = some rm) (hcut : ClearCut d) (w : Str) (hw : d.run.winner = [w])
    (hl' : (paperText (crossedPaper rm.startingCands p)).length < 4999999998) (hK : ∃ v ∈ paperVotes p, namesOneOf rm.startingCands v.2 = true) :
    ∃ m' d', convertAbif false false false (paperText (crossedPaper rm.startingCands p)) = .ok m' ∧ irvDict S' m' = .ok d' ∧ d'.run.winner = [w] := by
  have h' := crossed_ok h hK
  obtain ⟨m2, vls, h1, h2, h3, h4, _⟩ := convertAbif_paper h false
  rw [hm] at h1
  cases h1
  obtain ⟨m', vls', g1, g2, g3, g4, _⟩ := convertAbif_paper h' false
  have he := paper_strictElection hl hs hnil hm h2 h3.1 h4
  have hnil' : [] ∉ paperCands (crossedPaper rm.startingCands p) := fun hn => hnil ((crossed_cands []).1 hn).1
  have he' := paper_strictElection hl' (crossed_strict hs) hnil' g1 g2 g3.1 g4
  have hne : m'.candidates ≠ [] := by
    intro hz
    obtain ⟨v, hv, hb⟩ := hK
    obtain ⟨x, hx, hxb⟩ := namesOneOf_iff.1 hb
    obtain ⟨l, hl, e⟩ := List.mem_filterMap.1 hv
    have hc : x ∈ paperCands p := by
      unfold paperCands
      rw [mem_firsts, List.mem_flatMap]
      refine ⟨l, hl, ?_⟩
      cases l with
      | ballots n b com => cases e; exact hxb
      | cand tok name => cases e
      | note t => cases e
    have := (crossed_cands x).2 ⟨hc, hx⟩
    rw [← g4, hz] at this
    cases this
  obtain ⟨d', hd', _⟩ := C28_parsed S' _ _ _ _ _ g1 hne
  exact ⟨m', d', g1, hd', C126_irv S S' m m' d d' he he' hd hd' k rm hk (withdrawal_holds h2 h3.1 g2 g3.1 h4 g4) hcut w hw⟩

end Verif.Props

namespace Verif.Props
open Verif Spec
section
attribute [local instance] Uni.ascii
set_option maxRecDepth 40000

/-- a paper with three rounds -/
def leaverPaper : List PaperLine :=
  [.ballots 6 (.ranked (letterTiers c!"BAL")) none, .ballots 5 (.ranked (letterTiers c!"ALC")) none, .ballots 3 (.ranked (letterTiers c!"LAB")) none,
   .ballots 1 (.ranked (letterTiers c!"CAL")) none, .ballots 1 (.ranked (letterTiers c!"C")) none]

/-- crossing `C` and `L` off -/
example : paperText (crossedPaper [c!"B", c!"A"] leaverPaper) = c!"6:B>A\n5:A\n3:A>B\n1:A\n" := by decide +kernel
/-- with scores, a name and a note; two candidates stay, then one -/
example : paperText (crossedPaper [c!"A", c!"B"] exPaper) = paperText exPaper ∧
    paperText (crossedPaper [c!"B"] exPaper) = c!"# an election\n2:B/5# late\n3:[B]\n\n" := by decide +kernel

/-- `C126_paper` applies -/
example : PaperOk leaverPaper ∧ PaperStrict leaverPaper ∧ [] ∉ paperCands leaverPaper ∧ ∃ (d : IrvDict) (rm : RoundMeta),
    convertAbif false false false (paperText leaverPaper) = .ok ((convertAbif false false false (paperText leaverPaper)).toOption.getD emptyishJabmod) ∧
    irvDict Sched.std ((convertAbif false false false (paperText leaverPaper)).toOption.getD emptyishJabmod) = .ok d ∧
    d.run.roundmeta[2]? = some rm ∧ rm.startingCands = [c!"B", c!"A"] ∧ ClearCut d ∧ d.run.winner = [c!"A"] ∧
    (paperText (crossedPaper rm.startingCands leaverPaper)).length < 4999999998 ∧ ∃ v ∈ paperVotes leaverPaper, namesOneOf rm.startingCands v.2 = true := by
  refine ⟨⟨?_, 6, _, none, List.mem_cons_self⟩, by unfold PaperStrict; decide +kernel, by decide +kernel, ?_⟩
  · intro l hl
    simp only [leaverPaper, List.mem_cons, List.not_mem_nil, or_false] at hl
    rcases hl with rfl | rfl | rfl | rfl | rfl <;> exact ⟨letters_ok (by decide) (by decide), fun t h => (by cases h)⟩
  · generalize hmm : (convertAbif false false false (paperText leaverPaper)).toOption.getD emptyishJabmod = m
    have hm : convertAbif false false false (paperText leaverPaper) = .ok m := by
      rw [← hmm]
      have h : (convertAbif false false false (paperText leaverPaper)).toOption.isSome = true := by decide +kernel
      cases hc : convertAbif false false false (paperText leaverPaper) with
      | error e => rw [hc] at h; cases h
      | ok m => rfl
    have hall : ∀ x ∈ (irvDict Sched.std m).toOption.toList, (x.run.roundmeta[2]?.map RoundMeta.startingCands) = some [c!"B", c!"A"] ∧
        x.run.winner = [c!"A"] ∧
        ∀ k < x.run.roundmeta.length, ∀ rm ∈ x.run.roundmeta[k]?.toList, ∀ rm' ∈ x.run.roundmeta[k + 1]?.toList,
          ∀ cnt ∈ x.run.rounds[k]?.toList, ∀ c ∈ rm'.startingCands, ∀ v ∈ (Dict.get? cnt c).toList,
            (rm.eliminated.map (fun e => (Dict.get? cnt e).getD 0)).sum < v := by rw [← hmm]; decide +kernel
    obtain ⟨d, hd, _⟩ := C28_parsed Sched.std _ _ _ _ _ hm (by rw [← hmm]; decide +kernel)
    obtain ⟨h1, h2, h3⟩ := hall d (by rw [hd]; simp [Except.toOption])
    obtain ⟨rm, hrm, hs⟩ := Option.map_eq_some_iff.1 h1
    exact ⟨d, rm, hm, hd, hrm, hs, clearCut_of h3, h2, by rw [hs]; decide +kernel, by rw [hs]; decide +kernel⟩
end
end Verif.Props

namespace Verif.Props
open Verif Spec
section
variable [U : Uni]

/-- In every round that is followed by another, those who leave had together fewer votes than each of those who stay; `rounds` are the candidates
counted in each round. -/
def PaperClearCut (p : List PaperLine) (rounds : List (List Str)) : Prop :=
  ∀ (k : Nat) (C C' : List Str), rounds[k]? = some C → rounds[k + 1]? = some C' →
    ∀ c ∈ C', ((C.filter (fun e => decide (e ∉ C'))).map (paperTop p C)).sum < paperTop p C c

theorem clearCut_paper {S : Sched} {p : List PaperLine} {m : Jabmod} {d : IrvDict} {vls : List Voteline} (h : PaperOk p)
    (h5 : List.Forall₂ HoldsBallots (paperVotes p) vls) (h6 : m.votelines.Perm vls) (h7 : Dict.keys m.candidates = paperCands p)
    (he : StrictElection m) (hd : irvDict S m = .ok d) (hc : PaperClearCut p (d.run.roundmeta.map RoundMeta.startingCands)) : ClearCut d := by
  intro k rm rm' cnt e1 e2 e3 c hcm v hv
  obtain ⟨_, _, hround⟩ := paper_runoff h h5 h6 h7 he hd
  obtain ⟨cnt', c1, _, hnd, c4, _⟩ := hround k rm e1
  rw [e3] at c1
  cases c1
  obtain ⟨_, q2, q3, _, _, q6⟩ := (C33_eliminations _ m d he.countable hd).1 k rm rm' cnt e1 e2 e3
  have hcs : c ∈ rm.startingCands := (List.mem_filter.1 (q6.mem_iff.1 hcm)).1
  rw [c4 c hcs] at hv
  cases hv
  have hp : (rm.startingCands.filter (fun e => decide (e ∉ rm'.startingCands))).Perm rm.eliminated := by
    rw [List.perm_ext_iff_of_nodup (hnd.filter _) q2]
    intro e
    rw [List.mem_filter, decide_eq_true_eq, q6.mem_iff, List.mem_filter, decide_eq_true_eq]
    constructor
    · rintro ⟨a, b⟩
      by_contra hn
      exact b ⟨a, hn⟩
    · intro a
      exact ⟨q3 e a, fun b => b.2 a⟩
  have hsum : (rm.eliminated.map (fun e => (Dict.get? cnt e).getD 0)).sum = ((rm.eliminated.map (paperTop p rm.startingCands)).sum : Nat) := by
    have : ∀ l : List Str, (∀ e ∈ l, e ∈ rm.startingCands) →
        (l.map (fun e => (Dict.get? cnt e).getD 0)).sum = ((l.map (paperTop p rm.startingCands)).sum : Nat) := by
      intro l
      induction l with
      | nil => intro _; rfl
      | cons e l ih =>
        intro hl
        rw [List.map_cons, List.sum_cons, List.map_cons, List.sum_cons, ih (fun x hx => hl x (by simp [hx])), c4 e (hl e (by simp))]
        simp
    exact this _ q3
  have hcl := hc k rm.startingCands rm'.startingCands (by rw [List.getElem?_map, e1]; rfl) (by rw [List.getElem?_map, e2]; rfl) c hcm
  rw [hsum, ← (hp.map _).sum_nat]
  exact_mod_cast hcl

/-- C126, on the command line.  `abiftool -f abif -t irvjson FILE` prints the candidates and votes of every round (`rounds`, `paperTop`) and the winners.
If there is one winner and the count is clear cut, then everybody who was eliminated before one of the rounds may be crossed off the file: whatever
happens by chance, the same command on the new file prints the same winner. -/
theorem C126_cli (env : CliEnv) (p : List PaperLine) (file : Str) (h : PaperOk p) (hl : (paperText p).length < 4999999998) (hf : PlainWord file)
    (hh : Holds env file (paperText p)) (hs : PaperStrict p) (hne : paperCands p ≠ []) (hnil : [] ∉ paperCands p) :
    ∃ (doc : Json) (rounds : List (List Str)) (winners : List Str), CommandPrints env (command c!"irvjson" [] file) doc ∧ member c!"winner" doc = some (texts winners) ∧
      (∀ k C, rounds[k]? = some C → ∃ o, valueAt doc [.key c!"rounds", .idx k] = some o ∧ keysOf o = C ∧
        ∀ x ∈ C, member x o = some (.int (paperTop p C x))) ∧
      (∀ k, rounds.length ≤ k → valueAt doc [.key c!"rounds", .idx k] = none) ∧
      ∀ w, winners = [w] → PaperClearCut p rounds → ∀ (k : Nat) (K : List Str), rounds[k]? = some K → (∃ v ∈ paperVotes p, namesOneOf K v.2 = true) →
        ∀ (env' : CliEnv) (file' : Str), PlainWord file' → Holds env' file' (paperText (crossedPaper K p)) →
          (paperText (crossedPaper K p)).length < 4999999998 →
          ∃ doc', CommandPrints env' (command c!"irvjson" [] file') doc' ∧ member c!"winner" doc' = some (texts [w]) := by
  obtain ⟨a, m, vls, h1, h2, h3, h4, h5, h6, h7, h8⟩ := paper_runs (format := c!"irvjson") (mods := []) h (by show _ ∈ _; decide) (by simp) hf hh
  have he := paper_strictElection hl hs hnil h4 h5 h6 h7
  have hcne : m.candidates ≠ [] := by
    intro hz
    rw [hz] at h7
    exact hne h7.symm
  obtain ⟨d, hd, _⟩ := C28_parsed env.sched _ _ _ _ _ h4 hcne
  obtain ⟨doc, g1, _, _, g4, _, _, g7, _, g9, _⟩ := C90_irv env a _ m d h2 (parsed_cands_nodup _ _ _ _ _ h4) hd (.inl h3)
  obtain ⟨_, hlen, hround⟩ := paper_runoff h h5 h6 h7 he hd
  refine ⟨doc, d.run.roundmeta.map RoundMeta.startingCands, d.run.winner, h1 doc g1, g4, ?_, ?_, ?_⟩
  · intro k C hC
    rw [List.getElem?_map] at hC
    obtain ⟨rm, e1, rfl⟩ := Option.map_eq_some_iff.1 hC
    obtain ⟨cnt, c1, c2, _, c3, _⟩ := hround k rm e1
    obtain ⟨o, o1, o2, o3⟩ := g7 k cnt c1
    exact ⟨o, o1, by rw [o2, c2], fun x hx => o3 x _ (c3 x hx)⟩
  · intro k hk
    rw [List.length_map, hlen] at hk
    exact g9 k hk
  · intro w hw hcut k K hK hnames env' file' hf' hh' hl'
    rw [List.getElem?_map] at hK
    obtain ⟨rm, e1, rfl⟩ := Option.map_eq_some_iff.1 hK
    obtain ⟨a', m', vls', i1, i2, i3, i4, i5, i6, i7, i8⟩ :=
      paper_runs (format := c!"irvjson") (mods := []) (crossed_ok h hnames) (by show _ ∈ _; decide) (by simp) hf' hh'
    obtain ⟨m2, d', j1, j2, j3⟩ := C126_paper env.sched env'.sched p h hs hnil hl m d h4 hd k rm e1 (clearCut_paper h h5 h6 h7 he hd hcut) w hw hl' hnames
    rw [i4] at j1
    cases j1
    obtain ⟨doc', k1, _, _, k4, _⟩ := C90_irv env' a' _ m' d' i2 (parsed_cands_nodup _ _ _ _ _ i4) j2 (.inl i3)
    exact ⟨doc', i1 doc' k1, by rw [← j3]; exact k4⟩
end

section
attribute [local instance] Uni.ascii
set_option maxRecDepth 40000
/-- the last two hypotheses of `C126_cli` are met -/
example : (∃ v ∈ paperVotes leaverPaper, namesOneOf [c!"B", c!"A"] v.2 = true) ∧
    PaperClearCut leaverPaper [[c!"B", c!"A", c!"L", c!"C"], [c!"B", c!"A", c!"L"], [c!"B", c!"A"]] := by
  refine ⟨by decide +kernel, ?_⟩
  have key : ∀ k < 3, ∀ C ∈ [[c!"B", c!"A", c!"L", c!"C"], [c!"B", c!"A", c!"L"], [c!"B", c!"A"]][k]?.toList,
      ∀ C' ∈ [[c!"B", c!"A", c!"L", c!"C"], [c!"B", c!"A", c!"L"], [c!"B", c!"A"]][k + 1]?.toList,
      ∀ c ∈ C', ((C.filter (fun e => decide (e ∉ C'))).map (paperTop leaverPaper C)).sum < paperTop leaverPaper C c := by decide +kernel
  intro k C C' h h'
  exact key k (List.getElem?_eq_some_iff.1 h).1 C (by simp [h]) C' (by simp [h'])
end
end Verif.Props
