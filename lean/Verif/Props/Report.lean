/-
C63-C67: the text reports.
-/
import Verif.Model.Report
import Verif.Props.Tally
import Verif.Lib.StrLe
import Verif.Lib.Output

set_option linter.unusedSimpArgs false
set_option linter.unusedVariables false

namespace Verif.Props
open Verif Verif.Spec

/-- a candidate's name as it is printed -/
def printedName (m : Jabmod) (c : Str) : Str :=
  match m.candidates.get? c with
  | some (some n) => n
  | _ => c!"None"

/-- the line of a report for a candidate -/
def reportLine (unit : Str) (score voters : Int) (name : Str) : Str :=
  c!"- " ++ intStr score ++ c!" " ++ unit ++ c!" (from " ++ intStr voters ++ c!" voters) -- " ++ name ++ c!"\n"

theorem nameFmt_printed {m : Jabmod} {c : Str} {n : Option Str} (h : m.candidates.get? c = some n) :
    nameFmt n = printedName m c := by
  unfold nameFmt printedName
  rw [h]
  cases n <;> rfl

section
variable [U : Uni]

theorem scoreEntry_get {m : Jabmod} {c : Str} {n : Option Str} (hc : m.candidates.get? c = some n) :
    Dict.getE (m.candidates.map (fun kv => (kv.1, ({ candname := kv.2, score := scoreOf m kv.1, votercount := ratersOf m kv.1 } : ScoreEntry)))) c =
        .ok { candname := n, score := scoreOf m c, votercount := ratersOf m c } := by
  apply Dict.getE_of_get?
  rw [Dict.get?_map m.candidates (fun k n => ({ candname := n, score := scoreOf m k, votercount := ratersOf m k } : ScoreEntry)), hc]
  rfl

theorem scoreLines_eq (unit : Str) (m : Jabmod) (l : List Str) (h : ∀ c ∈ l, c ∈ m.candidates.keys) :
    l.mapM (scoreLine unit (m.candidates.map (fun kv => (kv.1, ({ candname := kv.2, score := scoreOf m kv.1, votercount := ratersOf m kv.1 } : ScoreEntry))))) =
      .ok (l.map (fun c => reportLine unit (scoreOf m c) (ratersOf m c) (printedName m c))) := by
  apply mapM_eq_map
  intro c hc
  obtain ⟨n, hn⟩ := Dict.exists_get?_of_mem (h c hc)
  unfold scoreLine
  rw [scoreEntry_get hn, ok_bind]
  unfold reportLine
  rw [nameFmt_printed hn]

/-- C63: the score report has one line for every candidate, by score from the highest down (equal scores in table
order), with the candidate's score, the number of voters rating it above zero and its name, then the number of voters
and the name of a candidate with the highest score. -/
theorem C63_score (m : Jabmod) (h : Scorable m) (bc : Json) (hbc : m.metadata.get? c!"ballotcount" = some bc)
    (hne : m.candidates ≠ []) :
    ∃ w rest, (w :: rest).Perm m.candidates.keys ∧ (w :: rest).Pairwise (fun a b => scoreOf m b ≤ scoreOf m a) ∧
      (∀ s, (w :: rest).filter (fun c => decide (scoreOf m c = s)) = m.candidates.keys.filter (fun c => decide (scoreOf m c = s))) ∧
      scoreReport m = .ok ((w :: rest).flatMap (fun c => reportLine c!"points" (scoreOf m c) (ratersOf m c) (printedName m c)) ++
        (c!"Voter count: " ++ jsonFmt bc ++ c!"\n") ++ (c!"Score Winner: " ++ printedName m w ++ c!"\n")) := by
  have hperm := sortByKeyDesc_perm (scoreOf m) m.candidates.keys
  have hsorted := sortByKeyDesc_sorted (scoreOf m) m.candidates.keys
  have hstable := fun s => sortByKeyDesc_stable (scoreOf m) m.candidates.keys s
  obtain ⟨w, rest, hl⟩ : ∃ w rest, sortByKeyDesc (scoreOf m) m.candidates.keys = w :: rest := by
    cases hs : sortByKeyDesc (scoreOf m) m.candidates.keys with
    | nil =>
      exfalso
      have := hperm.length_eq
      rw [hs] at this
      apply hne
      cases hc : m.candidates with
      | nil => rfl
      | cons a t => rw [hc] at this; simp [Dict.keys] at this
    | cons w rest => exact ⟨w, rest, rfl⟩
  have hmem : ∀ c ∈ w :: rest, c ∈ m.candidates.keys := by
    intro c hc; rw [← hl] at hc; exact hperm.mem_iff.1 hc
  obtain ⟨n, hn⟩ := Dict.exists_get?_of_mem (hmem w List.mem_cons_self)
  rw [hl] at hperm hsorted
  refine ⟨w, rest, hperm, hsorted, fun s => by rw [← hl]; exact hstable s, ?_⟩
  unfold scoreReport
  rw [Dict.getE_of_get? hbc, ok_bind, enhancedScore_eq m h bc hbc, ok_bind]
  simp only
  rw [hl, scoreLines_eq _ m _ hmem, ok_bind]
  simp only
  rw [scoreEntry_get hn, ok_bind]
  rw [nameFmt_printed hn, List.flatMap_def]

/-- how the number of voters (`jsonFmt` in the reports) appears: a number in decimal, a text as it is, and what JSON input may
give besides as Python shows it -/
theorem C63_count_shown : (∀ i, jsonFmt (.int i) = intStr i) ∧ (∀ s, jsonFmt (.str s) = s) ∧ jsonFmt .null = c!"None" ∧
    jsonFmt (.bool true) = c!"True" ∧ jsonFmt (.bool false) = c!"False" := ⟨fun _ => rfl, fun _ => rfl, rfl, rfl, rfl⟩

/-- without candidates there is no score report -/
theorem C63_no_candidates (m : Jabmod) (h : Scorable m) (bc : Json) (hbc : m.metadata.get? c!"ballotcount" = some bc)
    (hne : m.candidates = []) : scoreReport m = .error .indexError := by
  unfold scoreReport
  rw [Dict.getE_of_get? hbc, ok_bind, enhancedScore_eq m h bc hbc, ok_bind]
  simp only
  rw [hne]
  rfl

/-- C64: the STAR report has the number of voters; one line for every candidate by score from the highest down, with
score, number of raters and name; the two finalists, the first two of that order, each with the number of voters
preferring it to the other; the number of voters preferring neither; and the name of the finalist preferred by more
voters, or both names after the word `tie`. -/
theorem C64_star (m : Jabmod) (h : Scorable m) (hr : Spec.AllRanked m)
    (hbc : m.metadata.get? c!"ballotcount" = some (.int (m.votelines.map Voteline.qty).sum))
    (h2 : 2 ≤ m.candidates.length) :
    ∃ f1 f2 rest winner, (f1 :: f2 :: rest).Perm m.candidates.keys ∧
      (f1 :: f2 :: rest).Pairwise (fun a b => scoreOf m b ≤ scoreOf m a) ∧
      (support m f2 f1 < support m f1 f2 ∧ winner = printedName m f1 ∨
        support m f1 f2 < support m f2 f1 ∧ winner = printedName m f2 ∨
        support m f1 f2 = support m f2 f1 ∧ winner = c!"tie " ++ printedName m f1 ++ c!" and " ++ printedName m f2) ∧
      starReport m = .ok (c!"Total voters: " ++ intStr (m.votelines.map Voteline.qty).sum ++ c!"\n" ++ c!"Scores:\n" ++
        (f1 :: f2 :: rest).flatMap (fun c => reportLine c!"stars" (scoreOf m c) (ratersOf m c) (printedName m c)) ++
        c!"Finalists: \n" ++
        (c!"- " ++ printedName m f1 ++ c!" preferred by " ++ intStr (support m f1 f2) ++ c!" of " ++
          intStr (m.votelines.map Voteline.qty).sum ++ c!" voters\n") ++
        (c!"- " ++ printedName m f2 ++ c!" preferred by " ++ intStr (support m f2 f1) ++ c!" of " ++
          intStr (m.votelines.map Voteline.qty).sum ++ c!" voters\n") ++
        (c!"- " ++ intStr (qtySum (fun vl => indifferent vl f1 f2) m.votelines) ++ c!" abstentions\n") ++
        (c!"STAR Winner: " ++ winner ++ c!"\n")) := by
  obtain ⟨r, hstar, m1, m2, hne, hn1, hn2, _, _, hv1, hv2, hw, habs, _⟩ := C26_star m h hr hbc h2
  have hperm := sortByKeyDesc_perm (scoreOf m) m.candidates.keys
  have hsorted := sortByKeyDesc_sorted (scoreOf m) m.candidates.keys
  -- the score part
  obtain ⟨hbase, rest, hl⟩ : r.base = {
        scores := m.candidates.map (fun kv => (kv.1, { candname := kv.2, score := scoreOf m kv.1, votercount := ratersOf m kv.1 })),
        ranks := scoreRanks none 0 (sortByKeyDesc (fun (kv : Str × ScoreEntry) => kv.2.score)
          (m.candidates.map (fun kv => (kv.1, { candname := kv.2, score := scoreOf m kv.1, votercount := ratersOf m kv.1 })))),
        ranklist := sortByKeyDesc (scoreOf m) m.candidates.keys,
        totalAllScores := (m.candidates.keys.map (scoreOf m)).sum, totalvoters := .int (m.votelines.map Voteline.qty).sum } ∧
      ∃ rest, sortByKeyDesc (scoreOf m) m.candidates.keys = r.fin1 :: r.fin2 :: rest := by
    have hs := hstar
    unfold starResult at hs
    rw [enhancedScore_eq m h _ hbc, ok_bind, fullCopecount_eq m h.cands, ok_bind] at hs
    simp only at hs
    match hs' : sortByKeyDesc (scoreOf m) m.candidates.keys with
    | [] => rw [hs'] at hs; simp at hs
    | [x] => rw [hs'] at hs; simp at hs
    | f1 :: f2 :: rest =>
      rw [hs'] at hs
      simp only at hs
      obtain ⟨e1, g1, hs⟩ := bind_ok.1 hs
      obtain ⟨e2, g2, hs⟩ := bind_ok.1 hs
      obtain ⟨v1, g3, hs⟩ := bind_ok.1 hs
      obtain ⟨v2, g4, hs⟩ := bind_ok.1 hs
      cases v1 with
      | none => simp at hs
      | some v1 =>
        cases v2 with
        | none => simp at hs
        | some v2 =>
          simp only [Except.ok.injEq] at hs
          rw [← hs]
          exact ⟨rfl, rest, rfl⟩
  rw [hl] at hperm hsorted
  have hmem : ∀ c ∈ r.fin1 :: r.fin2 :: rest, c ∈ m.candidates.keys := fun c hc => hperm.mem_iff.1 hc
  refine ⟨r.fin1, r.fin2, rest, r.winner.text, hperm, hsorted, ?_, ?_⟩
  · rw [← hv1, ← hv2]
    rcases hw with ⟨a, b⟩ | ⟨a, b⟩ | ⟨a, b⟩
    · refine .inl ⟨b, ?_⟩
      rw [a]; exact nameFmt_printed hn1
    · refine .inr (.inl ⟨b, ?_⟩)
      rw [a]; exact nameFmt_printed hn2
    · refine .inr (.inr ⟨b, ?_⟩)
      rw [a]
      show c!"tie " ++ nameFmt r.fin1n ++ c!" and " ++ nameFmt r.fin2n = _
      rw [nameFmt_printed hn1, nameFmt_printed hn2]
  · unfold starReport
    rw [hstar, ok_bind]
    simp only
    rw [hbase]
    simp only
    rw [hl, scoreLines_eq _ m _ hmem, ok_bind]
    rw [nameFmt_printed hn1, nameFmt_printed hn2, hv1, hv2, habs, List.flatMap_def]
    rfl

end

/-- the doubled Copeland score as the program counts it: two for every opponent beaten and two for every tie -/
def programScore2 (m : Jabmod) (c : Str) : Int :=
  2 * countOpp m.candidates.keys c (fun b => decide (support m c b > support m b c)) +
  2 * countOpp m.candidates.keys c (fun b => decide (support m c b = support m b c))

/-- how many candidates `c` beats -/
def beaten (m : Jabmod) (c : Str) : Int :=
  countOpp m.candidates.keys c (fun b => decide (support m c b > support m b c))

/-- the head of a stable descending sort: everything else has a smaller key, or the same and comes later -/
theorem head_sortByKeyDesc {α : Type} (key : α → Int) (l : List α) {x : α} {rest : List α} (h : sortByKeyDesc key l = x :: rest) :
    ∀ y ∈ rest, key y < key x ∨ (key y = key x ∧ [x, y].Sublist l) := by
  intro y hy
  have hs := sortByKeyDesc_sorted key l
  rw [h, List.pairwise_cons] at hs
  rcases Int.lt_or_eq_of_le (hs.1 y hy) with hlt | heq
  · exact .inl hlt
  · refine .inr ⟨heq, ?_⟩
    have hst := sortByKeyDesc_stable key l (key x)
    rw [h] at hst
    have h1 : [x, y].Sublist (x :: rest) := (List.singleton_sublist.2 hy).cons_cons x
    have h2 := h1.filter (fun z => decide (key z = key x))
    rw [hst] at h2
    have : [x, y].filter (fun z => decide (key z = key x)) = [x, y] := by simp [heq]
    rw [this] at h2
    exact h2.trans List.filter_sublist

/-- two entries of equal key keep their order in a stable sort -/
theorem order_sortByKeyDesc {α : Type} (key : α → Int) (l : List α) {x y : α} (h : [x, y].Sublist (sortByKeyDesc key l)) :
    key y < key x ∨ (key y = key x ∧ [x, y].Sublist l) := by
  have hs := (sortByKeyDesc_sorted key l).sublist h
  simp only [List.pairwise_cons, List.mem_singleton, forall_eq] at hs
  rcases Int.lt_or_eq_of_le hs.1 with hlt | heq
  · exact .inl hlt
  · refine .inr ⟨heq, ?_⟩
    have h2 := h.filter (fun z => decide (key z = key x))
    rw [sortByKeyDesc_stable] at h2
    have : [x, y].filter (fun z => decide (key z = key x)) = [x, y] := by simp [heq]
    rw [this] at h2
    exact h2.trans List.filter_sublist

/-- C65, what the program does in every case: the report names one candidate and its score as the program counts
it; any other candidate has a smaller score, or the same score and fewer wins, or the same score and wins and
comes later in the candidate table. -/
theorem C65_exact (m : Jabmod) (hr : Spec.AllRanked m) (hn : m.candidates.keys.Nodup) (hne : m.candidates.keys ≠ []) :
    ∃ cc c, fullCopecount m = .ok cc ∧ c ∈ m.candidates.keys ∧
      (∀ b ∈ m.candidates.keys, b ≠ c → programScore2 m b < programScore2 m c ∨ (programScore2 m b = programScore2 m c ∧
        (beaten m b < beaten m c ∨ (beaten m b = beaten m c ∧ [c, b].Sublist m.candidates.keys)))) ∧
      copelandReport m.candidates cc =
        .ok (c!"Copeland Winner: " ++ printedName m c ++ c!" (score: " ++ intStr (programScore2 m c / 2) ++ c!".0)\n") := by
  have hcell : ∀ a b, a ∈ m.candidates.keys → b ∈ m.candidates.keys → a ≠ b → cellNum (pairwiseCount m) a b = support m a b := by
    intro a b ha hb hab
    unfold cellNum
    rw [pairwiseCount_support m hr, pairGet_matrixOf ha hb, if_neg hab]
  have hcount : ∀ (c : Str) (f g : Str → Bool), (∀ b ∈ m.candidates.keys, b ≠ c → f b = g b) →
      countOpp m.candidates.keys c f = countOpp m.candidates.keys c g := by
    intro c f g h
    unfold countOpp
    congr 2
    apply List.filter_congr
    intro b hb
    by_cases hbc : b = c
    · simp [hbc]
    · simp [hbc, h b hb hbc]
  have hw : ∀ c ∈ m.candidates.keys, (wltOf m.candidates.keys (cellNum (pairwiseCount m)) c).wins = beaten m c := by
    intro c hc
    apply hcount
    intro b hb hbc
    rw [hcell c b hc hb (fun e => hbc e.symm), hcell b c hb hc hbc]
  have hs2 : ∀ c ∈ m.candidates.keys, 2 * (wltOf m.candidates.keys (cellNum (pairwiseCount m)) c).wins +
      (wltOf m.candidates.keys (cellNum (pairwiseCount m)) c).ties = programScore2 m c := by
    intro c hc
    rw [hw c hc]
    unfold programScore2 beaten wltOf
    simp only
    congr 2
    apply hcount
    intro b hb hbc
    rw [hcell c b hc hb (fun e => hbc e.symm), hcell b c hb hc hbc]
  generalize hW : (fun c => wltOf m.candidates.keys (cellNum (pairwiseCount m)) c) = W at *
  have hW' : ∀ c, wltOf m.candidates.keys (cellNum (pairwiseCount m)) c = W c := fun c => congrFun hW c
  simp only [hW'] at hw hs2
  have hcc := fullCopecount_eq m hn
  simp only [hW'] at hcc
  generalize hL : m.candidates.keys.map (fun c => (c, W c)) = L at hcc
  have hLm : ∀ e ∈ L, e.1 ∈ m.candidates.keys ∧ e.2 = W e.1 := by
    intro e he
    rw [← hL] at he
    obtain ⟨c, hc, rfl⟩ := List.mem_map.1 he
    exact ⟨hc, rfl⟩
  have hLfst : L.map Prod.fst = m.candidates.keys := by
    rw [← hL, List.map_map]; simp [Function.comp_def]
  generalize hw1 : sortByKeyDesc (fun kv : Str × WLT => kv.2.wins) L = w at hcc
  have hwm : ∀ e, e ∈ w ↔ e ∈ L := by
    intro e; rw [← hw1]; exact (sortByKeyDesc_perm _ _).mem_iff
  cases hsc : copelandScores2 w with
  | nil =>
    have hl := (sortByKeyDesc_perm Prod.snd (w.map fun kv => (kv.1, 2 * kv.2.wins + kv.2.ties))).length_eq
    unfold copelandScores2 at hsc
    rw [hsc, List.length_map, ← hw1, (sortByKeyDesc_perm _ _).length_eq, ← hL, List.length_map] at hl
    exact absurd (List.length_eq_zero_iff.1 hl.symm) hne
  | cons e rest =>
    obtain ⟨c, s⟩ := e
    have hall : ∀ x, x ∈ copelandScores2 w ↔ ∃ b ∈ m.candidates.keys, x = (b, programScore2 m b) := by
      intro x
      unfold copelandScores2
      rw [(sortByKeyDesc_perm _ _).mem_iff, List.mem_map]
      constructor
      · rintro ⟨e, he, rfl⟩
        obtain ⟨h1, h2⟩ := hLm e ((hwm e).1 he)
        exact ⟨e.1, h1, by rw [h2, hs2 _ h1]⟩
      · rintro ⟨b, hb, rfl⟩
        exact ⟨(b, W b), (hwm _).2 (by rw [← hL]; exact List.mem_map_of_mem hb), by simp only; rw [hs2 b hb]⟩
    obtain ⟨c', hc, he⟩ := (hall (c, s)).1 (by rw [hsc]; exact List.mem_cons_self)
    cases he
    obtain ⟨n, hcn⟩ := Dict.exists_get?_of_mem hc
    refine ⟨_, c, hcc, hc, ?_, ?_⟩
    · intro b hb hbc
      have hbm := (hall _).2 ⟨b, hb, rfl⟩
      rw [hsc] at hbm
      rcases List.mem_cons.1 hbm with h1 | hbr
      · exact absurd (Prod.mk.inj h1).1 hbc
      · have := head_sortByKeyDesc Prod.snd _ (show sortByKeyDesc Prod.snd (w.map fun kv => (kv.1, 2 * kv.2.wins + kv.2.ties)) = _ from hsc) _ hbr
        rcases this with h1 | ⟨h1, h2⟩
        · exact .inl h1
        · refine .inr ⟨h1, ?_⟩
          obtain ⟨q, hq1, hq2⟩ := List.sublist_map_iff.1 h2
          have hlen := congrArg List.length hq2
          simp only [List.length_map, List.length_cons, List.length_nil] at hlen
          match q, hq2, hlen with
          | [x, y], hq2, _ =>
            simp only [List.map_cons, List.map_nil, List.cons.injEq, Prod.mk.injEq, and_true] at hq2
            obtain ⟨⟨rfl, _⟩, ⟨rfl, _⟩⟩ := hq2
            rw [← hw1] at hq1
            have hx : x ∈ L := (hwm x).1 (by rw [← hw1]; exact hq1.subset (by simp))
            have hy : y ∈ L := (hwm y).1 (by rw [← hw1]; exact hq1.subset (by simp))
            rcases order_sortByKeyDesc _ L hq1 with h3 | ⟨h3, h4⟩
            · left
              rw [(hLm x hx).2, (hLm y hy).2, hw _ (hLm x hx).1, hw _ (hLm y hy).1] at h3
              exact h3
            · right
              rw [(hLm x hx).2, (hLm y hy).2, hw _ (hLm x hx).1, hw _ (hLm y hy).1] at h3
              refine ⟨h3, ?_⟩
              have := h4.map Prod.fst
              rwa [hLfst] at this
    · unfold copelandReport
      simp only [hsc]
      rw [Dict.getE_of_get? hcn, ok_bind]
      rw [nameFmt_printed hcn]
      have : programScore2 m c % 2 = 0 := by unfold programScore2; omega
      unfold halfStr
      rw [if_pos this]
      simp [List.append_assoc]

/-- C65, partial: the Copeland report names one candidate with the highest score, and that score as a number with one
decimal.  Missing from the full C65: other candidates with the same score are not named (`C65_refuted`; `C65_exact`
says which one is), and the score counts ties as whole wins (`C22_refuted`). -/
theorem C65_partial (m : Jabmod) (hr : Spec.AllRanked m) (hn : m.candidates.keys.Nodup) (hne : m.candidates.keys ≠ []) :
    ∃ cc c, fullCopecount m = .ok cc ∧ c ∈ m.candidates.keys ∧
      (∀ b ∈ m.candidates.keys, programScore2 m b ≤ programScore2 m c) ∧
      copelandReport m.candidates cc =
        .ok (c!"Copeland Winner: " ++ printedName m c ++ c!" (score: " ++ intStr (programScore2 m c / 2) ++ c!".0)\n") := by
  obtain ⟨cc, c, h1, h2, h3, h4⟩ := C65_exact m hr hn hne
  refine ⟨cc, c, h1, h2, ?_, h4⟩
  intro b hb
  by_cases hbc : b = c
  · rw [hbc]; exact Int.le_refl _
  · rcases h3 b hb hbc with h | ⟨h, _⟩ <;> omega

/-- C66: the candidate list has one line for every candidate of the table, with token and name, in order of the
tokens. -/
theorem C66_candlist (m : Jabmod) :
    ∃ l : List (Str × Option Str), l.Perm m.candidates ∧ l.Pairwise (fun a b => strLe a.1 b.1 = true) ∧
      candlistText m = c!"Candidates:\n" ++ l.flatMap (fun kv => c!"  " ++ kv.1 ++ c!": " ++ kv.2.getD c!"None" ++ c!"\n") := by
  refine ⟨pySort (fun a b => strLe a.1 b.1) m.candidates, pySort_perm _ _, ?_, ?_⟩
  · exact pySort_sorted ⟨fun a b => strLe_total a.1 b.1, fun a b c => strLe_trans a.1 b.1 c.1⟩ _
  · unfold candlistText
    congr 2
    funext kv
    cases kv.2 <;> rfl

/-! ### examples -/

section
attribute [local instance] Uni.ascii
set_option maxRecDepth 40000

/-- a parsed election for the examples -/
def reportText : Str := c!"=A:[Al]\n=B:[Bea]\n2:A/5>B/3\n1:B/4>A/0\n"

example : ((convertAbif true false false reportText).bind scoreReport).toOption =
    some c!"- 10 points (from 2 voters) -- Al\n- 10 points (from 3 voters) -- Bea\nVoter count: 3\nScore Winner: Al\n" := by
  decide +kernel

example : ((convertAbif true false false reportText).bind starReport).toOption =
    some c!"Total voters: 3\nScores:\n- 10 stars (from 2 voters) -- Al\n- 10 stars (from 3 voters) -- Bea\nFinalists: \n- Al preferred by 2 of 3 voters\n- Bea preferred by 1 of 3 voters\n- 0 abstentions\nSTAR Winner: Al\n" := by
  decide +kernel

example : ((convertAbif true false false reportText).bind fun m => (fullCopecount m).bind (copelandReport m.candidates)).toOption =
    some c!"Copeland Winner: Al (score: 1.0)\n" := by
  decide +kernel

example : ((convertAbif true false false c!"=B:[Bea]\n1:B>A\n").toOption.map candlistText) =
    some c!"Candidates:\n  A: A\n  B: Bea\n" := by
  decide +kernel

/-- C65 is false of the program: of two candidates tied for the highest Copeland score only the first is named. -/
theorem C65_refuted : ∃ text m cc, convertAbif true false false text = .ok m ∧ fullCopecount m = .ok cc ∧
    (copelandWinners cc.winlosstie).toOption = some [c!"A", c!"B"] ∧
    (copelandReport m.candidates cc).toOption = some c!"Copeland Winner: A (score: 1.0)\n" :=
  ⟨c!"1:A>B\n1:B>A\n", _, _, rfl, rfl, by decide +kernel, by decide +kernel⟩

end
end Verif.Props
