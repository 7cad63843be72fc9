/-
Helper lemmas: reading a written election.
-/
import Verif.Spec.Paper
import Verif.Spec.Tally
import Verif.Lib.Tiers
import Mathlib.Data.List.Nodup

set_option linter.unusedSimpArgs false
set_option linter.unusedSectionVars false

namespace Verif
open Spec

theorem joinStr_two (sep x y : Str) (t : List Str) : joinStr sep (x :: y :: t) = x ++ sep ++ joinStr sep (y :: t) := rfl
theorem joinStr_single (sep x : Str) : joinStr sep [x] = x := rfl

section
variable [U : Uni]

/-! ### how ballots are written -/

theorem writeItems_same (d : Char) {t : List Item} (ht : t ≠ []) :
    writeItems t (List.replicate (t.length - 1) d) = joinStr [d] (t.map Item.text) := by
  induction t with
  | nil => exact absurd rfl ht
  | cons c t ih =>
    cases t with
    | nil => simp [writeItems, joinStr]
    | cons u r =>
      have := ih (by simp)
      simp only [List.length_cons, Nat.add_sub_cancel, List.map_cons] at this ⊢
      rw [List.replicate_succ, writeItems_cons, this, joinStr_two]
      simp

theorem writeItems_then {t ts : List Item} (ht : t ≠ []) (hts : ts ≠ []) (ds : List Char) :
    writeItems (t ++ ts) (List.replicate (t.length - 1) '=' ++ '>' :: ds) =
      joinStr ['='] (t.map Item.text) ++ '>' :: writeItems ts ds := by
  induction t with
  | nil => exact absurd rfl ht
  | cons c t ih =>
    cases t with
    | nil =>
      cases ts with
      | nil => exact absurd rfl hts
      | cons x xs => simp [writeItems_cons, joinStr]
    | cons u r =>
      have := ih (by simp)
      simp only [List.length_cons, Nat.add_sub_cancel, List.map_cons, List.cons_append] at this ⊢
      rw [List.replicate_succ, List.cons_append, writeItems_cons, this, joinStr_two]
      simp

/-- the tokens of the tiers -/
def tierToks (tiers : List (List Item)) : List (List Str) := tiers.map (fun t => t.map Item.tok)

theorem tierToks_flatten (tiers : List (List Item)) : (tierToks tiers).flatten = tiers.flatten.map Item.tok := by
  unfold tierToks
  rw [List.map_flatten]

theorem writeItems_ranked {tiers : List (List Item)} (hne : tiers ≠ []) (h : ∀ t ∈ tiers, t ≠ []) :
    writeItems tiers.flatten (tierDelims (tierToks tiers)) = (Ballot.ranked tiers).text := by
  induction tiers with
  | nil => exact absurd rfl hne
  | cons t tiers ih =>
    cases tiers with
    | nil =>
      simp only [tierToks, List.map_cons, List.map_nil, tierDelims, List.flatten_cons, List.flatten_nil, List.append_nil, List.length_map,
        Ballot.text, joinStr_single]
      exact writeItems_same '=' (h t (by simp))
    | cons u r =>
      have hu : (u :: r).flatten ≠ [] := by
        have := h u (by simp)
        simp [this]
      have ih := ih (by simp) (fun t ht => h t (by simp [ht]))
      simp only [tierToks, List.map_cons, tierDelims, List.length_map] at ih ⊢
      rw [List.flatten_cons, writeItems_then (h t (by simp)) hu, ih]
      simp only [Ballot.text, List.map_cons, joinStr_two, List.append_assoc, List.cons_append, List.nil_append]

/-! ### what they say -/

/-- the rank of a candidate on tiers counted from `k` -/
def tierRankAt : List (List Item) → Nat → Str → Option Int
  | [], _, _ => none
  | t :: ts, k, x => if onTier t x then some ((k : Int) + 1) else tierRankAt ts (k + 1) x

theorem tierRankAt_le {tiers : List (List Item)} {k : Nat} {x : Str} {r : Int} (h : tierRankAt tiers k x = some r) : (k : Int) + 1 ≤ r := by
  induction tiers generalizing k with
  | nil => cases h
  | cons t ts ih =>
    unfold tierRankAt at h
    split at h
    · simp at h; omega
    · have := ih h; push_cast at this; omega

/-- comparing two ranks -/
def rankBefore : Option Int → Option Int → Bool
  | some a, some b => decide (a < b)
  | some _, none => true
  | none, _ => false

theorem prefers_rankBefore (vl : Voteline) (x y : Str) : prefers vl x y = rankBefore (rankOf vl x) (rankOf vl y) := by
  unfold prefers rankBefore
  cases rankOf vl x <;> cases rankOf vl y <;> rfl

theorem tierAbove_rank (tiers : List (List Item)) (k : Nat) (x y : Str) :
    rankBefore (tierRankAt tiers k x) (tierRankAt tiers k y) = tierAbove tiers x y := by
  induction tiers generalizing k with
  | nil => rfl
  | cons t ts ih =>
    unfold tierRankAt tierAbove
    by_cases hx : onTier t x = true
    · rw [if_pos hx, if_pos hx]
      by_cases hy : onTier t y = true
      · rw [if_pos hy, hy]; simp [rankBefore]
      · rw [if_neg hy]
        simp only [Bool.not_eq_true] at hy
        rw [hy]
        cases hr : tierRankAt ts (k + 1) y with
        | none => rfl
        | some r =>
          have := tierRankAt_le hr
          push_cast at this
          simp [rankBefore]; omega
    · rw [if_neg hx, if_neg hx]
      by_cases hy : onTier t y = true
      · rw [if_pos hy, if_pos hy]
        cases hr : tierRankAt ts (k + 1) x with
        | none => rfl
        | some r =>
          have := tierRankAt_le hr
          push_cast at this
          simp [rankBefore]; omega
      · rw [if_neg hy, if_neg hy]
        exact ih (k + 1)

theorem get?_tier (t : List Item) (v : Option Int) (rest : List (Str × Option Int)) (x : Str) :
    Dict.get? (t.map (fun it => (it.tok, v)) ++ rest : Dict Str (Option Int)) x = if onTier t x then some v else Dict.get? rest x := by
  induction t with
  | nil => simp [onTier]
  | cons it t ih =>
    simp only [List.map_cons, List.cons_append, onTier, List.any_cons] at ih ⊢
    rw [Dict.get?]
    by_cases h : it.tok = x
    · simp [h]
    · have h' : ¬ x = it.tok := fun e => h e.symm
      simp only [h, h', if_false, decide_false, Bool.false_or]
      exact ih

theorem get?_tierRanks (tiers : List (List Item)) (k : Nat) (x : Str) :
    (Dict.get? (((tierToks tiers).zipIdx k).flatMap (fun ti => ti.1.map (fun c => (c, some ((ti.2 : Int) + 1)))) : Dict Str (Option Int)) x).bind id =
      tierRankAt tiers k x := by
  induction tiers generalizing k with
  | nil => rfl
  | cons t ts ih =>
    have e : (t.map Item.tok).map (fun c => (c, some ((k : Int) + 1))) = t.map (fun it => (it.tok, some ((k : Int) + 1))) := by
      rw [List.map_map]; rfl
    simp only [tierToks, List.map_cons, List.zipIdx_cons, List.flatMap_cons]
    rw [e, get?_tier]
    unfold tierRankAt
    split
    · rfl
    · exact ih (k + 1)

theorem rankOf_ranks (vl : Voteline) (x : Str) : rankOf vl x = (Dict.get? (ranksOf vl : Dict Str (Option Int)) x).bind id := by
  unfold rankOf ranksOf
  rw [Dict.get?_map vl.prefs (fun _ p => p.rank) x]
  cases Dict.get? vl.prefs x <;> rfl

/-- distinct larger numbers -/
theorem denseRank_lt {l : List Int} {a b : Int} (ha : a ∈ l) (hb : b ∈ l) : denseRank l a < denseRank l b ↔ b < a := by
  have mono : ∀ {a b : Int}, a ∈ l → b < a → denseRank l a < denseRank l b := by
    intro a b ha hlt
    unfold denseRank
    have n1 := nodup_firsts (l.filter (fun y => decide (a < y)))
    have n2 := nodup_firsts (l.filter (fun y => decide (b < y)))
    have hsub : (a :: firsts (l.filter (fun y => decide (a < y)))).Subperm (firsts (l.filter (fun y => decide (b < y)))) := by
      apply List.subperm_of_subset
      · rw [List.nodup_cons]
        refine ⟨?_, n1⟩
        rw [mem_firsts]
        simp
      · intro z hz
        rw [mem_firsts, List.mem_filter]
        rcases List.mem_cons.1 hz with rfl | hz
        · exact ⟨ha, by simpa using hlt⟩
        · rw [mem_firsts, List.mem_filter] at hz
          refine ⟨hz.1, ?_⟩
          have := of_decide_eq_true hz.2
          exact decide_eq_true (by omega)
    have := hsub.length_le
    simp only [List.length_cons] at this
    omega
  constructor
  · intro h
    rcases Int.lt_trichotomy b a with h1 | h1 | h1
    · exact h1
    · subst h1; omega
    · have := mono hb h1; omega
  · exact mono ha

/-- the preference map the program makes of the written candidates -/
theorem parse_ballot {b : Ballot} (h : b.Ok) : ∃ prefs, parsePrefstr b.text = .ok (prefs, b.items.map Item.tok) ∧
    Dict.keys prefs = b.items.map Item.tok ∧ (∀ it ∈ b.items, ∃ p, Dict.get? prefs it.tok = some p ∧ p.rating = it.value) ∧
    ∀ vl : Voteline, vl.prefs = prefs → ∀ x y, prefers vl x y = b.above x y := by
  have hkeys : ∀ (its : List Item) (ds : List Char), Dict.keys (its.zipIdx.map (fun x => (x.1.tok, itemEntry its ds x))) = its.map Item.tok := by
    intro its ds
    unfold Dict.keys
    rw [List.map_map]
    have : (Prod.fst ∘ fun x : Item × Nat => (x.1.tok, itemEntry its ds x)) = Item.tok ∘ Prod.fst := rfl
    rw [this, ← List.map_map, List.zipIdx_map_fst]
  have hval : ∀ (its : List Item) (ds : List Char), (its.map Item.tok).Nodup → ∀ it ∈ its,
      ∃ j, Dict.get? (its.zipIdx.map (fun x => (x.1.tok, itemEntry its ds x))) it.tok = some (itemEntry its ds (it, j)) := by
    intro its ds hn it hit
    obtain ⟨j, hj, rfl⟩ := List.getElem_of_mem hit
    refine ⟨j, Dict.get?_of_mem (by unfold Dict.WF; rw [hkeys]; exact hn) ?_⟩
    refine List.mem_map.2 ⟨(its[j], j), ?_, rfl⟩
    rw [List.mem_zipIdx_iff_getElem?]
    simp [hj]
  cases b with
  | ranked tiers =>
    by_cases hne : tiers = []
    · subst hne
      obtain ⟨prefs, cands, h1, h2, h3, h4⟩ := parsePrefstr_tiers (tiers := []) (post := []) (by simp) (by simp) (by simp) (by simp)
      have hp : prefs = [] := by
        have : prefs.map (fun kp => (kp.1, kp.2.rank)) = [] := h2
        simpa using this
      subst hp
      subst h4
      refine ⟨[], h1, rfl, by simp [Ballot.items], ?_⟩
      intro vl hvl x y
      have : rankOf vl x = none := by unfold rankOf; rw [hvl]; rfl
      rw [prefers_rankBefore, this]
      rfl
    · have ht : ∀ t ∈ tiers, t ≠ [] := h.tiers _ rfl
      have ht' : ∀ t ∈ tierToks tiers, t ≠ [] := by
        intro t hm
        obtain ⟨u, hu, rfl⟩ := List.mem_map.1 hm
        simpa using ht u hu
      have hlen := tierDelims_length (tiers := tierToks tiers) (by simpa [tierToks] using hne) ht'
      rw [tierToks_flatten, List.length_map] at hlen
      have hd : ∀ d ∈ tierDelims (tierToks tiers), d = '>' ∨ d = '=' ∨ d = ',' := fun d hd => by
        rcases tierDelims_mem d hd with h | h
        · exact .inl h
        · exact .inr (.inl h)
      have hnd : (tiers.flatten.map Item.tok).Nodup := h.nodup
      have hp := parsePrefstr_items (its := tiers.flatten) (ds := tierDelims (tierToks tiers)) (fun it hit => (h.items it hit).1) hd hlen hnd
      rw [writeItems_ranked hne ht] at hp
      refine ⟨_, hp, hkeys _ _, ?_, ?_⟩
      · intro it hit
        obtain ⟨j, hj⟩ := hval _ (tierDelims (tierToks tiers)) hnd it hit
        exact ⟨_, hj, rfl⟩
      · intro vl hvl x y
        have hr : ranksOf vl = tierRanks (tierToks tiers) := by
          unfold ranksOf
          rw [hvl, List.map_map]
          have := tier_ranks (tiers := tierToks tiers) ht' [] 0
          unfold tierRanks
          rw [← this]
          have hh : (tierDelims (tierToks tiers)).head? ≠ some ',' := by
            intro hh
            rcases tierDelims_mem _ (List.mem_of_head? hh) with h | h <;> exact absurd h (by decide)
          have e1 : (tokItems [] (tierToks tiers).flatten).zipIdx.map (fun x => (x.1.tok, some (1 + ((0 : Nat) : Int) + (((tierDelims (tierToks tiers)).take x.2).count '>' : Nat)))) =
              (tierToks tiers).flatten.zipIdx.map (fun x => (x.1, some (1 + ((0 : Nat) : Int) + (((tierDelims (tierToks tiers)).take x.2).count '>' : Nat)))) := by
            conv => rhs; rw [← tokItems_tok [] (tierToks tiers).flatten]
            rw [List.zipIdx_map, List.map_map]
            rfl
          rw [e1, tierToks_flatten, List.zipIdx_map, List.map_map]
          apply List.map_congr_left
          rintro ⟨it, j⟩ hx
          simp [itemEntry, itemRank, hh]
        have hx : ∀ z, rankOf vl z = tierRankAt tiers 0 z := by
          intro z
          rw [rankOf_ranks, hr]
          exact get?_tierRanks tiers 0 z
        rw [prefers_rankBefore, hx, hx]
        exact tierAbove_rank tiers 0 x y
  | scored its =>
    have h2 : 2 ≤ its.length := h.two _ rfl
    have hne : its ≠ [] := by rintro rfl; simp at h2
    have hd : ∀ d ∈ List.replicate (its.length - 1) ',', d = '>' ∨ d = '=' ∨ d = ',' := fun d hd => .inr (.inr (List.mem_replicate.1 hd).2)
    have hnd : (its.map Item.tok).Nodup := h.nodup
    have hp := parsePrefstr_items (its := its) (ds := List.replicate (its.length - 1) ',') (fun it hit => (h.items it hit).1) hd (by simp; omega) hnd
    rw [writeItems_same ',' hne] at hp
    refine ⟨_, hp, hkeys _ _, ?_, ?_⟩
    · intro it hit
      obtain ⟨j, hj⟩ := hval _ (List.replicate (its.length - 1) ',') hnd it hit
      exact ⟨_, hj, rfl⟩
    · intro vl hvl x y
      have hh : (List.replicate (its.length - 1) ',').head? = some ',' := by
        obtain ⟨n, hn⟩ : ∃ n, its.length - 1 = n + 1 := ⟨its.length - 2, by omega⟩
        rw [hn]; rfl
      have hrank : ∀ it ∈ its, rankOf vl it.tok = some (denseRank (its.map Item.number) it.number) := by
        intro it hit
        obtain ⟨j, hj⟩ := hval its (List.replicate (its.length - 1) ',') hnd it hit
        unfold rankOf
        rw [hvl, hj]
        simp [itemEntry, itemRank, hh]
      have hnone : ∀ z, z ∉ its.map Item.tok → rankOf vl z = none := by
        intro z hz
        unfold rankOf
        have : Dict.get? vl.prefs z = none := by
          rw [hvl]
          exact Dict.get?_eq_none.2 (by rw [hkeys]; exact hz)
        rw [this]; rfl
      rw [prefers_rankBefore]
      unfold Ballot.above
      simp only
      by_cases hx : x ∈ its.map Item.tok
      · obtain ⟨i, hi, rfl⟩ := List.mem_map.1 hx
        have uniq : ∀ i' ∈ its, i'.tok = i.tok → i' = i := fun i' hi' e => List.inj_on_of_nodup_map hnd hi' hi e
        rw [hrank i hi, Bool.eq_iff_iff, List.any_eq_true]
        by_cases hy : y ∈ its.map Item.tok
        · obtain ⟨j, hj, rfl⟩ := List.mem_map.1 hy
          have uniqj : ∀ j' ∈ its, j'.tok = j.tok → j' = j := fun i' hi' e => List.inj_on_of_nodup_map hnd hi' hj e
          rw [hrank j hj]
          simp only [rankBefore, decide_eq_true_eq]
          rw [denseRank_lt (List.mem_map_of_mem hi) (List.mem_map_of_mem hj)]
          constructor
          · intro hlt
            refine ⟨i, hi, ?_⟩
            simp only [decide_true, Bool.true_and, List.all_eq_true, Bool.or_eq_true, Bool.not_eq_true', decide_eq_false_iff_not, decide_eq_true_eq]
            intro j' hj'
            by_cases he : j'.tok = j.tok
            · right; rw [uniqj j' hj' he]; exact hlt
            · exact .inl he
          · rintro ⟨i', hi', hq⟩
            simp only [Bool.and_eq_true, decide_eq_true_eq, List.all_eq_true, Bool.or_eq_true, Bool.not_eq_true', decide_eq_false_iff_not] at hq
            obtain rfl := uniq i' hi' hq.1
            rcases hq.2 j hj with he | he
            · exact absurd rfl he
            · exact he
        · rw [hnone y hy]
          simp only [rankBefore, true_iff]
          refine ⟨i, hi, ?_⟩
          simp only [decide_true, Bool.true_and, List.all_eq_true, Bool.or_eq_true, Bool.not_eq_true', decide_eq_false_iff_not, decide_eq_true_eq]
          intro j hj
          exact .inl (fun e => hy (List.mem_map.2 ⟨j, hj, e⟩))
      · rw [hnone x hx]
        have : (its.any fun i => decide (i.tok = x) && its.all fun j => !decide (j.tok = y) || decide (j.number < i.number)) = false := by
          rw [List.any_eq_false]
          intro i hi
          have : ¬ i.tok = x := fun e => hx (List.mem_map.2 ⟨i, hi, e⟩)
          simp [this]
        rw [this]; rfl

/-! ### lines -/

theorem ballotText_ok {b : Ballot} (h : b.Ok) : ∀ c ∈ b.text, isLineBreak c = false ∧ c ≠ '#' := by
  intro c hc
  cases b with
  | ranked tiers =>
    rcases joinStr_mem hc with hc | ⟨q, hq, hc⟩
    · simp at hc; subst hc; decide
    · obtain ⟨t, ht, rfl⟩ := List.mem_map.1 hq
      rcases joinStr_mem hc with hc | ⟨q, hq, hc⟩
      · simp at hc; subst hc; decide
      · obtain ⟨it, hit, rfl⟩ := List.mem_map.1 hq
        exact (h.items it (List.mem_flatten.2 ⟨t, ht, hit⟩)).2 c hc
  | scored its =>
    rcases joinStr_mem hc with hc | ⟨q, hq, hc⟩
    · simp at hc; subst hc; decide
    · obtain ⟨it, hit, rfl⟩ := List.mem_map.1 hq
      exact (h.items it hit).2 c hc

theorem paperLine_noBreak {l : PaperLine} (h : l.Ok) : ∀ c ∈ l.text, isLineBreak c = false := by
  cases l with
  | cand tok name => exact (declLine_facts h).1
  | note t => exact h.1
  | ballots n b com =>
    intro c hc
    have hn : c ∈ natStr n → isLineBreak c = false := fun hc => digit_not_break ((natStr_spec n).2.1 c hc)
    cases com with
    | none =>
      simp only [PaperLine.text, List.mem_append, List.mem_cons] at hc
      rcases hc with hc | rfl | hc
      · exact hn hc
      · decide
      · exact (ballotText_ok h.1 c hc).1
    | some t =>
      simp only [PaperLine.text, List.mem_append, List.mem_cons] at hc
      rcases hc with hc | rfl | hc | rfl | hc
      · exact hn hc
      · decide
      · exact (ballotText_ok h.1 c hc).1
      · decide
      · exact h.2 t rfl c hc

/-- the line as the program sees it -/
def seenLine (cw : Bool) (l : PaperLine) : Str := if cw then lstrip l.text else l.text

theorem seen_of_head {cw : Bool} {l : PaperLine} (h : ∀ c, l.text.head? = some c → isSpace c = false) : seenLine cw l = l.text := by
  unfold seenLine
  split
  · exact lstrip_of_head h
  · rfl

theorem head_natStr (n : Nat) (t : Str) : ∀ c, (natStr n ++ t).head? = some c → isSpace c = false := by
  intro c hc
  obtain ⟨h1, h2, _⟩ := natStr_spec n
  cases hn : natStr n with
  | nil => exact absurd hn h1
  | cons a r =>
    rw [hn] at hc
    simp at hc
    subst hc
    exact digit_not_space (h2 a (by rw [hn]; simp))

theorem seen_ballots {cw : Bool} {n : Nat} {b : Ballot} {com : Option Str} (h : (PaperLine.ballots n b com).Ok) :
    readVote (beforeHash (seenLine cw (.ballots n b com))) = some (natStr n, b.text) := by
  have hs : seenLine cw (.ballots n b com) = (PaperLine.ballots n b com).text := by
    apply seen_of_head
    cases com <;> exact head_natStr n _
  obtain ⟨h1, h2, _⟩ := natStr_spec n
  have hn : '#' ∉ natStr n ++ ':' :: b.text := by
    simp only [List.mem_append, List.mem_cons, not_or]
    exact ⟨fun hc => digit_ne_hash (h2 _ hc) rfl, by decide, fun hc => (ballotText_ok h.1 _ hc).2 rfl⟩
  rw [hs]
  cases com with
  | none =>
    show readVote (beforeHash (natStr n ++ ':' :: b.text)) = _
    rw [beforeHash_of_not_mem hn, readVote_printed h1 h2]
  | some t =>
    have e : (PaperLine.ballots n b (some t)).text = (natStr n ++ ':' :: b.text) ++ '#' :: t := by simp [PaperLine.text]
    have e2 : beforeHash ('#' :: t) = [] := rfl
    rw [e, beforeHash_append hn, e2, List.append_nil, readVote_printed h1 h2]

theorem seen_cand {cw : Bool} {tok name : Str} (h : CandOk (tok, name)) :
    readCand (beforeHash (seenLine cw (.cand tok name))) = some (tok, name) ∧ readVote (beforeHash (seenLine cw (.cand tok name))) = none := by
  rw [seen_of_head (by intro c hc; simp [PaperLine.text, declLine] at hc; subst hc; decide)]
  exact (declLine_facts h).2

theorem read_blank {t : Str} (h : ∀ c ∈ t, isSpace c = true) : readCand (beforeHash t) = none ∧ readVote (beforeHash t) = none := by
  cases t with
  | nil => exact ⟨rfl, rfl⟩
  | cons a t =>
    have ha := h a (by simp)
    have h1 : a ≠ '#' := by rintro rfl; exact absurd ha (by decide)
    have h2 : a ≠ '=' := by rintro rfl; exact absurd ha (by decide)
    have h3 : isDigit a = false := by
      cases hd : isDigit a with
      | false => rfl
      | true => rw [digit_not_space hd] at ha; cases ha
    rw [beforeHash_cons h1]
    exact ⟨readCand_head_none h2, readVote_head_none h3⟩

theorem seen_note {cw : Bool} {t : Str} (h : (PaperLine.note t).Ok) :
    readCand (beforeHash (seenLine cw (.note t))) = none ∧ readVote (beforeHash (seenLine cw (.note t))) = none := by
  rcases h.2 with hb | hb | hb
  · refine read_blank ?_
    intro c hc
    unfold seenLine at hc
    split at hc
    · exact hb c (List.dropWhile_suffix _ |>.subset hc)
    · exact hb c hc
  · rw [seen_of_head (by intro c hc; rw [show (PaperLine.note t).text = t from rfl, hb] at hc; cases hc; decide)]
    cases t with
    | nil => cases hb
    | cons a t => simp at hb; subst hb; exact ⟨rfl, rfl⟩
  · rw [seen_of_head (by intro c hc; rw [show (PaperLine.note t).text = t from rfl, hb] at hc; cases hc; decide)]
    cases t with
    | nil => cases hb
    | cons a t =>
      simp at hb; subst hb
      show readCand (beforeHash ('{' :: t)) = none ∧ readVote (beforeHash ('{' :: t)) = none
      rw [beforeHash_cons (by decide)]
      exact ⟨readCand_head_none (by decide), readVote_brace _⟩

theorem textLines_paper {p : List PaperLine} (h : ∀ l ∈ p, l.Ok) (cw : Bool) : textLines cw (paperText p) = p.map (seenLine cw) := by
  unfold textLines paperText
  have e : p.flatMap (fun l => l.text ++ ['\n']) = (p.map PaperLine.text).flatMap (fun l => l ++ ['\n']) := by rw [List.flatMap_map]
  rw [e, splitlines_lines _ (by
    intro t ht
    obtain ⟨l, hl, rfl⟩ := List.mem_map.1 ht
    exact paperLine_noBreak (h l hl)), List.map_map]
  rfl

theorem mentions_paper {l : PaperLine} (h : l.Ok) (cw : Bool) : lineMentions (seenLine cw l) = l.mentions := by
  unfold lineMentions
  cases l with
  | cand tok name => rw [(seen_cand h).1]; rfl
  | note t => rw [(seen_note h).1, (seen_note h).2]; rfl
  | ballots n b com =>
    have hv := seen_ballots (cw := cw) h
    rw [readCand_none_of_vote hv, hv]
    obtain ⟨prefs, h1, h2, _⟩ := parse_ballot h.1
    show ballotCands b.text = b.items.map Item.tok
    unfold ballotCands
    rw [h1]
    exact h2

/-- the voteline holds the ballots of a line -/
def HoldsBallots (v : Nat × Ballot) (vl : Voteline) : Prop :=
  vl.qty = (v.1 : Int) ∧ (∀ x y, prefers vl x y = v.2.above x y) ∧ Dict.keys vl.prefs = v.2.items.map Item.tok ∧
    ∀ it ∈ v.2.items, ∃ p, Dict.get? vl.prefs it.tok = some p ∧ p.rating = it.value

theorem says_paper {p : List PaperLine} (h : ∀ l ∈ p, l.Ok) (cw : Bool) {vls : List Voteline}
    (f : List.Forall₂ SaysBallot ((p.map (seenLine cw)).filterMap Spec.lineVote) vls) : List.Forall₂ HoldsBallots (paperVotes p) vls := by
  induction p generalizing vls with
  | nil => cases f; exact .nil
  | cons l p ih =>
    have hl := h l (by simp)
    have hp : ∀ l ∈ p, l.Ok := fun l hl => h l (by simp [hl])
    rw [List.map_cons, List.filterMap_cons] at f
    cases l with
    | cand tok name =>
      have : Spec.lineVote (seenLine cw (.cand tok name)) = none := by unfold Spec.lineVote; rw [(seen_cand hl).2]; rfl
      rw [this] at f
      exact ih hp f
    | note t =>
      have : Spec.lineVote (seenLine cw (.note t)) = none := by unfold Spec.lineVote; rw [(seen_note hl).2]; rfl
      rw [this] at f
      exact ih hp f
    | ballots n b com =>
      have : Spec.lineVote (seenLine cw (.ballots n b com)) = some (natStr n, b.text, hashComment (seenLine cw (.ballots n b com))) := by
        unfold Spec.lineVote; rw [seen_ballots hl]; rfl
      rw [this] at f
      simp only at f
      cases f with
      | cons g1 g2 =>
        refine .cons ?_ (ih hp g2)
        obtain ⟨s1, ⟨cs, s2⟩, _⟩ := g1
        obtain ⟨prefs, h1, h2, h3, h4⟩ := parse_ballot hl.1
        simp only at s1 s2
        rw [h1] at s2
        have e := (Prod.mk.inj (Except.ok.inj s2)).1
        refine ⟨by rw [s1, (natStr_spec n).2.2], h4 _ e.symm, by rw [← e]; exact h2, by rw [← e]; exact h3⟩

theorem convertAbif_paper {p : List PaperLine} (h : PaperOk p) (cw : Bool) :
    ∃ m vls, convertAbif cw false false (paperText p) = .ok m ∧ List.Forall₂ HoldsBallots (paperVotes p) vls ∧ StableSortedDesc vls m.votelines ∧
      Dict.keys m.candidates = paperCands p ∧ (∀ x ∈ paperCands p, Dict.get? m.candidates x = some (some (paperName p x))) ∧
      Dict.get? m.metadata c!"ballotcount" = some (.int (vls.map Voteline.qty).sum) := by
  obtain ⟨hok, n0, b0, com0, hv0⟩ := h
  have hlines := textLines_paper hok cw
  obtain ⟨m, hm⟩ := convertAbif_total cw false (paperText p) (by
    rw [hlines]
    intro t ht q s hqs
    obtain ⟨l, hl, rfl⟩ := List.mem_map.1 ht
    have hlo := hok l hl
    cases l with
    | cand tok name => rw [(seen_cand hlo).2] at hqs; cases hqs
    | note t => rw [(seen_note hlo).2] at hqs; cases hqs
    | ballots n b com =>
      rw [seen_ballots hlo] at hqs
      cases hqs
      obtain ⟨prefs, h1, _⟩ := parse_ballot hlo.1
      exact ⟨_, h1⟩) (by
    unfold votesOf
    rw [hlines]
    intro hnil
    rw [List.filterMap_eq_nil_iff] at hnil
    have := hnil _ (List.mem_map_of_mem hv0)
    unfold Spec.lineVote at this
    rw [seen_ballots (hok _ hv0)] at this
    cases this)
  obtain ⟨vls, f1, _, f2, f3, f4, f5, _⟩ := convertAbif_ok hm
  unfold votesOf at f1
  rw [hlines] at f1 f3 f4
  have hk : Dict.keys m.candidates = paperCands p := by
    rw [f3]
    unfold paperCands
    rw [List.flatMap_map]
    congr 1
    apply List.flatMap_congr
    intro l hl
    exact mentions_paper (hok l hl) cw
  refine ⟨m, vls, hm, says_paper hok cw f1, f2 ▸ stableSorted vls, hk, ?_, f5⟩
  intro x hx
  rw [f4 x (by rw [hk]; exact hx)]
  unfold paperName declared
  have : (p.map (seenLine cw)).filterMap (fun l => readCand (beforeHash l)) = p.filterMap PaperLine.naming := by
    rw [List.filterMap_map]
    apply List.filterMap_congr
    intro l hl
    have hlo := hok l hl
    cases l with
    | cand tok name => exact (seen_cand hlo).1
    | note t => exact (seen_note hlo).1
    | ballots n b com => exact readCand_none_of_vote (seen_ballots hlo)
  rw [this]

end
end Verif
