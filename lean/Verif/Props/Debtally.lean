/-
C44: Debian tally sheet import.
-/
import Verif.Lib.Debtally
import Mathlib.Data.List.Nodup

set_option linter.unusedSimpArgs false
set_option linter.unusedSectionVars false

namespace Verif.Props
open Verif Spec

section
variable [U : Uni]

theorem sheet_lines {doc : List DLine} (h : ∀ l ∈ doc, l.Ok) : splitlines (sheetText doc) = doc.map DLine.text := by
  have : sheetText doc = (doc.map DLine.text).flatMap (fun l => l ++ ['\n']) := by
    unfold sheetText; rw [List.flatMap_map]
  rw [this]
  apply splitlines_lines
  intro l hl c hc
  obtain ⟨x, hx, rfl⟩ := List.mem_map.1 hl
  have hok := h x hx
  cases x with
  | opt pre k mid gap name => exact hok.2.2.2.2.2 c hc
  | vote ranks gap vid rest => exact hok.2.2.2.2.2.2.2 c hc
  | other t => exact hok.2.2 c hc

theorem debOptions_doc {doc : List DLine} (h : ∀ l ∈ doc, l.Ok) : debOptions (sheetText doc) = sheetNames doc := by
  unfold debOptions sheetNames
  rw [sheet_lines h, List.filterMap_map]
  apply List.filterMap_congr
  intro l hl
  have hok := h l hl
  cases l with
  | opt pre k mid gap name => exact debOption_opt hok
  | vote ranks gap vid rest => exact debOption_none hok.2.2.2.2.2.2.1
  | other t => exact debOption_none hok.1

theorem debVotes_doc {doc : List DLine} (h : ∀ l ∈ doc, l.Ok) :
    (splitlines (sheetText doc)).filterMap debVote = sheetVotes doc := by
  unfold sheetVotes
  rw [sheet_lines h, List.filterMap_map]
  apply List.filterMap_congr
  intro l hl
  have hok := h l hl
  cases l with
  | opt pre k mid gap name => exact debVote_none hok.2.1
  | vote ranks gap vid rest => exact debVote_vote hok
  | other t => exact debVote_none hok.2.1

theorem debTokens_length (sha : Str → Str) (names : List Str) : (debTokens sha names).length = names.length := by
  have : ∀ seen, (debTokensAux sha names seen).length = names.length := by
    induction names with
    | nil => intro _; rfl
    | cons o names ih => intro seen; simp [debTokensAux, ih]
  exact this []

/-- the line a metadata entry is written as -/
def debMetaLine (kv : Str × Str) : Str := c!"{\"" ++ kv.1 ++ c!"\": \"" ++ kv.2 ++ c!"\"}"

/-- C44.  The imported text: metadata lines, one declaration per option, and one voteline per vote, in sheet
order, with quantity 1, the voter id, and the options marked 1, then those marked 2, and so on. -/
theorem C44_text (sha : Str → Str) (metadata : List (Str × Str)) (doc : List DLine) (h : ∀ l ∈ doc, l.Ok)
    (hlen : ∀ v ∈ sheetVotes doc, NoExtra (sheetNames doc).length v.1) :
    convertDebtally sha metadata (sheetText doc) = .ok
      ((impFile (metadata.map debMetaLine) ((debTokens sha (sheetNames doc)).zip (sheetNames doc))
        ((sheetVotes doc).map (sheetBallot (debTokens sha (sheetNames doc))))).flatMap (fun l => l ++ ['\n'])) := by
  unfold convertDebtally
  rw [debOptions_doc h, debVotes_doc h]
  have hl := debTokens_length sha (sheetNames doc)
  simp only []
  generalize debTokens sha (sheetNames doc) = toks at hl ⊢
  have : (sheetVotes doc).mapM (debLine toks (sheetNames doc).length) =
      .ok ((sheetVotes doc).map (fun v => (sheetBallot toks v).line ++ ['\n'])) := by
    apply mapM_ok
    intro v hv
    unfold debLine
    rw [← hl]
    obtain ⟨ts, e1, e2⟩ := debTiers_extra (shorts := toks) (pref := v.1) (by rw [hl]; exact hlen v hv)
    rw [e1, ok_bind, e2]
    simp [sheetBallot, ImpVote.line, vidText, tierText]
  simp only [this]
  show Except.ok _ = Except.ok _
  congr 1
  unfold impFile
  simp only [List.flatMap_append, List.flatMap_cons, List.flatMap_nil, List.append_nil, List.flatMap_map,
    List.map_map, List.append_assoc, List.flatten_eq_flatMap]
  have e1 : List.flatMap (fun a : Str × Str => id ((sheetBallot toks a).line ++ ['\n'])) (sheetVotes doc) =
      List.flatMap (fun a => (ImpVote.line ∘ sheetBallot toks) a ++ ['\n']) (sheetVotes doc) := rfl
  rw [e1]
  congr 1
  · congr 1
    funext kv
    simp [debMetaLine]
  congr 1
  · congr 1
    funext sn
    simp [declLine]

/-- C44: a sheet with a vote that has a rank after its last option cannot be imported: an `IndexError`.  (With `C44_text`: a sheet is imported
exactly when there is no such vote.) -/
theorem C44_too_long (sha : Str → Str) (metadata : List (Str × Str)) (doc : List DLine) (h : ∀ l ∈ doc, l.Ok)
    (hbad : ∃ v ∈ sheetVotes doc, ¬ NoExtra (sheetNames doc).length v.1) :
    convertDebtally sha metadata (sheetText doc) = .error .indexError := by
  unfold convertDebtally
  rw [debOptions_doc h, debVotes_doc h]
  have hl := debTokens_length sha (sheetNames doc)
  simp only []
  generalize debTokens sha (sheetNames doc) = toks at hl ⊢
  have : (sheetVotes doc).mapM (debLine toks (sheetNames doc).length) = .error .indexError := by
    have hcase : ∀ (v : Str × Str) (l : List Nat), (∃ x, l.mapM (fun r => debTier toks v.1 (r + 1)) = .ok x) ∨
        l.mapM (fun r => debTier toks v.1 (r + 1)) = .error .indexError := by
      intro v l
      induction l with
      | nil => exact .inl ⟨_, rfl⟩
      | cons a l ih =>
        rw [List.mapM_cons]
        rcases debTier_cases toks v.1 (a + 1) with ⟨x, hx⟩ | hx
        · rcases ih with ⟨y, hy⟩ | hy
          · rw [hx, hy]; exact .inl ⟨_, rfl⟩
          · rw [hx, hy]; exact .inr rfl
        · rw [hx]; exact .inr rfl
    apply mapM_error
    · intro v _
      unfold debLine
      rcases hcase v (List.range (sheetNames doc).length) with ⟨x, hx⟩ | hx
      · rw [hx]; exact .inl ⟨_, rfl⟩
      · rw [hx]; exact .inr rfl
    · obtain ⟨v, hv, hx⟩ := hbad
      refine ⟨v, hv, ?_⟩
      unfold NoExtra at hx
      push Not at hx
      obtain ⟨i, d, hi, hd⟩ := hx
      rw [← hl] at hi hd
      have he := debTier_tooLong hi hd
      have : (List.range (sheetNames doc).length).mapM (fun r => debTier toks v.1 (r + 1)) = .error .indexError := by
        apply mapM_error
        · intro r _
          exact debTier_cases toks v.1 (r + 1)
        · refine ⟨d - 1, ?_, ?_⟩
          · rw [List.mem_range, ← hl]
            have := hd.1
            have := hd.2.2.1
            omega
          · have := hd.1
            rw [show d - 1 + 1 = d by omega]
            exact he
      unfold debLine
      rw [this]
      rfl
  rw [this]
  rfl

omit U in
/-- a vote with at most one character per option has no rank after the last option -/
theorem noExtra_short {n : Nat} {ranks : Str} (h : ranks.length ≤ n) : NoExtra n ranks := by
  intro i d hi hx
  have := hx.2.2.2
  rw [List.getElem?_eq_none (by omega)] at this
  cases this

/-! ### ranks -/

theorem tierRanks_range (f : Nat → List Str) (s m k : Nat) :
    ((((List.range' s m).map f).filter (fun t => decide (t ≠ []))).zipIdx k).flatMap (fun ti => ti.1.map (fun c => (c, some ((ti.2 : Int) + 1)))) =
      (List.range' s m).flatMap (fun r => (f r).map (fun c => (c, some (((k + ((List.range' s (r - s)).filter (fun x => decide (f x ≠ []))).length : Nat) : Int) + 1)))) := by
  induction m generalizing s k with
  | zero => rfl
  | succ m ih =>
    rw [List.range'_succ, List.map_cons, List.flatMap_cons]
    have tail : ∀ k', (List.range' (s + 1) m).flatMap (fun r => (f r).map (fun c => (c, some (((k' + ((List.range' (s + 1) (r - (s + 1))).filter (fun x => decide (f x ≠ []))).length : Nat) : Int) + 1)))) =
        (List.range' (s + 1) m).flatMap (fun r => (f r).map (fun c => (c, some (((k' - (if f s ≠ [] then 1 else 0) : Int) + ((List.range' s (r - s)).filter (fun x => decide (f x ≠ []))).length) + 1)))) := by
      intro k'
      apply List.flatMap_congr
      intro r hr
      rw [List.mem_range'] at hr
      obtain ⟨j, hj, rfl⟩ := hr
      have : s + 1 + 1 * j - s = (s + 1 + 1 * j - (s + 1)) + 1 := by omega
      rw [this, List.range'_succ, List.filter_cons]
      apply List.map_congr_left
      intro c _
      by_cases hs : f s ≠ []
      · simp only [hs, decide_true, if_true, List.length_cons, ne_eq, not_false_eq_true]
        congr 2
        push_cast
        omega
      · simp only [hs, decide_false, if_false, Bool.false_eq_true]
        congr 2
    by_cases hs : f s = []
    · rw [List.filter_cons_of_neg (by simp [hs]), ih, tail, hs]
      simp only [List.map_nil, List.nil_append]
      apply List.flatMap_congr
      intro r _
      apply List.map_congr_left
      intro c _
      simp
    · rw [List.filter_cons_of_pos (by simp [hs]), List.zipIdx_cons, List.flatMap_cons, ih, tail]
      congr 1
      · simp
      · apply List.flatMap_congr
        intro r _
        apply List.map_congr_left
        intro c _
        rw [if_pos hs]
        congr 2
        push_cast
        omega

theorem rankChar_inj {a b : Nat} (ha : a < 10) (hb : b < 10) (h : rankChar a = rankChar b) : a = b := by
  have : ∀ a < 10, ∀ b < 10, rankChar a = rankChar b → a = b := by decide
  exact this a ha b hb h

/-- the options marked with a rank -/
theorem marked_mem {toks : List Str} {ranks : Str} {r : Nat} {c : Str} :
    c ∈ ((toks.zip ranks).filter (fun tc => decide (tc.2 = rankChar r))).map Prod.fst ↔
      ∃ i : Nat, toks[i]? = some c ∧ ranks[i]? = some (rankChar r) := by
  rw [List.mem_map]
  constructor
  · rintro ⟨⟨a, b⟩, h, rfl⟩
    rw [List.mem_filter] at h
    obtain ⟨h1, h2⟩ := h
    simp only [decide_eq_true_eq] at h2
    subst h2
    obtain ⟨i, hi⟩ := List.mem_iff_getElem?.1 h1
    rw [List.getElem?_zip_eq_some] at hi
    exact ⟨i, hi.1, hi.2⟩
  · rintro ⟨i, h1, h2⟩
    refine ⟨(c, rankChar r), ?_, rfl⟩
    rw [List.mem_filter]
    exact ⟨List.mem_iff_getElem?.2 ⟨i, List.getElem?_zip_eq_some.2 ⟨h1, h2⟩⟩, by simp⟩

theorem zip_fst_sublist {α β : Type} (a : List α) (b : List β) : ((a.zip b).map Prod.fst).Sublist a := by
  induction a generalizing b with
  | nil => simp
  | cons x a ih =>
    cases b with
    | nil => simp
    | cons y b => simpa using ih b

/-- the number of ranks below `d` that the vote uses for an option -/
def usedBelow (n : Nat) (ranks : Str) (d : Nat) : Nat :=
  ((List.range' 1 (d - 1)).filter (fun r => decide (rankChar r ∈ ranks.take n))).length

theorem marked_ne_nil {toks : List Str} {ranks : Str} {r : Nat} :
    ((toks.zip ranks).filter (fun tc => decide (tc.2 = rankChar r))).map Prod.fst ≠ [] ↔ rankChar r ∈ ranks.take toks.length := by
  constructor
  · intro h
    obtain ⟨c, hc⟩ := List.exists_mem_of_ne_nil _ h
    obtain ⟨i, h1, h2⟩ := marked_mem.1 hc
    have hi : i < toks.length := (List.getElem?_eq_some_iff.1 h1).1
    rw [List.mem_iff_getElem?]
    exact ⟨i, by rw [List.getElem?_take_of_lt hi]; exact h2⟩
  · intro h
    obtain ⟨i, hi⟩ := List.mem_iff_getElem?.1 h
    have hlt : i < toks.length := by
      have := (List.getElem?_eq_some_iff.1 hi).1
      simp only [List.length_take] at this
      omega
    rw [List.getElem?_take_of_lt hlt] at hi
    exact List.ne_nil_of_mem (marked_mem.2 ⟨i, List.getElem?_eq_getElem hlt, hi⟩)

theorem sheet_ranks (toks : List Str) (ranks : Str) (c : Str) (x : Option Int) :
    (c, x) ∈ tierRanks (sheetTiers toks ranks) ↔
      ∃ (i d : Nat), toks[i]? = some c ∧ RankedAs toks.length ranks i d ∧ x = some ((usedBelow toks.length ranks d : Int) + 1) := by
  unfold tierRanks sheetTiers
  rw [tierRanks_range]
  simp only [List.mem_flatMap, List.mem_map, Prod.mk.injEq]
  constructor
  · rintro ⟨r, hr, a, ha, rfl, rfl⟩
    rw [List.mem_range'] at hr
    obtain ⟨j, hj, rfl⟩ := hr
    have ha : a ∈ ((toks.zip ranks).filter (fun tc => decide (tc.2 = rankChar (1 + 1 * j)))).map Prod.fst := by
      rw [List.mem_map]; exact ha
    obtain ⟨i, h1, h2⟩ := marked_mem.1 ha
    refine ⟨i, 1 + 1 * j, h1, ⟨by omega, by omega, by omega, h2⟩, ?_⟩
    unfold usedBelow
    simp only [marked_ne_nil, Nat.zero_add]
  · rintro ⟨i, d, h1, ⟨d1, d2, d3, d4⟩, rfl⟩
    refine ⟨d, ?_, c, ?_, rfl, ?_⟩
    · rw [List.mem_range']
      exact ⟨d - 1, by omega, by omega⟩
    · have := marked_mem.2 ⟨i, h1, d4⟩
      rw [List.mem_map] at this
      exact this
    · unfold usedBelow
      simp only [marked_ne_nil, Nat.zero_add]

theorem usedBelow_lt {n : Nat} {ranks : Str} {d e : Nat} (hd : 1 ≤ d) (hu : rankChar d ∈ ranks.take n) (h : d < e) :
    usedBelow n ranks d < usedBelow n ranks e := by
  unfold usedBelow
  obtain ⟨k, rfl⟩ : ∃ k, e = d + 1 + k := ⟨e - d - 1, by omega⟩
  have : d + 1 + k - 1 = (d - 1) + (1 + k) := by omega
  rw [this, ← List.range'_append_1, List.filter_append, List.length_append]
  have e2 : List.range' (1 + (d - 1)) (1 + k) = d :: List.range' (d + 1) k := by
    have : 1 + (d - 1) = d := by omega
    rw [this, Nat.add_comm 1 k, List.range'_succ]
  rw [e2, List.filter_cons_of_pos (by simpa using hu), List.length_cons]
  omega

theorem rankedAs_used {n : Nat} {ranks : Str} {i d : Nat} (hi : i < n) (h : RankedAs n ranks i d) : rankChar d ∈ ranks.take n := by
  rw [List.mem_iff_getElem?]
  exact ⟨i, by rw [List.getElem?_take_of_lt hi]; exact h.2.2.2⟩

theorem rankedAs_unique {n : Nat} {ranks : Str} {i d e : Nat} (h : RankedAs n ranks i d) (h' : RankedAs n ranks i e) : d = e := by
  have := h.2.2.2.symm.trans h'.2.2.2
  exact rankChar_inj (by have := h.2.1; omega) (by have := h'.2.1; omega) (Option.some.inj this)

/-- what the voteline of a vote must look like over the tokens of the options -/
def SheetBallot (toks : List Str) (ranks vid : Str) (vl : Voteline) : Prop :=
  vl.qty = 1 ∧ vl.voterid = some vid ∧ (∀ kp ∈ vl.prefs, kp.2.rating = none) ∧
  -- exactly the ranked options are on the ballot, each with some rank
  (∀ i c, toks[i]? = some c → ((∃ d, RankedAs toks.length ranks i d) ↔ ∃ r, (c, some r) ∈ ranksOf vl)) ∧
  (∀ e ∈ ranksOf vl, ∃ (i : Nat) (r : Int), toks[i]? = some e.1 ∧ e.2 = some r) ∧
  -- one option is ranked above another if and only if its digit is smaller
  (∀ i j c c' d d' r r', toks[i]? = some c → toks[j]? = some c' → RankedAs toks.length ranks i d → RankedAs toks.length ranks j d' →
    (c, some r) ∈ ranksOf vl → (c', some r') ∈ ranksOf vl → (r < r' ↔ d < d'))

/-- the ballots of a sheet can be printed and read -/
theorem sheet_ballots_ok (sha : Str → Str) (doc : List DLine) (h : ∀ l ∈ doc, l.Ok) (hnd : (debTokens sha (sheetNames doc)).Nodup)
    (hc : ∀ cn ∈ (debTokens sha (sheetNames doc)).zip (sheetNames doc), CandOk cn) :
    ∀ v ∈ (sheetVotes doc).map (sheetBallot (debTokens sha (sheetNames doc))), v.Ok ∧ ∀ t ∈ v.tiers.flatten, t ∈ debTokens sha (sheetNames doc) := by
  have hl := debTokens_length sha (sheetNames doc)
  set toks := debTokens sha (sheetNames doc) with htoks
  have htier : ∀ v t, t ∈ (sheetTiers toks v).flatten → t ∈ toks := by
    intro v t ht
    obtain ⟨tier, h1, h2⟩ := List.mem_flatten.1 ht
    unfold sheetTiers at h1
    rw [List.mem_filter, List.mem_map] at h1
    obtain ⟨⟨r, _, rfl⟩, _⟩ := h1
    obtain ⟨i, h1, _⟩ := marked_mem.1 h2
    exact List.mem_of_getElem? h1
  have hok : ∀ v ∈ (sheetVotes doc).map (sheetBallot toks), v.Ok := by
    intro v hv
    obtain ⟨w, hw, rfl⟩ := List.mem_map.1 hv
    refine ⟨by simp [sheetBallot], ?_, ?_, ?_, ?_, ?_⟩
    · intro c hc
      simp only [sheetBallot, List.mem_singleton] at hc
      subst hc
      simp [isDigit, decVal, isAscii, isAsciiDigit]
    · intro t ht
      simp only [sheetBallot, sheetTiers, List.mem_filter] at ht
      simpa using ht.2
    · intro c hcc
      have := htier w.1 c hcc
      obtain ⟨i, hi⟩ := List.mem_iff_getElem?.1 this
      have hlt : i < toks.length := (List.getElem?_eq_some_iff.1 hi).1
      have hm : (c, (sheetNames doc)[i]'(by omega)) ∈ toks.zip (sheetNames doc) := by
        rw [List.mem_iff_getElem?]
        exact ⟨i, List.getElem?_zip_eq_some.2 ⟨hi, List.getElem?_eq_getElem (by omega)⟩⟩
      exact (hc _ hm).1
    · -- no option is marked twice
      show (sheetTiers toks w.1).flatten.Nodup
      unfold sheetTiers
      rw [List.nodup_flatten]
      constructor
      · intro t ht
        rw [List.mem_filter, List.mem_map] at ht
        obtain ⟨⟨r, _, rfl⟩, _⟩ := ht
        have : (((toks.zip w.1).filter (fun tc => decide (tc.2 = rankChar r))).map Prod.fst).Sublist ((toks.zip w.1).map Prod.fst) :=
          List.filter_sublist.map _
        apply this.nodup
        apply List.Nodup.sublist _ hnd
        exact zip_fst_sublist _ _
      · apply List.Pairwise.sublist List.filter_sublist
        rw [List.pairwise_map]
        have hp : (List.range' 1 (min 9 toks.length)).Pairwise (fun a b => a < b ∧ a < 10 ∧ b < 10) := by
          have h1 : (List.range' 1 (min 9 toks.length)).Pairwise (· < ·) := List.pairwise_lt_range'
          apply h1.imp_of_mem
          intro a b ha hb hab
          rw [List.mem_range'] at ha hb
          obtain ⟨_, _, rfl⟩ := ha
          obtain ⟨_, _, rfl⟩ := hb
          omega
        apply hp.imp
        rintro a b ⟨hab, ha, hb⟩
        rw [List.disjoint_iff_ne]
        rintro c hc c' hc' rfl
        obtain ⟨i, i1, i2⟩ := marked_mem.1 hc
        obtain ⟨j, j1, j2⟩ := marked_mem.1 hc'
        have hi : i < toks.length := (List.getElem?_eq_some_iff.1 i1).1
        have hij : i = j := (List.getElem?_inj hi hnd).1 (i1.trans j1.symm)
        subst hij
        have := rankChar_inj ha hb (Option.some.inj (i2.symm.trans j2))
        omega
    · intro x hx
      simp only [sheetBallot, Option.some.injEq] at hx
      subst hx
      unfold sheetVotes at hw
      obtain ⟨l, hl1, hl2⟩ := List.mem_filterMap.1 hw
      have hlok := h l hl1
      cases l with
      | opt pre k mid gap name => cases hl2
      | other t => cases hl2
      | vote ranks gap vid rest =>
        simp only [Option.some.injEq] at hl2
        subst hl2
        exact ⟨hlok.2.2.2.1, hlok.2.2.2.2.1⟩
  intro v hv
  refine ⟨hok v hv, ?_⟩
  obtain ⟨w, hw, rfl⟩ := List.mem_map.1 hv
  exact htier w.1

/-- metadata lines of a sheet -/
theorem debMetaLine_facts {kv : Str × Str} (h : ∀ c ∈ kv.1 ++ kv.2, isLineBreak c = false) :
    (debMetaLine kv).head? = some '{' ∧ ∀ c ∈ debMetaLine kv, isLineBreak c = false := by
  refine ⟨rfl, ?_⟩
  intro c hc
  unfold debMetaLine at hc
  simp only [List.mem_append, List.mem_cons, List.not_mem_nil, or_false] at hc
  rcases hc with (((h1 | h1) | h1) | h1) | h1
  · rcases h1 with rfl | rfl <;> decide
  · exact h c (by simp [h1])
  · rcases h1 with rfl | rfl | rfl | rfl <;> decide
  · exact h c (by simp [h1])
  · rcases h1 with rfl | rfl <;> decide

/-- C44 (partial: rank characters other than the digits 1 to the number of options count as unranked, see
`C44_refuted`; tokens must be distinct, see C45).  Reading the imported text gives one voteline per vote, in
stable order, with quantity 1 and the voter id, which has exactly the ranked options and orders them by their
digits; the candidate table has the tokens with the full names. -/
theorem C44_model_partial (sha : Str → Str) (metadata : List (Str × Str)) (doc : List DLine) (h : ∀ l ∈ doc, l.Ok)
    (hmd : ∀ kv ∈ metadata, ∀ c ∈ kv.1 ++ kv.2, isLineBreak c = false)
    (hlen : ∀ v ∈ sheetVotes doc, NoExtra (sheetNames doc).length v.1) (hne : sheetVotes doc ≠ [])
    (hnd : (debTokens sha (sheetNames doc)).Nodup)
    (hc : ∀ cn ∈ (debTokens sha (sheetNames doc)).zip (sheetNames doc), CandOk cn) :
    ∃ text m vls, convertDebtally sha metadata (sheetText doc) = .ok text ∧ convertAbif false false false text = .ok m ∧
      List.Forall₂ (fun (v : Str × Str) (vl : Voteline) => SheetBallot (debTokens sha (sheetNames doc)) v.1 v.2 vl) (sheetVotes doc) vls ∧
      StableSortedDesc vls m.votelines ∧
      m.candidates = ((debTokens sha (sheetNames doc)).zip (sheetNames doc)).map (fun cn => (cn.1, some cn.2)) := by
  have hl := debTokens_length sha (sheetNames doc)
  have htext := C44_text sha metadata doc h hlen
  set toks := debTokens sha (sheetNames doc) with htoks
  have hfst : (toks.zip (sheetNames doc)).map Prod.fst = toks := by
    rw [List.map_fst_zip]; omega
  have hbal := sheet_ballots_ok sha doc h hnd hc
  rw [← htoks] at hbal
  obtain ⟨m, vls, g1, g2, g3, g4⟩ := convertAbif_impFile (metas := metadata.map debMetaLine) (cands := toks.zip (sheetNames doc))
    (votes := (sheetVotes doc).map (sheetBallot toks)) (by
      intro l hl
      obtain ⟨kv, hkv, rfl⟩ := List.mem_map.1 hl
      exact debMetaLine_facts (hmd kv hkv)) hc (by rw [hfst]; exact hnd) (fun v hv => (hbal v hv).1)
    (by
      intro v hv t ht
      rw [hfst]
      exact (hbal v hv).2 t ht)
    (by simpa using hne)
  refine ⟨_, m, vls, htext, g1, ?_, g3, g4⟩
  rw [List.forall₂_map_left_iff] at g2
  refine g2.imp ?_
  rintro v vl ⟨s1, s2, s3, s4⟩
  have hr : ∀ c x, (c, x) ∈ ranksOf vl ↔
      ∃ (i d : Nat), toks[i]? = some c ∧ RankedAs toks.length v.1 i d ∧ x = some ((usedBelow toks.length v.1 d : Int) + 1) := by
    intro c x
    rw [s2]
    exact sheet_ranks toks v.1 c x
  have huniq : ∀ (i j : Nat) (c : Str), toks[i]? = some c → toks[j]? = some c → i = j := by
    intro i j c hi hj
    exact (List.getElem?_inj (List.getElem?_eq_some_iff.1 hi).1 hnd).1 (hi.trans hj.symm)
  refine ⟨?_, s4, s3, ?_, ?_, ?_⟩
  · rw [s1]
    simp only [sheetBallot]
    have : digitsVal c!"1" = 1 := by simp [digitsVal, decVal, isAscii, isAsciiDigit]
    rw [this]; rfl
  · intro i c hi
    constructor
    · rintro ⟨d, hd⟩
      exact ⟨_, (hr _ _).2 ⟨i, d, hi, hd, rfl⟩⟩
    · rintro ⟨r, hm⟩
      obtain ⟨j, d, hj, hd, _⟩ := (hr _ _).1 hm
      rw [← huniq i j c hi hj] at hd
      exact ⟨d, hd⟩
  · intro e he
    obtain ⟨i, d, hi, hd, hx⟩ := (hr e.1 e.2).1 he
    exact ⟨i, _, hi, hx⟩
  · intro i j c c' d d' r r' hi hj hd hd' hm hm'
    obtain ⟨i', e, hi', he, hx⟩ := (hr _ _).1 hm
    obtain ⟨j', e', hj', he', hx'⟩ := (hr _ _).1 hm'
    rw [← huniq i i' c hi hi'] at he
    rw [← huniq j j' c' hj hj'] at he'
    rw [← rankedAs_unique hd he] at hx
    rw [← rankedAs_unique hd' he'] at hx'
    have hil : i < toks.length := (List.getElem?_eq_some_iff.1 hi).1
    have hjl : j < toks.length := (List.getElem?_eq_some_iff.1 hj).1
    have hx := Option.some.inj hx
    have hx' := Option.some.inj hx'
    constructor
    · intro hlt
      rcases Nat.lt_trichotomy d d' with h | h | h
      · exact h
      · subst h; omega
      · have := usedBelow_lt hd'.1 (rankedAs_used hjl hd') h
        omega
    · intro hlt
      have := usedBelow_lt hd.1 (rankedAs_used hil hd) hlt
      omega

end

section
attribute [local instance] Uni.ascii
set_option maxRecDepth 20000

/-- C44: a rank beyond the number of options is dropped (here Ann, marked 7 on a sheet with two options, loses her
place although she was ranked), and a vote with more rank characters than options fails. -/
theorem C44_refuted :
    convertDebtally (fun _ => c!"ABCDEF") [] c!"Option 1: Ann\nOption 2: Bob\nV: 71 x\n" =
      .ok c!"=Ann:[Ann]\n=Bob:[Bob]\n# ---------------\n1:Bob  ##VID:x\n" ∧
    convertDebtally (fun _ => c!"ABCDEF") [] c!"Option 1: Ann\nOption 2: Bob\nV: 121 x\n" = .error .indexError := by
  constructor <;> decide +kernel

/-- a sheet meeting the hypotheses of the C44 theorems -/
def exSheet : List DLine :=
  [.other c!"   The vote block", .opt c!"     " 1 c!"---------->" c!" " c!"Moshe Zadka",
   .opt c!"   /  " 2 c!"--------->" c!" " c!"Bdale Garbee", .opt c!"   |/  " 3 c!"-------->" c!" " c!"None of the above",
   .other c!"   ||/", .vote c!"21-" c!"\t" c!"0079d30a" [], .vote c!"113" c!"\t" c!"01f" c!" x"]

example : sheetText exSheet = c!"   The vote block\n     Option 1---------->: Moshe Zadka\n   /  Option 2--------->: Bdale Garbee\n   |/  Option 3-------->: None of the above\n   ||/\nV: 21-\t0079d30a\nV: 113\t01f x\n" := by
  decide +kernel

theorem noColonBlank {name : Str} (h : ':' ∉ name) : ¬ ∃ a w b, name = a ++ ':' :: w :: b ∧ isSpace w = true := by
  rintro ⟨a, w, b, rfl, _⟩
  exact h (by simp)

example : (∀ l ∈ exSheet, l.Ok) := by
  intro l hl
  simp only [exSheet, List.mem_cons, List.not_mem_nil, or_false] at hl
  rcases hl with rfl | rfl | rfl | rfl | rfl | rfl | rfl
  · exact ⟨by decide +kernel, by decide +kernel, by decide +kernel⟩
  · exact ⟨by decide +kernel, by decide +kernel, ⟨by decide +kernel, by decide +kernel⟩, by intro c hc; cases hc; decide, noColonBlank (by decide +kernel), by decide +kernel⟩
  · exact ⟨by decide +kernel, by decide +kernel, ⟨by decide +kernel, by decide +kernel⟩, by intro c hc; cases hc; decide, noColonBlank (by decide +kernel), by decide +kernel⟩
  · exact ⟨by decide +kernel, by decide +kernel, ⟨by decide +kernel, by decide +kernel⟩, by intro c hc; cases hc; decide, noColonBlank (by decide +kernel), by decide +kernel⟩
  · exact ⟨by decide +kernel, by decide +kernel, by decide +kernel⟩
  · exact ⟨by decide +kernel, by decide +kernel, ⟨by decide +kernel, by decide +kernel⟩, by decide +kernel, by decide +kernel, (fun c hc => by cases hc), by decide +kernel, by decide +kernel⟩
  · exact ⟨by decide +kernel, by decide +kernel, ⟨by decide +kernel, by decide +kernel⟩, by decide +kernel, by decide +kernel, by intro c hc; cases hc; decide, by decide +kernel, by decide +kernel⟩

example : debTokens (fun _ => c!"ABCDEF") (sheetNames exSheet) = [c!"MosheZadka", c!"BdaleGarbee", c!"NOTA"] ∧
    (∀ v ∈ sheetVotes exSheet, NoExtra (sheetNames exSheet).length v.1) ∧ sheetVotes exSheet ≠ [] := by
  have h : ∀ v ∈ sheetVotes exSheet, v.1.length ≤ (sheetNames exSheet).length := by decide +kernel
  exact ⟨by decide +kernel, fun v hv => noExtra_short (h v hv), by decide +kernel⟩

/-- a vote with a rank after the last option, and one with a dash there -/
example : ¬ NoExtra 2 c!"121" ∧ NoExtra 2 c!"12-" := by
  refine ⟨fun h => h 2 1 (by omega) ⟨by omega, by omega, by omega, rfl⟩, ?_⟩
  rintro i d hi ⟨h1, h2, h3, h4⟩
  match i, hi with
  | 2, _ =>
    have : '-' = rankChar d := Option.some.inj h4
    have hd : d = 1 ∨ d = 2 := by omega
    rcases hd with rfl | rfl <;> revert this <;> decide
  | i + 3, _ => cases h4

end

end Verif.Props
