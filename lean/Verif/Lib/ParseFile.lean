/-
Helper lemmas: what processing the lines of a text does to the model.
-/
import Verif.Lib.Lines
import Verif.Lib.MetaLine
import Verif.Lib.Splitlines
import Verif.Lib.Prefs
import Verif.Spec.AbifFile

set_option linter.unusedSimpArgs false
set_option linter.unusedSectionVars false

namespace Verif
open Spec
variable [U : Uni]

/-- what a line does after its comment has been dealt with -/
def lineEffect (l : Str) (m : Jabmod) : Except PyErr Jabmod :=
  match readCand (beforeHash l) with
  | some (tok, desc) => .ok (processCand tok desc m)
  | none =>
    match matchMeta (beforeHash l) with
    | some (k, v) => .ok (processMeta k v m)
    | none =>
      match readVote (beforeHash l) with
      | some (q, p) => processPrefline q p (hashComment l) m
      | none => .ok m

theorem lstrip_noNewline {l : Str} (h : ∀ c ∈ l, c ≠ '\n') : ∀ c ∈ lstrip l, c ≠ '\n' :=
  fun c hc => h c (dropWhile_mem hc)

theorem processLine_eq (cw sc : Bool) (i : Nat) (full : Str) (m : Jabmod) (h : ∀ c ∈ full, c ≠ '\n') :
    processLine cw sc i full m =
      (processComment (hashComment (if cw then lstrip full else full)) i sc m >>=
        lineEffect (if cw then lstrip full else full)) := by
  generalize hl : (if cw then lstrip full else full) = l
  have hl' : ∀ c ∈ l, c ≠ '\n' := by
    subst hl
    split
    · exact lstrip_noNewline h
    · exact h
  unfold processLine
  simp only [hl]
  rw [splitComment_eq l hl']
  simp only
  congr 1
  funext m
  have hv : matchVote (beforeHash l) = readVote (beforeHash l) :=
    matchVote_eq _ (fun c hc => hl' c (takeWhile_mem hc).2)
  rw [matchCand_eq, hv]
  rfl

/-- lines, each already stripped of leading blanks if wanted -/
def processPlain (sc : Bool) : Nat → List Str → Jabmod → Except PyErr Jabmod
  | _, [], m => .ok m
  | i, l :: ls, m => do
    let m ← processComment (hashComment l) i sc m
    let m ← lineEffect l m
    processPlain sc (i + 1) ls m

theorem processLines_eq (cw sc : Bool) (i : Nat) (ls : List Str) (m : Jabmod)
    (h : ∀ l ∈ ls, ∀ c ∈ l, c ≠ '\n') :
    processLines cw sc i ls m = processPlain sc i (ls.map (fun l => if cw then lstrip l else l)) m := by
  induction ls generalizing i m with
  | nil => rfl
  | cons l ls ih =>
    unfold processLines
    simp only [List.map_cons, processPlain]
    rw [processLine_eq cw sc i l m (h l (by simp)), bind_assoc]
    congr 1
    funext m
    congr 1
    funext m
    exact ih _ _ (fun l hl => h l (by simp [hl]))

theorem processLines_text (cw sc : Bool) (text : Str) (m : Jabmod) :
    processLines cw sc 0 (splitlines text) m = processPlain sc 0 (textLines cw text) m :=
  processLines_eq cw sc 0 _ m (splitlines_noNewline text)

/-! ### the pieces of a step -/

theorem processComment_ok {com : Option Str} {i : Nat} {sc : Bool} {m m' : Jabmod}
    (h : processComment com i sc m = .ok m') :
    m'.candidates = m.candidates ∧ m'.votelines = m.votelines ∧
    ∀ k, k ≠ c!"comments" → m'.metadata.get? k = m.metadata.get? k := by
  unfold processComment at h
  split at h
  · split at h
    · split at h
      · cases h
        exact ⟨rfl, rfl, fun k hk => Dict.get?_set_ne _ _ (Ne.symm hk)⟩
      · cases h
        exact ⟨rfl, rfl, fun k hk => Dict.get?_set_ne _ _ (Ne.symm hk)⟩
      · cases h
    · cases h; exact ⟨rfl, rfl, fun _ _ => rfl⟩
  · cases h; exact ⟨rfl, rfl, fun _ _ => rfl⟩

theorem processComment_false (com : Option Str) (i : Nat) (m : Jabmod) : processComment com i false m = .ok m := by
  unfold processComment
  cases com <;> simp

theorem mergeCands_keys (xs : List Str) (d : Dict Str (Option Str)) :
    (mergeCands xs d).keys = addKeys d.keys xs := by
  induction xs generalizing d with
  | nil => rfl
  | cons x xs ih =>
    simp only [mergeCands, addKeys]
    rw [ih]
    congr 1
    by_cases h : x ∈ d.keys
    · rw [if_pos (Dict.has_iff.2 h), if_pos h]
    · have : d.has x = false := by
        cases hh : d.has x with
        | false => rfl
        | true => exact absurd (Dict.has_iff.1 hh) h
      rw [this]
      simp [h, Dict.keys_set]

theorem mergeCands_get? (xs : List Str) (d : Dict Str (Option Str)) (k : Str) :
    (mergeCands xs d).get? k = if k ∈ d.keys then d.get? k else if k ∈ xs then some (some k) else none := by
  induction xs generalizing d with
  | nil =>
    simp only [mergeCands]
    by_cases h : k ∈ d.keys
    · rw [if_pos h]
    · rw [if_neg h]; simp [Dict.get?_eq_none.2 h]
  | cons x xs ih =>
    simp only [mergeCands]
    rw [ih]
    by_cases hx : x ∈ d.keys
    · rw [if_pos (Dict.has_iff.2 hx)]
      by_cases hk : k ∈ d.keys
      · rw [if_pos hk, if_pos hk]
      · have : k ≠ x := fun e => hk (e ▸ hx)
        simp [hk, this]
    · have : d.has x = false := by
        cases hh : d.has x with
        | false => rfl
        | true => exact absurd (Dict.has_iff.1 hh) hx
      rw [this]
      simp only [Bool.false_eq_true, if_false]
      by_cases hk : k ∈ d.keys
      · have hne : x ≠ k := fun e => hx (e ▸ hk)
        rw [if_pos (Dict.mem_keys_set.2 (.inr hk)), if_pos hk, Dict.get?_set_ne _ _ hne]
      · by_cases hkx : k = x
        · subst hkx
          rw [if_pos (Dict.mem_keys_set.2 (.inl rfl)), Dict.get?_set_self]
          simp [hk]
        · rw [if_neg (fun h => (Dict.mem_keys_set.1 h).elim hkx hk)]
          simp [hk, hkx]

theorem bump_ok {md md' : Dict Str Json} {q : Int} (h : bumpBallotcount md q = .ok md') :
    ∃ n, md.get? c!"ballotcount" = some (.int n) ∧ md' = md.set c!"ballotcount" (.int (n + q)) := by
  unfold bumpBallotcount at h
  split at h
  · cases h; exact ⟨_, by assumption, rfl⟩
  · cases h
  · cases h

theorem processPrefline_ok {q p : Str} {com : Option Str} {m m' : Jabmod}
    (h : processPrefline q p com m = .ok m') :
    ∃ vl cands n, SaysBallot (q, p, com) vl ∧ parsePrefstr p = .ok (vl.prefs, cands) ∧
      m'.votelines = m.votelines ++ [vl] ∧ m'.candidates = mergeCands cands m.candidates ∧
      m.metadata.get? c!"ballotcount" = some (.int n) ∧
      m'.metadata = m.metadata.set c!"ballotcount" (.int (n + digitsVal q)) := by
  unfold processPrefline at h
  simp only at h
  obtain ⟨md, hmd, h⟩ := bind_ok.1 h
  obtain ⟨⟨prefs, cands⟩, hp, h⟩ := bind_ok.1 h
  obtain ⟨n, hn, rfl⟩ := bump_ok hmd
  cases h
  refine ⟨_, cands, n, ⟨rfl, ⟨cands, hp⟩, rfl, rfl, ?_, rfl⟩, hp, rfl, rfl, hn, rfl⟩
  show com.bind matchVid = com.bind readVid
  rw [show matchVid = readVid from funext matchVid_eq]

/-! ### all lines -/

/-- candidates, votelines and other metadata after the lines -/
theorem processPlain_ok {sc : Bool} {i : Nat} {ls : List Str} {m m' : Jabmod}
    (h : processPlain sc i ls m = .ok m') (n : Int) (hn : m.metadata.get? c!"ballotcount" = some (.int n)) :
    ∃ vls, List.Forall₂ SaysBallot (ls.filterMap lineVote) vls ∧
      m'.votelines = m.votelines ++ vls ∧
      m'.candidates.keys = addKeys m.candidates.keys (ls.flatMap lineMentions) ∧
      (∀ tok ∈ m'.candidates.keys, m'.candidates.get? tok =
        match declared ls tok with
        | some d => some (some d)
        | none => if tok ∈ m.candidates.keys then m.candidates.get? tok else some (some tok)) ∧
      m'.metadata.get? c!"ballotcount" = some (.int (n + (vls.map Voteline.qty).sum)) ∧
      (∀ k, k ≠ c!"comments" → k ≠ c!"ballotcount" → m'.metadata.get? k =
        match metaValue ls k with
        | some v => some (.str v)
        | none => m.metadata.get? k) := by
  induction ls generalizing i m n with
  | nil =>
    cases h
    refine ⟨[], .nil, by simp, rfl, ?_, by simpa using hn, ?_⟩
    · intro tok ht
      simp [declared, ht]
    · intro k _ _
      simp [metaValue]
  | cons l ls ih =>
    unfold processPlain at h
    obtain ⟨m1, h1, h⟩ := bind_ok.1 h
    obtain ⟨m2, h2, h⟩ := bind_ok.1 h
    obtain ⟨c1, v1, md1⟩ := processComment_ok h1
    have hn1 : m1.metadata.get? c!"ballotcount" = some (.int n) := by rw [md1 _ (by decide), hn]
    unfold lineEffect at h2
    -- helper for the last-declaration lookups
    have decl_cons : ∀ tok, declared (l :: ls) tok =
        (declared ls tok).or (match readCand (beforeHash l) with
          | some (t, d) => if t = tok then some d else none
          | none => none) := by
      intro tok
      unfold declared
      rw [List.filterMap_cons]
      cases hc : readCand (beforeHash l) with
      | none => simp
      | some td =>
        obtain ⟨t, d⟩ := td
        simp only [List.filter_cons]
        by_cases ht : t = tok
        · simp only [ht, decide_true, if_true, List.getLast?_cons]
          cases (List.filter (fun td : Str × Str => decide (td.1 = tok)) (List.filterMap (fun l => readCand (beforeHash l)) ls)).getLast? <;> simp
        · simp [ht]
    have meta_cons : ∀ k, metaValue (l :: ls) k =
        (metaValue ls k).or (match matchMeta (beforeHash l) with
          | some (t, d) => if (if t = c!"ballotcount" then c!"ballotcount_abif_metadata" else t) = k then some d else none
          | none => none) := by
      intro tok
      unfold metaValue
      simp only [← matchMeta_eq]
      rw [List.filterMap_cons]
      cases hc : matchMeta (beforeHash l) with
      | none => simp
      | some td =>
        obtain ⟨t, d⟩ := td
        simp only [List.filter_cons]
        by_cases ht : (if t = c!"ballotcount" then c!"ballotcount_abif_metadata" else t) = tok
        · simp only [ht, decide_true, if_true, List.getLast?_cons]
          cases (List.filter (fun kv : Str × Str => decide ((if kv.1 = c!"ballotcount" then c!"ballotcount_abif_metadata" else kv.1) = tok)) (List.filterMap (fun l => matchMeta (beforeHash l)) ls)).getLast? <;> simp
        · simp only [ht, decide_false, if_false, Bool.false_eq_true]
          simp
    cases hc : readCand (beforeHash l) with
    | some td =>
      obtain ⟨tok, desc⟩ := td
      rw [hc] at h2
      simp only at h2
      cases h2
      have hv : readVote (beforeHash l) = none := by
        cases hv : readVote (beforeHash l) with
        | none => rfl
        | some r => rw [readCand_none_of_vote hv] at hc; cases hc
      have hm : matchMeta (beforeHash l) = none := by
        cases hm : matchMeta (beforeHash l) with
        | none => rfl
        | some r => rw [readCand_none_of_meta hm] at hc; cases hc
      obtain ⟨vls, f1, f2, f3, f4, f5, f6⟩ := ih h n hn1
      refine ⟨vls, ?_, ?_, ?_, ?_, f5, ?_⟩
      · simpa [List.filterMap_cons, lineVote, hv] using f1
      · rw [f2]; simp [processCand, v1]
      · rw [f3]
        simp only [List.flatMap_cons, lineMentions, hc, processCand, Dict.keys_set, c1, addKeys_append]
        rfl
      · intro t ht
        rw [f4 t ht, decl_cons, hc]
        simp only [processCand, Dict.get?_set, Dict.mem_keys_set, c1]
        cases declared ls t with
        | some d => simp
        | none =>
          by_cases htt : tok = t
          · simp [htt]
          · have : ¬ t = tok := fun e => htt e.symm
            simp [htt, this]
      · intro k hk hk'
        rw [f6 k hk hk', meta_cons, hm]
        simp only [processCand, Option.or_none]
        rw [md1 k hk]
    | none =>
      rw [hc] at h2
      simp only at h2
      cases hm : matchMeta (beforeHash l) with
      | some kv =>
        obtain ⟨mk, mv⟩ := kv
        rw [hm] at h2
        simp only at h2
        cases h2
        have hv : readVote (beforeHash l) = none := by
          cases hv : readVote (beforeHash l) with
          | none => rfl
          | some r => rw [matchMeta_none_of_vote hv] at hm; cases hm
        have hn2 : (processMeta mk mv m1).metadata.get? c!"ballotcount" = some (.int n) := by
          simp only [processMeta]
          rw [Dict.get?_set_ne, hn1]
          split
          · decide
          · assumption
        obtain ⟨vls, f1, f2, f3, f4, f5, f6⟩ := ih h n hn2
        refine ⟨vls, ?_, ?_, ?_, ?_, f5, ?_⟩
        · simpa [List.filterMap_cons, lineVote, hv] using f1
        · rw [f2]; simp [processMeta, v1]
        · rw [f3]
          simp [List.flatMap_cons, lineMentions, hc, hv, processMeta, c1]
        · intro t ht
          rw [f4 t ht, decl_cons, hc]
          simp [processMeta, c1]
        · intro k hk hk'
          rw [f6 k hk hk', meta_cons, hm]
          simp only [processMeta, Dict.get?_set]
          cases metaValue ls k with
          | some v => simp
          | none =>
            by_cases hkk : (if mk = c!"ballotcount" then c!"ballotcount_abif_metadata" else mk) = k
            · simp [hkk]
            · simp only [hkk, if_false, Option.or_none]
              rw [md1 k hk]
      | none =>
        rw [hm] at h2
        simp only at h2
        cases hv : readVote (beforeHash l) with
        | none =>
          rw [hv] at h2
          simp only at h2
          cases h2
          obtain ⟨vls, f1, f2, f3, f4, f5, f6⟩ := ih h n hn1
          refine ⟨vls, ?_, ?_, ?_, ?_, f5, ?_⟩
          · simpa [List.filterMap_cons, lineVote, hv] using f1
          · rw [f2]; simp [v1]
          · rw [f3]
            simp [List.flatMap_cons, lineMentions, hc, hv, c1]
          · intro t ht
            rw [f4 t ht, decl_cons, hc]
            simp [c1]
          · intro k hk hk'
            rw [f6 k hk hk', meta_cons, hm, md1 k hk]
            simp
        | some qp =>
          obtain ⟨q, p⟩ := qp
          rw [hv] at h2
          simp only at h2
          obtain ⟨vl, cands, n', hs, hpp, g1, g2, g3, g4⟩ := processPrefline_ok h2
          have : n' = n := by
            rw [hn1] at g3
            cases g3; rfl
          subst this
          obtain ⟨hkeys, _, _⟩ := parsePrefstr_ok hpp
          have hn2 : m2.metadata.get? c!"ballotcount" = some (.int (n' + digitsVal q)) := by
            rw [g4, Dict.get?_set_self]
          obtain ⟨vls, f1, f2, f3, f4, f5, f6⟩ := ih h _ hn2
          have hbc : ballotCands p = firsts cands := by
            unfold ballotCands; rw [hpp]; exact hkeys
          refine ⟨vl :: vls, ?_, ?_, ?_, ?_, ?_, ?_⟩
          · simp only [List.filterMap_cons, lineVote, hv, Option.map_some]
            exact .cons hs f1
          · rw [f2, g1, v1]; simp
          · rw [f3, g2, mergeCands_keys, c1]
            simp only [List.flatMap_cons, lineMentions, hc, hv, addKeys_append, hbc]
            rw [addKeys_firsts]
          · intro t ht
            rw [f4 t ht, decl_cons, hc]
            simp only [Option.or_none]
            cases declared ls t with
            | some d => simp
            | none =>
              simp only
              rw [g2, mergeCands_get?, mergeCands_keys, c1]
              by_cases htk : t ∈ m.candidates.keys
              · have : t ∈ addKeys m.candidates.keys cands := by
                  rw [addKeys_eq]; simp [htk]
                simp [htk, this]
              · by_cases htc : t ∈ cands
                · have : t ∈ addKeys m.candidates.keys cands := by
                    rw [addKeys_eq]; simp [htk, mem_firsts, htc]
                  simp [htk, htc, this]
                · have : t ∉ addKeys m.candidates.keys cands := by
                    rw [addKeys_eq]; simp [htk, mem_firsts, htc]
                  simp [htk, this]
          · rw [f5]
            simp only [List.map_cons, List.sum_cons, hs.1, Int.add_assoc]
          · intro k hk hk'
            rw [f6 k hk hk', meta_cons, hm, g4, Dict.get?_set_ne _ _ (Ne.symm hk'), md1 k hk]
            simp

end Verif
