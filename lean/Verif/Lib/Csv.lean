/-
Helper lemmas on CSV output.
-/
import Verif.Model.Csv
import Verif.Spec.Csv
import Verif.Lib.JsonInj
import Verif.Lib.Dict

set_option linter.unusedSimpArgs false
set_option linter.unusedSectionVars false

namespace Verif
open Spec

/-! ### reading back what was written -/

theorem csvEnd_comma (mode : CsvMode) (hm : mode ≠ .quoted) (row : List Str) (cur t : Str) :
    csvReadAux mode row cur (',' :: t) = csvReadAux .start (cur.reverse :: row) [] t := by
  cases mode <;> first | exact absurd rfl hm | (rw [csvReadAux] <;> simp)

theorem csvEnd_row (mode : CsvMode) (hm : mode ≠ .quoted) (row : List Str) (cur t : Str) :
    csvReadAux mode row cur ('\r' :: '\n' :: t) =
      (csvReadAux .start [] [] t).map (fun rows => (cur.reverse :: row).reverse :: rows) := by
  cases mode <;> first | exact absurd rfl hm | (rw [csvReadAux] <;> simp)

theorem csvRead_plain {s : Str} (hs : s.any csvSpecial = false) (row : List Str) (cur t : Str) :
    csvReadAux .plain row cur (s ++ t) = csvReadAux .plain row (s.reverse ++ cur) t := by
  induction s generalizing cur with
  | nil => rfl
  | cons c s ih =>
    simp only [List.any_cons, Bool.or_eq_false_iff] at hs
    have hc := hs.1
    unfold csvSpecial at hc
    simp only [Bool.or_eq_false_iff, beq_eq_false_iff_ne, ne_eq] at hc
    rw [List.cons_append, csvReadAux, ih hs.2]
    · simp
    all_goals (intros; simp_all)

theorem csvRead_quoted (s : Str) (row : List Str) (cur t : Str) :
    csvReadAux .quoted row cur (s.flatMap csvEsc ++ ('"' :: t)) = csvReadAux .quote row (s.reverse ++ cur) t := by
  induction s generalizing cur with
  | nil => simp [csvReadAux]
  | cons c s ih =>
    simp only [List.flatMap_cons, List.append_assoc]
    by_cases hc : c = '"'
    · subst hc
      rw [show csvEsc '"' = ['"', '"'] from rfl]
      simp only [List.cons_append, List.nil_append]
      rw [csvReadAux, csvReadAux, ih]; simp
    · rw [show csvEsc c = [c] by unfold csvEsc; rw [if_neg hc]]
      simp only [List.cons_append, List.nil_append]
      rw [csvReadAux]
      · rw [ih]; simp
      · intro h; exact hc h

/-- after reading a field the reader is outside quotes with the field's text collected -/
theorem csvRead_field (s : Str) (row : List Str) (t : Str) :
    ∃ mode, mode ≠ .quoted ∧ csvReadAux .start row [] (csvField s ++ t) = csvReadAux mode row s.reverse t := by
  unfold csvField
  split
  · refine ⟨.quote, by decide, ?_⟩
    rw [List.cons_append, csvReadAux, List.append_assoc]
    rw [show ['"'] ++ t = '"' :: t from rfl, csvRead_quoted]; simp
  · rename_i h
    have hs : s.any csvSpecial = false := by simpa using h
    cases s with
    | nil => exact ⟨.start, by decide, rfl⟩
    | cons c s =>
      refine ⟨.plain, by decide, ?_⟩
      have hs' := hs
      simp only [List.any_cons, Bool.or_eq_false_iff] at hs'
      have hc := hs'.1
      unfold csvSpecial at hc
      simp only [Bool.or_eq_false_iff, beq_eq_false_iff_ne, ne_eq] at hc
      rw [List.cons_append, csvReadAux, csvRead_plain hs'.2]
      · simp
      all_goals (intros; simp_all)

theorem csvRead_fields (fs : List Str) (hne : fs ≠ []) (row : List Str) (t : Str) :
    csvReadAux .start row [] (joinStr [','] (fs.map csvField) ++ ('\r' :: '\n' :: t)) =
      (csvReadAux .start [] [] t).map (fun rows => (row.reverse ++ fs) :: rows) := by
  induction fs generalizing row with
  | nil => exact absurd rfl hne
  | cons f fs ih =>
    cases fs with
    | nil =>
      simp only [List.map_cons, List.map_nil, joinStr]
      obtain ⟨mode, hm, h⟩ := csvRead_field f row ('\r' :: '\n' :: t)
      rw [h, csvEnd_row _ hm]; simp
    | cons g fs =>
      simp only [List.map_cons, joinStr, List.append_assoc, List.cons_append, List.nil_append] at ih ⊢
      obtain ⟨mode, hm, h⟩ := csvRead_field f row (',' :: (joinStr [','] (csvField g :: fs.map csvField) ++ ('\r' :: '\n' :: t)))
      rw [h, csvEnd_comma _ hm, ih (by simp)]; simp

theorem csvRead_row (fs : List Str) (hne : fs ≠ []) (t : Str) :
    csvRead (csvRow fs ++ t) = (csvRead t).map (fun rows => fs :: rows) := by
  unfold csvRead csvRow
  by_cases h : fs = [[]]
  · subst h
    simp only [if_true, List.cons_append, List.nil_append]
    rw [csvReadAux, csvReadAux, csvEnd_row _ (by decide)]; rfl
  · simp only [h, if_false, List.append_assoc, List.cons_append, List.nil_append]
    rw [csvRead_fields fs hne]; simp

theorem csvRead_rows (rows : List (List Str)) (hne : ∀ r ∈ rows, r ≠ []) : csvRead (rows.flatMap csvRow) = some rows := by
  induction rows with
  | nil => rfl
  | cons r rows ih =>
    rw [List.flatMap_cons, csvRead_row r (hne r (by simp)), ih (fun r hr => hne r (by simp [hr]))]; rfl

/-! ### voter ids -/

theorem digitsVal_zeros [Uni] (k : Nat) (s : Str) : digitsVal (List.replicate k '0' ++ s) = digitsVal s := by
  unfold digitsVal
  rw [List.foldl_append]
  congr 1
  induction k with
  | zero => rfl
  | succ k ih => rw [List.replicate_succ, List.foldl_cons]; exact ih

theorem generatedVoterId_inj {i j : Nat} (h : generatedVoterId i = generatedVoterId j) : i = j := by
  let := Uni.ascii
  unfold generatedVoterId at h
  have h := congrArg digitsVal (List.append_cancel_left h)
  rw [digitsVal_zeros, digitsVal_zeros, (natStr_spec i).2.2, (natStr_spec j).2.2] at h
  exact h

/-! ### rows -/

theorem csvRank_mapM {prefs : Dict Str Pref} {d : Dict Str Str} (h : prefs.mapM csvRankEntry = .ok d) :
    Dict.keys d = Dict.keys prefs ∧ (∀ (kp : Str × Pref), kp ∈ prefs → kp.2.rank ≠ none) ∧
    ∀ (c : Str), (Dict.get? d c).getD [] = (match Dict.get? prefs c with
      | some p => match p.rank with | some r => intStr r | none => []
      | none => []) := by
  induction prefs generalizing d with
  | nil => cases h; simp [Dict.keys, Dict.get?]
  | cons e prefs ih =>
    obtain ⟨k, p⟩ := e
    rw [List.mapM_cons] at h
    cases hr : p.rank with
    | none =>
      have he : csvRankEntry (k, p) = .error .keyError := by unfold csvRankEntry; simp [hr]
      rw [he] at h; cases h
    | some r =>
      have he : csvRankEntry (k, p) = .ok (k, intStr r) := by unfold csvRankEntry; simp [hr]
      rw [he] at h
      cases hm : prefs.mapM csvRankEntry with
      | error e => rw [hm] at h; cases h
      | ok ds =>
        rw [hm] at h
        cases h
        obtain ⟨h1, h2, h3⟩ := ih hm
        refine ⟨?_, ?_, ?_⟩
        · unfold Dict.keys at h1 ⊢; simp [h1]
        · intro kp hkp
          rcases List.mem_cons.1 hkp with rfl | hkp
          · simp [hr]
          · exact h2 kp hkp
        · intro c
          by_cases hk : k = c
          · simp [Dict.get?, hk, hr]
          · simp only [Dict.get?, hk, if_false]; exact h3 c

theorem csvRank_mapM_ok {prefs : Dict Str Pref} (h : ∀ (kp : Str × Pref), kp ∈ prefs → kp.2.rank ≠ none) :
    ∃ d, prefs.mapM csvRankEntry = .ok d := by
  induction prefs with
  | nil => exact ⟨[], rfl⟩
  | cons e prefs ih =>
    obtain ⟨d, hd⟩ := ih (fun kp hkp => h kp (by simp [hkp]))
    have := h e (by simp)
    rw [List.mapM_cons, hd]
    unfold csvRankEntry
    cases hr : e.2.rank with
    | none => exact absurd hr this
    | some r => exact ⟨_, rfl⟩

/-- a voteline that can be written -/
def CsvLineOk (cands : List Str) (vl : Voteline) : Prop :=
  ∀ (kp : Str × Pref), kp ∈ vl.prefs → kp.2.rank ≠ none ∧ (kp.1 ∈ cands ∨ kp.1 = c!"voterid")

theorem csvBallot_ok {cands : List Str} {vl : Voteline} {i : Nat} {r : List Str}
    (h : csvBallot (c!"voterid" :: cands) vl i = .ok r) :
    CsvLineOk cands vl ∧ (c!"voterid" ∉ cands → r = csvVoterId vl i :: cands.map (rankCell vl)) ∧ r ≠ [] := by
  unfold csvBallot at h
  cases hm : vl.prefs.mapM csvRankEntry with
  | error e => rw [hm] at h; cases h
  | ok d =>
    rw [hm] at h
    obtain ⟨h1, h2, h3⟩ := csvRank_mapM hm
    simp only [csvDictRow] at h
    split at h
    · rename_i hall
      cases h
      refine ⟨?_, ?_, by simp⟩
      · intro kp hkp
        refine ⟨h2 kp hkp, ?_⟩
        have hk : kp.1 ∈ Dict.keys d := by rw [h1]; exact List.mem_map.2 ⟨kp, hkp, rfl⟩
        have := List.all_eq_true.1 hall kp.1 (Dict.mem_keys_set.2 (.inr hk))
        have := of_decide_eq_true this
        rcases List.mem_cons.1 this with h | h
        · exact .inr h
        · exact .inl h
      · intro hv
        simp only [List.map_cons, Dict.get?_set_self, Option.getD_some]
        congr 1
        apply List.map_congr_left
        intro c hc
        have hne : c!"voterid" ≠ c := fun e => hv (e ▸ hc)
        rw [Dict.get?_set_ne _ _ hne]
        exact h3 c
    · cases h

theorem csvBallot_of {cands : List Str} {vl : Voteline} (i : Nat) (h : CsvLineOk cands vl) :
    ∃ r, csvBallot (c!"voterid" :: cands) vl i = .ok r := by
  obtain ⟨d, hd⟩ := csvRank_mapM_ok (fun kp hkp => (h kp hkp).1)
  unfold csvBallot
  rw [hd]
  simp only [csvDictRow]
  rw [if_pos]
  · exact ⟨_, rfl⟩
  · rw [List.all_eq_true]
    intro k hk
    rw [decide_eq_true_eq]
    rcases Dict.mem_keys_set.1 hk with rfl | hk
    · simp
    · rw [(csvRank_mapM hd).1] at hk
      obtain ⟨kp, hkp, rfl⟩ := List.mem_map.1 hk
      rcases (h kp hkp).2 with h | h
      · exact List.mem_cons_of_mem _ h
      · rw [h]; simp

/-- rows of consecutive ballots, numbered from `i + 1` -/
def csvExpected (cands : List Str) (bs : List Voteline) (i : Nat) : List (List Str) :=
  (bs.zipIdx i).map (fun (p : Voteline × Nat) => csvVoterId p.1 (p.2 + 1) :: cands.map (rankCell p.1))

theorem csvCopies_ok {cands : List Str} {vl : Voteline} {n i : Nat} {rs : List (List Str)}
    (h : csvCopies (c!"voterid" :: cands) vl n i = .ok rs) :
    (n ≠ 0 → CsvLineOk cands vl) ∧ rs.length = n ∧ (∀ r ∈ rs, r ≠ []) ∧
    (c!"voterid" ∉ cands → rs = csvExpected cands (List.replicate n vl) i) := by
  induction n generalizing i rs with
  | zero => cases h; simp [csvExpected]
  | succ n ih =>
    unfold csvCopies at h
    cases hb : csvBallot (c!"voterid" :: cands) vl (i + 1) with
    | error e => rw [hb] at h; cases h
    | ok r =>
      rw [hb] at h
      simp only at h
      cases hc : csvCopies (c!"voterid" :: cands) vl n (i + 1) with
      | error e => rw [hc] at h; cases h
      | ok rs' =>
        rw [hc] at h
        cases h
        obtain ⟨a1, a2, a3⟩ := csvBallot_ok hb
        obtain ⟨b1, b2, b3, b4⟩ := ih hc
        refine ⟨fun _ => a1, by simp [b2], ?_, ?_⟩
        · intro x hx
          rcases List.mem_cons.1 hx with rfl | hx
          · exact a3
          · exact b3 x hx
        · intro hv
          rw [a2 hv, b4 hv]
          simp [csvExpected, List.replicate_succ, List.zipIdx_cons]

theorem csvCopies_of {cands : List Str} {vl : Voteline} (h : CsvLineOk cands vl) (n i : Nat) :
    ∃ rs, csvCopies (c!"voterid" :: cands) vl n i = .ok rs := by
  induction n generalizing i with
  | zero => exact ⟨[], rfl⟩
  | succ n ih =>
    obtain ⟨r, hr⟩ := csvBallot_of (i + 1) h
    obtain ⟨rs, hrs⟩ := ih (i + 1)
    unfold csvCopies
    rw [hr]; simp only; rw [hrs]; exact ⟨_, rfl⟩

theorem csvVotelines_ok {cands : List Str} {vls : List Voteline} {i : Nat} {rs : List (List Str)}
    (h : csvVotelines (c!"voterid" :: cands) vls i = .ok rs) :
    (∀ (vl : Voteline), vl ∈ vls → 0 < vl.qty ∧ CsvLineOk cands vl) ∧
    (rs.length : Int) = (vls.map Voteline.qty).sum ∧ (∀ r ∈ rs, r ≠ []) ∧
    (c!"voterid" ∉ cands → rs = csvExpected cands (singleBallots vls) i) := by
  induction vls generalizing i rs with
  | nil => cases h; simp [csvExpected, singleBallots]
  | cons vl vls ih =>
    unfold csvVotelines at h
    split at h
    · rename_i hq
      cases hc : csvCopies (c!"voterid" :: cands) vl vl.qty.toNat i with
      | error e => rw [hc] at h; cases h
      | ok rs1 =>
        rw [hc] at h
        simp only at h
        cases hr : csvVotelines (c!"voterid" :: cands) vls (i + vl.qty.toNat) with
        | error e => rw [hr] at h; cases h
        | ok rs2 =>
          rw [hr] at h
          cases h
          obtain ⟨a1, a2, a3, a4⟩ := csvCopies_ok hc
          obtain ⟨b1, b2, b3, b4⟩ := ih hr
          refine ⟨?_, ?_, ?_, ?_⟩
          · intro x hx
            rcases List.mem_cons.1 hx with rfl | hx
            · exact ⟨hq, a1 (by omega)⟩
            · exact b1 x hx
          · simp only [List.length_append, List.map_cons, List.sum_cons]
            rw [← b2]; push_cast; omega
          · intro x hx
            rcases List.mem_append.1 hx with hx | hx
            · exact a3 x hx
            · exact b3 x hx
          · intro hv
            rw [a4 hv, b4 hv]
            unfold csvExpected singleBallots
            rw [List.flatMap_cons, List.zipIdx_append, List.map_append, List.length_replicate]
    · cases h

theorem csvVotelines_of {cands : List Str} {vls : List Voteline}
    (h : ∀ (vl : Voteline), vl ∈ vls → 0 < vl.qty ∧ CsvLineOk cands vl) (i : Nat) :
    ∃ rs, csvVotelines (c!"voterid" :: cands) vls i = .ok rs := by
  induction vls generalizing i with
  | nil => exact ⟨[], rfl⟩
  | cons vl vls ih =>
    obtain ⟨h1, h2⟩ := h vl (by simp)
    obtain ⟨rs1, hc⟩ := csvCopies_of h2 vl.qty.toNat i
    obtain ⟨rs2, hr⟩ := ih (fun x hx => h x (by simp [hx])) (i + vl.qty.toNat)
    unfold csvVotelines
    rw [if_pos h1, hc]; simp only; rw [hr]; exact ⟨_, rfl⟩

end Verif
