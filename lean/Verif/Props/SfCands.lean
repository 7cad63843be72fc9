/-
C47: the candidate table of a San Francisco import; C48: field specs with missing values.
-/
import Verif.Props.Sftxt
import Verif.Props.Widj

set_option linter.unusedSectionVars false
set_option linter.unusedSimpArgs false

namespace Verif.Props
open Verif Verif.Spec
section
variable [U : Uni]

omit U in
theorem keys_set_addKeys {β : Type} (d : Dict Str β) (k : Str) (v : β) :
    Dict.keys (Dict.set d k v) = if k ∈ Dict.keys d then Dict.keys d else Dict.keys d ++ [k] := by
  by_cases h : k ∈ Dict.keys d
  · rw [if_pos h, Dict.keys_set, if_pos h]
  · rw [if_neg h, Dict.keys_set, if_neg h]

/-- the ids of the pool -/
theorem sfPool_keys {rs : List MasterRec} (h : ∀ r ∈ rs, r.Ok) (pool : Dict Str (Option Str)) (ct : Option Str) (hct : ct ≠ some [])
    {st : Dict Str (Option Str) × Option Str} (e : (rs.map masterRow).foldlM sfPoolStep (pool, ct) = .ok st) :
    Dict.keys st.1 = addKeys (Dict.keys pool) ((rs.filter (fun r => decide (strip r.rtype = c!"Candidate"))).map MasterRec.id) := by
  induction rs generalizing pool ct with
  | nil => cases e; rfl
  | cons r rs ih =>
    have hr := h r (by simp)
    rw [List.map_cons, List.foldlM_cons, sfPoolStep_row hr pool hct, ok_bind] at e
    have := ih (fun x hx => h x (by simp [hx])) _ _ (by
        cases ct with
        | some x => simpa using hct
        | none =>
          have : r.id ≠ [] := by intro e; have := hr.1.2.1; rw [e] at this; simp at this
          by_cases hc : strip r.rtype = c!"Contest" <;> simp [hc, this]) e
    rw [this, List.filter_cons]
    by_cases hc : strip r.rtype = c!"Candidate"
    · rw [if_pos hc, if_pos (by simp [hc]), List.map_cons, addKeys, keys_set_addKeys]
      by_cases hm : r.id ∈ Dict.keys pool <;> simp [hm]
    · rw [if_neg hc, if_neg (by simp [hc])]

/-- what the candidate table says about a token -/
theorem get?_sfCands (l : List (Str × Option Str)) (n : Nat) (d : Dict Str (Option Str)) (tok : Str) :
    Dict.get? (sfCands l n d) tok =
      ((((l.zipIdx n).filter (fun p => decide (sfCandTok p.1.2 p.2 = tok))).getLast?).map (fun p => p.1.2)).or (Dict.get? d tok) := by
  induction l generalizing n d with
  | nil => simp [sfCands]
  | cons a l ih =>
    rw [sfCands, ih, List.zipIdx_cons, getLast?_filter_cons, Dict.get?_set]
    by_cases h : sfCandTok a.2 n = tok
    · simp only [h, decide_true, if_true]
      cases (List.filter (fun p => decide (sfCandTok p.1.2 p.2 = tok)) (l.zipIdx (n + 1))).getLast? <;> simp
    · simp only [h, decide_false, if_false, Bool.false_eq_true, Option.or_none]

theorem sfCandTok_table (rs : List MasterRec) (id : Str) (n : Nat) : sfCandTok (candName rs id) n = tableToken rs id n := by
  unfold tableToken
  cases candName rs id with
  | none => rfl
  | some name => cases name <;> rfl

/-- C47: the candidate table of the imported model.  Its ids are all zeros and the ids of the candidate records, each once, in order of first
appearance; each is entered under the token of its name (`cand<n>` for the `n`-th id when it has no name), and of several
ids with one token the last one's name is kept. -/
theorem C47_candidates (verbose : Bool) (rs : List MasterRec) (hr : ∀ r ∈ rs, r.Ok) (image : Str) (m : Jabmod)
    (h : sfConvert verbose (masterText rs) image = .ok m) (tok : Str) :
    Dict.get? m.candidates tok =
      (((tableIds rs).zipIdx.filter (fun p => decide (tableToken rs p.1 p.2 = tok))).getLast?).map (fun p => candName rs p.1) := by
  unfold sfConvert at h
  rw [readBlob_master hr] at h
  obtain ⟨pool, e1, e2⟩ := sfPool_fold hr [(c!"0000000", none)] none (by simp)
  have ek := sfPool_keys hr _ _ (by simp) e1
  simp only [sfPool, e1, Option.none_or, readFieldspec_image] at h
  have hcand : m.candidates = sfCands pool 0 [] := by
    by_cases hb : image = []
    · rw [if_pos hb] at h; cases h
    · rw [if_neg hb] at h
      cases h1 : sfBallots imgWidths pool (chosenContest rs) (splitlines image) none with
      | error e => rw [h1] at h; cases h
      | ok bs =>
        rw [h1] at h
        simp only at h
        cases h2 : bs.mapM (sfVoteline verbose) with
        | error e => rw [h2] at h; cases h
        | ok vls =>
          rw [h2] at h
          simp only [Except.ok.injEq] at h
          rw [← h]
          cases verbose <;> rfl
  have hids : Dict.keys pool = tableIds rs := by
    rw [show Dict.keys pool = _ from ek, tableIds, ← addKeys_nil]
    rfl
  have hwf : Dict.WF pool := by unfold Dict.WF; rw [hids]; exact nodup_firsts _
  have hpool : pool = (tableIds rs).map (fun id => (id, candName rs id)) := by
    rw [← hids]
    unfold Dict.keys
    rw [List.map_map]
    symm
    refine (List.map_congr_left ?_).trans (List.map_id pool)
    intro p hp
    have := Dict.get?_of_mem hwf (k := p.1) (v := p.2) hp
    rw [e2] at this
    show (p.1, candName rs p.1) = p
    refine Prod.ext rfl ?_
    show candName rs p.1 = p.2
    cases hn : candName rs p.1 with
    | some x => rw [hn] at this; simpa using this
    | none =>
      rw [hn] at this
      simp only [Option.map_none, Option.none_or] at this
      have h3 := Dict.mem_of_get? this
      simp only [List.mem_singleton, Prod.mk.injEq] at h3
      exact h3.2.symm
  rw [hcand, get?_sfCands, hpool, List.zipIdx_map, List.filter_map, List.getLast?_map, Option.map_map]
  have hd : Dict.get? ([] : Dict Str (Option Str)) tok = none := rfl
  rw [hd, Option.or_none]
  have hf : List.filter ((fun (p : (Str × Option Str) × Nat) => decide (sfCandTok p.1.2 p.2 = tok)) ∘
      Prod.map (fun id => (id, candName rs id)) id) (tableIds rs).zipIdx =
      (tableIds rs).zipIdx.filter (fun p => decide (tableToken rs p.1 p.2 = tok)) := by
    apply List.filter_congr
    intro p _
    simp only [Function.comp_apply, Prod.map_fst, Prod.map_snd, id_eq, sfCandTok_table]
  rw [hf]
  rfl

theorem fieldspecLoop_append (rows : List (Dict Str (Option Str))) {fs : List SfField} (h : ∀ f ∈ fs, 0 < f.len)
    (hrows : ∀ pos : Int, fieldspecLoop rows pos = .error .typeError) (pos : Int) :
    fieldspecLoop (fs.map fieldRow ++ rows) pos = .error .typeError := by
  induction fs generalizing pos with
  | nil => exact hrows pos
  | cons f fs ih =>
    have hl := h f (by simp)
    have hn : Dict.getE (fieldRow f) c!"fieldname" = .ok (some f.name) := rfl
    rw [List.map_cons, List.cons_append, fieldspecLoop, rowInt_last]
    simp only [hn, rowInt_len]
    rw [if_neg (by omega), ih (fun g hg => h g (by simp [hg]))]

theorem csvDicts_last {fs : List SfField} (h : ∀ f ∈ fs, ∀ c ∈ f.name, c ≠ ',' ∧ c ≠ '\n') (line : Str) (hl : ∀ c ∈ line, c ≠ '\n')
    (hne : line ≠ []) : csvDicts (fieldspecText fs ++ line) =
      fs.map fieldRow ++ [csvRowDict [c!"fieldname", c!"lastchar", c!"length"] (csvPlainRow line) []] := by
  have e : fieldspecText fs = (c!"fieldname,lastchar,length" :: fs.map fieldLine).flatMap (fun l => l ++ ['\n']) := by
    unfold fieldspecText fieldLine
    rw [List.flatMap_cons, List.flatMap_map]
    simp
  have hs : ∀ ls : List Str, (∀ l ∈ ls, ∀ c ∈ l, c ≠ '\n') →
      splitAtChar '\n' (ls.flatMap (fun l => l ++ ['\n']) ++ line) [] = ls ++ [line] := by
    intro ls hls
    induction ls with
    | nil => simpa using splitAtChar_last hl []
    | cons l ls ih =>
      have : (l :: ls).flatMap (fun l => l ++ ['\n']) ++ line = l ++ '\n' :: (ls.flatMap (fun l => l ++ ['\n']) ++ line) := by simp
      rw [this, splitAtChar_line (hls l (by simp)), ih (fun x hx => hls x (by simp [hx]))]
      simp
  have hrow : csvPlainRow line ≠ [] := by
    unfold csvPlainRow
    rw [if_neg hne]
    cases line with
    | nil => exact absurd rfl hne
    | cons c t =>
      rw [splitAtChar]
      split
      · simp
      · have : ∀ (t cur : Str), splitAtChar ',' t cur ≠ [] := by
          intro t
          induction t with
          | nil => intro cur; simp [splitAtChar]
          | cons c t ih => intro cur; rw [splitAtChar]; split <;> simp [ih]
        exact this _ _
  unfold csvDicts
  rw [e, hs, List.map_append, List.map_cons, List.cons_append, fieldspec_header]
  · simp only [List.map_map, List.map_cons, List.map_nil, List.filter_append]
    have e2 : (fs.map (csvPlainRow ∘ fieldLine)).filter (fun r => decide (r ≠ [])) = fs.map (csvPlainRow ∘ fieldLine) := by
      apply List.filter_eq_self.2
      intro r hr
      obtain ⟨f, hf, rfl⟩ := List.mem_map.1 hr
      simp [fieldLine_row (h f hf)]
    have e3 : [csvPlainRow line].filter (fun r => decide (r ≠ [])) = [csvPlainRow line] := by simp [hrow]
    rw [e2, e3, List.map_append, List.map_map]
    congr 1
    apply List.map_congr_left
    intro f hf
    simp only [Function.comp_apply, fieldLine_row (h f hf)]
    rfl
  · intro l hl c hc
    rcases List.mem_cons.1 hl with rfl | hl
    · have : ∀ c ∈ c!"fieldname,lastchar,length", c ≠ '\n' := by decide
      exact this c hc
    · obtain ⟨f, hf, rfl⟩ := List.mem_map.1 hl
      unfold fieldLine at hc
      simp only [List.mem_append, List.mem_singleton] at hc
      rcases hc with (((hc | rfl) | hc) | rfl) | hc
      · exact (h f hf c hc).2
      · decide
      · exact (natStr_sep _ c hc).2
      · decide
      · exact (natStr_sep _ c hc).2

/-- C48: a field spec whose last line lacks the column number, or has it but lacks the length, is a `TypeError`, whatever lines come before it. -/
theorem C48_missing_values (fs : List SfField) (h : SpecOk fs) (name : Str) (hn : ∀ c ∈ name, c ≠ ',' ∧ c ≠ '\n') (last : Nat) :
    (name ≠ [] → readFieldspec (fieldspecText fs ++ name) = .error .typeError) ∧
    readFieldspec (fieldspecText fs ++ (name ++ c!"," ++ natStr last)) = .error .typeError := by
  constructor
  · intro hne
    unfold readFieldspec
    rw [csvDicts_last (fun f hf => (h.1 f hf).1) name (fun c hc => (hn c hc).2) hne]
    refine fieldspecLoop_append _ (fun f hf => (h.1 f hf).2) ?_ 0
    intro pos
    have : csvPlainRow name = [name] := by
      unfold csvPlainRow
      rw [if_neg hne, splitAtChar_last (fun c hc => (hn c hc).1)]
      simp
    rw [this]
    rfl
  · unfold readFieldspec
    rw [csvDicts_last (fun f hf => (h.1 f hf).1) _ (by
      intro c hc
      simp only [List.mem_append, List.mem_singleton] at hc
      rcases hc with (hc | rfl) | hc
      · exact (hn c hc).2
      · decide
      · exact (natStr_sep _ c hc).2) (by simp)]
    refine fieldspecLoop_append _ (fun f hf => (h.1 f hf).2) ?_ 0
    intro pos
    have : csvPlainRow (name ++ c!"," ++ natStr last) = [name, natStr last] := by
      unfold csvPlainRow
      rw [if_neg (by simp)]
      simp only [List.append_assoc]
      rw [List.singleton_append, splitAtChar_line (fun c hc => (hn c hc).1), splitAtChar_last (fun c hc => (natStr_sep _ c hc).1)]
      simp
    rw [this]
    have e1 : Dict.getE (csvRowDict [c!"fieldname", c!"lastchar", c!"length"] [name, natStr last] []) c!"lastchar" = .ok (some (natStr last)) := rfl
    have e2 : Dict.getE (csvRowDict [c!"fieldname", c!"lastchar", c!"length"] [name, natStr last] []) c!"fieldname" = .ok (some name) := rfl
    have e3 : Dict.getE (csvRowDict [c!"fieldname", c!"lastchar", c!"length"] [name, natStr last] []) c!"length" = .ok none := rfl
    rw [fieldspecLoop]
    have e4 : rowInt (csvRowDict [c!"fieldname", c!"lastchar", c!"length"] [name, natStr last] []) c!"lastchar" = .ok (last : Int) := by
      unfold rowInt; rw [e1]; exact pyInt_natStr _
    rw [e4]
    simp only [e2, rowInt, e3]

end

section
attribute [local instance] Uni.ascii
set_option maxRecDepth 40000

-- two candidates share a name with a candidate of blank name between them
example : (sfConvert false (masterText (exSfMaster ++ [exMasterRec c!"Candidate" c!"0000103" c!"", exMasterRec c!"Candidate" c!"0000104" c!"ANN"]))
      (imageText exSfLines)).map (fun m => m.candidates) =
    .ok [(c!"cand0", none), (c!"ANN", some c!"ANN"), (c!"BO_B", some c!"BO B"), (c!"cand3", some [])] := by decide +kernel
example : tableIds exSfMaster = [c!"0000000", c!"0000101", c!"0000102"] := by decide +kernel
example : readFieldspec c!"fieldname,lastchar,length\na,2,2\nb,5" = .error .typeError := by decide +kernel
end

end Verif.Props
