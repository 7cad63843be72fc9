/-
Helper lemmas: printing a ballot that was read from a printed line.
-/
import Verif.Lib.ExportCands
import Verif.Lib.ParsedExport
import Verif.Lib.MetaRound

set_option linter.unusedSimpArgs false
set_option linter.unusedSectionVars false

namespace Verif
open Spec
variable [U : Uni]

/-- no rating, or a positive number -/
def SettledRating (r : Option RVal) : Prop := r = none ∨ ∃ i : Int, 0 < i ∧ r = some (.int i)

theorem settled_plain {r : Option RVal} (h : SettledRating r) : PlainRating r := by
  rcases h with rfl | ⟨i, hi, rfl⟩
  · exact trivial
  · show 0 ≤ i
    omega

theorem exItem_settled {tok : Str} {r : Option RVal} : SettledRating (exItem tok r).value := by
  have hst : (exItem tok r).style ≠ .quoted := by
    unfold exItem; simp only; split <;> simp
  unfold Item.value
  cases (exItem tok r).rating with
  | none => exact .inl rfl
  | some ds =>
    simp only
    split
    · exact .inl rfl
    · exact .inr ⟨digitsVal ds, by omega, rfl⟩

/-- a settled rating is read back as it is -/
theorem exItem_value_settled {tok : Str} {r : Option RVal} (h : SettledRating r) : (exItem tok r).value = r := by
  have hst : (exItem tok r).style ≠ .quoted := by
    unfold exItem; simp only; split <;> simp
  rcases h with rfl | ⟨i, hi, rfl⟩
  · rfl
  · have hr : (exItem tok (some (.int i))).rating = some (natStr i.toNat) := by
      show some (intStr i) = _
      rw [intStr_nonneg (by omega)]
    have hd := (natStr_spec i.toNat).2.2
    unfold Item.value
    rw [hr]
    simp only
    rw [hd, if_neg (by omega)]
    congr 2
    omega

/-! ### delimiters -/

theorem adjDelims_congr {α β : Type} {k : α → Int} {k' : β → Int} {l : List α} {l' : List β}
    (h : l.map k = l'.map k') : adjDelims k l = adjDelims k' l' := by
  induction l generalizing l' with
  | nil => cases l' with
    | nil => rfl
    | cons b l' => cases h
  | cons a l ih =>
    cases l' with
    | nil => cases h
    | cons b l' =>
      simp only [List.map_cons, List.cons.injEq] at h
      have := ih h.2
      cases l with
      | nil =>
        cases l' with
        | nil => rfl
        | cons b2 l' => cases h.2
      | cons a2 l =>
        cases l' with
        | nil => cases h.2
        | cons b2 l' =>
          have h2 := h.2
          simp only [List.map_cons, List.cons.injEq] at h2
          simp only [adjDelims, this, h.1, h2.1]

/-- the delimiters come back from the ranks they give -/
theorem adjDelims_ranks (ds : List Char) (hd : ∀ d ∈ ds, d = '>' ∨ d = '=') (r : Int) :
    adjDelims id ((List.range (ds.length + 1)).map (fun j => r + ((ds.take j).count '>' : Nat))) = ds := by
  induction ds generalizing r with
  | nil => rfl
  | cons d ds ih =>
    have ih' := ih (fun x hx => hd x (by simp [hx])) (r + if d = '>' then 1 else 0)
    have e : (List.range ((d :: ds).length + 1)).map (fun j => r + (((d :: ds).take j).count '>' : Nat)) =
        r :: (List.range (ds.length + 1)).map (fun j => (r + if d = '>' then 1 else 0) + ((ds.take j).count '>' : Nat)) := by
      rw [List.length_cons, List.range_succ_eq_map]
      simp only [List.map_cons, List.map_map]
      congr 1
      · simp
      · apply List.map_congr_left
        intro j _
        simp only [Function.comp, List.take_succ_cons, List.count_cons]
        by_cases h : d = '>'
        · simp [h]; omega
        · simp [h]
    rw [e]
    rw [List.range_succ_eq_map] at ih' ⊢
    simp only [List.map_cons] at ih' ⊢
    unfold adjDelims
    rw [ih']
    congr 1
    rcases hd d (by simp) with rfl | rfl
    · simp; omega
    · simp

theorem count_take_mono {ds : List Char} {i j : Nat} (h : i ≤ j) : (ds.take i).count '>' ≤ (ds.take j).count '>' :=
  (List.take_sublist_take_left h).count_le _

/-! ### one ballot, twice -/

/-- what is left of `prefs` after printing and reading: the list in printed order -/
theorem reread_core {prefs : Dict Str Pref} (hne : prefs ≠ []) (hwf : Dict.WF prefs) (htok : ∀ k ∈ Dict.keys prefs, Printable k)
    (hrank : ∀ e ∈ prefs, ∃ r, e.2.rank = some r) (hrat : ∀ e ∈ prefs, PlainRating e.2.rating) :
    ∃ (L : List (Str × Pref)) (key : Str × Pref → Int) (prefs' : Dict Str Pref), L.Perm prefs ∧
      prefstrOfPrefs prefs = .ok (writeItems (L.map entryItem) (adjDelims key L)) ∧
      parsePrefstr (writeItems (L.map entryItem) (adjDelims key L)) = .ok (prefs', Dict.keys prefs') ∧
      prefs' = (L.map entryItem).zipIdx.map (fun x => (x.1.tok, itemEntry (L.map entryItem) (adjDelims key L) x)) ∧
      ((∀ e ∈ prefs, Rated e.2) → ∀ e ∈ prefs, key e = - ratingNumber e.2.rating) ∧
      (¬ (∀ e ∈ prefs, Rated e.2) → ∀ e ∈ prefs, e.2.rank = some (key e)) ∧
      ((∀ e ∈ prefs, Rated e.2) → L = pySort (fun a b => ratedLe (rateKey a) (rateKey b)) prefs) ∧
      (¬ (∀ e ∈ prefs, Rated e.2) → L = sortByKey key prefs) := by
  obtain ⟨L, key, hperm, hsort, hprint, hk1, hk2, hL1, hL2⟩ := prefstr_order hne hrank hrat
  have hmem : ∀ e ∈ L, e ∈ prefs := fun e he => hperm.mem_iff.1 he
  have hkeys : ∀ e ∈ prefs, e.1 ∈ Dict.keys prefs := fun e he => List.mem_map_of_mem he
  have hok : ∀ it ∈ L.map entryItem, it.Ok := by
    intro it hit
    obtain ⟨e, he, rfl⟩ := List.mem_map.1 hit
    exact exItem_ok (htok _ (hkeys e (hmem e he))) (hrat e (hmem e he))
  have hd : ∀ d ∈ adjDelims key L, d = '>' ∨ d = '=' ∨ d = ',' := by
    intro d hd
    rcases adjDelims_mem key L d hd with h | h <;> simp [h]
  have hLne : L ≠ [] := by rintro rfl; exact hne hperm.symm.eq_nil
  have hlen : (adjDelims key L).length + 1 = (L.map entryItem).length := by
    cases L with
    | nil => exact absurd rfl hLne
    | cons a l => rw [adjDelims_length]; simp
  have htoks : (L.map entryItem).map Item.tok = Dict.keys L := by
    rw [List.map_map]; rfl
  have hLwf : Dict.WF L := Dict.wf_perm hperm.symm hwf
  have hnd : ((L.map entryItem).map Item.tok).Nodup := by rw [htoks]; exact hLwf
  have hparse := parsePrefstr_items hok hd hlen hnd
  refine ⟨L, key, _, hperm, hprint, ?_, rfl, hk1, hk2, hL1, hL2⟩
  rw [hparse]
  congr 2
  unfold Dict.keys
  rw [List.map_map]
  apply List.ext_getElem (by simp)
  intro j h1 h2
  simp

/-- A ballot that was read from a printed line is printed in the order it was read, with the same delimiters and with
ratings that are read back as they are. -/
theorem reprint {prefs : Dict Str Pref} (hne : prefs ≠ []) (hwf : Dict.WF prefs) (htok : ∀ k ∈ Dict.keys prefs, Printable k)
    (hrank : ∀ e ∈ prefs, ∃ r, e.2.rank = some r) (hrat : ∀ e ∈ prefs, PlainRating e.2.rating) :
    ∃ (p : Str) (prefs' : Dict Str Pref) (p' : Str) (prefs'' : Dict Str Pref),
      prefstrOfPrefs prefs = .ok p ∧ parsePrefstr p = .ok (prefs', Dict.keys prefs') ∧
      (∀ e ∈ prefs', SettledRating e.2.rating) ∧ (Dict.keys prefs').Perm (Dict.keys prefs) ∧
      prefstrOfPrefs prefs' = .ok p' ∧ parsePrefstr p' = .ok (prefs'', Dict.keys prefs'') ∧
      Dict.keys prefs'' = Dict.keys prefs' ∧
      ((∀ e ∈ prefs, SettledRating e.2.rating) → p' = p) := by
  obtain ⟨L, key, prefs', hperm, hprint, hparse, hp', hk1, hk2, hL1, hL2⟩ := reread_core hne hwf htok hrank hrat
  have hLne : L ≠ [] := by rintro rfl; exact hne hperm.symm.eq_nil
  have hlen : (adjDelims key L).length + 1 = L.length := by
    cases L with
    | nil => exact absurd rfl hLne
    | cons a l => rw [adjDelims_length]; simp
  have hplen : prefs'.length = L.length := by rw [hp']; simp
  have hpne : prefs' ≠ [] := by
    intro h; rw [h] at hplen; exact hLne (List.length_eq_zero_iff.1 hplen.symm)
  have hfirst : (adjDelims key L).head? ≠ some ',' := by
    intro hc
    rcases adjDelims_mem key L _ (List.mem_of_head? hc) with h | h <;> cases h
  have hentry : ∀ j (hj : j < prefs'.length) (hj' : j < L.length), prefs'[j].1 = L[j].1 ∧
      prefs'[j].2.rank = some (1 + (((adjDelims key L).take j).count '>' : Nat)) ∧ prefs'[j].2.rating = (entryItem L[j]).value := by
    intro j hj hj'
    simp only [hp', List.getElem_map, List.getElem_zipIdx]
    refine ⟨rfl, ?_, ?_⟩
    · simp [itemEntry, itemRank, hfirst]
    · simp [itemEntry]
  have hkeys' : Dict.keys prefs' = Dict.keys L := by
    unfold Dict.keys
    apply List.ext_getElem (by simp [hplen])
    intro j h1 h2
    simp only [List.getElem_map]
    exact (hentry j (by simpa using h1) (by simpa using h2)).1
  have hLrat : ∀ e ∈ L, PlainRating e.2.rating := fun e he => hrat e (hperm.mem_iff.1 he)
  have hset : ∀ e ∈ prefs', SettledRating e.2.rating := by
    intro e he
    obtain ⟨j, hj, rfl⟩ := List.mem_iff_getElem.1 he
    rw [(hentry j hj (by omega)).2.2]
    exact exItem_settled
  have hpermk : (Dict.keys prefs').Perm (Dict.keys prefs) := by rw [hkeys']; exact hperm.map _
  have hwf' : Dict.WF prefs' := by
    unfold Dict.WF; rw [hkeys']; exact Dict.wf_perm hperm.symm hwf
  have hrank' : ∀ e ∈ prefs', ∃ r, e.2.rank = some r := by
    intro e he
    obtain ⟨j, hj, rfl⟩ := List.mem_iff_getElem.1 he
    exact ⟨_, (hentry j hj (by omega)).2.1⟩
  obtain ⟨L', key', prefs'', hperm', hprint', hparse', hp'', hk1', hk2', hL1', hL2'⟩ := reread_core hpne hwf'
    (fun k hk => htok k (hpermk.mem_iff.1 hk)) hrank' (fun e he => settled_plain (hset e he))
  have hnum : ∀ j (hj : j < prefs'.length) (hj' : j < L.length), ratingNumber prefs'[j].2.rating = ratingNumber L[j].2.rating := by
    intro j hj hj'
    rw [(hentry j hj hj').2.2]
    exact exItem_value (hLrat _ (List.getElem_mem _))
  have hrated : (∀ e ∈ prefs', Rated e.2) → ∀ e ∈ prefs, Rated e.2 := by
    intro h e he
    obtain ⟨j, hj, rfl⟩ := List.mem_iff_getElem.1 (hperm.mem_iff.2 he)
    have h1 := h _ (List.getElem_mem (l := prefs') (n := j) (by omega))
    have h2 := (hentry j (by omega) hj).2.2
    constructor
    · intro hn
      apply h1.1
      rw [h2]
      unfold entryItem
      rw [hn]
      rfl
    · intro hn
      apply h1.1
      rw [h2]
      unfold entryItem
      rw [hn]
      rfl
  -- the ballot read is already in the order in which it is printed
  have hLL : L' = prefs' := by
    by_cases hall : ∀ e ∈ prefs', Rated e.2
    · rw [hL1' hall]
      apply pySort_of_sorted
      have hs := hL1 (hrated hall)
      have hsorted : L.Pairwise (fun a b => ratedLe (rateKey a) (rateKey b) = true) := by
        rw [hs]
        have hp : TotalPre (fun a b => ratedLe (rateKey a) (rateKey b)) :=
          ⟨fun a b => ratedLe_totalPre.total _ _, fun a b c => ratedLe_totalPre.trans _ _ _⟩
        exact pySort_sorted hp prefs
      rw [List.pairwise_iff_getElem] at hsorted ⊢
      intro i j hi hj hij
      have := hsorted i j (by omega) (by omega) hij
      have e : ∀ (i : Nat) (hi : i < prefs'.length) (hi' : i < L.length), (rateKey prefs'[i]).1 = (rateKey L[i]).1 ∧
          (rateKey prefs'[i]).2.2 = (rateKey L[i]).2.2 := fun i hi hi' => ⟨(hentry i hi hi').1, hnum i hi hi'⟩
      unfold ratedLe at this ⊢
      rw [(e i hi (by omega)).1, (e i hi (by omega)).2, (e j hj (by omega)).1, (e j hj (by omega)).2]
      exact this
    · rw [hL2' hall]
      unfold sortByKey
      apply pySort_of_sorted
      rw [List.pairwise_iff_getElem]
      intro i j hi hj hij
      have h1 := hk2' hall _ (List.getElem_mem hi)
      have h2 := hk2' hall _ (List.getElem_mem hj)
      rw [(hentry i hi (by omega)).2.1] at h1
      rw [(hentry j hj (by omega)).2.1] at h2
      have h1 := Option.some.inj h1
      have h2 := Option.some.inj h2
      have := count_take_mono (ds := adjDelims key L) (Nat.le_of_lt hij)
      simp only [decide_eq_true_eq]
      omega
  -- with the same delimiters
  have hdel : adjDelims key' prefs' = adjDelims key L := by
    by_cases hall : ∀ e ∈ prefs', Rated e.2
    · apply adjDelims_congr
      apply List.ext_getElem (by simp [hplen])
      intro j h1 h2
      simp only [List.getElem_map]
      have a1 : j < prefs'.length := by simpa using h1
      have a2 : j < L.length := by simpa using h2
      rw [hk1' hall _ (List.getElem_mem a1), hk1 (hrated hall) _ (hperm.mem_iff.1 (List.getElem_mem a2)), hnum j a1 a2]
    · refine Eq.trans ?_ (adjDelims_ranks (adjDelims key L) (adjDelims_mem key L) 1)
      apply adjDelims_congr
      apply List.ext_getElem (by simp only [List.length_map, List.length_range]; omega)
      intro j h1 h2
      simp only [List.getElem_map, List.getElem_range, id]
      have a1 : j < prefs'.length := by simpa using h1
      have h := hk2' hall _ (List.getElem_mem a1)
      rw [(hentry j a1 (by omega)).2.1] at h
      have h := Option.some.inj h
      omega
  rw [hLL] at hprint' hparse' hp''
  refine ⟨_, prefs', _, prefs'', hprint, hparse, hset, hpermk, hprint', hparse', ?_, ?_⟩
  · rw [hp'']
    unfold Dict.keys
    apply List.ext_getElem (by simp)
    intro j h1 h2
    simp [entryItem, exItem]
  · intro hs
    rw [hdel]
    congr 1
    apply List.ext_getElem (by simp [hplen])
    intro j h1 h2
    simp only [List.getElem_map]
    have a1 : j < prefs'.length := by simpa using h1
    have a2 : j < L.length := by simpa using h2
    unfold entryItem
    rw [(hentry j a1 a2).1, (hentry j a1 a2).2.2]
    congr 1
    exact exItem_value_settled (hs _ (hperm.mem_iff.1 (List.getElem_mem a2)))

/-! ### the whole text -/

/-- the printed line of a ballot -/
def LineOf (vl : Voteline) (l : Str) : Prop := votelineStr vl = .ok (l ++ ['\n']) ∧ PrintedAs vl l

theorem convertToAbif_lines {m : Jabmod} (h : ∀ vl ∈ m.votelines, Exportable vl) :
    ∃ vlines, convertToAbif m = .ok ((fileLines m.metadata m.candidates vlines).flatMap (fun l => l ++ ['\n'])) ∧
      List.Forall₂ LineOf m.votelines vlines := by
  have hvl : ∀ vls : List Voteline, (∀ vl ∈ vls, Exportable vl) →
      ∃ vlines, votelinesStr vls = .ok (vlines.flatMap (fun l => l ++ ['\n'])) ∧ List.Forall₂ LineOf vls vlines := by
    intro vls h
    induction vls with
    | nil => exact ⟨[], rfl, .nil⟩
    | cons vl vls ih =>
      obtain ⟨ls, h1, h2⟩ := ih (fun v hv => h v (by simp [hv]))
      obtain ⟨p, prefs', e1, e2, e3, e4, e5, _, e6⟩ := votelineStr_reads (h vl (by simp))
      refine ⟨_ :: ls, ?_, .cons ⟨e1, p, prefs', rfl, e2, e3, e4, e5, e6⟩ h2⟩
      unfold votelinesStr
      rw [e1, ok_bind, h1, ok_bind]
      rfl
  obtain ⟨ls, h1, h2⟩ := hvl m.votelines h
  refine ⟨ls, ?_, h2⟩
  unfold convertToAbif
  rw [h1, ok_bind]
  congr 1
  have e1 : metadataStr m.metadata = (m.metadata.map metaLine).flatMap (fun l => l ++ ['\n']) := by
    unfold metadataStr
    rw [List.flatMap_map]
    congr 1
    funext kv
    simp [metaLine]
  have e2 : candlinesStr m.candidates = (m.candidates.map candLine).flatMap (fun l => l ++ ['\n']) := by
    unfold candlinesStr
    rw [List.flatMap_map]
    congr 1
    funext kv
    simp [candLine]
  rw [e1, e2]
  unfold fileLines
  simp only [List.flatMap_cons, List.flatMap_append, List.append_assoc]
  rfl

/-! ### metadata as a list -/

/-- the metadata stored for a list of lines -/
def setAll (d : Dict Str Json) (l : List (Str × Str)) : Dict Str Json :=
  l.foldl (fun d kv => Dict.set d (filedAs kv.1) (.str kv.2)) d

theorem filedAs_ne (k : Str) : filedAs k ≠ c!"ballotcount" := by
  unfold filedAs
  split
  · decide
  · assumption

theorem processPlain_metadata {i : Nat} {ls : List Str} {m m' : Jabmod} (h : processPlain false i ls m = .ok m') {n : Int} {d : Dict Str Json}
    (hm : m.metadata = (c!"ballotcount", .int n) :: d) :
    ∃ n', m'.metadata = (c!"ballotcount", .int n') :: setAll d (ls.filterMap (fun l => readMeta (beforeHash l))) := by
  induction ls generalizing i m n d with
  | nil => cases h; exact ⟨n, hm⟩
  | cons l ls ih =>
    unfold processPlain at h
    rw [processComment_false, ok_bind] at h
    obtain ⟨m1, h1, h⟩ := bind_ok.1 h
    unfold lineEffect at h1
    have hnone : ∀ {n : Int} {m1 : Jabmod}, m1.metadata = (c!"ballotcount", .int n) :: d → readMeta (beforeHash l) = none →
        processPlain false (i + 1) ls m1 = .ok m' →
        ∃ n', m'.metadata = (c!"ballotcount", .int n') :: setAll d ((l :: ls).filterMap (fun l => readMeta (beforeHash l))) := by
      intro n m1 hm1 hr h
      rw [List.filterMap_cons_none (f := fun l => readMeta (beforeHash l)) hr]
      exact ih h hm1
    cases hc : readCand (beforeHash l) with
    | some td =>
      rw [hc] at h1
      cases h1
      have hmm : matchMeta (beforeHash l) = none := by
        cases hmm : matchMeta (beforeHash l) with
        | none => rfl
        | some r => rw [readCand_none_of_meta hmm] at hc; cases hc
      rw [matchMeta_eq] at hmm
      exact hnone (by simpa [processCand] using hm) hmm h
    | none =>
      rw [hc] at h1
      simp only at h1
      cases hmm : matchMeta (beforeHash l) with
      | some kv =>
        obtain ⟨k, v⟩ := kv
        rw [hmm] at h1
        cases h1
        rw [matchMeta_eq] at hmm
        rw [List.filterMap_cons_some (f := fun l => readMeta (beforeHash l)) (b := (k, v)) hmm]
        have := ih h (n := n) (d := Dict.set d (filedAs k) (.str v)) (by
          show Dict.set m.metadata (filedAs k) (.str v) = _
          rw [hm]
          simp only [Dict.set]
          rw [if_neg (Ne.symm (filedAs_ne k))])
        exact this
      | none =>
        rw [hmm] at h1
        rw [matchMeta_eq] at hmm
        simp only at h1
        cases hv : readVote (beforeHash l) with
        | none => rw [hv] at h1; cases h1; exact hnone hm hmm h
        | some qp =>
          obtain ⟨q, p⟩ := qp
          rw [hv] at h1
          obtain ⟨vl, cands, n1, _, _, _, _, _, e⟩ := processPrefline_ok h1
          refine hnone (n := n1 + digitsVal q) ?_ hmm h
          rw [e, hm]
          simp [Dict.set]

theorem convertAbif_metadata {cw : Bool} {text : Str} {m : Jabmod} (h : convertAbif cw false false text = .ok m) :
    m.metadata = (c!"ballotcount", .int (m.votelines.map Voteline.qty).sum) ::
      setAll [] ((textLines cw text).filterMap (fun l => readMeta (beforeHash l))) := by
  obtain ⟨vls, _, _, f2, _, _, f5, _⟩ := convertAbif_ok h
  rw [convertAbif_eq] at h
  obtain ⟨m0, h0, h⟩ := bind_ok.1 h
  unfold finish at h
  split at h
  · cases h
  cases h
  obtain ⟨n', hn⟩ := processPlain_metadata h0 (n := 0) (d := []) rfl
  simp only at f5 f2 ⊢
  rw [hn] at f5 ⊢
  simp only [Dict.get?, if_true] at f5
  rw [f2, perm_sum ((sortByKeyDesc_perm Voteline.qty vls).map Voteline.qty)]
  injection f5 with f5
  rw [f5]

/-! ### the second text is final -/

/-- metadata read back from a printed value -/
def PlainText (v : Str) : Prop := v ≠ [] ∧ v.all plainValChar = true

theorem plainText_reread {v : Str} (h : PlainText v) : rereadText (.str v) = some v := by
  rw [rereadText_eq]
  · show (if v ≠ [] ∧ v.all plainValChar = true then some v else none) = some v
    rw [if_pos (show v ≠ [] ∧ v.all plainValChar = true from h)]
  · rintro s e hm
    cases e
    have := List.all_eq_true.1 h.2 _ hm
    have := plain_val this
    simp [valChar, isWord, isAscii, isAsciiAlnum, isAsciiDigit, isAsciiUpper, isAsciiLower, isSpace] at this


theorem rereadText_plain {j : Json} {v : Str} (h : rereadText j = some v) : PlainText v := by
  have hk : PlainKey c!"a" := by
    have hw : isWord 'a' = true := by simp [isWord, isAscii, isAsciiAlnum, isAsciiLower]
    refine ⟨⟨'a', [], rfl, hw⟩, ?_⟩
    intro c hc
    simp only [List.mem_singleton] at hc
    subst hc
    exact ⟨.inl hw, by decide⟩
  have hm := readMeta_metaLine hk j
  rw [h, Option.map_some, ← matchMeta_eq] at hm
  obtain ⟨w1, q1, w2, q2, w3, w4, q3, w5, q4, w6, hs, _, _, _, _, hv0, hv⟩ := matchMeta_sound hm
  have hv : ∀ c ∈ v, valChar c = true := hv
  refine ⟨hv0, List.all_eq_true.2 ?_⟩
  intro c hc
  have hin : c ∈ metaLine (c!"a", j) := by
    have : c ∈ beforeHash (metaLine (c!"a", j)) := by rw [hs]; simp [hc]
    exact (takeWhile_mem this).2
  have : isPlainAscii c := by
    simp only [metaLine, List.mem_cons, List.mem_append, List.not_mem_nil, or_false] at hin
    rcases hin with rfl | rfl | rfl | rfl | hd | rfl
    · exact ⟨by decide, by decide⟩
    · exact ⟨by decide, by decide⟩
    · exact ⟨by decide, by decide⟩
    · exact ⟨by decide, by decide⟩
    · exact dumps_ascii j c hd
    · exact ⟨by decide, by decide⟩
  simp only [plainValChar, Bool.and_eq_true, decide_eq_true_eq]
  exact ⟨this, hv c hc⟩

/-- the metadata after one trip through a text, first entry (the ballot count) left out -/
def rereadMeta (n : Int) (d : Dict Str Json) : Dict Str Json :=
  setAll [] ((((c!"ballotcount", Json.int n) :: d)).filterMap (fun kv => (rereadText kv.2).map (fun v => (kv.1, v))))

theorem setAll_keys {d : Dict Str Json} {l : List (Str × Str)} : ∀ k ∈ Dict.keys (setAll d l), k ∈ Dict.keys d ∨ ∃ kv ∈ l, k = filedAs kv.1 := by
  induction l generalizing d with
  | nil => exact fun k hk => .inl hk
  | cons a l ih =>
    intro k hk
    rcases ih k hk with h | ⟨kv, h, e⟩
    · rcases Dict.mem_keys_set.1 h with rfl | h
      · exact .inr ⟨a, by simp, rfl⟩
      · exact .inl h
    · exact .inr ⟨kv, by simp [h], e⟩

theorem setAll_wf {d : Dict Str Json} {l : List (Str × Str)} (h : Dict.WF d) : Dict.WF (setAll d l) := by
  induction l generalizing d with
  | nil => exact h
  | cons a l ih => exact ih (Dict.wf_set _ _ h)

theorem setAll_values {d : Dict Str Json} {l : List (Str × Str)} (P : Json → Prop) (h : ∀ kv ∈ d, P kv.2) (hl : ∀ kv ∈ l, P (.str kv.2)) :
    ∀ kv ∈ setAll d l, P kv.2 := by
  induction l generalizing d with
  | nil => exact h
  | cons a l ih =>
    apply ih _ (fun kv hkv => hl kv (by simp [hkv]))
    clear ih
    induction d with
    | nil =>
      intro kv hkv
      simp only [Dict.set, List.mem_singleton] at hkv
      subst hkv
      exact hl a (by simp)
    | cons e d ih =>
      obtain ⟨k, v⟩ := e
      intro kv hkv
      simp only [Dict.set] at hkv
      split at hkv
      · rcases List.mem_cons.1 hkv with rfl | hkv
        · exact hl a (by simp)
        · exact h kv (by simp [hkv])
      · rcases List.mem_cons.1 hkv with rfl | hkv
        · exact h (k, v) (by simp)
        · exact ih (fun kv hkv => h kv (by simp [hkv])) kv hkv

/-- the first entry stays the first -/
theorem setAll_head {k : Str} {v : Json} {d : Dict Str Json} {l : List (Str × Str)} : ∃ v' d', setAll ((k, v) :: d) l = (k, v') :: d' := by
  induction l generalizing v d with
  | nil => exact ⟨v, d, rfl⟩
  | cons a l ih =>
    show ∃ v' d', setAll (Dict.set ((k, v) :: d) (filedAs a.1) (.str a.2)) l = (k, v') :: d'
    simp only [Dict.set]
    split
    · exact ih
    · exact ih

/-- entries with new keys are appended -/
theorem setAll_fresh {d : Dict Str Json} {l : List (Str × Str)} (h : (Dict.keys d ++ l.map Prod.fst).Nodup)
    (hf : ∀ kv ∈ l, filedAs kv.1 = kv.1) : setAll d l = d ++ l.map (fun kv => (kv.1, Json.str kv.2)) := by
  induction l generalizing d with
  | nil => simp [setAll]
  | cons a l ih =>
    show setAll (Dict.set d (filedAs a.1) (.str a.2)) l = _
    rw [hf a (by simp)]
    have hk : a.1 ∉ Dict.keys d := by
      rw [List.nodup_append] at h
      intro hm
      exact h.2.2 _ hm _ (by simp) rfl
    rw [Dict.set_of_not_mem _ hk, ih]
    · simp
    · simpa [Dict.keys] using h
    · exact fun kv hkv => hf kv (by simp [hkv])

/-- after the first trip, a second changes nothing -/
theorem rereadMeta_idem (n : Int) (d : Dict Str Json) : rereadMeta n (rereadMeta n d) = rereadMeta n d := by
  have hint : rereadText (.int n) = some (intStr n) := by
    rw [rereadText_eq (by rintro s e; cases e)]; rfl
  have hunf : ∀ d : Dict Str Json, rereadMeta n d = setAll [(c!"ballotcount_abif_metadata", .str (intStr n))]
      (d.filterMap (fun kv => (rereadText kv.2).map (fun v => (kv.1, v)))) := by
    intro d
    unfold rereadMeta
    rw [List.filterMap_cons_some (b := (c!"ballotcount", intStr n)) (by rw [hint]; rfl)]
    rfl
  have hplain : ∀ kv ∈ rereadMeta n d, ∃ v, kv.2 = Json.str v ∧ PlainText v := by
    rw [hunf]
    apply setAll_values (fun j => ∃ v, j = Json.str v ∧ PlainText v)
    · intro kv hkv
      simp only [List.mem_singleton] at hkv
      subst hkv
      exact ⟨_, rfl, rereadText_plain hint⟩
    · intro kv hkv
      obtain ⟨kv', _, e⟩ := List.mem_filterMap.1 hkv
      obtain ⟨v, hv, rfl⟩ := Option.map_eq_some_iff.1 e
      exact ⟨_, rfl, rereadText_plain hv⟩
  have hwf : Dict.WF (rereadMeta n d) := setAll_wf Dict.wf_nil
  have hbc : ∀ kv ∈ rereadMeta n d, filedAs kv.1 = kv.1 := by
    intro kv hkv
    have : kv.1 ∈ Dict.keys (rereadMeta n d) := List.mem_map_of_mem hkv
    rcases setAll_keys _ this with h | ⟨kv', _, e⟩
    · cases h
    · rw [e]
      generalize hx : filedAs kv'.1 = x
      unfold filedAs
      rw [if_neg]
      rw [← hx]
      exact filedAs_ne _
  obtain ⟨v', d', hd⟩ : ∃ v' d', rereadMeta n d = (c!"ballotcount_abif_metadata", v') :: d' := by
    rw [hunf]; exact setAll_head
  generalize rereadMeta n d = D at hplain hwf hbc hd
  have hall : ∀ D : Dict Str Json, (∀ kv ∈ D, ∃ v, kv.2 = Json.str v ∧ PlainText v) → ∃ l : List (Str × Str),
      D = l.map (fun kv => (kv.1, Json.str kv.2)) ∧ D.filterMap (fun kv => (rereadText kv.2).map (fun v => (kv.1, v))) = l := by
    intro D h
    induction D with
    | nil => exact ⟨[], rfl, rfl⟩
    | cons e D ih =>
      obtain ⟨l, h1, h2⟩ := ih (fun kv hkv => h kv (by simp [hkv]))
      obtain ⟨k, j⟩ := e
      obtain ⟨v, hv, hp⟩ := h (k, j) (by simp)
      simp only at hv
      subst hv
      refine ⟨(k, v) :: l, by rw [h1]; rfl, ?_⟩
      rw [List.filterMap_cons_some (b := (k, v)) (by simp only; rw [plainText_reread hp]; rfl), h2]
  obtain ⟨l, h1, h2⟩ := hall D hplain
  rw [hunf, h2]
  rw [hd] at h1
  cases l with
  | nil => cases h1
  | cons a l =>
    simp only [List.map_cons, List.cons.injEq, Prod.mk.injEq] at h1
    obtain ⟨⟨ha, hv⟩, hrest⟩ := h1
    have e : setAll [(c!"ballotcount_abif_metadata", .str (intStr n))] (a :: l) =
        setAll [(c!"ballotcount_abif_metadata", .str a.2)] l := by
      show setAll (Dict.set _ (filedAs a.1) (.str a.2)) l = _
      rw [← ha]
      rfl
    rw [e, setAll_fresh]
    · rw [hd, hv, hrest]; rfl
    · unfold Dict.WF at hwf
      rw [hd, hrest] at hwf
      simpa [Dict.keys, Function.comp_def] using hwf
    · intro kv hkv
      apply hbc (kv.1, .str kv.2)
      rw [hd, hrest]
      simp only [List.mem_cons, List.mem_map]
      exact .inr ⟨kv, hkv, rfl⟩

/-! ### candidates -/

/-- the tokens whose candidate lines are read back -/
def safeToks (cs : Dict Str (Option Str)) : List Str := (Dict.keys cs).filter (fun t => t.all isUrlSafe)

theorem mentions_list {md : Dict Str Json} {cs : Dict Str (Option Str)} {vlines : List Str}
    (hc : ∀ kv ∈ cs, SafeCand kv ∨ BracketCand kv) :
    (fileLines md cs vlines).flatMap lineMentions = safeToks cs ++ vlines.flatMap lineMentions := by
  have hnone : ∀ {l : Str}, readCand (beforeHash l) = none → readVote (beforeHash l) = none → lineMentions l = [] := by
    intro l h1 h2
    unfold lineMentions; rw [h1, h2]
  have hh : lineMentions headMeta = [] ∧ lineMentions headCand = [] ∧ lineMentions headVote = [] := by
    refine ⟨?_, ?_, ?_⟩ <;> rfl
  have hm : (md.map metaLine).flatMap lineMentions = [] := by
    rw [List.flatMap_eq_nil_iff]
    intro l hl
    obtain ⟨kv, _, rfl⟩ := List.mem_map.1 hl
    apply hnone
    · unfold metaLine
      rw [beforeHash_cons (by decide), readCand_head_none (by decide)]
    · unfold metaLine
      rw [beforeHash_cons (by decide)]
      exact readVote_head_none isDigit_brace
  have hcs : (cs.map candLine).flatMap lineMentions = safeToks cs := by
    unfold safeToks Dict.keys
    induction cs with
    | nil => rfl
    | cons kv cs ih =>
      rw [List.map_cons, List.flatMap_cons, ih (fun kv hkv => hc kv (by simp [hkv])), List.map_cons, List.filter_cons]
      rcases hc kv (by simp) with hs | hb
      · obtain ⟨d, _, e⟩ := candLine_safe hs
        have : lineMentions (candLine kv) = [kv.1] := by unfold lineMentions; rw [e]
        rw [this, if_pos (List.all_eq_true.2 hs.1)]; rfl
      · have : lineMentions (candLine kv) = [] := by
          apply hnone (candLine_bracket hb)
          unfold candLine
          rw [beforeHash_cons (by decide)]
          exact readVote_head_none isDigit_eq
        rw [this, if_neg (fun h => hb.1 (List.all_eq_true.1 h))]; rfl
  unfold fileLines
  simp only [List.flatMap_cons, List.flatMap_append, hh.1, hh.2.1, hh.2.2, hm, hcs, List.nil_append]

/-- a parsed candidate has a line of one of the two kinds -/
theorem parsed_cands {cw : Bool} {text : Str} {m : Jabmod} (h : convertAbif cw false false text = .ok m)
    (htok : ∀ (vl : Voteline), vl ∈ m.votelines → ∀ (k : Str), k ∈ Dict.keys vl.prefs → Printable k) :
    ∀ kv ∈ m.candidates, SafeCand kv ∨ BracketCand kv := by
  obtain ⟨vls, f1, fx, f2, f3, f4, fy, fz⟩ := convertAbif_ok h
  have hcw : Dict.WF m.candidates := by
    unfold Dict.WF
    rw [f3]; exact nodup_firsts _
  have hcand : ∀ {l t d : Str}, readCand (beforeHash l) = some (t, d) → (']' ∉ t ∧ '#' ∉ t) ∧ (']' ∉ d ∧ '#' ∉ d) := by
    intro l t d hr
    obtain ⟨h1, h2⟩ := readCand_mem hr
    have hno : '#' ∉ beforeHash l := by
      intro hm
      have := (takeWhile_mem hm).1
      simp at this
    refine ⟨⟨?_, fun hm => hno (h1 _ hm)⟩, ⟨?_, fun hm => hno (h2 _ hm)⟩⟩
    · intro hm
      unfold readCand at hr
      split at hr
      · simp only at hr
        split at hr
        · split at hr
          · cases hr
            have := (takeWhile_mem hm).1
            simp at this
          · cases hr
        · cases hr
      · cases hr
    · intro hm
      unfold readCand at hr
      split at hr
      · simp only at hr
        split at hr
        · split at hr
          · cases hr
            have := (takeWhile_mem hm).1
            simp at this
          · cases hr
        · cases hr
      · cases hr
  have htoks : ∀ t ∈ Dict.keys m.candidates, ']' ∉ t ∧ '#' ∉ t := by
    intro t ht
    rw [f3, mem_firsts, List.mem_flatMap] at ht
    obtain ⟨l, hl, ht⟩ := ht
    unfold lineMentions at ht
    cases hr : readCand (beforeHash l) with
    | some r =>
      rw [hr] at ht
      obtain ⟨t', d⟩ := r
      simp only [List.mem_singleton] at ht
      subst ht
      exact (hcand hr).1
    | none =>
      rw [hr] at ht
      simp only at ht
      cases hrv : readVote (beforeHash l) with
      | none => rw [hrv] at ht; cases ht
      | some r =>
        rw [hrv] at ht
        obtain ⟨q, p⟩ := r
        have hsrc : (q, p, hashComment l) ∈ votesOf cw text := List.mem_filterMap.2 ⟨l, hl, by unfold lineVote; rw [hrv]; rfl⟩
        have : ∃ vl ∈ vls, SaysBallot (q, p, hashComment l) vl := by
          clear f2 f3 f4 h htok fx fy fz
          generalize votesOf cw text = vo at f1 hsrc
          induction f1 with
          | nil => cases hsrc
          | cons hs _ ih =>
            rcases List.mem_cons.1 hsrc with rfl | hsrc
            · exact ⟨_, by simp, hs⟩
            · obtain ⟨vl, h1, h2⟩ := ih hsrc
              exact ⟨vl, by simp [h1], h2⟩
        obtain ⟨vl, hvl, _, ⟨cands, hp⟩, _⟩ := this
        simp only at ht hp
        unfold ballotCands at ht
        rw [hp] at ht
        have := htok vl (by rw [f2, (sortByKeyDesc_perm _ _).mem_iff]; exact hvl) t ht
        exact ⟨this.2.1, this.2.2.1⟩
  rintro ⟨t, n⟩ hm
  have hk : t ∈ Dict.keys m.candidates := List.mem_map_of_mem (f := Prod.fst) hm
  have hn := Dict.get?_of_mem hcw hm
  rw [f4 t hk] at hn
  have htt := htoks t hk
  by_cases hs : ∀ c ∈ t, isUrlSafe c = true
  · refine .inl ⟨hs, (declared (textLines cw text) t).getD t, (Option.some.inj hn).symm, ?_⟩
    cases hd : declared (textLines cw text) t with
    | none => exact htt
    | some d =>
      obtain ⟨l, _, hr⟩ := declared_mem hd
      exact (hcand hr).2
  · exact .inr ⟨hs, htt⟩

end Verif
