/-
Properties of reading .abif text (C01-C04, C08-C13).  Vocabulary: `Verif.Spec.Abif`, `Verif.Spec.AbifFile`.
-/
import Verif.Lib.ParseTop

set_option linter.unusedSectionVars false

namespace Verif.Props
open Spec
variable [U : Uni]

/-! ## C01 -/

/-- C01.  Whatever lines the text contains, the recorded ballot count is the sum of the quantities of the
returned votelines; a `{ballotcount: ...}` line is kept under another key. -/
theorem C01_ballotcount (cw ar sc : Bool) (text : Str) (m : Jabmod) (h : convertAbif cw ar sc text = .ok m) :
    m.metadata.get? c!"ballotcount" = some (.int (m.votelines.map Voteline.qty).sum) ∧
    m.metadata.get? c!"ballotcount_abif_metadata" =
      (metaValue (textLines cw text) c!"ballotcount_abif_metadata").map Json.str := by
  have base : ∀ m0, convertAbif cw false sc text = .ok m0 →
      m0.metadata.get? c!"ballotcount" = some (.int (m0.votelines.map Voteline.qty).sum) ∧
      m0.metadata.get? c!"ballotcount_abif_metadata" =
        (metaValue (textLines cw text) c!"ballotcount_abif_metadata").map Json.str := by
    intro m0 h
    obtain ⟨vls, _, _, f2, _, _, f5, f6⟩ := convertAbif_ok h
    refine ⟨?_, f6 _ (by decide) (by decide)⟩
    rw [f5, f2]
    have := perm_sum ((sortByKeyDesc_perm Voteline.qty vls).map Voteline.qty)
    rw [this]
  cases ar with
  | false => exact base m h
  | true =>
    rw [convertAbif_rated] at h
    obtain ⟨m0, h0, h⟩ := bind_ok.1 h
    cases h
    have := base m0 h0
    simp only [List.map_map, Function.comp_def, ratedLine]
    split
    · rw [Dict.get?_set_ne _ _ (by decide), Dict.get?_set_ne _ _ (by decide)]
      exact this
    · exact this

/-! ## C02 -/

/-- C02.  The returned votelines are those of the text, one for each line that reads
`digits:preferences`, sorted by quantity (largest first) with equal quantities in file order. -/
theorem C02_votelines (cw sc : Bool) (text : Str) (m : Jabmod) (h : convertAbif cw false sc text = .ok m) :
    ∃ vls, List.Forall₂ SaysBallot (votesOf cw text) vls ∧ StableSortedDesc vls m.votelines := by
  obtain ⟨vls, f1, _, f2, _⟩ := convertAbif_ok h
  exact ⟨vls, f1, f2 ▸ stableSorted vls⟩

/-! ## C03 -/

/-- C03.  The candidate table has exactly the mentioned tokens, in order of first mention, and a token's
name is its last declared description, or the token itself when it is never declared. -/
theorem C03_candidates (cw ar sc : Bool) (text : Str) (m : Jabmod) (h : convertAbif cw ar sc text = .ok m) :
    m.candidates.keys = firsts ((textLines cw text).flatMap lineMentions) ∧
    (∀ tok ∈ m.candidates.keys, m.candidates.get? tok = some (some ((declared (textLines cw text) tok).getD tok))) ∧
    (∀ vl ∈ m.votelines, ∀ c ∈ vl.prefs.keys, c ∈ m.candidates.keys) := by
  have base : ∀ m0, convertAbif cw false sc text = .ok m0 →
      m0.candidates.keys = firsts ((textLines cw text).flatMap lineMentions) ∧
      (∀ tok ∈ m0.candidates.keys, m0.candidates.get? tok = some (some ((declared (textLines cw text) tok).getD tok))) ∧
      (∀ vl ∈ m0.votelines, ∀ c ∈ vl.prefs.keys, c ∈ m0.candidates.keys) := by
    intro m0 h
    obtain ⟨vls, f1, f0, f2, f3, f4, f5, f6⟩ := convertAbif_ok h
    refine ⟨f3, f4, ?_⟩
    intro vl hvl c hc
    rw [f2, (sortByKeyDesc_perm _ _).mem_iff] at hvl
    rw [f3, mem_firsts]
    -- find the line the voteline comes from
    have : ∃ src ∈ votesOf cw text, SaysBallot src vl := by
      clear h f2 f3 f4 f0 f5 f6
      generalize votesOf cw text = srcs at f1
      induction f1 with
      | nil => simp at hvl
      | cons hab _ ih =>
        rcases List.mem_cons.1 hvl with rfl | hv
        · exact ⟨_, by simp, hab⟩
        · obtain ⟨s, hs, hs'⟩ := ih hv
          exact ⟨s, by simp [hs], hs'⟩
    obtain ⟨src, hsrc, hs⟩ := this
    unfold votesOf at hsrc
    obtain ⟨l, hl, hlv⟩ := List.mem_filterMap.1 hsrc
    rw [List.mem_flatMap]
    refine ⟨l, hl, ?_⟩
    unfold lineVote at hlv
    obtain ⟨qp, hqp, rfl⟩ := Option.map_eq_some_iff.1 hlv
    obtain ⟨_, ⟨cands, hp⟩, _⟩ := hs
    unfold lineMentions
    rw [readCand_none_of_vote hqp, hqp]
    simp only [ballotCands]
    rw [hp]
    exact hc
  cases ar with
  | false => exact base m h
  | true =>
    rw [convertAbif_rated] at h
    obtain ⟨m0, h0, h⟩ := bind_ok.1 h
    cases h
    obtain ⟨h1, h2, h3⟩ := base m0 h0
    refine ⟨h1, h2, ?_⟩
    intro vl hvl c hc
    obtain ⟨v, hv, rfl⟩ := List.mem_map.1 hvl
    apply h3 v hv
    simpa [ratedLine, Dict.keys, List.map_map, Function.comp_def] using hc

/-! ## C04 -/

/-- C04.  Every entry of every voteline of a parsed model has an integer rank of at least one, and no
candidate occurs twice on a voteline. -/
theorem C04_ranks (cw ar sc : Bool) (text : Str) (m : Jabmod) (h : convertAbif cw ar sc text = .ok m) :
    ∀ vl ∈ m.votelines, vl.prefs.keys.Nodup ∧ ∀ c p, vl.prefs.get? c = some p → ∃ r, p.rank = some r ∧ 1 ≤ r := by
  intro vl hvl
  rcases convertAbif_good h vl hvl with hg | ⟨b, n, v, hg, rfl⟩
  · exact ⟨hg.wf, fun c p hc => (hg.entry _ (Dict.mem_of_get? hc)).1⟩
  · refine ⟨?_, ?_⟩
    · have := hg.wf
      simpa [ratedLine, Dict.WF, Dict.keys, List.map_map, Function.comp_def] using this
    · intro c p hc
      have hm := Dict.mem_of_get? hc
      simp only [ratedLine, List.mem_map] at hm
      obtain ⟨⟨k, q⟩, he, hkq⟩ := hm
      obtain ⟨⟨r, hr, h1⟩, _⟩ := hg.entry _ he
      refine ⟨r, ?_, h1⟩
      have : p = ratedEntry b n q := by cases hkq; rfl
      rw [this]
      unfold ratedEntry
      simp only at hr
      split
      · exact hr
      · split <;> exact hr

/-! ## C08 -/

/-- C08, first half.  A line that has none of the three forms (in particular a blank line or a pure
comment) can be inserted at any line start without changing the result. -/
theorem C08_junk_line (cw ar : Bool) (a b line : Str) (ha : a = [] ∨ ∃ a', a = a' ++ ['\n'])
    (hbreak : ∀ c ∈ line, isLineBreak c = false)
    (hcand : readCand (beforeHash (if cw then lstrip line else line)) = none)
    (hmeta : ¬ ∃ k v, MetaForm (beforeHash (if cw then lstrip line else line)) k v)
    (hvote : readVote (beforeHash (if cw then lstrip line else line)) = none) :
    convertAbif cw ar false (a ++ line ++ '\n' :: b) = convertAbif cw ar false (a ++ b) := by
  rw [convertAbif_eq, convertAbif_eq]
  obtain ⟨h1, h2⟩ := textLines_insert cw a b line ha hbreak
  rw [h1, h2, processPlain_append, processPlain_append]
  have hm : matchMeta (beforeHash (if cw then lstrip line else line)) = none := by
    cases h : matchMeta (beforeHash (if cw then lstrip line else line)) with
    | none => rfl
    | some r => exact absurd ((matchMeta_isSome_iff _).1 (by simp [h])) hmeta
  congr 1
  congr 1
  funext m
  simp only [processPlain, processComment_false, ok_bind]
  rw [lineEffect_junk m hcand hm hvote, ok_bind]
  exact processPlain_false_index _ _ _ _

/-- A blank line or a pure comment line is such a line, wherever it stands. -/
theorem C08_blank_or_comment (line : Str) (h : ∀ c ∈ beforeHash line, isSpace c = true) (cw : Bool) :
    readCand (beforeHash (if cw then lstrip line else line)) = none ∧
    (¬ ∃ k v, MetaForm (beforeHash (if cw then lstrip line else line)) k v) ∧
    readVote (beforeHash (if cw then lstrip line else line)) = none := by
  have hall : ∀ c ∈ beforeHash (if cw then lstrip line else line), isSpace c = true := by
    cases cw with
    | false => exact h
    | true =>
      intro c hc
      apply h
      simp only [if_true] at hc
      have : ∀ s : Str, ∀ c ∈ beforeHash (lstrip s), c ∈ beforeHash s := by
        intro s
        induction s with
        | nil => simp [lstrip, beforeHash]
        | cons d t ih =>
          intro c hc
          unfold lstrip at hc
          rw [List.dropWhile_cons] at hc
          split at hc
          · rename_i hd
            have hd' : d ≠ '#' := by rintro rfl; revert hd; decide
            have := ih c hc
            unfold beforeHash at this ⊢
            rw [List.takeWhile_cons, if_pos (by simpa using hd')]
            exact List.mem_cons_of_mem _ this
          · exact hc
      exact this line c hc
  revert hall
  generalize beforeHash (if cw then lstrip line else line) = s
  intro hall
  refine ⟨?_, ?_, ?_⟩
  · cases h : readCand s with
    | none => rfl
    | some r =>
      obtain ⟨t, rfl⟩ := readCand_head h
      exact absurd (hall '=' (by simp)) (by decide)
  · intro h
    obtain ⟨r, hr⟩ := Option.isSome_iff_exists.1 ((matchMeta_isSome_iff s).2 h)
    obtain ⟨t, rfl⟩ := matchMeta_head hr
    exact absurd (hall '{' (by simp)) (by decide)
  · cases h : readVote s with
    | none => rfl
    | some r =>
      unfold readVote at h
      split at h
      · rename_i p hp
        have : ':' ∈ s := by
          have : ':' ∈ s.dropWhile isDigit := by rw [hp]; simp
          exact dropWhile_mem this
        exact absurd (hall ':' this) (by decide)
      · cases h

/-- C08, second half.  Appending a comment to a line changes at most comments and voter ids: the two
results are the same error, or models that agree on everything else. -/
theorem C08_trailing_comment (cw ar : Bool) (a b line com : Str) (ha : a = [] ∨ ∃ a', a = a' ++ ['\n'])
    (hbreak : ∀ c ∈ line ++ com, isLineBreak c = false) (hline : '#' ∉ line) (hcom : com.head? = some '#') :
    (∃ e, convertAbif cw ar false (a ++ (line ++ com) ++ '\n' :: b) = .error e ∧
      convertAbif cw ar false (a ++ line ++ '\n' :: b) = .error e) ∨
    (∃ m m', convertAbif cw ar false (a ++ (line ++ com) ++ '\n' :: b) = .ok m ∧
      convertAbif cw ar false (a ++ line ++ '\n' :: b) = .ok m' ∧
      m.metadata = m'.metadata ∧ m.candidates = m'.candidates ∧
      m.votelines.map (fun vl => (vl.qty, vl.prefs, vl.prefstr, vl.nameq)) =
        m'.votelines.map (fun vl => (vl.qty, vl.prefs, vl.prefstr, vl.nameq))) := by
  obtain ⟨h1, _⟩ := textLines_insert cw a b (line ++ com) ha hbreak
  obtain ⟨h2, _⟩ := textLines_insert cw a b line ha (fun c hc => hbreak c (by simp [hc]))
  have hbh : beforeHash (if cw then lstrip (line ++ com) else line ++ com) =
      beforeHash (if cw then lstrip line else line) := by
    have tw : ∀ s : Str, '#' ∉ s → beforeHash (s ++ com) = beforeHash s := by
      intro s hs
      cases com with
      | nil => simp at hcom
      | cons c t =>
        simp only [List.head?_cons, Option.some.injEq] at hcom
        subst hcom
        unfold beforeHash
        induction s with
        | nil => simp
        | cons d s ih =>
          have hd : d ≠ '#' := by rintro rfl; simp at hs
          simp only [List.cons_append, List.takeWhile_cons]
          rw [if_pos (by simpa using hd), if_pos (by simpa using hd), ih (fun h => hs (by simp [h]))]
    cases cw with
    | false => exact tw line hline
    | true =>
      simp only [if_true]
      have hl : lstrip (line ++ com) = lstrip line ++ com := by
        unfold lstrip
        apply dropWhile_append_stop
        intro c t' hc
        rw [hc] at hcom
        simp at hcom
        subst hcom
        decide
      rw [hl]
      exact tw _ (fun h => hline (dropWhile_mem h))
  have key : BareEq (convertAbif cw ar false (a ++ (line ++ com) ++ '\n' :: b))
      (convertAbif cw ar false (a ++ line ++ '\n' :: b)) := by
    rw [convertAbif_eq, convertAbif_eq]
    have hp : BareEq (processPlain false 0 (textLines cw (a ++ (line ++ com) ++ '\n' :: b)) emptyishJabmod)
        (processPlain false 0 (textLines cw (a ++ line ++ '\n' :: b)) emptyishJabmod) := by
      rw [h1, h2, processPlain_append, processPlain_append]
      cases processPlain false 0 (textLines cw a) emptyishJabmod with
      | error e => exact .inl ⟨e, rfl, rfl⟩
      | ok m =>
        simp only [ok_bind, processPlain, processComment_false]
        exact (lineEffect_bare hbh rfl).bind (fun m m' hm => processPlain_bare _ _ hm)
    rcases hp with ⟨e, he, he'⟩ | ⟨m, m', hm, hm', hb⟩
    · rw [he, he']; exact .inl ⟨e, rfl, rfl⟩
    · obtain ⟨vls, f1, f2, _⟩ := processPlain_ok hm 0 rfl
      have f2' : m.votelines = vls := by rw [f2]; rfl
      rw [hm, hm', ok_bind, ok_bind]
      exact finish_bare ar hb (by rw [f2']; exact says_good f1)
  rcases key with h | ⟨m, m', hm, hm', hb⟩
  · exact .inl h
  · obtain ⟨e1, e2, e3⟩ := bareModel_eq_iff.1 hb
    refine .inr ⟨m, m', hm, hm', e1, e2, ?_⟩
    have := congrArg (List.map (fun vl : Voteline => (vl.qty, vl.prefs, vl.prefstr, vl.nameq))) e3
    simpa [List.map_map, Function.comp_def, bareLine] using this

/-! ## C09 -/

/-- C09.  A returned model has at least one voteline.  A text none of whose lines is a voteline (the
empty text included) is refused with `ABIFVotelineException`; the one other outcome, possible only with
`storecomments` and a `{comments: ...}` metadata line, is an `AttributeError`. -/
theorem C09_no_votelines (cw ar sc : Bool) (text : Str) :
    (∀ m, convertAbif cw ar sc text = .ok m → m.votelines ≠ []) ∧
    (votesOf cw text = [] →
      convertAbif cw ar sc text = .error .voteline ∨
      (sc = true ∧ (∃ l ∈ textLines cw text, ∃ v, MetaForm (beforeHash l) c!"comments" v) ∧
        convertAbif cw ar sc text = .error .attributeError)) ∧
    convertAbif cw ar sc [] = .error .voteline := by
  have first : ∀ m, convertAbif cw ar sc text = .ok m → m.votelines ≠ [] := by
    intro m h
    cases ar with
    | false =>
      obtain ⟨vls, _, hne, f2, _⟩ := convertAbif_ok h
      rw [f2]
      intro he
      have := (sortByKeyDesc_perm Voteline.qty vls).length_eq
      rw [he] at this
      exact hne (List.length_eq_zero_iff.1 this.symm)
    | true =>
      rw [convertAbif_rated] at h
      obtain ⟨m0, h0, h⟩ := bind_ok.1 h
      cases h
      obtain ⟨vls, _, hne, f2, _⟩ := convertAbif_ok h0
      simp only [ne_eq, List.map_eq_nil_iff]
      rw [f2]
      intro he
      have := (sortByKeyDesc_perm Voteline.qty vls).length_eq
      rw [he] at this
      exact hne (List.length_eq_zero_iff.1 this.symm)
  refine ⟨first, ?_, rfl⟩
  intro hno
  have lineOk : ∀ l ∈ textLines cw text, ∀ m, ∃ m', lineEffect l m = .ok m' := by
    intro l hl m
    have : readVote (beforeHash l) = none := by
      cases hv : readVote (beforeHash l) with
      | none => rfl
      | some qp =>
        have : (qp.1, qp.2, hashComment l) ∈ votesOf cw text := by
          unfold votesOf
          rw [List.mem_filterMap]
          exact ⟨l, hl, by simp [lineVote, hv]⟩
        rw [hno] at this
        simp at this
    unfold lineEffect
    cases readCand (beforeHash l) with
    | some td => exact ⟨_, rfl⟩
    | none =>
      simp only
      cases matchMeta (beforeHash l) with
      | some td => exact ⟨_, rfl⟩
      | none => simp only [this]; exact ⟨_, rfl⟩
  have plainOk : ∀ ls, (∀ l ∈ ls, ∀ m, ∃ m', lineEffect l m = .ok m') → ∀ i m, ∃ r, processPlain false i ls m = .ok r := by
    intro ls hls
    induction ls with
    | nil => intro i m; exact ⟨m, rfl⟩
    | cons l ls ih =>
      intro i m
      simp only [processPlain, processComment_false, ok_bind]
      obtain ⟨m', hm'⟩ := hls l (by simp) m
      rw [hm', ok_bind]
      exact ih (fun l hl => hls l (by simp [hl])) _ _
  have plainErr : ∀ ls, (∀ l ∈ ls, ∀ m, ∃ m', lineEffect l m = .ok m') → ∀ i m e,
      processPlain true i ls m = .error e → e = .attributeError := by
    intro ls hls
    induction ls with
    | nil => intro i m e he; cases he
    | cons l ls ih =>
      intro i m e he
      simp only [processPlain] at he
      cases hpc : processComment (hashComment l) i true m with
      | error e' =>
        rw [hpc] at he
        cases he
        unfold processComment at hpc
        split at hpc
        · split at hpc
          · split at hpc <;> cases hpc
            rfl
          · cases hpc
        · cases hpc
      | ok m1 =>
        rw [hpc, ok_bind] at he
        obtain ⟨m', hm'⟩ := hls l (by simp) m1
        rw [hm', ok_bind] at he
        exact ih (fun l hl => hls l (by simp [hl])) _ _ _ he
  have votesNil : ∀ sc m, processPlain sc 0 (textLines cw text) emptyishJabmod = .ok m → m.votelines = [] := by
    intro sc m hm
    obtain ⟨vls, f1, f2, _⟩ := processPlain_ok hm 0 rfl
    rw [show (textLines cw text).filterMap lineVote = [] from hno] at f1
    cases f1
    rw [f2]; rfl
  rw [convertAbif_eq]
  by_cases hc : ∃ l ∈ textLines cw text, ∃ v, matchMeta (beforeHash l) = some (c!"comments", v)
  · cases hp : processPlain sc 0 (textLines cw text) emptyishJabmod with
    | ok m =>
      left
      rw [ok_bind]; unfold finish; rw [if_pos (votesNil sc m hp)]
    | error e =>
      cases sc with
      | false =>
        obtain ⟨r, hr⟩ := plainOk _ lineOk 0 emptyishJabmod
        rw [hr] at hp; cases hp
      | true =>
        right
        obtain ⟨l, hl, v, hv⟩ := hc
        refine ⟨rfl, ⟨l, hl, v, matchMeta_sound hv⟩, ?_⟩
        rw [plainErr _ lineOk _ _ _ hp]
        rfl
  · left
    obtain ⟨r, hr⟩ := plainOk _ lineOk 0 emptyishJabmod
    cases sc with
    | false => rw [hr, ok_bind]; unfold finish; rw [if_pos (votesNil false r hr)]
    | true =>
      rcases processPlain_stored (ls := textLines cw text) (fun l hl v hv => hc ⟨l, hl, v, hv⟩) (i := 0) (j := 0)
        (m := emptyishJabmod) (m' := emptyishJabmod) (es := []) ⟨rfl, rfl, fun _ _ => rfl⟩ rfl rfl with
        ⟨e, _, h2⟩ | ⟨r1, _, h1, _⟩
      · rw [hr] at h2; cases h2
      · rw [h1, ok_bind]; unfold finish; rw [if_pos (votesNil true r1 h1)]

/-! ## C10 -/

/-- C10.  When no metadata line uses the key `comments`, storing comments succeeds or fails exactly as
not storing them; on success candidates, votelines and all other metadata are the same, and `comments`
holds the numbered comments of the text in file order (and is absent when there is none). -/
theorem C10_storecomments (cw ar : Bool) (text : Str)
    (hmeta : ∀ l ∈ textLines cw text, ∀ v, ¬ MetaForm (beforeHash l) c!"comments" v) :
    (∃ e, convertAbif cw ar true text = .error e ∧ convertAbif cw ar false text = .error e) ∨
    (∃ m m', convertAbif cw ar true text = .ok m ∧ convertAbif cw ar false text = .ok m' ∧
      m.candidates = m'.candidates ∧ m.votelines = m'.votelines ∧
      (∀ k, k ≠ c!"comments" → m.metadata.get? k = m'.metadata.get? k) ∧
      m'.metadata.get? c!"comments" = none ∧
      m.metadata.get? c!"comments" =
        (let found := (textLines cw text).zipIdx.filterMap (fun li =>
            (hashComment li.1).map (fun c => Json.arr [.int li.2, .str c]))
         if found = [] then none else some (.arr found))) := by
  have hno : ∀ l ∈ textLines cw text, ∀ v, matchMeta (beforeHash l) ≠ some (c!"comments", v) :=
    fun l hl v hv => hmeta l hl v (matchMeta_sound hv)
  have entries : ∀ (ls : List Str) (i : Nat), (ls.zipIdx i).filterMap (fun li =>
      (hashComment li.1).map (fun c => Json.arr [.int li.2, .str c])) = commentEntries i ls := by
    intro ls
    induction ls with
    | nil => intro i; rfl
    | cons l ls ih =>
      intro i
      rw [commentEntries, List.zipIdx_cons, List.filterMap_cons]
      cases hashComment l with
      | none => simp only [Option.map_none]; exact ih _
      | some c => simp only [Option.map_some]; rw [ih]
  rw [convertAbif_eq, convertAbif_eq]
  rcases processPlain_stored hno (i := 0) (j := 0)
    (m := emptyishJabmod) (m' := emptyishJabmod) (es := []) ⟨rfl, rfl, fun _ _ => rfl⟩ rfl rfl with
    ⟨e, h1, h2⟩ | ⟨r, r', h1, h2, hs, hc, hc'⟩
  · rw [h1, h2]; exact .inl ⟨e, rfl, rfl⟩
  · rw [h1, h2, ok_bind, ok_bind]
    obtain ⟨vls, f1, f2, _⟩ := processPlain_ok h1 0 rfl
    have f2' : r.votelines = vls := by rw [f2]; rfl
    have hg : ∀ vl ∈ r.votelines, GoodLine vl := by rw [f2']; exact says_good f1
    have hg' : ∀ vl ∈ r'.votelines, GoodLine vl := hs.lines ▸ hg
    unfold finish
    rw [← hs.lines]
    by_cases hne : r.votelines = []
    · rw [if_pos hne, if_pos hne]; exact .inl ⟨_, rfl, rfl⟩
    · rw [if_neg hne, if_neg hne]
      right
      simp only
      rw [show (textLines cw text).zipIdx = (textLines cw text).zipIdx 0 from rfl, entries]
      simp only [List.nil_append, storedAs] at hc
      cases ar with
      | false =>
        exact ⟨_, _, rfl, rfl, hs.cands, by simp only [hs.lines], hs.md, hc', hc⟩
      | true =>
        simp only [if_true]
        rw [addRatings_eq r hg, addRatings_eq r' hg']
        have hh : hasAnyRating r = hasAnyRating r' := by unfold hasAnyRating; rw [hs.lines]
        refine ⟨_, _, rfl, rfl, hs.cands, ?_, ?_, ?_, ?_⟩
        · simp only [hh, hs.lines, hs.cands]
        · intro k hk
          simp only [hh, hs.lines]
          split
          · rw [Dict.get?_set, Dict.get?_set, hs.md k hk]
          · exact hs.md k hk
        · simp only
          split
          · rw [Dict.get?_set_ne _ _ (by decide)]; exact hc'
          · exact hc'
        · simp only
          split
          · rw [Dict.get?_set_ne _ _ (by decide)]; exact hc
          · exact hc

/-! ## C11 -/

/-- C11.  `cleanws=True` is the same as stripping the leading blanks of each line beforehand. -/
theorem C11_cleanws (ar sc : Bool) (text : Str) :
    convertAbif true ar sc text =
      convertAbif false ar sc ((splitlines text).flatMap (fun l => lstrip l ++ ['\n'])) := by
  rw [convertAbif_eq, convertAbif_eq, textLines_clean]

/-! ## C12 -/

/-- C12.  With and without `add_ratings` the parse fails alike; on success the two models differ only in
ratings and in the `is_ranking_to_rating` key.  If the file has any rating, unrated entries get 0 and
others keep theirs; otherwise each entry gets the number of candidates minus its rank. -/
theorem C12_add_ratings (cw sc : Bool) (text : Str) :
    (∃ e, convertAbif cw true sc text = .error e ∧ convertAbif cw false sc text = .error e) ∨
    (∃ m m', convertAbif cw true sc text = .ok m ∧ convertAbif cw false sc text = .ok m' ∧
      m.candidates = m'.candidates ∧
      (∀ k, k ≠ c!"is_ranking_to_rating" → m.metadata.get? k = m'.metadata.get? k) ∧
      List.Forall₂ (fun v v' : Voteline =>
          { v with prefs := v'.prefs } = v' ∧ v.prefs.keys = v'.prefs.keys ∧
          ∀ c p', v'.prefs.get? c = some p' → ∃ p, v.prefs.get? c = some p ∧
            p.rank = p'.rank ∧ p.nextdelim = p'.nextdelim ∧
            p.rating =
              (if (∃ u ∈ m'.votelines, ∃ e ∈ u.prefs, e.2.rating.isSome = true) then
                 some (p'.rating.getD (.int 0))
               else (p'.rank.map (fun r => RVal.int (m'.candidates.length - r)))))
        m.votelines m'.votelines) := by
  rw [convertAbif_rated]
  cases h : convertAbif cw false sc text with
  | error e => exact .inl ⟨e, rfl, rfl⟩
  | ok m' =>
    right
    refine ⟨_, _, rfl, rfl, rfl, ?_, ?_⟩
    · intro k hk
      simp only
      split
      · exact Dict.get?_set_ne _ _ (Ne.symm hk)
      · rfl
    · have hr := C04_ranks cw false sc text m' h
      simp only
      rw [List.forall₂_map_left_iff]
      apply List.forall₂_same.2
      intro v hv
      refine ⟨rfl, by simp [ratedLine, Dict.keys, List.map_map, Function.comp_def], ?_⟩
      intro c p' hc
      obtain ⟨r, hrank, _⟩ := (hr v hv).2 c p' hc
      have hany : hasAnyRating m' = true ↔ ∃ u ∈ m'.votelines, ∃ e ∈ u.prefs, e.2.rating.isSome = true := by
        unfold hasAnyRating
        simp only [List.any_eq_true]
      have hget : (ratedLine (hasAnyRating m') m'.candidates.length v).prefs.get? c =
          some (ratedEntry (hasAnyRating m') m'.candidates.length p') := by
        unfold ratedLine
        simp only
        rw [Dict.get?_map v.prefs (fun _ p => ratedEntry (hasAnyRating m') m'.candidates.length p), hc]
        rfl
      refine ⟨_, hget, ?_⟩
      have hsome : ∀ x, p'.rating = some x → hasAnyRating m' = true := by
        intro x hx
        rw [hany]
        exact ⟨v, hv, (c, p'), Dict.mem_of_get? hc, by simp [hx]⟩
      unfold ratedEntry
      cases hp : p'.rating with
      | some x =>
        simp only [if_pos (hany.1 (hsome x hp))]
        exact ⟨trivial, trivial, rfl⟩
      | none =>
        simp only
        by_cases hh : hasAnyRating m' = true
        · rw [if_pos hh, if_pos (hany.1 hh)]
          exact ⟨rfl, rfl, rfl⟩
        · rw [if_neg hh, if_neg (fun x => hh (hany.2 x)), hrank]
          exact ⟨rfl, rfl, rfl⟩

/-! ## C13 -/

/-- C13.  A returned voteline has voter id `v` exactly when its comment starts with `##VID:` and `v` is
the (nonempty) run of non-blank characters that follows; the comment is that of its line (see C02). -/
theorem C13_voterid (cw ar sc : Bool) (text : Str) (m : Jabmod) (h : convertAbif cw ar sc text = .ok m)
    (vl : Voteline) (hvl : vl ∈ m.votelines) (v : Str) :
    vl.voterid = some v ↔
      ∃ rest, vl.comment = some (c!"##VID:" ++ v ++ rest) ∧ v ≠ [] ∧ (∀ c ∈ v, isSpace c = false) ∧
        (∀ c, rest.head? = some c → isSpace c = true) := by
  have base : ∀ m0, convertAbif cw false sc text = .ok m0 → ∀ vl ∈ m0.votelines, vl.voterid = vl.comment.bind readVid := by
    intro m0 h0 vl hvl
    obtain ⟨vls, f1, _, f2, _⟩ := convertAbif_ok h0
    rw [f2, (sortByKeyDesc_perm _ _).mem_iff] at hvl
    refine forall₂_right (P := fun vl => vl.voterid = vl.comment.bind readVid) ?_ f1 vl hvl
    rintro src vl ⟨_, _, _, hcom, hvid, _⟩
    rw [hvid, hcom]
  have hv : vl.voterid = vl.comment.bind readVid := by
    cases ar with
    | false => exact base m h vl hvl
    | true =>
      rw [convertAbif_rated] at h
      obtain ⟨m0, h0, h⟩ := bind_ok.1 h
      cases h
      obtain ⟨v0, hv0, rfl⟩ := List.mem_map.1 hvl
      exact base m0 h0 v0 hv0
  rw [hv]
  cases hc : vl.comment with
  | none => simp
  | some com =>
    simp only [Option.bind_some, Option.some.injEq]
    have takeApp : ∀ (v rest : Str), (∀ c ∈ v, isSpace c = false) → (∀ c, rest.head? = some c → isSpace c = true) →
        (v ++ rest).takeWhile (fun c => !isSpace c) = v := by
      intro v rest h1 h2
      induction v with
      | nil =>
        cases rest with
        | nil => rfl
        | cons c t => simp [h2 c rfl]
      | cons d v ih => simp [h1 d (by simp), ih (fun c hc => h1 c (by simp [hc]))]
    constructor
    · intro hr
      unfold readVid at hr
      split at hr
      · rename_i hp
        rw [List.isPrefixOf_iff_prefix] at hp
        obtain ⟨r, rfl⟩ := hp
        rw [show List.drop 6 (c!"##VID:" ++ r) = r from rfl] at hr
        split at hr
        · cases hr
        · rename_i w hne
          cases hr
          refine ⟨r.dropWhile (fun c => !isSpace c), ?_, hne, ?_, ?_⟩
          · rw [List.append_assoc, List.takeWhile_append_dropWhile]
          · intro c hc
            simpa using (takeWhile_mem hc).1
          · intro c hc
            have := List.head?_dropWhile_not (fun c => !isSpace c) r
            rw [hc] at this
            simpa using this
      · cases hr
    · rintro ⟨rest, rfl, hne, h1, h2⟩
      unfold readVid
      rw [List.append_assoc, if_pos (List.isPrefixOf_iff_prefix.2 ⟨_, rfl⟩), show List.drop 6 (c!"##VID:" ++ (v ++ rest)) = v ++ rest from rfl, takeApp v rest h1 h2]
      cases v with
      | nil => exact absurd rfl hne
      | cons a b => rfl

end Verif.Props

/-! ## The hypotheses are met: concrete cases -/

namespace Verif.Props.ParseExamples
open Spec
attribute [local instance] Uni.ascii
set_option maxRecDepth 20000

/-- a small file with every kind of line -/
def demo : Str :=
  c!"# demo\n=A:[Alice]\n{title: Demo}\n{ballotcount: 99}\n2:A>B=C\n 5:B/5,A/3,C #x\n3:C>A ##VID:v7\njunk\n"

-- C01, C02, C03, C04, C09, C12: the parse succeeds, for all option settings
example : ∀ cw ar sc, (convertAbif cw ar sc demo).isOk = true := by decide +kernel
-- C01: the count is recounted although the file claims 99 ballots
example : (match convertAbif true false false demo with
    | .ok m => m.votelines.map Voteline.qty | .error _ => []) = [5, 3, 2] := by decide +kernel
-- C02: three votelines in the file when leading blanks are stripped, two otherwise
example : (votesOf true demo).length = 3 ∧ (votesOf false demo).length = 2 := by decide +kernel
-- C03: the mentioned tokens, and the declared name
example : firsts ((textLines true demo).flatMap lineMentions) = [c!"A", c!"B", c!"C"] ∧
    declared (textLines true demo) c!"A" = some c!"Alice" ∧ declared (textLines true demo) c!"B" = none := by
  decide +kernel
-- C08: `junk` and a comment line are such lines
example : readCand (beforeHash c!"junk") = none ∧ (matchMeta (beforeHash c!"junk")).isSome = false ∧
    readVote (beforeHash c!"junk") = none ∧ ∀ c ∈ beforeHash c!"  # remark", isSpace c = true := by decide +kernel
example : ¬ ∃ k v, MetaForm (beforeHash c!"junk") k v := by
  rw [← matchMeta_isSome_iff]; decide +kernel
-- C08: a comment that changes only the voter id
example : (match convertAbif false false false c!"1:A>B##VID:x\n" with
    | .ok m => m.votelines.map Voteline.voterid | .error _ => []) = [some c!"x"] ∧
    (match convertAbif false false false c!"1:A>B\n" with
    | .ok m => m.votelines.map Voteline.voterid | .error _ => []) = [none] := by decide +kernel
-- C09: a nonempty text without votelines
example : votesOf true c!"=A:[Alice]\n# x\n" = [] := by decide +kernel
-- C09: the other outcome does occur
example : (match convertAbif true false true c!"{comments: hi}\n# x\n" with
    | .ok _ => false | .error e => decide (e = .attributeError)) = true := by decide +kernel
-- C10: no metadata line of the demo is keyed `comments`, and there are three comments
example : (∀ l ∈ textLines true demo, ∀ r, matchMeta (beforeHash l) = some r → r.1 ≠ c!"comments") ∧
    ((textLines true demo).filterMap hashComment).length = 3 := by
  constructor
  · intro l hl r hr
    have h : ∀ l ∈ textLines true demo, (matchMeta (beforeHash l)).all (fun r => decide (r.1 ≠ c!"comments")) = true := by
      decide +kernel
    have := h l hl
    rw [hr] at this
    simpa using this
  · decide +kernel
-- C11: leading blanks matter for the demo
example : splitlines demo ≠ textLines true demo := by decide +kernel
-- C12: one file with ratings, one without
example : (match convertAbif true true false c!"1:A>B\n" with
    | .ok m => m.votelines.map (fun v => v.prefs.map (fun e => e.2.rating)) | .error _ => []) =
    [[some (.int 1), some (.int 0)]] := by decide +kernel
-- C13: the voter id of the demo
example : (match convertAbif true false false demo with
    | .ok m => m.votelines.map Voteline.voterid | .error _ => []) = [none, some c!"v7", none] := by decide +kernel

end Verif.Props.ParseExamples
