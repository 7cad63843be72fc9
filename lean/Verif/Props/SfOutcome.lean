/-
C101: the outputs of San Francisco imports.
-/
import Verif.Props.OutcomeAny
import Verif.Props.SfCands

set_option linter.unusedSimpArgs false
set_option linter.unusedSectionVars false

namespace Verif.Props
open Verif Spec

section
variable [U : Uni]

theorem wf_sfCands (l : List (Str × Option Str)) : ∀ (n : Nat) (d : Dict Str (Option Str)), Dict.WF d → Dict.WF (sfCands l n d) := by
  induction l with
  | nil => intro n d h; exact h
  | cons e t ih => intro n d h; exact ih _ _ (Dict.wf_set _ _ h)

/-- the candidate table of an import has each token once -/
theorem sfConvert_cands {verbose : Bool} {a b : Str} {m : Jabmod} (h : sfConvert verbose a b = .ok m) : (Dict.keys m.candidates).Nodup := by
  unfold sfConvert at h
  split at h
  · cases h
  split at h
  · cases h
  split at h
  · cases h
  split at h
  · cases h
  split at h
  · cases h
  split at h
  · cases h
  simp only [Except.ok.injEq] at h
  rw [← h]
  cases verbose <;> exact wf_sfCands _ _ _ Dict.wf_nil

theorem sfBallots_nocontest {pool : Dict Str (Option Str)} (ls : List ImgLine) (h : ∀ l ∈ ls, l.Ok) :
    sfBallots imgWidths pool none (ls.map ImgLine.text) none = .ok [none] := by
  induction ls with
  | nil => rfl
  | cons x ls ih =>
    have hx := h x (by simp)
    have e1 : Dict.getE (imgRow x) (some c!"Contest_Id") = .ok x.contest := rfl
    rw [List.map_cons, sfBallots, sfRecord_image hx]
    simp only [e1]
    rw [if_pos (by simp)]
    exact ih (fun y hy => h y (by simp [hy]))

/-- files that can be imported have a contest -/
theorem sfConvert_contest {verbose : Bool} {rs : List MasterRec} {ls : List ImgLine} (hr : ∀ r ∈ rs, r.Ok) (hl : ∀ l ∈ ls, l.Ok) {m : Jabmod}
    (h : sfConvert verbose (masterText rs) (imageText ls) = .ok m) : ∃ contest, chosenContest rs = some contest := by
  cases hc : chosenContest rs with
  | some c => exact ⟨c, rfl⟩
  | none =>
    unfold sfConvert at h
    rw [readBlob_master hr] at h
    obtain ⟨pool, e1, e2⟩ := sfPool_fold hr [(c!"0000000", none)] none (by simp)
    simp only [sfPool, e1, Option.none_or, hc, readFieldspec_image] at h
    by_cases hne : imageText ls = []
    · rw [if_pos hne] at h; cases h
    rw [if_neg hne, imageText_lines hl, sfBallots_nocontest ls hl] at h
    cases h

omit U in
theorem rankNum_lt {l : ImgLine} (h : l.Ok) : l.rankNum < 1000 := by
  have hd : ∀ c : Char, isAsciiDigit c = true → c.toNat - 48 ≤ 9 := by
    intro c hc
    unfold isAsciiDigit at hc
    simp only [Bool.and_eq_true, decide_eq_true_eq] at hc
    have := hc.2
    have h9 : c.toNat ≤ '9'.toNat := this
    have : '9'.toNat = 57 := rfl
    omega
  obtain ⟨⟨_, _, _, _, _, h3, _⟩, hdig, _⟩ := h
  unfold ImgLine.rankNum
  match hx : l.rank, h3, hdig with
  | [a, b, c], _, hdig =>
    have ha := hd a (hdig a (by simp))
    have hb := hd b (hdig b (by simp))
    have hc := hd c (hdig c (by simp))
    simp only [List.foldl_cons, List.foldl_nil]
    omega

theorem runRank_line {rs : List MasterRec} {g : List ImgLine} {tok : Str} {r : Int} (h : runRank rs g tok = some r) :
    ∃ l ∈ g, lineToken rs l = some tok ∧ r = l.rankNum := by
  unfold runRank at h
  rw [Option.map_eq_some_iff] at h
  obtain ⟨l, hl, he⟩ := h
  have := List.mem_of_getLast? hl
  rw [List.mem_filter] at this
  exact ⟨l, this.1, by simpa using this.2, he.symm⟩

theorem runsOf_mem {ls : List ImgLine} {g : ImgLine × List ImgLine} (hg : g ∈ runsOf ls) {l : ImgLine} (hl : l ∈ g.1 :: g.2) : l ∈ ls := by
  have := (runsOf_isRuns ls).1
  rw [← this]
  exact List.mem_flatten.2 ⟨grp g, List.mem_map.2 ⟨g, hg, rfl⟩, hl⟩

/-- C101: every election imported from well-formed files is as the tallies need it. -/
theorem C101_tallyable (rs : List MasterRec) (ls : List ImgLine) (hr : ∀ r ∈ rs, r.Ok) (hl : ∀ l ∈ ls, l.Ok) (m : Jabmod)
    (h : sfConvert false (masterText rs) (imageText ls) = .ok m) : Tallyable m := by
  obtain ⟨contest, hc⟩ := sfConvert_contest hr hl h
  obtain ⟨hex, hk⟩ := (C47_all_or_nothing false rs ls hr hl contest hc).1 ⟨m, h⟩
  obtain ⟨cands, e⟩ := sfConvert_runs hr hl hc hex hk false
  simp only [Bool.false_eq_true, if_false] at e
  have hnd := sfConvert_cands h
  have htab := C47_candidates false rs hr (imageText ls) m h
  rw [e] at h
  have h := Except.ok.inj h
  rw [← h]
  rw [← h] at hnd htab
  apply consolidated_tallyable
  have hent : ∀ g ∈ runsOf (ls.filter (fun x => decide (x.contest = contest))), ∀ c p, Dict.get? (runVoteline rs false g).prefs c = some p →
      ∃ l ∈ ls, lineToken rs l = some c ∧ p = { rank := some (l.rankNum : Int) } := by
    intro g hg c p hp
    have := (sfPrefs_run rs (g.1 :: g.2) [] Dict.wf_nil).2 c
    have hp' : Dict.get? (sfPrefs false ((g.1 :: g.2).map (Props.lineVote rs)) []) c = some p := hp
    rw [this] at hp'
    have hnil : Dict.get? ([] : Dict Str Pref) c = none := rfl
    rw [hnil, Option.or_none, Option.map_eq_some_iff] at hp'
    obtain ⟨r, hr1, hr2⟩ := hp'
    obtain ⟨l, hl1, hl2, hl3⟩ := runRank_line hr1
    exact ⟨l, (List.mem_filter.1 (runsOf_mem hg hl1)).1, hl2, by rw [← hr2, hl3]⟩
  refine ⟨⟨hnd, ?_, ?_, ?_⟩, ?_, ?_⟩
  · intro vl hvl
    obtain ⟨g, hg, rfl⟩ := List.mem_map.1 hvl
    exact (sfPrefs_run rs (g.1 :: g.2) [] Dict.wf_nil).1
  · intro vl hvl c hcc
    obtain ⟨g, hg, rfl⟩ := List.mem_map.1 hvl
    obtain ⟨p, hp⟩ := Dict.exists_get?_of_mem hcc
    obtain ⟨l, _, htok, _⟩ := hent g hg c p hp
    have ht := htab c
    unfold lineToken at htok
    cases hn : candName rs l.cand with
    | none => rw [hn] at htok; cases htok
    | some name =>
      rw [hn] at htok
      simp only at htok
      by_cases hne : name = []
      · rw [if_pos hne] at htok; cases htok
      rw [if_neg hne] at htok
      have hid : l.cand ∈ tableIds rs := by
        unfold tableIds
        rw [mem_firsts]
        right
        unfold candName at hn
        rw [Option.map_eq_some_iff] at hn
        obtain ⟨r, hr1, _⟩ := hn
        have := List.mem_of_getLast? hr1
        unfold candRecs at this
        rw [List.mem_filter] at this
        simp only [Bool.and_eq_true, decide_eq_true_eq] at this
        exact List.mem_map.2 ⟨r, List.mem_filter.2 ⟨this.1, by simp [this.2.1]⟩, this.2.2⟩
      obtain ⟨i, hi, hi2⟩ := List.mem_iff_getElem.1 hid
      have hmem : (l.cand, i) ∈ (tableIds rs).zipIdx.filter (fun p => decide (tableToken rs p.1 p.2 = c)) := by
        rw [List.mem_filter]
        refine ⟨?_, ?_⟩
        · rw [List.mem_zipIdx_iff_getElem?]
          rw [List.getElem?_eq_getElem hi, hi2]
        · simp only [tableToken, hn, if_neg hne, decide_eq_true_eq]
          exact Option.some.inj htok
      have hlast : ∃ x, ((tableIds rs).zipIdx.filter (fun p => decide (tableToken rs p.1 p.2 = c))).getLast? = some x := by
        cases hx : ((tableIds rs).zipIdx.filter (fun p => decide (tableToken rs p.1 p.2 = c))).getLast? with
        | some x => exact ⟨x, rfl⟩
        | none =>
          rw [List.getLast?_eq_none_iff] at hx
          rw [hx] at hmem
          cases hmem
      obtain ⟨x, hx⟩ := hlast
      rw [hx] at ht
      exact Dict.mem_keys_of_get? ht
  · intro vl hvl c p hp
    obtain ⟨g, hg, rfl⟩ := List.mem_map.1 hvl
    obtain ⟨l, _, _, rfl⟩ := hent g hg c p hp
    exact ⟨_, rfl⟩
  · intro vl hvl c p hp
    obtain ⟨g, hg, rfl⟩ := List.mem_map.1 hvl
    obtain ⟨l, hll, _, rfl⟩ := hent g hg c p hp
    refine ⟨_, rfl, ?_⟩
    have := rankNum_lt (hl l hll)
    omega
  · have hone : ∀ l : List (ImgLine × List ImgLine), ((l.map (runVoteline rs false)).map Voteline.qty).sum = (l.length : Int) := by
      intro l
      induction l with
      | nil => rfl
      | cons v l ih =>
        rw [List.map_cons, List.map_cons, List.sum_cons, ih, List.length_cons]
        have : (runVoteline rs false v).qty = 1 := rfl
        rw [this]
        omega
    simp only
    rw [hone]
    rfl

/-- C101 (partial: the outputs that need no names, see `C101_page`).  `abiftool -f sftxt` on a pair of well-formed files that can be imported
ends without an exception, or with exactly the one that `outputFailure` says, having printed nothing. -/
theorem C101_run_partial (env : CliEnv) (a : CliArgs) (s : Str) (rest : List Str) (rs : List MasterRec) (ls : List ImgLine) (m : Jabmod)
    (hr : ∀ r ∈ rs, r.Ok) (hl : ∀ l ∈ ls, l.Ok) (hf : cliFormat a = .ok c!"sftxt")
    (hi : cliInput env a = .ok (s, masterText rs :: imageText ls :: rest))
    (hm : sfConvert false (masterText rs) (imageText ls) = .ok m) (hn : ¬ NeedsNames a.to (cliModifiers a))
    (he : LibrariesWork env a.width (outputModel a m)) :
    match outputFailure a.to (cliModifiers a) (outputModel a m) with
    | none => (cliMain env a).ending = .ok ()
    | some e => cliMain env a = ⟨[], .error e⟩ :=
  C99_any env a c!"sftxt" s _ m hf (by decide) hi hm (C101_tallyable rs ls hr hl m hm) (fun h => absurd h hn) he

/-- No candidate record has the id that stands for nobody, and no candidate's name has the token `cand0`. -/
def NobodyApart (rs : List MasterRec) : Prop :=
  ∀ r ∈ rs, strip r.rtype = c!"Candidate" → r.id ≠ c!"0000000" ∧ (strip r.desc ≠ [] → abifToken 20 (strip r.desc) ≠ c!"cand0")

/-- C101: the candidate table of an import has an entry without a name, which stands for nobody. -/
theorem C101_nobody (verbose : Bool) (rs : List MasterRec) (hr : ∀ r ∈ rs, r.Ok) (image : Str) (m : Jabmod)
    (h : sfConvert verbose (masterText rs) image = .ok m) (hz : NobodyApart rs) : Dict.get? m.candidates c!"cand0" = some none := by
  rw [C47_candidates verbose rs hr image m h]
  have hzero : candName rs c!"0000000" = none := by
    unfold candName
    have : candRecs rs c!"0000000" = [] := by
      unfold candRecs
      rw [List.filter_eq_nil_iff]
      intro r hrr hx
      simp only [Bool.and_eq_true, decide_eq_true_eq] at hx
      exact (hz r hrr hx.1).1 hx.2
    rw [this]
    rfl
  obtain ⟨t, ht⟩ : ∃ t, tableIds rs = c!"0000000" :: t := by
    unfold tableIds
    rw [firsts]
    exact ⟨_, rfl⟩
  have hrest : ∀ p ∈ t.zipIdx 1, ¬ tableToken rs p.1 p.2 = c!"cand0" := by
    intro p hp hx
    have hpos : 1 ≤ p.2 := List.le_snd_of_mem_zipIdx hp
    have hcand : c!"cand" ++ natStr p.2 ≠ c!"cand0" := by
      intro hx
      have hx : natStr p.2 = natStr 0 := List.append_cancel_left (as := c!"cand") hx
      have := natStr_inj hx
      omega
    unfold tableToken at hx
    cases hn : candName rs p.1 with
    | none => rw [hn] at hx; exact hcand hx
    | some name =>
      rw [hn] at hx
      simp only at hx
      by_cases hne : name = []
      · rw [if_pos hne] at hx; exact hcand hx
      rw [if_neg hne] at hx
      unfold candName at hn
      rw [Option.map_eq_some_iff] at hn
      obtain ⟨r, hr1, hr2⟩ := hn
      have := List.mem_of_getLast? hr1
      unfold candRecs at this
      rw [List.mem_filter] at this
      simp only [Bool.and_eq_true, decide_eq_true_eq] at this
      exact (hz r this.1 this.2.1).2 (by rw [hr2]; exact hne) (by rw [hr2]; exact hx)
  rw [ht, List.zipIdx_cons, List.filter_cons, if_pos, List.filter_eq_nil_iff.2 (by simpa using hrest)]
  · simp only [List.getLast?_singleton, Option.map_some, hzero]
  · simp only [tableToken, hzero, decide_eq_true_eq]
    rfl

/-- C101: because of that entry, no import has a page: `-t html` and `-t html_snippet` always end in a `TypeError`, printing nothing. -/
theorem C101_page (env : CliEnv) (a : CliArgs) (s : Str) (rest : List Str) (rs : List MasterRec) (ls : List ImgLine) (m : Jabmod)
    (hr : ∀ r ∈ rs, r.Ok) (hl : ∀ l ∈ ls, l.Ok) (hf : cliFormat a = .ok c!"sftxt")
    (hi : cliInput env a = .ok (s, masterText rs :: imageText ls :: rest))
    (hm : sfConvert false (masterText rs) (imageText ls) = .ok m) (hz : NobodyApart rs)
    (hto : a.to = c!"html" ∨ a.to = c!"html_snippet")
    (he : LibrariesWork env a.width (outputModel a m)) :
    cliMain env a = ⟨[], .error .typeError⟩ := by
  have hs : Tallyable (outputModel a m) := by
    unfold outputModel
    split
    · exact consolidated_tallyable m (C101_tallyable rs ls hr hl m hm)
    · exact C101_tallyable rs ls hr hl m hm
  have hnone : none ∈ (outputModel a m).candidates.values := by
    have := C101_nobody false rs hr _ m hm hz
    have hmem : (c!"cand0", none) ∈ (outputModel a m).candidates := by
      unfold outputModel
      split <;> exact Dict.mem_of_get? this
    exact List.mem_map.2 ⟨_, hmem, rfl⟩
  have hpage := fun sn => C53_unnamed (outputModel a m) hs.ranked hs.scorable.cands sn hnone
  have hrun : cliMain env a = (match cliOutput env a (outputModel a m) with
      | .error e => (⟨[], .error e⟩ : CliResult)
      | .ok out => ⟨out ++ c!"\n", .ok ()⟩) := by
    unfold cliMain
    rw [hf]
    simp only
    rw [if_neg (by decide), hi]
    simp only
    rw [show cliModel env a c!"sftxt" s (masterText rs :: imageText ls :: rest) = .ok m from hm]
    rfl
  have hout : cliOutput env a (outputModel a m) = .error .typeError := by
    unfold cliOutput
    simp only
    rcases hto with hto | hto
    · rw [if_neg (by rw [hto]; decide), if_neg (by rw [hto]; decide), if_neg (by rw [hto]; decide), if_pos hto, hpage]
      rfl
    · rw [if_neg (by rw [hto]; decide), if_neg (by rw [hto]; decide), if_neg (by rw [hto]; decide), if_neg (by rw [hto]; decide), if_pos hto]
      rw [fullCopecount_eq _ hs.scorable.cands, ok_bind]
      by_cases hsv : c!"svg" ∈ cliModifiers a
      · rw [if_pos hsv]
        have hne : fewer 1 (outputModel a m) = false := by
          unfold fewer
          cases hc : (outputModel a m).candidates with
          | nil => rw [hc] at hnone; cases hnone
          | cons x t => simp
        obtain ⟨t, ht⟩ := (diagram_ends (fmt := c!"svg") hs he).2 hne
        rw [ht]
        show (htmlPage (outputModel a m) true true >>= fun p => env.html true (some t) p) = _
        rw [hpage]
        rfl
      · rw [if_neg hsv, ok_bind, hpage]
        rfl
  rw [hrun, hout]

theorem mapM_nameOf (d : Dict Str (Option Str)) (l : List Str) (hk : ∀ w ∈ l, w ∈ Dict.keys d) :
    ((∀ w ∈ l, Dict.get? d w ≠ some none) → ∃ r, l.mapM (nameOf d) = .ok r) ∧
    ((∃ w ∈ l, Dict.get? d w = some none) → l.mapM (nameOf d) = .error .typeError) := by
  induction l with
  | nil => exact ⟨fun _ => ⟨[], rfl⟩, fun ⟨w, hw, _⟩ => by cases hw⟩
  | cons a l ih =>
    obtain ⟨i1, i2⟩ := ih (fun w hw => hk w (by simp [hw]))
    obtain ⟨x, hx⟩ := Dict.exists_get?_of_mem (hk a (by simp))
    rw [List.mapM_cons]
    cases x with
    | none =>
      have e : nameOf d a = .error .typeError := by unfold nameOf; rw [hx]
      refine ⟨fun h => absurd hx (h a (by simp)), fun _ => ?_⟩
      rw [e]
      rfl
    | some n =>
      have e : nameOf d a = .ok n := by unfold nameOf; rw [hx]
      rw [e, ok_bind]
      constructor
      · intro h
        obtain ⟨r, hr⟩ := i1 (fun w hw => h w (by simp [hw]))
        rw [hr]
        exact ⟨_, rfl⟩
      · rintro ⟨w, hw, hwn⟩
        rcases List.mem_cons.1 hw with rfl | hw
        · rw [hx] at hwn; cases hwn
        · rw [i2 ⟨w, hw, hwn⟩]
          rfl

/-- C101, IRV: the names are used only when several candidates win.  The count of an election with a candidate ends with some
winners, and there is a result unless several win and one of them has no name, a `TypeError`. -/
theorem C101_irv (S : Sched) (m : Jabmod) (hm : Tallyable m) (hne : m.candidates ≠ []) :
    ∃ ws : List Str, ws ≠ [] ∧ (∀ w ∈ ws, w ∈ Dict.keys m.candidates) ∧
      ((ws.length = 1 ∨ ∀ w ∈ ws, Dict.get? m.candidates w ≠ some none) → ∃ d t, irvDict S m = .ok d ∧ d.run.winner = ws ∧ irvReport d = .ok t) ∧
      ((2 ≤ ws.length ∧ ∃ w ∈ ws, Dict.get? m.candidates w = some none) → irvDict S m = .error .typeError) := by
  have hc := sound_countable hm
  have hne' : Dict.keys m.candidates ≠ [] := by
    intro h; apply hne; simpa [Dict.keys] using h
  have hlen : (Dict.keys m.candidates).length = m.candidates.length := by simp [Dict.keys]
  obtain ⟨run, hrun⟩ := irvCount_total S (m.candidates.length + 1) none 1 _ _ hc.state hne' (by omega)
  obtain ⟨_, _, _, w1, w2, w3⟩ := run_lengths (irvCount_steps hrun) hc.state hne'
  refine ⟨run.winner, w1, w3, ?_, ?_⟩
  · intro h
    have hws : ∃ s, winnerStr m.candidates run.winner = .ok s := by
      match hw : run.winner with
      | [] => exact absurd hw w1
      | [w] =>
        obtain ⟨n, hn⟩ := Dict.exists_get?_of_mem (w3 w (by simp [hw]))
        exact ⟨_, Dict.getE_of_get? hn⟩
      | w :: w' :: ws =>
        rw [hw] at h w3
        rcases h with h | h
        · simp at h
        · obtain ⟨r, hr⟩ := (mapM_nameOf m.candidates (pySort strLe (w :: w' :: ws)) (fun x hx => w3 x (mem_pySort.1 hx))).1
            (fun x hx => h x (mem_pySort.1 hx))
          refine ⟨some (joinStr c!" and " r), ?_⟩
          show (joinNames m.candidates (w :: w' :: ws)).map some = _
          unfold joinNames
          rw [hr]
          rfl
    obtain ⟨s, hs⟩ := hws
    have hd : irvDict S m = .ok { run := run, winnerstr := s, hasTie := run.roundmeta.any (fun rm => rm.bottomtie.isSome) } := by
      unfold irvDict
      rw [hrun, ok_bind, hs]
      rfl
    match hw : run.winner with
    | [] => exact absurd hw w1
    | [w] => exact ⟨_, _, hd, hw, by unfold irvReport; simp only [hw]; rfl⟩
    | w :: w' :: ws => exact ⟨_, _, hd, hw, by unfold irvReport; simp only [hw]; rfl⟩
  · rintro ⟨h2, w0, hw0, hn0⟩
    unfold irvDict
    rw [hrun, ok_bind]
    match hw : run.winner with
    | [] => rw [hw] at h2; simp at h2
    | [w] => rw [hw] at h2; simp at h2
    | w :: w' :: ws =>
      rw [hw] at w3 hw0
      have := (mapM_nameOf m.candidates (pySort strLe (w :: w' :: ws)) (fun x hx => w3 x (mem_pySort.1 hx))).2
        ⟨w0, mem_pySort.2 hw0, hn0⟩
      have e : winnerStr m.candidates (w :: w' :: ws) = .error .typeError := by
        show (joinNames m.candidates (w :: w' :: ws)).map some = _
        unfold joinNames
        rw [this]
        rfl
      rw [e]
      rfl

end

section
attribute [local instance] Uni.ascii
set_option maxRecDepth 20000

/-- non-vacuity: the example files of C47 can be imported, and nobody in them is called `cand0` -/
example : (∀ r ∈ exSfMaster, r.Ok) ∧ (∀ l ∈ exSfLines, l.Ok) ∧ NobodyApart exSfMaster ∧
    (sfConvert false (masterText exSfMaster) (imageText exSfLines)).toOption.isSome = true := by
  unfold MasterRec.Ok ImgLine.Ok NobodyApart
  exact ⟨by decide +kernel, by decide +kernel, by decide +kernel, by decide +kernel⟩

/-- C101 is false of the program: the page of the example is a `TypeError`. -/
theorem C101_refuted : ((sfConvert false (masterText exSfMaster) (imageText exSfLines)).bind (fun m => htmlPage m true false)).toOption.isNone = true := by
  decide +kernel

/-- … and where only blank ballots are counted, so is the IRV result: the candidate without a name wins with the others -/
example : ((sfConvert false (masterText exSfMaster) (imageText [exImg c!"0000020" c!"000000001" c!"001" c!"0000000"])).bind
    (fun m => irvDict Sched.std m)).map (fun d => d.run.winner) = .error .typeError := by
  decide +kernel

end

end Verif.Props
