/-
C99: on every election read from ballots, each output of abiftool exists or fails in exactly one way, which the number of
candidates and the first ballot line decide.
-/
import Verif.Spec.Outcome
import Verif.Props.ParsedTally
import Verif.Props.Order
import Verif.Props.Csv
import Verif.Props.Nameq
import Verif.Props.Output
import Verif.Props.Report
import Verif.Props.IrvResult
import Verif.Props.Cli
import Verif.Lib.Export

set_option linter.unusedSimpArgs false
set_option linter.unusedSectionVars false

namespace Verif.Props
open Spec
section
variable [U : Uni]

theorem sound_countable {m : Jabmod} (h : Tallyable m) : Spec.Countable m :=
  ⟨h.scorable.cands, h.scorable.dicts, h.scorable.known, fun vl hvl c p hc => by
    obtain ⟨r, hr, _⟩ := h.ranked vl hvl c p hc
    exact ⟨r, hr⟩⟩

theorem endsAs_if {b : Bool} {α : Type} {r : Except PyErr α} {e : PyErr} {rest : List (Bool × PyErr)}
    (h1 : b = true → r = .error e) (h2 : b = false → EndsAs r (firstFailure rest)) : EndsAs r (firstFailure ((b, e) :: rest)) := by
  unfold firstFailure
  cases b with
  | true => exact h1 rfl
  | false => exact h2 rfl

/-- the export of ballots whose entries have ranks and readable ratings -/
theorem prefstr_total {prefs : Dict Str Pref} (hrank : ∀ e ∈ prefs, ∃ r, e.2.rank = some r)
    (hrat : ∀ e ∈ prefs, ∃ i, ratingInt e.2.rating = .ok i) : ∃ t, prefstrOfPrefs prefs = .ok t := by
  unfold prefstrOfPrefs
  have hit : (∃ items, ratedItems prefs = .ok items) ∨ ratedItems prefs = .error .typeError := by
    unfold ratedItems
    induction prefs with
    | nil => exact .inl ⟨[], rfl⟩
    | cons e prefs ih =>
      rw [List.mapM_cons]
      obtain ⟨i, hi⟩ := hrat e (by simp)
      have hs : (∃ x, ratingIntStrict e.2.rating = .ok x) ∨ ratingIntStrict e.2.rating = .error .typeError := by
        unfold ratingIntStrict
        cases hr : e.2.rating with
        | none => exact .inr rfl
        | some v =>
          rw [hr] at hi
          cases v with
          | int j => exact .inl ⟨_, rfl⟩
          | null => exact .inr rfl
          | str s =>
            have hi : pyIntOfStr s = .ok i := hi
            refine .inl ⟨(.str s, i), ?_⟩
            simp only [hi, ok_bind]
      rcases hs with ⟨x, hx⟩ | hx
      · rw [hx]
        rcases ih (fun e he => hrank e (by simp [he])) (fun e he => hrat e (by simp [he])) with ⟨items, h⟩ | h
        · rw [ok_bind, ok_bind, h]; exact .inl ⟨_, rfl⟩
        · rw [ok_bind, ok_bind, h]; exact .inr rfl
      · rw [hx]; exact .inr rfl
  rcases hit with ⟨items, h⟩ | h
  · rw [h]; exact ⟨_, rfl⟩
  · rw [h]
    simp only
    let key : Str × Pref → Int := fun e => e.2.rank.getD 0
    have hkey : ∀ e ∈ prefs, e.2.rank = some (key e) := by
      intro e he
      obtain ⟨r, hr⟩ := hrank e he
      simp only [key, hr, Option.getD_some]
    have hsorted : sortByRank prefs = .ok ((sortByKey Prod.fst (prefs.map (fun e => (key e, e)))).map Prod.snd) := by
      unfold sortByRank
      rw [mapM_eq_map _ (fun e => (key e, e)) prefs (by intro e he; rw [hkey e he])]
      rfl
    have hmap : sortByKey Prod.fst (prefs.map (fun e => (key e, e))) = (sortByKey key prefs).map (fun e => (key e, e)) :=
      pySort_map _ _ _ (fun _ _ => rfl) prefs
    have hL : (sortByKey Prod.fst (prefs.map (fun e => (key e, e)))).map Prod.snd = sortByKey key prefs := by
      rw [hmap, List.map_map]
      simp [Function.comp_def]
    rw [hL] at hsorted
    rw [hsorted, ok_bind]
    have hperm := sortByKey_perm key prefs
    by_cases hne : sortByKey key prefs = []
    · rw [hne]; exact ⟨_, rfl⟩
    · exact ⟨_, prefstrRanked_eq hne (fun e he => hkey e (hperm.mem_iff.1 he)) (sortByKey_sorted key prefs) 1⟩

theorem abif_total {m : Jabmod} (h : Tallyable m) : ∃ t, convertToAbif m = .ok t := by
  have key : ∀ l : List Voteline, (∀ vl ∈ l, vl ∈ m.votelines) → ∃ t, votelinesStr l = .ok t := by
    intro l
    induction l with
    | nil => intro _; exact ⟨[], rfl⟩
    | cons vl l ih =>
      intro hl
      have hvl := hl vl (by simp)
      have hd := h.scorable.dicts vl hvl
      obtain ⟨p, hp⟩ := prefstr_total (prefs := vl.prefs)
        (fun e he => by
          obtain ⟨r, hr, _⟩ := h.ranked vl hvl e.1 e.2 (Dict.get?_of_mem hd he)
          exact ⟨r, hr⟩)
        (fun e he => h.scorable.ratings vl hvl e.1 e.2 (Dict.get?_of_mem hd he))
      obtain ⟨t, ht⟩ := ih (fun v hv => hl v (by simp [hv]))
      unfold votelinesStr votelineStr
      rw [hp, ok_bind, ok_bind, ht, ok_bind]
      exact ⟨_, rfl⟩
  obtain ⟨t, ht⟩ := key m.votelines (fun _ h => h)
  unfold convertToAbif
  rw [ht, ok_bind]
  exact ⟨_, rfl⟩

theorem csv_ends {m : Jabmod} (h : Tallyable m) :
    EndsAs (rankingCsv m) (firstFailure [(m.votelines.any (fun vl => decide (vl.qty ≤ 0)), .voteline)]) := by
  have ok : ∀ vl ∈ m.votelines, CsvLineOk (Dict.keys m.candidates) vl := by
    intro vl hvl kp hkp
    have hd := h.scorable.dicts vl hvl
    obtain ⟨r, hr, _⟩ := h.ranked vl hvl kp.1 kp.2 (Dict.get?_of_mem hd hkp)
    exact ⟨by rw [hr]; simp, .inl (h.scorable.known vl hvl kp.1 (List.mem_map_of_mem hkp))⟩
  refine endsAs_if ?_ ?_
  · intro hb
    have : ∀ (l : List Voteline) (i : Nat), (∀ vl ∈ l, CsvLineOk (Dict.keys m.candidates) vl) → l.any (fun vl => decide (vl.qty ≤ 0)) = true →
        csvVotelines (csvFields m) l i = .error .voteline := by
      intro l
      induction l with
      | nil => intro i _ hb; cases hb
      | cons vl l ih =>
        intro i hl hb
        unfold csvVotelines
        by_cases hq : vl.qty > 0
        · rw [if_pos hq]
          obtain ⟨rs, hrs⟩ := csvCopies_of (hl vl (by simp)) vl.qty.toNat i
          unfold csvFields
          rw [hrs]
          simp only
          have hb' : l.any (fun vl => decide (vl.qty ≤ 0)) = true := by
            rw [List.any_cons] at hb
            rw [decide_eq_false (by omega), Bool.false_or] at hb
            exact hb
          have := ih (i + vl.qty.toNat) (fun v hv => hl v (by simp [hv])) hb'
          unfold csvFields at this
          rw [this]
        · rw [if_neg hq]
    unfold rankingCsv
    rw [this _ 0 ok hb]
  · intro hb
    refine (C41_success m).2 ?_
    intro vl hvl
    rw [List.any_eq_false] at hb
    have := hb vl hvl
    refine ⟨by simpa using this, fun kp hkp => ok vl hvl kp hkp⟩

theorem nameq_total {m : Jabmod} (h : Tallyable m) : ∃ t, jabmodToNameq m = .ok t := by
  refine (C42_success m).2 ?_
  intro vl hvl _ kp hkp
  obtain ⟨r, hr, _⟩ := h.ranked vl hvl kp.1 kp.2 (Dict.get?_of_mem (h.scorable.dicts vl hvl) hkp)
  rw [hr]; simp

theorem fewer_one {m : Jabmod} (h : fewer 1 m = true) : m.candidates = [] := by
  unfold fewer at h
  exact List.eq_nil_of_length_eq_zero (by simpa using h)

theorem not_fewer_one {m : Jabmod} (h : fewer 1 m = false) : m.candidates ≠ [] := by
  intro h0
  unfold fewer at h
  rw [h0] at h
  simp at h

theorem not_fewer_two {m : Jabmod} (h : fewer 2 m = false) : 2 ≤ m.candidates.length := by
  unfold fewer at h
  simpa using h

theorem irv_nocands {S : Sched} {m : Jabmod} (h : Tallyable m) (h0 : m.candidates = []) : irvDict S m = .error .valueError := by
  unfold irvDict
  rw [irvCount_nocands S m (sound_countable h) (by rw [h0]; rfl)]
  rfl

theorem irv_report {S : Sched} {m : Jabmod} (h : Tallyable m) (hn : ∀ c, Dict.get? m.candidates c ≠ some none) (h0 : m.candidates ≠ []) : ∃ d t, irvDict S m = .ok d ∧ irvReport d = .ok t := by
  obtain ⟨d, hd, hw, _⟩ := C28_total S m (sound_countable h) h0 hn
  refine ⟨d, ?_⟩
  cases hx : d.run.winner with
  | nil => exact absurd hx hw
  | cons w ws =>
    cases ws with
    | nil =>
      have : ∃ t, irvReport d = .ok t := by unfold irvReport; simp only [hx]; exact ⟨_, rfl⟩
      obtain ⟨t, ht⟩ := this
      exact ⟨t, hd, ht⟩
    | cons w' ws =>
      have : ∃ t, irvReport d = .ok t := by unfold irvReport; simp only [hx]; exact ⟨_, rfl⟩
      obtain ⟨t, ht⟩ := this
      exact ⟨t, hd, ht⟩

theorem copeland_report_ends {m : Jabmod} (h : Tallyable m) :
    (m.candidates = [] → (fullCopecount m).bind (copelandReport m.candidates) = .error .indexError) ∧
    (m.candidates ≠ [] → ∃ t, (fullCopecount m).bind (copelandReport m.candidates) = .ok t) := by
  obtain ⟨cc, hcc, hperm, _⟩ := C22_partial m h.scorable.cands
  rw [hcc]
  constructor
  · intro h0
    rw [h0] at hperm
    have : copelandScores2 cc.winlosstie = [] := by
      have := hperm.length_eq
      simpa [Dict.keys] using this
    show copelandReport _ cc = _
    unfold copelandReport
    rw [this]
  · intro h0
    show ∃ t, copelandReport _ cc = .ok t
    unfold copelandReport
    cases hs : copelandScores2 cc.winlosstie with
    | nil =>
      rw [hs] at hperm
      have := hperm.length_eq
      exact absurd (List.eq_nil_of_length_eq_zero (by simpa [Dict.keys] using this.symm)) h0
    | cons x rest =>
      obtain ⟨c, s⟩ := x
      have hc : c ∈ Dict.keys m.candidates := hperm.mem_iff.1 (by rw [hs]; simp)
      obtain ⟨e, he, rfl⟩ := List.mem_map.1 hc
      have hn := Dict.get?_of_mem h.scorable.cands he
      simp only
      rw [Dict.getE_of_get? hn]
      exact ⟨_, rfl⟩

theorem star_ends {m : Jabmod} (h : Tallyable m) :
    (fewer 2 m = true → starResult m = .error .indexError) ∧ (fewer 2 m = false → ∃ r, starResult m = .ok r) := by
  constructor
  · intro h2
    exact C26_too_few m h.scorable _ h.total (by unfold fewer at h2; simpa using h2)
  · intro h2
    obtain ⟨r, hr, _⟩ := C26_star m h.scorable h.ranked h.total (not_fewer_two h2)
    exact ⟨r, hr⟩

theorem score_ends {m : Jabmod} (h : Tallyable m) :
    (fewer 1 m = true → scoreReport m = .error .indexError) ∧ (fewer 1 m = false → ∃ t, scoreReport m = .ok t) := by
  constructor
  · intro h0; exact C63_no_candidates m h.scorable _ h.total (fewer_one h0)
  · intro h0
    obtain ⟨w, rest, _, _, _, e⟩ := C63_score m h.scorable _ h.total (not_fewer_one h0)
    exact ⟨_, e⟩

theorem starSection_ends {m : Jabmod} (h : Tallyable m) :
    ((firstBlank m || (firstRated m && fewer 2 m)) = true → starSection m = .error .indexError) ∧
    ((firstBlank m || (firstRated m && fewer 2 m)) = false → ∃ t, starSection m = .ok t) := by
  unfold starSection hasRatings firstBlank firstRated
  cases hv : m.votelines with
  | nil => exact ⟨fun _ => rfl, fun hx => by simp at hx⟩
  | cons vl vls =>
    obtain ⟨q, prefs, c1, c2, c3, c4⟩ := vl
    cases prefs with
    | nil => exact ⟨fun _ => rfl, fun hx => by simp at hx⟩
    | cons e es =>
      obtain ⟨c, p⟩ := e
      simp only [List.isEmpty_cons, Bool.false_or, ok_bind]
      cases hr : ratingTruthy p.rating with
      | false => exact ⟨fun hx => by simp at hx, fun _ => ⟨_, rfl⟩⟩
      | true =>
        simp only [Bool.true_and, if_true]
        refine ⟨fun hx => ?_, fun hx => ?_⟩
        · unfold starReport
          rw [(star_ends h).1 hx]
          rfl
        · obtain ⟨_, _, _, _, _, _, _, e⟩ := C64_star m h.scorable h.ranked h.total (not_fewer_two hx)
          exact ⟨_, e⟩

theorem diagram_ends {env : CliEnv} {w : Int} {fmt : Str} {m : Jabmod} (h : Tallyable m) (he : LibrariesWork env w m) :
    (fewer 1 m = true → cliDiagram env fmt m = .error .valueError) ∧ (fewer 1 m = false → ∃ t, cliDiagram env fmt m = .ok t) := by
  unfold cliDiagram copecountDiagram
  constructor
  · intro h0
    have h0 := fewer_one h0
    have e := fullCopecount_eq m h.scorable.cands
    rw [h0] at e
    rw [e]
    rfl
  · intro h0
    obtain ⟨cc, g, hcc, hg, _⟩ := C54_election m h.ranked h.scorable.cands (not_fewer_one h0)
    obtain ⟨t, ht⟩ := he.diagram fmt g
    rw [hcc]
    refine ⟨fromSvg t, ?_⟩
    show (copecountGraph cc).bind _ = _
    rw [hg]
    show (env.pipe fmt g).bind _ = _
    rw [ht]
    rfl

theorem page_total {m : Jabmod} (h : Tallyable m) (hnm : ∀ c, Dict.get? m.candidates c ≠ some none) (snippet : Bool) : ∃ p, htmlPage m true snippet = .ok p := by
  obtain ⟨p, _, hp, _⟩ := C53_partial m h.ranked h.scorable.cands true snippet (by
    intro _ n hn hnone
    subst hnone
    obtain ⟨e, he, hen⟩ := List.mem_map.1 hn
    exact hnm e.1 (by rw [Dict.get?_of_mem h.scorable.cands he, hen]))
  exact ⟨p, hp⟩

theorem section_total (mods : List Str) (name : Str) {x : Except PyErr Str} (h : ∃ t, x = .ok t) : ∃ t, section? mods name x = .ok t := by
  unfold section?
  split
  · exact h
  · exact ⟨_, rfl⟩

theorem section_case (mods : List Str) (name : Str) {x : Except PyErr Str} {b : Bool} {e : PyErr}
    (h : name ∈ mods → (b = true → x = .error e) ∧ (b = false → ∃ t, x = .ok t)) :
    ((decide (name ∈ mods) && b) = true → section? mods name x = .error e) ∧
    ((decide (name ∈ mods) && b) = false → ∃ t, section? mods name x = .ok t) := by
  unfold section?
  by_cases hn : name ∈ mods
  · rw [if_pos hn, decide_eq_true hn, Bool.true_and]
    exact h hn
  · rw [if_neg hn, decide_eq_false hn, Bool.false_and]
    exact ⟨fun hx => (by cases hx), fun _ => ⟨_, rfl⟩⟩

theorem text_ends {env : CliEnv} {w : Int} {mods : List Str} {m : Jabmod} (h : Tallyable m)
    (hn : c!"IRV" ∈ mods → ∀ c, Dict.get? m.candidates c ≠ some none) (he : LibrariesWork env w m) :
    EndsAs (cliText env mods w m) (firstFailure [(decide (c!"IRV" ∈ mods) && fewer 1 m, .valueError),
                  (decide (c!"score" ∈ mods) && fewer 1 m, .indexError),
                  (decide (c!"STAR" ∈ mods) && (firstBlank m || (firstRated m && fewer 2 m)), .indexError),
                  (decide (c!"Copeland" ∈ mods) && fewer 1 m, .indexError)]) := by
  unfold cliText
  obtain ⟨s1, e1⟩ := section_total mods c!"candlist" (x := .ok (candlistText m)) ⟨_, rfl⟩
  obtain ⟨s2, e2⟩ := section_total mods c!"winlosstie" (x := texttablePairwise env.draw m) (by
    obtain ⟨_, _, _, _, hrows⟩ := C52_table m h.ranked h.scorable.cands
    obtain ⟨t, ht, h4⟩ := he.table _ hrows
    obtain ⟨_, hp, _⟩ := (C52_print t).1 h4
    unfold texttablePairwise
    rw [hrows, ok_bind, ht, ok_bind, hp]
    exact ⟨_, rfl⟩)
  obtain ⟨s3, e3⟩ := section_total mods c!"pairwise" (x := (env.drawWide w (gridRows (pairwiseCount m))).bind postprocess) (by
    obtain ⟨t, ht, h4⟩ := he.grid
    obtain ⟨_, hp, _⟩ := (C52_print t).1 h4
    rw [ht]
    exact ⟨_, hp⟩)
  rw [e1, ok_bind, e2, ok_bind, e3, ok_bind]
  have i4 := section_case mods c!"IRV" (x := (irvDict env.sched m).bind irvReport) (b := fewer 1 m) (e := .valueError)
    (fun hin => ⟨fun hx => by rw [irv_nocands h (fewer_one hx)]; rfl, fun hx => by
      obtain ⟨d, t, hd, ht⟩ := irv_report (S := env.sched) h (hn hin) (not_fewer_one hx)
      rw [hd]; exact ⟨t, ht⟩⟩)
  have i5 := section_case mods c!"score" (fun _ => score_ends h)
  have i6 := section_case mods c!"STAR" (fun _ => starSection_ends h)
  have i7 := section_case mods c!"Copeland" (x := (fullCopecount m).bind (copelandReport m.candidates)) (b := fewer 1 m) (e := .indexError)
    (fun _ => ⟨fun hx => (copeland_report_ends h).1 (fewer_one hx), fun hx => (copeland_report_ends h).2 (not_fewer_one hx)⟩)
  refine endsAs_if (fun hb => by rw [i4.1 hb]; rfl) (fun hb => ?_)
  obtain ⟨s4, e4⟩ := i4.2 hb
  rw [e4, ok_bind]
  refine endsAs_if (fun hb => by rw [i5.1 hb]; rfl) (fun hb => ?_)
  obtain ⟨s5, e5⟩ := i5.2 hb
  rw [e5, ok_bind]
  refine endsAs_if (fun hb => by rw [i6.1 hb]; rfl) (fun hb => ?_)
  obtain ⟨s6, e6⟩ := i6.2 hb
  rw [e6, ok_bind]
  refine endsAs_if (fun hb => by rw [i7.1 hb]; rfl) (fun hb => ?_)
  obtain ⟨s7, e7⟩ := i7.2 hb
  rw [e7, ok_bind]
  exact ⟨_, rfl⟩

/-- C99.  If the election is as the readers of ballots make it, and texttable, graphviz and BeautifulSoup do their work, then
every output of abiftool, in every format and with every list of modifiers, exists or fails as `outputFailure` says.  Names of
candidates are only needed for the pages and for IRV. -/
theorem C99_output (env : CliEnv) (a : CliArgs) (m : Jabmod) (h : Tallyable m)
    (hn : NeedsNames a.to (cliModifiers a) → ∀ c, Dict.get? m.candidates c ≠ some none) (he : LibrariesWork env a.width m) :
    EndsAs (cliOutput env a m) (outputFailure a.to (cliModifiers a) m) := by
  have pass : ∀ {α : Type} {r : Except PyErr α} {b : Bool} {e : PyErr}, (b = true → r = .error e) ∧ (b = false → ∃ t, r = .ok t) →
      EndsAs r (firstFailure [(b, e)]) := fun hx => endsAs_if hx.1 hx.2
  have bnd : ∀ {α β : Type} {r : Except PyErr α} {g : α → β} {b : Bool} {e : PyErr}, (b = true → r = .error e) ∧ (b = false → ∃ t, r = .ok t) →
      (b = true → (r.bind fun d => Except.ok (g d)) = .error e) ∧ (b = false → ∃ t, (r.bind fun d => Except.ok (g d)) = .ok t) := by
    intro α β r g b e hx
    refine ⟨fun hb => by rw [hx.1 hb]; rfl, fun hb => ?_⟩
    obtain ⟨t, ht⟩ := hx.2 hb
    rw [ht]; exact ⟨_, rfl⟩
  have irv : (∀ c, Dict.get? m.candidates c ≠ some none) →
      (fewer 1 m = true → irvDict env.sched m = .error .valueError) ∧ (fewer 1 m = false → ∃ t, irvDict env.sched m = .ok t) := fun hnm =>
    ⟨fun hx => irv_nocands h (fewer_one hx), fun hx => by
      obtain ⟨d, _, hd, _⟩ := irv_report (S := env.sched) h hnm (not_fewer_one hx)
      exact ⟨d, hd⟩⟩
  unfold cliOutput
  simp only
  generalize hmods : cliModifiers a = mods at hn ⊢
  by_cases t1 : a.to = c!"abif"
  · rw [if_pos t1, t1]; exact abif_total h
  rw [if_neg t1]
  by_cases t2 : a.to = c!"csvrank"
  · rw [if_pos t2, t2]; exact csv_ends h
  rw [if_neg t2]
  by_cases t3 : a.to = c!"dot"
  · rw [if_pos t3, t3]; exact pass (diagram_ends h he)
  rw [if_neg t3]
  by_cases t4 : a.to = c!"html"
  · rw [if_pos t4, t4]
    obtain ⟨p, hp⟩ := page_total h (hn (.inl t4)) false
    rw [hp]
    exact he.page false none p
  rw [if_neg t4]
  by_cases t5 : a.to = c!"html_snippet"
  · rw [if_pos t5, t5]
    rw [fullCopecount_eq m h.scorable.cands, ok_bind]
    obtain ⟨p, hp⟩ := page_total h (hn (.inr (.inl t5))) true
    by_cases hs : c!"svg" ∈ mods
    · rw [if_pos hs]
      have e0 : outputFailure c!"html_snippet" mods m = firstFailure [(fewer 1 m, .valueError)] := by
        unfold outputFailure
        rw [if_neg (by decide), if_neg (by decide), if_pos rfl, decide_eq_true hs, Bool.true_and]
      rw [e0]
      refine endsAs_if (fun hb => ?_) (fun hb => ?_)
      · rw [(diagram_ends h he).1 hb]; rfl
      · obtain ⟨t, ht⟩ := (diagram_ends (fmt := c!"svg") h he).2 hb
        rw [ht]
        show ∃ x, (htmlPage m true true >>= fun p => env.html true (some t) p) = .ok x
        rw [hp]
        exact he.page true _ p
    · rw [if_neg hs]
      have e0 : outputFailure c!"html_snippet" mods m = none := by
        unfold outputFailure
        rw [if_neg (by decide), if_neg (by decide), if_pos rfl, decide_eq_false hs, Bool.false_and]
        rfl
      rw [e0, ok_bind, hp, ok_bind]
      exact he.page true _ p
  rw [if_neg t5]
  by_cases t6 : a.to = c!"irvjson" ∨ a.to = c!"json" ∨ a.to = c!"paircountjson"
  · rw [if_pos t6]
    have hsvg : ¬ (a.to = c!"dot" ∨ a.to = c!"svg") := by
      rintro (hx | hx)
      · exact t3 hx
      · rw [hx] at t6; revert t6; decide
    have htext : a.to ≠ c!"text" := by intro hx; rw [hx] at t6; revert t6; decide
    have hout : outputFailure a.to mods m =
        if a.to = c!"irvjson" ∨ (a.to = c!"json" ∨ a.to = c!"paircountjson") ∧ c!"IRV" ∈ mods then firstFailure [(fewer 1 m, .valueError)]
        else if a.to = c!"json" ∧ c!"pairwise" ∉ mods ∧ c!"STAR" ∈ mods then firstFailure [(fewer 2 m, .indexError)] else none := by
      unfold outputFailure
      rw [if_neg t2, if_neg hsvg, if_neg t5, if_neg htext]
    rw [hout]
    unfold cliJson
    by_cases c1 : a.to = c!"irvjson" ∨ c!"IRV" ∈ mods
    · have c1' : a.to = c!"irvjson" ∨ (a.to = c!"json" ∨ a.to = c!"paircountjson") ∧ c!"IRV" ∈ mods := by tauto
      rw [if_pos c1, if_pos c1']
      exact pass (bnd (irv (hn (c1.elim (fun hx => .inr (.inr (.inl hx))) (fun hx => .inr (.inr (.inr hx)))))))
    · have c1' : ¬ (a.to = c!"irvjson" ∨ (a.to = c!"json" ∨ a.to = c!"paircountjson") ∧ c!"IRV" ∈ mods) := by tauto
      rw [if_neg c1, if_neg c1']
      by_cases c2 : a.to = c!"paircountjson" ∨ c!"pairwise" ∈ mods
      · have c2' : ¬ (a.to = c!"json" ∧ c!"pairwise" ∉ mods ∧ c!"STAR" ∈ mods) := by
          rintro ⟨hx, hy, _⟩
          rcases c2 with hz | hz
          · rw [hx] at hz; revert hz; decide
          · exact hy hz
        rw [if_pos c2, if_neg c2']
        exact ⟨_, rfl⟩
      · rw [if_neg c2]
        have hj : a.to = c!"json" := by tauto
        by_cases c3 : c!"STAR" ∈ mods
        · rw [if_pos c3, if_pos ⟨hj, fun hx => c2 (.inr hx), c3⟩]
          exact pass (bnd (star_ends h))
        · rw [if_neg c3, if_neg (fun hx => c3 hx.2.2)]
          exact ⟨_, rfl⟩
  rw [if_neg t6]
  have rest : ∀ t : Str, a.to = t → t ≠ c!"svg" → t ≠ c!"text" → outputFailure t mods m = none := by
    rintro t rfl h1 h2
    unfold outputFailure
    rw [if_neg t2, if_neg (by tauto), if_neg t5, if_neg (by tauto), if_neg (by tauto), if_neg h2]
  by_cases t7 : a.to = c!"jabmod"
  · rw [if_pos t7, t7, rest _ t7 (by decide) (by decide)]; exact ⟨_, rfl⟩
  rw [if_neg t7]
  by_cases t8 : a.to = c!"nameq"
  · rw [if_pos t8, t8, rest _ t8 (by decide) (by decide)]; exact nameq_total h
  rw [if_neg t8]
  by_cases t9 : a.to = c!"svg"
  · rw [if_pos t9, t9]; exact pass (diagram_ends h he)
  rw [if_neg t9]
  by_cases t10 : a.to = c!"text"
  · rw [if_pos t10, t10]; exact text_ends h (fun hx => hn (.inr (.inr (.inr hx)))) he
  rw [if_neg t10]
  by_cases t11 : a.to = c!"winlosstiejson"
  · rw [if_pos t11, rest _ rfl t9 t10, winLossTie_support m h.ranked h.scorable.cands]
    exact ⟨_, rfl⟩
  rw [if_neg t11, rest _ rfl t9 t10]
  exact ⟨_, rfl⟩

/-- C99: every election read from ABIF text is as `C99_output` needs it, -/
theorem C99_parsed (cw ar sc : Bool) (text : Str) (m : Jabmod) (h : convertAbif cw ar sc text = .ok m) (hlen : text.length < 2 ^ 61) :
    Sound m where
  scorable := parsed_scorable cw ar sc text m h
  ranked := parsed_allRanked cw ar sc text m h hlen
  named := by
    intro c hc
    have := (C03_candidates cw ar sc text m h).2.1 c (Dict.mem_keys_of_get? hc)
    rw [hc] at this
    cases this
  total := (C01_ballotcount cw ar sc text m h).1

/-- consolidating the ballots keeps the election countable -/
theorem consolidated_tallyable (m : Jabmod) (h : Tallyable m) : Tallyable (consolidate m) := by
  have hwf : PrefsWF m := h.scorable.dicts
  have hfrom : ∀ vl ∈ (consolidate m).votelines, ∃ vl' ∈ m.votelines, vl.prefs = vl'.prefs := by
    intro vl hvl
    have := (C39_distinct m hwf).2.1.subset (List.mem_map.2 ⟨vl, hvl, rfl⟩)
    obtain ⟨vl', h1, h2⟩ := List.mem_map.1 this
    exact ⟨vl', h1, h2.symm⟩
  refine ⟨⟨h.scorable.cands, fun vl hvl => ?_, fun vl hvl => ?_, fun vl hvl => ?_⟩, fun vl hvl => ?_, ?_⟩
  · obtain ⟨vl', h1, h2⟩ := hfrom vl hvl; rw [h2]; exact h.scorable.dicts vl' h1
  · obtain ⟨vl', h1, h2⟩ := hfrom vl hvl; rw [h2]; exact h.scorable.known vl' h1
  · obtain ⟨vl', h1, h2⟩ := hfrom vl hvl; rw [h2]; exact h.scorable.ratings vl' h1
  · obtain ⟨vl', h1, h2⟩ := hfrom vl hvl; rw [h2]; exact h.ranked vl' h1
  · have e := C39_totals m hwf (fun _ => true) (fun _ _ _ => rfl)
    have all : ∀ l : List Voteline, ballotsWith (fun _ => true) l = (l.map Voteline.qty).sum := by
      intro l
      simp [ballotsWith]
    rw [all, all] at e
    rw [e]
    exact h.total

/-- … and stays so when the ballots are consolidated. -/
theorem C99_consolidated (m : Jabmod) (h : Sound m) : Sound (consolidate m) :=
  ⟨consolidated_tallyable m h.toTallyable, h.named⟩

/-- the election that is output: consolidated if asked for -/
def outputModel (a : CliArgs) (m : Jabmod) : Jabmod := if c!"consolidate" ∈ cliModifiers a then consolidate m else m

/-- C99, the whole run.  `abiftool -f abif` on a text that can be read ends without an exception, or with exactly the one that
`outputFailure` says, having printed nothing. -/
theorem C99_run (env : CliEnv) (a : CliArgs) (s : Str) (blobs : List Str) (m : Jabmod) (hf : cliFormat a = .ok c!"abif")
    (hi : cliInput env a = .ok (s, blobs))
    (hm : convertAbif a.cleanws a.addScores (decide (c!"jcomments" ∈ cliModifiers a)) s = .ok m) (hlen : s.length < 2 ^ 61)
    (he : LibrariesWork env a.width (outputModel a m)) :
    match outputFailure a.to (cliModifiers a) (outputModel a m) with
    | none => (cliMain env a).ending = .ok ()
    | some e => cliMain env a = ⟨[], .error e⟩ := by
  have hs : Sound (outputModel a m) := by
    have := C99_parsed _ _ _ _ _ hm hlen
    unfold outputModel
    split
    · exact C99_consolidated m this
    · exact this
  have key := C99_output env a (outputModel a m) hs.toTallyable (fun _ => hs.named) he
  have hrun : cliMain env a = (match cliOutput env a (outputModel a m) with
      | .error e => (⟨[], .error e⟩ : CliResult)
      | .ok out => ⟨out ++ c!"\n", .ok ()⟩) := by
    unfold cliMain
    rw [hf]
    simp only
    rw [if_neg (by decide), hi]
    simp only
    unfold cliModel
    rw [if_pos rfl, hm]
    rfl
  rw [hrun]
  unfold EndsAs at key
  split at key
  · rename_i e heq
    rw [heq]
    simp only
    rw [key]
  · rename_i heq
    rw [heq]
    obtain ⟨x, hx⟩ := key
    simp only
    rw [hx]

/-- C99: with at least two candidates, ballots in every line and a candidate named on the first line, nothing fails. -/
theorem C99_ordinary («to» : Str) (mods : List Str) (m : Jabmod) (h2 : 2 ≤ m.candidates.length)
    (hq : ∀ vl ∈ m.votelines, 0 < vl.qty) (vl : Voteline) (rest : List Voteline) (hv : m.votelines = vl :: rest) (hp : vl.prefs ≠ []) :
    outputFailure «to» mods m = none := by
  have f1 : fewer 1 m = false := by unfold fewer; exact decide_eq_false (by omega)
  have f2 : fewer 2 m = false := by unfold fewer; exact decide_eq_false (by omega)
  have f3 : firstBlank m = false := by
    unfold firstBlank
    rw [hv]
    cases hx : vl.prefs with
    | nil => exact absurd hx hp
    | cons => simp [hx]
  have f4 : m.votelines.any (fun vl => decide (vl.qty ≤ 0)) = false := by
    rw [List.any_eq_false]
    intro v hvm
    have := hq v hvm
    simp; omega
  unfold outputFailure
  simp only [f1, f2, f3, f4, Bool.and_false, Bool.or_false, firstFailure]
  simp

end

/-! ### the failures happen, and the hypotheses are met -/
section
attribute [local instance] Uni.ascii
set_option maxRecDepth 40000

def blankFirst : Jabmod := (convertAbif true false false c!"5:\n3:A/5>B/3\n").toOption.getD emptyishJabmod
def oneCand : Jabmod := (convertAbif true false false c!"3:A/5\n").toOption.getD emptyishJabmod
def noCand : Jabmod := (convertAbif true false false c!"3:\n").toOption.getD emptyishJabmod
def ordinary : Jabmod := (convertAbif true false false c!"3:A/5>B/2\n0:B>A\n").toOption.getD emptyishJabmod

/-- a library that answers everything -/
def easyEnv : CliEnv where
  stdin := []
  file := fun f => if f = c!"v.abif" then some c!"5:\n3:A/5>B/3\n" else none
  loads := fun _ => .error .valueError
  sha := fun s => s
  sched := exSched
  draw := fun _ => .ok c!"a\nb\nc\nd\n"
  drawWide := fun _ _ => .ok c!"a\nb\nc\nd\n"
  pipe := fun _ _ => .ok []
  html := fun _ _ _ => .ok []
  listing := ⟨fun _ l => l, fun _ l => .refl l⟩

example (m : Jabmod) (w : Int) : LibrariesWork easyEnv w m :=
  ⟨fun _ _ => ⟨_, rfl, by decide⟩, ⟨_, rfl, by decide⟩, fun _ _ => ⟨_, rfl⟩, fun _ _ _ => ⟨_, rfl⟩⟩
example : Sound blankFirst ∧ Sound ordinary := by
  have r : ∀ t : Str, (convertAbif true false false t).isOk = true → t.length < 2 ^ 61 →
      Sound ((convertAbif true false false t).toOption.getD emptyishJabmod) := by
    intro t h hl
    cases hx : convertAbif true false false t with
    | error e => rw [hx] at h; cases h
    | ok m => exact C99_parsed _ _ _ _ _ hx hl
  exact ⟨r _ (by decide +kernel) (by decide), r _ (by decide +kernel) (by decide)⟩
/-- the largest group of ballots is blank, so there is no STAR report -/
example : outputFailure c!"text" [c!"STAR"] blankFirst = some .indexError ∧ outputFailure c!"text" [c!"IRV", c!"score", c!"Copeland"] blankFirst = none := by
  decide +kernel
example : (cliMain easyEnv { files := [c!"v.abif"], «to» := c!"text", modifier := some [c!"STAR"] }).ending = .error .indexError := by
  decide +kernel
example : outputFailure c!"text" [c!"STAR"] oneCand = some .indexError ∧ outputFailure c!"json" [c!"STAR"] oneCand = some .indexError ∧
    outputFailure c!"text" [c!"IRV", c!"score", c!"Copeland"] oneCand = none := by decide +kernel
example : outputFailure c!"text" [c!"candlist", c!"Copeland"] noCand = some .indexError ∧ outputFailure c!"dot" [] noCand = some .valueError ∧
    outputFailure c!"irvjson" [] noCand = some .valueError ∧ outputFailure c!"html" [] noCand = none := by decide +kernel
example : outputFailure c!"csvrank" [] ordinary = some .voteline ∧ outputFailure c!"text" [c!"STAR"] ordinary = none := by decide +kernel
end
end Verif.Props
