/-
C96, continued: what is in the documents printed by the stand-alone programs scorestar and core, and what the programs do
when the input file does not exist.
-/
import Verif.Props.Scripts
import Verif.Props.JsonOut
import Verif.Props.ParsedTally

set_option linter.unusedSimpArgs false
set_option linter.unusedSectionVars false

namespace Verif.Props
open Spec
section
variable [U : Uni]

theorem scoreDoc_distinct (r : ScoreResult) (hw : Dict.WF r.scores) (bc : Int) (hv : r.totalvoters = .int bc) :
    DistinctKeys (scoreDoc r) := by
  unfold scoreDoc
  refine ⟨by simp only [List.map_cons, List.map_nil]; decide, ?_⟩
  rw [distinctObj_iff]
  intro e he
  simp only [List.mem_cons, List.not_mem_nil, or_false] at he
  rcases he with rfl | rfl | rfl | rfl
  · refine obj_distinct (f := fun kv => (scoreEntryJson r.ranks kv).2) hw ?_
    intro kv _
    unfold scoreEntryJson
    cases kv.2.candname <;> cases Dict.get? r.ranks kv.1 <;> simp [DistinctKeys, DistinctKeysObj, optStrJson]
  · exact strs_distinct _
  · trivial
  · rw [hv]; trivial

/-- The score document of an election, as `json.loads` reads it: for every candidate the name, the score, the number of
voters who rated it above zero and the rank by score; the candidates by descending score; the sum of all scores; and the
number of voters. -/
theorem scoreDoc_shows (m : Jabmod) (hs : Scorable m)
    (hbc : Dict.get? m.metadata c!"ballotcount" = some (.int (m.votelines.map Voteline.qty).sum)) (r : ScoreResult)
    (hr : enhancedScore m = .ok r) :
    ∃ doc rl, jsonLoads (scoreDoc r).dumpsIndent = .ok doc ∧
      keysOf doc = [c!"scores", c!"ranklist", c!"total_all_scores", c!"totalvoters"] ∧
      List.Perm rl (Dict.keys m.candidates) ∧ rl.Pairwise (fun x y => scoreOf m y ≤ scoreOf m x) ∧
      (∀ x n, Dict.get? m.candidates x = some n → valueAt doc [.key c!"scores", .key x] =
        some (.obj [(c!"candname", textOrNull n), (c!"score", .int (scoreOf m x)), (c!"votercount", .int (ratersOf m x)),
          (c!"rank", .int (denseRank (m.candidates.keys.map (scoreOf m)) (scoreOf m x)))])) ∧
      member c!"ranklist" doc = some (texts rl) ∧
      member c!"total_all_scores" doc = some (.int ((Dict.keys m.candidates).map (scoreOf m)).sum) ∧
      member c!"totalvoters" doc = some (.int (m.votelines.map Voteline.qty).sum) := by
  obtain ⟨b, hb', hperm, hsort, _, hranks, htot, htv⟩ := C25_ranking m hs _ hbc
  rw [hr] at hb'
  cases hb'
  have hscores : r.scores = m.candidates.map (fun kv => (kv.1, ({ candname := kv.2, score := scoreOf m kv.1, votercount := ratersOf m kv.1 } : ScoreEntry))) := by
    have e := enhancedScore_eq m hs _ hbc
    rw [hr] at e
    simp only [Except.ok.injEq] at e
    rw [e]
  have hw : Dict.WF r.scores := by
    rw [hscores]
    have := hs.cands
    unfold Dict.WF Dict.keys at this ⊢
    simpa [List.map_map, Function.comp_def] using this
  have hl := (C72_dumps _ (scoreDoc_distinct r hw _ htv) [] [] (by intro c hc; cases hc) (by intro c hc; cases hc)).2
  rw [List.nil_append, List.append_nil] at hl
  refine ⟨scoreDoc r, r.ranklist, hl, rfl, hperm, hsort, ?_, rfl, ?_, ?_⟩
  · intro x n hx
    have hmem : x ∈ Dict.keys m.candidates := Dict.mem_keys_of_get? hx
    have e0 : member c!"scores" (scoreDoc r) = some (.obj (r.scores.map (scoreEntryJson r.ranks))) := rfl
    have hrank : Dict.get? r.ranks x = some (denseRank (m.candidates.keys.map (scoreOf m)) (scoreOf m x)) := by
      rw [hranks, Dict.get?_mapKeys r.ranklist (fun c => denseRank (m.candidates.keys.map (scoreOf m)) (scoreOf m c)),
        if_pos (hperm.mem_iff.2 hmem)]
    have e1 : Dict.get? (r.scores.map (scoreEntryJson r.ranks)) x =
        some (.obj ([(c!"candname", optStrJson n), (c!"score", .int (scoreOf m x)), (c!"votercount", .int (ratersOf m x))] ++
          [(c!"rank", .int (denseRank (m.candidates.keys.map (scoreOf m)) (scoreOf m x)))])) := by
      rw [hscores, List.map_map]
      have key := Dict.get?_map m.candidates (fun (k : Str) (n : Option Str) => (scoreEntryJson r.ranks
        (k, ({ candname := n, score := scoreOf m k, votercount := ratersOf m k } : ScoreEntry))).2) x
      rw [hx] at key
      refine Eq.trans key ?_
      simp only [Option.map_some, scoreEntryJson, hrank]
    simp only [valueAt, e0, Option.bind_some, member_obj, e1]
    cases n <;> rfl
  · show some (Json.int r.totalAllScores) = _
    rw [htot]
  · show some r.totalvoters = _
    rw [htv]

/-- C96, scorestar: on every text that can be read, the score document that `scorestar` prints (`C96_score`) exists, and
`json.loads` reads it as: for every candidate the name, the score, the number of voters who rated it above zero and the rank
by score; the candidates by descending score; the sum of all scores; and the number of voters. -/
theorem C96_score_json (text : Str) (m : Jabmod) (h : convertAbif false true false text = .ok m) :
    ∃ r doc rl, enhancedScore m = .ok r ∧ jsonLoads (scoreDoc r).dumpsIndent = .ok doc ∧
      keysOf doc = [c!"scores", c!"ranklist", c!"total_all_scores", c!"totalvoters"] ∧
      List.Perm rl (Dict.keys m.candidates) ∧ rl.Pairwise (fun x y => scoreOf m y ≤ scoreOf m x) ∧
      (∀ x n, Dict.get? m.candidates x = some n → valueAt doc [.key c!"scores", .key x] =
        some (.obj [(c!"candname", textOrNull n), (c!"score", .int (scoreOf m x)), (c!"votercount", .int (ratersOf m x)),
          (c!"rank", .int (denseRank (m.candidates.keys.map (scoreOf m)) (scoreOf m x)))])) ∧
      member c!"ranklist" doc = some (texts rl) ∧
      member c!"total_all_scores" doc = some (.int ((Dict.keys m.candidates).map (scoreOf m)).sum) ∧
      member c!"totalvoters" doc = some (.int (m.votelines.map Voteline.qty).sum) := by
  have hs := parsed_scorable _ _ _ _ _ h
  have hbc := (C01_ballotcount _ _ _ _ _ h).1
  obtain ⟨doc, rl, hd⟩ := scoreDoc_shows m hs hbc _ (enhancedScore_eq m hs _ hbc)
  exact ⟨_, doc, rl, enhancedScore_eq m hs _ hbc, hd⟩

/-- C96, scorestar: whenever `abiftool -f abif --add-scores -t json -m STAR FILE` fails, `scorestar FILE` prints nothing and
ends with the same exception. -/
theorem C96_score_fails (env : CliEnv) (dumpScaled : ScaledResult → Except PyErr Str) (file text out : Str) (e : PyErr)
    (hf : env.file file = some text) (hd : file ≠ c!"-")
    (h : abiftoolRun env c!"abif" c!"json" [c!"STAR"] true file = ⟨out, .error e⟩) :
    scoreMain env dumpScaled file = ⟨[], .error e⟩ := by
  rw [abiftoolRun_abif env _ _ _ _ _ hf hd (by decide) (by decide) (by decide)] at h
  unfold scoreMain scriptInput
  rw [hf]
  simp only [ok_bind]
  cases hm : convertAbif false true false text with
  | error e' =>
    rw [hm] at h
    injection h with h1 h2
    cases h2
    rfl
  | ok m =>
    rw [hm] at h
    have hs := parsed_scorable _ _ _ _ _ hm
    have hbc := (C01_ballotcount _ _ _ _ _ hm).1
    have hj : printed (cliJson env c!"json" [c!"STAR"] m) = ⟨out, .error e⟩ := h
    unfold cliJson at hj
    rw [if_neg (by decide), if_neg (by decide), if_pos (by decide)] at hj
    cases hst : starResult m with
    | ok r => rw [hst] at hj; injection hj with _ h2; cases h2
    | error e' =>
      rw [hst] at hj
      injection hj with _ h2
      cases h2
      simp only [ok_bind]
      rw [enhancedScore_eq m hs _ hbc, ok_bind, hst, error_bind]
      rfl

/-- C96, core: for a preference text without `#` and line breaks, `core -f process_abif_prefline TEXT` prints the election
that reading `1:TEXT` gives, but with the quantity and the number of ballots 0; it fails exactly when reading that election
fails, the same way.  `core -f emptyish TEXT` prints the election without candidates, ballots and metadata other than the
number of ballots, 0. -/
theorem C96_prefline (s : Str) :
    ('#' ∉ s → (∀ c ∈ s, isLineBreak c = false) →
      (∀ e, convertAbif false false false (c!"1:" ++ s) = .error e → coreMain .processPrefline s = ⟨[], .error e⟩) ∧
      (∀ m, convertAbif false false false (c!"1:" ++ s) = .ok m →
        ∃ (vl : Voteline) (out : Str), m.votelines = [vl] ∧ coreMain .processPrefline s = ⟨out, .ok ()⟩ ∧
          loadModel out = .ok { m with metadata := [(c!"ballotcount", .int 0)], votelines := [{ vl with qty := 0 }] })) ∧
    (∃ out, coreMain .emptyish s = ⟨out, .ok ()⟩ ∧
      loadModel out = .ok { metadata := [(c!"ballotcount", .int 0)], candidates := [], votelines := [] }) := by
  have hnl : Blank c!"\n" := by intro c hc; revert c; decide
  constructor
  · intro hh hb
    rw [convertAbif_one s hh hb]
    unfold coreMain
    cases hp : parsePrefstr s with
    | error e =>
      refine ⟨fun e' h => ?_, fun m h => (by cases h)⟩
      cases h
      simp only [processPrefline, hp]
      rfl
    | ok r =>
      obtain ⟨prefs, cands⟩ := r
      refine ⟨fun e' h => (by cases h), ?_⟩
      intro m h
      have hk := convertAbif_keys (text := c!"1:" ++ s) (cw := false) (ar := false) (sc := false) (m := m)
        (by rw [convertAbif_one s hh hb, hp]; exact h)
      cases h
      have e : processPrefline c!"0" s none emptyishJabmod = .ok
          { metadata := [(c!"ballotcount", .int 0)], candidates := mergeCands cands [],
            votelines := [{ qty := 0, prefs := prefs, prefstr := some (rstrip s) }] } := by
        simp only [processPrefline, hp]
        rfl
      simp only [e]
      refine ⟨_, _, rfl, rfl, ?_⟩
      have hk' : KeysOk (Jabmod.mk [(c!"ballotcount", .int 0)] (mergeCands cands [])
          [{ qty := 0, prefs := prefs, prefstr := some (rstrip s) }]) := by
        refine ⟨?_, hk.cands, hk.mdata, ?_⟩
        · intro vl hvl
          have := hk.prefs _ (List.mem_singleton.2 rfl)
          rw [List.mem_singleton.1 hvl]
          exact this
        · intro x hx
          rw [List.mem_singleton.1 hx]
          trivial
      simpa using load_dump hk' blank_nil hnl
  · refine ⟨_, rfl, ?_⟩
    exact load_dump emptyish_keys blank_nil hnl

/-- C96: every program ends with FileNotFoundError, and prints nothing, if the input file does not exist. -/
theorem C96_missing (env : CliEnv) (file : Str) (hf : env.file file = none) (json : Bool)
    (dumpStar : StarResult → Except PyErr Str) (dumpScaled : ScaledResult → Except PyErr Str) :
    irvMain env json file = ⟨[], .error .fileNotFound⟩ ∧ pairwiseMain env file = ⟨[], .error .fileNotFound⟩ ∧
    scoreMain env dumpScaled file = ⟨[], .error .fileNotFound⟩ ∧ debtallyMain env file = ⟨[], .error .fileNotFound⟩ ∧
    preflibMain env file = ⟨[], .error .fileNotFound⟩ ∧ pairPageMain env file = ⟨[], .error .fileNotFound⟩ ∧
    starPageMain env dumpStar dumpScaled file = ⟨[], .error .fileNotFound⟩ := by
  have e : scriptInput env file = .error .fileNotFound := by unfold scriptInput; rw [hf]
  unfold irvMain pairwiseMain scoreMain debtallyMain preflibMain pairPageMain starPageMain
  rw [e]
  exact ⟨rfl, rfl, rfl, rfl, rfl, rfl, rfl⟩

end

/-! ### the hypotheses are met -/
section
attribute [local instance] Uni.ascii
set_option maxRecDepth 40000
example : (convertAbif false true false scriptText).isOk = true := by decide +kernel
example : '#' ∉ c!"A/5>B" ∧ (∀ c ∈ c!"A/5>B", isLineBreak c = false) ∧ (coreMain .processPrefline c!"A/5>B").ending = .ok () := by
  decide +kernel
example : scriptEnv.file c!"missing.abif" = none := by decide +kernel
end
end Verif.Props
