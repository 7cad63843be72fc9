/-
C90: the JSON outputs of the command line.
-/
import Verif.Lib.JsonOut
import Verif.Lib.Output
import Verif.Props.CliTable
import Verif.Props.Json
import Verif.Props.ParsedTally
import Verif.Props.Irv

set_option linter.unusedSectionVars false

namespace Verif.Props
open Verif Verif.Spec
variable [U : Uni]

/-- The run has one input, given with `-f`; with the modifiers `mods` in force it is read as the model `m` (consolidated if
asked). -/
def RunsOn (env : CliEnv) (a : CliArgs) (mods : List Str) (m : Jabmod) : Prop :=
  InForce a mods ∧ ∃ fmt text m0, a.fromfmt = some fmt ∧ InputIs env a text ∧ ReadAs env a mods text fmt (.ok m0) ∧
    m = if c!"consolidate" ∈ mods then consolidate m0 else m0

/-- the run ends well, and what it prints is JSON text of the document -/
def PrintsDoc (env : CliEnv) (a : CliArgs) (doc : Json) : Prop :=
  ∃ out, cliMain env a = ⟨out, .ok ()⟩ ∧ jsonLoads out = .ok doc

theorem runsOn_main {env : CliEnv} {a : CliArgs} {mods : List Str} {m : Jabmod} {o : Except PyErr Str} (h : RunsOn env a mods m)
    (hw : WrittenAs env a.width mods m a.to o) : cliMain env a = endsWith o := by
  obtain ⟨hm, fmt, text, m0, hf, hi, hr, e⟩ := h
  obtain ⟨_, h2, h3⟩ := C80_run env a mods text fmt _ hm hf hi hr
  by_cases hc : c!"consolidate" ∈ mods
  · rw [if_pos hc] at e
    subst e
    exact h3 m0 o rfl hc hw
  · rw [if_neg hc] at e
    subst e
    exact h2 _ o rfl hc hw

theorem prints_of {env : CliEnv} {a : CliArgs} {mods : List Str} {m : Jabmod} {doc : Json} (h : RunsOn env a mods m) (hd : DistinctKeys doc)
    (hw : WrittenAs env a.width mods m a.to (.ok doc.dumpsIndent)) : PrintsDoc env a doc := by
  refine ⟨_, runsOn_main h hw, ?_⟩
  have := (C72_dumps doc hd [] c!"\n" (by intro c hc; cases hc) (by intro c hc; rw [List.mem_singleton.1 hc]; simp)).2
  simpa using this

/-- C90, pairwise counts.  `-t paircountjson`, and `-t json` with the pairwise modifier, print a JSON object with a row for
every candidate, each with a member for every candidate: how many voters rank the candidate of the row above the other, and
null for the candidate itself. -/
theorem C90_pairs (env : CliEnv) (a : CliArgs) (mods : List Str) (m : Jabmod) (h : RunsOn env a mods m) (hk : (Dict.keys m.candidates).Nodup)
    (hr : Spec.AllRanked m) (ht : a.to = c!"paircountjson" ∨ a.to = c!"json" ∧ c!"pairwise" ∈ mods) (hi : c!"IRV" ∉ mods) :
    ∃ doc, PrintsDoc env a doc ∧ keysOf doc = Dict.keys m.candidates ∧
      (∀ x ∈ Dict.keys m.candidates, ∃ row, member x doc = some row ∧ keysOf row = Dict.keys m.candidates) ∧
      ∀ x ∈ Dict.keys m.candidates, ∀ y ∈ Dict.keys m.candidates,
        valueAt doc [.key x, .key y] = some (if x = y then .null else .int (support m x y)) := by
  refine ⟨pairsDoc (pairwiseCount m), prints_of h (pairs_distinct hk) ?_, ?_⟩
  · rcases ht with ht | ⟨ht, hp⟩
    · rw [ht]; exact .paircountjson hi
    · rw [ht]; exact .jsonPairs hi hp
  rw [pairwiseCount_support m hr]
  generalize Dict.keys m.candidates = toks
  unfold matrixOf
  have hrow : ∀ x ∈ toks, member x (pairsDoc (toks.map fun a => (a, toks.map fun b => (b, if a = b then none else some (support m a b))))) =
      some (.obj ((toks.map fun b => (b, if x = b then none else some (support m x b))).map fun cell => (cell.1, optIntJson cell.2))) := by
    intro x hx
    unfold pairsDoc
    rw [member_obj, get?_mapJson (fun row : Dict Str (Option Int) => Json.obj (row.map fun cell => (cell.1, optIntJson cell.2))),
      Dict.get?_mapKeys toks (fun a => toks.map fun b => (b, if a = b then none else some (support m a b))), if_pos hx]
    rfl
  refine ⟨?_, ?_, ?_⟩
  · unfold pairsDoc keysOf
    simp [List.map_map, Function.comp_def]
  · intro x hx
    refine ⟨_, hrow x hx, ?_⟩
    unfold keysOf
    simp [List.map_map, Function.comp_def]
  · intro x hx y hy
    simp only [valueAt, hrow x hx, Option.bind_some]
    rw [member_obj, get?_mapJson optIntJson, Dict.get?_mapKeys toks (fun b => if x = b then none else some (support m x b)), if_pos hy]
    by_cases hxy : x = y
    · simp [hxy, optIntJson]
    · simp [hxy, optIntJson]

/-- C90, wins, losses and ties (partial: a tied opponent counts as two ties, the defect of C21).  `-t winlosstiejson`
prints an object with a member for every candidate, most wins first. -/
theorem C90_wlt_partial (env : CliEnv) (a : CliArgs) (mods : List Str) (m : Jabmod) (h : RunsOn env a mods m) (hk : (Dict.keys m.candidates).Nodup)
    (hr : Spec.AllRanked m) (ht : a.to = c!"winlosstiejson") :
    ∃ doc, PrintsDoc env a doc ∧ (keysOf doc).Perm (Dict.keys m.candidates) ∧ (keysOf doc).Pairwise (fun x y => winsOf m y ≤ winsOf m x) ∧
      ∀ x ∈ Dict.keys m.candidates, member x doc =
        some (.obj [(c!"wins", .int (winsOf m x)), (c!"losses", .int (lossesOf m x)), (c!"ties", .int (2 * tiesOf m x))]) := by
  have hw := winLossTie_support m hr hk
  refine ⟨wltDoc _, prints_of h (wlt_distinct (winLossTie_wf hk hw)) ?_, ?_, ?_, ?_⟩
  · rw [ht]
    have := WrittenAs.winlosstiejson (env := env) (width := a.width) (mods := mods) (m := m)
    rw [hw] at this
    exact this
  · unfold wltDoc keysOf
    simp only
    rw [List.map_map]
    refine ((sortByKeyDesc_perm _ _).map _).trans ?_
    simp [List.map_map, Function.comp_def]
  · unfold wltDoc keysOf
    simp only
    rw [List.map_map]
    refine List.pairwise_map.2 ?_
    refine (sortByKeyDesc_sorted (fun kv : Str × WLT => kv.2.wins) (m.candidates.keys.map (fun c => (c, recOf m c)))).imp_of_mem ?_
    intro x y hx hy hxy
    obtain ⟨c, _, rfl⟩ := List.mem_map.1 ((sortByKeyDesc_perm _ _).mem_iff.1 hx)
    obtain ⟨d, _, rfl⟩ := List.mem_map.1 ((sortByKeyDesc_perm _ _).mem_iff.1 hy)
    exact hxy
  · intro x hx
    unfold wltDoc
    rw [member_obj, get?_mapJson WLT.toJson, get?_sorted_map (recOf m) hk x hx]
    rfl

/-! ### STAR -/

theorem starResult_base {m : Jabmod} {r : StarResult} (h : starResult m = .ok r) :
    enhancedScore m = .ok r.base ∧ ∃ rest, r.base.ranklist = r.fin1 :: r.fin2 :: rest := by
  unfold starResult at h
  obtain ⟨b, hb, h⟩ := bind_ok.1 h
  obtain ⟨cc, _, h⟩ := bind_ok.1 h
  split at h
  · rename_i f1 f2 rest hl
    obtain ⟨_, _, h⟩ := bind_ok.1 h
    obtain ⟨_, _, h⟩ := bind_ok.1 h
    obtain ⟨_, _, h⟩ := bind_ok.1 h
    obtain ⟨_, _, h⟩ := bind_ok.1 h
    split at h
    · cases h
      exact ⟨hb, rest, hl⟩
    · cases h
  · cases h

/-- the text announcing a tie -/
def tieText (n1 n2 : Option Str) : Str := c!"tie " ++ n1.getD c!"None" ++ c!" and " ++ n2.getD c!"None"

/-- C90, STAR.  `-t json` with the STAR modifier prints an object that shows, for every candidate, the name, the score, the
number of voters who rated it above zero and the rank by score; the candidates by descending score (`rl`); the first two as
finalists, with names and the number of voters who prefer each to the other; the voters who prefer neither; and the name of
the winner of the runoff, or the tie. -/
theorem C90_star (env : CliEnv) (a : CliArgs) (mods : List Str) (m : Jabmod) (h : RunsOn env a mods m) (hs : Scorable m)
    (hr : Spec.AllRanked m) (hbc : Dict.get? m.metadata c!"ballotcount" = some (.int (m.votelines.map Voteline.qty).sum))
    (h2 : 2 ≤ m.candidates.length) (ht : a.to = c!"json") (hi : c!"IRV" ∉ mods) (hp : c!"pairwise" ∉ mods) (hst : c!"STAR" ∈ mods) :
    ∃ doc f1 f2 rest n1 n2, PrintsDoc env a doc ∧
      keysOf doc = [c!"scores", c!"ranklist", c!"total_all_scores", c!"totalvoters", c!"round1winners", c!"fin1", c!"fin2", c!"fin1n",
        c!"fin2n", c!"fin1votes", c!"fin2votes", c!"final_abstentions", c!"winner"] ∧
      (f1 :: f2 :: rest).Perm (Dict.keys m.candidates) ∧ (f1 :: f2 :: rest).Pairwise (fun x y => scoreOf m y ≤ scoreOf m x) ∧
      Dict.get? m.candidates f1 = some n1 ∧ Dict.get? m.candidates f2 = some n2 ∧
      (∀ x n, Dict.get? m.candidates x = some n → valueAt doc [.key c!"scores", .key x] =
        some (.obj [(c!"candname", textOrNull n), (c!"score", .int (scoreOf m x)), (c!"votercount", .int (ratersOf m x)),
          (c!"rank", .int (denseRank (m.candidates.keys.map (scoreOf m)) (scoreOf m x)))])) ∧
      member c!"ranklist" doc = some (texts (f1 :: f2 :: rest)) ∧
      member c!"total_all_scores" doc = some (.int ((Dict.keys m.candidates).map (scoreOf m)).sum) ∧
      member c!"totalvoters" doc = some (.int (m.votelines.map Voteline.qty).sum) ∧
      member c!"round1winners" doc = some (texts [f1, f2]) ∧
      member c!"fin1" doc = some (.str f1) ∧ member c!"fin2" doc = some (.str f2) ∧
      member c!"fin1n" doc = some (textOrNull n1) ∧ member c!"fin2n" doc = some (textOrNull n2) ∧
      member c!"fin1votes" doc = some (.int (support m f1 f2)) ∧ member c!"fin2votes" doc = some (.int (support m f2 f1)) ∧
      member c!"final_abstentions" doc = some (.int (qtySum (fun vl => indifferent vl f1 f2) m.votelines)) ∧
      (support m f2 f1 < support m f1 f2 → member c!"winner" doc = some (textOrNull n1)) ∧
      (support m f1 f2 < support m f2 f1 → member c!"winner" doc = some (textOrNull n2)) ∧
      (support m f1 f2 = support m f2 f1 → member c!"winner" doc = some (.str (tieText n1 n2))) := by
  obtain ⟨r, hstar, _, _, _, hn1, hn2, _, _, hv1, hv2, hw, habs, _⟩ := C26_star m hs hr hbc h2
  obtain ⟨hb, rest, hrl⟩ := starResult_base hstar
  obtain ⟨b, hb', hperm, hsort, _, hranks, htot, htv⟩ := C25_ranking m hs _ hbc
  rw [hb] at hb'
  cases hb'
  have hscores : r.base.scores = m.candidates.map (fun kv => (kv.1, ({ candname := kv.2, score := scoreOf m kv.1, votercount := ratersOf m kv.1 } : ScoreEntry))) := by
    have e := enhancedScore_eq m hs _ hbc
    rw [hb] at e
    simp only [Except.ok.injEq] at e
    rw [e]
  rw [hrl] at hperm hsort
  refine ⟨starDoc r, r.fin1, r.fin2, rest, r.fin1n, r.fin2n, prints_of h (star_distinct hs.cands hstar) ?_, rfl, hperm, hsort, hn1, hn2, ?_,
    ?_, ?_, ?_, ?_, rfl, rfl, ?_, ?_, ?_, ?_, ?_, ?_, ?_, ?_⟩
  · rw [ht]
    have := WrittenAs.jsonStar (env := env) (width := a.width) (m := m) hi hp hst
    rw [hstar] at this
    exact this
  · intro x n hx
    have hmem : x ∈ Dict.keys m.candidates := Dict.mem_keys_of_get? hx
    have e0 : member c!"scores" (starDoc r) = some (.obj (r.base.scores.map (scoreEntryJson r.base.ranks))) := rfl
    have hrank : Dict.get? r.base.ranks x = some (denseRank (m.candidates.keys.map (scoreOf m)) (scoreOf m x)) := by
      rw [hranks, Dict.get?_mapKeys r.base.ranklist (fun c => denseRank (m.candidates.keys.map (scoreOf m)) (scoreOf m c)),
        if_pos (by rw [hrl]; exact hperm.mem_iff.2 hmem)]
    have e1 : Dict.get? (r.base.scores.map (scoreEntryJson r.base.ranks)) x =
        some (.obj ([(c!"candname", optStrJson n), (c!"score", .int (scoreOf m x)), (c!"votercount", .int (ratersOf m x))] ++
          [(c!"rank", .int (denseRank (m.candidates.keys.map (scoreOf m)) (scoreOf m x)))])) := by
      rw [hscores, List.map_map]
      have key := Dict.get?_map m.candidates (fun (k : Str) (n : Option Str) => (scoreEntryJson r.base.ranks
        (k, ({ candname := n, score := scoreOf m k, votercount := ratersOf m k } : ScoreEntry))).2) x
      rw [hx] at key
      refine Eq.trans key ?_
      simp only [Option.map_some, scoreEntryJson, hrank]
    simp only [valueAt, e0, Option.bind_some, member_obj, e1]
    cases n <;> rfl
  · show some (strsJson r.base.ranklist) = _
    rw [hrl]; rfl
  · show some (Json.int r.base.totalAllScores) = _
    rw [htot]
  · show some r.base.totalvoters = _
    rw [htv]
  · show some (strsJson (r.base.ranklist.take 2)) = _
    rw [hrl]; rfl
  · show some (optStrJson r.fin1n) = _
    cases r.fin1n <;> rfl
  · show some (optStrJson r.fin2n) = _
    cases r.fin2n <;> rfl
  · show some (Json.int r.fin1votes) = _
    rw [hv1]
  · show some (Json.int r.fin2votes) = _
    rw [hv2]
  · show some (Json.int r.finalAbstentions) = _
    rw [habs]
  all_goals
    intro hlt
    show some r.winner.toJson = _
    rw [hv1, hv2] at hw
    rcases hw with ⟨e, hc⟩ | ⟨e, hc⟩ | ⟨e, hc⟩
    · first
        | (exfalso; omega)
        | (rw [e]; cases r.fin1n <;> rfl)
    · first
        | (exfalso; omega)
        | (rw [e]; cases r.fin2n <;> rfl)
    · first
        | (exfalso; omega)
        | (rw [e]; cases r.fin1n <;> cases r.fin2n <;> rfl)

/-! ### IRV -/

/-- the JSON object `o` shows the metadata of a round: the numbers and lists as they are, sets as lists in some order;
`bottomtie` and `winner` only if there is one, the two remarks on the elimination only if true -/
structure ShowsRound (o : Json) (rm : RoundMeta) : Prop where
  roundnum : member c!"roundnum" o = some (.int rm.roundnum)
  startingqty : member c!"startingqty" o = some (.int rm.startingqty)
  exhaustedqty : member c!"exhaustedqty" o = some (.int rm.exhaustedqty)
  overvoteqty : member c!"overvoteqty" o = some (.int rm.overvoteqty)
  ballotcount : member c!"ballotcount" o = some (.int rm.ballotcount)
  countedqty : member c!"countedqty" o = some (.int rm.countedqty)
  bottomPer : member c!"bottom_votes_percand" o = some (.int rm.bottomVotesPercand)
  leadingPer : member c!"leading_votes_percand" o = some (.int rm.leadingVotesPercand)
  penultPer : member c!"penultimate_votes_percand" o = some (.int rm.penultimateVotesPercand)
  startingCands : member c!"starting_cands" o = some (texts rm.startingCands)
  topQty : member c!"top_voteqty" o = some (.int rm.topVoteqty)
  bottomQty : member c!"bottom_voteqty" o = some (.int rm.bottomVoteqty)
  tie : member c!"bottomtie" o = rm.bottomtie.map texts
  tieList : member c!"tiecandlist" o = rm.bottomtie.map texts
  batch : member c!"batch_elim" o = if rm.batchElim then some (.bool true) else none
  random : member c!"random_elim" o = if rm.randomElim then some (.bool true) else none
  eliminated : ∃ l, List.Perm l rm.eliminated ∧ (rm.winner = none → l = rm.eliminated) ∧ member c!"eliminated" o = some (texts l)
  allEliminated : ∃ l, List.Perm l rm.allEliminated ∧ member c!"all_eliminated" o = some (texts l)
  winner : member c!"winner" o = rm.winner.map texts

theorem showsRound (L : SetListing) (n : Nat) (rm : RoundMeta) : ShowsRound (rm.toJson L n) rm := by
  obtain ⟨a1, a2, a3, a4, a5, a6, a7, a8, a9, a10, a11, a12, bt, be, re, el, ae, w⟩ := rm
  refine ⟨?_, ?_, ?_, ?_, ?_, ?_, ?_, ?_, ?_, ?_, ?_, ?_, ?_, ?_, ?_, ?_, ?_, ?_, ?_⟩
  case refine_17 =>
    refine ⟨if w.isSome then L.order (2 * n) el else el, ?_, ?_, ?_⟩
    · split
      · exact L.perm _ _
      · exact List.Perm.refl _
    · intro hw
      simp only at hw
      rw [hw]
      rfl
    · rcases bt with _ | bt <;> rcases w with _ | w <;> cases be <;> cases re <;> rfl
  case refine_18 =>
    refine ⟨L.order (2 * n + 1) ae, L.perm _ _, ?_⟩
    rcases bt with _ | bt <;> rcases w with _ | w <;> cases be <;> cases re <;> rfl
  all_goals
    rcases bt with _ | bt <;> rcases w with _ | w <;> cases be <;> cases re <;> rfl

theorem getElem?_roundmetaJson (L : SetListing) (n : Nat) (rs : List RoundMeta) (k : Nat) :
    (roundmetaJson L n rs)[k]? = (rs[k]?).map (fun r => r.toJson L (n + k)) := by
  induction rs generalizing n k with
  | nil => rfl
  | cons r rs ih =>
    cases k with
    | zero => rfl
    | succ k =>
      unfold roundmetaJson
      rw [List.getElem?_cons_succ, List.getElem?_cons_succ, ih]
      congr 1
      funext r
      congr 1
      omega

/-- C90, IRV.  `-t irvjson`, and `-t json` (or `paircountjson`) with the IRV modifier, print an object that shows exactly the
result of the count: the candidates' names, the winners, the votes of every round, the metadata of every round. -/
theorem C90_irv (env : CliEnv) (a : CliArgs) (mods : List Str) (m : Jabmod) (d : IrvDict) (h : RunsOn env a mods m)
    (hk : (Dict.keys m.candidates).Nodup) (hd : irvDict env.sched m = .ok d)
    (ht : a.to = c!"irvjson" ∨ (a.to = c!"json" ∨ a.to = c!"paircountjson") ∧ c!"IRV" ∈ mods) :
    ∃ doc, PrintsDoc env a doc ∧
      keysOf doc = [c!"canddict", c!"winner", c!"rounds", c!"roundmeta", c!"winnerstr", c!"has_tie"] ∧
      (∃ o, member c!"canddict" doc = some o ∧ keysOf o = Dict.keys m.candidates ∧
        ∀ x n, Dict.get? m.candidates x = some n → member x o = some (textOrNull n)) ∧
      member c!"winner" doc = some (texts d.run.winner) ∧ member c!"winnerstr" doc = some (textOrNull d.winnerstr) ∧
      member c!"has_tie" doc = some (.bool d.hasTie) ∧
      (∀ (k : Nat) (cnt : Dict Str Int), d.run.rounds[k]? = some cnt → ∃ o, valueAt doc [.key c!"rounds", .idx k] = some o ∧
        keysOf o = Dict.keys cnt ∧ ∀ x v, Dict.get? cnt x = some v → member x o = some (.int v)) ∧
      (∀ (k : Nat) (rm : RoundMeta), d.run.roundmeta[k]? = some rm → ∃ o, valueAt doc [.key c!"roundmeta", .idx k] = some o ∧ ShowsRound o rm) ∧
      (∀ k, d.run.rounds.length ≤ k → valueAt doc [.key c!"rounds", .idx k] = none) ∧
      (∀ k, d.run.roundmeta.length ≤ k → valueAt doc [.key c!"roundmeta", .idx k] = none) := by
  refine ⟨irvDoc env.listing m.candidates d, prints_of h (irv_distinct hk hd) ?_, rfl, ?_, rfl, ?_, rfl, ?_, ?_, ?_, ?_⟩
  · rcases ht with ht | ⟨ht, hi⟩
    · rw [ht]
      have := WrittenAs.irvjson (env := env) (width := a.width) (mods := mods) (m := m)
      rw [hd] at this
      exact this
    · have := WrittenAs.jsonIrv (env := env) (width := a.width) (m := m) a.to ht hi
      rw [hd] at this
      exact this
  · refine ⟨namesJson m.candidates, rfl, ?_, ?_⟩
    · unfold namesJson keysOf
      simp only [List.map_map]
      rfl
    · intro x n hx
      unfold namesJson
      rw [member_obj, get?_mapJson optStrJson, hx]
      cases n <;> rfl
  · show some (optStrJson d.winnerstr) = _
    cases d.winnerstr <;> rfl
  · intro k cnt hc
    refine ⟨.obj (cnt.map fun cv => (cv.1, .int cv.2)), ?_, ?_, ?_⟩
    · show ((d.run.rounds.map fun cs => Json.obj (cs.map fun cv => (cv.1, .int cv.2)))[k]?).bind (fun v => valueAt v []) = _
      rw [List.getElem?_map, hc]
      rfl
    · unfold keysOf
      simp only [List.map_map]
      rfl
    · intro x v hx
      rw [member_obj, get?_mapJson Json.int, hx]
      rfl
  · intro k rm hrm
    refine ⟨rm.toJson env.listing (0 + k), ?_, showsRound _ _ _⟩
    show ((roundmetaJson env.listing 0 d.run.roundmeta)[k]?).bind (fun v => valueAt v []) = _
    rw [getElem?_roundmetaJson, hrm]
    rfl
  · intro k hlen
    show ((d.run.rounds.map fun cs => Json.obj (cs.map fun cv => (cv.1, .int cv.2)))[k]?).bind (fun v => valueAt v []) = _
    rw [List.getElem?_map, List.getElem?_eq_none hlen]
    rfl
  · intro k hlen
    show ((roundmetaJson env.listing 0 d.run.roundmeta)[k]?).bind (fun v => valueAt v []) = _
    rw [getElem?_roundmetaJson, List.getElem?_eq_none hlen]
    rfl

/-! ### every JSON output is JSON -/

/-- the output is one of the JSON formats, with a modifier that chooses for `-t json` -/
def AsksJson (a : CliArgs) (mods : List Str) : Prop :=
  a.to ∈ [c!"irvjson", c!"paircountjson", c!"winlosstiejson", c!"jabmod"] ∨
  a.to = c!"json" ∧ (c!"IRV" ∈ mods ∨ c!"pairwise" ∈ mods ∨ c!"STAR" ∈ mods)

theorem jsonOutput_doc {env : CliEnv} {a : CliArgs} {mods : List Str} {m : Jabmod} {out : Str} (hm : InForce a mods) (hk : KeysOk m)
    (hj : AsksJson a mods) (h : cliOutput env a m = .ok out) : ∃ doc, DistinctKeys doc ∧ out = doc.dumpsIndent := by
  have key : ∀ {o : Except PyErr Str}, WrittenAs env a.width mods m a.to o → o = .ok out := by
    intro o ho
    rw [← writtenAs_eq hm ho, h]
  have irv : ∀ {t : Except PyErr Str}, t = .ok out → t = (do let d ← irvDict env.sched m; .ok (irvDoc env.listing m.candidates d).dumpsIndent) →
      ∃ doc, DistinctKeys doc ∧ out = doc.dumpsIndent := by
    intro t ht e
    rw [ht] at e
    obtain ⟨d, hd, e⟩ := bind_ok.1 e.symm
    cases e
    exact ⟨_, irv_distinct hk.cands hd, rfl⟩
  have pairs : Except.ok (pairsDoc (pairwiseCount m)).dumpsIndent = (Except.ok out : Except PyErr Str) →
      ∃ doc, DistinctKeys doc ∧ out = doc.dumpsIndent := by
    intro e
    cases e
    exact ⟨_, pairs_distinct hk.cands, rfl⟩
  have hkey := @key
  rcases hj with hj | ⟨ht, hj⟩
  · simp only [List.mem_cons, List.not_mem_nil, or_false] at hj
    rcases hj with ht | ht | ht | ht
    · rw [ht] at hkey
      exact irv (hkey .irvjson) rfl
    · rw [ht] at hkey
      by_cases hi : c!"IRV" ∈ mods
      · exact irv (hkey (.jsonIrv _ (.inr rfl) hi)) rfl
      · exact pairs (hkey (.paircountjson hi))
    · rw [ht] at hkey
      have e := hkey .winlosstiejson
      obtain ⟨w, hw, e⟩ := bind_ok.1 e
      cases e
      exact ⟨_, wlt_distinct (winLossTie_wf hk.cands hw), rfl⟩
    · rw [ht] at hkey
      have e := hkey .jabmod
      cases e
      exact ⟨_, jabmod_distinct hk, rfl⟩
  · rw [ht] at hkey
    by_cases hi : c!"IRV" ∈ mods
    · exact irv (hkey (.jsonIrv _ (.inl rfl) hi)) rfl
    · by_cases hp : c!"pairwise" ∈ mods
      · exact pairs (hkey (.jsonPairs hi hp))
      · have hs : c!"STAR" ∈ mods := by
          rcases hj with hj | hj | hj
          · exact absurd hj hi
          · exact absurd hj hp
          · exact hj
        have e := hkey (.jsonStar hi hp hs)
        obtain ⟨r, hr, e⟩ := bind_ok.1 e
        cases e
        exact ⟨_, star_distinct hk.cands hr, rfl⟩

/-- C90: whatever the input (any format, any number of files), a run with a JSON output format that ends well prints one JSON
document. -/
theorem C90_valid (env : CliEnv) (hl : env.loads = loadModel) (a : CliArgs) (mods : List Str) (fmt : Str) (hf : cliFormat a = .ok fmt)
    (hv : fmt ∈ validInFmts) (hm : InForce a mods) (hj : AsksJson a mods) (out : Str) (h : cliMain env a = ⟨out, .ok ()⟩) :
    ∃ doc, jsonLoads out = .ok doc := by
  obtain ⟨s, blobs, m, h3, h4⟩ := cliMain_model (env := env) (a := a) hf hv (by rw [h])
  have hm0 : KeysOk m := cliModel_keys hl h4
  have hm' : KeysOk (if c!"consolidate" ∈ cliModifiers a then consolidate m else m) := by
    split
    · exact consolidate_keys hm0
    · exact hm0
  rw [cliMain_ok hf hv h3 h4] at h
  cases ho : cliOutput env a (if c!"consolidate" ∈ cliModifiers a then consolidate m else m) with
  | error e => rw [ho] at h; cases h
  | ok o =>
    rw [ho] at h
    cases h
    obtain ⟨doc, hd, rfl⟩ := jsonOutput_doc hm hm' hj ho
    refine ⟨doc, ?_⟩
    have := (C72_dumps doc hd [] c!"\n" (by intro c hc; cases hc) (by intro c hc; rw [List.mem_singleton.1 hc]; simp)).2
    simpa using this

/-- C90 is refuted for `-t json` without a modifier that chooses (for instance without `-m`): every such run prints a sentence
that is not JSON, and ends as if all was well. -/
theorem C90_choose_refuted (env : CliEnv) (a : CliArgs) (mods : List Str) (m : Jabmod) (h : RunsOn env a mods m) (ht : a.to = c!"json")
    (h1 : c!"IRV" ∉ mods) (h2 : c!"pairwise" ∉ mods) (h3 : c!"STAR" ∉ mods) :
    ∃ out, cliMain env a = ⟨out, .ok ()⟩ ∧ ∀ doc, jsonLoads out ≠ .ok doc := by
  obtain ⟨hm, fmt, text, m0, hf, hi, hr, e⟩ := h
  refine ⟨c!"Please specify modifier or choose 'jabmod' output format\n", ?_, ?_⟩
  · have ef : cliFormat a = .ok fmt := by unfold cliFormat; rw [hf]
    obtain ⟨blobs, ei⟩ : ∃ blobs, cliInput env a = .ok (text, blobs) := by
      rcases hi with ⟨h1, h2⟩ | ⟨f, h0, h1, h2⟩
      · exact ⟨[], by unfold cliInput; rw [if_pos h1, h2]⟩
      · refine ⟨[text], ?_⟩
        unfold cliInput
        rw [if_neg (by rw [h1]; simpa using h0), h1]
        unfold readFiles
        rw [h2]
        rfl
    obtain ⟨hv, em⟩ := readAs_eq hm hr blobs
    rw [cliMain_ok ef hv ei em, C80_choose env a mods _ hm ht h1 h2 h3]
    rfl
  · intro doc hd
    have : (jsonLoads c!"Please specify modifier or choose 'jabmod' output format\n").toOption.isNone = true := by decide +kernel
    rw [hd] at this
    cases this

end Verif.Props

/-! ### non-vacuity -/

namespace Verif.Props
open Verif Verif.Spec
section
attribute [local instance] Uni.ascii
set_option maxRecDepth 40000

/-- three voters, ratings included -/
def jsonText : Str := c!"2:A/5>B/3>C/0\n1:C/4>B/1\n"

/-- the same environment as in Props/Cli with this text as standard input -/
def jsonEnv : CliEnv := { exCli with stdin := jsonText }

def jsonArgs (t : Str) (mods : List Str) : CliArgs := { files := [c!"-"], fromfmt := some c!"abif", «to» := t, modifier := some mods }

theorem jsonText_reads : (convertAbif false false false jsonText).toOption.map (fun m => (m.candidates.keys, m.votelines.map Voteline.qty)) =
    some ([c!"A", c!"B", c!"C"], [2, 1]) := by decide +kernel

/-- the run that reads it -/
theorem json_runsOn (t : Str) (mods : List Str) (h0 : mods ≠ []) (h1 : c!"consolidate" ∉ mods) (h2 : c!"jcomments" ∉ mods) :
    ∃ m, convertAbif false false false jsonText = .ok m ∧ RunsOn jsonEnv (jsonArgs t mods) mods m := by
  cases hm : convertAbif false false false jsonText with
  | error e =>
    have := jsonText_reads
    rw [hm] at this
    cases this
  | ok m =>
    refine ⟨m, rfl, .given mods h0 rfl, c!"abif", jsonText, m, rfl, .inl ⟨rfl, rfl⟩, ?_, by rw [if_neg h1]⟩
    rw [← hm]
    exact .abif h2

example : (cliMain jsonEnv (jsonArgs c!"paircountjson" [c!"candlist"])).out = c!"{\n    \"A\": {\n        \"A\": null,\n        \"B\": 2,\n        \"C\": 2\n    },\n    \"B\": {\n        \"A\": 1,\n        \"B\": null,\n        \"C\": 2\n    },\n    \"C\": {\n        \"A\": 1,\n        \"B\": 1,\n        \"C\": null\n    }\n}\n" := by
  decide +kernel

-- the hypotheses of C90_pairs, C90_wlt_partial, C90_star and C90_irv hold on this run
example : ∃ doc, PrintsDoc jsonEnv (jsonArgs c!"paircountjson" [c!"candlist"]) doc ∧ valueAt doc [.key c!"B", .key c!"C"] = some (.int 2) := by
  obtain ⟨m, hm, hr⟩ := json_runsOn c!"paircountjson" [c!"candlist"] (by decide) (by decide) (by decide)
  have hk := jsonText_reads
  rw [hm] at hk
  simp only [Except.toOption, Option.map_some, Option.some.injEq, Prod.mk.injEq] at hk
  obtain ⟨doc, h1, _, _, h4⟩ := C90_pairs jsonEnv _ _ m hr (parsed_cands_nodup _ _ _ _ m hm) (parsed_allRanked _ _ _ _ m hm (by decide)) (.inl rfl) (by decide)
  refine ⟨doc, h1, ?_⟩
  rw [h4 c!"B" (by rw [hk.1]; decide) c!"C" (by rw [hk.1]; decide), if_neg (by decide)]
  have e : (convertAbif false false false jsonText).toOption.map (fun m => support m c!"B" c!"C") = some 2 := by decide +kernel
  rw [hm] at e
  simp only [Except.toOption, Option.map_some, Option.some.injEq] at e
  rw [e]
example : ∃ doc, PrintsDoc jsonEnv (jsonArgs c!"json" [c!"STAR"]) doc ∧
    valueAt doc [.key c!"scores", .key c!"C", .key c!"score"] = some (.int 4) := by
  obtain ⟨m, hm, hr⟩ := json_runsOn c!"json" [c!"STAR"] (by decide) (by decide) (by decide)
  obtain ⟨doc, _, _, _, _, _, h1, _, _, _, _, _, h2, _⟩ := C90_star jsonEnv _ _ m hr (parsed_scorable _ _ _ _ m hm) (parsed_allRanked _ _ _ _ m hm (by decide))
    (C01_ballotcount _ _ _ _ m hm).1 (by
      have hk := jsonText_reads
      rw [hm] at hk
      simp only [Except.toOption, Option.map_some, Option.some.injEq, Prod.mk.injEq] at hk
      have := congrArg List.length hk.1
      simp [Dict.keys] at this
      omega) rfl (by decide) (by decide) (by decide)
  refine ⟨doc, h1, ?_⟩
  have e : (convertAbif false false false jsonText).toOption.map (fun m => (scoreOf m c!"C", Dict.get? m.candidates c!"C")) = some (4, some (some c!"C")) := by
    decide +kernel
  rw [hm] at e
  simp only [Except.toOption, Option.map_some, Option.some.injEq, Prod.mk.injEq] at e
  have h3 := h2 _ _ e.2
  simp only [valueAt, Option.bind_some] at h3 ⊢
  cases hs : member c!"scores" doc with
  | none => rw [hs] at h3; cases h3
  | some o =>
    rw [hs] at h3
    simp only [Option.bind_some] at h3 ⊢
    cases hc : member c!"C" o with
    | none => rw [hc] at h3; cases h3
    | some o' =>
      rw [hc] at h3
      simp only [Option.bind_some, Option.some.injEq] at h3 ⊢
      subst h3
      rw [e.1]
      rfl
example : ∃ doc, PrintsDoc jsonEnv (jsonArgs c!"irvjson" [c!"candlist"]) doc ∧ member c!"has_tie" doc ≠ none := by
  obtain ⟨m, hm, hr⟩ := json_runsOn c!"irvjson" [c!"candlist"] (by decide) (by decide) (by decide)
  have hne : m.candidates ≠ [] := by
    intro h0
    have hk := jsonText_reads
    rw [hm] at hk
    simp [Except.toOption, h0, Dict.keys] at hk
  obtain ⟨d, hd, _⟩ := C28_parsed jsonEnv.sched _ _ _ _ m hm hne
  obtain ⟨doc, h1, _, _, _, _, h2, _⟩ := C90_irv jsonEnv _ _ m d hr (parsed_cands_nodup _ _ _ _ m hm) hd (.inl rfl)
  exact ⟨doc, h1, by rw [h2]; simp⟩

end
end Verif.Props
