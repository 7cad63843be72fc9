/-
C121: ranked ballots with `--add-scores`.  The scores are Borda counts, in terms of what is written on the ballots; without ties they
are the row sums of the pairwise matrix.  Vocabulary: `Verif.Spec.Paper`, `Verif.Spec.Borda`.
-/
import Verif.Lib.Borda
import Verif.Props.PaperText
import Mathlib.Tactic.Ring

set_option linter.unusedSimpArgs false
set_option linter.unusedSectionVars false

namespace Verif.Props
open Spec

section
variable [U : Uni]

theorem forall₂_weaken {α β : Type} {R S : α → β → Prop} {as : List α} {bs : List β} (f : List.Forall₂ R as bs)
    (h : ∀ a b, b ∈ bs → R a b → S a b) : List.Forall₂ S as bs := by
  induction f with
  | nil => exact .nil
  | cons g _ ih => exact .cons (h _ _ (by simp) g) (ih (fun a b hb => h a b (by simp [hb])))

/-- the points of a rank among `n` candidates -/
def rankPoints (n : Nat) : Option Int → Int
  | some r => (n : Int) - r
  | none => 0

/-- reading with `add_ratings` a text without ratings: every listed candidate is rated by its rank -/
theorem added_points {cw sc : Bool} {text : Str} {m' : Jabmod} (h : convertAbif cw false sc text = .ok m')
    (hno : ∀ u ∈ m'.votelines, ∀ e ∈ u.prefs, e.2.rating = none) :
    ∃ m, convertAbif cw true sc text = .ok m ∧ m.candidates = m'.candidates ∧
      Dict.get? m.metadata c!"ballotcount" = Dict.get? m'.metadata c!"ballotcount" ∧
      List.Forall₂ (fun v v' : Voteline => v.qty = v'.qty ∧ (∀ c, rankOf v c = rankOf v' c) ∧
        ∀ c, ratingOf v c = rankPoints m'.candidates.length (rankOf v' c)) m.votelines m'.votelines := by
  rcases C12_add_ratings cw sc text with ⟨e, _, h2⟩ | ⟨m, m'', h1, h2, h3, h4, h5⟩
  · rw [h] at h2; cases h2
  · rw [h] at h2
    obtain rfl := Except.ok.inj h2
    refine ⟨m, h1, h3, h4 _ (by decide), ?_⟩
    have hnone : ¬ ∃ u ∈ m'.votelines, ∃ e ∈ u.prefs, e.2.rating.isSome = true := by
      rintro ⟨u, hu, e, he, hs⟩
      rw [hno u hu e he] at hs
      cases hs
    have hranked : ∀ u ∈ m'.votelines, ∀ c p, u.prefs.get? c = some p → ∃ r, p.rank = some r := fun u hu c p hc => by
      obtain ⟨_, r, hr, _⟩ := convertAbif_entries h u hu c p hc
      exact ⟨r, hr⟩
    clear h1 h2 h3 h4 hno
    revert hranked
    generalize hv' : m'.votelines = vs' at h5
    generalize m.votelines = vs at h5
    rw [hv'] at hnone
    clear hv'
    intro hranked
    have key : ∀ v v' : Voteline, v' ∈ vs' → ({ v with prefs := v'.prefs } = v' ∧ v.prefs.keys = v'.prefs.keys ∧
        ∀ c p', v'.prefs.get? c = some p' → ∃ p, v.prefs.get? c = some p ∧ p.rank = p'.rank ∧ p.nextdelim = p'.nextdelim ∧
          p.rating = (if (∃ u ∈ vs', ∃ e ∈ u.prefs, e.2.rating.isSome = true) then some (p'.rating.getD (.int 0))
            else (p'.rank.map (fun r => RVal.int (m'.candidates.length - r))))) →
        (v.qty = v'.qty ∧ (∀ c, rankOf v c = rankOf v' c) ∧ ∀ c, ratingOf v c = rankPoints m'.candidates.length (rankOf v' c)) := by
      rintro v v' hm ⟨g1, g2, g3⟩
      refine ⟨by rw [← g1], ?_, ?_⟩
      · intro c
        unfold rankOf
        cases hc : v'.prefs.get? c with
        | none =>
          have : v.prefs.get? c = none := Dict.get?_eq_none.2 (by rw [g2]; exact Dict.get?_eq_none.1 hc)
          rw [this]
        | some p' =>
          obtain ⟨p, e1, e2, _⟩ := g3 c p' hc
          rw [e1]
          exact e2
      · intro c
        unfold rankOf ratingOf
        cases hc : v'.prefs.get? c with
        | none =>
          have : v.prefs.get? c = none := Dict.get?_eq_none.2 (by rw [g2]; exact Dict.get?_eq_none.1 hc)
          rw [this]
          rfl
        | some p' =>
          obtain ⟨p, e1, e2, _, e4⟩ := g3 c p' hc
          obtain ⟨r, hr⟩ := hranked v' hm c p' hc
          rw [if_neg hnone, hr] at e4
          rw [e1]
          simp only [e4]
          show _ = rankPoints _ p'.rank
          rw [hr]
          rfl
    exact forall₂_weaken h5 key

theorem paper_unrated {p : List PaperLine} (h : PaperOk p) (hr : PaperRanked p) {vls : List Voteline}
    (f : List.Forall₂ (fun v vl => HoldsBallots v vl ∧ HoldsRanks v vl) (paperVotes p) vls) : ∀ u ∈ vls, ∀ e ∈ u.prefs, e.2.rating = none := by
  have hok := paper_votesOk h
  unfold PaperRanked at hr
  revert hok hr
  generalize paperVotes p = votes at f
  induction f with
  | nil => intro _ _ u hu; cases hu
  | cons g _ ih =>
    rename_i v vl vs us _
    intro hr hok u hu
    rcases List.mem_cons.1 hu with rfl | hu
    · intro e he
      obtain ⟨⟨_, _, hk, hv⟩, _⟩ := g
      have hnd := (hok v (by simp)).nodup
      have hmem : e.1 ∈ Dict.keys u.prefs := List.mem_map_of_mem he
      rw [hk] at hmem
      obtain ⟨it, hit, e1⟩ := List.mem_map.1 hmem
      obtain ⟨pr, h1, h2⟩ := hv it hit
      have hg : Dict.get? u.prefs e.1 = some e.2 := Dict.get?_of_mem (by unfold Dict.WF; rw [hk]; exact hnd) he
      rw [← e1, h1] at hg
      rw [← Option.some.inj hg, h2]
      obtain ⟨tiers, ht, hno⟩ := hr v (by simp)
      have := hno it (by rw [ht] at hit; exact hit)
      unfold Item.value
      rw [this]
    · exact ih (fun v hv => hr v (by simp [hv])) (fun v hv => hok v (by simp [hv])) u hu

theorem borda_rank {b : Ballot} {tiers : List (List Item)} (ht : b = .ranked tiers) (n : Nat) (x : Str) :
    rankPoints n (tierRankAt tiers 0 x) = b.borda n x := by
  subst ht
  unfold Ballot.borda
  rw [tierRankAt_above]
  simp only
  by_cases hx : x ∈ tiers.flatten.map Item.tok
  · rw [if_pos hx, if_pos hx]
    show (n : Int) - _ = _
    omega
  · rw [if_neg hx, if_neg hx]
    rfl

/-- what `--add-scores` reads of a paper with ranked ballots -/
theorem paper_added {p : List PaperLine} (h : PaperOk p) (hr : PaperRanked p) (cw : Bool) :
    ∃ m, convertAbif cw true false (paperText p) = .ok m ∧ (∀ x, scoreOf m x = paperBorda p x) ∧ (∀ x, ratersOf m x = (paperBordaVoters p x : Int)) ∧
      (∀ x y, support m x y = (paperPrefers p x y : Int)) ∧ (m.votelines.map Voteline.qty).sum = (paperCount p : Int) ∧
      Dict.keys m.candidates = paperCands p ∧ (∀ x ∈ paperCands p, Dict.get? m.candidates x = some (some (paperName p x))) := by
  obtain ⟨m', _, k1, _, _, k4, k5, _⟩ := convertAbif_paper h cw
  obtain ⟨vls, f, hp⟩ := convertAbif_ranks h k1
  have hno := paper_unrated h hr f
  obtain ⟨m, g1, g2, _, g4⟩ := added_points k1 (fun u hu => hno u (hp.mem_iff.1 hu))
  have hlen : m'.candidates.length = (paperCands p).length := by
    rw [← k4]; unfold Dict.keys; rw [List.length_map]
  rw [hlen] at g4
  have fb : List.Forall₂ HoldsBallots (paperVotes p) vls := f.imp (fun _ _ g => g.1)
  have hpts : List.Forall₂ (fun (v : Nat × Ballot) (vl : Voteline) => vl.qty = (v.1 : Int) ∧
      ∀ x, rankPoints (paperCands p).length (rankOf vl x) = v.2.borda (paperCands p).length x) (paperVotes p) vls := by
    unfold PaperRanked at hr
    generalize hn : (paperCands p).length = n
    revert hr
    clear hno hp fb
    generalize paperVotes p = votes at f
    induction f with
    | nil => exact fun _ => .nil
    | cons g _ ih =>
      rename_i v vl vs us _
      intro hr
      refine .cons ⟨g.1.1, fun x => ?_⟩ (ih (fun v hv => hr v (by simp [hv])))
      obtain ⟨tiers, ht, _⟩ := hr v (by simp)
      rw [g.2 tiers ht, borda_rank ht]
  have sums : ∀ (F G : Voteline → Int), (∀ v v', v.qty = v'.qty ∧ (∀ c, rankOf v c = rankOf v' c) ∧
      (∀ c, ratingOf v c = rankPoints (paperCands p).length (rankOf v' c)) → F v = G v') → (m.votelines.map F).sum = (m'.votelines.map G).sum := by
    intro F G hFG
    clear hlen
    generalize m.votelines = a at g4
    generalize m'.votelines = b at g4
    induction g4 with
    | nil => rfl
    | cons g _ ih => rw [List.map_cons, List.map_cons, List.sum_cons, List.sum_cons, hFG _ _ g, ih]
  have qsum : ∀ (P : Voteline → Bool) (vs : List Voteline), qtySum P vs = (vs.map (fun v => if P v then v.qty else 0)).sum := by
    intro P vs
    unfold qtySum
    induction vs with
    | nil => rfl
    | cons v vs ih =>
      rw [List.map_cons, List.sum_cons, ← ih]
      by_cases hv : P v = true
      · rw [List.filter_cons_of_pos hv, if_pos hv, List.map_cons, List.sum_cons]
      · rw [List.filter_cons_of_neg hv, if_neg hv]; simp
  refine ⟨m, g1, ?_, ?_, ?_, ?_, by rw [g2]; exact k4, by rw [g2]; exact k5⟩
  · intro x
    unfold scoreOf
    rw [sums _ (fun v' => v'.qty * rankPoints (paperCands p).length (rankOf v' x)) (fun v v' hv => by rw [hv.1, hv.2.2]), perm_sum (hp.map _)]
    unfold paperBorda
    generalize (paperCands p).length = n at hpts
    generalize paperVotes p = votes at hpts
    clear hp hno f fb
    induction hpts with
    | nil => rfl
    | cons g _ ih => rw [List.map_cons, List.map_cons, List.sum_cons, List.sum_cons, ih, g.1, g.2]
  · intro x
    unfold ratersOf paperBordaVoters paperSum
    rw [qsum, sums _ (fun v' => if decide (0 < rankPoints (paperCands p).length (rankOf v' x)) then v'.qty else 0)
      (fun v v' hv => by rw [hv.1, hv.2.2]), perm_sum (hp.map _), ← qsum (fun v' => decide (0 < rankPoints (paperCands p).length (rankOf v' x)))]
    exact paper_qty (P := fun v' : Voteline => decide (0 < rankPoints (paperCands p).length (rankOf v' x)))
      (q := fun b : Ballot => decide (0 < b.borda (paperCands p).length x)) (hpts.imp (fun _ _ g => ⟨g.1, by simp only [g.2]⟩))
  · intro x y
    have e : support m x y = support m' x y := by
      unfold support
      rw [qsum, qsum]
      refine sums _ _ (fun v v' hv => ?_)
      have : prefers v x y = prefers v' x y := by unfold prefers; rw [hv.2.1, hv.2.1]
      rw [this, hv.1]
    rw [e]
    exact paper_support fb hp x y
  · rw [sums _ Voteline.qty (fun v v' hv => hv.1)]
    exact paper_total fb hp

/-- `abiftool --add-scores -f abif -t FORMAT -m MODIFIER FILE` -/
def scoresCommand (format modifier file : Str) : List Str := [c!"--add-scores", c!"-f", c!"abif", c!"-t", format, c!"-m", modifier, file]

/-- what the command asks for -/
theorem scoresCommand_parsed {format modifier file : Str} (hv : (Use.out format).Valid) (hm : (Use.mod modifier).Valid) (hf : PlainWord file) :
    ∃ a, parseArgv (scoresCommand format modifier file) = .ok a ∧ a.files = [file] ∧ a.fromfmt = some c!"abif" ∧ a.to = format ∧
      a.modifier = some [modifier] ∧ a.cleanws = false ∧ a.addScores = true := by
  have hplain : ∀ v ∈ [c!"abif", c!"csvrank", c!"dot", c!"html", c!"html_snippet", c!"irvjson", c!"jabmod", c!"json", c!"nameq",
      c!"paircountjson", c!"svg", c!"text", c!"winlosstiejson"], v.head? ≠ some '-' := by decide
  have hmod : ∀ v ∈ [c!"candlist", c!"Copeland", c!"consolidate", c!"IRV", c!"jcomments", c!"pairwise", c!"score", c!"STAR", c!"svg",
      c!"winlosstie"], v.head? ≠ some '-' := by decide
  have hall : WritesAll ([.addScores] ++ ([.from c!"abif"] ++ ([.out format] ++ ([.mod modifier] ++ []))))
      ([c!"--add-scores"] ++ ([c!"-f", c!"abif"] ++ ([c!"-t", format] ++ ([c!"-m", modifier] ++ [])))) :=
    .cons _ _ _ _ (.longFlag .addScores c!"add-scores" rfl (by decide) (List.prefix_refl _))
      (.cons _ _ _ _ (.letterNext (.from c!"abif") 'f' c!"abif" rfl rfl (plain_of_head (by decide)))
        (.cons _ _ _ _ (.letterNext (.out format) 't' format rfl rfl (plain_of_head (hplain format hv)))
          (.cons _ _ _ _ (.letterNext (.mod modifier) 'm' modifier rfl rfl (plain_of_head (hmod modifier hm))) .nil)))
  have hp := (C102_parse (scoresCommand format modifier file)
      (Meaning [file] (([.addScores] ++ ([.from c!"abif"] ++ ([.out format] ++ ([.mod modifier] ++ [])))) ++ []))).2
    ⟨_, _, [file], [], [], by simp [scoresCommand], hall, .nil, by simp, by simpa using hf, by
      intro u hu
      simp only [List.append_nil, List.mem_append, List.mem_singleton] at hu
      rcases hu with rfl | rfl | rfl | rfl
      · trivial
      · show c!"abif" ∈ _; decide
      · exact hv
      · exact hm, rfl⟩
  exact ⟨_, hp, rfl, rfl, rfl, rfl, by simp [Meaning], by simp [Meaning]⟩

/-- the command runs on the election of the paper with Borda points -/
theorem scores_main {env : CliEnv} {p : List PaperLine} {format modifier file : Str} (h : PaperOk p) (hr : PaperRanked p) (hv : (Use.out format).Valid)
    (hm : (Use.mod modifier).Valid ∧ modifier ≠ c!"consolidate" ∧ modifier ≠ c!"jcomments") (hf : PlainWord file) (hh : Holds env file (paperText p)) :
    ∃ a m, argvMain env (scoresCommand format modifier file) = .ran (cliMain env a) ∧ RunsOn env a [modifier] m ∧ a.to = format ∧
      convertAbif false true false (paperText p) = .ok m ∧ (∀ x, scoreOf m x = paperBorda p x) ∧ (∀ x, ratersOf m x = (paperBordaVoters p x : Int)) ∧
      (∀ x y, support m x y = (paperPrefers p x y : Int)) ∧ (m.votelines.map Voteline.qty).sum = (paperCount p : Int) ∧
      Dict.keys m.candidates = paperCands p ∧ (∀ x ∈ paperCands p, Dict.get? m.candidates x = some (some (paperName p x))) := by
  obtain ⟨a, e1, e2, e3, e4, e5, e6, e7⟩ := scoresCommand_parsed (file := file) hv hm.1 hf
  obtain ⟨m, h1, h2⟩ := paper_added h hr false
  refine ⟨a, m, ?_, ⟨.given _ (by simp) e5, c!"abif", paperText p, m, e3, ?_, ?_, ?_⟩, e4, h1, h2⟩
  · unfold argvMain
    rw [e1]
  · unfold Holds at hh
    by_cases hd : file = c!"-"
    · rw [if_pos hd] at hh; exact .inl ⟨by rw [e2, hd], hh⟩
    · rw [if_neg hd] at hh; exact .inr ⟨file, hd, e2, hh⟩
  · have : convertAbif a.cleanws a.addScores false (paperText p) = .ok m := by rw [e6, e7]; exact h1
    rw [← this]
    exact .abif (fun hx => hm.2.2 (List.mem_singleton.1 hx).symm)
  · rw [if_neg (fun hx => hm.2.1 (List.mem_singleton.1 hx).symm)]

/-- C121, scores.  For ranked ballots without points, `abiftool --add-scores -f abif -t text -m score FILE` prints the Borda count of every candidate
and the number of ballots that give it a point, those with the highest count first (equals in the order in which they are first spoken of), and names
the first as the winner. -/
theorem C121_score (env : CliEnv) (p : List PaperLine) (file : Str) (h : PaperOk p) (hr : PaperRanked p) (hf : PlainWord file)
    (hh : Holds env file (paperText p)) (hne : paperCands p ≠ []) :
    ∃ w rest, (w :: rest).Perm (paperCands p) ∧ (w :: rest).Pairwise (fun a b => paperBorda p b ≤ paperBorda p a) ∧
      (∀ s, (w :: rest).filter (fun c => decide (paperBorda p c = s)) = (paperCands p).filter (fun c => decide (paperBorda p c = s))) ∧
      CommandWrites env (scoresCommand c!"text" c!"score" file)
        ((w :: rest).flatMap (fun x => c!"- " ++ intStr (paperBorda p x) ++ c!" points (from " ++ natStr (paperBordaVoters p x) ++ c!" voters) -- " ++
          paperName p x ++ c!"\n") ++ (c!"Voter count: " ++ natStr (paperCount p) ++ c!"\n") ++ (c!"Score Winner: " ++ paperName p w ++ c!"\n")) := by
  obtain ⟨a, m, h1, h2, h3, h4, hsc, hra, _, htot, h7, h8⟩ := scores_main (env := env) (format := c!"text") (modifier := c!"score") h hr
    (by show _ ∈ _; decide) ⟨by show _ ∈ _; decide, by decide, by decide⟩ hf hh
  have hbc := (C01_ballotcount _ _ _ _ _ h4).1
  have hcne : m.candidates ≠ [] := by
    intro hz
    rw [hz] at h7
    exact hne h7.symm
  obtain ⟨w, rest, g1, g2, g3, g4⟩ := C63_score m (parsed_scorable _ _ _ _ _ h4) _ hbc hcne
  simp only [hsc] at g2 g3
  have h7' : m.candidates.keys = paperCands p := h7
  rw [h7'] at g1 g3
  refine ⟨w, rest, g1, g2, g3, ?_⟩
  have key : cliMain env a = endsWith (cliText env [c!"score"] a.width m) := by
    refine runsOn_main h2 ?_
    rw [h3]
    exact .text
  have ht : cliText env [c!"score"] a.width m = .ok ((w :: rest).flatMap (fun x => c!"- " ++ intStr (paperBorda p x) ++ c!" points (from " ++
      natStr (paperBordaVoters p x) ++ c!" voters) -- " ++ paperName p x ++ c!"\n") ++ (c!"Voter count: " ++ natStr (paperCount p) ++ c!"\n") ++
      (c!"Score Winner: " ++ paperName p w ++ c!"\n")) := by
    rw [(cliText_single env a.width m).2.2.2.2.1, g4, htot, paper_printed (g1.mem_iff.1 (by simp)) h8, C63_count_shown.1]
    congr 3
    have hmem : ∀ x ∈ w :: rest, x ∈ paperCands p := fun x hx => g1.mem_iff.1 hx
    generalize w :: rest = l at hmem
    induction l with
    | nil => rfl
    | cons x l ih =>
      rw [List.flatMap_cons, List.flatMap_cons, ih (fun y hy => hmem y (by simp [hy])), paper_printed (hmem x (by simp)) h8, hsc, hra]
      unfold reportLine
      simp [intStr]
  unfold CommandWrites
  rw [h1, key, ht]
  rfl

/-- C121, STAR.  `abiftool --add-scores -f abif -t json -m STAR FILE` prints the Borda counts; two candidates that head a list by Borda count are the
finalists, and the finalist whom more ballots put above the other is the winner. -/
theorem C121_star (env : CliEnv) (p : List PaperLine) (file : Str) (h : PaperOk p) (hr : PaperRanked p) (hl : (paperText p).length < 2 ^ 61)
    (hf : PlainWord file) (hh : Holds env file (paperText p)) (h2 : 2 ≤ (paperCands p).length) :
    ∃ doc f1 f2 rest, CommandPrints env (scoresCommand c!"json" c!"STAR" file) doc ∧ (f1 :: f2 :: rest).Perm (paperCands p) ∧
      (f1 :: f2 :: rest).Pairwise (fun x y => paperBorda p y ≤ paperBorda p x) ∧
      (∀ x ∈ paperCands p, valueAt doc [.key c!"scores", .key x, .key c!"score"] = some (.int (paperBorda p x))) ∧
      member c!"totalvoters" doc = some (.int (paperCount p)) ∧
      member c!"fin1" doc = some (.str f1) ∧ member c!"fin2" doc = some (.str f2) ∧
      member c!"fin1votes" doc = some (.int (paperPrefers p f1 f2)) ∧ member c!"fin2votes" doc = some (.int (paperPrefers p f2 f1)) ∧
      (paperPrefers p f2 f1 < paperPrefers p f1 f2 → member c!"winner" doc = some (.str (paperName p f1))) ∧
      (paperPrefers p f1 f2 < paperPrefers p f2 f1 → member c!"winner" doc = some (.str (paperName p f2))) ∧
      (paperPrefers p f1 f2 = paperPrefers p f2 f1 →
        member c!"winner" doc = some (.str (tieText (some (paperName p f1)) (some (paperName p f2))))) := by
  obtain ⟨a, m, h1, k2, h3, h4, hsc, _, hs, hcount, h7, h8⟩ := scores_main (env := env) (format := c!"json") (modifier := c!"STAR") h hr
    (by show _ ∈ _; decide) ⟨by show _ ∈ _; decide, by decide, by decide⟩ hf hh
  have hbc := (C01_ballotcount _ _ _ _ _ h4).1
  have hcl : 2 ≤ m.candidates.length := by
    have := congrArg List.length h7
    unfold Dict.keys at this
    rw [List.length_map] at this
    omega
  obtain ⟨doc, f1, f2, rest, n1, n2, g1, _, g3, g4, g5, g6, g7, _, _, g10, _, g12, g13, _, _, g16, g17, _, g19, g20, g21⟩ :=
    C90_star env a _ m k2 (parsed_scorable _ _ _ _ _ h4) (parsed_allRanked _ _ _ _ _ h4 hl) hbc hcl h3
      (by decide) (by decide) (by decide)
  have hmem : ∀ x, x ∈ f1 :: f2 :: rest → x ∈ paperCands p := fun x hx => by rw [← h7]; exact g3.mem_iff.1 hx
  have e1 : n1 = some (paperName p f1) := by
    have := h8 f1 (hmem f1 (by simp)); rw [g5] at this; exact Option.some.inj this
  have e2 : n2 = some (paperName p f2) := by
    have := h8 f2 (hmem f2 (by simp)); rw [g6] at this; exact Option.some.inj this
  subst e1 e2
  rw [hs, hs] at g19 g20 g21
  obtain ⟨out, o1, o2⟩ := g1
  refine ⟨doc, f1, f2, rest, ⟨out, by rw [h1, o1], o2⟩, by rw [← h7]; exact g3, ?_, ?_, by rw [g10, hcount], g12, g13, by rw [g16, hs],
    by rw [g17, hs], ?_, ?_, ?_⟩
  · exact g4.imp (fun {x y} hxy => by rw [hsc, hsc] at hxy; exact hxy)
  · intro x hx
    have := g7 x _ (h8 x hx)
    have e : valueAt doc [.key c!"scores", .key x, .key c!"score"] = (valueAt doc [.key c!"scores", .key x]).bind (member c!"score") := by
      simp only [valueAt]
      cases member c!"scores" doc with
      | none => rfl
      | some o => cases ho : member x o <;> simp [ho]
    rw [e, this, ← hsc]
    rfl
  · intro hlt; exact g19 (by exact_mod_cast hlt)
  · intro hlt; exact g20 (by exact_mod_cast hlt)
  · intro hlt; exact g21 (by exact_mod_cast hlt)

/-! ### without ties -/

theorem paper_listed {p : List PaperLine} {v : Nat × Ballot} (hv : v ∈ paperVotes p) {x : Str} (hx : x ∈ v.2.items.map Item.tok) : x ∈ paperCands p := by
  obtain ⟨l, hl, e⟩ := List.mem_filterMap.1 hv
  unfold paperCands
  rw [mem_firsts, List.mem_flatMap]
  refine ⟨l, hl, ?_⟩
  cases l with
  | ballots n b com => cases e; exact hx
  | _ => cases e

/-- C121, without ties the Borda count of a candidate is the number of times a ballot puts it above another: the sum of its row of the pairwise matrix. -/
theorem C121_rows (p : List PaperLine) (h : PaperOk p) (hr : PaperRanked p) (hs : PaperStrict p) (x : Str) :
    paperBorda p x = (((paperCands p).map (paperPrefers p x)).sum : Int) := by
  have hnd : (paperCands p).Nodup := nodup_firsts _
  have key : ∀ v ∈ paperVotes p, v.2.borda (paperCands p).length x = ((paperCands p).countP (fun y => v.2.above x y) : Int) := by
    intro v hv
    obtain ⟨tiers, ht, _⟩ := hr v hv
    exact borda_below (paper_votesOk h v hv) ht (hs v hv) hnd (fun y hy => paper_listed hv hy) x
  unfold paperBorda paperPrefers paperSum
  revert key
  generalize paperCands p = C at hnd
  generalize paperVotes p = votes
  intro key
  clear hnd
  induction votes with
  | nil =>
    clear key
    induction C with
    | nil => rfl
    | cons c C ih => simp
  | cons v votes ih =>
    rw [List.map_cons, List.sum_cons, ih (fun w hw => key w (by simp [hw])), key v (by simp)]
    clear ih key
    induction C with
    | nil => simp
    | cons c C ih =>
      rw [List.map_cons, List.map_cons, List.sum_cons, List.sum_cons, List.countP_cons]
      by_cases hc : v.2.above x c = true
      · rw [List.filter_cons_of_pos (by exact hc), if_pos hc, List.map_cons, List.sum_cons]
        push_cast at ih ⊢
        rw [Int.mul_add]
        omega
      · rw [List.filter_cons_of_neg (by exact hc), if_neg hc]
        push_cast at ih ⊢
        rw [Int.add_zero]
        omega

/-! ### complete ballots -/

/-- on complete ballots without ties, every ballot puts one of two candidates above the other -/
theorem paper_pairs {p : List PaperLine} (hr : PaperRanked p) (hs : PaperStrict p) (hc : PaperComplete p) {x y : Str} (hx : x ∈ paperCands p)
    (hy : y ∈ paperCands p) (hne : x ≠ y) : paperPrefers p x y + paperPrefers p y x = paperCount p := by
  have key : ∀ v ∈ paperVotes p, v.2.above y x = !v.2.above x y := by
    intro v hv
    obtain ⟨tiers, ht, _⟩ := hr v hv
    have := hs v hv x (hc v hv x hx) y (hc v hv y hy) hne
    rw [ht] at this ⊢
    show tierAbove tiers y x = !tierAbove tiers x y
    rcases this with h | h
    · have h : tierAbove tiers x y = true := h
      rw [h, tierAbove_asymm h]; rfl
    · have h : tierAbove tiers y x = true := h
      rw [h, tierAbove_asymm h]; rfl
  unfold paperPrefers paperSum paperCount
  revert key
  generalize paperVotes p = votes
  intro key
  induction votes with
  | nil => rfl
  | cons v votes ih =>
    have ih := ih (fun w hw => key w (by simp [hw]))
    have hv := key v (by simp)
    rw [List.map_cons, List.sum_cons]
    by_cases h : v.2.above x y = true
    · rw [h] at hv
      rw [List.filter_cons_of_pos (by exact h), List.filter_cons_of_neg (by show ¬ v.2.above y x = true; rw [hv]; simp), List.map_cons, List.sum_cons]
      omega
    · rw [Bool.not_eq_true] at h
      rw [h] at hv
      rw [List.filter_cons_of_neg (by show ¬ v.2.above x y = true; rw [h]; simp), List.filter_cons_of_pos (by exact hv), List.map_cons, List.sum_cons]
      omega

theorem paper_self {p : List PaperLine} (hr : PaperRanked p) (x : Str) : paperPrefers p x x = 0 := by
  unfold paperPrefers paperSum
  rw [List.filter_eq_nil_iff.2]
  · rfl
  · intro v hv
    obtain ⟨tiers, ht, _⟩ := hr v hv
    rw [ht]
    show ¬ tierAbove tiers x x = true
    rw [tierAbove_irrefl]
    simp

theorem nat_perm_sum {l l' : List Nat} (h : l.Perm l') : l.sum = l'.sum := by
  induction h with
  | nil => rfl
  | cons x _ ih => simp [ih]
  | swap x y l => simp only [List.sum_cons]; omega
  | trans _ _ i j => exact i.trans j

/-- comparing two row sums term by term, where one term is left out -/
theorem row_bound {C : List Str} (hn : C.Nodup) {x : Str} (hx : x ∈ C) (f : Str → Nat) (N : Nat) (h0 : f x = 0) :
    ((∀ y ∈ C, y ≠ x → N ≤ 2 * f y) → (C.length - 1) * N ≤ 2 * (C.map f).sum) ∧
    ((∀ y ∈ C, y ≠ x → 2 * f y ≤ N) → 2 * (C.map f).sum ≤ (C.length - 1) * N) ∧
    ((∀ y ∈ C, y ≠ x → N < 2 * f y) → 2 ≤ C.length → (C.length - 1) * N < 2 * (C.map f).sum) ∧
    ((∀ y ∈ C, y ≠ x → 2 * f y < N) → 2 ≤ C.length → 2 * (C.map f).sum < (C.length - 1) * N) := by
  have hp : C.Perm (x :: C.erase x) := List.perm_cons_erase hx
  have hsum : (C.map f).sum = ((C.erase x).map f).sum := by
    rw [nat_perm_sum (hp.map f), List.map_cons, List.sum_cons, h0, Nat.zero_add]
  have hlen : C.length - 1 = (C.erase x).length := by rw [hp.length_eq]; rfl
  have hmem : ∀ y ∈ C.erase x, y ∈ C ∧ y ≠ x := fun y hy => ⟨List.mem_of_mem_erase hy, fun e => hn.not_mem_erase (e ▸ hy)⟩
  have hge : 2 ≤ C.length → C.erase x ≠ [] := by
    intro h e
    rw [e] at hlen
    simp at hlen
    omega
  rw [hsum, hlen]
  generalize C.erase x = D at hmem hge
  have le1 : ∀ D : List Str, (∀ y ∈ D, N ≤ 2 * f y) → D.length * N ≤ 2 * (D.map f).sum := by
    intro D h
    induction D with
    | nil => simp
    | cons y D ih =>
      have a := ih (fun z hz => h z (by simp [hz]))
      have b := h y (by simp)
      rw [List.map_cons, List.sum_cons, List.length_cons, Nat.add_mul]
      omega
  have le2 : ∀ D : List Str, (∀ y ∈ D, 2 * f y ≤ N) → 2 * (D.map f).sum ≤ D.length * N := by
    intro D h
    induction D with
    | nil => simp
    | cons y D ih =>
      have a := ih (fun z hz => h z (by simp [hz]))
      have b := h y (by simp)
      rw [List.map_cons, List.sum_cons, List.length_cons, Nat.add_mul]
      omega
  refine ⟨fun h => le1 D (fun y hy => h y (hmem y hy).1 (hmem y hy).2), fun h => le2 D (fun y hy => h y (hmem y hy).1 (hmem y hy).2), ?_, ?_⟩
  · intro h h2
    obtain ⟨y, D', rfl⟩ := List.exists_cons_of_ne_nil (hge h2)
    have a := le1 D' (fun z hz => Nat.le_of_lt (h z (hmem z (by simp [hz])).1 (hmem z (by simp [hz])).2))
    have b := h y (hmem y (by simp)).1 (hmem y (by simp)).2
    rw [List.map_cons, List.sum_cons, List.length_cons, Nat.add_mul]
    omega
  · intro h h2
    obtain ⟨y, D', rfl⟩ := List.exists_cons_of_ne_nil (hge h2)
    have a := le2 D' (fun z hz => Nat.le_of_lt (h z (hmem z (by simp [hz])).1 (hmem z (by simp [hz])).2))
    have b := h y (hmem y (by simp)).1 (hmem y (by simp)).2
    rw [List.map_cons, List.sum_cons, List.length_cons, Nat.add_mul]
    omega

theorem borda_nat {p : List PaperLine} (h : PaperOk p) (hr : PaperRanked p) (hs : PaperStrict p) (x : Str) :
    paperBorda p x = (((paperCands p).map (paperPrefers p x)).sum : Nat) := C121_rows p h hr hs x

/-- C121, complete ballots without ties.  The average Borda count is half of (number of ballots) × (number of candidates - 1): whoever beats or ties with
every other candidate has at least that much, whoever is beaten by or ties with every other at most; with a strict comparison, more and less. -/
theorem C121_condorcet (p : List PaperLine) (h : PaperOk p) (hr : PaperRanked p) (hs : PaperStrict p) (hc : PaperComplete p) (x : Str) (hx : x ∈ paperCands p) :
    ((∀ y ∈ paperCands p, paperPrefers p y x ≤ paperPrefers p x y) →
      (paperCount p * ((paperCands p).length - 1) : Int) ≤ 2 * paperBorda p x) ∧
    ((∀ y ∈ paperCands p, paperPrefers p x y ≤ paperPrefers p y x) →
      2 * paperBorda p x ≤ (paperCount p * ((paperCands p).length - 1) : Int)) ∧
    (2 ≤ (paperCands p).length → (∀ y ∈ paperCands p, y ≠ x → paperPrefers p y x < paperPrefers p x y) →
      (paperCount p * ((paperCands p).length - 1) : Int) < 2 * paperBorda p x) ∧
    (2 ≤ (paperCands p).length → (∀ y ∈ paperCands p, y ≠ x → paperPrefers p x y < paperPrefers p y x) →
      2 * paperBorda p x < (paperCount p * ((paperCands p).length - 1) : Int)) := by
  have hnd : (paperCands p).Nodup := nodup_firsts _
  have pair := fun y (hy : y ∈ paperCands p) (hne : y ≠ x) => paper_pairs hr hs hc hx hy (fun e => hne e.symm)
  obtain ⟨b1, b2, b3, b4⟩ := row_bound hnd hx (paperPrefers p x) (paperCount p) (paper_self hr x)
  have hlen : 1 ≤ (paperCands p).length := List.length_pos_of_mem hx
  have ecast : (paperCount p * ((paperCands p).length - 1) : Int) = ((((paperCands p).length - 1) * paperCount p : Nat) : Int) := by
    obtain ⟨k, hk⟩ : ∃ k, (paperCands p).length = k + 1 := ⟨(paperCands p).length - 1, by omega⟩
    rw [hk, Nat.add_sub_cancel, Int.natCast_mul, Int.mul_comm]
    congr 1
    push_cast
    omega
  rw [ecast, borda_nat h hr hs x]
  refine ⟨fun hb => ?_, fun hb => ?_, fun h2 hb => ?_, fun h2 hb => ?_⟩
  · have := b1 (fun y hy hne => by have := hb y hy; have := pair y hy hne; omega)
    exact_mod_cast this
  · have := b2 (fun y hy hne => by have := hb y hy; have := pair y hy hne; omega)
    exact_mod_cast this
  · have := b3 (fun y hy hne => by have := hb y hy hne; have := pair y hy hne; omega) h2
    exact_mod_cast this
  · have := b4 (fun y hy hne => by have := hb y hy hne; have := pair y hy hne; omega) h2
    exact_mod_cast this

theorem map_sum_add (f g : Str → Nat) (C : List Str) : (C.map (fun x => f x + g x)).sum = (C.map f).sum + (C.map g).sum := by
  induction C with
  | nil => rfl
  | cons c C ih => rw [List.map_cons, List.map_cons, List.map_cons, List.sum_cons, List.sum_cons, List.sum_cons, ih]; omega

theorem map_sum_const {g : Str → Nat} {N : Nat} {C : List Str} (h : ∀ x ∈ C, g x = N) : (C.map g).sum = C.length * N := by
  induction C with
  | nil => simp
  | cons c C ih =>
    rw [List.map_cons, List.sum_cons, List.length_cons, ih (fun x hx => h x (by simp [hx])), h c (by simp), Nat.add_mul]
    omega

/-- a double sum of pairs -/
theorem pairs_sum (f : Str → Str → Nat) (N : Nat) : ∀ (C : List Str), C.Nodup → (∀ x ∈ C, f x x = 0) → (∀ x ∈ C, ∀ y ∈ C, x ≠ y → f x y + f y x = N) →
    2 * (C.map (fun x => (C.map (f x)).sum)).sum = C.length * (C.length - 1) * N := by
  intro C
  induction C with
  | nil => intros; simp
  | cons c C ih =>
    intro hn h0 h
    rw [List.nodup_cons] at hn
    have ih := ih hn.2 (fun x hx => h0 x (by simp [hx])) (fun x hx y hy => h x (by simp [hx]) y (by simp [hy]))
    have e1 : (C.map (fun x => ((c :: C).map (f x)).sum)).sum = (C.map (fun x => f x c)).sum + (C.map (fun x => (C.map (f x)).sum)).sum := by
      simp only [List.map_cons, List.sum_cons]
      exact map_sum_add (fun x => f x c) (fun x => (C.map (f x)).sum) C
    have e2 : (C.map (fun x => f x c)).sum + (C.map (f c)).sum = C.length * N := by
      rw [← map_sum_add]
      refine map_sum_const (fun x hx => ?_)
      exact h x (by simp [hx]) c (by simp) (fun e => hn.1 (e ▸ hx))
    rw [List.map_cons, List.sum_cons, e1, List.map_cons, List.sum_cons, h0 c (by simp), List.length_cons, Nat.add_sub_cancel]
    have e3 : (C.length + 1) * C.length * N = 2 * (C.length * N) + C.length * (C.length - 1) * N := by
      cases hl : C.length with
      | zero => simp
      | succ k =>
        rw [Nat.add_sub_cancel]
        ring
    omega

/-- C121, complete ballots without ties: all Borda counts together. -/
theorem C121_total (p : List PaperLine) (h : PaperOk p) (hr : PaperRanked p) (hs : PaperStrict p) (hc : PaperComplete p) :
    2 * ((paperCands p).map (paperBorda p)).sum = ((paperCands p).length * ((paperCands p).length - 1) * paperCount p : Nat) := by
  have hnd : (paperCands p).Nodup := nodup_firsts _
  rw [← pairs_sum (paperPrefers p) (paperCount p) (paperCands p) hnd (fun x _ => paper_self hr x) (fun x hx y hy => paper_pairs hr hs hc hx hy)]
  rw [show paperBorda p = fun x => ((((paperCands p).map (paperPrefers p x)).sum : Nat) : Int) from funext (borda_nat h hr hs)]
  rw [sum_cast (paperCands p) (fun x => ((paperCands p).map (paperPrefers p x)).sum)]
  push_cast
  rfl

/-- C121: on complete ballots without ties, the candidate named as the score winner is not one whom every other beats. -/
theorem C121_loser (p : List PaperLine) (h : PaperOk p) (hr : PaperRanked p) (hs : PaperStrict p) (hc : PaperComplete p)
    (h2 : 2 ≤ (paperCands p).length) (w : Str) (rest : List Str) (hp : (w :: rest).Perm (paperCands p))
    (hw : (w :: rest).Pairwise (fun a b => paperBorda p b ≤ paperBorda p a)) :
    ∃ y ∈ paperCands p, y ≠ w ∧ paperPrefers p y w ≤ paperPrefers p w y := by
  by_contra hno
  have hlt : ∀ y ∈ paperCands p, y ≠ w → paperPrefers p w y < paperPrefers p y w := by
    intro y hy hne
    by_contra hge
    exact hno ⟨y, hy, hne, by omega⟩
  have hmw : w ∈ paperCands p := hp.mem_iff.1 (by simp)
  have hbound := (C121_condorcet p h hr hs hc w hmw).2.2.2 h2 hlt
  have htot := C121_total p h hr hs hc
  have hmax : ∀ x ∈ paperCands p, paperBorda p x ≤ paperBorda p w := by
    intro x hx
    rcases List.mem_cons.1 (hp.mem_iff.2 hx) with rfl | hx
    · exact Int.le_refl _
    · exact (List.pairwise_cons.1 hw).1 x hx
  have hle : ∀ C : List Str, (∀ x ∈ C, paperBorda p x ≤ paperBorda p w) → (C.map (paperBorda p)).sum ≤ C.length * paperBorda p w := by
    intro C hC
    induction C with
    | nil => simp
    | cons c C ih =>
      have a := ih (fun x hx => hC x (by simp [hx]))
      have b := hC c (by simp)
      rw [List.map_cons, List.sum_cons, List.length_cons]
      push_cast
      rw [Int.add_mul]
      omega
  have hsum := hle _ hmax
  obtain ⟨k, hk⟩ : ∃ k, (paperCands p).length = k + 2 := ⟨(paperCands p).length - 2, by omega⟩
  rw [hk] at hsum htot hbound
  have e1 : (((k + 2) * (k + 2 - 1) * paperCount p : Nat) : Int) = ((k : Int) + 2) * (paperCount p * (((k + 2 : Nat) : Int) - 1)) := by
    rw [show k + 2 - 1 = k + 1 by omega]
    push_cast
    ring
  rw [e1] at htot
  have e2 : ((k : Int) + 2) * (2 * paperBorda p w) < ((k : Int) + 2) * (paperCount p * (((k + 2 : Nat) : Int) - 1)) :=
    Int.mul_lt_mul_of_pos_left hbound (by omega)
  have e3 : ((k : Int) + 2) * (2 * paperBorda p w) = 2 * (((k + 2 : Nat) : Int) * paperBorda p w) := by
    push_cast
    ring
  rw [e3] at e2
  omega

end

section
attribute [local instance] Uni.ascii
set_option maxRecDepth 40000

/-- `L`, `A`, `B` and `C` on ballots -/
def letterTiers (s : Str) : List (List Item) := s.map (fun c => [{ tok := [c] }])

theorem letter_ok : ∀ c ∈ c!"ABCL", (({ tok := [c] } : Item).Ok) ∧ ∀ d ∈ ({ tok := [c] } : Item).text, isLineBreak d = false ∧ d ≠ '#' := by
  have noslash : ∀ x : Char, x ≠ '/' → ¬ ∃ t ds, [x] = t ++ '/' :: ds ∧ ds ≠ [] ∧ ∀ c ∈ ds, isDigit c = true := by
    rintro x hx ⟨t, ds, e, hne, _⟩
    cases t with
    | nil => exact hx (List.cons.inj e).1
    | cons a t => have := congrArg List.length e; simp at this
  have clean : ∀ c ∈ c!"ABCL", CleanToken [c] ∧ isSepChar c = false ∧ c ≠ '/' ∧ isLineBreak c = false ∧ c ≠ '#' := by
    unfold CleanToken; decide +kernel
  intro c hc
  obtain ⟨h1, h2, h3, h4, h5⟩ := clean c hc
  refine ⟨⟨by simp, by simp, fun ds h => (by cases h), h1, by simpa using h2, fun _ => noslash c h3⟩, ?_⟩
  intro d hd
  have : d = c := by simpa [Item.text, Item.tokText, Item.ratingText] using hd
  rw [this]
  exact ⟨h4, h5⟩

theorem letters_ok {s : Str} (hs : ∀ c ∈ s, c ∈ c!"ABCL") (hn : s.Nodup) : (Ballot.ranked (letterTiers s)).Ok := by
  have hit : ∀ s : Str, (letterTiers s).flatten = s.map (fun c => ({ tok := [c] } : Item)) := by
    intro s
    induction s with
    | nil => rfl
    | cons c s ih => show _ :: (letterTiers s).flatten = _; rw [ih]; rfl
  refine ⟨?_, ?_, ?_, fun its h => (by cases h)⟩
  · intro it h
    show it.Ok ∧ _
    have h : it ∈ (letterTiers s).flatten := h
    rw [hit] at h
    obtain ⟨c, hc, rfl⟩ := List.mem_map.1 h
    exact letter_ok c (hs c hc)
  · show ((letterTiers s).flatten.map Item.tok).Nodup
    rw [hit, List.map_map]
    exact hn.map (fun a b e => (List.cons.inj e).1)
  · intro ts e t ht
    cases e
    obtain ⟨c, _, rfl⟩ := List.mem_map.1 ht
    simp

/-- `3:L`, `2:A>B>C`, `2:C>B>A` -/
def bulletPaper : List PaperLine :=
  [.ballots 3 (.ranked (letterTiers c!"L")) none, .ballots 2 (.ranked (letterTiers c!"ABC")) none, .ballots 2 (.ranked (letterTiers c!"CBA")) none]

theorem bulletPaper_ok : PaperOk bulletPaper ∧ PaperRanked bulletPaper ∧ PaperStrict bulletPaper := by
  refine ⟨⟨?_, 3, _, none, List.mem_cons_self⟩, ?_, by unfold PaperStrict; decide +kernel⟩
  · intro l hl
    simp only [bulletPaper, List.mem_cons, List.not_mem_nil, or_false] at hl
    rcases hl with rfl | rfl | rfl <;> exact ⟨letters_ok (by decide) (by decide), fun t h => (by cases h)⟩
  · intro v hv
    have : v = (3, .ranked (letterTiers c!"L")) ∨ v = (2, .ranked (letterTiers c!"ABC")) ∨ v = (2, .ranked (letterTiers c!"CBA")) := by
      simpa [bulletPaper, paperVotes, PaperLine.vote] using hv
    rcases this with rfl | rfl | rfl <;> exact ⟨_, rfl, by decide +kernel⟩

/-- That the ballots are complete is needed in `C121_loser`: when ballots name only some of the candidates, whoever loses to every other candidate can
have the highest score (here L, with 9 points; A, B and C have 8 each and beat L by 4 to 3). -/
theorem C121_loser_refuted : ∃ p, PaperOk p ∧ PaperRanked p ∧ PaperStrict p ∧ ∃ w ∈ paperCands p, 2 ≤ (paperCands p).length ∧
    (∀ y ∈ paperCands p, y ≠ w → paperPrefers p w y < paperPrefers p y w) ∧ ∀ y ∈ paperCands p, y ≠ w → paperBorda p y < paperBorda p w :=
  ⟨bulletPaper, bulletPaper_ok.1, bulletPaper_ok.2.1, bulletPaper_ok.2.2, c!"L", by decide +kernel, by decide +kernel, by decide +kernel, by decide +kernel⟩

/-- `1:A=B>C` -/
def parPaper : List PaperLine := [.ballots 1 (.ranked [[{ tok := c!"A" }, { tok := c!"B" }], [{ tok := c!"C" }]]) none]

/-- That there are no ties is needed in `C121_rows`: both candidates on a first tier get the points of a sole first place. -/
theorem C121_rows_refuted : ∃ p, PaperOk p ∧ PaperRanked p ∧ ∃ x ∈ paperCands p,
    paperBorda p x ≠ (((paperCands p).map (paperPrefers p x)).sum : Int) := by
  refine ⟨parPaper, ⟨?_, 1, _, none, List.mem_cons_self⟩, ?_, c!"A", by decide +kernel, by decide +kernel⟩
  · intro l hl
    simp only [parPaper, List.mem_cons, List.not_mem_nil, or_false] at hl
    subst hl
    refine ⟨⟨?_, by decide +kernel, fun ts h => (by cases h; decide), fun its h => (by cases h)⟩, fun t h => (by cases h)⟩
    intro it hit
    simp only [Ballot.items, List.flatten_cons, List.flatten_nil, List.cons_append, List.nil_append, List.mem_cons, List.not_mem_nil, or_false] at hit
    rcases hit with rfl | rfl | rfl <;> exact letter_ok _ (by decide)
  · intro v hv
    have : v = (1, .ranked [[{ tok := c!"A" }, { tok := c!"B" }], [{ tok := c!"C" }]]) := by
      simpa [parPaper, paperVotes, PaperLine.vote] using hv
    subst this
    exact ⟨_, rfl, by decide +kernel⟩

/-- the hypotheses of C121 are met by an election with complete ballots, a candidate who beats the others and one who loses to them -/
example : let p : List PaperLine := [.ballots 3 (.ranked (letterTiers c!"ABC")) none, .ballots 2 (.ranked (letterTiers c!"BAC")) none]
    PaperOk p ∧ PaperRanked p ∧ PaperStrict p ∧ PaperComplete p ∧ paperBorda p c!"A" = 8 ∧ paperBorda p c!"B" = 7 ∧ paperBorda p c!"C" = 0 ∧
      paperBordaVoters p c!"C" = 0 ∧ paperText p = c!"3:A>B>C\n2:B>A>C\n" := by
  refine ⟨⟨?_, 3, _, none, List.mem_cons_self⟩, ?_, by unfold PaperStrict; decide +kernel, by unfold PaperComplete; decide +kernel, by decide +kernel,
    by decide +kernel, by decide +kernel, by decide +kernel, by decide +kernel⟩
  · intro l hl
    simp only [List.mem_cons, List.not_mem_nil, or_false] at hl
    rcases hl with rfl | rfl <;> exact ⟨letters_ok (by decide) (by decide), fun t h => (by cases h)⟩
  · intro v hv
    have : v = (3, .ranked (letterTiers c!"ABC")) ∨ v = (2, .ranked (letterTiers c!"BAC")) := by
      simpa [paperVotes, PaperLine.vote] using hv
    rcases this with rfl | rfl <;> exact ⟨_, rfl, by decide +kernel⟩

end
end Verif.Props
