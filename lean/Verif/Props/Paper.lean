/-
C103: from the written election to the printed result.  Vocabulary: `Verif.Spec.Paper`.
-/
import Verif.Lib.Paper
import Verif.Props.Argv
import Verif.Props.JsonOut
import Verif.Props.ParsedTally
import Verif.Props.IrvPairwise
import Verif.Props.IrvLater

set_option linter.unusedSimpArgs false
set_option linter.unusedSectionVars false

namespace Verif.Props
open Spec

theorem paper_qty {P : Voteline → Bool} {q : Ballot → Bool} {votes : List (Nat × Ballot)} {vls : List Voteline}
    (f : List.Forall₂ (fun (v : Nat × Ballot) (vl : Voteline) => vl.qty = (v.1 : Int) ∧ P vl = q v.2) votes vls) :
    qtySum P vls = ((((votes.filter (fun v => q v.2)).map Prod.fst).sum : Nat) : Int) := by
  induction f with
  | nil => rfl
  | cons h _ ih =>
    rename_i v vl votes vls _
    unfold qtySum at ih ⊢
    cases hs : q v.2 with
    | true =>
      rw [List.filter_cons_of_pos (by rw [h.2, hs]), List.filter_cons_of_pos (by simpa using hs), List.map_cons, List.map_cons, List.sum_cons,
        List.sum_cons, ih, h.1]
      push_cast; rfl
    | false =>
      rw [List.filter_cons_of_neg (by rw [h.2, hs]; simp), List.filter_cons_of_neg (by simp [hs]), ih]

section
variable [U : Uni]

theorem paper_sum {p : List PaperLine} {vls vls' : List Voteline} {P : Voteline → Bool} {q : Ballot → Bool}
    (f : List.Forall₂ HoldsBallots (paperVotes p) vls) (hp : vls'.Perm vls)
    (h : ∀ v vl, HoldsBallots v vl → P vl = q v.2) : qtySum P vls' = (paperSum p q : Int) := by
  rw [qtySum_perm P hp, paper_qty (q := q) (f.imp (fun v vl hv => ⟨hv.1, h v vl hv⟩))]
  rfl

theorem number_value {it : Item} (h : it.Ok) : ratingInt it.value = .ok it.number := by
  have := rawValue_readable h
  rw [← this.2]; exact this.1

theorem holds_rating {v : Nat × Ballot} {vl : Voteline} (h : HoldsBallots v vl) (hb : v.2.Ok) (x : Str) : ratingOf vl x = v.2.points x := by
  obtain ⟨_, _, hk, hv⟩ := h
  unfold ratingOf Ballot.points
  by_cases hx : x ∈ v.2.items.map Item.tok
  · obtain ⟨it, hit, rfl⟩ := List.mem_map.1 hx
    obtain ⟨pr, h1, h2⟩ := hv it hit
    rw [h1]
    simp only [h2, number_value (hb.items it hit).1]
    have : ∀ (l : List Item), (l.map Item.tok).Nodup → it ∈ l → l.filter (fun i => decide (i.tok = it.tok)) = [it] := by
      intro l hn hm
      induction l with
      | nil => cases hm
      | cons a l ih =>
        rw [List.map_cons, List.nodup_cons] at hn
        rcases List.mem_cons.1 hm with rfl | hm
        · rw [List.filter_cons_of_pos (by simp), List.filter_eq_nil_iff.2]
          intro b hb'
          simp only [decide_eq_true_eq]
          exact fun e => hn.1 (e ▸ List.mem_map_of_mem hb')
        · rw [List.filter_cons_of_neg, ih hn.2 hm]
          simp only [decide_eq_true_eq]
          exact fun e => hn.1 (e ▸ List.mem_map_of_mem hm)
    rw [this _ hb.nodup hit]
    simp
  · have h1 : Dict.get? vl.prefs x = none := Dict.get?_eq_none.2 (by rw [hk]; exact hx)
    rw [h1]
    have : v.2.items.filter (fun it => decide (it.tok = x)) = [] := by
      rw [List.filter_eq_nil_iff]
      intro b hb'
      simp only [decide_eq_true_eq]
      exact fun e => hx (e ▸ List.mem_map_of_mem hb')
    rw [this]; rfl

/-- C103, reading.  An election written down in .abif - ballot lines, names and notes in any order - is read as exactly that
election: one voteline per ballot line, largest count first, with the candidates of the ballot in order, each with the points
written after it, preferring whom the ballot puts above whom; and the candidates in order of first mention under their names. -/
theorem C103_read (p : List PaperLine) (h : PaperOk p) (cw : Bool) :
    ∃ m vls, convertAbif cw false false (paperText p) = .ok m ∧
      List.Forall₂ (fun (v : Nat × Ballot) (vl : Voteline) => vl.qty = (v.1 : Int) ∧ Dict.keys vl.prefs = v.2.items.map Item.tok ∧
        (∀ x y, prefers vl x y = v.2.above x y) ∧ ∀ x, ratingOf vl x = v.2.points x) (paperVotes p) vls ∧
      StableSortedDesc vls m.votelines ∧ Dict.keys m.candidates = paperCands p ∧
      (∀ x ∈ paperCands p, Dict.get? m.candidates x = some (some (paperName p x))) ∧
      Dict.get? m.metadata c!"ballotcount" = some (.int (paperCount p)) := by
  obtain ⟨m, vls, h1, h2, h3, h4, h5, h6⟩ := convertAbif_paper h cw
  have hok : ∀ v ∈ paperVotes p, v.2.Ok := by
    intro v hv
    obtain ⟨l, hl, e⟩ := List.mem_filterMap.1 hv
    cases l with
    | ballots n b com => cases e; exact (h.1 _ hl).1
    | _ => cases e
  refine ⟨m, vls, h1, ?_, h3, h4, h5, ?_⟩
  · clear h1 h3 h4 h5 h6
    revert hok
    generalize paperVotes p = votes at h2
    intro hok
    induction h2 with
    | nil => exact .nil
    | cons g _ ih =>
      exact .cons ⟨g.1, g.2.2.1, g.2.1, holds_rating g (hok _ (by simp))⟩ (ih (fun v hv => hok v (by simp [hv])))
  · rw [h6]
    congr 2
    have := paper_sum (P := fun _ => true) (q := fun _ => true) h2 (List.Perm.refl _) (fun _ _ _ => rfl)
    unfold qtySum paperSum at this
    rw [List.filter_eq_self.2 (by simp), List.filter_eq_self.2 (by simp)] at this
    exact this

/-- `abiftool -f abif -t FORMAT -m MODIFIER … FILE` -/
def command (format : Str) (mods : List Str) (file : Str) : List Str :=
  [c!"-f", c!"abif", c!"-t", format] ++ mods.flatMap (fun x => [c!"-m", x]) ++ [file]

theorem plain_of_head {w : Str} (h : w.head? ≠ some '-') : PlainWord w := .inl h

/-- what the command asks for -/
theorem command_parsed {format file : Str} {mods : List Str} (hv : (Use.out format).Valid) (hm : ∀ x ∈ mods, (Use.mod x).Valid)
    (hf : PlainWord file) : ∃ a, parseArgv (command format mods file) = .ok a ∧ a.files = [file] ∧ a.fromfmt = some c!"abif" ∧ a.to = format ∧
      a.modifier = (if mods = [] then none else some mods) ∧ a.cleanws = false ∧ a.addScores = false := by
  have hplain : ∀ v ∈ [c!"abif", c!"csvrank", c!"dot", c!"html", c!"html_snippet", c!"irvjson", c!"jabmod", c!"json", c!"nameq",
      c!"paircountjson", c!"svg", c!"text", c!"winlosstiejson"], v.head? ≠ some '-' := by decide
  have hmod : ∀ v ∈ [c!"candlist", c!"Copeland", c!"consolidate", c!"IRV", c!"jcomments", c!"pairwise", c!"score", c!"STAR", c!"svg",
      c!"winlosstie"], v.head? ≠ some '-' := by decide
  have hw : ∀ mods : List Str, (∀ x ∈ mods, (Use.mod x).Valid) → WritesAll (mods.map Use.mod) (mods.flatMap (fun x => [c!"-m", x])) := by
    intro mods
    induction mods with
    | nil => intro _; exact .nil
    | cons x mods ih =>
      intro hm
      exact .cons [.mod x] _ [c!"-m", x] _ (.letterNext (.mod x) 'm' x rfl rfl (plain_of_head (hmod x (hm x (by simp)))))
        (ih (fun y hy => hm y (by simp [hy])))
  have hall : WritesAll ([.from c!"abif"] ++ ([.out format] ++ mods.map Use.mod)) ([c!"-f", c!"abif"] ++ ([c!"-t", format] ++ mods.flatMap (fun x => [c!"-m", x]))) :=
    .cons _ _ _ _ (.letterNext (.from c!"abif") 'f' c!"abif" rfl rfl (plain_of_head (by decide)))
      (.cons _ _ _ _ (.letterNext (.out format) 't' format rfl rfl (plain_of_head (hplain format hv))) (hw mods hm))
  have hp := (C102_parse (command format mods file) (Meaning [file] (([.from c!"abif"] ++ ([.out format] ++ mods.map Use.mod)) ++ []))).2
    ⟨_, _, [file], [], [], by simp [command], hall, .nil, by simp, by simpa using hf, by
      intro u hu
      simp only [List.append_nil, List.mem_append, List.mem_singleton, List.mem_map] at hu
      rcases hu with rfl | rfl | ⟨x, hx, rfl⟩
      · show c!"abif" ∈ _; decide
      · exact hv
      · exact hm x hx, rfl⟩
  have h1 : (mods.map Use.mod).filterMap Use.asFrom = [] := by
    rw [List.filterMap_eq_nil_iff]; intro u hu; obtain ⟨x, _, rfl⟩ := List.mem_map.1 hu; rfl
  have h2 : (mods.map Use.mod).filterMap Use.asOut = [] := by
    rw [List.filterMap_eq_nil_iff]; intro u hu; obtain ⟨x, _, rfl⟩ := List.mem_map.1 hu; rfl
  have h3 : (mods.map Use.mod).filterMap Use.asMod = mods := by
    rw [List.filterMap_map]
    exact List.filterMap_some
  refine ⟨_, hp, rfl, ?_, ?_, ?_, ?_, ?_⟩
  · show (List.filterMap Use.asFrom (([.from c!"abif"] ++ ([.out format] ++ mods.map Use.mod)) ++ [])).getLast? = _
    rw [List.append_nil, show List.filterMap Use.asFrom ([.from c!"abif"] ++ ([.out format] ++ mods.map Use.mod)) =
      c!"abif" :: (mods.map Use.mod).filterMap Use.asFrom from rfl, h1]
    rfl
  · show (List.filterMap Use.asOut (([.from c!"abif"] ++ ([.out format] ++ mods.map Use.mod)) ++ [])).getLast?.getD c!"text" = _
    rw [List.append_nil, show List.filterMap Use.asOut ([.from c!"abif"] ++ ([.out format] ++ mods.map Use.mod)) =
      format :: (mods.map Use.mod).filterMap Use.asOut from rfl, h2]
    rfl
  · show (if List.filterMap Use.asMod (([.from c!"abif"] ++ ([.out format] ++ mods.map Use.mod)) ++ []) = [] then none else
      some (List.filterMap Use.asMod (([.from c!"abif"] ++ ([.out format] ++ mods.map Use.mod)) ++ []))) = _
    rw [List.append_nil, show List.filterMap Use.asMod ([.from c!"abif"] ++ ([.out format] ++ mods.map Use.mod)) =
      (mods.map Use.mod).filterMap Use.asMod from rfl, h3]
  · simp [Meaning]
  · simp [Meaning]

/-- the file to read: the named one, or the standard input for `-` -/
def Holds (env : CliEnv) (file text : Str) : Prop := if file = c!"-" then env.stdin = text else env.file file = some text

/-- The command prints this JSON document and ends well. -/
def CommandPrints (env : CliEnv) (argv : List Str) (doc : Json) : Prop :=
  ∃ out, argvMain env argv = .ran ⟨out, .ok ()⟩ ∧ jsonLoads out = .ok doc

/-- the modifiers of a command -/
def inForceOf (mods : List Str) : List Str := if mods = [] then [c!"candlist", c!"Copeland", c!"winlosstie"] else mods

/-- the command runs on the election of the paper -/
theorem paper_main {env : CliEnv} {p : List PaperLine} {format file : Str} {mods : List Str} (h : PaperOk p) (hv : (Use.out format).Valid)
    (hm : ∀ x ∈ mods, (Use.mod x).Valid ∧ x ≠ c!"consolidate" ∧ x ≠ c!"jcomments") (hf : PlainWord file) (hh : Holds env file (paperText p)) :
    ∃ a m vls, argvMain env (command format mods file) = .ran (cliMain env a) ∧ RunsOn env a (inForceOf mods) m ∧ a.to = format ∧
      convertAbif false false false (paperText p) = .ok m ∧ List.Forall₂ HoldsBallots (paperVotes p) vls ∧ m.votelines.Perm vls ∧
      Dict.keys m.candidates = paperCands p ∧ (∀ x ∈ paperCands p, Dict.get? m.candidates x = some (some (paperName p x))) := by
  obtain ⟨a, e1, e2, e3, e4, e5, e6, e7⟩ := command_parsed (file := file) hv (fun x hx => (hm x hx).1) hf
  obtain ⟨m, vls, h1, h2, h3, h4, h5, _⟩ := convertAbif_paper h false
  have hforce : InForce a (inForceOf mods) := by
    unfold inForceOf
    by_cases hz : mods = []
    · rw [if_pos hz] at e5 ⊢; exact .default e5
    · rw [if_neg hz] at e5 ⊢; exact .given mods hz e5
  have hc : ∀ x ∈ inForceOf mods, x ≠ c!"consolidate" ∧ x ≠ c!"jcomments" := by
    unfold inForceOf
    split
    · decide
    · exact fun x hx => (hm x hx).2
  refine ⟨a, m, vls, ?_, ⟨hforce, c!"abif", paperText p, m, e3, ?_, ?_, ?_⟩, e4, h1, h2, h3.1, h4, h5⟩
  · unfold argvMain
    rw [e1]
  · unfold Holds at hh
    by_cases hd : file = c!"-"
    · rw [if_pos hd] at hh; exact .inl ⟨by rw [e2, hd], hh⟩
    · rw [if_neg hd] at hh; exact .inr ⟨file, hd, e2, hh⟩
  · have : convertAbif a.cleanws a.addScores false (paperText p) = .ok m := by rw [e6, e7]; exact h1
    rw [← this]
    exact .abif (fun hx => (hc _ hx).2 rfl)
  · rw [if_neg (fun hx => (hc _ hx).1 rfl)]

theorem paper_runs {env : CliEnv} {p : List PaperLine} {format file : Str} {mods : List Str} (h : PaperOk p) (hv : (Use.out format).Valid)
    (hm : ∀ x ∈ mods, (Use.mod x).Valid ∧ x ≠ c!"consolidate" ∧ x ≠ c!"jcomments") (hf : PlainWord file) (hh : Holds env file (paperText p)) :
    ∃ a m vls, (∀ doc, PrintsDoc env a doc → CommandPrints env (command format mods file) doc) ∧ RunsOn env a (inForceOf mods) m ∧ a.to = format ∧
      convertAbif false false false (paperText p) = .ok m ∧ List.Forall₂ HoldsBallots (paperVotes p) vls ∧ m.votelines.Perm vls ∧
      Dict.keys m.candidates = paperCands p ∧ (∀ x ∈ paperCands p, Dict.get? m.candidates x = some (some (paperName p x))) := by
  obtain ⟨a, m, vls, h1, h2⟩ := paper_main (format := format) (mods := mods) (env := env) h hv hm hf hh
  refine ⟨a, m, vls, ?_, h2⟩
  rintro doc ⟨out, g1, g2⟩
  exact ⟨out, by rw [h1, g1], g2⟩

theorem paper_support {p : List PaperLine} {m : Jabmod} {vls : List Voteline} (f : List.Forall₂ HoldsBallots (paperVotes p) vls)
    (hp : m.votelines.Perm vls) (x y : Str) : support m x y = (paperPrefers p x y : Int) :=
  paper_sum f hp (fun _ _ hv => hv.2.1 x y)

/-- C103, head to head.  `abiftool -f abif -t paircountjson FILE` (`-` for the standard input) prints, for all candidates `x` and
`y`, how many ballots put `x` above `y`. -/
theorem C103_pairs (env : CliEnv) (p : List PaperLine) (file : Str) (h : PaperOk p) (hl : (paperText p).length < 2 ^ 61) (hf : PlainWord file)
    (hh : Holds env file (paperText p)) :
    ∃ doc, CommandPrints env (command c!"paircountjson" [] file) doc ∧ keysOf doc = paperCands p ∧
      ∀ x ∈ paperCands p, ∀ y ∈ paperCands p,
        valueAt doc [.key x, .key y] = some (if x = y then .null else .int (paperPrefers p x y)) := by
  obtain ⟨a, m, vls, h1, h2, h3, h4, h5, h6, h7, h8⟩ := paper_runs (format := c!"paircountjson") (mods := []) h (by show _ ∈ _; decide) (by simp) hf hh
  obtain ⟨doc, g1, g2, _, g4⟩ := C90_pairs env a _ m h2 (parsed_cands_nodup _ _ _ _ _ h4) (parsed_allRanked _ _ _ _ _ h4 hl) (.inl h3)
    (by show _ ∉ inForceOf []; decide)
  rw [h7] at g2 g4
  refine ⟨doc, h1 doc g1, g2, ?_⟩
  intro x hx y hy
  rw [g4 x hx y hy, paper_support h5 h6]

/-- how many of the candidates stand in this relation to `x` -/
def paperAgainst (p : List PaperLine) (x : Str) (r : Nat → Nat → Bool) : Nat :=
  ((paperCands p).filter (fun y => decide (y ≠ x) && r (paperPrefers p x y) (paperPrefers p y x))).length

/-- C103, duels.  `-t winlosstiejson` prints for every candidate how many others it beats, loses to and ties with (a tie is
counted twice, see C90), those with the most wins first. -/
theorem C103_duels (env : CliEnv) (p : List PaperLine) (file : Str) (h : PaperOk p) (hl : (paperText p).length < 2 ^ 61) (hf : PlainWord file)
    (hh : Holds env file (paperText p)) :
    ∃ doc, CommandPrints env (command c!"winlosstiejson" [] file) doc ∧ (keysOf doc).Perm (paperCands p) ∧
      (keysOf doc).Pairwise (fun x y => paperAgainst p y (fun a b => decide (b < a)) ≤ paperAgainst p x (fun a b => decide (b < a))) ∧
      ∀ x ∈ paperCands p, member x doc = some (.obj [(c!"wins", .int (paperAgainst p x (fun a b => decide (b < a)))),
        (c!"losses", .int (paperAgainst p x (fun a b => decide (a < b)))),
        (c!"ties", .int (2 * paperAgainst p x (fun a b => decide (a = b))))]) := by
  obtain ⟨a, m, vls, h1, h2, h3, h4, h5, h6, h7, h8⟩ := paper_runs (format := c!"winlosstiejson") (mods := []) h (by show _ ∈ _; decide) (by simp) hf hh
  obtain ⟨doc, g1, g2, g3, g4⟩ := C90_wlt_partial env a _ m h2 (parsed_cands_nodup _ _ _ _ _ h4) (parsed_allRanked _ _ _ _ _ h4 hl) h3
  have hs := paper_support h5 h6
  have w1 : ∀ x, winsOf m x = (paperAgainst p x (fun a b => decide (b < a)) : Int) := by
    intro x; unfold winsOf countOpp paperAgainst; rw [h7]; simp only [hs]
    refine congrArg (fun n : Nat => (n : Int)) (congrArg List.length (List.filter_congr (fun y _ => ?_)))
    exact congrArg _ (decide_eq_decide.2 (by omega))
  have w2 : ∀ x, lossesOf m x = (paperAgainst p x (fun a b => decide (a < b)) : Int) := by
    intro x; unfold lossesOf countOpp paperAgainst; rw [h7]; simp only [hs]
    refine congrArg (fun n : Nat => (n : Int)) (congrArg List.length (List.filter_congr (fun y _ => ?_)))
    exact congrArg _ (decide_eq_decide.2 (by omega))
  have w3 : ∀ x, tiesOf m x = (paperAgainst p x (fun a b => decide (a = b)) : Int) := by
    intro x; unfold tiesOf countOpp paperAgainst; rw [h7]; simp only [hs]
    refine congrArg (fun n : Nat => (n : Int)) (congrArg List.length (List.filter_congr (fun y _ => ?_)))
    exact congrArg _ (decide_eq_decide.2 (by omega))
  rw [h7] at g2 g4
  refine ⟨doc, h1 doc g1, g2, ?_, ?_⟩
  · refine g3.imp ?_
    intro x y hxy
    rw [w1, w1] at hxy
    omega
  · intro x hx
    rw [g4 x hx, w1, w2, w3]

theorem paper_score {p : List PaperLine} {m : Jabmod} {vls : List Voteline} (hok : ∀ v ∈ paperVotes p, v.2.Ok)
    (f : List.Forall₂ HoldsBallots (paperVotes p) vls) (hp : m.votelines.Perm vls) (x : Str) : scoreOf m x = paperPoints p x := by
  unfold scoreOf paperPoints
  rw [perm_sum (hp.map _)]
  clear hp
  revert hok
  generalize paperVotes p = votes at f
  intro hok
  induction f with
  | nil => rfl
  | cons g _ ih =>
    rw [List.map_cons, List.map_cons, List.sum_cons, List.sum_cons, ih (fun v hv => hok v (by simp [hv])), g.1, holds_rating g (hok _ (by simp))]

theorem paper_votesOk {p : List PaperLine} (h : PaperOk p) : ∀ v ∈ paperVotes p, v.2.Ok := by
  intro v hv
  obtain ⟨l, hl, e⟩ := List.mem_filterMap.1 hv
  cases l with
  | ballots n b com => cases e; exact (h.1 _ hl).1
  | _ => cases e

theorem prefers_absent {vl : Voteline} {x y : Str} (hr : ∃ r, rankOf vl x = some r) (hy : y ∉ Dict.keys vl.prefs) :
    prefers vl x y = true := by
  obtain ⟨r, hr⟩ := hr
  have : rankOf vl y = none := by unfold rankOf; rw [Dict.get?_eq_none.2 hy]; rfl
  unfold prefers
  rw [hr, this]

theorem favours_eq {v : Nat × Ballot} {vl : Voteline} (h : HoldsBallots v vl) (hb : v.2.Ok) (hst : StrictLine vl)
    (hr : ∀ x ∈ Dict.keys vl.prefs, ∃ r, rankOf vl x = some r) (C : List Str) (x : Str) :
    soleTop x (restrictLine C vl) = v.2.favours C x := by
  have hw : Dict.WF vl.prefs := by unfold Dict.WF; rw [h.2.2.1]; exact hb.nodup
  have hno : overvoted (restrictLine C vl) = false := by
    rw [restrictLine_eq]
    exact strict_not_overvoted (wf_filter _ hw) (strict_filter hst (fun c => decide (c ∈ C)))
  rw [Bool.eq_iff_iff, soleTop_mem hno, mem_tops_restrict]
  unfold Ballot.favours
  rw [h.2.2.1]
  simp only [Bool.and_eq_true, decide_eq_true_eq, List.all_eq_true, Bool.or_eq_true]
  constructor
  · rintro ⟨h1, h2, h3⟩
    refine ⟨⟨h1, h2⟩, ?_⟩
    intro y hy
    by_cases e : y = x
    · exact .inl e
    · right
      rw [← h.2.1]
      by_cases hk : y ∈ Dict.keys vl.prefs
      · have := h3 y (by rw [h.2.2.1] at hk; exact hk) hy
        rcases hst x (by rw [h.2.2.1]; exact h1) y hk (fun e' => e e'.symm) with g | g
        · exact g
        · rw [this] at g; cases g
      · exact prefers_absent (hr x (by rw [h.2.2.1]; exact h1)) hk
  · rintro ⟨⟨h1, h2⟩, h3⟩
    refine ⟨h1, h2, ?_⟩
    intro y hy hC
    rcases h3 y hC with e | e
    · subst e; exact prefers_self vl y
    · rw [← h.2.1] at e
      exact not_prefers_of_prefers e

theorem paper_strictElection {p : List PaperLine} {m : Jabmod} {vls : List Voteline} (hl : (paperText p).length < 4999999998)
    (hs : PaperStrict p) (hnil : [] ∉ paperCands p)
    (h4 : convertAbif false false false (paperText p) = .ok m) (h5 : List.Forall₂ HoldsBallots (paperVotes p) vls)
    (h6 : m.votelines.Perm vls) (h7 : Dict.keys m.candidates = paperCands p) : StrictElection m := by
  refine parsed_strictElection _ _ _ _ _ h4 hl (by rw [h7]; exact hnil) ?_
  have key : ∀ (votes : List (Nat × Ballot)) (vls : List Voteline), List.Forall₂ HoldsBallots votes vls → ∀ vl ∈ vls, ∃ v ∈ votes, HoldsBallots v vl := by
    intro votes vls f
    induction f with
    | nil => intro vl hvl; cases hvl
    | cons g _ ih =>
      intro vl hvl
      rcases List.mem_cons.1 hvl with rfl | hvl
      · exact ⟨_, by simp, g⟩
      · obtain ⟨v, hv, hh⟩ := ih vl hvl
        exact ⟨v, by simp [hv], hh⟩
  intro vl hvl a ha b hb hab
  obtain ⟨v, hv, hh⟩ := key _ _ h5 vl (h6.mem_iff.1 hvl)
  rw [hh.2.2.1] at ha hb
  rw [hh.2.1, hh.2.1]
  exact hs v hv a ha b hb hab

theorem paper_top {p : List PaperLine} {m : Jabmod} {vls : List Voteline} (hok : PaperOk p) (he : StrictElection m)
    (h5 : List.Forall₂ HoldsBallots (paperVotes p) vls) (h6 : m.votelines.Perm vls) (C : List Str) (x : Str) :
    votesAmong m.votelines C x = (paperTop p C x : Int) := by
  rw [votesAmong_eq, qtySum_perm _ h6]
  have hst : ∀ vl ∈ vls, StrictLine vl ∧ ∀ x ∈ Dict.keys vl.prefs, ∃ r, rankOf vl x = some r := by
    intro vl hvl
    have hm := h6.mem_iff.2 hvl
    refine ⟨he.strict vl hm, ?_⟩
    intro y hy
    obtain ⟨pr, hpr⟩ := Dict.exists_get?_of_mem hy
    obtain ⟨r, hr⟩ := he.countable.ranked vl hm y pr hpr
    exact ⟨r, by unfold rankOf; rw [hpr]; exact hr⟩
  refine paper_qty (q := fun b => b.favours C x) ?_
  have hv := paper_votesOk hok
  revert hst hv h5
  generalize paperVotes p = votes
  intro f
  clear h6
  induction f with
  | nil => intro _ _; exact .nil
  | cons g _ ih =>
    intro hst hv
    exact .cons ⟨g.1, favours_eq g (hv _ (by simp)) (hst _ (by simp)).1 (hst _ (by simp)).2 C x⟩
      (ih (fun vl hvl => hst vl (by simp [hvl])) (fun v hv' => hv v (by simp [hv'])))

/-- C103, STAR.  `abiftool -f abif -t json -m STAR FILE` prints everybody's points; the two finalists `f1` and `f2` head a list of
all candidates by points; the winner is the finalist whom more ballots put above the other, and a tie is reported as such. -/
theorem C103_star (env : CliEnv) (p : List PaperLine) (file : Str) (h : PaperOk p) (hl : (paperText p).length < 2 ^ 61) (hf : PlainWord file)
    (hh : Holds env file (paperText p)) (h2 : 2 ≤ (paperCands p).length) :
    ∃ doc f1 f2 rest, CommandPrints env (command c!"json" [c!"STAR"] file) doc ∧ (f1 :: f2 :: rest).Perm (paperCands p) ∧
      (f1 :: f2 :: rest).Pairwise (fun x y => paperPoints p y ≤ paperPoints p x) ∧
      (∀ x ∈ paperCands p, valueAt doc [.key c!"scores", .key x, .key c!"score"] = some (.int (paperPoints p x))) ∧
      member c!"totalvoters" doc = some (.int (paperCount p)) ∧
      member c!"fin1" doc = some (.str f1) ∧ member c!"fin2" doc = some (.str f2) ∧
      member c!"fin1votes" doc = some (.int (paperPrefers p f1 f2)) ∧ member c!"fin2votes" doc = some (.int (paperPrefers p f2 f1)) ∧
      (paperPrefers p f2 f1 < paperPrefers p f1 f2 → member c!"winner" doc = some (.str (paperName p f1))) ∧
      (paperPrefers p f1 f2 < paperPrefers p f2 f1 → member c!"winner" doc = some (.str (paperName p f2))) ∧
      (paperPrefers p f1 f2 = paperPrefers p f2 f1 →
        member c!"winner" doc = some (.str (tieText (some (paperName p f1)) (some (paperName p f2))))) := by
  obtain ⟨a, m, vls, h1, k2, h3, h4, h5, h6, h7, h8⟩ := paper_runs (format := c!"json") (mods := [c!"STAR"]) h (by show _ ∈ _; decide)
    (by intro x hx; rw [List.mem_singleton] at hx; subst hx; exact ⟨by show _ ∈ _; decide, by decide, by decide⟩) hf hh
  have hbc := (C01_ballotcount _ _ _ _ _ h4).1
  have hcl : 2 ≤ m.candidates.length := by
    have := congrArg List.length h7
    unfold Dict.keys at this
    rw [List.length_map] at this
    omega
  obtain ⟨doc, f1, f2, rest, n1, n2, g1, _, g3, g4, g5, g6, g7, _, _, g10, _, g12, g13, _, _, g16, g17, _, g19, g20, g21⟩ :=
    C90_star env a _ m k2 (parsed_scorable _ _ _ _ _ h4) (parsed_allRanked _ _ _ _ _ h4 hl) hbc hcl h3
      (by show _ ∉ inForceOf [_]; decide) (by show _ ∉ inForceOf [_]; decide) (by show _ ∈ inForceOf [_]; decide)
  have hs := paper_support h5 h6
  have hsc : ∀ x, scoreOf m x = paperPoints p x := paper_score (paper_votesOk h) h5 h6
  have hmem : ∀ x, x ∈ f1 :: f2 :: rest → x ∈ paperCands p := fun x hx => by rw [← h7]; exact g3.mem_iff.1 hx
  have e1 : n1 = some (paperName p f1) := by
    have := h8 f1 (hmem f1 (by simp)); rw [g5] at this; exact Option.some.inj this
  have e2 : n2 = some (paperName p f2) := by
    have := h8 f2 (hmem f2 (by simp)); rw [g6] at this; exact Option.some.inj this
  subst e1 e2
  rw [hs, hs] at g19 g20 g21
  have hcount : (m.votelines.map Voteline.qty).sum = (paperCount p : Int) := by
    have := paper_sum (P := fun _ => true) (q := fun _ => true) h5 h6 (fun _ _ _ => rfl)
    unfold qtySum paperSum at this
    rw [List.filter_eq_self.2 (by simp), List.filter_eq_self.2 (by simp)] at this
    exact this
  refine ⟨doc, f1, f2, rest, h1 doc g1, by rw [← h7]; exact g3, ?_, ?_, by rw [g10, hcount], g12, g13, by rw [g16, hs], by rw [g17, hs], ?_, ?_, ?_⟩
  · exact g4.imp (fun {x y} hxy => by rw [hsc, hsc] at hxy; exact hxy)
  · intro x hx
    have := g7 x _ (h8 x hx)
    have e : valueAt doc [.key c!"scores", .key x, .key c!"score"] = (valueAt doc [.key c!"scores", .key x]).bind (member c!"score") := by
      simp only [valueAt]
      cases member c!"scores" doc with
      | none => rfl
      | some o => cases ho : member x o <;> simp [ho]
    rw [e, this, ← hsc]
    rfl
  · intro hlt; exact g19 (by exact_mod_cast hlt)
  · intro hlt; exact g20 (by exact_mod_cast hlt)
  · intro hlt; exact g21 (by exact_mod_cast hlt)

theorem sum_cast (C : List Str) (f : Str → Nat) : ((C.map (fun c => (f c : Int))).sum : Int) = ((C.map f).sum : Nat) := by
  induction C with
  | nil => rfl
  | cons c C ih => rw [List.map_cons, List.map_cons, List.sum_cons, List.sum_cons, ih]; push_cast; rfl

/-- The rounds of the count in terms of the paper. -/
theorem paper_runoff {S : Sched} {p : List PaperLine} {m : Jabmod} {d : IrvDict} {vls : List Voteline} (h : PaperOk p)
    (h5 : List.Forall₂ HoldsBallots (paperVotes p) vls) (h6 : m.votelines.Perm vls) (h7 : Dict.keys m.candidates = paperCands p)
    (he : StrictElection m) (hd : irvDict S m = .ok d) :
    InstantRunoff p (d.run.roundmeta.map RoundMeta.startingCands) d.run.winner ∧ d.run.roundmeta.length = d.run.rounds.length ∧
    ∀ (k : Nat) (rm : RoundMeta), d.run.roundmeta[k]? = some rm → ∃ cnt, d.run.rounds[k]? = some cnt ∧ Dict.keys cnt = rm.startingCands ∧
      rm.startingCands.Nodup ∧ (∀ c ∈ rm.startingCands, Dict.get? cnt c = some (paperTop p rm.startingCands c : Int)) ∧
      (cnt.map Prod.snd).sum = ((rm.startingCands.map (paperTop p rm.startingCands)).sum : Nat) := by
  have hlen : d.run.roundmeta.length = d.run.rounds.length :=
    (run_lengths (irvDict_steps hd) he.countable.state (irvDict_nonempty he.countable hd)).1
  have htop := paper_top h he h5 h6
  have hround : ∀ (k : Nat) (rm : RoundMeta), d.run.roundmeta[k]? = some rm → ∃ cnt, d.run.rounds[k]? = some cnt ∧ Dict.keys cnt = rm.startingCands ∧ rm.startingCands.Nodup ∧
      (∀ c ∈ rm.startingCands, Dict.get? cnt c = some (paperTop p rm.startingCands c : Int)) ∧
      (cnt.map Prod.snd).sum = ((rm.startingCands.map (paperTop p rm.startingCands)).sum : Nat) := by
    intro k rm hk
    have hlt : k < d.run.rounds.length := by rw [← hlen]; exact (List.getElem?_eq_some_iff.1 hk).1
    obtain ⟨cnt, hcnt⟩ : ∃ cnt, d.run.rounds[k]? = some cnt := ⟨_, List.getElem?_eq_getElem hlt⟩
    obtain ⟨r1, r2, _, r4, r5⟩ := strict_round he hd hk hcnt
    refine ⟨cnt, hcnt, r1, r2, fun c hc => by rw [r4 c hc, htop], ?_⟩
    rw [r5, ← sum_cast]
    congr 1
    apply List.map_congr_left
    intro c _
    exact htop _ _
  have hget : ∀ (k : Nat) (C : List Str), (d.run.roundmeta.map RoundMeta.startingCands)[k]? = some C → ∃ rm : RoundMeta, d.run.roundmeta[k]? = some rm ∧ C = rm.startingCands := by
    intro k C hk
    rw [List.getElem?_map] at hk
    cases hr : d.run.roundmeta[k]? with
    | none => rw [hr] at hk; cases hk
    | some rm => rw [hr] at hk; exact ⟨rm, rfl, (Option.some.inj hk).symm⟩
  refine ⟨⟨?_, ?_, ?_, ?_⟩, hlen, hround⟩
  · obtain ⟨rm, e1, _, e3⟩ := (C29_partial _ m d he.countable hd).1
    rw [List.getElem?_map, e1, ← h7, ← e3]
    rfl
  · intro k C D hC hD
    obtain ⟨rm, e1, rfl⟩ := hget k C hC
    obtain ⟨rm', e2, rfl⟩ := hget (k + 1) D hD
    obtain ⟨cnt, c1, c2, _, c3, c4⟩ := hround k rm e1
    have hk1 : k + 1 < d.run.rounds.length := by rw [← hlen]; exact (List.getElem?_eq_some_iff.1 e2).1
    obtain ⟨q1, x, y, vx, vy, q2, q3, q4⟩ := C31_goes_on _ m d he.countable hd k cnt c1 hk1
    refine ⟨?_, ?_⟩
    · intro c hc
      have := q1 c _ (c3 c hc)
      rw [c4] at this
      exact_mod_cast this
    · have hx : x ∈ rm.startingCands := by rw [← c2]; exact Dict.mem_keys_of_get? q2
      have hy : y ∈ rm.startingCands := by rw [← c2]; exact Dict.mem_keys_of_get? q3
      refine ⟨x, hx, y, hy, ?_⟩
      have ex := c3 x hx
      have ey := c3 y hy
      rw [q2] at ex
      rw [q3] at ey
      have ex := Option.some.inj ex
      have ey := Option.some.inj ey
      rw [ex, ey] at q4
      exact_mod_cast q4
  · intro k C D hC hD
    obtain ⟨rm, e1, rfl⟩ := hget k C hC
    obtain ⟨rm', e2, rfl⟩ := hget (k + 1) D hD
    obtain ⟨cnt, c1, c2, c5, c3, c4⟩ := hround k rm e1
    obtain ⟨q1, q2, q3, q4, q5, q6⟩ := (C33_eliminations _ m d he.countable hd).1 k rm rm' cnt e1 e2 c1
    refine ⟨rm.eliminated, q1, q2, q3, q6, ?_, ?_⟩
    · intro e hE c hc
      have := q4 e hE _ (c3 e (q3 e hE)) c _ (c3 c hc)
      exact_mod_cast this
    · rcases q5 with q5 | ⟨_, _, q5⟩
      · exact .inl q5
      · right
        intro c hc
        have hc' := List.mem_filter.1 (q6.mem_iff.1 hc)
        have := (q5 c hc'.1 (by simpa using hc'.2) _ (c3 c hc'.1)).2
        have e : rm.eliminated.map (fun e => (Dict.get? cnt e).getD 0) = rm.eliminated.map (fun e => (paperTop p rm.startingCands e : Int)) := by
          apply List.map_congr_left
          intro e hE
          rw [c3 e (q3 e hE)]; rfl
        rw [e, sum_cast] at this
        exact_mod_cast this
  · obtain ⟨cnt, rm, e1, e2, _, e4⟩ := C31_end _ m d he.countable he.nonneg hd
    have hk : d.run.roundmeta[d.run.roundmeta.length - 1]? = some rm := by rw [← List.getLast?_eq_getElem?]; exact e2
    obtain ⟨cnt', c1, c2, _, c3, c4⟩ := hround _ rm hk
    have hcc : cnt' = cnt := by
      rw [hlen, ← List.getLast?_eq_getElem?, e1] at c1
      exact (Option.some.inj c1).symm
    subst hcc
    refine ⟨rm.startingCands, by rw [List.getLast?_map, e2]; rfl, ?_⟩
    rcases e4 with ⟨v, e4, e5⟩ | ⟨w, v, e4, e5, e6⟩
    · left
      refine ⟨e5, v.toNat, ?_⟩
      intro c hc
      have := c3 c hc
      rw [e4 c hc] at this
      have := Option.some.inj this
      omega
    · right
      have hw : w ∈ rm.startingCands := by rw [← c2]; exact Dict.mem_keys_of_get? e5
      refine ⟨w, hw, e4, ?_⟩
      have := c3 w hw
      rw [e5] at this
      rw [Option.some.inj this, c4] at e6
      exact_mod_cast e6

/-- C103, instant runoff.  When no ballot has two candidates on a par, `abiftool -f abif -t irvjson FILE` prints an instant-runoff
count of the paper: for every round the candidates who are left with their votes, and the winners. -/
theorem C103_irv (env : CliEnv) (p : List PaperLine) (file : Str) (h : PaperOk p) (hl : (paperText p).length < 4999999998) (hf : PlainWord file)
    (hh : Holds env file (paperText p)) (hs : PaperStrict p) (hne : paperCands p ≠ []) (hnil : [] ∉ paperCands p) :
    ∃ doc rounds winners, CommandPrints env (command c!"irvjson" [] file) doc ∧ InstantRunoff p rounds winners ∧
      member c!"winner" doc = some (texts winners) ∧
      (∀ k C, rounds[k]? = some C → ∃ o, valueAt doc [.key c!"rounds", .idx k] = some o ∧ keysOf o = C ∧
        ∀ x ∈ C, member x o = some (.int (paperTop p C x))) ∧
      ∀ k, rounds.length ≤ k → valueAt doc [.key c!"rounds", .idx k] = none := by
  obtain ⟨a, m, vls, h1, h2, h3, h4, h5, h6, h7, h8⟩ := paper_runs (format := c!"irvjson") (mods := []) h (by show _ ∈ _; decide) (by simp) hf hh
  have he := paper_strictElection hl hs hnil h4 h5 h6 h7
  have hcne : m.candidates ≠ [] := by
    intro hz
    rw [hz] at h7
    exact hne h7.symm
  obtain ⟨d, hd, _⟩ := C28_parsed env.sched _ _ _ _ _ h4 hcne
  obtain ⟨doc, g1, _, _, g4, _, _, g7, _, g9, _⟩ := C90_irv env a _ m d h2 (parsed_cands_nodup _ _ _ _ _ h4) hd (.inl h3)
  obtain ⟨hrun, hlen, hround⟩ := paper_runoff h h5 h6 h7 he hd
  refine ⟨doc, d.run.roundmeta.map RoundMeta.startingCands, d.run.winner, h1 doc g1, hrun, g4, ?_, ?_⟩
  · intro k C hC
    rw [List.getElem?_map] at hC
    obtain ⟨rm, e1, rfl⟩ := Option.map_eq_some_iff.1 hC
    obtain ⟨cnt, c1, c2, _, c3, _⟩ := hround k rm e1
    obtain ⟨o, o1, o2, o3⟩ := g7 k cnt c1
    exact ⟨o, o1, by rw [o2, c2], fun x hx => o3 x _ (c3 x hx)⟩
  · intro k hk
    rw [List.length_map, hlen] at hk
    exact g9 k hk

end
section Examples
attribute [local instance] Uni.ascii
set_option maxRecDepth 40000

/-- three ranked and two scored ballots, a name, a note, a comment and a blank line -/
def exPaper : List PaperLine :=
  [.note c!"# an election", .ballots 2 (.scored [{ tok := c!"B", rating := some c!"5" }, { pre := c!" ", tok := c!"A", rating := some c!"2" }]) (some c!" late"),
   .cand c!"A" c!"Ann", .ballots 3 (.ranked [[{ tok := c!"A", post := c!" " }], [{ style := .bracket, tok := c!"B" }]]) none, .note []]

example : paperText exPaper = c!"# an election\n2:B/5, A/2# late\n=A:[Ann]\n3:A >[B]\n\n" := by decide +kernel

theorem exPaper_ok : PaperOk exPaper := by
  have clean : CleanToken c!"A" ∧ CleanToken c!"B" := by unfold CleanToken; decide +kernel
  have noslash : ∀ x : Char, x ≠ '/' → ¬ ∃ t ds, [x] = t ++ '/' :: ds ∧ ds ≠ [] ∧ ∀ c ∈ ds, isDigit c = true := by
    rintro x hx ⟨t, ds, e, hne, _⟩
    cases t with
    | nil => exact hx (List.cons.inj e).1
    | cons a t => have := congrArg List.length e; simp at this
  refine ⟨?_, 3, .ranked [[{ tok := c!"A", post := c!" " }], [{ style := .bracket, tok := c!"B" }]], none, by simp [exPaper]⟩
  intro l hl
  simp only [exPaper, List.mem_cons, List.not_mem_nil, or_false] at hl
  rcases hl with rfl | rfl | rfl | rfl | rfl
  · exact ⟨by decide +kernel, .inr (.inl rfl)⟩
  · refine ⟨⟨?_, by decide +kernel, fun ts h => (by cases h), fun its h => (by cases h; decide)⟩, ?_⟩
    · intro it hit
      simp only [Ballot.items, List.mem_cons, List.not_mem_nil, or_false] at hit
      rcases hit with rfl | rfl
      · refine ⟨⟨by decide +kernel, by decide +kernel, ?_, clean.2, by decide +kernel, fun h => (by cases h)⟩, by decide +kernel⟩
        intro ds h; cases h; decide +kernel
      · refine ⟨⟨by decide +kernel, by decide +kernel, ?_, clean.1, by decide +kernel, fun h => (by cases h)⟩, by decide +kernel⟩
        intro ds h; cases h; decide +kernel
    · intro t h; cases h; decide +kernel
  · refine ⟨⟨by decide, by decide +kernel, by decide +kernel, noslash 'A' (by decide)⟩, by decide +kernel⟩
  · refine ⟨⟨?_, by decide +kernel, fun ts h => (by cases h; decide), fun its h => (by cases h)⟩, fun t h => (by cases h)⟩
    intro it hit
    simp only [Ballot.items, List.flatten_cons, List.flatten_nil, List.cons_append, List.nil_append, List.mem_cons, List.not_mem_nil, or_false] at hit
    rcases hit with rfl | rfl
    · exact ⟨⟨by decide +kernel, by decide +kernel, fun ds h => (by cases h), clean.1, by decide +kernel, fun _ => noslash 'A' (by decide)⟩, by decide +kernel⟩
    · refine ⟨⟨by decide +kernel, by decide +kernel, fun ds h => (by cases h), by decide +kernel, ?_⟩, by decide +kernel⟩
      rw [show splitKeep isSepChar c!"B" = [c!"B"] by decide +kernel]
      simp only [List.mem_cons, List.not_mem_nil, or_false, forall_eq]
      exact clean.2
  · exact ⟨by decide, .inl (by decide)⟩

/-- the hypotheses of C103 are met -/
example : PaperStrict exPaper ∧ paperCands exPaper = [c!"B", c!"A"] ∧ (paperText exPaper).length < 100 ∧ [] ∉ paperCands exPaper := by
  unfold PaperStrict; decide +kernel

example : paperName exPaper c!"A" = c!"Ann" ∧ paperName exPaper c!"B" = c!"B" ∧ paperCount exPaper = 5 := by decide +kernel
example : paperPrefers exPaper c!"A" c!"B" = 3 ∧ paperPrefers exPaper c!"B" c!"A" = 2 := by decide +kernel
example : paperPoints exPaper c!"A" = 4 ∧ paperPoints exPaper c!"B" = 10 := by decide +kernel
example : paperTop exPaper [c!"A", c!"B"] c!"A" = 3 ∧ paperTop exPaper [c!"B"] c!"B" = 5 := by decide +kernel
example : PlainWord c!"v.abif" := .inl (by decide)

end Examples

end Verif.Props
