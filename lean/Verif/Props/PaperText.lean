/-
C103, continued: the text reports, in terms of what is written on the ballots.  Vocabulary: `Verif.Spec.Paper`.
-/
import Verif.Props.Paper
import Verif.Props.Report
import Verif.Props.IrvResult

set_option linter.unusedSimpArgs false
set_option linter.unusedSectionVars false

namespace Verif.Props
open Spec

section
variable [U : Uni]

/-- The command prints this text (and the newline of `print`) and ends well. -/
def CommandWrites (env : CliEnv) (argv : List Str) (text : Str) : Prop :=
  argvMain env argv = .ran ⟨text ++ c!"\n", .ok ()⟩

/-- `abiftool -f abif -t text -m SECTION FILE` -/
def textCommand (sect file : Str) : List Str := command c!"text" [sect] file

/-- the sections of the text output -/
theorem paper_text {env : CliEnv} {p : List PaperLine} {sect file : Str} (h : PaperOk p) (hx : sect ∈ textSections) (hf : PlainWord file)
    (hh : Holds env file (paperText p)) :
    ∃ w m vls, (∀ text, cliText env [sect] w m = .ok text → CommandWrites env (textCommand sect file) text) ∧
      (∀ e, cliText env [sect] w m = .error e → argvMain env (textCommand sect file) = .ran ⟨[], .error e⟩) ∧
      convertAbif false false false (paperText p) = .ok m ∧ List.Forall₂ HoldsBallots (paperVotes p) vls ∧ m.votelines.Perm vls ∧
      Dict.keys m.candidates = paperCands p ∧ (∀ x ∈ paperCands p, Dict.get? m.candidates x = some (some (paperName p x))) := by
  have hm : ∀ x ∈ [sect], (Use.mod x).Valid ∧ x ≠ c!"consolidate" ∧ x ≠ c!"jcomments" := by
    intro x e
    rw [List.mem_singleton] at e
    subst e
    revert x
    show ∀ x ∈ textSections, _ ∈ _ ∧ _
    decide
  obtain ⟨a, m, vls, h1, h2, h3, h4⟩ := paper_main (format := c!"text") (mods := [sect]) h (by show _ ∈ _; decide) hm hf hh
  have key : cliMain env a = endsWith (cliText env [sect] a.width m) := by
    refine runsOn_main h2 ?_
    rw [h3]
    exact .text
  refine ⟨a.width, m, vls, ?_, ?_, h4⟩
  · intro text ht
    show argvMain env (command c!"text" [sect] file) = _
    rw [h1, key, ht]; rfl
  · intro e ht
    show argvMain env (command c!"text" [sect] file) = _
    rw [h1, key, ht]; rfl

theorem paper_printed {p : List PaperLine} {m : Jabmod} {x : Str} (hx : x ∈ paperCands p)
    (h8 : ∀ x ∈ paperCands p, Dict.get? m.candidates x = some (some (paperName p x))) : printedName m x = paperName p x := by
  unfold printedName
  have : Dict.get? m.candidates x = some (some (paperName p x)) := h8 x hx
  rw [this]

theorem paper_total {p : List PaperLine} {m : Jabmod} {vls : List Voteline} (h5 : List.Forall₂ HoldsBallots (paperVotes p) vls)
    (h6 : m.votelines.Perm vls) : (m.votelines.map Voteline.qty).sum = (paperCount p : Int) := by
  have := paper_sum (P := fun _ => true) (q := fun _ => true) h5 h6 (fun _ _ _ => rfl)
  unfold qtySum paperSum at this
  rw [List.filter_eq_self.2 (by simp), List.filter_eq_self.2 (by simp)] at this
  exact this

/-- the number of ballots that give `x` points -/
def paperRaters (p : List PaperLine) (x : Str) : Nat := paperSum p (fun b => decide (0 < b.points x))

theorem paper_raters {p : List PaperLine} {m : Jabmod} {vls : List Voteline} (hok : ∀ v ∈ paperVotes p, v.2.Ok)
    (h5 : List.Forall₂ HoldsBallots (paperVotes p) vls) (h6 : m.votelines.Perm vls) (x : Str) : ratersOf m x = (paperRaters p x : Int) := by
  unfold ratersOf paperRaters paperSum
  rw [qtySum_perm _ h6]
  have : ∀ (votes : List (Nat × Ballot)) (vls : List Voteline), (∀ v ∈ votes, v.2.Ok) → List.Forall₂ HoldsBallots votes vls →
      List.Forall₂ (fun (v : Nat × Ballot) (vl : Voteline) => vl.qty = (v.1 : Int) ∧
        (fun vl : Voteline => decide (0 < ratingOf vl x)) vl = (fun b : Ballot => decide (0 < b.points x)) v.2) votes vls := by
    intro votes vls hv f
    induction f with
    | nil => exact .nil
    | cons g _ ih => exact .cons ⟨g.1, by simp only [holds_rating g (hv _ (by simp)) x]⟩ (ih (fun v hv' => hv v (by simp [hv'])))
  exact paper_qty (P := fun vl : Voteline => decide (0 < ratingOf vl x)) (q := fun b : Ballot => decide (0 < b.points x)) (this _ _ hok h5)

/-- C103, candidate list.  `abiftool -f abif -t text -m candlist FILE` prints the tokens of all candidates with their names, in
order of the tokens. -/
theorem C103_text_candlist (env : CliEnv) (p : List PaperLine) (file : Str) (h : PaperOk p) (hf : PlainWord file) (hh : Holds env file (paperText p)) :
    ∃ l : List Str, l.Perm (paperCands p) ∧ l.Pairwise (fun a b => strLe a b = true) ∧
      CommandWrites env (textCommand c!"candlist" file)
        (c!"Candidates:\n" ++ l.flatMap (fun x => c!"  " ++ x ++ c!": " ++ paperName p x ++ c!"\n")) := by
  obtain ⟨w, m, vls, h1, _, h4, h5, h6, h7, h8⟩ := paper_text (sect := c!"candlist") h (by decide) hf hh
  obtain ⟨l, g1, g2, g3⟩ := C66_candlist m
  refine ⟨l.map Prod.fst, by rw [← h7]; exact g1.map _, ?_, ?_⟩
  · rw [List.pairwise_map]; exact g2
  · apply h1
    rw [(cliText_single env w m).1, g3]
    congr 2
    rw [List.flatMap_map]
    have hn := parsed_cands_nodup _ _ _ _ _ h4
    have : ∀ kv ∈ l, kv.2 = some (paperName p kv.1) := by
      intro kv hkv
      have hkv := g1.mem_iff.1 hkv
      have e := Dict.get?_of_mem hn hkv
      rw [h8 kv.1 (by rw [← h7]; exact List.mem_map_of_mem hkv)] at e
      exact (Option.some.inj e).symm
    clear g1 g2 g3
    induction l with
    | nil => rfl
    | cons kv l ih =>
      rw [List.flatMap_cons, List.flatMap_cons, ih (fun x hx => this x (by simp [hx])), this kv (by simp)]
      rfl

/-- C103, scores.  `-t text -m score` prints one line for every candidate with its points and the number of ballots that give it
any, those with most points first (equals in the order in which they are first spoken of), the number of ballots, and the
first of these as the winner. -/
theorem C103_text_score (env : CliEnv) (p : List PaperLine) (file : Str) (h : PaperOk p) (hf : PlainWord file) (hh : Holds env file (paperText p))
    (hne : paperCands p ≠ []) :
    ∃ w rest, (w :: rest).Perm (paperCands p) ∧ (w :: rest).Pairwise (fun a b => paperPoints p b ≤ paperPoints p a) ∧
      (∀ s, (w :: rest).filter (fun c => decide (paperPoints p c = s)) = (paperCands p).filter (fun c => decide (paperPoints p c = s))) ∧
      CommandWrites env (textCommand c!"score" file)
        ((w :: rest).flatMap (fun x => c!"- " ++ intStr (paperPoints p x) ++ c!" points (from " ++ natStr (paperRaters p x) ++ c!" voters) -- " ++
          paperName p x ++ c!"\n") ++ (c!"Voter count: " ++ natStr (paperCount p) ++ c!"\n") ++ (c!"Score Winner: " ++ paperName p w ++ c!"\n")) := by
  obtain ⟨wd, m, vls, h1, _, h4, h5, h6, h7, h8⟩ := paper_text (sect := c!"score") h (by decide) hf hh
  have hbc := (C01_ballotcount _ _ _ _ _ h4).1
  have hcne : m.candidates ≠ [] := by
    intro hz
    rw [hz] at h7
    exact hne h7.symm
  obtain ⟨w, rest, g1, g2, g3, g4⟩ := C63_score m (parsed_scorable _ _ _ _ _ h4) _ hbc hcne
  have hsc : ∀ x, scoreOf m x = paperPoints p x := paper_score (paper_votesOk h) h5 h6
  have hra := paper_raters (paper_votesOk h) h5 h6
  simp only [hsc] at g2 g3
  have h7' : m.candidates.keys = paperCands p := h7
  rw [h7'] at g1 g3
  refine ⟨w, rest, g1, g2, g3, ?_⟩
  apply h1
  rw [(cliText_single env wd m).2.2.2.2.1, g4, paper_total h5 h6, paper_printed (g1.mem_iff.1 (by simp)) h8, C63_count_shown.1]
  congr 3
  have hmem : ∀ x ∈ w :: rest, x ∈ paperCands p := fun x hx => g1.mem_iff.1 hx
  generalize w :: rest = l at hmem
  induction l with
  | nil => rfl
  | cons x l ih =>
    rw [List.flatMap_cons, List.flatMap_cons, ih (fun y hy => hmem y (by simp [hy])), paper_printed (hmem x (by simp)) h8, hsc, hra]
    unfold reportLine
    simp [intStr]

/-- how many of the others `x` beats -/
def paperBeats (p : List PaperLine) (x : Str) : Nat := paperAgainst p x (fun a b => decide (b < a))

/-- how many of the others do not beat `x` -/
def paperUnbeaten (p : List PaperLine) (x : Str) : Nat := paperAgainst p x (fun a b => decide (b ≤ a))

theorem paper_beaten {p : List PaperLine} {m : Jabmod} {vls : List Voteline} (h5 : List.Forall₂ HoldsBallots (paperVotes p) vls)
    (h6 : m.votelines.Perm vls) (h7 : Dict.keys m.candidates = paperCands p) (x : Str) : beaten m x = (paperBeats p x : Int) := by
  unfold beaten countOpp paperBeats paperAgainst
  have h7' : m.candidates.keys = paperCands p := h7
  rw [h7']
  simp only [paper_support h5 h6]
  refine congrArg (fun n : Nat => (n : Int)) (congrArg List.length (List.filter_congr (fun y _ => ?_)))
  exact congrArg _ (decide_eq_decide.2 (by omega))

theorem paper_score2 {p : List PaperLine} {m : Jabmod} {vls : List Voteline} (h5 : List.Forall₂ HoldsBallots (paperVotes p) vls)
    (h6 : m.votelines.Perm vls) (h7 : Dict.keys m.candidates = paperCands p) (x : Str) :
    programScore2 m x = 2 * (paperUnbeaten p x : Int) := by
  unfold programScore2 countOpp paperUnbeaten paperAgainst
  have h7' : m.candidates.keys = paperCands p := h7
  rw [h7']
  simp only [paper_support h5 h6]
  rw [← Int.mul_add]
  congr 1
  generalize paperCands p = l
  induction l with
  | nil => rfl
  | cons y l ih =>
    simp only [List.filter_cons]
    by_cases hy : y = x
    · simp [hy]; simpa using ih
    · by_cases h1 : paperPrefers p y x < paperPrefers p x y
      · have h2 : ¬ (paperPrefers p x y : Int) = paperPrefers p y x := by omega
        have h3 : paperPrefers p y x ≤ paperPrefers p x y := by omega
        simp [hy, h1, h2, h3]; simp at ih; omega
      · by_cases h2 : paperPrefers p x y = paperPrefers p y x
        · simp [hy, h2]; simp at ih; omega
        · have h3 : ¬ paperPrefers p y x ≤ paperPrefers p x y := by omega
          have h2 : ¬ (paperPrefers p x y : Int) = paperPrefers p y x := by omega
          simp [hy, h1, h2, h3]; simpa using ih

/-- C103, Copeland.  `-t text -m Copeland` prints one candidate: one whom the most others do not beat (the program gives a tie as
much as a win, see C22), among these one who beats the most, among these the first spoken of; with that number. -/
theorem C103_text_copeland (env : CliEnv) (p : List PaperLine) (file : Str) (h : PaperOk p) (hl : (paperText p).length < 2 ^ 61)
    (hf : PlainWord file) (hh : Holds env file (paperText p)) (hne : paperCands p ≠ []) :
    ∃ w ∈ paperCands p, (∀ y ∈ paperCands p, y ≠ w → paperUnbeaten p y < paperUnbeaten p w ∨ (paperUnbeaten p y = paperUnbeaten p w ∧
        (paperBeats p y < paperBeats p w ∨ (paperBeats p y = paperBeats p w ∧ [w, y].Sublist (paperCands p))))) ∧
      CommandWrites env (textCommand c!"Copeland" file)
        (c!"Copeland Winner: " ++ paperName p w ++ c!" (score: " ++ natStr (paperUnbeaten p w) ++ c!".0)\n") := by
  obtain ⟨wd, m, vls, h1, _, h4, h5, h6, h7, h8⟩ := paper_text (sect := c!"Copeland") h (by decide) hf hh
  have h7' : m.candidates.keys = paperCands p := h7
  obtain ⟨cc, w, g1, g2, g3, g4⟩ := C65_exact m (parsed_allRanked _ _ _ _ _ h4 hl) (parsed_cands_nodup _ _ _ _ _ h4) (by rw [h7']; exact hne)
  rw [h7'] at g2
  simp only [paper_score2 h5 h6 h7, paper_beaten h5 h6 h7, h7'] at g3
  refine ⟨w, g2, ?_, ?_⟩
  · intro y hy hyw
    rcases g3 y hy hyw with g | ⟨g, g' | ⟨g', g''⟩⟩
    · left; omega
    · right; exact ⟨by omega, .inl (by omega)⟩
    · right; exact ⟨by omega, .inr ⟨by omega, g''⟩⟩
  · apply h1
    rw [(cliText_single env wd m).2.2.2.2.2.2, g1]
    show copelandReport m.candidates cc = _
    rw [g4, paper_printed g2 h8, paper_score2 h5 h6 h7, Int.mul_ediv_cancel_left _ (by decide)]
    rfl

/-- C103, Condorcet winners.  A candidate who beats every other on the paper is the one that `-t text -m Copeland` prints. -/
theorem C103_condorcet (env : CliEnv) (p : List PaperLine) (file : Str) (h : PaperOk p) (hl : (paperText p).length < 2 ^ 61)
    (hf : PlainWord file) (hh : Holds env file (paperText p)) (x : Str) (hx : x ∈ paperCands p)
    (hw : ∀ y ∈ paperCands p, y ≠ x → paperPrefers p y x < paperPrefers p x y) :
    CommandWrites env (textCommand c!"Copeland" file)
      (c!"Copeland Winner: " ++ paperName p x ++ c!" (score: " ++ natStr ((paperCands p).length - 1) ++ c!".0)\n") := by
  obtain ⟨w, g1, g2, g3⟩ := C103_text_copeland env p file h hl hf hh (List.ne_nil_of_mem hx)
  have hnd : (paperCands p).Nodup := by
    obtain ⟨wd, m, vls, h1, _, h4, h5, h6, h7, h8⟩ := paper_text (sect := c!"Copeland") h (by decide) hf hh
    rw [← h7]; exact parsed_cands_nodup _ _ _ _ _ h4
  have hall : ∀ (l : List Str), l.Nodup → x ∈ l → (l.filter (fun y => decide (y ≠ x))).length = l.length - 1 := by
    intro l hn hm
    have e : l.filter (fun y => decide (y ≠ x)) = l.erase x := by
      rw [hn.erase_eq_filter]
      apply List.filter_congr
      intro y _
      by_cases e : y = x <;> simp [e]
    rw [e, List.length_erase_of_mem hm]
  have hux : paperUnbeaten p x = (paperCands p).length - 1 := by
    unfold paperUnbeaten paperAgainst
    rw [← hall _ hnd hx]
    congr 1
    apply List.filter_congr
    intro y hy
    by_cases e : y = x
    · simp [e]
    · have := hw y hy e
      simp [e]; omega
  have hwx : w = x := by
    by_contra hne
    have hle : paperUnbeaten p w < (paperCands p).length - 1 := by
      unfold paperUnbeaten paperAgainst
      have e2 : ((paperCands p).filter (fun y => decide (y ≠ w))).length = (paperCands p).length - 1 := by
        have e : (paperCands p).filter (fun y => decide (y ≠ w)) = (paperCands p).erase w := by
          rw [hnd.erase_eq_filter]
          apply List.filter_congr
          intro y _
          by_cases e : y = w <;> simp [e]
        rw [e, List.length_erase_of_mem g1]
      rw [← e2]
      have hin : x ∈ (paperCands p).filter (fun y => decide (y ≠ w)) := List.mem_filter.2 ⟨hx, by simpa using fun e => hne e.symm⟩
      have : ((paperCands p).filter (fun y => decide (y ≠ w) && decide (paperPrefers p y w ≤ paperPrefers p w y))) =
          ((paperCands p).filter (fun y => decide (y ≠ w))).filter (fun y => decide (paperPrefers p y w ≤ paperPrefers p w y)) := by
        rw [List.filter_filter]
        apply List.filter_congr
        intro y _
        rw [Bool.and_comm]
      rw [this]
      refine Nat.lt_of_le_of_ne (List.length_filter_le _ _) ?_
      intro e
      have := List.length_filter_eq_length_iff.1 e x hin
      simp only [decide_eq_true_eq] at this
      have := hw w g1 hne
      omega
    rcases g2 x hx (fun e => hne e.symm) with g | ⟨g, _⟩ <;> omega
  subst hwx
  rw [hux] at g3
  exact g3

theorem le_sum_mem {l : List Str} {f : Str → Nat} {y : Str} (hy : y ∈ l) : f y ≤ (l.map f).sum := by
  induction l with
  | nil => cases hy
  | cons a l ih =>
    rw [List.map_cons, List.sum_cons]
    rcases List.mem_cons.1 hy with rfl | hy
    · omega
    · have := ih hy; omega

/-- an instant-runoff count with a majority in the first round -/
theorem runoff_majority {p : List PaperLine} {rounds : List (List Str)} {winners : List Str} (h : InstantRunoff p rounds winners) (w : Str)
    (hw : w ∈ paperCands p) (hmaj : ((paperCands p).map (paperTop p (paperCands p))).sum < 2 * paperTop p (paperCands p) w) :
    winners = [w] ∧ rounds = [paperCands p] := by
  have hone : rounds = [paperCands p] := by
    cases hr : rounds with
    | nil => have := h.first; rw [hr] at this; cases this
    | cons C rest =>
      have h0 := h.first
      rw [hr] at h0
      obtain rfl := Option.some.inj h0
      cases hrest : rest with
      | nil => rfl
      | cons D rest' =>
        have := (h.notYet 0 (paperCands p) D (by rw [hr]; rfl) (by rw [hr, hrest]; rfl)).1 w hw
        omega
  refine ⟨?_, hone⟩
  obtain ⟨C, hC, hlast⟩ := h.last
  rw [hone] at hC
  have hC : paperCands p = C := Option.some.inj hC
  subst hC
  have h2 : ∀ (l : List Str) (f : Str → Nat), w ∈ l → ∀ v ∈ l, v ≠ w → f w + f v ≤ (l.map f).sum := by
    intro l f
    induction l with
    | nil => intro hm; cases hm
    | cons a l ih =>
      intro hm v hv hne
      have hsum : ∀ y ∈ l, f y ≤ (l.map f).sum := fun y hy => le_sum_mem hy
      rw [List.map_cons, List.sum_cons]
      rcases List.mem_cons.1 hm with rfl | hm'
      · rcases List.mem_cons.1 hv with rfl | hv
        · exact absurd rfl hne
        · have := hsum v hv; omega
      · rcases List.mem_cons.1 hv with rfl | hv
        · have := hsum w hm'; omega
        · have := ih hm' v hv hne; omega
  rcases hlast with ⟨e, v, hv⟩ | ⟨w', hw', e, hm'⟩
  · -- a tie of all: then there is nobody else
    have : ∀ x ∈ paperCands p, x = w := by
      intro x hx
      by_contra hne
      have a := h2 _ (paperTop p (paperCands p)) hw x hx hne
      rw [hv x hx, hv w hw] at a
      rw [hv w hw] at hmaj
      omega
    rw [e]
    have hnd : (paperCands p).Nodup := nodup_firsts _
    revert hnd hw this
    generalize paperCands p = l
    intro hw this hnd
    match l with
    | [] => cases hw
    | [a] => rw [this a (by simp)]
    | a :: b :: l =>
      have ha := this a (by simp)
      have hb := this b (by simp)
      rw [ha, hb] at hnd
      exact absurd hnd (by simp)
  · by_cases hww : w' = w
    · rw [e, hww]
    · have := h2 _ (paperTop p (paperCands p)) hw w' hw' hww
      omega

/-- C103, majority.  When no ballot has two candidates on a par and more than half of the ballots that name anybody have `w`
first, `-t irvjson` prints one round and `w` as the only winner. -/
theorem C103_majority (env : CliEnv) (p : List PaperLine) (file : Str) (h : PaperOk p) (hl : (paperText p).length < 4999999998) (hf : PlainWord file)
    (hh : Holds env file (paperText p)) (hs : PaperStrict p) (hnil : [] ∉ paperCands p) (w : Str) (hw : w ∈ paperCands p)
    (hmaj : ((paperCands p).map (paperTop p (paperCands p))).sum < 2 * paperTop p (paperCands p) w) :
    ∃ doc, CommandPrints env (command c!"irvjson" [] file) doc ∧ member c!"winner" doc = some (texts [w]) ∧
      valueAt doc [.key c!"rounds", .idx 1] = none := by
  obtain ⟨doc, rounds, winners, g1, g2, g3, _, g5⟩ := C103_irv env p file h hl hf hh hs (List.ne_nil_of_mem hw) hnil
  obtain ⟨rfl, rfl⟩ := runoff_majority g2 w hw hmaj
  exact ⟨doc, g1, g3, g5 1 (by simp)⟩

/-- C103, instant runoff as text.  When no ballot has two candidates on a par, `-t text -m IRV` prints an instant-runoff count of
the paper: one block per round with the candidates who are left in alphabetic order and the votes of each, and a last line
with the winner or the winners. -/
theorem C103_text_irv (env : CliEnv) (p : List PaperLine) (file : Str) (h : PaperOk p) (hl : (paperText p).length < 4999999998) (hf : PlainWord file)
    (hh : Holds env file (paperText p)) (hs : PaperStrict p) (hne : paperCands p ≠ []) (hnil : [] ∉ paperCands p) :
    ∃ (rounds : List (List Str)) (winners : List Str) (blocks : List Str) (last : Str), InstantRunoff p rounds winners ∧
      CommandWrites env (textCommand c!"IRV" file) (blocks.flatten ++ last) ∧ blocks.length = rounds.length ∧
      (∀ k C block, rounds[k]? = some C → blocks[k]? = some block →
        (∃ start : List Str, start.Perm C ∧ start.Pairwise (fun a b => strLe a b = true) ∧
          (c!"\nRound " ++ natStr (k + 1) ++ c!":\n" ++ c!"  Starting cands: " ++ joinStr c!", " start ++ c!"\n") <+: block) ∧
        ∀ x ∈ C, (c!"\n    " ++ x ++ c!": " ++ natStr (paperTop p C x) ++ c!"\n") <:+: block) ∧
      ((∃ w, winners = [w] ∧ last = c!"The IRV winner is " ++ w ++ c!"\n") ∨
       (∃ ws : List Str, ws.Perm winners ∧ ws.Pairwise (fun a b => strLe a b = true) ∧ 2 ≤ ws.length ∧
          last = c!"The IRV winners are " ++ joinStr c!" and " ws ++ c!"\n")) := by
  obtain ⟨wd, m, vls, h1, _, h4, h5, h6, h7, h8⟩ := paper_text (sect := c!"IRV") h (by decide) hf hh
  have he := paper_strictElection hl hs hnil h4 h5 h6 h7
  have hcne : m.candidates ≠ [] := by
    intro hz
    rw [hz] at h7
    exact hne h7.symm
  have hnames : ∀ c, Dict.get? m.candidates c ≠ some none := by
    intro c e
    rw [h8 c (by rw [← h7]; exact Dict.mem_keys_of_get? e)] at e
    cases e
  obtain ⟨d, blocks, last, hd, g1, g2, g3, g4⟩ := C62_report env.sched m he.countable hcne hnames
  obtain ⟨hrun, hlen, hround⟩ := paper_runoff h h5 h6 h7 he hd
  refine ⟨_, _, blocks, last, hrun, ?_, by rw [g2, List.length_map, hlen], ?_, g4⟩
  · apply h1
    rw [(cliText_single env wd m).2.2.2.1, hd]
    exact g1
  · intro k C block hC hb
    rw [List.getElem?_map] at hC
    obtain ⟨rm, e1, rfl⟩ := Option.map_eq_some_iff.1 hC
    obtain ⟨cnt, c1, c2, _, c3, _⟩ := hround k rm e1
    obtain ⟨⟨start, s1, s2, s3⟩, s4, _⟩ := g3 k block cnt rm hb c1 e1
    refine ⟨⟨start, s1, s2, ?_⟩, ?_⟩
    · refine List.IsPrefix.trans ?_ s3
      simp only [List.append_assoc, List.prefix_append_right_inj]
      exact List.prefix_append _ _
    · intro x hx
      have := s4 x _ (Dict.mem_of_get? (c3 x hx))
      exact this

/-- C103, STAR as text.  When everybody who is named on a ballot is given points, and at least two candidates are spoken of, `-t text -m
STAR` prints the number of ballots, the points of everybody from the most down, the two finalists with the number of
ballots that put each above the other, and the finalist put above the other by more ballots, or both names after `tie`. -/
theorem C103_text_star (env : CliEnv) (p : List PaperLine) (file : Str) (h : PaperOk p) (hl : (paperText p).length < 2 ^ 61) (hf : PlainWord file)
    (hh : Holds env file (paperText p)) (h2 : 2 ≤ (paperCands p).length)
    (hpts : ∀ v ∈ paperVotes p, v.2.items ≠ [] ∧ ∀ it ∈ v.2.items, it.number ≠ 0) :
    ∃ f1 f2 rest winner, (f1 :: f2 :: rest).Perm (paperCands p) ∧ (f1 :: f2 :: rest).Pairwise (fun x y => paperPoints p y ≤ paperPoints p x) ∧
      (paperPrefers p f2 f1 < paperPrefers p f1 f2 ∧ winner = paperName p f1 ∨
        paperPrefers p f1 f2 < paperPrefers p f2 f1 ∧ winner = paperName p f2 ∨
        paperPrefers p f1 f2 = paperPrefers p f2 f1 ∧ winner = c!"tie " ++ paperName p f1 ++ c!" and " ++ paperName p f2) ∧
      CommandWrites env (textCommand c!"STAR" file)
        (c!"Total voters: " ++ natStr (paperCount p) ++ c!"\n" ++ c!"Scores:\n" ++
          (f1 :: f2 :: rest).flatMap (fun x => c!"- " ++ intStr (paperPoints p x) ++ c!" stars (from " ++ natStr (paperRaters p x) ++ c!" voters) -- " ++
            paperName p x ++ c!"\n") ++ c!"Finalists: \n" ++
          (c!"- " ++ paperName p f1 ++ c!" preferred by " ++ natStr (paperPrefers p f1 f2) ++ c!" of " ++ natStr (paperCount p) ++ c!" voters\n") ++
          (c!"- " ++ paperName p f2 ++ c!" preferred by " ++ natStr (paperPrefers p f2 f1) ++ c!" of " ++ natStr (paperCount p) ++ c!" voters\n") ++
          (c!"- " ++ natStr (paperSum p (fun b => !b.above f1 f2 && !b.above f2 f1)) ++ c!" abstentions\n") ++
          (c!"STAR Winner: " ++ winner ++ c!"\n")) := by
  obtain ⟨wd, m, vls, h1, _, h4, h5, h6, h7, h8⟩ := paper_text (sect := c!"STAR") h (by decide) hf hh
  have h7' : m.candidates.keys = paperCands p := h7
  have hbc := (C01_ballotcount _ _ _ _ _ h4).1
  have hcl : 2 ≤ m.candidates.length := by
    have := congrArg List.length h7
    unfold Dict.keys at this
    rw [List.length_map] at this
    omega
  have hpair : ∀ vl ∈ m.votelines, ∃ v ∈ paperVotes p, HoldsBallots v vl := by
    intro vl hvl
    have hvl := h6.mem_iff.1 hvl
    clear h1 h6 hh hf
    generalize paperVotes p = votes at h5
    clear hpts
    induction h5 with
    | nil => cases hvl
    | cons g _ ih =>
      rcases List.mem_cons.1 hvl with rfl | hvl
      · exact ⟨_, by simp, g⟩
      · obtain ⟨v, hv, hb⟩ := ih hvl
        exact ⟨v, by simp [hv], hb⟩
  have hsec : starSection m = starReport m := by
    have hvne : m.votelines ≠ [] := by
      obtain ⟨n, b, com, hmem⟩ := h.2
      intro hz
      rw [hz] at h6
      have := h6.length_eq
      rw [← h5.length_eq] at this
      have hv : (n, b) ∈ paperVotes p := List.mem_filterMap.2 ⟨_, hmem, rfl⟩
      rw [List.length_nil, eq_comm, List.length_eq_zero_iff] at this
      rw [this] at hv; cases hv
    refine (C67_partial m hvne ?_).1 ?_
    · intro vl hvl hz
      obtain ⟨v, hv, hb⟩ := hpair vl hvl
      have := hb.2.2.1
      rw [hz] at this
      exact (hpts v hv).1 (List.map_eq_nil_iff.1 this.symm)
    · intro vl hvl kp hkp
      obtain ⟨v, hv, hb⟩ := hpair vl hvl
      have hk : kp.1 ∈ Dict.keys vl.prefs := List.mem_map_of_mem hkp
      rw [hb.2.2.1] at hk
      obtain ⟨it, hit, e⟩ := List.mem_map.1 hk
      obtain ⟨pr, q1, q2⟩ := hb.2.2.2 it hit
      have hwf : (Dict.keys vl.prefs).Nodup := by rw [hb.2.2.1]; exact (paper_votesOk h v hv).nodup
      have q3 := Dict.get?_of_mem hwf hkp
      rw [← e, q1] at q3
      rw [← Option.some.inj q3, q2]
      have hn := (hpts v hv).2 it hit
      unfold Item.number at hn
      unfold Item.value
      cases hr : it.rating with
      | none => rw [hr] at hn; exact absurd rfl hn
      | some ds =>
        rw [hr] at hn
        have hds : digitsVal ds ≠ 0 := by intro e; simp [e] at hn
        cases hst : it.style with
        | quoted =>
          have : ds ≠ [] := by rintro rfl; exact hds rfl
          cases ds with
          | nil => exact absurd rfl this
          | cons c ds => rfl
        | bare => simp only [hds, if_false]; simpa [ratingTruthy] using hds
        | bracket => simp only [hds, if_false]; simpa [ratingTruthy] using hds
  obtain ⟨f1, f2, rest, winner, g1, g2, g3, g4⟩ := C64_star m (parsed_scorable _ _ _ _ _ h4) (parsed_allRanked _ _ _ _ _ h4 hl) hbc hcl
  have hsc : ∀ x, scoreOf m x = paperPoints p x := paper_score (paper_votesOk h) h5 h6
  have hra := paper_raters (paper_votesOk h) h5 h6
  have hsu := paper_support h5 h6
  simp only [hsc] at g2
  rw [h7'] at g1
  have hmem : ∀ x ∈ f1 :: f2 :: rest, x ∈ paperCands p := fun x hx => g1.mem_iff.1 hx
  have hind : qtySum (fun vl => indifferent vl f1 f2) m.votelines = (paperSum p (fun b => !b.above f1 f2 && !b.above f2 f1) : Nat) :=
    paper_sum h5 h6 (fun v vl hv => by
      unfold indifferent
      rw [hv.2.1, hv.2.1])
  have n1 := paper_printed (hmem f1 (by simp)) h8
  have n2 := paper_printed (hmem f2 (by simp)) h8
  rw [hsu, hsu, n1, n2] at g3
  refine ⟨f1, f2, rest, winner, g1, g2, ?_, ?_⟩
  · rcases g3 with ⟨a, b⟩ | ⟨a, b⟩ | ⟨a, b⟩
    · exact .inl ⟨by omega, b⟩
    · exact .inr (.inl ⟨by omega, b⟩)
    · exact .inr (.inr ⟨by omega, b⟩)
  · apply h1
    rw [(cliText_single env wd m).2.2.2.2.2.1, hsec, g4, paper_total h5 h6, hsu, hsu, n1, n2, hind]
    have : (f1 :: f2 :: rest).flatMap (fun c => reportLine c!"stars" (scoreOf m c) (ratersOf m c) (printedName m c)) =
        (f1 :: f2 :: rest).flatMap (fun x => c!"- " ++ intStr (paperPoints p x) ++ c!" stars (from " ++ natStr (paperRaters p x) ++ c!" voters) -- " ++
            paperName p x ++ c!"\n") := by
      generalize f1 :: f2 :: rest = l at hmem
      induction l with
      | nil => rfl
      | cons x l ih =>
        rw [List.flatMap_cons, List.flatMap_cons, ih (fun y hy => hmem y (by simp [hy])), paper_printed (hmem x (by simp)) h8, hsc, hra]
        unfold reportLine
        simp [intStr]
    rw [this]
    rfl

end
section Examples
attribute [local instance] Uni.ascii
set_option maxRecDepth 40000

/-- the hypotheses of C103_condorcet and C103_majority are met: Ann wins, 3 to 2 -/
example : c!"A" ∈ paperCands exPaper ∧ (∀ y ∈ paperCands exPaper, y ≠ c!"A" → paperPrefers exPaper y c!"A" < paperPrefers exPaper c!"A" y) ∧
    ((paperCands exPaper).map (paperTop exPaper (paperCands exPaper))).sum < 2 * paperTop exPaper (paperCands exPaper) c!"A" := by decide +kernel

example : paperUnbeaten exPaper c!"A" = 1 ∧ paperBeats exPaper c!"A" = 1 ∧ paperUnbeaten exPaper c!"B" = 0 ∧ paperRaters exPaper c!"B" = 2 := by
  decide +kernel

/-- the hypotheses of C103_text_star are met by the first three lines alone -/
example : PaperOk (exPaper.take 3) ∧ 2 ≤ (paperCands (exPaper.take 3)).length ∧
    ∀ v ∈ paperVotes (exPaper.take 3), v.2.items ≠ [] ∧ ∀ it ∈ v.2.items, it.number ≠ 0 := by
  refine ⟨⟨fun l hl => exPaper_ok.1 l (List.mem_of_mem_take hl), _, _, _, List.mem_cons_of_mem _ List.mem_cons_self⟩, by decide +kernel, by decide +kernel⟩

end Examples
end Verif.Props
