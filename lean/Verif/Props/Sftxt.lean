/-
C47, C48: San Francisco fixed-width files.
-/
import Verif.Lib.Sftxt
import Verif.Props.Token
import Verif.Props.Consolidate
import Mathlib.Data.List.Forall2
import Mathlib.Tactic.Tauto
import Mathlib.Tactic.Set

set_option linter.unusedSimpArgs false
set_option linter.unusedSectionVars false

namespace Verif.Props
open Verif Spec

section
variable [U : Uni]

/-- C48.  For every spec and every text: when every line has as many columns as the spec, each line becomes the record
that has, under each field name, the columns from the end of the field before to the end of the field;
otherwise it is an error. -/
theorem C48_split (fs : List SfField) (h : SpecOk fs) (blob : Str) :
    readBlob (fieldspecText fs) blob =
      if ∀ l ∈ splitlines blob, columns fs ≤ l.length then
        .ok ((splitlines blob).map (fun l => (withStart 0 fs).map (fun pf => (some pf.2.name, slice l pf.1 pf.2.last))))
      else .error .valueError := by
  unfold readBlob
  rw [readFieldspec_spec h]
  simp only
  apply mapM_all_or_error
  intro l hl
  have hd : ∀ c ∈ l, isDot c = true := isDot_of_noBreak (splitlines_noBreak blob l hl)
  have := sfFields_spec (fs := fs) (pos := 0) (line := l) hd (by omega)
    (by rw [List.pairwise_cons]; exact ⟨by simp, h.2.1⟩) h.2.2 [] (by simp [Dict.keys])
  rw [List.drop_zero] at this
  unfold sfRecord
  rw [this]
  rfl

/-- C48.  The fields of a record, put together, are the start of the line, up to the last column of the spec. -/
theorem C48_concat (fs : List SfField) (h : SpecOk fs) (line : Str) :
    ((withStart 0 fs).map (fun pf => slice line pf.1 pf.2.last)).flatten = line.take (columns fs) := by
  have := slices_flatten (fs := fs) (pos := 0) (line := line) (by rw [List.pairwise_cons]; exact ⟨by simp, h.2.1⟩)
  simpa [columns, columnsFrom] using this

end

section
variable [U : Uni]

/-- the fields of `imageSpec` -/
def imgFields : List SfField :=
  [⟨c!"Contest_Id", 7, 7⟩, ⟨c!"Pref_Voter_Id", 16, 9⟩, ⟨c!"Serial_Number", 23, 7⟩, ⟨c!"Tally_Type_Id", 26, 3⟩,
   ⟨c!"Precinct_Id", 33, 7⟩, ⟨c!"Vote_Rank", 36, 3⟩, ⟨c!"Candidate_Id", 43, 7⟩, ⟨c!"Over_Vote", 44, 1⟩, ⟨c!"Under_Vote", 45, 1⟩]

/-- the fields of `masterSpec` -/
def masterFields : List SfField :=
  [⟨c!"Record_Type", 10, 10⟩, ⟨c!"Id", 17, 7⟩, ⟨c!"Description", 67, 50⟩, ⟨c!"List_Order", 74, 7⟩,
   ⟨c!"Candidates_Contest_Id", 81, 7⟩, ⟨c!"Is_WriteIn", 82, 1⟩, ⟨c!"Is_Provisional", 83, 1⟩]

set_option maxRecDepth 20000 in
theorem imageSpec_eq : imageSpec = fieldspecText imgFields := by decide +kernel
set_option maxRecDepth 20000 in
theorem masterSpec_eq : masterSpec = fieldspecText masterFields := by decide +kernel

instance (fs : List SfField) : Decidable (SpecOk fs) := by unfold SpecOk; infer_instance

theorem imgFields_ok : SpecOk imgFields := by decide +kernel
theorem masterFields_ok : SpecOk masterFields := by decide +kernel

/-- names and widths -/
def imgWidths : List (Option Str × Int) :=
  [(some c!"Contest_Id", (7 : Nat)), (some c!"Pref_Voter_Id", (9 : Nat)), (some c!"Serial_Number", (7 : Nat)), (some c!"Tally_Type_Id", (3 : Nat)),
   (some c!"Precinct_Id", (7 : Nat)), (some c!"Vote_Rank", (3 : Nat)), (some c!"Candidate_Id", (7 : Nat)), (some c!"Over_Vote", (1 : Nat)), (some c!"Under_Vote", (1 : Nat))]

def masterWidths : List (Option Str × Int) :=
  [(some c!"Record_Type", (10 : Nat)), (some c!"Id", (7 : Nat)), (some c!"Description", (50 : Nat)), (some c!"List_Order", (7 : Nat)),
   (some c!"Candidates_Contest_Id", (7 : Nat)), (some c!"Is_WriteIn", (1 : Nat)), (some c!"Is_Provisional", (1 : Nat))]

theorem readFieldspec_image : readFieldspec imageSpec = .ok imgWidths := by
  rw [imageSpec_eq, readFieldspec_spec imgFields_ok]
  rfl

theorem readFieldspec_master : readFieldspec masterSpec = .ok masterWidths := by
  rw [masterSpec_eq, readFieldspec_spec masterFields_ok]
  rfl

theorem sfFields_step {n : Option Str} {w : Nat} {fs : List (Option Str × Int)} {x rest : Str} {d : Dict (Option Str) Str}
    (hw : x.length = w) (hx : ∀ c ∈ x ++ rest, isDot c = true) :
    sfFields ((n, (w : Int)) :: fs) (x ++ rest) d = sfFields fs rest (Dict.set d n x) := by
  rw [sfFields, fieldMatch_nat _ _ hx, if_pos (by simp; omega), List.take_left' hw, List.drop_left' hw]

/-- the record of an image line -/
def imgRow (l : ImgLine) : Dict (Option Str) Str :=
  [(some c!"Contest_Id", l.contest), (some c!"Pref_Voter_Id", l.voter), (some c!"Serial_Number", l.serial), (some c!"Tally_Type_Id", l.tally),
   (some c!"Precinct_Id", l.precinct), (some c!"Vote_Rank", l.rank), (some c!"Candidate_Id", l.cand), (some c!"Over_Vote", l.over), (some c!"Under_Vote", l.under)]

def masterRow (r : MasterRec) : Dict (Option Str) Str :=
  [(some c!"Record_Type", r.rtype), (some c!"Id", r.id), (some c!"Description", r.desc), (some c!"List_Order", r.order),
   (some c!"Candidates_Contest_Id", r.contest), (some c!"Is_WriteIn", r.writeIn), (some c!"Is_Provisional", r.provisional)]

theorem sfRecord_image {l : ImgLine} (h : l.Ok) : sfRecord imgWidths l.text = .ok (imgRow l) := by
  obtain ⟨⟨h1, h2, h3, h4, h5, h6, h7, h8, h9⟩, _, hb⟩ := h
  have hd := isDot_of_noBreak hb
  unfold ImgLine.text at hd ⊢
  unfold sfRecord imgWidths
  have t : ∀ {a b : Str}, (∀ c ∈ a ++ b, isDot c = true) → ∀ c ∈ b, isDot c = true := fun h c hc => h c (List.mem_append_right _ hc)
  rw [sfFields_step h1 hd]; replace hd := t hd
  rw [sfFields_step h2 hd]; replace hd := t hd
  rw [sfFields_step h3 hd]; replace hd := t hd
  rw [sfFields_step h4 hd]; replace hd := t hd
  rw [sfFields_step h5 hd]; replace hd := t hd
  rw [sfFields_step h6 hd]; replace hd := t hd
  rw [sfFields_step h7 hd]; replace hd := t hd
  rw [sfFields_step h8 hd]; replace hd := t hd
  rw [sfFields_step h9 hd]
  rfl

theorem sfRecord_master {r : MasterRec} (h : r.Ok) : sfRecord masterWidths r.text = .ok (masterRow r) := by
  obtain ⟨⟨h1, h2, h3, h4, h5, h6, h7⟩, hb⟩ := h
  have hd := isDot_of_noBreak hb
  unfold MasterRec.text at hd ⊢
  unfold sfRecord masterWidths
  have t : ∀ {a b : Str}, (∀ c ∈ a ++ b, isDot c = true) → ∀ c ∈ b, isDot c = true := fun h c hc => h c (List.mem_append_right _ hc)
  rw [sfFields_step h1 hd]; replace hd := t hd
  rw [sfFields_step h2 hd]; replace hd := t hd
  rw [sfFields_step h3 hd]; replace hd := t hd
  rw [sfFields_step h4 hd]; replace hd := t hd
  rw [sfFields_step h5 hd]; replace hd := t hd
  rw [sfFields_step h6 hd]; replace hd := t hd
  rw [sfFields_step h7 hd]
  rfl

theorem readBlob_master {rs : List MasterRec} (h : ∀ r ∈ rs, r.Ok) : readBlob masterSpec (masterText rs) = .ok (rs.map masterRow) := by
  unfold readBlob
  rw [readFieldspec_master]
  simp only
  have e : masterText rs = (rs.map MasterRec.text).flatMap (fun l => l ++ ['\n']) := by
    unfold masterText; rw [List.flatMap_map]
  rw [e, splitlines_lines, List.mapM_map]
  · exact mapM_ok (fun r hr => sfRecord_master (h r hr))
  · intro l hl
    obtain ⟨r, hr, rfl⟩ := List.mem_map.1 hl
    exact (h r hr).2

theorem imageText_lines {ls : List ImgLine} (h : ∀ l ∈ ls, l.Ok) : splitlines (imageText ls) = ls.map ImgLine.text := by
  have e : imageText ls = (ls.map ImgLine.text).flatMap (fun l => l ++ ['\n']) := by
    unfold imageText; rw [List.flatMap_map]
  rw [e, splitlines_lines]
  intro l hl
  obtain ⟨r, hr, rfl⟩ := List.mem_map.1 hl
  exact (h r hr).2.2

/-! ### the candidate pool -/

theorem sfPoolStep_row {r : MasterRec} (hr : r.Ok) (pool : Dict Str (Option Str)) {ct : Option Str} (hct : ct ≠ some []) :
    sfPoolStep (pool, ct) (masterRow r) = .ok
      (if strip r.rtype = c!"Candidate" then Dict.set pool r.id (some (strip r.desc)) else pool,
       ct.or (if strip r.rtype = c!"Contest" then some r.id else none)) := by
  unfold sfPoolStep
  have e1 : Dict.getE (masterRow r) (some c!"Record_Type") = .ok r.rtype := rfl
  have e2 : Dict.getE (masterRow r) (some c!"Id") = .ok r.id := rfl
  have e3 : Dict.getE (masterRow r) (some c!"Description") = .ok r.desc := rfl
  simp only [e1, e2, e3, hct, or_false]
  by_cases h1 : strip r.rtype = c!"Candidate"
  · have h2 : ¬ strip r.rtype = c!"Contest" := by rw [h1]; decide
    simp only [h1, ok_bind, if_true]
    rw [if_neg (by simp)]
    cases ct <;> rfl
  · rw [if_neg h1]
    by_cases h2 : strip r.rtype = c!"Contest"
    · cases ct with
      | none => simp [h2, ok_bind]
      | some x => simp [h2, ok_bind]
    · cases ct with
      | none => simp [h1, h2, ok_bind]
      | some x => simp [h1, h2, ok_bind]


theorem getLast?_filter_cons {α : Type} (p : α → Bool) (a : α) (l : List α) :
    ((a :: l).filter p).getLast? = ((l.filter p).getLast?).or (if p a then some a else none) := by
  by_cases h : p a = true
  · rw [List.filter_cons_of_pos h, if_pos h]
    cases hl : l.filter p with
    | nil => rfl
    | cons b t => rw [List.getLast?_cons_cons]; cases hx : (b :: t).getLast? with
      | none => simp at hx
      | some x => rfl
  · rw [List.filter_cons_of_neg h, if_neg h, Option.or_none]

/-- what the pool says about an id: the name on the last candidate record with that id, or what it said before -/
theorem sfPool_fold {rs : List MasterRec} (h : ∀ r ∈ rs, r.Ok) (pool : Dict Str (Option Str)) (ct : Option Str) (hct : ct ≠ some []) :
    ∃ pool', (rs.map masterRow).foldlM sfPoolStep (pool, ct) = .ok (pool', ct.or (chosenContest rs)) ∧
      ∀ id, Dict.get? pool' id = ((candName rs id).map some).or (Dict.get? pool id) := by
  induction rs generalizing pool ct with
  | nil => exact ⟨pool, by simp [chosenContest]; rfl, by intro id; simp [candName, candRecs]⟩
  | cons r rs ih =>
    have hr := h r (by simp)
    rw [List.map_cons, List.foldlM_cons, sfPoolStep_row hr pool hct, ok_bind]
    obtain ⟨pool', e1, e2⟩ := ih (fun x hx => h x (by simp [hx]))
      (if strip r.rtype = c!"Candidate" then Dict.set pool r.id (some (strip r.desc)) else pool)
      (ct.or (if strip r.rtype = c!"Contest" then some r.id else none))
      (by
        cases ct with
        | some x => simpa using hct
        | none =>
          have : r.id ≠ [] := by intro e; have := hr.1.2.1; rw [e] at this; simp at this
          by_cases hc : strip r.rtype = c!"Contest" <;> simp [hc, this])
    refine ⟨pool', ?_, ?_⟩
    · rw [e1]
      congr 2
      unfold chosenContest
      rw [List.find?_cons]
      by_cases hc : strip r.rtype = c!"Contest"
      · simp [hc]
      · simp [hc]
    · intro id
      rw [e2]
      unfold candName candRecs
      rw [getLast?_filter_cons]
      by_cases hc : strip r.rtype = c!"Candidate"
      · by_cases hid : r.id = id
        · simp only [hc, hid, decide_true, Bool.and_self, if_true, Dict.get?_set, if_pos trivial]
          cases (List.filter (fun r => decide (strip r.rtype = c!"Candidate") && decide (r.id = id)) rs).getLast? <;> simp
        · simp only [hc, hid, decide_true, decide_false, Bool.and_false, if_true, Dict.get?_set, Bool.false_eq_true, if_false, Option.or_none]
      · simp only [hc, decide_false, Bool.false_and, Bool.false_eq_true, if_false, Option.or_none]

/-! ### votes -/

theorem asciiDigit_dec {c : Char} (h : isAsciiDigit c = true) : decVal c = some (c.toNat - 48) := by
  have h2 : isAscii c = true := by
    simp only [isAsciiDigit, Bool.and_eq_true, decide_eq_true_eq] at h
    simp only [isAscii, decide_eq_true_eq]; omega
  simp [decVal, h, h2]

theorem rank_value {l : ImgLine} (h : l.Ok) : pyIntOfStr l.rank = .ok (l.rankNum : Int) := by
  obtain ⟨⟨_, _, _, _, _, h6, _⟩, hd, _⟩ := h
  have hne : l.rank ≠ [] := by intro e; rw [e] at h6; simp at h6
  have hdig : ∀ c ∈ l.rank, isDigit c = true := by
    intro c hc
    simp [isDigit, asciiDigit_dec (hd c hc)]
  have hv : (digitsVal l.rank : Int) = l.rankNum := by
    unfold digitsVal ImgLine.rankNum
    congr 1
    have : ∀ (s : Str) (a : Nat), (∀ c ∈ s, isAsciiDigit c = true) →
        s.foldl (fun a c => 10 * a + (decVal c).getD 0) a = s.foldl (fun a c => 10 * a + (c.toNat - 48)) a := by
      intro s
      induction s with
      | nil => intro _ _; rfl
      | cons c s ih =>
        intro a hs
        rw [List.foldl_cons, List.foldl_cons, asciiDigit_dec (hs c (by simp)), ih _ (fun x hx => hs x (by simp [hx]))]
        rfl
    exact this l.rank 0 hd
  rw [← hv]
  exact pyInt_digits hne hdig

/-- what an image line says -/
def lineVote (rs : List MasterRec) (l : ImgLine) : SfVote :=
  { rank := l.rankNum, cand := candName rs l.cand,
    exc := if l.over = c!"1" then some c!"overvote" else if l.under = c!"1" then some c!"undervote" else none }

/-- the ballot of a run -/
def runBallot (rs : List MasterRec) (l : ImgLine) (t : List ImgLine) : SfBallot :=
  { contest := l.contest, voter := l.voter, serial := l.serial, tally := l.tally, precinct := l.precinct,
    votes := (l :: t).map (lineVote rs) }

/-- the pool answers as the records say -/
def PoolOf (rs : List MasterRec) (pool : Dict Str (Option Str)) : Prop :=
  ∀ id, KnownCand rs id → Dict.get? pool id = some (candName rs id)

theorem sfVote_line {rs : List MasterRec} {pool : Dict Str (Option Str)} (hp : PoolOf rs pool) {l : ImgLine} (h : l.Ok) (hk : UsableLine rs l) :
    sfVote pool (imgRow l) = .ok (lineVote rs l) := by
  unfold sfVote
  have e1 : Dict.getE (imgRow l) (some c!"Vote_Rank") = .ok l.rank := rfl
  have e2 : Dict.getE (imgRow l) (some c!"Candidate_Id") = .ok l.cand := rfl
  have e3 : Dict.getE (imgRow l) (some c!"Over_Vote") = .ok l.over := rfl
  have e4 : Dict.getE (imgRow l) (some c!"Under_Vote") = .ok l.under := rfl
  simp only [e1, e2, e3, e4, ok_bind, rank_value h, Dict.getE_of_get? (hp _ hk.1)]
  rw [if_neg hk.2]
  unfold lineVote
  by_cases ho : l.over = c!"1"
  · simp [ho]
  · by_cases hu : l.under = c!"1" <;> simp [ho, hu]

theorem sfStart_line {rs : List MasterRec} {pool : Dict Str (Option Str)} (hp : PoolOf rs pool) {l : ImgLine} (h : l.Ok) (hk : UsableLine rs l) :
    sfStart pool (imgRow l) = .ok (runBallot rs l []) := by
  unfold sfStart
  have : sfNewBallot (imgRow l) = .ok { contest := l.contest, voter := l.voter, serial := l.serial, tally := l.tally, precinct := l.precinct, votes := [] } := rfl
  rw [this, sfVote_line hp h hk]
  rfl

/-! ### runs -/

/-- the runs of `ls`, continuing the run `l :: t` -/
def runsFrom : ImgLine → List ImgLine → List ImgLine → List (ImgLine × List ImgLine)
  | l, t, [] => [(l, t)]
  | l, t, x :: ls => if l.voter = x.voter then runsFrom l (t ++ [x]) ls else (l, t) :: runsFrom x [] ls

theorem sfBallots_lines {rs : List MasterRec} {pool : Dict Str (Option Str)} (hp : PoolOf rs pool) (contest : Str) (ls : List ImgLine)
    (h : ∀ l ∈ ls, l.Ok) (hk : ∀ l ∈ ls, l.contest = contest → UsableLine rs l) (l : ImgLine) (t : List ImgLine) :
    sfBallots imgWidths pool (some contest) (ls.map ImgLine.text) (some (runBallot rs l t)) =
      .ok ((runsFrom l t (ls.filter (fun x => decide (x.contest = contest)))).map (fun g => some (runBallot rs g.1 g.2))) := by
  induction ls generalizing l t with
  | nil => rfl
  | cons x ls ih =>
    have hx := h x (by simp)
    have e1 : Dict.getE (imgRow x) (some c!"Contest_Id") = .ok x.contest := rfl
    have e2 : Dict.getE (imgRow x) (some c!"Pref_Voter_Id") = .ok x.voter := rfl
    have ih := ih (fun y hy => h y (by simp [hy])) (fun y hy => hk y (by simp [hy]))
    rw [List.map_cons, sfBallots, sfRecord_image hx]
    simp only [e1, e2]
    by_cases hc : x.contest = contest
    · rw [if_neg (by simp [hc]), List.filter_cons_of_pos (by simp [hc]), runsFrom]
      have hkx := hk x (by simp) hc
      by_cases hv : l.voter = x.voter
      · have hv' : (runBallot rs l t).voter = x.voter := hv
        rw [if_pos hv', if_pos hv, sfVote_line hp hx hkx]
        have : ({ runBallot rs l t with votes := (runBallot rs l t).votes ++ [lineVote rs x] } : SfBallot) = runBallot rs l (t ++ [x]) := by
          simp [runBallot]
        simp only [this]
        exact ih l (t ++ [x])
      · have hv' : ¬ (runBallot rs l t).voter = x.voter := hv
        rw [if_neg hv', if_neg hv, sfStart_line hp hx hkx]
        simp only [ih x [], List.map_cons]
    · rw [if_pos (by simp [Ne.symm hc]), List.filter_cons_of_neg (by simp [hc])]
      exact ih l t

/-- the runs of a list -/
def runsOf : List ImgLine → List (ImgLine × List ImgLine)
  | [] => []
  | l :: ls => runsFrom l [] ls

theorem sfBallots_top {rs : List MasterRec} {pool : Dict Str (Option Str)} (hp : PoolOf rs pool) (contest : Str) (ls : List ImgLine)
    (h : ∀ l ∈ ls, l.Ok) (hk : ∀ l ∈ ls, l.contest = contest → UsableLine rs l) (hex : ∃ l ∈ ls, l.contest = contest) :
    sfBallots imgWidths pool (some contest) (ls.map ImgLine.text) none =
      .ok ((runsOf (ls.filter (fun x => decide (x.contest = contest)))).map (fun g => some (runBallot rs g.1 g.2))) := by
  induction ls with
  | nil => obtain ⟨l, hl, _⟩ := hex; cases hl
  | cons x ls ih =>
    have hx := h x (by simp)
    have e1 : Dict.getE (imgRow x) (some c!"Contest_Id") = .ok x.contest := rfl
    have e2 : Dict.getE (imgRow x) (some c!"Pref_Voter_Id") = .ok x.voter := rfl
    rw [List.map_cons, sfBallots, sfRecord_image hx]
    simp only [e1, e2]
    by_cases hc : x.contest = contest
    · rw [if_neg (by simp [hc]), List.filter_cons_of_pos (by simp [hc]), runsOf, sfStart_line hp hx (hk x (by simp) hc)]
      exact sfBallots_lines hp contest ls (fun y hy => h y (by simp [hy])) (fun y hy => hk y (by simp [hy])) x []
    · rw [if_pos (by simp [Ne.symm hc]), List.filter_cons_of_neg (by simp [hc])]
      apply ih (fun y hy => h y (by simp [hy])) (fun y hy => hk y (by simp [hy]))
      obtain ⟨l, hl, hlc⟩ := hex
      rcases List.mem_cons.1 hl with rfl | hl
      · exact absurd hlc hc
      · exact ⟨l, hl, hlc⟩

theorem runsFrom_head (l : ImgLine) (t ls : List ImgLine) : ∃ t' gs, runsFrom l t ls = (l, t') :: gs := by
  induction ls generalizing l t with
  | nil => exact ⟨t, [], rfl⟩
  | cons x ls ih =>
    rw [runsFrom]
    by_cases hv : l.voter = x.voter
    · rw [if_pos hv]; exact ih l (t ++ [x])
    · rw [if_neg hv]; exact ⟨t, _, rfl⟩

/-- a group with its first line -/
def grp (g : ImgLine × List ImgLine) : List ImgLine := g.1 :: g.2

theorem runsFrom_isRuns (l : ImgLine) (t ls : List ImgLine) (ht : ∀ x ∈ t, x.voter = l.voter) :
    IsRuns (l :: (t ++ ls)) ((runsFrom l t ls).map grp) := by
  induction ls generalizing l t with
  | nil =>
    refine ⟨by simp [runsFrom, grp], ?_, ?_⟩
    · intro g hg
      simp only [runsFrom, List.map_cons, List.map_nil, List.mem_singleton] at hg
      subst hg
      refine ⟨by simp [grp], l.voter, ?_⟩
      intro x hx
      rcases List.mem_cons.1 hx with rfl | hx
      · rfl
      · exact ht x hx
    · intro i g h h1 h2
      simp [runsFrom] at h2
  | cons x ls ih =>
    rw [runsFrom]
    by_cases hv : l.voter = x.voter
    · rw [if_pos hv]
      have := ih l (t ++ [x]) (by
        intro y hy
        rcases List.mem_append.1 hy with hy | hy
        · exact ht y hy
        · simp at hy; subst hy; exact hv.symm)
      simpa using this
    · rw [if_neg hv]
      obtain ⟨i1, i2, i3⟩ := ih x [] (by simp)
      refine ⟨?_, ?_, ?_⟩
      · rw [List.map_cons, List.flatten_cons, i1]; simp [grp]
      · intro g hg
        rw [List.map_cons] at hg
        rcases List.mem_cons.1 hg with rfl | hg
        · refine ⟨by simp [grp], l.voter, ?_⟩
          intro x hx
          rcases List.mem_cons.1 hx with rfl | hx
          · rfl
          · exact ht x hx
        · exact i2 g hg
      · intro i g h h1 h2
        cases i with
        | succ i => exact i3 i g h (by simpa using h1) (by simpa using h2)
        | zero =>
          simp only [List.map_cons, List.getElem?_cons_zero, Option.some.injEq] at h1
          subst h1
          obtain ⟨t', gs, e⟩ := runsFrom_head x [] ls
          rw [e] at h2 i2
          simp only [List.map_cons, List.getElem?_cons_succ, Nat.zero_add, List.getElem?_cons_zero, Option.some.injEq] at h2
          subst h2
          intro a ha b hb
          have hva : a.voter = l.voter := by
            rcases List.mem_cons.1 ha with rfl | ha
            · rfl
            · exact ht a ha
          obtain ⟨_, v, hvv⟩ := i2 (grp (x, t')) (by simp)
          rw [hva, hvv b hb, ← hvv x (by simp [grp])]
          exact hv

theorem runsOf_isRuns (ls : List ImgLine) : IsRuns ls ((runsOf ls).map grp) := by
  cases ls with
  | nil => exact ⟨rfl, by simp [runsOf], by intro i g h h1; simp [runsOf] at h1⟩
  | cons l ls => exact runsFrom_isRuns l [] ls (by simp)

/-! ### preferences -/

theorem abifToken_ne_none (s : Str) : abifToken 20 s ≠ c!"(none)" := by
  unfold abifToken
  by_cases h : (s.length ≤ 20 && alnumMatch s) = true
  · rw [if_pos h]
    rintro rfl
    revert h
    decide
  · rw [if_neg h]
    intro e
    have := cleaned_tok 20 s '(' (by rw [e]; simp)
    revert this
    unfold TokChar
    decide

theorem sfVoteTok_line (rs : List MasterRec) (l : ImgLine) : sfVoteTok (lineVote rs l) = (lineToken rs l).getD c!"(none)" := by
  unfold sfVoteTok lineVote lineToken
  simp only
  cases candName rs l.cand with
  | none => rfl
  | some n => cases n with
    | nil => rfl
    | cons c s => simp

theorem lineToken_ne_none (rs : List MasterRec) (l : ImgLine) : lineToken rs l ≠ some c!"(none)" := by
  unfold lineToken
  cases candName rs l.cand with
  | none => simp
  | some n =>
    simp only
    split
    · simp
    · intro e; exact abifToken_ne_none n (Option.some.inj e)

theorem sfPrefs_run (rs : List MasterRec) (g : List ImgLine) (d : Dict Str Pref) (hd : Dict.WF d) :
    Dict.WF (sfPrefs false (g.map (lineVote rs)) d) ∧
    ∀ tok, Dict.get? (sfPrefs false (g.map (lineVote rs)) d) tok =
      ((runRank rs g tok).map (fun r => ({ rank := some r } : Pref))).or (Dict.get? d tok) := by
  induction g generalizing d with
  | nil => exact ⟨hd, by intro tok; simp [sfPrefs, runRank]⟩
  | cons l g ih =>
    rw [List.map_cons, sfPrefs]
    simp only [Bool.false_eq_true, or_false]
    rw [sfVoteTok_line]
    cases hl : lineToken rs l with
    | none =>
      rw [if_neg (by simp)]
      refine ⟨(ih d hd).1, ?_⟩
      intro tok
      rw [(ih d hd).2]
      unfold runRank
      rw [List.filter_cons_of_neg (by simp [hl])]
    | some tk =>
      have hne : tk ≠ c!"(none)" := by intro e; exact lineToken_ne_none rs l (by rw [hl, e])
      rw [if_pos (by simpa using hne)]
      obtain ⟨i1, i2⟩ := ih (Dict.set d tk { rank := some (l.rankNum : Int) }) (Dict.wf_set _ _ hd)
      refine ⟨i1, ?_⟩
      intro tok
      have i2 := i2 tok
      simp only [Option.getD_some, lineVote]
      rw [i2, Dict.get?_set]
      unfold runRank
      rw [getLast?_filter_cons]
      simp only [hl, Option.some.injEq]
      by_cases ht : tk = tok
      · simp only [ht, decide_true, if_true]
        cases (List.filter (fun l => decide (lineToken rs l = some tok)) g).getLast? <;> simp
      · simp only [ht, decide_false, Bool.false_eq_true, if_false, Option.or_none]

theorem holdsRun_runBallot (rs : List MasterRec) (l : ImgLine) (t : List ImgLine) :
    HoldsRun rs (l :: t) (sfPrefs false (runBallot rs l t).votes []) := by
  have := sfPrefs_run rs (l :: t) [] Dict.wf_nil
  refine ⟨this.1, ?_⟩
  intro tok
  have := this.2 tok
  simpa [runBallot, Dict.get?] using this


theorem sfPrefs_verbose (rs : List MasterRec) (g : List ImgLine) (d : Dict Str Pref) (hd : Dict.WF d) :
    Dict.WF (sfPrefs true (g.map (lineVote rs)) d) ∧
    ∀ tok, tok ≠ c!"(none)" → Dict.get? (sfPrefs true (g.map (lineVote rs)) d) tok =
      ((runRank rs g tok).map (fun r => ({ rank := some r } : Pref))).or (Dict.get? d tok) := by
  induction g generalizing d with
  | nil => exact ⟨hd, by intro tok _; simp [sfPrefs, runRank]⟩
  | cons l g ih =>
    rw [List.map_cons, sfPrefs, if_pos (Or.inr rfl)]
    obtain ⟨i1, i2⟩ := ih (Dict.set d (sfVoteTok (lineVote rs l)) { rank := some (lineVote rs l).rank }) (Dict.wf_set _ _ hd)
    refine ⟨i1, ?_⟩
    intro tok htok
    rw [i2 tok htok, Dict.get?_set]
    unfold runRank
    rw [getLast?_filter_cons, sfVoteTok_line]
    cases hl : lineToken rs l with
    | none =>
      simp only [Option.getD_none, if_neg (Ne.symm htok), reduceCtorEq, decide_false, Bool.false_eq_true, if_false, Option.or_none]
    | some tk =>
      simp only [Option.getD_some, Option.some.injEq]
      by_cases ht : tk = tok
      · simp only [ht, decide_true, if_true]
        cases (List.filter (fun l => decide (lineToken rs l = some tok)) g).getLast? <;> simp [lineVote]
      · simp only [ht, decide_false, Bool.false_eq_true, if_false, Option.or_none]

theorem poolOf_fold {rs : List MasterRec} {pool : Dict Str (Option Str)}
    (h : ∀ id, Dict.get? pool id = ((candName rs id).map some).or (Dict.get? [(c!"0000000", none)] id)) : PoolOf rs pool := by
  intro id hk
  rw [h id]
  cases hn : candName rs id with
  | some n => rfl
  | none =>
    rcases hk with rfl | hk
    · rfl
    · unfold candName at hn
      rw [Option.map_eq_none_iff, List.getLast?_eq_none_iff] at hn
      exact absurd hn hk

/-- the voteline of a run -/
def runVoteline (rs : List MasterRec) (verbose : Bool) (g : ImgLine × List ImgLine) : Voteline :=
  { qty := 1, prefs := sfPrefs verbose (runBallot rs g.1 g.2).votes [],
    comment := if verbose then some (sfComment (runBallot rs g.1 g.2)) else none }

/-- everything but the consolidation -/
theorem sfConvert_runs {rs : List MasterRec} {ls : List ImgLine} (hr : ∀ r ∈ rs, r.Ok) (hl : ∀ l ∈ ls, l.Ok) {contest : Str}
    (hc : chosenContest rs = some contest) (hex : ∃ l ∈ ls, l.contest = contest)
    (hk : ∀ l ∈ ls, l.contest = contest → UsableLine rs l) (verbose : Bool) :
    ∃ cands, sfConvert verbose (masterText rs) (imageText ls) =
      .ok (let m : Jabmod := {
                metadata := [(c!"ballotcount", .int (runsOf (ls.filter (fun x => decide (x.contest = contest)))).length), (c!"contestid", .str contest)]
                candidates := cands
                votelines := (runsOf (ls.filter (fun x => decide (x.contest = contest)))).map (runVoteline rs verbose) }
           if verbose then m else consolidate m) := by
  unfold sfConvert
  rw [readBlob_master hr]
  obtain ⟨pool, e1, e2⟩ := sfPool_fold hr [(c!"0000000", none)] none (by simp)
  refine ⟨sfCands pool 0 [], ?_⟩
  simp only [sfPool, e1, Option.none_or, hc, readFieldspec_image]
  have hne : imageText ls ≠ [] := by
    obtain ⟨l, hl, _⟩ := hex
    unfold imageText
    intro e
    rw [List.flatMap_eq_nil_iff] at e
    have := e l hl
    simp at this
  rw [if_neg hne, imageText_lines hl, sfBallots_top (poolOf_fold e2) contest ls hl hk hex]
  simp only
  rw [List.mapM_map]
  have : (runsOf (ls.filter (fun x => decide (x.contest = contest)))).mapM (sfVoteline verbose ∘ fun g => some (runBallot rs g.1 g.2)) =
      .ok ((runsOf (ls.filter (fun x => decide (x.contest = contest)))).map (runVoteline rs verbose)) :=
    mapM_ok (fun g _ => rfl)
  rw [this]
  simp only [List.length_map, optJson]

/-- C47 (partial: the contest must have a line, see `C47_empty_refuted`; tokens may collide, see `C47_collision_refuted`).
For every well-formed pair of files there are the maximal runs of image lines of the chosen contest with the
same voter id, and for each run the preference map with the ranks its lines give, such that in the result: for every
class of maps that does not distinguish equal maps, the number of ballots in the class is the number of runs whose map is in it;
no two votelines have equal maps; the ballot count and the total quantity are the number of runs. -/
theorem C47_import_partial (rs : List MasterRec) (ls : List ImgLine) (hr : ∀ r ∈ rs, r.Ok) (hl : ∀ l ∈ ls, l.Ok) (contest : Str)
    (hc : chosenContest rs = some contest) (hex : ∃ l ∈ ls, l.contest = contest)
    (hk : ∀ l ∈ ls, l.contest = contest → UsableLine rs l) :
    ∃ m groups maps, sfConvert false (masterText rs) (imageText ls) = .ok m ∧
      IsRuns (ls.filter (fun l => decide (l.contest = contest))) groups ∧
      List.Forall₂ (HoldsRun rs) groups maps ∧
      (∀ P : Dict Str Pref → Bool, (∀ p q, SameMap p q → P p = P q) → ballotsWith P m.votelines = (maps.filter P).length) ∧
      (m.votelines.map Voteline.prefs).Pairwise (fun p q => ¬ SameMap p q) ∧
      (m.votelines.map Voteline.qty).sum = groups.length ∧
      m.metadata = [(c!"ballotcount", .int groups.length), (c!"contestid", .str contest)] := by
  obtain ⟨cands, e⟩ := sfConvert_runs hr hl hc hex hk false
  simp only [Bool.false_eq_true, if_false] at e
  set runs := runsOf (ls.filter (fun x => decide (x.contest = contest))) with hruns
  set m0 : Jabmod := { metadata := [(c!"ballotcount", .int runs.length), (c!"contestid", .str contest)]
                       candidates := cands
                       votelines := runs.map (runVoteline rs false) } with hm0
  have hwf : PrefsWF m0 := by
    intro vl hvl
    obtain ⟨g, hg, rfl⟩ := List.mem_map.1 hvl
    exact (holdsRun_runBallot rs g.1 g.2).1
  have hball : ∀ P : Dict Str Pref → Bool, ballotsWith P m0.votelines =
      (((runs.map (fun g => sfPrefs false (runBallot rs g.1 g.2).votes [])).filter P).length : Int) := by
    intro P
    unfold ballotsWith
    rw [hm0]
    simp only
    generalize runs = runs
    induction runs with
    | nil => rfl
    | cons g gs ih =>
      rw [List.map_cons, List.map_cons, List.filter_cons, List.filter_cons]
      have hpe : (runVoteline rs false g).prefs = sfPrefs false (runBallot rs g.1 g.2).votes [] := rfl
      have hqe : (runVoteline rs false g).qty = 1 := rfl
      rw [hpe]
      by_cases hP : P (sfPrefs false (runBallot rs g.1 g.2).votes []) = true
      · rw [if_pos hP, if_pos hP, List.map_cons, List.sum_cons, ih, hqe, List.length_cons]; push_cast; omega
      · rw [if_neg hP, if_neg hP, ih]
  refine ⟨consolidate m0, runs.map grp, runs.map (fun g => sfPrefs false (runBallot rs g.1 g.2).votes []), e, runsOf_isRuns _, ?_, ?_, ?_, ?_, ?_⟩
  · rw [List.forall₂_map_left_iff, List.forall₂_map_right_iff, List.forall₂_same]
    intro g _
    exact holdsRun_runBallot rs g.1 g.2
  · intro P hP
    rw [C39_totals m0 hwf P hP, hball]
  · exact (C39_distinct m0 hwf).1
  · have := C39_totals m0 hwf (fun _ => true) (fun _ _ _ => rfl)
    rw [hball (fun _ => true)] at this
    unfold ballotsWith at this
    simp only [List.filter_true] at this
    rw [this]
    simp
  · rw [(C39_distinct m0 hwf).2.2.2.2, hm0]
    simp

/-- a line of the contest that cannot be counted stops the import, wherever it is -/
theorem sfBallots_bad {rs : List MasterRec} {pool : Dict Str (Option Str)}
    (hp : ∀ id, Dict.get? pool id = ((candName rs id).map some).or (Dict.get? [(c!"0000000", none)] id)) (contest : Str) (ls : List ImgLine)
    (h : ∀ l ∈ ls, l.Ok) (hb : ∃ l ∈ ls, l.contest = contest ∧ ¬ UsableLine rs l) (cur : Option SfBallot) :
    ∃ e, sfBallots imgWidths pool (some contest) (ls.map ImgLine.text) cur = .error e := by
  induction ls generalizing cur with
  | nil => obtain ⟨l, hl, _⟩ := hb; cases hl
  | cons x ls ih =>
    have hx := h x (by simp)
    have e1 : Dict.getE (imgRow x) (some c!"Contest_Id") = .ok x.contest := rfl
    have e2 : Dict.getE (imgRow x) (some c!"Pref_Voter_Id") = .ok x.voter := rfl
    have ih := ih (fun y hy => h y (by simp [hy]))
    have enew : sfNewBallot (imgRow x) = .ok { contest := x.contest, voter := x.voter, serial := x.serial, tally := x.tally, precinct := x.precinct, votes := [] } := rfl
    -- the vote of a line that cannot be counted
    have hbad : ¬ UsableLine rs x → ∃ e, sfVote pool (imgRow x) = .error e := by
      intro hu
      unfold sfVote
      have f1 : Dict.getE (imgRow x) (some c!"Vote_Rank") = .ok x.rank := rfl
      have f2 : Dict.getE (imgRow x) (some c!"Candidate_Id") = .ok x.cand := rfl
      have f3 : Dict.getE (imgRow x) (some c!"Over_Vote") = .ok x.over := rfl
      have f4 : Dict.getE (imgRow x) (some c!"Under_Vote") = .ok x.under := rfl
      simp only [f1, f2, f3, f4, ok_bind, rank_value hx]
      cases hg : Dict.getE pool x.cand with
      | error e => exact ⟨e, rfl⟩
      | ok cand =>
        have hk : KnownCand rs x.cand := by
          by_contra hn
          unfold KnownCand at hn
          rw [not_or, not_not] at hn
          have : Dict.get? pool x.cand = none := by
            rw [hp, candName, hn.2]
            have hne : ¬ c!"0000000" = x.cand := fun e => hn.1 e.symm
            simp [Dict.get?, hne]
          rw [Dict.getE, this] at hg
          cases hg
        have : x.over = c!"1" ∧ x.under = c!"1" := by
          by_contra hn
          exact hu ⟨hk, hn⟩
        exact ⟨.valueError, by simp only [ok_bind]; rw [if_pos this]⟩
    rw [List.map_cons, sfBallots, sfRecord_image hx]
    simp only [e1, e2]
    by_cases hc : x.contest = contest
    · rw [if_neg (by simp [hc])]
      by_cases hu : UsableLine rs x
      · have hrest : ∃ l ∈ ls, l.contest = contest ∧ ¬ UsableLine rs l := by
          obtain ⟨l, hl, hl2⟩ := hb
          rcases List.mem_cons.1 hl with rfl | hl
          · exact absurd hu hl2.2
          · exact ⟨l, hl, hl2⟩
        have ih := ih hrest
        unfold sfStart
        rw [enew]
        cases hv : sfVote pool (imgRow x) with
        | error e => cases cur with
          | none => exact ⟨e, rfl⟩
          | some b => simp only; split <;> exact ⟨e, rfl⟩
        | ok v => cases cur with
          | none => exact ih _
          | some b =>
            simp only
            split
            · exact ih _
            · obtain ⟨e, he⟩ := ih (some { contest := x.contest, voter := x.voter, serial := x.serial, tally := x.tally, precinct := x.precinct, votes := [v] })
              exact ⟨e, by rw [he]⟩
      · obtain ⟨e, he⟩ := hbad hu
        unfold sfStart
        rw [enew, he]
        cases cur with
        | none => exact ⟨e, rfl⟩
        | some b => simp only; split <;> exact ⟨e, rfl⟩
    · rw [if_pos (by simp [Ne.symm hc])]
      refine ih ?_ cur
      obtain ⟨l, hl, hl2⟩ := hb
      rcases List.mem_cons.1 hl with rfl | hl
      · exact absurd hl2.1 hc
      · exact ⟨l, hl, hl2⟩

/-- without a line of the contest there is only the empty ballot -/
theorem sfBallots_none {pool : Dict Str (Option Str)} (contest : Str) (ls : List ImgLine)
    (h : ∀ l ∈ ls, l.Ok) (hb : ∀ l ∈ ls, l.contest ≠ contest) :
    sfBallots imgWidths pool (some contest) (ls.map ImgLine.text) none = .ok [none] := by
  induction ls with
  | nil => rfl
  | cons x ls ih =>
    have hx := h x (by simp)
    have e1 : Dict.getE (imgRow x) (some c!"Contest_Id") = .ok x.contest := rfl
    rw [List.map_cons, sfBallots, sfRecord_image hx]
    simp only [e1]
    rw [if_pos (by simp [Ne.symm (hb x (by simp))])]
    exact ih (fun y hy => h y (by simp [hy])) (fun y hy => hb y (by simp [hy]))

/-- C47, all or nothing: a well-formed pair of files is imported exactly when the chosen contest has a line and each of
its lines names a known candidate and is not flagged both as overvote and as undervote.  One bad line and there is no
result at all; lines of other contests may be as bad as they like. -/
theorem C47_all_or_nothing (verbose : Bool) (rs : List MasterRec) (ls : List ImgLine) (hr : ∀ r ∈ rs, r.Ok) (hl : ∀ l ∈ ls, l.Ok)
    (contest : Str) (hc : chosenContest rs = some contest) :
    (∃ m, sfConvert verbose (masterText rs) (imageText ls) = .ok m) ↔
      (∃ l ∈ ls, l.contest = contest) ∧ ∀ l ∈ ls, l.contest = contest → UsableLine rs l := by
  constructor
  · rintro ⟨m, hm⟩
    unfold sfConvert at hm
    rw [readBlob_master hr] at hm
    obtain ⟨pool, e1, e2⟩ := sfPool_fold hr [(c!"0000000", none)] none (by simp)
    simp only [sfPool, e1, Option.none_or, hc, readFieldspec_image] at hm
    by_cases hne : imageText ls = []
    · rw [if_pos hne] at hm; cases hm
    rw [if_neg hne, imageText_lines hl] at hm
    constructor
    · by_contra hn
      rw [sfBallots_none contest ls hl (fun l hl hcc => hn ⟨l, hl, hcc⟩)] at hm
      cases hm
    · intro l hll hlc
      by_contra hu
      obtain ⟨e, he⟩ := sfBallots_bad e2 contest ls hl ⟨l, hll, hlc, hu⟩ none
      rw [he] at hm
      cases hm
  · rintro ⟨hex, hk⟩
    obtain ⟨cands, e⟩ := sfConvert_runs hr hl hc hex hk verbose
    exact ⟨_, e⟩

/-- the vote of a line that cannot be counted, and the exception it raises -/
theorem sfVote_bad {rs : List MasterRec} {pool : Dict Str (Option Str)}
    (hp : ∀ id, Dict.get? pool id = ((candName rs id).map some).or (Dict.get? [(c!"0000000", none)] id)) {x : ImgLine} (hx : x.Ok) :
    (¬ KnownCand rs x.cand → sfVote pool (imgRow x) = .error .keyError) ∧
    (KnownCand rs x.cand → x.over = c!"1" ∧ x.under = c!"1" → sfVote pool (imgRow x) = .error .valueError) := by
  have f1 : Dict.getE (imgRow x) (some c!"Vote_Rank") = .ok x.rank := rfl
  have f2 : Dict.getE (imgRow x) (some c!"Candidate_Id") = .ok x.cand := rfl
  have f3 : Dict.getE (imgRow x) (some c!"Over_Vote") = .ok x.over := rfl
  have f4 : Dict.getE (imgRow x) (some c!"Under_Vote") = .ok x.under := rfl
  constructor
  · intro hn
    unfold KnownCand at hn
    rw [not_or, not_not] at hn
    have : Dict.get? pool x.cand = none := by
      rw [hp, candName, hn.2]
      have hne : ¬ c!"0000000" = x.cand := fun e => hn.1 e.symm
      simp [Dict.get?, hne]
    have hg : Dict.getE pool x.cand = .error .keyError := by rw [Dict.getE, this]
    unfold sfVote
    simp only [f1, f2, ok_bind, rank_value hx, hg]
    rfl
  · intro hk hou
    have : ∃ c, Dict.getE pool x.cand = .ok c := by
      cases hg : Dict.get? pool x.cand with
      | some c => exact ⟨c, by rw [Dict.getE, hg]⟩
      | none =>
        exfalso
        rw [hp] at hg
        rcases hk with hk | hk
        · rw [hk] at hg
          cases hcn : candName rs c!"0000000" <;> simp [hcn, Dict.get?] at hg
        · unfold candName at hg
          cases hcn : candRecs rs x.cand <;> simp_all
    obtain ⟨c, hc⟩ := this
    unfold sfVote
    simp only [f1, f2, f3, f4, ok_bind, rank_value hx, hc]
    rw [if_pos hou]

/-- the first line of the contest that cannot be counted decides the exception -/
theorem sfBallots_first {rs : List MasterRec} {pool : Dict Str (Option Str)}
    (hp : ∀ id, Dict.get? pool id = ((candName rs id).map some).or (Dict.get? [(c!"0000000", none)] id)) (contest : Str)
    (good : List ImgLine) (bad : ImgLine) (rest : List ImgLine)
    (h : ∀ l ∈ good ++ bad :: rest, l.Ok) (hg : ∀ l ∈ good, l.contest = contest → UsableLine rs l)
    (hbc : bad.contest = contest) {err : PyErr} (hb : sfVote pool (imgRow bad) = .error err) (cur : Option SfBallot) :
    sfBallots imgWidths pool (some contest) ((good ++ bad :: rest).map ImgLine.text) cur = .error err := by
  induction good generalizing cur with
  | nil =>
    have hx := h bad (by simp)
    have e1 : Dict.getE (imgRow bad) (some c!"Contest_Id") = .ok bad.contest := rfl
    have e2 : Dict.getE (imgRow bad) (some c!"Pref_Voter_Id") = .ok bad.voter := rfl
    have enew : sfNewBallot (imgRow bad) = .ok { contest := bad.contest, voter := bad.voter, serial := bad.serial, tally := bad.tally, precinct := bad.precinct, votes := [] } := rfl
    rw [List.nil_append, List.map_cons, sfBallots, sfRecord_image hx]
    simp only [e1, e2]
    rw [if_neg (by simp [hbc])]
    unfold sfStart
    rw [enew, hb]
    cases cur with
    | none => rfl
    | some b => simp only; split <;> rfl
  | cons x good ih =>
    have hx := h x (by simp)
    have e1 : Dict.getE (imgRow x) (some c!"Contest_Id") = .ok x.contest := rfl
    have e2 : Dict.getE (imgRow x) (some c!"Pref_Voter_Id") = .ok x.voter := rfl
    have ih := ih (fun y hy => h y (by simp only [List.cons_append, List.mem_cons]; exact Or.inr hy)) (fun y hy => hg y (by simp [hy]))
    have enew : sfNewBallot (imgRow x) = .ok { contest := x.contest, voter := x.voter, serial := x.serial, tally := x.tally, precinct := x.precinct, votes := [] } := rfl
    rw [List.cons_append, List.map_cons, sfBallots, sfRecord_image hx]
    simp only [e1, e2]
    by_cases hc : x.contest = contest
    · rw [if_neg (by simp [hc])]
      have hv := sfVote_line (poolOf_fold hp) hx (hg x (by simp) hc)
      unfold sfStart
      rw [enew, hv]
      cases cur with
      | none => exact ih _
      | some b =>
        simp only
        split
        · exact ih _
        · rw [ih]
    · rw [if_pos (by simp [Ne.symm hc])]
      exact ih cur

/-- C47, which exception: a well-formed pair of files with a chosen contest whose import fails does so with
`ValueError` when there is no image line at all, with `KeyError` when none of the lines is of the contest, and otherwise
because of the contest's first line that cannot be counted: `KeyError` when it names an unknown candidate, `ValueError`
when it is flagged both as overvote and as undervote. -/
theorem C47_errors (verbose : Bool) (rs : List MasterRec) (hr : ∀ r ∈ rs, r.Ok) (contest : Str) (hc : chosenContest rs = some contest) :
    sfConvert verbose (masterText rs) (imageText []) = .error .valueError ∧
    (∀ ls : List ImgLine, (∀ l ∈ ls, l.Ok) → ls ≠ [] → (∀ l ∈ ls, l.contest ≠ contest) →
      sfConvert verbose (masterText rs) (imageText ls) = .error .keyError) ∧
    (∀ (good : List ImgLine) (bad : ImgLine) (rest : List ImgLine), (∀ l ∈ good ++ bad :: rest, l.Ok) →
      (∀ l ∈ good, l.contest = contest → UsableLine rs l) → bad.contest = contest →
      (¬ KnownCand rs bad.cand → sfConvert verbose (masterText rs) (imageText (good ++ bad :: rest)) = .error .keyError) ∧
      (KnownCand rs bad.cand → bad.over = c!"1" → bad.under = c!"1" →
        sfConvert verbose (masterText rs) (imageText (good ++ bad :: rest)) = .error .valueError)) := by
  have key : ∃ pool : Dict Str (Option Str),
      (∀ id, Dict.get? pool id = ((candName rs id).map some).or (Dict.get? [(c!"0000000", none)] id)) ∧
      (∀ ls : List ImgLine, (∀ l ∈ ls, l.Ok) → ls ≠ [] → ∀ e, 
        sfBallots imgWidths pool (some contest) (ls.map ImgLine.text) none = .error e →
        sfConvert verbose (masterText rs) (imageText ls) = .error e) ∧
      (∀ ls : List ImgLine, (∀ l ∈ ls, l.Ok) → ls ≠ [] →
        sfBallots imgWidths pool (some contest) (ls.map ImgLine.text) none = .ok [none] →
        sfConvert verbose (masterText rs) (imageText ls) = .error .keyError) ∧
      sfConvert verbose (masterText rs) (imageText []) = .error .valueError := by
    obtain ⟨pool, e1, e2⟩ := sfPool_fold hr [(c!"0000000", none)] none (by simp)
    have hne : ∀ ls : List ImgLine, ls ≠ [] → imageText ls ≠ [] := by
      intro ls hls e
      cases ls with
      | nil => exact hls rfl
      | cons l t =>
        unfold imageText at e
        rw [List.flatMap_eq_nil_iff] at e
        have := e l (by simp)
        simp at this
    refine ⟨pool, e2, ?_, ?_, ?_⟩
    · intro ls hl hls e he
      unfold sfConvert
      rw [readBlob_master hr]
      simp only [sfPool, e1, Option.none_or, hc, readFieldspec_image]
      rw [if_neg (hne ls hls), imageText_lines hl, he]
    · intro ls hl hls he
      unfold sfConvert
      rw [readBlob_master hr]
      simp only [sfPool, e1, Option.none_or, hc, readFieldspec_image]
      rw [if_neg (hne ls hls), imageText_lines hl, he]
      rfl
    · unfold sfConvert
      rw [readBlob_master hr]
      simp only [sfPool, e1, Option.none_or, hc, readFieldspec_image]
      rfl
  obtain ⟨pool, hp, k1, k2, k3⟩ := key
  refine ⟨k3, ?_, ?_⟩
  · intro ls hl hls hn
    exact k2 ls hl hls (sfBallots_none contest ls hl hn)
  · intro good bad rest hl hg hbc
    have hx : bad.Ok := hl bad (by simp)
    constructor
    · intro hn
      exact k1 _ hl (by simp) _ (sfBallots_first hp contest good bad rest hl hg hbc ((sfVote_bad hp hx).1 hn) none)
    · intro hk ho hu
      exact k1 _ hl (by simp) _ (sfBallots_first hp contest good bad rest hl hg hbc ((sfVote_bad hp hx).2 hk ⟨ho, hu⟩) none)

/-- the comment on a ballot in verbose mode -/
def ballotComment (l : ImgLine) : Str :=
  c!"Contest: " ++ l.contest ++ c!"; Voter: " ++ l.voter ++ c!"; SerialNum: " ++ l.serial ++ c!"; TalType: " ++ l.tally ++
  c!"; Precinct: " ++ l.precinct ++ c!";"

/-- C47 in verbose mode: one voteline per run, in order, with quantity 1, the ids of the run's first line in the
comment, and the ranks of the run (besides an entry `(none)` for lines that name nobody). -/
theorem C47_verbose_partial (rs : List MasterRec) (ls : List ImgLine) (hr : ∀ r ∈ rs, r.Ok) (hl : ∀ l ∈ ls, l.Ok) (contest : Str)
    (hc : chosenContest rs = some contest) (hex : ∃ l ∈ ls, l.contest = contest)
    (hk : ∀ l ∈ ls, l.contest = contest → UsableLine rs l) :
    ∃ m groups, sfConvert true (masterText rs) (imageText ls) = .ok m ∧
      IsRuns (ls.filter (fun l => decide (l.contest = contest))) groups ∧
      List.Forall₂ (fun (g : List ImgLine) (vl : Voteline) => vl.qty = 1 ∧ vl.comment = g.head?.map ballotComment ∧ Dict.WF vl.prefs ∧
        ∀ tok, tok ≠ c!"(none)" → Dict.get? vl.prefs tok = (runRank rs g tok).map (fun r => ({ rank := some r } : Pref)))
        groups m.votelines ∧
      m.metadata = [(c!"ballotcount", .int groups.length), (c!"contestid", .str contest)] := by
  obtain ⟨cands, e⟩ := sfConvert_runs hr hl hc hex hk true
  simp only [if_true] at e
  refine ⟨_, (runsOf (ls.filter (fun x => decide (x.contest = contest)))).map grp, e, runsOf_isRuns _, ?_, by simp⟩
  rw [List.forall₂_map_left_iff, List.forall₂_map_right_iff, List.forall₂_same]
  intro g _
  have := sfPrefs_verbose rs (g.1 :: g.2) [] Dict.wf_nil
  refine ⟨rfl, ?_, this.1, ?_⟩
  · simp [grp, ballotComment, sfComment, runBallot, runVoteline]
  · intro tok htok
    have := this.2 tok htok
    simpa [Dict.get?, grp, runVoteline, runBallot] using this

/-- C48.  What the code does about the declared lengths: a length that contradicts the columns is accepted, and
the length zero is an `IndexError`. -/
theorem C48_length_unchecked (fs : List SfField) (f : SfField) (h : SpecOk (fs ++ [f])) :
    (∀ n, 0 < n → readFieldspec (fieldspecText (fs ++ [{ f with len := n }])) = readFieldspec (fieldspecText (fs ++ [f]))) ∧
    readFieldspec (fieldspecText (fs ++ [{ f with len := 0 }])) = .error .indexError := by
  have hsub : ∀ pos (g : SfField), g.last = f.last → g.name = f.name → (withStart pos (fs ++ [g])).map fieldWidth = (withStart pos (fs ++ [f])).map fieldWidth := by
    intro pos g h1 h2
    induction fs generalizing pos with
    | nil => simp [withStart, fieldWidth, h1, h2]
    | cons x fs ih =>
      simp only [List.cons_append, withStart, List.map_cons]
      rw [ih]
      refine ⟨fun y hy => h.1 y (by simp at hy ⊢; tauto), ?_, ?_⟩
      · have := h.2.1; rw [List.cons_append, List.map_cons, List.pairwise_cons] at this; exact this.2
      · have := h.2.2; rw [List.cons_append, List.map_cons, List.nodup_cons] at this; exact this.2
  constructor
  · intro n hn
    have hok : SpecOk (fs ++ [{ f with len := n }]) := by
      refine ⟨?_, by simpa using h.2.1, by simpa using h.2.2⟩
      intro y hy
      rcases List.mem_append.1 hy with hy | hy
      · exact h.1 y (by simp [hy])
      · simp only [List.mem_singleton] at hy
        subst hy
        exact ⟨(h.1 f (by simp)).1, hn⟩
    rw [readFieldspec_spec h, readFieldspec_spec hok, hsub 0 { f with len := n } rfl rfl]
  · unfold readFieldspec
    rw [csvDicts_spec]
    · have : ∀ pos : Int, fieldspecLoop ((fs ++ [{ f with len := 0 }]).map fieldRow) pos = .error .indexError := by
        have hpos : ∀ g ∈ fs, 0 < g.len := fun g hg => (h.1 g (by simp [hg])).2
        clear hsub h
        induction fs with
        | nil =>
          intro pos
          have hn : Dict.getE (fieldRow { f with len := 0 }) c!"fieldname" = .ok (some f.name) := rfl
          rw [List.nil_append, List.map_cons, fieldspecLoop, rowInt_last]
          simp only [hn, rowInt_len]
          rw [if_pos (by simp)]
        | cons x fs ih =>
          intro pos
          have hn : Dict.getE (fieldRow x) c!"fieldname" = .ok (some x.name) := rfl
          rw [List.cons_append, List.map_cons, fieldspecLoop, rowInt_last]
          have := hpos x (by simp)
          simp only [hn, rowInt_len]
          rw [if_neg (by omega), ih (fun g hg => hpos g (by simp [hg]))]
      exact this 0
    · intro g hg
      rcases List.mem_append.1 hg with hg | hg
      · exact (h.1 g (by simp [hg])).1
      · simp only [List.mem_singleton] at hg
        subst hg
        exact (h.1 f (by simp)).1

end

section
attribute [local instance] Uni.ascii
set_option maxRecDepth 40000

/-- pad with blanks on the right -/
def padTo (n : Nat) (s : Str) : Str := s ++ List.replicate (n - s.length) ' '

def exMasterRec (t id d : Str) : MasterRec :=
  { rtype := padTo 10 t, id := id, desc := padTo 50 d, order := c!"0000001", contest := c!"0000020", writeIn := c!"0", provisional := c!"0", rest := [] }

def exSfMaster : List MasterRec :=
  [exMasterRec c!"Contest" c!"0000020" c!"Mayor", exMasterRec c!"Contest" c!"0000021" c!"Sheriff",
   exMasterRec c!"Candidate" c!"0000101" c!"ANN", exMasterRec c!"Candidate" c!"0000102" c!"BO B"]

def exImg (contest voter rank cand : Str) : ImgLine :=
  { contest := contest, voter := voter, serial := c!"0000001", tally := c!"001", precinct := c!"0000901", rank := rank, cand := cand,
    over := c!"0", under := c!"0", rest := [] }

/-- voter 1 with a line of another contest between its two lines, voter 2, and voter 1 again -/
def exSfLines : List ImgLine :=
  [exImg c!"0000020" c!"000000001" c!"001" c!"0000101", exImg c!"0000021" c!"000000002" c!"001" c!"0000101",
   exImg c!"0000020" c!"000000001" c!"002" c!"0000102", exImg c!"0000020" c!"000000002" c!"001" c!"0000102",
   exImg c!"0000020" c!"000000002" c!"002" c!"0000000", exImg c!"0000020" c!"000000001" c!"001" c!"0000102"]

/-- non-vacuity: the hypotheses of the C47 theorems hold of the example -/
example : (∀ r ∈ exSfMaster, r.Ok) ∧ (∀ l ∈ exSfLines, l.Ok) ∧ chosenContest exSfMaster = some c!"0000020" ∧
    (∃ l ∈ exSfLines, l.contest = c!"0000020") ∧ (∀ l ∈ exSfLines, l.contest = c!"0000020" → UsableLine exSfMaster l) := by
  unfold MasterRec.Ok ImgLine.Ok UsableLine KnownCand
  refine ⟨by decide +kernel, by decide +kernel, by decide +kernel, by decide +kernel, by decide +kernel⟩

example : (sfConvert false (masterText exSfMaster) (imageText exSfLines)).map (fun m => m.votelines.map (fun vl => (vl.qty, vl.prefs))) =
    .ok [(1, [(c!"ANN", { rank := some 1 }), (c!"BO_B", { rank := some 2 })]), (2, [(c!"BO_B", { rank := some 1 })])] := by decide +kernel

/-- a line flagged both ways: in the chosen contest nothing is imported, in another contest it is ignored -/
example : ((sfConvert false (masterText exSfMaster) (imageText (exSfLines ++ [{ exImg c!"0000020" c!"000000009" c!"001" c!"0000101" with over := c!"1", under := c!"1" }]))).toOption.isSome,
    (sfConvert false (masterText exSfMaster) (imageText (exSfLines ++ [{ exImg c!"0000021" c!"000000009" c!"001" c!"0000101" with over := c!"1", under := c!"1" }]))).toOption.isSome) = (false, true) := by
  decide +kernel

/-- C47 fails for a contest without image lines: not an empty result but a `KeyError`. -/
theorem C47_empty_refuted : (sfConvert false (masterText exSfMaster) (imageText [exImg c!"0000021" c!"000000001" c!"001" c!"0000101"]) |>.map (fun m => m.votelines)) = .error .keyError := by
  decide +kernel

/-- C47: two candidates whose names agree in the first twenty characters share a token, and the ballot
loses the first one's rank. -/
theorem C47_collision_refuted :
    (sfConvert false (masterText (exSfMaster ++ [exMasterRec c!"Candidate" c!"0000103" c!"MARIA ELENA FERNANDEZ ONE", exMasterRec c!"Candidate" c!"0000104" c!"MARIA ELENA FERNANDEZ TWO"]))
      (imageText [exImg c!"0000020" c!"000000001" c!"001" c!"0000103", exImg c!"0000020" c!"000000001" c!"002" c!"0000104"])).map
      (fun m => m.votelines.map Voteline.prefs) = .ok [[(c!"MARIA_ELENA_FERNANDE", { rank := some 2 })]] := by
  decide +kernel

/-- The candidate table has a candidate that stands for nobody. -/
theorem C47_bogus_candidate :
    (sfConvert false (masterText exSfMaster) (imageText exSfLines)).map (fun m => m.candidates) =
    .ok [(c!"cand0", none), (c!"ANN", some c!"ANN"), (c!"BO_B", some c!"BO B")] := by decide +kernel

/-- non-vacuity of C48: a line and the two specs of the code -/
example : SpecOk imgFields ∧ SpecOk masterFields ∧ columns imgFields = 45 ∧ columns masterFields = 83 := ⟨imgFields_ok, masterFields_ok, by decide, by decide⟩
example : readBlob c!"fieldname,lastchar,length\na,2,9\nb,5,1\n" c!"12345x\nabcde" =
    .ok [[(some c!"a", c!"12"), (some c!"b", c!"345")], [(some c!"a", c!"ab"), (some c!"b", c!"cde")]] := by decide +kernel
end

end Verif.Props
