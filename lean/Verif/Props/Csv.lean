/-
Properties of the csvrank output (C41).
-/
import Verif.Lib.Csv

set_option linter.unusedSectionVars false

namespace Verif.Props
open Spec

/-- C41.  When `get_ranking_output_csv` succeeds, its text is a CSV table (readable by any CSV reader) whose
first row is the header `voterid` followed by the candidates, followed by one row per single ballot in order.
The row of the n-th ballot holds the voteline's own voter id, or `voter` and the number n padded to six digits
when it has none, and then for every candidate in header order the rank on that voteline (empty when not listed).
Missing for the full claim: a candidate with the token `voterid` (see `C41_voterid_candidate`). -/
theorem C41_rows_partial (m : Jabmod) (text : Str) (h : rankingCsv m = .ok text)
    (hv : c!"voterid" ∉ Dict.keys m.candidates) :
    csvRead text = some ((c!"voterid" :: Dict.keys m.candidates) ::
      (singleBallots m.votelines).zipIdx.map (fun (p : Voteline × Nat) =>
        (match p.1.voterid with
          | some (c :: s) => c :: s
          | _ => generatedVoterId (p.2 + 1)) :: (Dict.keys m.candidates).map (rankCell p.1))) := by
  unfold rankingCsv csvFields at h
  cases hr : csvVotelines (c!"voterid" :: Dict.keys m.candidates) m.votelines 0 with
  | error e => rw [hr] at h; cases h
  | ok rows =>
    rw [hr] at h
    cases h
    obtain ⟨_, _, h3, h4⟩ := csvVotelines_ok hr
    rw [csvRead_rows]
    · rw [h4 hv]; rfl
    · intro r hr'
      rcases List.mem_cons.1 hr' with rfl | hr'
      · simp
      · exact h3 r hr'

/-- C41.  For every model on which it succeeds, the output has the header row and exactly as many further
rows as the quantities of the votelines add up to, and every voteline has a positive quantity. -/
theorem C41_count (m : Jabmod) (text : Str) (h : rankingCsv m = .ok text) :
    ∃ rows, csvRead text = some ((c!"voterid" :: Dict.keys m.candidates) :: rows) ∧
      (rows.length : Int) = (m.votelines.map Voteline.qty).sum ∧ ∀ (vl : Voteline), vl ∈ m.votelines → 0 < vl.qty := by
  unfold rankingCsv csvFields at h
  cases hr : csvVotelines (c!"voterid" :: Dict.keys m.candidates) m.votelines 0 with
  | error e => rw [hr] at h; cases h
  | ok rows =>
    rw [hr] at h
    cases h
    obtain ⟨h1, h2, h3, h4⟩ := csvVotelines_ok hr
    refine ⟨rows, ?_, h2, fun vl hvl => (h1 vl hvl).1⟩
    rw [csvRead_rows]
    intro r hr'
    rcases List.mem_cons.1 hr' with rfl | hr'
    · simp
    · exact h3 r hr'

/-- C41.  It succeeds exactly when every voteline has a positive quantity, every listed candidate has a rank and
is one of the candidates (or is called `voterid`). -/
theorem C41_success (m : Jabmod) : (∃ text, rankingCsv m = .ok text) ↔
    ∀ (vl : Voteline), vl ∈ m.votelines → 0 < vl.qty ∧ ∀ (kp : Str × Pref), kp ∈ vl.prefs →
      kp.2.rank ≠ none ∧ (kp.1 ∈ Dict.keys m.candidates ∨ kp.1 = c!"voterid") := by
  unfold rankingCsv csvFields
  constructor
  · rintro ⟨text, h⟩
    cases hr : csvVotelines (c!"voterid" :: Dict.keys m.candidates) m.votelines 0 with
    | error e => rw [hr] at h; cases h
    | ok rows => exact (csvVotelines_ok hr).1
  · intro h
    obtain ⟨rs, hrs⟩ := csvVotelines_of h 0
    rw [hrs]; exact ⟨_, rfl⟩

/-- C41.  A voteline whose quantity is zero or negative is an error. -/
theorem C41_bad_qty (m : Jabmod) (vl : Voteline) (hvl : vl ∈ m.votelines) (hq : vl.qty ≤ 0) (text : Str) :
    rankingCsv m ≠ .ok text := by
  intro h
  have := ((C41_success m).1 ⟨text, h⟩ vl hvl).1
  omega

/-- the row of a ballot that cannot be written -/
theorem csvBallot_error (fields : List Str) (vl : Voteline) (i : Nat) :
    ((∃ kp ∈ vl.prefs, kp.2.rank = none) → csvBallot fields vl i = .error .keyError) ∧
    ((∀ kp ∈ vl.prefs, kp.2.rank ≠ none) → (∃ kp ∈ vl.prefs, kp.1 ∉ fields) → c!"voterid" ∈ fields →
      csvBallot fields vl i = .error .valueError) := by
  have hm : ∀ (l : List (Str × Pref)), ((∃ kp ∈ l, kp.2.rank = none) → l.mapM csvRankEntry = .error .keyError) ∧
      ((∀ kp ∈ l, kp.2.rank ≠ none) → ∃ d : List (Str × Str), l.mapM csvRankEntry = .ok d ∧ d.map Prod.fst = l.map Prod.fst) := by
    intro l
    induction l with
    | nil => exact ⟨fun ⟨_, h, _⟩ => absurd h (by simp), fun _ => ⟨[], rfl, rfl⟩⟩
    | cons x l ih =>
      rw [List.mapM_cons]
      cases hx : x.2.rank with
      | none =>
        refine ⟨fun _ => by simp only [csvRankEntry, hx]; rfl, fun h => absurd hx (h x (by simp))⟩
      | some r =>
        have e : csvRankEntry x = .ok (x.1, intStr r) := by simp only [csvRankEntry, hx]
        rw [e]
        constructor
        · rintro ⟨kp, hk, hn⟩
          rcases List.mem_cons.1 hk with rfl | hk
          · rw [hx] at hn; cases hn
          · rw [ok_bind, ih.1 ⟨kp, hk, hn⟩]; rfl
        · intro h
          obtain ⟨d, e1, e2⟩ := ih.2 (fun kp hk => h kp (by simp [hk]))
          exact ⟨(x.1, intStr r) :: d, by rw [ok_bind, e1]; rfl, by simp [e2]⟩
  constructor
  · intro h
    unfold csvBallot
    rw [(hm vl.prefs).1 h]
  · intro h ⟨kp, hk, hkf⟩ hv
    obtain ⟨d, e1, e2⟩ := (hm vl.prefs).2 h
    unfold csvBallot
    rw [e1]
    simp only
    unfold csvDictRow
    rw [if_neg]
    rw [List.all_eq_true]
    intro hall
    refine hkf (of_decide_eq_true (hall kp.1 ?_))
    have : kp.1 ∈ Dict.keys d := by
      show kp.1 ∈ d.map Prod.fst
      rw [e2]
      exact List.mem_map.2 ⟨kp, hk, rfl⟩
    rw [Dict.keys_set]
    split
    · exact this
    · exact List.mem_append_left _ this

/-- C41.  Which exception ends the writing of ballots that cannot be written: it is decided by the first such voteline.
A quantity that is not positive is an `ABIFVotelineException`; otherwise a missing rank is a `KeyError`, and a candidate
that is not in the table is a `ValueError` of the csv module. -/
theorem C41_errors (m : Jabmod) (good : List Voteline) (bad : Voteline) (rest : List Voteline) (hm : m.votelines = good ++ bad :: rest)
    (hg : ∀ vl ∈ good, 0 < vl.qty ∧ ∀ kp ∈ vl.prefs, kp.2.rank ≠ none ∧ (kp.1 ∈ Dict.keys m.candidates ∨ kp.1 = c!"voterid")) :
    (bad.qty ≤ 0 → rankingCsv m = .error .voteline) ∧
    (0 < bad.qty → (∃ kp ∈ bad.prefs, kp.2.rank = none) → rankingCsv m = .error .keyError) ∧
    (0 < bad.qty → (∀ kp ∈ bad.prefs, kp.2.rank ≠ none) → (∃ kp ∈ bad.prefs, kp.1 ∉ Dict.keys m.candidates ∧ kp.1 ≠ c!"voterid") →
      rankingCsv m = .error .valueError) := by
  have key : ∀ (err : PyErr), (∀ i, csvVotelines (csvFields m) (bad :: rest) i = .error err) →
      ∀ (good : List Voteline), (∀ vl ∈ good, 0 < vl.qty ∧ ∀ kp ∈ vl.prefs, kp.2.rank ≠ none ∧ (kp.1 ∈ Dict.keys m.candidates ∨ kp.1 = c!"voterid")) →
      ∀ i, csvVotelines (csvFields m) (good ++ bad :: rest) i = .error err := by
    intro err hb good
    induction good with
    | nil => intro _ i; exact hb i
    | cons x good ih =>
      intro hg i
      have hx := hg x (by simp)
      obtain ⟨rs, hrs⟩ := csvVotelines_of (cands := Dict.keys m.candidates) (vls := [x]) (fun vl hvl => by
        rcases List.mem_singleton.1 hvl with rfl; exact hx) i
      have hcop : ∃ rs, csvCopies (csvFields m) x x.qty.toNat i = .ok rs := by
        rw [csvVotelines, if_pos hx.1] at hrs
        unfold csvFields
        cases hc : csvCopies (c!"voterid" :: Dict.keys m.candidates) x x.qty.toNat i with
        | ok rs => exact ⟨rs, rfl⟩
        | error e => rw [hc] at hrs; cases hrs
      obtain ⟨rs', hrs'⟩ := hcop
      rw [List.cons_append, csvVotelines, if_pos hx.1, hrs']
      simp only
      rw [ih (fun vl hvl => hg vl (by simp [hvl]))]
  have first : ∀ (err : PyErr), 0 < bad.qty → (∀ i, csvBallot (csvFields m) bad i = .error err) →
      ∀ i, csvVotelines (csvFields m) (bad :: rest) i = .error err := by
    intro err hq he i
    rw [csvVotelines, if_pos hq]
    obtain ⟨n, hn⟩ : ∃ n, bad.qty.toNat = n + 1 := ⟨bad.qty.toNat - 1, by omega⟩
    rw [hn, csvCopies, he]
  have fin : ∀ (err : PyErr), (∀ i, csvVotelines (csvFields m) (bad :: rest) i = .error err) → rankingCsv m = .error err := by
    intro err h
    unfold rankingCsv
    rw [hm, key err h good hg 0]
  refine ⟨fun hq => fin _ (fun i => ?_), fun hq h => fin _ (first _ hq (fun i => ((csvBallot_error _ bad i).1 h))),
    fun hq h1 h2 => fin _ (first _ hq (fun i => (csvBallot_error _ bad i).2 h1 ?_ (by simp [csvFields])))⟩
  · rw [csvVotelines, if_neg (by omega)]
  · obtain ⟨kp, hk, h3, h4⟩ := h2
    exact ⟨kp, hk, by simp [csvFields, h3, h4]⟩

/-- C41.  The generated voter ids of different ballots are different. -/
theorem C41_generated_ids (i j : Nat) (h : i ≠ j) : generatedVoterId i ≠ generatedVoterId j :=
  fun he => h (generatedVoterId_inj he)

/-- C41.  ... and a generated id is `voter` followed by at least six digits that spell the ballot's number. -/
theorem C41_generated_form [Uni] (i : Nat) : ∃ ds, generatedVoterId i = c!"voter" ++ ds ∧ 6 ≤ ds.length ∧
    (∀ c ∈ ds, isDigit c = true) ∧ digitsVal ds = i := by
  refine ⟨_, rfl, ?_, ?_, ?_⟩
  · simp only [List.length_append, List.length_replicate]; omega
  · intro c hc
    rcases List.mem_append.1 hc with hc | hc
    · rw [(List.mem_replicate.1 hc).2]; rfl
    · exact (natStr_spec i).2.1 c hc
  · rw [digitsVal_zeros, (natStr_spec i).2.2]

section
set_option maxRecDepth 20000

/-- a model with a voter id, a quantity of two and a name that needs quoting -/
def exCsv : Jabmod := { emptyishJabmod with
  candidates := [(c!"A", some c!"A"), (c!"x,\"y", some c!"X")],
  votelines := [
    { qty := 1, prefs := [(c!"A", { rank := some 1 }), (c!"x,\"y", { rank := some 2 })], voterid := some c!"v9" },
    { qty := 2, prefs := [(c!"x,\"y", { rank := some 1 })] }] }
def exCsvText : Str := c!"voterid,A,\"x,\"\"y\"\r\nv9,1,2\r\nvoter000002,,1\r\nvoter000003,,1\r\n"
example : rankingCsv exCsv = .ok exCsvText := by decide +kernel
example : c!"voterid" ∉ Dict.keys exCsv.candidates := by decide
example : csvRead exCsvText = some [[c!"voterid", c!"A", c!"x,\"y"], [c!"v9", c!"1", c!"2"],
    [c!"voter000002", c!"", c!"1"], [c!"voter000003", c!"", c!"1"]] := by decide +kernel

/-- one ballot ranking candidate `voterid` first and `A` second -/
def exCsvClash : Jabmod := { emptyishJabmod with
  candidates := [(c!"voterid", some c!"V"), (c!"A", some c!"A")],
  votelines := [{ qty := 1, prefs := [(c!"voterid", { rank := some 1 }), (c!"A", { rank := some 2 })] }] }
/-- The claim fails for a candidate with token `voterid`: the column of that candidate shows the voter id, not the
rank 1 that the ballot gives. -/
theorem C41_voterid_candidate : rankingCsv exCsvClash = .ok c!"voterid,voterid,A\r\nvoter000001,voter000001,2\r\n" ∧
    rankCell exCsvClash.votelines[0] c!"voterid" = c!"1" := by decide +kernel

/-- a voteline with the explicit id `voter000002`, followed by one without an id -/
def exCsvCollide : Jabmod := { emptyishJabmod with
  candidates := [(c!"A", some c!"A")],
  votelines := [{ qty := 1, prefs := [(c!"A", { rank := some 1 })], voterid := some c!"voter000002" },
    { qty := 1, prefs := [(c!"A", { rank := some 1 })] }] }
/-- A generated id can coincide with an explicit one. -/
theorem C41_id_collision : rankingCsv exCsvCollide = .ok c!"voterid,A\r\nvoter000002,1\r\nvoter000002,1\r\n" := by
  decide +kernel
end

end Verif.Props
