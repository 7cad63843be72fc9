/-
The tallies applied to parsed .abif text: the hypotheses of C17-C27 are met by every successfully parsed
text (shorter than 2^61 characters), so those theorems hold end to end.
-/
import Verif.Lib.Parsed
import Verif.Props.Parse
import Verif.Props.Tally

set_option linter.unusedSectionVars false

namespace Verif.Props
open Spec
section
variable [U : Uni]

/-- Every parsed model is `AllRanked`, so C17-C19 and C26 apply to it. -/
theorem parsed_allRanked (cw ar sc : Bool) (text : Str) (m : Jabmod) (h : convertAbif cw ar sc text = .ok m)
    (hlen : text.length < 2 ^ 61) : AllRanked m := by
  intro vl hvl c p hc
  obtain ⟨_, r, hr, _, hB⟩ := convertAbif_entries h vl hvl c p hc
  exact ⟨r, hr, by omega⟩

/-- The candidate table of a parsed model has distinct keys, so C21-C23 apply to it. -/
theorem parsed_cands_nodup (cw ar sc : Bool) (text : Str) (m : Jabmod) (h : convertAbif cw ar sc text = .ok m) :
    m.candidates.keys.Nodup := by
  rw [(C03_candidates cw ar sc text m h).1]
  exact nodup_firsts _

/-- Every parsed model is `Scorable`, so C24-C27 apply to it. -/
theorem parsed_scorable (cw ar sc : Bool) (text : Str) (m : Jabmod) (h : convertAbif cw ar sc text = .ok m) :
    Scorable m where
  cands := parsed_cands_nodup cw ar sc text m h
  dicts := fun vl hvl => (C04_ranks cw ar sc text m h vl hvl).1
  known := (C03_candidates cw ar sc text m h).2.2
  ratings := fun vl hvl c p hc => (convertAbif_entries h vl hvl c p hc).1

/-- C17 end to end: on every parsed text the off-diagonal counts are the numbers of voters whose line
prefers the row candidate to the column candidate. -/
theorem C17_parsed (cw ar sc : Bool) (text : Str) (m : Jabmod) (h : convertAbif cw ar sc text = .ok m)
    (hlen : text.length < 2 ^ 61) :
    (pairwiseCount m).keys = m.candidates.keys ∧
    ∀ a ∈ m.candidates.keys, ∃ row, (pairwiseCount m).get? a = some row ∧ row.keys = m.candidates.keys ∧
      row.get? a = some none ∧
      ∀ b ∈ m.candidates.keys, b ≠ a → row.get? b = some (some (support m a b)) :=
  C17_pairwise m (parsed_allRanked cw ar sc text m h hlen)

/-- C26 end to end: on every parsed text with at least two candidates the STAR result exists, its
finalists are two distinct candidates with the two highest scores, and the runoff is decided by the
pairwise counts; the abstentions are exactly the indifferent voters. -/
theorem C26_parsed (cw ar sc : Bool) (text : Str) (m : Jabmod) (h : convertAbif cw ar sc text = .ok m)
    (hlen : text.length < 2 ^ 61) (h2 : 2 ≤ m.candidates.length) :
    ∃ r, starResult m = .ok r ∧
      r.fin1 ∈ m.candidates.keys ∧ r.fin2 ∈ m.candidates.keys ∧ r.fin1 ≠ r.fin2 ∧
      scoreOf m r.fin2 ≤ scoreOf m r.fin1 ∧
      (∀ c ∈ m.candidates.keys, c ≠ r.fin1 → scoreOf m c ≤ scoreOf m r.fin2) ∧
      (r.winner = .won r.fin1n ∧ support m r.fin2 r.fin1 < support m r.fin1 r.fin2 ∨
        r.winner = .won r.fin2n ∧ support m r.fin1 r.fin2 < support m r.fin2 r.fin1 ∨
        r.winner = .tie r.fin1n r.fin2n ∧ support m r.fin1 r.fin2 = support m r.fin2 r.fin1) ∧
      r.finalAbstentions = qtySum (fun vl => indifferent vl r.fin1 r.fin2) m.votelines ∧
      0 ≤ r.finalAbstentions := by
  obtain ⟨r, h0, h1, h2, h3, _, _, h6, h7, h8, h9, h10, h11, h12⟩ :=
    C26_star m (parsed_scorable cw ar sc text m h) (parsed_allRanked cw ar sc text m h hlen)
      (C01_ballotcount cw ar sc text m h).1 h2
  refine ⟨r, h0, h1, h2, h3, h6, h7, by rw [← h8, ← h9]; exact h10, h11, h12 ?_⟩
  intro vl hvl
  have key : ∀ m0, convertAbif cw false sc text = .ok m0 → ∀ vl ∈ m0.votelines, 0 ≤ vl.qty := by
    intro m0 h0 vl hvl
    obtain ⟨vls, f1, f2, _⟩ := C02_votelines cw sc text m0 h0
    have hall := forall₂_right (P := fun v : Voteline => 0 ≤ v.qty) (fun src v (hs : SaysBallot src v) => by
      rw [hs.1]; omega) f1
    exact hall vl (f2.mem_iff.1 hvl)
  cases ar with
  | false => exact key m h vl hvl
  | true =>
    rw [convertAbif_rated] at h
    obtain ⟨m0, hm0, h⟩ := bind_ok.1 h
    cases h
    obtain ⟨v, hv, rfl⟩ := List.mem_map.1 hvl
    exact key m0 hm0 v hv

end

/-! ### a concrete, non-trivial instance: the hypotheses above and those of C17-C27 are met -/

section Example
attribute [local instance] Uni.ascii
set_option maxRecDepth 20000

/-- three candidates, ties, a truncated ballot and ratings -/
def exText : Str := c!"=A:[Alice]\n3:A/5>B/3=C/3\n2:B/4>A/1\n1:C/2\n"

/-- the parsed example -/
def exModel : Jabmod := (convertAbif true false false exText).toOption.getD emptyishJabmod

theorem exModel_parsed : convertAbif true false false exText = .ok exModel := by
  unfold exModel
  have h : (convertAbif true false false exText).toOption.isSome = true := by decide +kernel
  cases hc : convertAbif true false false exText with
  | error e => rw [hc] at h; cases h
  | ok m => rfl

theorem exText_short : exText.length < 2 ^ 61 := by decide +kernel

example : AllRanked exModel := parsed_allRanked _ _ _ _ _ exModel_parsed exText_short
example : Scorable exModel := parsed_scorable _ _ _ _ _ exModel_parsed
example : exModel.candidates.keys.Nodup := parsed_cands_nodup _ _ _ _ _ exModel_parsed
example : exModel.metadata.get? c!"ballotcount" = some (.int (exModel.votelines.map Voteline.qty).sum) :=
  (C01_ballotcount _ _ _ _ _ exModel_parsed).1
example : 2 ≤ exModel.candidates.length := by decide +kernel
example : exModel.candidates.keys = [c!"A", c!"B", c!"C"] := by decide +kernel
example : support exModel c!"A" c!"B" = 3 ∧ support exModel c!"B" c!"A" = 2 ∧
    support exModel c!"B" c!"C" = 2 ∧ support exModel c!"C" c!"A" = 1 := by decide +kernel
example : (exModel.candidates.keys.map (scoreOf exModel)) = [17, 17, 11] := by decide +kernel
example : qtySum (fun vl => indifferent vl c!"B" c!"C") exModel.votelines = 3 := by decide +kernel

end Example

end Verif.Props
