/-
Helper lemmas: the ratings in a parsed model are numbers that are not negative.
-/
import Verif.Lib.ExportRead
import Verif.Lib.Parsed

set_option linter.unusedSimpArgs false
set_option linter.unusedSectionVars false

namespace Verif
open Spec
variable [U : Uni]

/-- every rating in the list is plain -/
def AllPlain (l : List (Str × Option RVal)) : Prop := ∀ e ∈ l, PlainRating e.2

theorem allPlain_append {l : List (Str × Option RVal)} {c : Str} {r : Option RVal} (h : AllPlain l) (hr : PlainRating r) :
    AllPlain (l ++ [(c, r)]) := by
  intro e he
  rcases List.mem_append.1 he with he | he
  · exact h e he
  · simp only [List.mem_singleton] at he; subst he; exact hr

theorem allPlain_setLast {l : List (Str × Option RVal)} {c : Str} {r : Option RVal} (h : AllPlain l) (hr : PlainRating r) :
    AllPlain (setLast l (c, r)) := by
  unfold setLast
  exact allPlain_append (fun e he => h e (List.dropLast_subset _ he)) hr

theorem quotedRated_digits {tok cand rating : Str} (h : quotedRated tok = some (cand, rating)) :
    rating ≠ [] ∧ ∀ c ∈ rating, isDigit c = true := by
  unfold quotedRated at h
  split at h
  · rename_i a b cand' d e rating' rest heq
    cases h
    have hr := (rmatch_sound _ _ _ _ heq).1
    cases hr with | cons _ hr => cases hr with | cons _ hr => cases hr with | cons _ hr => cases hr with | cons _ hr =>
      cases hr with | cons _ hr => cases hr with | cons ha _ => exact ha
  · cases h

theorem exStep_plain_inv {s s' : ExSt} {tok : Str} (h : exStep s tok = .ok s') (hs : AllPlain s.retval) : AllPlain s'.retval := by
  have pnone : PlainRating none := trivial
  unfold exStep at h
  simp only at h
  split at h
  · split at h
    · cases h; exact hs
    · split at h
      · cases h; exact allPlain_append hs pnone
      · split at h
        · split at h
          · cases h; exact hs
          · split at h
            · cases h
            · cases h; exact allPlain_setLast hs pnone
        · split at h
          · cases h; exact hs
          · cases h
  · split at h
    · rename_i cand rating hq
      cases h
      exact allPlain_append hs (quotedRated_digits hq)
    · split at h
      · cases h; exact hs
      · split at h
        · revert h
          cases hsr : slashRating (strip tok) with
          | none =>
            simp only
            split
            · intro h; cases h; exact allPlain_append hs pnone
            · intro h; cases h; exact hs
          | some bd =>
            have pz : ∀ n : Nat, PlainRating (some (.int (n : Int))) := fun n => by show (0 : Int) ≤ _; omega
            simp only
            split
            · simp only
              split
              · intro h; cases h
              · intro h; cases h
                exact allPlain_setLast (allPlain_append hs pnone) (pz _)
            · split
              · intro h; cases h
              · split
                · intro h; cases h
                  exact allPlain_setLast hs (pz _)
                · intro h; cases h
        · split at h
          · cases h; exact hs
          · split at h
            · cases h; exact hs
            · cases h; exact hs

theorem exLoop_plain_inv {s s' : ExSt} {toks : List Str} (h : exLoop s toks = .ok s') (hs : AllPlain s.retval) : AllPlain s'.retval := by
  induction toks generalizing s with
  | nil => cases h; exact hs
  | cons t ts ih =>
    unfold exLoop at h
    obtain ⟨s1, h1, h⟩ := bind_ok.1 h
    exact ih h (exStep_plain_inv h1 hs)

theorem extract_plain {s : Str} {cps : List (Str × Option RVal)} (h : extractCandprefs s = .ok cps) : AllPlain cps := by
  unfold extractCandprefs at h
  obtain ⟨st, h1, h⟩ := bind_ok.1 h
  cases h
  exact exLoop_plain_inv h1 (fun e he => by cases he)

theorem prefLoop_plain {mode : RankOrRate} {delims : List Char} {n i : Nat} {rank : Int}
    {cps : List (Str × Option RVal)} {prefs out : Dict Str Pref}
    (h : prefLoop mode delims n i rank cps prefs = .ok out) (hc : AllPlain cps)
    (hg : ∀ c p, prefs.get? c = some p → PlainRating p.rating) :
    ∀ c p, out.get? c = some p → PlainRating p.rating := by
  induction cps generalizing i rank prefs with
  | nil =>
    unfold prefLoop at h
    cases h
    exact hg
  | cons e rest ih =>
    obtain ⟨cand, rating⟩ := e
    have hrest : AllPlain rest := fun e he => hc e (by simp [he])
    have step : ∀ (p : Pref) (rank' : Int), PlainRating p.rating →
        prefLoop mode delims n (i + 1) rank' rest (prefs.set cand p) = .ok out →
        ∀ c p, out.get? c = some p → PlainRating p.rating := by
      intro p rank' hp h
      apply ih h hrest
      intro c q hq
      rw [Dict.get?_set] at hq
      split at hq
      · cases hq; exact hp
      · exact hg c q hq
    have hr : PlainRating (if ratingTruthy rating then rating else none) := by
      split
      · exact hc (cand, rating) (by simp)
      · trivial
    unfold prefLoop at h
    simp only at h
    split at h
    · split at h
      · cases h
      · exact step _ _ hr h
    · exact step _ _ hr h

theorem addRanksByRating_plain {prefs out : Dict Str Pref} (h : addRanksByRating prefs = .ok out)
    (hg : ∀ c p, prefs.get? c = some p → PlainRating p.rating) :
    ∀ c p, out.get? c = some p → PlainRating p.rating := by
  unfold addRanksByRating at h
  obtain ⟨ks, hks, h⟩ := bind_ok.1 h
  obtain ⟨hk, hall⟩ := addRanksLoop_ok h (.inl rfl)
  intro c p hc
  obtain ⟨q, hq, hr, _⟩ := hall c p hc
  rw [hr]
  exact hg c q hq

theorem parsePrefstr_plain {s : Str} {prefs : Dict Str Pref} {cands : List Str}
    (h : parsePrefstr s = .ok (prefs, cands)) :
    ∀ c p, prefs.get? c = some p → PlainRating p.rating := by
  unfold parsePrefstr at h
  obtain ⟨cps, hcps, h⟩ := bind_ok.1 h
  obtain ⟨p1, hp1, h⟩ := bind_ok.1 h
  obtain ⟨p2, hp2, h⟩ := bind_ok.1 h
  have e1 := prefLoop_plain hp1 (extract_plain hcps) (by intro c p hc; simp [Dict.get?] at hc)
  have e2 := addRanksByRating_plain hp2 e1
  split at h
  · cases h; intro c p hc; simp [Dict.get?] at hc
  · split at h
    · cases h
    · simp only at h
      split at h
      · obtain ⟨p3, hp3, h⟩ := bind_ok.1 h
        cases h
        exact addRanksByRating_plain hp3 e2
      · cases h; exact e2

/-- a parsed ballot is exportable when its tokens are printable -/
theorem exportable_of_says {src : Str × Str × Option Str} {vl : Voteline} (h : SaysBallot src vl)
    (ht : ∀ (k : Str), k ∈ Dict.keys vl.prefs → Printable k) : Exportable vl := by
  have hg := goodLine_of_says h
  obtain ⟨hq, ⟨cands, hp⟩, _⟩ := h
  refine ⟨by rw [hq]; omega, hg.wf, ht, ?_, ?_⟩
  · intro e he
    obtain ⟨r, hr, _⟩ := (hg.entry e he).1
    exact ⟨r, hr⟩
  · intro e he
    exact parsePrefstr_plain hp e.1 e.2 (Dict.get?_of_mem hg.wf he)

end Verif
