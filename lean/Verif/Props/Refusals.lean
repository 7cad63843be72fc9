/-
C09: with which errors votelines and texts are refused.
-/
import Verif.Props.Pieces
import Verif.Props.Comments
import Verif.Lib.ParsedRatings

set_option linter.unusedSectionVars false

namespace Verif.Props
open Spec

section
variable [U : Uni]

/-- what the token loop keeps: a remembered candidate whenever there is an entry, and neither brackets nor quotes open before the first `[` -/
def LoopInv (opened : Prop) (s : ExSt) : Prop := (s.retval ≠ [] → s.ccand ≠ none) ∧ (s.inbrackets = true ∨ s.inquotes = true → opened)

theorem noQuote_of_notPlain {tok : Str} (h : startsPlain (strip tok) = false) : startsQuote (strip tok) = false := by
  refine startsQuote_false (fun c hc => strip_head (s := tok) hc) (fun hq => ?_)
  rw [startsPlain_eq (fun c hc => strip_head (s := tok) hc), hq] at h
  revert h
  decide

theorem exStep_inv {opened : Prop} {s s' : ExSt} {tok : Str} (h : exStep s tok = .ok s') (hi : LoopInv opened s)
    (ht : strip tok = [] ∨ (strip tok).head? ≠ some '[' ∨ opened) : LoopInv opened s' := by
  obtain ⟨h1, h2⟩ := hi
  unfold exStep at h
  simp only at h
  split at h
  · rename_i hb
    have ho : opened := h2 (by simpa using hb)
    split at h
    · cases h; exact ⟨h1, fun _ => ho⟩
    · split at h
      · cases h; exact ⟨fun _ => by simp, fun _ => ho⟩
      · split at h
        · split at h
          · cases h; exact ⟨h1, fun _ => ho⟩
          · split at h
            · cases h
            · rename_i hr
              cases h; exact ⟨fun _ => h1 hr, fun _ => ho⟩
        · split at h
          · cases h; exact ⟨h1, fun _ => ho⟩
          · cases h
  · split at h
    · cases h; exact ⟨fun _ => by simp, h2⟩
    · split at h
      · cases h; exact ⟨fun _ => by simp, h2⟩
      · split at h
        · cases hsl : slashRating (strip tok) with
          | none =>
            rw [hsl] at h
            simp only at h
            by_cases hb : strip tok = []
            · rw [if_neg (by simp [hb])] at h; cases h; exact ⟨h1, h2⟩
            · rw [if_pos hb] at h; cases h; exact ⟨fun _ => by simp, h2⟩
          | some bd =>
            obtain ⟨b, d⟩ := bd
            rw [hsl] at h
            simp only at h
            by_cases hb : b = []
            · simp only [hb, ne_eq, not_true_eq_false, if_false] at h
              split at h
              · cases h
              · rename_i hr
                split at h
                · cases h; exact ⟨fun _ => h1 hr, h2⟩
                · cases h
            · simp only [hb, ne_eq, not_false_eq_true, if_true] at h
              split at h
              · cases h
              · cases h; exact ⟨fun _ => by simp, h2⟩
        · rename_i hp
          split at h
          · rename_i hh
            cases h
            refine ⟨h1, fun _ => ?_⟩
            rcases ht with ht | ht | ht
            · rw [ht] at hh; cases hh
            · exact absurd hh ht
            · exact ht
          · split at h
            · rename_i hq
              rw [noQuote_of_notPlain (by simpa using hp)] at hq
              cases hq
            · cases h; exact ⟨h1, h2⟩

theorem exStep_err {opened : Prop} {s : ExSt} {tok : Str} {e : PyErr} (h : exStep s tok = .error e) (hi : LoopInv opened s) :
    e = .indexError ∨ e = .typeError ∧ opened := by
  obtain ⟨h1, h2⟩ := hi
  unfold exStep at h
  simp only at h
  split at h
  · rename_i hb
    have ho : opened := h2 (by simpa using hb)
    split at h
    · cases h
    · split at h
      · cases h
      · split at h
        · split at h
          · cases h
          · split at h
            · cases h; exact .inl rfl
            · cases h
        · split at h
          · cases h
          · cases h; exact .inr ⟨rfl, ho⟩
  · split at h
    · cases h
    · split at h
      · cases h
      · split at h
        · cases hsl : slashRating (strip tok) with
          | none => rw [hsl] at h; simp only at h; cases h
          | some bd =>
            obtain ⟨b, d⟩ := bd
            rw [hsl] at h
            simp only at h
            by_cases hb : b = []
            · simp only [hb, ne_eq, not_true_eq_false, if_false] at h
              split at h
              · cases h; exact .inl rfl
              · rename_i hr
                split at h
                · cases h
                · rename_i hn; exact absurd hn (h1 hr)
            · simp only [hb, ne_eq, not_false_eq_true, if_true] at h
              split at h
              · cases h; exact .inl rfl
              · cases h
        · split at h
          · cases h
          · split at h <;> cases h

theorem exLoop_err {opened : Prop} {toks : List Str} (ht : ∀ t ∈ toks, (strip t).head? ≠ some '[' ∨ opened) {s : ExSt} (hi : LoopInv opened s) {e : PyErr}
    (h : exLoop s toks = .error e) : e = .indexError ∨ e = .typeError ∧ opened := by
  induction toks generalizing s with
  | nil => cases h
  | cons t toks ih =>
    unfold exLoop at h
    cases hs : exStep s t with
    | error e' =>
      rw [hs, error_bind] at h
      cases h
      exact exStep_err hs hi
    | ok s' =>
      rw [hs, ok_bind] at h
      exact ih (fun t ht' => ht t (by simp [ht'])) (exStep_inv hs hi (.inr (ht t (by simp)))) h

/-- the ratings that the candidate loop stores can be read as numbers -/
theorem prefLoop_readable {mode : RankOrRate} {delims : List Char} {n i : Nat} {rank : Int} {cps : List (Str × Option RVal)}
    {prefs out : Dict Str Pref} (h : prefLoop mode delims n i rank cps prefs = .ok out) (hc : AllPlain cps)
    (hg : ∀ c p, prefs.get? c = some p → ∃ i, ratingInt p.rating = .ok i) :
    ∀ c p, out.get? c = some p → ∃ i, ratingInt p.rating = .ok i := by
  induction cps generalizing i rank prefs with
  | nil =>
    unfold prefLoop at h
    cases h
    exact hg
  | cons e rest ih =>
    obtain ⟨cand, rating⟩ := e
    have hr : ∃ i, ratingInt (if ratingTruthy rating then rating else none) = .ok i := by
      split
      · rename_i ht
        have hp := hc (cand, rating) (by simp)
        cases rating with
        | none => exact ⟨0, rfl⟩
        | some v =>
          cases v with
          | int i => exact ⟨i, rfl⟩
          | str s => exact ⟨_, pyInt_digits hp.1 hp.2⟩
          | null => cases ht
      · exact ⟨0, rfl⟩
    have step : ∀ (p : Pref) (rank' : Int), (∃ i, ratingInt p.rating = .ok i) →
        prefLoop mode delims n (i + 1) rank' rest (prefs.set cand p) = .ok out →
        ∀ c p, out.get? c = some p → ∃ i, ratingInt p.rating = .ok i := by
      intro p rank' hp h
      apply ih h (fun e he => hc e (by simp [he]))
      intro c q hq
      rw [Dict.get?_set] at hq
      split at hq
      · cases hq; exact hp
      · exact hg c q hq
    unfold prefLoop at h
    simp only at h
    split at h
    · split at h
      · cases h
      · exact step _ _ hr h
    · exact step _ _ hr h

theorem prefLoop_err {mode : RankOrRate} {delims : List Char} {n i : Nat} {rank : Int} {cps : List (Str × Option RVal)}
    {prefs : Dict Str Pref} {e : PyErr} (h : prefLoop mode delims n i rank cps prefs = .error e) : e = .indexError := by
  induction cps generalizing i rank prefs with
  | nil => cases h
  | cons c rest ih =>
    obtain ⟨cand, rating⟩ := c
    unfold prefLoop at h
    simp only at h
    split at h
    · split at h
      · cases h; rfl
      · exact ih h
    · exact ih h

theorem addRanks_total {prefs : Dict Str Pref} (hw : prefs.WF) (hr : ∀ c p, prefs.get? c = some p → ∃ i, ratingInt p.rating = .ok i) :
    ∃ out, addRanksByRating prefs = .ok out ∧ out.WF ∧ Dict.keys out = Dict.keys prefs ∧
      ∀ c p, out.get? c = some p → ∃ i, ratingInt p.rating = .ok i := by
  have h := addRanksByRating_eq hw (fun e he => hr e.1 e.2 (Dict.get?_of_mem hw he))
  refine ⟨_, h, ?_, ?_, ?_⟩
  · unfold Dict.WF Dict.keys
    rw [List.map_map]
    exact hw
  · unfold Dict.keys
    rw [List.map_map]
    rfl
  · intro c p hc
    obtain ⟨e, he, heq⟩ := List.mem_map.1 (Dict.mem_of_get? hc)
    cases heq
    have := hr e.1 e.2 (Dict.get?_of_mem hw he)
    split
    · exact this
    · exact this

/-- C09, the errors of a list: a preference list that is refused is refused with an `IndexError`, or with a `TypeError` if it has a `[`. -/
theorem C09_list_errors (s : Str) (e : PyErr) (h : parsePrefstr s = .error e) : e = .indexError ∨ e = .typeError ∧ '[' ∈ s := by
  unfold parsePrefstr at h
  simp only at h
  cases hx : extractCandprefs s with
  | error e' =>
    rw [hx, error_bind] at h
    cases h
    unfold extractCandprefs at hx
    cases hl : exLoop {} (splitKeep isPrefSep s) with
    | ok st => rw [hl, ok_bind] at hx; cases hx
    | error e' =>
      rw [hl, error_bind] at hx
      cases hx
      refine exLoop_err ?_ ⟨fun hh => absurd rfl hh, fun hh => by rcases hh with hh | hh <;> cases hh⟩ hl
      intro t ht
      by_cases hh : (strip t).head? = some '['
      · refine .inr ?_
        have : '[' ∈ strip t := List.mem_of_head? hh
        have : '[' ∈ t := by
          obtain ⟨pre, post, _, _, he⟩ := strip_parts t
          rw [he]
          simp [this]
        have hf := splitKeep_flatten isPrefSep s
        rw [← hf]
        exact List.mem_flatten.2 ⟨t, ht, this⟩
      · exact .inl hh
  | ok cps =>
    rw [hx, ok_bind] at h
    cases hp : prefLoop (determineRankOrRate s).1 (determineRankOrRate s).2 cps.length 0 1 cps [] with
    | error e' => rw [hp, error_bind] at h; cases h; exact .inl (prefLoop_err hp)
    | ok p1 =>
      rw [hp, ok_bind] at h
      obtain ⟨hk, hw, _⟩ := prefLoop_ok hp (by omega) (by intro c p hc; simp [Dict.get?] at hc) (by simp [Dict.WF, Dict.keys])
      have hr := prefLoop_readable hp (extract_plain hx) (by intro c p hc; simp [Dict.get?] at hc)
      obtain ⟨p2, e2, w2, k2, r2⟩ := addRanks_total hw hr
      rw [e2, ok_bind] at h
      cases cps with
      | nil => cases h
      | cons c0 rest =>
        obtain ⟨c0, r0⟩ := c0
        simp only at h
        have hm : c0 ∈ Dict.keys p2 := by
          rw [k2, hk]
          show c0 ∈ addKeys [] _
          rw [addKeys_nil]
          exact mem_firsts.2 (by simp)
        obtain ⟨p0, h0⟩ := Dict.exists_get?_of_mem hm
        rw [h0] at h
        simp only at h
        split at h
        · obtain ⟨p3, e3, _⟩ := addRanks_total w2 r2
          rw [e3] at h
          cases h
        · cases h

/-- C09, the errors of a text: a text that is refused has no votelines, or has one that cannot be read and is refused with the `IndexError` or
`TypeError` of the first such voteline (`TypeError` only if that has a `[`). -/
theorem C09_text_errors (cw ar : Bool) (text : Str) (e : PyErr) (h : convertAbif cw ar false text = .error e) :
    (votesOf cw text = [] ∧ e = .voteline) ∨
    ∃ good bad rest, votesOf cw text = good ++ bad :: rest ∧ (∀ v ∈ good, ∃ r, parsePrefstr v.2.1 = .ok r) ∧
      parsePrefstr bad.2.1 = .error e ∧ (e = .indexError ∨ e = .typeError ∧ '[' ∈ bad.2.1) := by
  have search : ∀ l : List (Str × Str × Option Str), (∀ v ∈ l, ∃ r, parsePrefstr v.2.1 = .ok r) ∨
      ∃ good bad rest e, l = good ++ bad :: rest ∧ (∀ v ∈ good, ∃ r, parsePrefstr v.2.1 = .ok r) ∧ parsePrefstr bad.2.1 = .error e := by
    intro l
    induction l with
    | nil => exact .inl (fun v hv => by cases hv)
    | cons a l ih =>
      cases ha : parsePrefstr a.2.1 with
      | error e => exact .inr ⟨[], a, l, e, rfl, (fun v hv => by cases hv), ha⟩
      | ok r =>
        rcases ih with ih | ⟨g, b, t, e, h1, h2, h3⟩
        · refine .inl (fun v hv => ?_)
          rcases List.mem_cons.1 hv with rfl | hv
          · exact ⟨r, ha⟩
          · exact ih v hv
        · refine .inr ⟨a :: g, b, t, e, by rw [h1]; rfl, (fun v hv => ?_), h3⟩
          rcases List.mem_cons.1 hv with rfl | hv
          · exact ⟨r, ha⟩
          · exact h2 v hv
  rcases search (votesOf cw text) with hall | ⟨g, b, t, e', h1, h2, h3⟩
  · by_cases hne : votesOf cw text = []
    · refine .inl ⟨hne, ?_⟩
      rcases (C09_no_votelines cw ar false text).2.1 hne with h' | ⟨h', _⟩
      · rw [h'] at h; cases h; rfl
      · cases h'
    · obtain ⟨m, hm⟩ := (C09_accepted cw ar text).2 ⟨hne, hall⟩
      rw [hm] at h; cases h
  · rw [C09_first_error cw ar text g b t e' h1 h2 h3] at h
    cases h
    exact .inr ⟨g, b, t, h1, h2, h3, C09_list_errors _ _ h3⟩

end

end Verif.Props

namespace Verif.Props
section
attribute [local instance] Uni.ascii
set_option maxRecDepth 20000

/-- all the errors occur -/
example : parsePrefstr c!"/3" = .error .indexError := by decide +kernel
example : parsePrefstr c!"[\"x,\"y" = .error .indexError := by decide +kernel
example : parsePrefstr c!"A]B" = .error .indexError := by decide +kernel
example : parsePrefstr c!"A>[,B" = .error .typeError := by decide +kernel

end
end Verif.Props
