/-
Helper lemmas: quoted candidates without a rating on a voteline are skipped.
-/
import Verif.Lib.Prefstr

set_option linter.unusedSimpArgs false
set_option linter.unusedSectionVars false

namespace Verif
open Spec
variable [U : Uni]

/-- a quoted token without a rating: nothing is recorded -/
theorem exStep_unrated {s : ExSt} {tok t : Str} (h1 : s.inbrackets = false) (h2 : s.inquotes = false)
    (hst : strip tok = '"' :: (t ++ ['"'])) (hq : '"' ∉ t) :
    exStep s tok = .ok { s with ccand := some t } := by
  have hall : ∀ c ∈ t, (c != '"') = true := by
    intro c hc; simp; rintro rfl; exact hq hc
  have e1 : (t ++ ['"']).takeWhile (fun c => c != '"') = t := by
    rw [takeWhile_append_of_all hall]; simp
  have e2 : (t ++ ['"']).dropWhile (fun c => c != '"') = ['"'] := by
    rw [dropWhile_append_of_all hall]; simp
  have hqr : quotedRated ('"' :: (t ++ ['"'])) = none := by
    unfold quotedRated prefixMatch
    rw [rmatch_star_det]
    · rw [List.dropWhile_cons, if_neg (by decide), rmatch_one, if_pos (by decide), rmatch_star_det]
      · rw [e2]
        simp [rmatch_one, rmatch_one_nil]
      · intro c u hc
        rw [rmatch_one, if_neg]
        intro h; simp at h hc; exact hc h
    · intro c u hc
      rw [rmatch_one, if_neg]
      simp; rintro rfl; exact absurd hc (by decide)
  have hqb : quotedBare ('"' :: (t ++ ['"'])) = some t := by
    unfold quotedBare prefixMatch
    rw [rmatch_star_greedy _ _ _ _ ([['"'], t, ['"']], [])]
    rw [List.dropWhile_cons, if_neg (by decide)]
    apply rmatch_one_ok _ _ _ _ _ ([t, ['"']], []) (by decide)
    rw [rmatch_star_greedy _ _ _ _ ([['"']], []), e1]
    rw [e2]
    exact rmatch_one_ok _ _ _ _ _ ([], []) (by decide) rfl
  unfold exStep
  simp only [hst, h1, h2, Bool.or_self, Bool.false_eq_true, if_false, hqr, hqb]

theorem unrated_text {it : Item} (h : it.QuotedUnrated) : it.text = it.pre ++ (('"' :: (it.tok ++ ['"'])) ++ it.post) := by
  obtain ⟨hs, hr, _⟩ := h
  simp [Item.text, Item.tokText, Item.ratingText, hs, hr]

theorem unrated_nosep {it : Item} (h : it.QuotedUnrated) : ∀ c ∈ it.text, isSepChar c = false := by
  intro c hc
  rw [unrated_text h] at hc
  obtain ⟨_, _, hpre, hpost, _, hns⟩ := h
  simp only [List.mem_append, List.mem_cons, List.not_mem_nil, or_false] at hc
  rcases hc with hc | (rfl | hc | rfl) | hc
  · exact space_not_sep (hpre c hc)
  · decide
  · exact hns c hc
  · decide
  · exact space_not_sep (hpost c hc)

theorem exLoop_unrated {s : ExSt} {it : Item} (h : it.QuotedUnrated) (h1 : s.inbrackets = false) (h2 : s.inquotes = false) :
    exLoop s (splitKeep isPrefSep it.text) = .ok { s with ccand := some it.tok } := by
  rw [isPrefSep_eq, splitKeep_none (unrated_nosep h)]
  show (exStep s _ >>= fun s' => exLoop s' []) = _
  have hst : strip it.text = '"' :: (it.tok ++ ['"']) := by
    rw [unrated_text h]
    apply strip_pad h.2.2.1 h.2.2.2.1
    rw [strip_eq_iff]
    refine ⟨by intro c hc; cases hc; decide, ?_⟩
    intro c hc
    rw [show '"' :: (it.tok ++ ['"']) = ('"' :: it.tok) ++ ['"'] by simp, List.getLast?_concat] at hc
    cases hc; decide
  rw [exStep_unrated h1 h2 hst h.2.2.2.2.1]
  rfl

theorem Spec.Item.Ok.kept {it : Item} (h : it.Ok) : it.bareOrRated = true := by
  unfold Item.bareOrRated
  have := h.2.2.2
  cases hs : it.style with
  | bare => simp
  | bracket => simp
  | quoted =>
    rw [hs] at this
    cases hr : it.rating with
    | none => exact absurd hr this.2.2
    | some d => simp

theorem Spec.Item.QuotedUnrated.dropped {it : Item} (h : it.QuotedUnrated) : it.bareOrRated = false := by
  unfold Item.bareOrRated; simp [h.1, h.2.1]

theorem exLoop_any {s : ExSt} {it : Item} (h : it.Ok ∨ it.QuotedUnrated) (h1 : s.inbrackets = false)
    (h2 : s.inquotes = false) (h3 : s.quotetok = []) :
    exLoop s (splitKeep isPrefSep it.text) =
      .ok { s with ccand := some it.tok, retval := s.retval ++ ([it].filter Item.bareOrRated).map (fun it => (it.tok, rawValue it)) } := by
  rcases h with h | h
  · rw [exLoop_item h h1 h2 h3]
    simp [h.kept]
  · rw [exLoop_unrated h h1 h2]
    simp [h.dropped]

theorem exLoop_anys {s : ExSt} {its : List Item} {ds : List Char} (h : ∀ it ∈ its, it.Ok ∨ it.QuotedUnrated)
    (hd : ∀ d ∈ ds, d = '>' ∨ d = '=' ∨ d = ',') (hlen : ds.length + 1 = its.length)
    (h1 : s.inbrackets = false) (h2 : s.inquotes = false) (h3 : s.quotetok = []) :
    ∃ s', exLoop s (splitKeep isPrefSep (writeItems its ds)) = .ok s' ∧
      s'.retval = s.retval ++ (its.filter Item.bareOrRated).map (fun it => (it.tok, rawValue it)) := by
  induction its generalizing s ds with
  | nil => simp at hlen
  | cons it its ih =>
    cases its with
    | nil =>
      exact ⟨_, exLoop_any (h it (by simp)) h1 h2 h3, rfl⟩
    | cons it2 its =>
      cases ds with
      | nil => simp at hlen
      | cons d ds =>
        have hdd := hd d (by simp)
        have hsep : isPrefSep d = true := by rcases hdd with rfl | rfl | rfl <;> decide
        show ∃ s', exLoop s (splitKeep isPrefSep (it.text ++ d :: writeItems (it2 :: its) ds)) = .ok s' ∧ _
        rw [splitKeep_append hsep, exLoop_append, exLoop_any (h it (by simp)) h1 h2 h3, ok_bind]
        show ∃ s', (exStep _ [d] >>= fun s' => exLoop s' _) = .ok s' ∧ _
        rw [exStep_skip (tok := [d]) (by exact h1) (by exact h2) (by rcases hdd with rfl | rfl | rfl <;> decide), ok_bind]
        obtain ⟨s', hs', hr⟩ := ih (s := { s with ccand := some it.tok, retval := s.retval ++ ([it].filter Item.bareOrRated).map (fun it => (it.tok, rawValue it)) })
          (ds := ds) (fun x hx => h x (by simp [hx])) (fun x hx => hd x (by simp [hx])) (by simpa using hlen) h1 h2 h3
        refine ⟨s', hs', ?_⟩
        rw [hr]
        show _ = _ ++ (([it] ++ (it2 :: its)).filter Item.bareOrRated).map _
        rw [List.filter_append, List.map_append, List.append_assoc]

theorem reSub_any {it : Item} (h : it.Ok ∨ it.QuotedUnrated) (t : Str) :
    (reSub (matchLen bracketAtoms) c!"[PLACEHOLDER]" (it.text ++ t)).filter isDelim =
      (reSub (matchLen bracketAtoms) c!"[PLACEHOLDER]" t).filter isDelim := by
  rcases h with h | h
  · exact reSub_item h t
  · have := unrated_nosep h
    rw [reSub_plain (not_sep_not_open this), List.filter_append, filter_delim_nosep this]
    rfl

theorem delims_anys {its : List Item} {ds : List Char} (h : ∀ it ∈ its, it.Ok ∨ it.QuotedUnrated)
    (hd : ∀ d ∈ ds, d = '>' ∨ d = '=' ∨ d = ',') (hlen : ds.length + 1 = its.length) :
    (reSub (matchLen bracketAtoms) c!"[PLACEHOLDER]" (writeItems its ds)).filter isDelim = ds := by
  induction its generalizing ds with
  | nil => simp at hlen
  | cons it its ih =>
    cases its with
    | nil =>
      simp at hlen
      subst hlen
      have := reSub_any (h it (by simp)) []
      rw [List.append_nil] at this
      exact this
    | cons it2 its =>
      cases ds with
      | nil => simp at hlen
      | cons d ds =>
        have hdd := hd d (by simp)
        show (reSub _ _ (it.text ++ d :: writeItems (it2 :: its) ds)).filter _ = _
        rw [reSub_any (h it (by simp))]
        have : reSub (matchLen bracketAtoms) c!"[PLACEHOLDER]" ([d] ++ writeItems (it2 :: its) ds) = _ :=
          reSub_plain (by rcases hdd with rfl | rfl | rfl <;> decide) _
        rw [List.singleton_append] at this
        rw [this, List.filter_append, ih (fun x hx => h x (by simp [hx])) (fun x hx => hd x (by simp [hx])) (by simpa using hlen)]
        rcases hdd with rfl | rfl | rfl <;> rfl

theorem determine_anys {its : List Item} {ds : List Char} (h : ∀ it ∈ its, it.Ok ∨ it.QuotedUnrated)
    (hd : ∀ d ∈ ds, d = '>' ∨ d = '=' ∨ d = ',') (hlen : ds.length + 1 = its.length) :
    determineRankOrRate (writeItems its ds) = (modeOf ds, ds) := by
  unfold determineRankOrRate
  have := delims_anys h hd hlen
  unfold isDelim at this
  simp only [this]
  cases ds with
  | nil => rfl
  | cons d ds =>
    simp only [modeOf]
    split <;> rfl

theorem prefLoop_take (mode : RankOrRate) (ds : List Char) (n : Nat) (cps : List (Str × Option RVal)) (i : Nat) (rank : Int)
    (prefs : Dict Str Pref) : prefLoop mode ds n i rank cps prefs = prefLoop mode (ds.take (n - 1)) n i rank cps prefs := by
  induction cps generalizing i rank prefs with
  | nil => rfl
  | cons e cps ih =>
    obtain ⟨c, r⟩ := e
    rw [prefLoop_cons, prefLoop_cons]
    by_cases hi : i + 1 < n
    · rw [if_pos hi, if_pos hi]
      have : (ds.take (n - 1))[i]? = ds[i]? := by rw [List.getElem?_take, if_pos (by omega)]
      rw [this]
      cases ds[i]? with
      | none => rfl
      | some d => exact ih ..
    · rw [if_neg hi, if_neg hi]
      exact ih ..

/-- the written rating of a single candidate does not matter for its rank -/
theorem addRanks_single (c : Str) (r : Option RVal) (k : Option Int) (nd : Option Str) (hr : ∃ i, ratingInt r = .ok i)
    (hk : k = none ∨ k = some 1) :
    addRanksByRating [(c, { rating := r, rank := k, nextdelim := nd })] = .ok [(c, { rating := r, rank := some 1, nextdelim := nd })] := by
  rw [addRanksByRating_eq (by simp [Dict.WF, Dict.keys]) (by simpa using hr)]
  rcases hk with rfl | rfl
  · simp [rankTruthy, denseRank, firsts]
  · simp [rankTruthy]

theorem parsePrefstr_unrated {its : List Item} {ds : List Char} (h : ∀ it ∈ its, it.Ok ∨ it.QuotedUnrated)
    (hd : ∀ d ∈ ds, d = '>' ∨ d = '=' ∨ d = ',') (hlen : ds.length + 1 = its.length) :
    parsePrefstr (writeItems its ds) =
      parsePrefstr (writeItems (its.filter Item.bareOrRated) (ds.take ((its.filter Item.bareOrRated).length - 1))) := by
  have hk : ∀ it ∈ its.filter Item.bareOrRated, it.Ok := by
    intro it hit
    obtain ⟨hi, hb⟩ := List.mem_filter.1 hit
    rcases h it hi with h | h
    · exact h
    · rw [h.dropped] at hb; cases hb
  have hl : (its.filter Item.bareOrRated).length ≤ its.length := List.length_filter_le _ _
  obtain ⟨s', hs', hret⟩ := exLoop_anys (s := {}) h hd hlen rfl rfl rfl
  have hex : extractCandprefs (writeItems its ds) = .ok ((its.filter Item.bareOrRated).map (fun it => (it.tok, rawValue it))) := by
    unfold extractCandprefs
    rw [hs', ok_bind, hret]; rfl
  generalize hK : its.filter Item.bareOrRated = K at *
  unfold parsePrefstr
  rw [determine_anys h hd hlen, hex]
  simp only [ok_bind]
  match K, hk, hl with
  | [], _, _ =>
    rw [List.map_nil]
    show _ = (match determineRankOrRate [] with | (mode, delims) => _)
    rfl
  | [it], hk, _ =>
    have hk1 := hk it (by simp)
    obtain ⟨r1, r2⟩ := rawValue_readable hk1
    have d2 : determineRankOrRate (writeItems [it] []) = (modeOf [], []) := determine_items hk (by simp) rfl
    obtain ⟨s2, hs2, hret2⟩ := exLoop_items (s := {}) (its := [it]) (ds := []) hk (by simp) rfl rfl rfl rfl
    have hex2 : extractCandprefs (writeItems [it] []) = .ok [(it.tok, rawValue it)] := by
      unfold extractCandprefs
      rw [hs2, ok_bind, hret2]; rfl
    show _ = (match determineRankOrRate (writeItems [it] []) with | (mode, delims) => _)
    rw [d2]
    simp only [List.take_zero, List.length_singleton, Nat.sub_self]
    rw [hex2, ok_bind]
    simp only [List.map_cons, List.map_nil, List.length_singleton]
    have key : ∀ mode dl, (prefLoop mode dl 1 0 1 [(it.tok, rawValue it)] [] >>= addRanksByRating) =
        .ok [(it.tok, { rating := it.value, rank := some 1 })] := by
      intro mode dl
      rw [prefLoop_cons, if_neg (by omega)]
      show addRanksByRating [(it.tok, { rating := _, rank := modeRank mode 1 })] = _
      rw [addRanks_single _ _ _ _ ⟨_, r1⟩ (by cases mode <;> simp [modeRank]), r2]
    have := key (modeOf ds) ds
    have k2 := key (determineRankOrRate (writeItems [it] [])).1 (determineRankOrRate (writeItems [it] [])).2
    rw [← bind_assoc, ← bind_assoc, this, k2]
  | a :: b :: K, hk, hl =>
    have hlK : (ds.take ((a :: b :: K).length - 1)).length + 1 = (a :: b :: K).length := by
      rw [List.length_take]
      simp only [List.length_cons] at hl ⊢
      omega
    have hdK : ∀ d ∈ ds.take ((a :: b :: K).length - 1), d = '>' ∨ d = '=' ∨ d = ',' :=
      fun d hd' => hd d (List.mem_of_mem_take hd')
    obtain ⟨s2, hs2, hret2⟩ := exLoop_items (s := {}) hk hdK hlK rfl rfl rfl
    have hex2 : extractCandprefs (writeItems (a :: b :: K) (ds.take ((a :: b :: K).length - 1))) =
        .ok ((a :: b :: K).map (fun it => (it.tok, rawValue it))) := by
      unfold extractCandprefs
      rw [hs2, ok_bind, hret2]; rfl
    rw [determine_items hk hdK hlK, hex2]
    simp only [ok_bind]
    have hmode : modeOf (ds.take ((a :: b :: K).length - 1)) = modeOf ds := by
      cases ds with
      | nil => simp
      | cons d ds => rfl
    rw [hmode, prefLoop_take, List.length_map]

end Verif
