/-
Helper lemmas: what parsed models satisfy, as needed by the tallies.
-/
import Verif.Lib.ParseTop
import Verif.Lib.Score

set_option linter.unusedSimpArgs false
set_option linter.unusedSectionVars false

namespace Verif
open Spec
variable [U : Uni]

/-! ### ratings are readable -/

theorem ratedKeys_readable {prefs : Dict Str Pref} {ks : List (Str × Int)} (h : ratedKeys prefs = .ok ks) :
    ∀ e ∈ prefs, ∃ i, ratingInt e.2.rating = .ok i := by
  intro e he
  obtain ⟨b, _, hb⟩ := mapM_ok_mem h e he
  obtain ⟨i, hi, _⟩ := bind_ok.1 hb
  exact ⟨i, hi⟩

theorem addRanksByRating_readable {prefs out : Dict Str Pref} (h : addRanksByRating prefs = .ok out) :
    ∀ c p, out.get? c = some p → ∃ i, ratingInt p.rating = .ok i := by
  unfold addRanksByRating at h
  obtain ⟨ks, hks, h⟩ := bind_ok.1 h
  obtain ⟨hk, hall⟩ := addRanksLoop_ok h (.inl rfl)
  intro c p hc
  obtain ⟨q, hq, hr, _⟩ := hall c p hc
  rw [hr]
  exact ratedKeys_readable hks (c, q) (Dict.mem_of_get? hq)

theorem parsePrefstr_readable {s : Str} {prefs : Dict Str Pref} {cands : List Str}
    (h : parsePrefstr s = .ok (prefs, cands)) :
    ∀ c p, prefs.get? c = some p → ∃ i, ratingInt p.rating = .ok i := by
  unfold parsePrefstr at h
  obtain ⟨cps, hcps, h⟩ := bind_ok.1 h
  obtain ⟨p1, hp1, h⟩ := bind_ok.1 h
  obtain ⟨p2, hp2, h⟩ := bind_ok.1 h
  split at h
  · cases h; intro c p hc; simp [Dict.get?] at hc
  · split at h
    · cases h
    · simp only at h
      split at h
      · obtain ⟨p3, hp3, h⟩ := bind_ok.1 h
        cases h
        exact addRanksByRating_readable hp3
      · cases h; exact addRanksByRating_readable hp2

/-! ### ranks are bounded by the length of the line -/

theorem splitKeepAux_length (p : Char → Bool) (s cur : Str) : (splitKeepAux p s cur).length ≤ 2 * s.length + 1 := by
  induction s generalizing cur with
  | nil => simp [splitKeepAux]
  | cons c t ih =>
    unfold splitKeepAux
    split
    · have := ih []
      simp only [List.length_cons]; omega
    · have := ih (c :: cur)
      simp only [List.length_cons]; omega

theorem setLast_length {α : Type} {l : List α} (x : α) (h : l ≠ []) : (setLast l x).length = l.length := by
  unfold setLast
  have := List.length_pos_of_ne_nil h
  simp; omega

theorem exStep_length {s s' : ExSt} {tok : Str} (h : exStep s tok = .ok s') : s'.retval.length ≤ s.retval.length + 1 := by
  unfold exStep at h
  simp only at h
  split at h
  · split at h
    · cases h; simp
    · split at h
      · cases h; simp
      · split at h
        · split at h
          · cases h; simp
          · split at h
            · cases h
            · rename_i hne
              cases h
              simp only [setLast_length _ hne]; omega
        · split at h
          · cases h; simp
          · cases h
  · split at h
    · cases h; simp
    · split at h
      · cases h; simp
      · split at h
        · rename_i _ _ _ hsr _
          revert h
          cases hs : slashRating (strip tok) with
          | none =>
            simp only
            split <;> (intro h; cases h; simp)
          | some bd =>
            simp only
            split
            · rename_i hc
              simp only
              split
              · intro h; cases h
              · rename_i hne
                intro h; cases h
                simp only [setLast_length _ hne]; simp
            · split
              · intro h; cases h
              · rename_i hne
                split
                · intro h; cases h
                  simp only [setLast_length _ hne]; omega
                · intro h; cases h
        · split at h
          · cases h; simp
          · split at h
            · cases h; simp
            · cases h; simp

theorem exLoop_length {s s' : ExSt} {toks : List Str} (h : exLoop s toks = .ok s') :
    s'.retval.length ≤ s.retval.length + toks.length := by
  induction toks generalizing s with
  | nil => cases h; simp
  | cons t ts ih =>
    unfold exLoop at h
    obtain ⟨s1, h1, h⟩ := bind_ok.1 h
    have := exStep_length h1
    have := ih h
    simp only [List.length_cons]; omega

theorem extract_length {s : Str} {cps : List (Str × Option RVal)} (h : extractCandprefs s = .ok cps) :
    cps.length ≤ 2 * s.length + 1 := by
  unfold extractCandprefs at h
  obtain ⟨st, h1, h⟩ := bind_ok.1 h
  cases h
  have := exLoop_length h1
  have := splitKeepAux_length isPrefSep s []
  unfold splitKeep at *
  simp at *; omega

theorem prefLoop_rank {mode : RankOrRate} {delims : List Char} {n i : Nat} {rank : Int}
    {cps : List (Str × Option RVal)} {prefs out : Dict Str Pref}
    (h : prefLoop mode delims n i rank cps prefs = .ok out) (B : Int) (hB : rank + cps.length ≤ B) (h1 : 1 ≤ B)
    (hg : ∀ c p, prefs.get? c = some p → ∀ r, p.rank = some r → r ≤ B) :
    ∀ c p, out.get? c = some p → ∀ r, p.rank = some r → r ≤ B := by
  induction cps generalizing i rank prefs with
  | nil =>
    unfold prefLoop at h
    cases h
    exact hg
  | cons e rest ih =>
    obtain ⟨cand, rating⟩ := e
    simp only [List.length_cons] at hB
    have step : ∀ (p : Pref) (rank' : Int), rank' ≤ rank + 1 → (∀ r, p.rank = some r → r ≤ B) →
        prefLoop mode delims n (i + 1) rank' rest (prefs.set cand p) = .ok out →
        ∀ c p, out.get? c = some p → ∀ r, p.rank = some r → r ≤ B := by
      intro p rank' hr' hp h
      apply ih h (by omega)
      intro c q hq
      rw [Dict.get?_set] at hq
      split at hq
      · cases hq; exact hp
      · exact hg c q hq
    unfold prefLoop at h
    simp only at h
    split at h
    · split at h
      · cases h
      · refine step _ _ ?_ ?_ h
        · split <;> omega
        · intro r; cases mode <;> (intro h; cases h) <;> omega
    · refine step _ _ (by omega) ?_ h
      intro r; cases mode <;> (intro h; cases h) <;> omega

theorem addRanksLoop_rank {first : Bool} {prevrate prevrank : Int} {L : List (Str × Int)}
    {prefs out : Dict Str Pref} (h : addRanksLoop first prevrate prevrank L prefs = .ok out)
    (B : Int) (hB : prevrank + L.length ≤ B) (h1 : first = true ∧ 1 + (L.length : Int) ≤ B ∨ first = false)
    (hg : ∀ c p, prefs.get? c = some p → ∀ r, p.rank = some r → r ≤ B) :
    ∀ c p, out.get? c = some p → ∀ r, p.rank = some r → r ≤ B := by
  induction L generalizing first prevrate prevrank prefs with
  | nil =>
    unfold addRanksLoop at h
    cases h
    exact hg
  | cons e rest ih =>
    obtain ⟨c₀, rate⟩ := e
    simp only [List.length_cons] at hB h1
    have step : ∀ thisrank : Int, thisrank + rest.length ≤ B →
        addRanksLoop false rate thisrank rest
          (prefs.modify c₀ (fun p => if rankTruthy p.rank then p else { p with rank := some thisrank })) = .ok out →
        ∀ c p, out.get? c = some p → ∀ r, p.rank = some r → r ≤ B := by
      intro thisrank ht h
      apply ih h ht (.inr rfl)
      intro c p hc r hr
      rw [Dict.get?_modify] at hc
      split at hc
      · obtain ⟨q, hq, rfl⟩ := Option.map_eq_some_iff.1 hc
        split at hr
        · exact hg c q hq r hr
        · cases hr; omega
      · exact hg c p hc r hr
    unfold addRanksLoop at h
    simp only at h
    split at h
    · exact step 1 (by rcases h1 with h1 | h1 <;> simp_all <;> omega) h
    · split at h
      · exact step _ (by omega) h
      · split at h
        · exact step _ (by omega) h
        · cases h

theorem mapM_length {ε α β : Type} {f : α → Except ε β} {l : List α} {r : List β} (h : l.mapM f = .ok r) :
    r.length = l.length := by
  induction l generalizing r with
  | nil => cases h; rfl
  | cons a l ih =>
    obtain ⟨b, bs, _, h2, rfl⟩ := mapM_cons_ok.1 h
    simp [ih h2]

theorem addRanksByRating_rank {prefs out : Dict Str Pref} (h : addRanksByRating prefs = .ok out) (B : Int)
    (hB : 1 + (prefs.length : Int) ≤ B) (hg : ∀ c p, prefs.get? c = some p → ∀ r, p.rank = some r → r ≤ B) :
    ∀ c p, out.get? c = some p → ∀ r, p.rank = some r → r ≤ B := by
  unfold addRanksByRating at h
  obtain ⟨ks, hks, h⟩ := bind_ok.1 h
  have hl : (sortByKeyDesc Prod.snd ks).length = prefs.length := by
    rw [(sortByKeyDesc_perm _ _).length_eq]
    exact mapM_length hks
  exact addRanksLoop_rank h B (by omega) (.inl ⟨rfl, by omega⟩) hg

theorem firsts_length_le {κ : Type} [DecidableEq κ] (l : List κ) : (firsts l).length ≤ l.length := by
  induction l with
  | nil => simp [firsts]
  | cons a l ih =>
    simp only [firsts, List.length_cons]
    have := List.length_filter_le (fun y => decide (y ≠ a)) (firsts l)
    omega

theorem parsePrefstr_rank {s : Str} {prefs : Dict Str Pref} {cands : List Str}
    (h : parsePrefstr s = .ok (prefs, cands)) :
    ∀ c p, prefs.get? c = some p → ∀ r, p.rank = some r → r ≤ 2 * s.length + 2 := by
  have hfull := h
  unfold parsePrefstr at h
  obtain ⟨cps, hcps, h⟩ := bind_ok.1 h
  obtain ⟨p1, hp1, h⟩ := bind_ok.1 h
  obtain ⟨p2, hp2, h⟩ := bind_ok.1 h
  have hlen := extract_length hcps
  have e1 := prefLoop_ok hp1 (by omega) (by intro c p hc; simp [Dict.get?] at hc) Dict.wf_nil
  have e2 := addRanksByRating_ok hp2 e1.2.2
  have k1 : p1.length ≤ cps.length := by
    have : p1.keys.length = p1.length := by simp [Dict.keys]
    rw [← this, e1.1]
    have := firsts_length_le (cps.map Prod.fst)
    have h2 : addKeys (Dict.keys ([] : Dict Str Pref)) (cps.map Prod.fst) = firsts (cps.map Prod.fst) := addKeys_nil _
    rw [h2]
    simpa using this
  have k2 : p2.length = p1.length := by
    have : p2.keys.length = p1.keys.length := by rw [e2.1]
    simpa [Dict.keys] using this
  have r1 := prefLoop_rank hp1 (2 * s.length + 2) (by omega) (by omega) (by intro c p hc; simp [Dict.get?] at hc)
  have r2 := addRanksByRating_rank hp2 (2 * s.length + 2) (by omega) r1
  split at h
  · cases h; intro c p hc; simp [Dict.get?] at hc
  · split at h
    · cases h
    · simp only at h
      split at h
      · obtain ⟨p3, hp3, h⟩ := bind_ok.1 h
        cases h
        exact addRanksByRating_rank hp3 (2 * s.length + 2) (by omega) r2
      · cases h; exact r2

/-! ### lines are not longer than the text -/

theorem splitlinesAux_length (s cur : Str) : ∀ l ∈ splitlinesAux s cur, l.length ≤ cur.length + s.length := by
  fun_induction splitlinesAux s cur with
  | case1 => simp
  | case2 => simp
  | case3 t cur ih =>
    intro l hl
    rcases List.mem_cons.1 hl with rfl | hl
    · simp
    · have := ih l hl; simp at *; omega
  | case4 c t cur _ _ ih =>
    intro l hl
    rcases List.mem_cons.1 hl with rfl | hl
    · simp
    · have := ih l hl; simp at *; omega
  | case5 c t cur _ _ ih =>
    intro l hl
    have := ih l hl; simp at *; omega

theorem dropWhile_length_le (p : Char → Bool) (s : Str) : (s.dropWhile p).length ≤ s.length :=
  (List.dropWhile_sublist p).length_le

theorem textLines_length (cw : Bool) (text : Str) : ∀ l ∈ textLines cw text, l.length ≤ text.length := by
  intro l hl
  obtain ⟨l0, h0, rfl⟩ := List.mem_map.1 hl
  have h1 := splitlinesAux_length text [] l0 h0
  have h2 := dropWhile_length_le isSpace l0
  simp only [List.length_nil, Nat.zero_add] at h1
  split
  · unfold lstrip; omega
  · exact h1

theorem readVote_length {s q p : Str} (h : readVote s = some (q, p)) : p.length ≤ s.length := by
  unfold readVote at h
  split at h
  · rename_i p' hp
    split at h
    · cases h
    · cases h
      have := dropWhile_length_le isDigit s
      rw [hp] at this
      simp at this; omega
  · cases h

/-- every parsed entry: readable rating, and a rank bounded by the text length -/
theorem convertAbif_entries {cw ar sc : Bool} {text : Str} {m : Jabmod} (h : convertAbif cw ar sc text = .ok m) :
    ∀ vl ∈ m.votelines, ∀ c p, vl.prefs.get? c = some p →
      (∃ i, ratingInt p.rating = .ok i) ∧ (∃ r, p.rank = some r ∧ 1 ≤ r ∧ r ≤ 2 * text.length + 2) := by
  have base : ∀ m0, convertAbif cw false sc text = .ok m0 → ∀ vl ∈ m0.votelines, ∀ c p, vl.prefs.get? c = some p →
      (∃ i, ratingInt p.rating = .ok i) ∧ (∃ r, p.rank = some r ∧ 1 ≤ r ∧ r ≤ 2 * text.length + 2) := by
    intro m0 h0 vl hvl c p hc
    obtain ⟨vls, f1, _, f2, _⟩ := convertAbif_ok h0
    rw [f2, (sortByKeyDesc_perm _ _).mem_iff] at hvl
    have hlen : ∀ src ∈ votesOf cw text, src.2.1.length ≤ text.length := by
      intro src hsrc
      obtain ⟨l, hl, hlv⟩ := List.mem_filterMap.1 hsrc
      unfold lineVote at hlv
      obtain ⟨qp, hqp, rfl⟩ := Option.map_eq_some_iff.1 hlv
      have h1 := readVote_length (q := qp.1) (p := qp.2) hqp
      have h2 := textLines_length cw text l hl
      have h3 : (beforeHash l).length ≤ l.length := (List.takeWhile_sublist _).length_le
      simp only; omega
    have : ∃ src ∈ votesOf cw text, SaysBallot src vl := by
      generalize votesOf cw text = srcs at f1
      clear hlen f2
      rename_i f3 f4
      clear f3 f4
      induction f1 with
      | nil => simp at hvl
      | cons hab _ ih =>
        rcases List.mem_cons.1 hvl with rfl | hv
        · exact ⟨_, by simp, hab⟩
        · obtain ⟨s, hs, hs'⟩ := ih hv
          exact ⟨s, by simp [hs], hs'⟩
    obtain ⟨src, hsrc, _, ⟨cands, hp⟩, _⟩ := this
    obtain ⟨r, hr, h1⟩ := (parsePrefstr_ok hp).2.2 c p hc
    have h2 := parsePrefstr_rank hp c p hc r hr
    have h3 := hlen src hsrc
    exact ⟨parsePrefstr_readable hp c p hc, r, hr, h1, by omega⟩
  cases ar with
  | false => exact base m h
  | true =>
    rw [convertAbif_rated] at h
    obtain ⟨m0, h0, h⟩ := bind_ok.1 h
    cases h
    intro vl hvl c p hc
    obtain ⟨v, hv, rfl⟩ := List.mem_map.1 hvl
    unfold ratedLine at hc
    simp only at hc
    rw [Dict.get?_map v.prefs (fun _ p => ratedEntry (hasAnyRating m0) m0.candidates.length p)] at hc
    obtain ⟨q, hq, rfl⟩ := Option.map_eq_some_iff.1 hc
    obtain ⟨⟨i, hi⟩, hr⟩ := base m0 h0 v hv c q hq
    unfold ratedEntry
    split
    · rename_i x hx
      exact ⟨⟨i, by simpa [hx] using hi⟩, hr⟩
    · split
      · exact ⟨⟨_, rfl⟩, hr⟩
      · exact ⟨⟨_, rfl⟩, hr⟩

end Verif
