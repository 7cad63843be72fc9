/-
Helper lemmas: preference lists without brackets and double quotes.
-/
import Verif.Lib.Quoted
import Verif.Spec.Pieces

set_option linter.unusedSimpArgs false
set_option linter.unusedSectionVars false

namespace Verif
open Spec
variable [U : Uni]

/-- what the program keeps of a named candidate -/
def rawOf (x : Str × Option Str) : Str × Option RVal := (x.1, x.2.map (fun ds => RVal.int (digitsVal ds)))

theorem piece_strip {pre t post : Str} (h1 : OnlyBlanks pre) (h2 : OnlyBlanks post) (hh : ∀ c, t.head? = some c → isSpace c = false)
    (hl : ∀ c, t.getLast? = some c → isSpace c = false) : strip (pre ++ (t ++ post)) = t :=
  strip_pad h1 h2 (strip_eq_iff.2 ⟨hh, hl⟩)

theorem rated_last {t ds : Str} (h : Digits ds) : ∀ c, (t ++ '/' :: ds).getLast? = some c → isSpace c = false := by
  intro c hc
  obtain ⟨hne, hd⟩ := h
  apply digit_not_space
  apply hd
  rw [List.getLast?_append, List.getLast?_cons] at hc
  cases hx : ds.getLast? with
  | none => exact absurd (List.getLast?_eq_none_iff.1 hx) hne
  | some y =>
    rw [hx] at hc
    simp at hc
    rw [← hc]
    exact List.mem_of_getLast? hx

theorem piece_nosep {p : Piece} (h : p.Ok) : ∀ c ∈ p.text, isSepChar c = false := by
  intro c hc
  cases p with
  | blank ws => exact space_not_sep (h c hc)
  | cand pre tok post =>
    obtain ⟨h1, h2, h3, _⟩ := h
    simp only [Piece.text, List.mem_append] at hc
    rcases hc with hc | hc | hc
    · exact space_not_sep (h1 c hc)
    · exact h3.2.2 c hc
    · exact space_not_sep (h2 c hc)
  | rated pre tok ds post =>
    obtain ⟨h1, h2, h3, h4⟩ := h
    simp only [Piece.text, List.mem_append, List.mem_cons] at hc
    rcases hc with hc | (hc | rfl | hc) | hc
    · exact space_not_sep (h1 c hc)
    · exact h3.2.2 c hc
    · decide
    · exact digit_not_sep (h4.2 c hc)
    · exact space_not_sep (h2 c hc)
  | late pre ds post =>
    obtain ⟨h1, h2, h4⟩ := h
    simp only [Piece.text, List.mem_append, List.mem_cons] at hc
    rcases hc with hc | (rfl | hc) | hc
    · exact space_not_sep (h1 c hc)
    · decide
    · exact digit_not_sep (h4.2 c hc)
    · exact space_not_sep (h2 c hc)

/-- the loop state that goes with the candidates named so far -/
def SoFar (s : ExSt) (l : List (Str × Option Str)) : Prop :=
  s.inbrackets = false ∧ s.inquotes = false ∧ s.retval = l.map rawOf ∧ ∀ x, l.getLast? = some x → s.ccand = some x.1

theorem getLast?_snoc {α : Type} (l : List α) (x : α) : (l ++ [x]).getLast? = some x := by simp

/-- one piece -/
theorem exStep_piece {s : ExSt} {l : List (Str × Option Str)} {p : Piece} (hs : SoFar s l) (h : p.Ok) :
    match named l [p] with
    | none => exStep s p.text = .error .indexError
    | some l' => ∃ s', exStep s p.text = .ok s' ∧ SoFar s' l' := by
  obtain ⟨h1, h2, h3, h4⟩ := hs
  cases p with
  | blank ws =>
    refine ⟨s, exStep_skip h1 h2 (Or.inl (strip_spaces h)), h1, h2, h3, h4⟩
  | cand pre tok post =>
    obtain ⟨b1, b2, ⟨c1, c2, c3⟩, c4, c5⟩ := h
    have hst := piece_strip b1 b2 (fun c hc => (c2 c hc).1) c4
    have hsep : tok.head?.any (fun c => !isSepChar c) = true := by
      cases tok with
      | nil => exact absurd rfl c1
      | cons a t => simp [c3 a (by simp)]
    refine ⟨_, exStep_plain h1 h2 hst ⟨c1, strip_eq_iff.2 ⟨fun c hc => (c2 c hc).1, c4⟩, fun hq => (c2 _ hq).2 rfl⟩ hsep
      (fun ⟨a, ds, e1, e2, e3⟩ => c5 ⟨a, ds, e1, e2, e3⟩), h1, h2, ?_, ?_⟩
    · simp [h3, rawOf]
    · intro x hx
      rw [getLast?_snoc] at hx
      cases hx; rfl
  | rated pre tok ds post =>
    obtain ⟨b1, b2, ⟨c1, c2, c3⟩, c4⟩ := h
    have hh : (tok ++ '/' :: ds).head? = tok.head? := by cases tok with | nil => exact absurd rfl c1 | cons => rfl
    have hst : strip (pre ++ (tok ++ '/' :: ds ++ post)) = tok ++ '/' :: ds :=
      piece_strip b1 b2 (by rw [hh]; exact fun c hc => (c2 c hc).1) (rated_last c4)
    have hsep : tok.head?.any (fun c => !isSepChar c) = true := by
      cases tok with
      | nil => exact absurd rfl c1
      | cons a t => simp [c3 a (by simp)]
    have hs' : ∀ c, (tok ++ '/' :: ds).head? = some c → isSpace c = false := by
      rw [hh]; exact fun c hc => (c2 c hc).1
    obtain ⟨q1, q2⟩ := quoted_none hs' (by rw [hh]; exact fun hq => (c2 _ hq).2 rfl)
    refine ⟨{ s with ccand := some tok, retval := s.retval ++ [(tok, some (.int (digitsVal ds)))] }, ?_, h1, h2, ?_, ?_⟩
    · show exStep s (pre ++ (tok ++ '/' :: ds ++ post)) = _
      unfold exStep
      simp only [hst, h1, h2, Bool.or_self, Bool.false_eq_true, if_false, q1, q2, startsPlain_eq hs', hh, hsep, if_true,
        slashRating_rated c4.1 c4.2, ne_eq, c1, not_false_eq_true]
      simp [setLast]
    · simp [h3, rawOf]
    · intro x hx
      rw [getLast?_snoc] at hx
      cases hx; rfl
  | late pre ds post =>
    obtain ⟨b1, b2, c4⟩ := h
    have hs' : ∀ c, ('/' :: ds).head? = some c → isSpace c = false := by intro c hc; cases hc; decide
    have hst : strip (pre ++ ('/' :: ds ++ post)) = '/' :: ds :=
      piece_strip b1 b2 hs' (rated_last (t := []) c4)
    simp only [named]
    cases hl : l.getLast? with
    | none =>
      have : l = [] := List.getLast?_eq_none_iff.1 hl
      subst this
      simp only
      have hsl : slashRating ('/' :: ds) = some ([], ds) := slashRating_rated (t := []) c4.1 c4.2
      show exStep s (pre ++ ('/' :: ds ++ post)) = _
      unfold exStep
      obtain ⟨q1, q2⟩ := quoted_none hs' (by simp)
      have hsp : startsPlain ('/' :: ds) = true := by rw [startsPlain_eq hs']; simp [isSepChar]
      simp only [hst, h1, h2, Bool.or_self, Bool.false_eq_true, if_false, q1, q2, hsp, if_true,
        hsl, ne_eq, not_true_eq_false, h3]
      simp
    | some x =>
      obtain ⟨t, r⟩ := x
      have hx : l = l.dropLast ++ [(t, r)] := by
        obtain ⟨ys, hy⟩ := List.getLast?_eq_some_iff.1 hl
        rw [hy]; simp
      simp only
      refine ⟨_, exStep_lateRating (c := t) h1 h2 hst c4.1 c4.2 (h4 _ hl) (l.dropLast.map rawOf) (rawOf (t, r)) ?_, h1, h2, ?_, ?_⟩
      · rw [h3]
        conv => lhs; rw [hx]
        simp
      · simp [rawOf]
      · intro x hx
        rw [getLast?_snoc] at hx
        cases hx
        exact h4 (t, r) hl

theorem named_cons (l : List (Str × Option Str)) (p : Piece) (ps : List Piece) :
    named l (p :: ps) = (named l [p]).bind (fun l' => named l' ps) := by
  cases p with
  | late pre ds post => simp only [named]; cases l.getLast? <;> rfl
  | _ => rfl

/-- the whole loop -/
theorem exLoop_pieces {s : ExSt} {l : List (Str × Option Str)} {ps : List Piece} {ds : List Char} (hs : SoFar s l)
    (h : ∀ p ∈ ps, p.Ok) (hd : ∀ d ∈ ds, d = '>' ∨ d = '=' ∨ d = ',') (hlen : ds.length + 1 = ps.length) :
    match named l ps with
    | none => exLoop s (splitKeep isPrefSep (writePieces ps ds)) = .error .indexError
    | some l' => ∃ s', exLoop s (splitKeep isPrefSep (writePieces ps ds)) = .ok s' ∧ SoFar s' l' := by
  induction ps generalizing s l ds with
  | nil => simp at hlen
  | cons p ps ih =>
    have hp := exStep_piece hs (h p (by simp))
    have hsplit : splitKeep isPrefSep p.text = [p.text] := by
      rw [isPrefSep_eq]; exact splitKeep_none (piece_nosep (h p (by simp)))
    have one : ∀ s : ExSt, exLoop s [p.text] = exStep s p.text := by
      intro s
      show (exStep s p.text >>= fun s' => exLoop s' []) = _
      cases exStep s p.text <;> rfl
    cases ps with
    | nil =>
      show match named l [p] with
        | none => exLoop s (splitKeep isPrefSep p.text) = .error .indexError
        | some l' => ∃ s', exLoop s (splitKeep isPrefSep p.text) = .ok s' ∧ SoFar s' l'
      rw [hsplit, one]
      exact hp
    | cons p2 ps =>
      cases ds with
      | nil => simp at hlen
      | cons d ds =>
        have hdd := hd d (by simp)
        have hsep : isPrefSep d = true := by rcases hdd with rfl | rfl | rfl <;> decide
        have hw : writePieces (p :: p2 :: ps) (d :: ds) = p.text ++ d :: writePieces (p2 :: ps) ds := rfl
        rw [hw, splitKeep_append hsep, exLoop_append, hsplit, one, named_cons]
        cases hn : named l [p] with
        | none =>
          rw [hn] at hp
          simp only at hp
          rw [hp]; rfl
        | some l' =>
          rw [hn] at hp
          obtain ⟨s', e1, hs'⟩ := hp
          rw [e1, ok_bind]
          show match named l' (p2 :: ps) with
            | none => (exStep s' [d] >>= fun s' => exLoop s' _) = .error .indexError
            | some l' => ∃ s'', (exStep s' [d] >>= fun s' => exLoop s' _) = .ok s'' ∧ SoFar s'' l'
          rw [exStep_skip (tok := [d]) hs'.1 hs'.2.1 (by rcases hdd with rfl | rfl | rfl <;> decide), ok_bind]
          exact ih hs' (fun x hx => h x (by simp [hx])) (fun x hx => hd x (by simp [hx])) (by simpa using hlen)

theorem delims_pieces {ps : List Piece} {ds : List Char} (h : ∀ p ∈ ps, p.Ok)
    (hd : ∀ d ∈ ds, d = '>' ∨ d = '=' ∨ d = ',') (hlen : ds.length + 1 = ps.length) :
    (reSub (matchLen bracketAtoms) c!"[PLACEHOLDER]" (writePieces ps ds)).filter isDelim = ds := by
  induction ps generalizing ds with
  | nil => simp at hlen
  | cons p ps ih =>
    have hns := piece_nosep (h p (by simp))
    cases ps with
    | nil =>
      simp at hlen
      subst hlen
      show (reSub _ _ p.text).filter _ = _
      have := reSub_plain (not_sep_not_open hns) (t := []) c!"[PLACEHOLDER]"
      rw [List.append_nil] at this
      rw [this, List.filter_append, filter_delim_nosep hns]
      rfl
    | cons p2 ps =>
      cases ds with
      | nil => simp at hlen
      | cons d ds =>
        have hdd := hd d (by simp)
        show (reSub _ _ (p.text ++ ([d] ++ writePieces (p2 :: ps) ds))).filter _ = _
        rw [reSub_plain (not_sep_not_open hns), List.filter_append, filter_delim_nosep hns,
          reSub_plain (by rcases hdd with rfl | rfl | rfl <;> decide), List.filter_append,
          ih (fun x hx => h x (by simp [hx])) (fun x hx => hd x (by simp [hx])) (by simpa using hlen)]
        rcases hdd with rfl | rfl | rfl <;> rfl

theorem determine_pieces {ps : List Piece} {ds : List Char} (h : ∀ p ∈ ps, p.Ok)
    (hd : ∀ d ∈ ds, d = '>' ∨ d = '=' ∨ d = ',') (hlen : ds.length + 1 = ps.length) :
    determineRankOrRate (writePieces ps ds) = (modeOf ds, ds) := by
  unfold determineRankOrRate
  have := delims_pieces h hd hlen
  unfold isDelim at this
  simp only [this]
  cases ds with
  | nil => rfl
  | cons d ds =>
    simp only [modeOf]
    split <;> rfl

theorem named_length {l l' : List (Str × Option Str)} {ps : List Piece} (h : named l ps = some l') :
    l'.length ≤ l.length + ps.length := by
  induction ps generalizing l with
  | nil => simp only [named] at h; cases h; simp
  | cons p ps ih =>
    cases p with
    | blank ws => have := ih (l := l) h; simp; omega
    | cand a b c => have := ih (l := l ++ [(b, none)]) h; simp at this ⊢; omega
    | rated a b c d => have := ih (l := l ++ [(b, some c)]) h; simp at this ⊢; omega
    | late a b c =>
      simp only [named] at h
      cases hl : l.getLast? with
      | none => rw [hl] at h; cases h
      | some x =>
        rw [hl] at h
        have := ih (l := l.dropLast ++ [(x.1, some b)]) h
        simp at this ⊢
        have : l ≠ [] := by rintro rfl; cases hl
        have := List.length_pos_iff.2 this
        omega

theorem named_digits {l l' : List (Str × Option Str)} {ps : List Piece} (hok : ∀ p ∈ ps, p.Ok)
    (hl : ∀ x ∈ l, ∀ ds, x.2 = some ds → Digits ds) (h : named l ps = some l') :
    ∀ x ∈ l', ∀ ds, x.2 = some ds → Digits ds := by
  induction ps generalizing l with
  | nil => simp only [named] at h; cases h; exact hl
  | cons p ps ih =>
    have ih' := fun l => ih (l := l) (fun p hp => hok p (by simp [hp]))
    have hp := hok p (by simp)
    cases p with
    | blank ws => exact ih' l hl h
    | cand a b c =>
      refine ih' _ ?_ h
      intro x hx ds hd
      rcases List.mem_append.1 hx with hx | hx
      · exact hl x hx ds hd
      · simp at hx; subst hx; cases hd
    | rated a b c d =>
      refine ih' _ ?_ h
      intro x hx ds hd
      rcases List.mem_append.1 hx with hx | hx
      · exact hl x hx ds hd
      · simp at hx; subst hx; cases hd; exact hp.2.2.2
    | late a b c =>
      simp only [named] at h
      cases hg : l.getLast? with
      | none => rw [hg] at h; cases h
      | some x =>
        rw [hg] at h
        refine ih' _ ?_ h
        intro y hy ds hd
        rcases List.mem_append.1 hy with hy | hy
        · exact hl y (List.dropLast_subset _ hy) ds hd
        · simp at hy; subst hy; cases hd; exact hp.2.2

/-! ### the dictionary -/

/-- the entry for the `j`-th of `n` candidates -/
def pieceEntry (mode : RankOrRate) (ds : List Char) (n j : Nat) (rating : Option RVal) : Pref where
  rating := if ratingTruthy rating then rating else none
  rank := modeRank mode (1 + ((ds.take j).count '>' : Nat))
  nextdelim := if j + 1 < n then ds[j]?.map (fun d => [d]) else none

theorem prefLoop_fold {mode : RankOrRate} {ds : List Char} {n : Nat} {cps : List (Str × Option RVal)} {i : Nat}
    {rank : Int} {prefs : Dict Str Pref} (hn : n ≤ ds.length + 1) (hi : i + cps.length = n)
    (hrank : mode = .rank → rank = 1 + ((ds.take i).count '>' : Nat)) :
    prefLoop mode ds n i rank cps prefs =
      .ok ((cps.zipIdx i).foldl (fun d x => Dict.set d x.1.1 (pieceEntry mode ds n x.2 x.1.2)) prefs) := by
  induction cps generalizing i rank prefs with
  | nil => rfl
  | cons e cps ih =>
    obtain ⟨c, r⟩ := e
    simp only [List.length_cons] at hi
    have hent : ∀ nd, nd = (if i + 1 < n then ds[i]?.map (fun d => [d]) else none) →
        ({ rating := if ratingTruthy r then r else none, rank := modeRank mode rank, nextdelim := nd } : Pref) =
          pieceEntry mode ds n i r := by
      rintro _ rfl
      unfold pieceEntry
      congr 1
      cases mode with
      | rank => rw [hrank rfl]
      | _ => rfl
    rw [prefLoop_cons, List.zipIdx_cons, List.foldl_cons]
    by_cases hlt : i + 1 < n
    · rw [if_pos hlt]
      have hds : i < ds.length := by omega
      rw [List.getElem?_eq_getElem hds]
      simp only
      rw [ih (by omega)]
      · congr 2
        rw [hent]
        rw [if_pos hlt, List.getElem?_eq_getElem hds]; rfl
      · intro hm
        rw [take_succ_count ds i ds[i] (List.getElem?_eq_getElem hds), hrank hm]
        by_cases hg : ds[i] = '>' <;> simp [hg, hm] ; omega
    · have : cps = [] := List.length_eq_zero_iff.1 (by omega)
      subst this
      rw [if_neg hlt, hent _ (by rw [if_neg hlt])]
      rfl

/-- the last value stored under a key -/
theorem foldl_set_get {α β : Type} (f : α → Str) (g : α → β) (l : List α) (d : Dict Str β) (k : Str) :
    Dict.get? (l.foldl (fun d a => Dict.set d (f a) (g a)) d) k =
      match (l.filter (fun a => decide (f a = k))).getLast? with
      | some a => some (g a)
      | none => Dict.get? d k := by
  induction l generalizing d with
  | nil => rfl
  | cons a l ih =>
    rw [List.foldl_cons, ih]
    by_cases h : f a = k
    · rw [List.filter_cons_of_pos (by simpa using h)]
      cases hl : (l.filter (fun a => decide (f a = k))).getLast? with
      | none =>
        rw [List.getLast?_eq_none_iff.1 hl]
        simp [Dict.get?_set, h]
      | some b =>
        rw [List.getLast?_cons, hl]
        rfl
    · rw [List.filter_cons_of_neg (by simpa using h)]
      cases (l.filter (fun a => decide (f a = k))).getLast? with
      | none => simp [Dict.get?_set, h]
      | some b => rfl

theorem foldl_set_keys {α β : Type} (f : α → Str) (g : α → β) (l : List α) (d : Dict Str β) :
    Dict.keys (l.foldl (fun d a => Dict.set d (f a) (g a)) d) = addKeys (Dict.keys d) (l.map f) := by
  induction l generalizing d with
  | nil => rfl
  | cons a l ih =>
    rw [List.foldl_cons, ih, Dict.keys_set, List.map_cons]
    rfl

theorem last_occurrence (l : List (Str × Option Str)) (i j : Nat) (t : Str) (r : Option Str) (hj : l[j]? = some (t, r))
    (hlast : ∀ k r', j < k → l[k]? ≠ some (t, r')) :
    ((l.zipIdx i).filter (fun x => decide (x.1.1 = t))).getLast? = some ((t, r), i + j) := by
  induction l generalizing i j with
  | nil => simp at hj
  | cons a l ih =>
    rw [List.zipIdx_cons]
    cases j with
    | zero =>
      simp only [List.getElem?_cons_zero, Option.some.injEq] at hj
      subst hj
      have : (l.zipIdx (i + 1)).filter (fun x => decide (x.1.1 = t)) = [] := by
        rw [List.filter_eq_nil_iff]
        intro x hx
        obtain ⟨h1, h2, h3⟩ := List.mem_zipIdx hx
        simp only [decide_eq_true_eq]
        intro he
        apply hlast (x.2 - (i + 1) + 1) x.1.2 (by omega)
        rw [List.getElem?_cons_succ, List.getElem?_eq_getElem (by omega)]
        rw [← h3, ← he]
      rw [List.filter_cons_of_pos (by simp), this]
      rfl
    | succ j =>
      rw [List.getElem?_cons_succ] at hj
      have := ih (i + 1) j hj (fun k r' hk he => hlast (k + 1) r' (by omega) (by rw [List.getElem?_cons_succ]; exact he))
      have e : i + 1 + j = i + (j + 1) := by omega
      by_cases ha : a.1 = t
      · rw [List.filter_cons_of_pos (by simpa using ha), List.getLast?_cons, this, e]; rfl
      · rw [List.filter_cons_of_neg (by simpa using ha), this, e]

theorem exists_last (l : List (Str × Option Str)) (t : Str) (h : t ∈ l.map Prod.fst) :
    ∃ (j : Nat) (r : Option Str), l[j]? = some (t, r) ∧ ∀ k r', j < k → l[k]? ≠ some (t, r') := by
  induction l with
  | nil => cases h
  | cons a l ih =>
    by_cases hm : t ∈ l.map Prod.fst
    · obtain ⟨j, r, h1, h2⟩ := ih hm
      refine ⟨j + 1, r, by rw [List.getElem?_cons_succ]; exact h1, ?_⟩
      intro k r' hk
      cases k with
      | zero => omega
      | succ k => rw [List.getElem?_cons_succ]; exact h2 k r' (by omega)
    · have ha : a.1 = t := by
        rw [List.map_cons] at h
        rcases List.mem_cons.1 h with h | h
        · exact h.symm
        · exact absurd h hm
      refine ⟨0, a.2, by rw [List.getElem?_cons_zero, ← ha], ?_⟩
      intro k r' hk he
      cases k with
      | zero => omega
      | succ k =>
        rw [List.getElem?_cons_succ] at he
        exact hm (List.mem_map.2 ⟨_, List.mem_of_getElem? he, rfl⟩)

theorem lastRating_eq {l : List (Str × Option Str)} {j : Nat} {t : Str} {r : Option Str} (hj : l[j]? = some (t, r))
    (hlast : ∀ k r', j < k → l[k]? ≠ some (t, r')) : lastRating l t = r := by
  have := last_occurrence l 0 j t r hj hlast
  unfold lastRating
  have e : (l.filter (fun x => decide (x.1 = t))) = ((l.zipIdx 0).filter (fun x => decide (x.1.1 = t))).map Prod.fst := by
    have : l = (l.zipIdx 0).map Prod.fst := by rw [List.zipIdx_map_fst]
    conv => lhs; rw [this]
    rw [List.filter_map]
    rfl
  rw [e, List.getLast?_map, this]
  rfl

theorem stored_rating {r : Option Str} (h : ∀ ds, r = some ds → Digits ds) :
    (if ratingTruthy (r.map (fun ds => RVal.int (digitsVal ds))) then r.map (fun ds => RVal.int (digitsVal ds)) else none) =
      storedRating r ∧ ratingInt (storedRating r) = .ok (writtenNumber r) := by
  cases r with
  | none => exact ⟨rfl, rfl⟩
  | some ds =>
    unfold storedRating writtenNumber
    by_cases h0 : digitsVal ds = 0 <;> simp [ratingTruthy, h0, ratingInt]

theorem denseRank_pos (l : List Int) (x : Int) : 1 ≤ denseRank l x := by
  unfold denseRank; omega

/-- reading any list of pieces -/
theorem parsePrefstr_pieces {ps : List Piece} {ds : List Char} (h : ∀ p ∈ ps, p.Ok)
    (hd : ∀ d ∈ ds, d = '>' ∨ d = '=' ∨ d = ',') (hlen : ds.length + 1 = ps.length) :
    (named [] ps = none → parsePrefstr (writePieces ps ds) = .error .indexError) ∧
    ∀ l, named [] ps = some l → ∃ prefs, parsePrefstr (writePieces ps ds) = .ok (prefs, l.map Prod.fst) ∧
      Dict.keys prefs = firsts (l.map Prod.fst) ∧
      ∀ j t r, l[j]? = some (t, r) → (∀ k r', j < k → l[k]? ≠ some (t, r')) →
        Dict.get? prefs t = some {
          rank := some (if ds.head? = some ',' then
              denseRank ((firsts (l.map Prod.fst)).map (fun x => writtenNumber (lastRating l x))) (writtenNumber r)
            else 1 + ((ds.take j).count '>' : Nat))
          rating := storedRating r
          nextdelim := if j + 1 < l.length then ds[j]?.map (fun d => [d]) else none } := by
  have key := exLoop_pieces (s := {}) (l := []) ⟨rfl, rfl, rfl, by simp⟩ h hd hlen
  refine ⟨?_, ?_⟩
  · intro hn
    rw [hn] at key
    simp only at key
    unfold parsePrefstr extractCandprefs
    rw [determine_pieces h hd hlen]
    simp only
    rw [key]
    rfl
  · intro l hn
    rw [hn] at key
    obtain ⟨s', e1, _, _, e2, _⟩ := key
    have hex : extractCandprefs (writePieces ps ds) = .ok (l.map rawOf) := by
      unfold extractCandprefs
      rw [e1, ok_bind, e2]
    have hll : l.length ≤ ds.length + 1 := by
      have := named_length hn
      simp at this; omega
    have hdig := named_digits h (by simp) hn
    have hfst : (l.map rawOf).map Prod.fst = l.map Prod.fst := by rw [List.map_map]; rfl
    have hpl := prefLoop_fold (mode := modeOf ds) (ds := ds) (n := (l.map rawOf).length) (i := 0) (rank := 1)
      (cps := l.map rawOf) (prefs := []) (by simpa using hll) (by simp) (by intro _; simp)
    rw [List.length_map] at hpl
    generalize hD : ((l.map rawOf).zipIdx 0).foldl (fun d x => Dict.set d x.1.1 (pieceEntry (modeOf ds) ds l.length x.2 x.1.2))
      ([] : Dict Str Pref) = D at hpl
    have hkeys : Dict.keys D = firsts (l.map Prod.fst) := by
      rw [← hD, foldl_set_keys (fun x : (Str × Option RVal) × Nat => x.1.1)]
      rw [show Dict.keys ([] : Dict Str Pref) = [] from rfl, addKeys_nil]
      congr 1
      rw [show (fun x : (Str × Option RVal) × Nat => x.1.1) = Prod.fst ∘ Prod.fst from rfl, ← List.map_map, List.zipIdx_map_fst, hfst]
    have hwf : D.WF := by unfold Dict.WF; rw [hkeys]; exact nodup_firsts _
    have hget : ∀ j t r, l[j]? = some (t, r) → (∀ k r', j < k → l[k]? ≠ some (t, r')) →
        Dict.get? D t = some (pieceEntry (modeOf ds) ds l.length j (r.map (fun ds => RVal.int (digitsVal ds)))) := by
      intro j t r hj hlast
      rw [← hD, foldl_set_get (fun x : (Str × Option RVal) × Nat => x.1.1)]
      rw [List.zipIdx_map, List.filter_map]
      have : ((fun a : (Str × Option RVal) × Nat => decide (a.1.1 = t)) ∘ Prod.map rawOf id) =
          (fun x : (Str × Option Str) × Nat => decide (x.1.1 = t)) := rfl
      rw [this, List.getLast?_map, last_occurrence l 0 j t r hj hlast]
      simp [Prod.map, rawOf]
    have hent : ∀ e ∈ D, ∃ j r, l[j]? = some (e.1, r) ∧ (∀ k r', j < k → l[k]? ≠ some (e.1, r')) ∧
        e.2 = pieceEntry (modeOf ds) ds l.length j (r.map (fun ds => RVal.int (digitsVal ds))) := by
      intro e he
      have hk : e.1 ∈ Dict.keys D := List.mem_map.2 ⟨e, he, rfl⟩
      rw [hkeys, mem_firsts] at hk
      obtain ⟨j, r, h1, h2⟩ := exists_last l e.1 hk
      refine ⟨j, r, h1, h2, ?_⟩
      have := hget j e.1 r h1 h2
      rw [Dict.get?_of_mem hwf he] at this
      exact Option.some.inj this
    have hrat : ∀ (j : Nat) t r, l[j]? = some (t, r) →
        (pieceEntry (modeOf ds) ds l.length j (r.map (fun ds => RVal.int (digitsVal ds)))).rating = storedRating r ∧
        ratingInt (storedRating r) = .ok (writtenNumber r) := by
      intro j t r hj
      exact stored_rating (fun ds' e => hdig _ (List.mem_of_getElem? hj) ds' e)
    have hread : ∀ e ∈ D, ∃ i, ratingInt e.2.rating = .ok i := by
      intro e he
      obtain ⟨j, r, h1, _, h3⟩ := hent e he
      rw [h3, (hrat j _ r h1).1]
      exact ⟨_, (hrat j _ r h1).2⟩
    have hnums : D.map (fun x => entryNum x.2) = (firsts (l.map Prod.fst)).map (fun x => writtenNumber (lastRating l x)) := by
      rw [← hkeys]
      unfold Dict.keys
      rw [List.map_map]
      apply List.map_congr_left
      intro e he
      obtain ⟨j, r, h1, h2, h3⟩ := hent e he
      simp only [Function.comp]
      rw [lastRating_eq h1 h2, h3]
      unfold entryNum
      rw [(hrat j _ r h1).1, (hrat j _ r h1).2]
    have hadd := addRanksByRating_eq hwf hread
    rw [hnums] at hadd
    generalize hN : (firsts (l.map Prod.fst)).map (fun x => writtenNumber (lastRating l x)) = N at hadd
    let F : Str → Pref → Pref := fun _ p => if rankTruthy p.rank then p else { p with rank := some (denseRank N (entryNum p)) }
    have hF : D.map (fun e => (e.1, if rankTruthy e.2.rank then e.2 else { e.2 with rank := some (denseRank N (entryNum e.2)) })) =
        D.map (fun e => (e.1, F e.1 e.2)) := rfl
    rw [hF] at hadd
    have hgetF : ∀ t p, Dict.get? D t = some p → Dict.get? (D.map (fun e => (e.1, F e.1 e.2))) t = some (F t p) := by
      intro t p hp
      have hm := Dict.mem_of_get? hp
      have hw' : Dict.WF (D.map (fun e => (e.1, F e.1 e.2))) := by
        unfold Dict.WF Dict.keys
        rw [List.map_map]
        exact hwf
      exact Dict.get?_of_mem hw' (List.mem_map.2 ⟨_, hm, rfl⟩)
    have htruthy : ∀ t p, rankTruthy (F t p).rank = true := by
      intro t p
      show rankTruthy (if rankTruthy p.rank then p else _).rank = true
      split
      · assumption
      · simp only [rankTruthy, bne_iff_ne, ne_eq]
        have := denseRank_pos N (entryNum p)
        omega
    refine ⟨D.map (fun e => (e.1, F e.1 e.2)), ?_, ?_, ?_⟩
    · unfold parsePrefstr
      rw [determine_pieces h hd hlen, hex]
      simp only [ok_bind]
      rw [List.length_map, hpl, ok_bind, hadd, ok_bind]
      cases l with
      | nil =>
        have : D = [] := by rw [← hD]; rfl
        rw [this]; rfl
      | cons a l =>
        simp only [List.map_cons]
        have hmem : (rawOf a).1 ∈ Dict.keys D := by rw [hkeys, mem_firsts]; simp [rawOf]
        obtain ⟨p0, hp0⟩ := Dict.exists_get?_of_mem hmem
        rw [hgetF _ _ hp0]
        simp only [htruthy, Bool.not_true, Bool.and_false, Bool.false_eq_true, if_false, ok_bind]
        rw [List.map_map]
        rfl
    · unfold Dict.keys
      rw [List.map_map]
      exact hkeys
    · intro j t r hj hlast
      rw [hgetF _ _ (hget j t r hj hlast)]
      obtain ⟨r1, r2⟩ := hrat j t r hj
      congr 1
      show (if rankTruthy _ then _ else _) = _
      have hnum : entryNum (pieceEntry (modeOf ds) ds l.length j (r.map (fun ds => RVal.int (digitsVal ds)))) = writtenNumber r := by
        unfold entryNum
        rw [r1, r2]
      rw [hnum]
      have hrk : (pieceEntry (modeOf ds) ds l.length j (r.map (fun ds => RVal.int (digitsVal ds)))).rank =
          modeRank (modeOf ds) (1 + ((ds.take j).count '>' : Nat)) := rfl
      have hnd : (pieceEntry (modeOf ds) ds l.length j (r.map (fun ds => RVal.int (digitsVal ds)))).nextdelim =
          if j + 1 < l.length then ds[j]?.map (fun d => [d]) else none := rfl
      generalize pieceEntry (modeOf ds) ds l.length j (r.map (fun ds => RVal.int (digitsVal ds))) = P at *
      obtain ⟨pr, pk, pn⟩ := P
      simp only at r1 hrk hnd
      subst r1 hrk hnd
      cases ds with
      | nil => simp [modeOf, modeRank, rankTruthy]
      | cons d ds =>
        rcases hd d (by simp) with rfl | rfl | rfl
        · simp only [modeOf, modeRank, List.head?_cons]
          rw [if_pos]
          · simp
          · simp [rankTruthy]; omega
        · simp only [modeOf, modeRank, List.head?_cons]
          rw [if_pos]
          · simp
          · simp [rankTruthy]; omega
        · simp [modeOf, modeRank, rankTruthy]

end Verif
