/-
Which tokens a preference list without double quotes can have.
-/
import Verif.Props.Unclosed
import Verif.Spec.Export

set_option linter.unusedSectionVars false

namespace Verif
open Spec Props
variable [U : Uni]

/-- a token made of characters of the list, whose parts are clean -/
def GoodTok (P : Char → Prop) (t : Str) : Prop := (∀ c ∈ t, P c ∧ c ≠ ']') ∧ ∀ part ∈ splitKeep isSepChar t, CleanToken part

theorem clean_sep {d : Char} (h : isSepChar d = true) : CleanToken [d] := by
  refine ⟨by simp, ?_, ?_⟩
  · rw [strip_eq_iff]
    have : isSpace d = false := by
      cases hs : isSpace d with
      | false => rfl
      | true => rw [space_not_sep hs] at h; cases h
    exact ⟨by simpa using this, by simpa using this⟩
  · rintro hh
    cases hh
    exact absurd h (by decide)

theorem goodTok_plain {P : Char → Prop} {t : Str} (h : ∀ c ∈ t, P c ∧ isSepChar c = false) (hc : CleanToken t) : GoodTok P t := by
  refine ⟨fun c hm => ⟨(h c hm).1, ?_⟩, ?_⟩
  · rintro rfl
    exact absurd (h _ hm).2 (by decide)
  · rw [splitKeep_none (fun c hm => (h c hm).2)]
    simpa using hc

theorem goodTok_append {P : Char → Prop} {q t : Str} {d : Char} (hq : GoodTok P q) (hd : isSepChar d = true) (hd' : d ≠ ']') (hp : P d)
    (h : ∀ c ∈ t, P c ∧ isSepChar c = false) (hc : CleanToken t) : GoodTok P (q ++ d :: t) := by
  have ht := goodTok_plain h hc
  refine ⟨?_, ?_⟩
  · intro c hm
    rcases List.mem_append.1 hm with hm | hm
    · exact hq.1 c hm
    · rcases List.mem_cons.1 hm with rfl | hm
      · exact ⟨hp, hd'⟩
      · exact ht.1 c hm
  · rw [splitKeep_append hd]
    intro part hm
    rcases List.mem_append.1 hm with hm | hm
    · exact hq.2 part hm
    · rcases List.mem_cons.1 hm with rfl | hm
      · exact clean_sep hd
      · exact ht.2 part hm

/-- the state of the loop: what was collected, and what is being collected inside a bracket (`open` before a part, `full` after one) -/
structure Shape (P : Char → Prop) (full : Bool) (s : ExSt) : Prop where
  quotes : s.inquotes = false
  toks : ∃ l : List (Str × Option Str), s.retval = l.map rawOf ∧ (∀ x, l.getLast? = some x → s.ccand = some x.1) ∧ ∀ x ∈ l, GoodTok P x.1
  outside : s.inbrackets = false → s.quotetok = []
  inside : s.inbrackets = true →
    if full then GoodTok P s.quotetok
    else s.quotetok = [] ∨ ∃ q d, s.quotetok = q ++ [d] ∧ GoodTok P q ∧ isSepChar d = true ∧ d ≠ ']' ∧ P d

theorem exStep_quotetok {s s' : ExSt} {t : Str} (h1 : s.inbrackets = false) (h2 : s.inquotes = false) (h : exStep s t = .ok s') :
    s'.quotetok = s.quotetok := by
  unfold exStep at h
  simp only [h1, h2, Bool.or_self, Bool.false_eq_true, if_false] at h
  have hif : ∀ (c : Str), (if c ≠ [] then { s with ccand := some c, retval := s.retval ++ [(c, none)] } else s).quotetok = s.quotetok := by
    intro c; split <;> rfl
  cases hqr : quotedRated (strip t) with
  | some x => rw [hqr] at h; cases h; rfl
  | none =>
    rw [hqr] at h
    simp only at h
    cases hqb : quotedBare (strip t) with
    | some x => rw [hqb] at h; cases h; rfl
    | none =>
      rw [hqb] at h
      simp only at h
      by_cases hp : startsPlain (strip t) = true
      · rw [if_pos hp] at h
        cases hsl : slashRating (strip t) with
        | none =>
          rw [hsl] at h
          simp only at h
          have := hif (strip t)
          rw [h1, h2] at this
          rw [← this]
          exact congrArg ExSt.quotetok (Except.ok.inj h).symm
        | some y =>
          obtain ⟨before, ds⟩ := y
          rw [hsl] at h
          simp only at h
          have hb := hif before
          rw [h1, h2] at hb
          generalize (if before ≠ [] then { s with inbrackets := false, inquotes := false, ccand := some before, retval := s.retval ++ [(before, none)] } else s) = s1 at h hb
          split at h
          · cases h
          · split at h
            · have e := congrArg ExSt.quotetok (Except.ok.inj h)
              exact e.symm.trans hb
            · cases h
      · rw [if_neg hp] at h
        split at h
        · cases h; rfl
        · split at h <;> (cases h; rfl)

/-- nowhere a blank before a slash -/
def NoBlankSlash (s : Str) : Prop := ¬ ∃ a w b, s = a ++ w :: '/' :: b ∧ isSpace w = true

/-- one part -/
theorem shape_part {P : Char → Prop} {s s' : ExSt} {A : Str} (hs : Shape P false s) (hA : ∀ c ∈ A, P c ∧ isSepChar c = false ∧ c ≠ '"')
    (hb : NoBlankSlash A) (h : exStep s A = .ok s') : Shape P true s' := by
  obtain ⟨q, ⟨l, e1, e2, e3⟩, o, i⟩ := hs
  have hmem : ∀ c ∈ strip A, c ∈ A := by
    obtain ⟨pre, post, _, _, e⟩ := strip_parts A
    intro c hc
    rw [e]; simp [hc]
  cases hin : s.inbrackets with
  | true =>
    have hno : ']' ∉ A := fun hh => absurd (hA _ hh).2.1 (by decide)
    have hq : '"' ∉ A := fun hh => (hA _ hh).2.2 rfl
    rw [exStep_within hin (fun hh => hno (List.mem_of_head? hh)) hq hno] at h
    split at h
    · cases h
    rename_i hne
    cases h
    have hclean : CleanToken (strip A) := ⟨hne, by rw [strip_eq_iff]; exact ⟨fun c hc => strip_head (s := A) hc, fun c hc => strip_last (s := A) hc⟩,
      fun hh => hq (hmem _ (List.mem_of_head? hh))⟩
    have hch : ∀ c ∈ strip A, P c ∧ isSepChar c = false := fun c hc => ⟨(hA c (hmem c hc)).1, (hA c (hmem c hc)).2.1⟩
    refine ⟨q, ⟨l, e1, e2, e3⟩, fun hh => (by rw [hin] at hh; cases hh), fun _ => ?_⟩
    rw [if_pos rfl]
    have := i hin
    rw [if_neg (by simp)] at this
    rcases this with h0 | ⟨q0, d, h0, g1, g2, g3, g4⟩
    · simp only [h0, List.nil_append]
      exact goodTok_plain hch hclean
    · simp only [h0, List.append_assoc, List.singleton_append]
      exact goodTok_append g1 g2 g3 g4 hch hclean
  | false =>
    obtain ⟨p, hp, ht⟩ := exists_piece A (fun c hc => (hA c hc).2)
    have key := exStep_piece (s := s) (l := l) ⟨hin, q, e1, e2⟩ hp
    rw [ht] at key
    cases hn : named l [p] with
    | none => rw [hn] at key; simp only at key; rw [key] at h; cases h
    | some l' =>
      rw [hn] at key
      obtain ⟨s'', k1, k2, k3, k4, k5⟩ := key
      rw [h] at k1
      cases k1
      have hqt := exStep_quotetok hin q h
      refine ⟨k3, ⟨l', k4, k5, ?_⟩, fun _ => by rw [hqt]; exact o hin, fun hh => by rw [k2] at hh; cases hh⟩
      subst ht
      cases p with
      | blank ws => simp only [named] at hn; cases hn; exact e3
      | cand pre tok post =>
        simp only [named] at hn
        cases hn
        obtain ⟨_, _, g3, g4, _⟩ := hp
        intro x hx
        rcases List.mem_append.1 hx with hx | hx
        · exact e3 x hx
        · simp at hx
          subst hx
          refine goodTok_plain (fun c hc => ⟨(hA c (by simp [Piece.text, hc])).1, g3.2.2 c hc⟩) ⟨g3.1, ?_, fun hh => (g3.2.1 _ hh).2 rfl⟩
          rw [strip_eq_iff]
          exact ⟨fun c hc => (g3.2.1 c hc).1, g4⟩
      | rated pre tok ds post =>
        simp only [named] at hn
        cases hn
        obtain ⟨_, _, g3, _⟩ := hp
        intro x hx
        rcases List.mem_append.1 hx with hx | hx
        · exact e3 x hx
        · simp at hx
          subst hx
          refine goodTok_plain (fun c hc => ⟨(hA c (by simp [Piece.text, hc])).1, g3.2.2 c hc⟩) ⟨g3.1, ?_, fun hh => (g3.2.1 _ hh).2 rfl⟩
          rw [strip_eq_iff]
          refine ⟨fun c hc => (g3.2.1 c hc).1, fun c hc => ?_⟩
          cases hsp : isSpace c with
          | false => rfl
          | true =>
            exfalso
            apply hb
            obtain ⟨u, hu⟩ : ∃ u, tok = u ++ [c] := by
              rw [List.getLast?_eq_some_iff] at hc
              exact hc
            exact ⟨pre ++ u, c, ds ++ post, by simp [Piece.text, hu], hsp⟩
      | late pre ds post =>
        simp only [named] at hn
        cases hl : l.getLast? with
        | none => rw [hl] at hn; cases hn
        | some y =>
          rw [hl] at hn
          obtain ⟨t, r⟩ := y
          simp only [Option.some.injEq] at hn
          subst hn
          intro x hx
          rcases List.mem_append.1 hx with hx | hx
          · exact e3 x ((List.dropLast_sublist l).subset hx)
          · simp at hx
            subst hx
            exact e3 (t, r) (List.mem_of_getLast? hl)

/-- one separator -/
theorem shape_sep {P : Char → Prop} {s s' : ExSt} {d : Char} (hs : Shape P true s) (hd : isSepChar d = true) (hp : P d)
    (h : exStep s [d] = .ok s') : Shape P false s' := by
  obtain ⟨q, ⟨l, e1, e2, e3⟩, o, i⟩ := hs
  cases hin : s.inbrackets with
  | false =>
    by_cases hopen : d = '['
    · subst hopen
      rw [exStep_open hin q] at h
      cases h
      refine ⟨q, ⟨l, e1, e2, e3⟩, fun hh => by simp at hh, fun _ => ?_⟩
      rw [if_neg (by simp)]
      exact .inl (o hin)
    · have hsame : exStep s [d] = .ok s := by
        simp only [isSepChar, List.contains_eq_mem, List.mem_cons, List.not_mem_nil, or_false, decide_eq_true_eq] at hd
        rcases hd with rfl | rfl | rfl | rfl | rfl
        · exact absurd rfl hopen
        · unfold exStep
          simp only [hin, q, Bool.or_self, Bool.false_eq_true, if_false]
          rfl
        · exact exStep_skip hin q (by decide)
        · exact exStep_skip hin q (by decide)
        · exact exStep_skip hin q (by decide)
      rw [hsame] at h
      cases h
      exact ⟨q, ⟨l, e1, e2, e3⟩, o, fun hh => by rw [hin] at hh; cases hh⟩
  | true =>
    have hg := i hin
    rw [if_pos rfl] at hg
    by_cases hclose : d = ']'
    · subst hclose
      rw [exStep_close hin] at h
      cases h
      refine ⟨q, ⟨l ++ [(s.quotetok, none)], by simp [e1, rawOf], ?_, ?_⟩, fun _ => rfl, fun hh => by simp at hh⟩
      · intro x hx
        rw [List.getLast?_concat] at hx
        cases hx
        rfl
      · intro x hx
        rcases List.mem_append.1 hx with hx | hx
        · exact e3 x hx
        · simp at hx
          subst hx
          exact hg
    · rw [exStep_inside hin (clean_sep hd) (by simpa using hclose)] at h
      cases h
      refine ⟨q, ⟨l, e1, e2, e3⟩, fun hh => (by rw [hin] at hh; cases hh), fun _ => ?_⟩
      rw [if_neg (by simp)]
      exact .inr ⟨s.quotetok, d, rfl, hg, hd, hclose, hp⟩

/-- the whole list -/
theorem shape_loop {P : Char → Prop} {s s' : ExSt} {r : Str} (hs : Shape P false s) (hr : ∀ c ∈ r, P c ∧ c ≠ '"') (hb : NoBlankSlash r)
    (h : exLoop s (splitKeep isSepChar r) = .ok s') : Shape P true s' := by
  have step : ∀ n : Nat, ∀ (s : ExSt) (r : Str), r.length ≤ n → Shape P false s → (∀ c ∈ r, P c ∧ c ≠ '"') → NoBlankSlash r →
      exLoop s (splitKeep isSepChar r) = .ok s' → Shape P true s' := by
    intro n
    induction n with
    | zero =>
      intro s r hn hs hr hb h
      have : r = [] := List.length_eq_zero_iff.1 (by omega)
      subst this
      rw [splitKeep_none (by simp)] at h
      obtain ⟨s1, h1, h2⟩ := bind_ok.1 (show (exStep s [] >>= fun s' => exLoop s' []) = _ from h)
      cases h2
      exact shape_part hs (by simp) hb h1
    | succ n ih =>
      intro s r hn hs hr hb h
      have hx : r.takeWhile (fun c => !isSepChar c) ++ r.dropWhile (fun c => !isSepChar c) = r := List.takeWhile_append_dropWhile
      have hno : ∀ c ∈ r.takeWhile (fun c => !isSepChar c), isSepChar c = false := fun c hc => by simpa using mem_takeWhile_p hc
      generalize hA : r.takeWhile (fun c => !isSepChar c) = A at hx hno
      cases hd : r.dropWhile (fun c => !isSepChar c) with
      | nil =>
        rw [hd, List.append_nil] at hx
        subst hx
        rw [splitKeep_none hno] at h
        obtain ⟨s1, h1, h2⟩ := bind_ok.1 (show (exStep s A >>= fun s' => exLoop s' []) = _ from h)
        cases h2
        exact shape_part hs (fun c hc => ⟨(hr c hc).1, hno c hc, (hr c hc).2⟩) hb h1
      | cons d B =>
        rw [hd] at hx
        have hdl : isSepChar d = true := by
          have := List.head?_dropWhile_not (fun c => !isSepChar c) r
          rw [hd] at this
          simpa using this
        rw [← hx, splitKeep_append hdl, splitKeep_none hno] at h
        obtain ⟨s1, h1, h2⟩ := bind_ok.1 (show (exStep s A >>= fun s' => exLoop s' ([d] :: splitKeep isSepChar B)) = _ from h)
        obtain ⟨s2, h3, h4⟩ := bind_ok.1 (show (exStep s1 [d] >>= fun s' => exLoop s' (splitKeep isSepChar B)) = _ from h2)
        have m1 : ∀ c ∈ A, c ∈ r := fun c hc => by rw [← hx]; simp [hc]
        have m2 : ∀ c ∈ B, c ∈ r := fun c hc => by rw [← hx]; simp [hc]
        have s1' := shape_part hs (fun c hc => ⟨(hr c (m1 c hc)).1, hno c hc, (hr c (m1 c hc)).2⟩)
          (by rintro ⟨a, w, b, e, hw⟩; exact hb ⟨a, w, b ++ d :: B, by rw [← hx, e]; simp, hw⟩) h1
        have s2' := shape_sep s1' hdl (hr d (by rw [← hx]; simp)).1 h3
        refine ih s2 B ?_ s2' (fun c hc => hr c (m2 c hc)) (by
          rintro ⟨a, w, b, e, hw⟩; exact hb ⟨A ++ d :: a, w, b, by rw [← hx, e]; simp, hw⟩) h4
        have := congrArg List.length hx
        simp at this; omega
  exact step r.length s r (Nat.le_refl _) hs hr hb h

/-- Tokens of a list without double quotes and without blanks before slashes can be printed. -/
theorem tokens_printable {s : Str} {prefs : Dict Str Pref} {cands : List Str} (h : parsePrefstr s = .ok (prefs, cands))
    (hq : '"' ∉ s) (hb : NoBlankSlash s) (hh : '#' ∉ s) (hl : ∀ c ∈ s, isLineBreak c = false) : ∀ k ∈ Dict.keys prefs, Printable k := by
  intro k hk
  rw [(parsePrefstr_ok h).1, mem_firsts] at hk
  have hc : ∃ l, extractCandprefs s = .ok l ∧ cands = l.map Prod.fst := by
    unfold parsePrefstr at h
    obtain ⟨cps, hcps, h⟩ := bind_ok.1 h
    obtain ⟨p1, hp1, h⟩ := bind_ok.1 h
    obtain ⟨p2, hp2, h⟩ := bind_ok.1 h
    refine ⟨cps, hcps, ?_⟩
    cases cps with
    | nil => cases h; rfl
    | cons e l =>
      simp only at h
      split at h
      · cases h
      · split at h
        · obtain ⟨p3, hp3, h⟩ := bind_ok.1 h
          cases h; rfl
        · cases h; rfl
  obtain ⟨l, hl', hcs⟩ := hc
  subst hcs
  unfold extractCandprefs at hl'
  obtain ⟨s', h1, h2⟩ := bind_ok.1 hl'
  cases h2
  rw [isPrefSep_eq] at h1
  have hshape := shape_loop (P := fun c => c ∈ s) (s := {}) ⟨rfl, ⟨[], rfl, by simp, by simp⟩, fun _ => rfl, fun hh => by simp at hh⟩
    (fun c hc => ⟨hc, fun e => hq (e ▸ hc)⟩) hb h1
  obtain ⟨l, e1, _, e3⟩ := hshape.toks
  rw [e1, List.map_map] at hk
  obtain ⟨x, hx, rfl⟩ := List.mem_map.1 hk
  obtain ⟨g1, g2⟩ := e3 x hx
  refine ⟨?_, fun hh => (g1 _ hh).2 rfl, fun hm => hh (g1 _ hm).1, fun c hc => hl c (g1 c hc).1, g2⟩
  intro he
  have hn : (x.1 : Str) = [] := he
  rw [hn] at g2
  exact (g2 [] (by simp [splitKeep, splitKeepAux])).1 rfl

end Verif
