/-
C113: blanks around the candidates of a preference list.
-/
import Verif.Spec.Spacing
import Verif.Props.Unclosed
import Verif.Lib.Sort

set_option linter.unusedSectionVars false

namespace Verif.Props
open Spec

section
variable [U : Uni]

theorem strip_strip' (s : Str) : strip (strip s) = strip s :=
  strip_eq_iff.2 ⟨fun _ hc => strip_head (s := s) hc, fun _ hc => strip_last (s := s) hc⟩

theorem strip_before {w x : Str} (h : OnlyBlanks w) : strip (w ++ x) = strip x := by
  obtain ⟨pre, post, h1, h2, e⟩ := strip_parts x
  have : w ++ x = (w ++ pre) ++ (strip x ++ post) := by rw [List.append_assoc, ← e]
  rw [this]
  refine strip_pad ?_ h2 (strip_strip' x)
  intro c hc
  rcases List.mem_append.1 hc with hc | hc
  · exact h c hc
  · exact h1 c hc

theorem strip_after {w x : Str} (h : OnlyBlanks w) : strip (x ++ w) = strip x := by
  obtain ⟨pre, post, h1, h2, e⟩ := strip_parts x
  have : x ++ w = pre ++ (strip x ++ (post ++ w)) := by
    conv => lhs; rw [e]
    simp
  rw [this]
  refine strip_pad h1 ?_ (strip_strip' x)
  intro c hc
  rcases List.mem_append.1 hc with hc | hc
  · exact h2 c hc
  · exact h c hc

/-! ### the tokens -/

theorem splitKeepAux_cur (p : Char → Bool) (s cur : Str) :
    ∃ x rest, splitKeepAux p s [] = x :: rest ∧ splitKeepAux p s cur = (cur.reverse ++ x) :: rest := by
  have : ∀ (s cur : Str), ∃ x rest, (∀ cur' : Str, splitKeepAux p s (cur ++ cur') = (cur'.reverse ++ x) :: rest) ∧
      splitKeepAux p s cur = x :: rest := by
    intro s
    induction s with
    | nil => intro cur; exact ⟨cur.reverse, [], fun cur' => by simp [splitKeepAux], by simp [splitKeepAux]⟩
    | cons c s ih =>
      intro cur
      by_cases hc : p c = true
      · refine ⟨cur.reverse, [c] :: splitKeepAux p s [], fun cur' => ?_, ?_⟩
        · rw [splitKeepAux, if_pos hc]; simp
        · rw [splitKeepAux, if_pos hc]
      · obtain ⟨x, rest, h1, h2⟩ := ih (c :: cur)
        refine ⟨x, rest, fun cur' => ?_, ?_⟩
        · rw [splitKeepAux, if_neg hc]; exact h1 cur'
        · rw [splitKeepAux, if_neg hc]; exact h2
  obtain ⟨x, rest, h1, h2⟩ := this s []
  exact ⟨x, rest, h2, by simpa using h1 cur⟩

theorem tokens_before {w b : Str} (h : OnlyBlanks w) :
    (splitKeep isSepChar (w ++ b)).map strip = (splitKeep isSepChar b).map strip := by
  have step : ∀ (w cur : Str), OnlyBlanks w → splitKeepAux isSepChar (w ++ b) cur = splitKeepAux isSepChar b (w.reverse ++ cur) := by
    intro w
    induction w with
    | nil => intro cur _; rfl
    | cons c w ih =>
      intro cur h
      have hc : isSepChar c = false := space_not_sep (h c (by simp))
      rw [List.cons_append, splitKeepAux, if_neg (by simp [hc]), ih _ (fun x hx => h x (by simp [hx]))]
      simp
  unfold splitKeep
  rw [step w [] h]
  obtain ⟨x, rest, h1, h2⟩ := splitKeepAux_cur isSepChar b (w.reverse ++ [])
  rw [h2, h1]
  simp [strip_before h]

theorem tokens_after {a w : Str} (h : OnlyBlanks w) :
    (splitKeep isSepChar (a ++ w)).map strip = (splitKeep isSepChar a).map strip := by
  have step : ∀ (a cur : Str), (splitKeepAux isSepChar (a ++ w) cur).map strip = (splitKeepAux isSepChar a cur).map strip := by
    intro a
    induction a with
    | nil =>
      intro cur
      rw [List.nil_append, splitKeepAux_none (fun c hc => space_not_sep (h c hc))]
      simp [splitKeepAux, strip_after h]
    | cons c a ih =>
      intro cur
      rw [List.cons_append, splitKeepAux, splitKeepAux]
      split
      · simp [ih]
      · exact ih _
  exact step a []

theorem tokens_added {s t : Str} (h : BlanksAdded s t) :
    (splitKeep isSepChar t).map strip = (splitKeep isSepChar s).map strip := by
  obtain ⟨a, w, b, rfl, rfl, hw, hp⟩ := h
  rcases hp with rfl | rfl | ⟨a', c, rfl, hc⟩ | ⟨c, b', rfl, hc⟩
  · exact tokens_before hw
  · simpa using tokens_after (a := a) hw
  · rw [List.append_assoc, List.append_assoc, List.singleton_append, List.singleton_append, splitKeep_append hc, splitKeep_append hc,
      List.map_append, List.map_append, List.map_cons, List.map_cons, tokens_before hw]
  · rw [← List.append_assoc, splitKeep_append hc, splitKeep_append hc, List.map_append, List.map_append, tokens_after hw]

theorem exStep_strip (s : ExSt) {x y : Str} (h : strip x = strip y) : exStep s x = exStep s y := by
  unfold exStep
  rw [h]

theorem exLoop_strip {xs ys : List Str} (h : xs.map strip = ys.map strip) (s : ExSt) : exLoop s xs = exLoop s ys := by
  induction xs generalizing ys s with
  | nil =>
    cases ys with
    | nil => rfl
    | cons y ys => simp at h
  | cons x xs ih =>
    cases ys with
    | nil => simp at h
    | cons y ys =>
      rw [List.map_cons, List.map_cons, List.cons.injEq] at h
      unfold exLoop
      rw [exStep_strip s h.1]
      congr 1
      funext s'
      exact ih h.2 s'

/-! ### the delimiters -/

theorem first_occurrence {x : Char} {s : Str} (h : x ∈ s) : ∃ a b, s = a ++ x :: b ∧ x ∉ a := by
  induction s with
  | nil => cases h
  | cons c s ih =>
    by_cases hc : c = x
    · subst hc; exact ⟨[], s, rfl, by simp⟩
    · rcases List.mem_cons.1 h with rfl | h
      · exact absurd rfl hc
      · obtain ⟨a, b, rfl, ha⟩ := ih h
        refine ⟨c :: a, b, rfl, ?_⟩
        simp [ha, Ne.symm hc]

theorem delims_added {w : Str} (h : ∀ c ∈ w, isSepChar c = false) (b : Str) : ∀ (n : Nat) (a : Str), a.length ≤ n →
    (reSub (matchLen bracketAtoms) c!"[PLACEHOLDER]" (a ++ (w ++ b))).filter isDelim =
      (reSub (matchLen bracketAtoms) c!"[PLACEHOLDER]" (a ++ b)).filter isDelim := by
  have hwo : '[' ∉ w := not_sep_not_open h
  have hwc : ']' ∉ w := fun hh => by have := h _ hh; simp [isSepChar] at this
  have hwd : w.filter isDelim = [] := filter_delim_nosep h
  intro n
  induction n with
  | zero =>
    intro a ha
    have : a = [] := List.length_eq_zero_iff.1 (by omega)
    subst this
    rw [List.nil_append, List.nil_append, reSub_plain hwo, List.filter_append, hwd, List.nil_append]
  | succ n ih =>
    intro a ha
    by_cases ho : '[' ∈ a
    · obtain ⟨x, y, rfl, hx⟩ := first_occurrence ho
      rw [List.append_assoc, List.append_assoc, reSub_plain hx, reSub_plain hx, List.filter_append, List.filter_append]
      congr 1
      rw [List.cons_append, List.cons_append]
      by_cases hc : ']' ∈ y
      · obtain ⟨tok, z, rfl, ht⟩ := first_occurrence hc
        rw [List.append_assoc, List.append_assoc, List.cons_append, List.cons_append, reSub_bracket ht, reSub_bracket ht,
          List.filter_append, List.filter_append, ih z (by simp at ha; omega)]
      · by_cases hb : ']' ∈ b
        · obtain ⟨u, v, rfl, hu⟩ := first_occurrence hb
          have e1 : y ++ (w ++ (u ++ ']' :: v)) = (y ++ (w ++ u)) ++ ']' :: v := by simp
          have e2 : y ++ (u ++ ']' :: v) = (y ++ u) ++ ']' :: v := by simp
          rw [e1, e2, reSub_bracket (by simp [hc, hwc, hu]), reSub_bracket (by simp [hc, hu])]
        · rw [reSub_unclosed (by simp [hc, hwc, hb]), reSub_unclosed (by simp [hc, hb])]
          rw [List.filter_cons, List.filter_cons, List.filter_append, List.filter_append, List.filter_append, hwd, List.nil_append]
    · rw [reSub_plain ho, reSub_plain ho, List.filter_append, List.filter_append, reSub_plain hwo, List.filter_append, hwd, List.nil_append]

theorem determine_added {s t : Str} (h : BlanksAdded s t) : determineRankOrRate t = determineRankOrRate s := by
  obtain ⟨a, w, b, rfl, rfl, hw, _⟩ := h
  have := delims_added (fun c hc => space_not_sep (hw c hc)) b a.length a (Nat.le_refl _)
  unfold isDelim at this
  unfold determineRankOrRate
  simp only [this]

/-- C113.  Blanks next to `[ ] > = ,` and at the ends of a preference list, whatever the list is, change nothing in what is read: the same candidates
with the same ranks and ratings, or the same error. -/
theorem C113_list (s t : Str) (h : Respaced s t) : parsePrefstr s = parsePrefstr t := by
  induction h with
  | same => rfl
  | symm _ ih => exact ih.symm
  | trans _ _ ih1 ih2 => exact ih1.trans ih2
  | added h =>
    unfold parsePrefstr extractCandprefs
    rw [determine_added h, isPrefSep_eq, exLoop_strip (tokens_added h)]

/-! ### whole texts -/

theorem forget_eq {m m' : Jabmod} (h : forgetSpelling m = forgetSpelling m') :
    m.metadata = m'.metadata ∧ m.candidates = m'.candidates ∧
      m.votelines.map (fun vl => { vl with prefstr := none }) = m'.votelines.map (fun vl => { vl with prefstr := none }) := by
  unfold forgetSpelling at h
  injection h with h1 h2 h3
  exact ⟨h1, h2, h3⟩

/-- both end with the same error, or with models that differ in the record of the writing at most -/
def SameOutcome (x y : Except PyErr Jabmod) : Prop := x.map forgetSpelling = y.map forgetSpelling

theorem sameOutcome_bind {x y : Except PyErr Jabmod} {f g : Jabmod → Except PyErr Jabmod} (h : SameOutcome x y)
    (hf : ∀ m m', forgetSpelling m = forgetSpelling m' → SameOutcome (f m) (g m')) : SameOutcome (x >>= f) (y >>= g) := by
  cases x with
  | error e =>
    cases y with
    | error e' => cases h; rfl
    | ok m' => cases h
  | ok m =>
    cases y with
    | error e' => cases h
    | ok m' => exact hf m m' (Except.ok.inj h)

theorem processComment_forget (com : Option Str) (i : Nat) (sc : Bool) (m m' : Jabmod) (h : forgetSpelling m = forgetSpelling m') :
    SameOutcome (processComment com i sc m) (processComment com i sc m') := by
  obtain ⟨h1, h2, h3⟩ := forget_eq h
  unfold SameOutcome processComment
  rw [h1]
  cases com with
  | none => simp only [Except.map]; rw [h]
  | some c =>
    simp only
    split
    · split
      · simp [Except.map, forgetSpelling, h2, h3]
      · simp [Except.map, forgetSpelling, h2, h3]
      · rfl
    · simp only [Except.map]; rw [h]

theorem processPrefline_forget (q p p' : Str) (c : Option Str) (hp : parsePrefstr p = parsePrefstr p') (m m' : Jabmod)
    (h : forgetSpelling m = forgetSpelling m') : SameOutcome (processPrefline q p c m) (processPrefline q p' c m') := by
  obtain ⟨h1, h2, h3⟩ := forget_eq h
  unfold SameOutcome processPrefline
  simp only [h1, hp]
  cases bumpBallotcount m'.metadata (digitsVal q) with
  | error e => rfl
  | ok md =>
    rw [ok_bind, ok_bind]
    cases parsePrefstr p' with
    | error e => rfl
    | ok r =>
      obtain ⟨prefs, cands⟩ := r
      rw [ok_bind, ok_bind]
      simp [Except.map, forgetSpelling, h2, h3]

theorem lineEffect_forget (l l' : Str) (hl : RespacedLine l l') (m m' : Jabmod) (h : forgetSpelling m = forgetSpelling m') :
    SameOutcome (lineEffect l m) (lineEffect l' m') := by
  rcases hl with rfl | ⟨q, p, p', c, e1, e2, hr⟩
  · obtain ⟨h1, h2, h3⟩ := forget_eq h
    unfold lineEffect
    cases readCand (beforeHash l) with
    | some x => simp [SameOutcome, Except.map, forgetSpelling, processCand, h1, h2, h3]
    | none =>
      cases matchMeta (beforeHash l) with
      | some x => simp [SameOutcome, Except.map, forgetSpelling, processMeta, h1, h2, h3]
      | none =>
        cases readVote (beforeHash l) with
        | some x => exact processPrefline_forget _ _ _ _ rfl m m' h
        | none => simp only [SameOutcome, Except.map]; rw [h]
  · have key : ∀ (l p : Str) (m : Jabmod), Spec.lineVote l = some (q, p, c) → lineEffect l m = processPrefline q p c m := by
      intro l p m e
      unfold Spec.lineVote at e
      obtain ⟨⟨q0, p0⟩, hv, e⟩ := Option.map_eq_some_iff.1 e
      cases e
      unfold lineEffect
      rw [readCand_none_of_vote hv, matchMeta_none_of_vote hv, hv]
    rw [key l p m e1, key l' p' m' e2]
    exact processPrefline_forget q p p' c (C113_list p p' hr) m m' h

theorem processPlain_forget (sc : Bool) (i : Nat) {ls ls' : List Str} (hl : List.Forall₂ RespacedLine ls ls') (m m' : Jabmod)
    (h : forgetSpelling m = forgetSpelling m') : SameOutcome (processPlain sc i ls m) (processPlain sc i ls' m') := by
  induction hl generalizing i m m' with
  | nil => simp only [processPlain, SameOutcome, Except.map]; rw [h]
  | @cons l l' ls ls' hll _ ih =>
    have hc : hashComment l = hashComment l' := by
      rcases hll with rfl | ⟨q, p, p', c, e1, e2, _⟩
      · rfl
      · unfold Spec.lineVote at e1 e2
        obtain ⟨_, _, e1⟩ := Option.map_eq_some_iff.1 e1
        obtain ⟨_, _, e2⟩ := Option.map_eq_some_iff.1 e2
        cases e1
        injection e2 with _ e2
        injection e2 with _ e2
        exact e2.symm
    unfold processPlain
    rw [hc]
    refine sameOutcome_bind (processComment_forget _ _ _ _ _ h) (fun m m' h => ?_)
    exact sameOutcome_bind (lineEffect_forget _ _ hll _ _ h) (fun m m' h => ih _ _ _ h)

theorem convert_forget (cw cw' sc : Bool) (text text' : Str) (h : List.Forall₂ RespacedLine (textLines cw text) (textLines cw' text')) :
    SameOutcome (convertAbif cw false sc text) (convertAbif cw' false sc text') := by
  rw [convertAbif_eq, convertAbif_eq]
  refine sameOutcome_bind (processPlain_forget sc 0 h _ _ rfl) (fun m m' hm => ?_)
  obtain ⟨h1, h2, h3⟩ := forget_eq hm
  unfold finish
  have he : m.votelines = [] ↔ m'.votelines = [] := by
    have := congrArg List.length h3
    simp only [List.length_map] at this
    rw [← List.length_eq_zero_iff, ← List.length_eq_zero_iff, this]
  by_cases hn : m.votelines = []
  · rw [if_pos hn, if_pos (he.1 hn)]; rfl
  · rw [if_neg hn, if_neg (fun hh => hn (he.2 hh))]
    have hs : ∀ l : List Voteline, (sortByKeyDesc Voteline.qty l).map (fun vl => { vl with prefstr := none }) =
        sortByKeyDesc Voteline.qty (l.map (fun vl => { vl with prefstr := none })) := by
      intro l
      exact (pySort_map (fun vl : Voteline => ({ vl with prefstr := none } : Voteline)) (fun a b => decide (b.qty ≤ a.qty)) (fun a b => decide (b.qty ≤ a.qty))
        (fun a b => rfl) l).symm
    simp [SameOutcome, Except.map, forgetSpelling, ok_bind, h1, h2, hs, h3]

/-- C113 for whole texts: texts whose votelines differ in such blanks only give the same election (the record of the writing excepted) or the same
error, with and without added ratings and stored comments. -/
theorem C113_text (cw cw' ar sc : Bool) (text text' : Str)
    (h : List.Forall₂ RespacedLine (textLines cw text) (textLines cw' text')) :
    (convertAbif cw ar sc text).map forgetSpelling = (convertAbif cw' ar sc text').map forgetSpelling := by
  have base := convert_forget cw cw' sc text text' h
  cases ar with
  | false => exact base
  | true =>
    rw [convertAbif_rated, convertAbif_rated]
    refine sameOutcome_bind base (fun m m' hm => ?_)
    obtain ⟨h1, h2, h3⟩ := forget_eq hm
    have hr : ∀ m : Jabmod, hasAnyRating m = hasAnyRating (forgetSpelling m) := by
      intro m; simp [hasAnyRating, forgetSpelling, List.any_map, Function.comp_def]
    have ha : ∀ l : List Voteline, l.any (fun vl => !vl.prefs.isEmpty) =
        (l.map (fun vl => { vl with prefstr := none })).any (fun vl => !vl.prefs.isEmpty) := by
      intro l; simp [List.any_map, Function.comp_def]
    have hl : ∀ (l : List Voteline) (b : Bool) (n : Int), (l.map (ratedLine b n)).map (fun vl => { vl with prefstr := none }) =
        (l.map (fun vl => { vl with prefstr := none })).map (ratedLine b n) := by
      intro l b n; simp [ratedLine, Function.comp_def]
    simp only [SameOutcome, Except.map, forgetSpelling]
    rw [hl, hl, h1, h2, h3, hr m, hr m', hm, ha m.votelines, ha m'.votelines, h3]

/-- What blanks before a slash do, for every candidate without `[ ] > = , "` and every rating: they become part of the candidate. -/
theorem C113_slash (tok w ds : Str) (ht : Starts tok) (hw : OnlyBlanks w) (hd : Digits ds) :
    ∃ prefs, parsePrefstr (tok ++ (w ++ '/' :: ds)) = .ok (prefs, [tok ++ w]) ∧ Dict.keys prefs = [tok ++ w] := by
  have hne : tok ≠ [] := ht.1
  have ok : (Piece.rated [] (tok ++ w) ds []).Ok := by
    refine ⟨fun c hc => absurd hc (by simp), fun c hc => absurd hc (by simp), ⟨by simp [hne], ?_, ?_⟩, hd⟩
    · intro c hc
      cases tok with
      | nil => exact absurd rfl hne
      | cons x t => exact ht.2.1 c (by simpa using hc)
    · intro c hc
      rcases List.mem_append.1 hc with hc | hc
      · exact ht.2.2 c hc
      · exact space_not_sep (hw c hc)
  obtain ⟨_, h⟩ := C107_exact [Piece.rated [] (tok ++ w) ds []] [] (by simpa using ok) (by simp) rfl
  obtain ⟨prefs, h1, h2, _⟩ := h [(tok ++ w, some ds)] rfl
  refine ⟨prefs, ?_, by simpa [firsts] using h2⟩
  have : writePieces [Piece.rated [] (tok ++ w) ds []] [] = tok ++ (w ++ '/' :: ds) := by simp [writePieces, Piece.text]
  rw [← this]
  exact h1

end

section
attribute [local instance] Uni.ascii
set_option maxRecDepth 20000

/-- two ways to write the same votelines -/
def tightText : Str := c!"3:[a b]/5>c/2=d\n"
def airyText : Str := c!"3: [ a b ] /5 > c/2 = d \n"

theorem airy_respaced : List.Forall₂ RespacedLine (textLines false tightText) (textLines false airyText) := by
  have e1 : textLines false tightText = [c!"3:[a b]/5>c/2=d"] := by decide +kernel
  have e2 : textLines false airyText = [c!"3: [ a b ] /5 > c/2 = d "] := by decide +kernel
  rw [e1, e2]
  refine .cons (.inr ⟨c!"3", c!"[a b]/5>c/2=d", c!" [ a b ] /5 > c/2 = d ", none, by decide +kernel, by decide +kernel, ?_⟩) .nil
  have bl : OnlyBlanks c!" " := by unfold OnlyBlanks; decide +kernel
  refine .trans (.added ⟨[], c!" ", c!"[a b]/5>c/2=d", rfl, rfl, bl, .inl rfl⟩) ?_
  refine .trans (.added ⟨c!" [", c!" ", c!"a b]/5>c/2=d", rfl, rfl, bl, .inr (.inr (.inl ⟨c!" ", '[', rfl, by decide⟩))⟩) ?_
  refine .trans (.added ⟨c!" [ a b", c!" ", c!"]/5>c/2=d", rfl, rfl, bl, .inr (.inr (.inr ⟨']', c!"/5>c/2=d", rfl, by decide⟩))⟩) ?_
  refine .trans (.added ⟨c!" [ a b ]", c!" ", c!"/5>c/2=d", rfl, rfl, bl, .inr (.inr (.inl ⟨c!" [ a b ", ']', rfl, by decide⟩))⟩) ?_
  refine .trans (.added ⟨c!" [ a b ] /5", c!" ", c!">c/2=d", rfl, rfl, bl, .inr (.inr (.inr ⟨'>', c!"c/2=d", rfl, by decide⟩))⟩) ?_
  refine .trans (.added ⟨c!" [ a b ] /5 >", c!" ", c!"c/2=d", rfl, rfl, bl, .inr (.inr (.inl ⟨c!" [ a b ] /5 ", '>', rfl, by decide⟩))⟩) ?_
  refine .trans (.added ⟨c!" [ a b ] /5 > c/2", c!" ", c!"=d", rfl, rfl, bl, .inr (.inr (.inr ⟨'=', c!"d", rfl, by decide⟩))⟩) ?_
  refine .trans (.added ⟨c!" [ a b ] /5 > c/2 =", c!" ", c!"d", rfl, rfl, bl, .inr (.inr (.inl ⟨c!" [ a b ] /5 > c/2 ", '=', rfl, by decide⟩))⟩) ?_
  exact .added ⟨c!" [ a b ] /5 > c/2 = d", c!" ", [], rfl, rfl, bl, .inr (.inl rfl)⟩

example : (match convertAbif false false false airyText with
    | .ok m => decide (m.candidates.map Prod.fst = [c!"a b", c!"c", c!"d"] ∧ m.votelines.map Voteline.prefstr = [some c!" [ a b ] /5 > c/2 = d"])
    | _ => false) = true := by decide +kernel

/-- C113 is false for the blanks before a slash: here one candidate, written `a /5` and `a/4`, becomes two. -/
theorem C113_refuted :
    ∃ (text : Str) (m : Jabmod), text = c!"2:a /5\n1:a/4\n" ∧ convertAbif false false false text = .ok m ∧
      Dict.keys m.candidates = [c!"a ", c!"a"] ∧ m.votelines.map (fun vl => Dict.keys vl.prefs) = [[c!"a "], [c!"a"]] := by
  have h : (match convertAbif false false false c!"2:a /5\n1:a/4\n" with
    | .ok m => decide (Dict.keys m.candidates = [c!"a ", c!"a"] ∧ m.votelines.map (fun vl => Dict.keys vl.prefs) = [[c!"a "], [c!"a"]])
    | .error _ => false) = true := by decide +kernel
  refine ⟨c!"2:a /5\n1:a/4\n", ?_⟩
  cases hc : convertAbif false false false c!"2:a /5\n1:a/4\n" with
  | error e => rw [hc] at h; cases h
  | ok m => rw [hc] at h; exact ⟨m, rfl, rfl, of_decide_eq_true h⟩

end

end Verif.Props
