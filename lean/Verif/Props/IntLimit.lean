/-
C109: numbers with many digits.
-/
import Verif.Model.IntLimit
import Verif.Lib.ParsedRatings
import Verif.Lib.ParseTop

set_option linter.unusedSimpArgs false
set_option linter.unusedSectionVars false

namespace Verif.Props
open Verif Spec

/-- no run of digits in the text is longer than `lim` -/
def ShortNumbers [Uni] (lim : Nat) (text : Str) : Prop := ∀ ds, ds <:+: text → (∀ c ∈ ds, isDigit c = true) → ds.length ≤ lim

/-- the same, or refused with a ValueError -/
def OrTooLong {α : Type} (x y : Except PyErr α) : Prop := x = y ∨ x = .error .valueError

theorem orTooLong_bind {α β : Type} {x y : Except PyErr α} {f g : α → Except PyErr β} (h : OrTooLong x y) (hf : ∀ a, OrTooLong (f a) (g a)) :
    OrTooLong (x >>= f) (y >>= g) := by
  rcases h with rfl | rfl
  · cases x with
    | error e => exact .inl rfl
    | ok a => exact hf a
  · exact .inr rfl

theorem orTooLong_mapM {α β : Type} {f g : α → Except PyErr β} (h : ∀ a, OrTooLong (f a) (g a)) (l : List α) : OrTooLong (l.mapM f) (l.mapM g) := by
  induction l with
  | nil => exact .inl rfl
  | cons a l ih =>
    rw [List.mapM_cons, List.mapM_cons]
    exact orTooLong_bind (h a) (fun b => orTooLong_bind ih (fun _ => .inl rfl))

section
variable [U : Uni] {lim : Nat}

theorem ratingIntLim_or (r : Option RVal) : OrTooLong (ratingIntLim lim r) (ratingInt r) := by
  unfold ratingIntLim
  split
  · unfold pyIntOfStrLim
    split
    · exact .inr rfl
    · exact .inl rfl
  · exact .inl rfl

theorem exStepLim_or (s : ExSt) (t : Str) : OrTooLong (exStepLim lim s t) (exStep s t) := by
  unfold exStepLim
  split
  · split
    · exact .inr rfl
    · exact .inl rfl
  · exact .inl rfl

theorem exLoopLim_or (ts : List Str) : ∀ s : ExSt, OrTooLong (exLoopLim lim s ts) (exLoop s ts) := by
  induction ts with
  | nil => intro s; exact .inl rfl
  | cons t ts ih =>
    intro s
    unfold exLoopLim exLoop
    exact orTooLong_bind (exStepLim_or s t) ih

theorem addRanksLim_or (prefs : Dict Str Pref) : OrTooLong (addRanksByRatingLim lim prefs) (addRanksByRating prefs) := by
  unfold addRanksByRatingLim addRanksByRating
  refine orTooLong_bind (orTooLong_mapM (fun kp => orTooLong_bind (ratingIntLim_or _) (fun _ => .inl rfl)) _) (fun _ => .inl rfl)

theorem parsePrefstrLim_or (p : Str) : OrTooLong (parsePrefstrLim lim p) (parsePrefstr p) := by
  unfold parsePrefstrLim parsePrefstr extractCandprefsLim extractCandprefs
  simp only
  refine orTooLong_bind (orTooLong_bind (exLoopLim_or _ _) (fun _ => .inl rfl)) (fun cps => ?_)
  refine orTooLong_bind (.inl rfl) (fun prefs => orTooLong_bind (addRanksLim_or _) (fun prefs => ?_))
  cases cps with
  | nil => exact .inl rfl
  | cons e rest =>
    obtain ⟨c0, r0⟩ := e
    simp only
    cases Dict.get? prefs c0 with
    | none => exact .inl rfl
    | some p0 =>
      simp only
      split
      · exact orTooLong_bind (addRanksLim_or _) (fun _ => .inl rfl)
      · exact .inl rfl

theorem processPreflineLim_or (qty p : Str) (c : Option Str) (m : Jabmod) :
    OrTooLong (processPreflineLim lim qty p c m) (processPrefline qty p c m) := by
  unfold processPreflineLim processPrefline
  cases hb : m.metadata.get? c!"ballotcount" with
  | none =>
    left
    simp only
    unfold bumpBallotcount
    rw [hb]
    rfl
  | some j =>
    simp only
    by_cases hl : lim < qty.length
    · rw [if_pos hl]; exact .inr rfl
    · rw [if_neg hl]
      show OrTooLong (bumpBallotcount m.metadata _ >>= _) _
      exact orTooLong_bind (.inl rfl) (fun md => orTooLong_bind (parsePrefstrLim_or p) (fun _ => .inl rfl))

theorem processLineLim_or (cw sc : Bool) (i : Nat) (l : Str) (m : Jabmod) :
    OrTooLong (processLineLim lim cw sc i l m) (processLine cw sc i l m) := by
  unfold processLineLim processLine
  simp only
  refine orTooLong_bind (.inl rfl) (fun m => ?_)
  cases matchCand (splitComment (if cw = true then lstrip l else l)).1 with
  | some x => exact .inl rfl
  | none =>
    simp only
    cases matchMeta (splitComment (if cw = true then lstrip l else l)).1 with
    | some x => exact .inl rfl
    | none =>
      simp only
      cases matchVote (splitComment (if cw = true then lstrip l else l)).1 with
      | none => exact .inl rfl
      | some x => exact processPreflineLim_or _ _ _ _

theorem processLinesLim_or (cw sc : Bool) : ∀ (ls : List Str) (i : Nat) (m : Jabmod),
    OrTooLong (processLinesLim lim cw sc i ls m) (processLines cw sc i ls m)
  | [], _, _ => .inl rfl
  | l :: ls, i, m => by
    unfold processLinesLim processLines
    exact orTooLong_bind (processLineLim_or cw sc i l m) (fun m' => processLinesLim_or cw sc ls (i + 1) m')

/-- C109.  The limit can only make the parser refuse a text with a ValueError; otherwise the result is the one without a limit. -/
theorem C109_refines (lim : Nat) (cw ar sc : Bool) (text : Str) :
    convertAbifLim lim cw ar sc text = convertAbif cw ar sc text ∨ convertAbifLim lim cw ar sc text = .error .valueError := by
  unfold convertAbifLim convertAbif
  split
  · exact .inl rfl
  · exact orTooLong_bind (processLinesLim_or cw sc _ _ _) (fun _ => .inl rfl)

/-! ### what is converted is in the text -/

theorem infix_short {a b : Str} (h : a <:+: b) (hb : ShortNumbers lim b) : ShortNumbers lim a :=
  fun ds hd => hb ds (hd.trans h)

theorem lstrip_infix (s : Str) : lstrip s <:+: s := (List.dropWhile_suffix _).isInfix

theorem rstrip_infix (s : Str) : rstrip s <:+: s := by
  unfold rstrip
  have h : s.reverse.dropWhile isSpace <:+ s.reverse := List.dropWhile_suffix _
  have := List.reverse_prefix.2 h
  rw [List.reverse_reverse] at this
  exact this.isInfix

theorem strip_infix (s : Str) : strip s <:+: s := (rstrip_infix _).trans (lstrip_infix _)

theorem splitlinesAux_infix (s cur : Str) : ∀ l ∈ splitlinesAux s cur, l <:+: cur.reverse ++ s := by
  fun_induction splitlinesAux s cur with
  | case1 => simp
  | case2 => simp
  | case3 t cur ih =>
    intro l hl
    rcases List.mem_cons.1 hl with rfl | hl
    · exact (List.prefix_append _ _).isInfix
    · have h := ih l hl
      rw [List.reverse_nil, List.nil_append] at h
      exact h.trans (List.IsSuffix.isInfix ⟨cur.reverse ++ ['\r', '\n'], by simp⟩)
  | case4 c t cur _ _ ih =>
    intro l hl
    rcases List.mem_cons.1 hl with rfl | hl
    · exact (List.prefix_append _ _).isInfix
    · have h := ih l hl
      rw [List.reverse_nil, List.nil_append] at h
      exact h.trans (List.IsSuffix.isInfix ⟨cur.reverse ++ [c], by simp⟩)
  | case5 c t cur _ _ ih =>
    intro l hl
    have h := ih l hl
    simpa using h

theorem splitlines_infix (s : Str) : ∀ l ∈ splitlines s, l <:+: s := by
  intro l hl
  have := splitlinesAux_infix s [] l hl
  simpa using this

theorem splitKeep_infix (p : Char → Bool) (s : Str) : ∀ t ∈ splitKeep p s, t <:+: s := by
  intro t ht
  have h := List.infix_of_mem_flatten ht
  rwa [splitKeep_flatten] at h

theorem slashRating_infix {tok b ds : Str} (h : slashRating tok = some (b, ds)) : ds <:+: tok ∧ ∀ c ∈ ds, isDigit c = true := by
  by_cases hx : ∃ a ds, tok = a ++ '/' :: ds ∧ ds ≠ [] ∧ ∀ c ∈ ds, isDigit c = true
  · obtain ⟨a, ds', rfl, hne, hd⟩ := hx
    rw [slashRating_rated hne hd] at h
    have := Option.some.inj h
    rw [← (Prod.mk.inj this).2]
    exact ⟨List.IsSuffix.isInfix ⟨a ++ ['/'], by simp⟩, hd⟩
  · rw [slashRating_none hx] at h
    cases h

theorem quotedRated_infix {tok cand rating : Str} (h : quotedRated tok = some (cand, rating)) : rating <:+: tok := by
  unfold quotedRated at h
  split at h
  · rename_i a b cand' d e rating' rest heq
    cases h
    have hr := (rmatch_sound _ _ _ _ heq).2.1
    rw [← hr]
    exact ⟨a ++ b ++ cand ++ d ++ e, rest, by simp⟩
  · cases h

/-- a rating that is short enough for `int()` -/
def ShortRating (lim : Nat) : Option RVal → Prop
  | some (.str s) => (∀ c ∈ s, isDigit c = true) ∧ s.length ≤ lim
  | _ => True

theorem exNumber_short {s : ExSt} {tok ds : Str} (ht : ShortNumbers lim tok) (h : exNumber s tok = some ds) : ds.length ≤ lim := by
  unfold exNumber at h
  split at h
  · cases h
  · split at h
    · cases h
    · split at h
      · obtain ⟨x, hx, rfl⟩ := Option.map_eq_some_iff.1 h
        obtain ⟨h1, h2⟩ := slashRating_infix hx
        exact ht _ (h1.trans (strip_infix _)) h2
      · cases h

theorem exStepLim_eq {s : ExSt} {tok : Str} (ht : ShortNumbers lim tok) : exStepLim lim s tok = exStep s tok := by
  unfold exStepLim
  split
  · rename_i ds hds
    rw [if_neg (by have := exNumber_short ht hds; omega)]
  · rfl

theorem exLoopLim_eq (ts : List Str) (ht : ∀ t ∈ ts, ShortNumbers lim t) : ∀ s : ExSt, exLoopLim lim s ts = exLoop s ts := by
  induction ts with
  | nil => intro s; rfl
  | cons t ts ih =>
    intro s
    unfold exLoopLim exLoop
    rw [exStepLim_eq (ht t (by simp))]
    congr 1
    funext s'
    exact ih (fun x hx => ht x (by simp [hx])) s'

def AllShort (lim : Nat) (l : List (Str × Option RVal)) : Prop := ∀ e ∈ l, ShortRating lim e.2

theorem allShort_append {l : List (Str × Option RVal)} {c : Str} {r : Option RVal} (h : AllShort lim l) (hr : ShortRating lim r) :
    AllShort lim (l ++ [(c, r)]) := by
  intro e he
  rcases List.mem_append.1 he with he | he
  · exact h e he
  · simp only [List.mem_singleton] at he; subst he; exact hr

theorem allShort_setLast {l : List (Str × Option RVal)} {c : Str} {r : Option RVal} (h : AllShort lim l) (hr : ShortRating lim r) :
    AllShort lim (setLast l (c, r)) := by
  unfold setLast
  exact allShort_append (fun e he => h e (List.dropLast_subset _ he)) hr

theorem exStep_short {s s' : ExSt} {tok : Str} (ht : ShortNumbers lim tok) (h : exStep s tok = .ok s') (hs : AllShort lim s.retval) :
    AllShort lim s'.retval := by
  have pnone : ShortRating lim none := trivial
  have pint : ∀ i, ShortRating lim (some (.int i)) := fun _ => trivial
  unfold exStep at h
  simp only at h
  split at h
  · split at h
    · cases h; exact hs
    · split at h
      · cases h; exact allShort_append hs pnone
      · split at h
        · split at h
          · cases h; exact hs
          · split at h
            · cases h
            · cases h; exact allShort_setLast hs pnone
        · split at h
          · cases h; exact hs
          · cases h
  · split at h
    · rename_i cand rating hq
      cases h
      have hd := (quotedRated_digits hq).2
      exact allShort_append hs ⟨hd, ht _ ((quotedRated_infix hq).trans (strip_infix _)) hd⟩
    · split at h
      · cases h; exact hs
      · split at h
        · revert h
          cases hsr : slashRating (strip tok) with
          | none =>
            simp only
            split
            · intro h; cases h; exact allShort_append hs pnone
            · intro h; cases h; exact hs
          | some bd =>
            simp only
            split
            · simp only
              split
              · intro h; cases h
              · intro h; cases h
                exact allShort_setLast (allShort_append hs pnone) (pint _)
            · split
              · intro h; cases h
              · split
                · intro h; cases h
                  exact allShort_setLast hs (pint _)
                · intro h; cases h
        · split at h
          · cases h; exact hs
          · split at h
            · cases h; exact hs
            · cases h; exact hs

theorem exLoop_short {toks : List Str} (ht : ∀ t ∈ toks, ShortNumbers lim t) {s s' : ExSt} (h : exLoop s toks = .ok s') (hs : AllShort lim s.retval) :
    AllShort lim s'.retval := by
  induction toks generalizing s with
  | nil => cases h; exact hs
  | cons t ts ih =>
    unfold exLoop at h
    obtain ⟨s1, h1, h⟩ := bind_ok.1 h
    exact ih (fun x hx => ht x (by simp [hx])) h (exStep_short (ht t (by simp)) h1 hs)

theorem dict_mem_set {β : Type} {d : Dict Str β} {k : Str} {v : β} {kp : Str × β} (h : kp ∈ Dict.set d k v) : kp = (k, v) ∨ kp ∈ d := by
  induction d with
  | nil =>
    left
    simpa [Dict.set] using h
  | cons e d ih =>
    obtain ⟨k', v'⟩ := e
    unfold Dict.set at h
    split at h
    · rename_i hk
      rcases List.mem_cons.1 h with h | h
      · left; rw [h, hk]
      · right; exact List.mem_cons_of_mem _ h
    · rcases List.mem_cons.1 h with h | h
      · right; rw [h]; exact List.mem_cons_self
      · rcases ih h with h | h
        · left; exact h
        · right; exact List.mem_cons_of_mem _ h

theorem prefLoop_short {mode : RankOrRate} {delims : List Char} {n i : Nat} {rank : Int}
    {cps : List (Str × Option RVal)} {prefs out : Dict Str Pref}
    (h : prefLoop mode delims n i rank cps prefs = .ok out) (hc : AllShort lim cps)
    (hg : ∀ kp ∈ prefs, ShortRating lim kp.2.rating) : ∀ kp ∈ out, ShortRating lim kp.2.rating := by
  induction cps generalizing i rank prefs with
  | nil =>
    unfold prefLoop at h
    cases h
    exact hg
  | cons e rest ih =>
    obtain ⟨cand, rating⟩ := e
    have hrest : AllShort lim rest := fun e he => hc e (by simp [he])
    have step : ∀ (p : Pref) (rank' : Int), ShortRating lim p.rating →
        prefLoop mode delims n (i + 1) rank' rest (prefs.set cand p) = .ok out → ∀ kp ∈ out, ShortRating lim kp.2.rating := by
      intro p rank' hp h
      apply ih h hrest
      intro kp hkp
      rcases dict_mem_set hkp with h | h
      · rw [h]; exact hp
      · exact hg kp h
    have hr : ShortRating lim (if ratingTruthy rating then rating else none) := by
      split
      · exact hc (cand, rating) (by simp)
      · trivial
    unfold prefLoop at h
    simp only at h
    split at h
    · split at h
      · cases h
      · exact step _ _ hr h
    · exact step _ _ hr h

theorem addRanksLoop_short : ∀ (ks : List (Str × Int)) (first : Bool) (a b : Int) (prefs out : Dict Str Pref),
    addRanksLoop first a b ks prefs = .ok out → (∀ kp ∈ prefs, ShortRating lim kp.2.rating) → ∀ kp ∈ out, ShortRating lim kp.2.rating
  | [], _, _, _, prefs, out, h, hg => by
    unfold addRanksLoop at h
    cases h
    exact hg
  | (c, r) :: ks, first, a, b, prefs, out, h, hg => by
    have put : ∀ n : Int, ∀ kp ∈ prefs.modify c (fun p => if rankTruthy p.rank then p else { p with rank := some n }), ShortRating lim kp.2.rating := by
      intro n kp hkp
      unfold Dict.modify at hkp
      split at hkp
      · rename_i v hv
        rcases dict_mem_set hkp with h | h
        · rw [h]
          have := hg _ (Dict.mem_of_get? hv)
          simp only
          split <;> exact this
        · exact hg kp h
      · exact hg kp hkp
    unfold addRanksLoop at h
    simp only at h
    split at h
    · exact addRanksLoop_short ks _ _ _ _ _ h (put _)
    · split at h
      · exact addRanksLoop_short ks _ _ _ _ _ h (put _)
      · split at h
        · exact addRanksLoop_short ks _ _ _ _ _ h (put _)
        · cases h

theorem ratingIntLim_eq {r : Option RVal} (h : ShortRating lim r) : ratingIntLim lim r = ratingInt r := by
  unfold ratingIntLim
  split
  · rename_i s
    obtain ⟨hd, hl⟩ := h
    unfold pyIntOfStrLim
    rw [if_neg]
    · rfl
    · have h1 : (signSplit (strip s)).2.length ≤ (strip s).length := by
        unfold signSplit
        split <;> rename_i heq
        · rw [heq]; simp
        · rw [heq]; simp
        · exact Nat.le_refl _
      have h2 : (strip s).length ≤ s.length := (strip_infix s).length_le
      have h3 := List.length_filter_le (fun c => c != '_') (signSplit (strip s)).2
      omega
  · rfl

theorem addRanksLim_eq {prefs : Dict Str Pref} (h : ∀ kp ∈ prefs, ShortRating lim kp.2.rating) : addRanksByRatingLim lim prefs = addRanksByRating prefs := by
  have : ratedKeysLim lim prefs = ratedKeys prefs := by
    unfold ratedKeysLim ratedKeys
    revert h
    induction prefs with
    | nil => intro _; rfl
    | cons kp prefs ih =>
      intro h
      rw [List.mapM_cons, List.mapM_cons, ih (fun x hx => h x (by simp [hx])), ratingIntLim_eq (h kp (by simp))]
  unfold addRanksByRatingLim addRanksByRating
  rw [this]

theorem addRanks_short {prefs out : Dict Str Pref} (h : addRanksByRating prefs = .ok out) (hg : ∀ kp ∈ prefs, ShortRating lim kp.2.rating) :
    ∀ kp ∈ out, ShortRating lim kp.2.rating := by
  unfold addRanksByRating at h
  obtain ⟨ks, _, h⟩ := bind_ok.1 h
  exact addRanksLoop_short _ _ _ _ _ _ h hg

theorem bind_eq_of {α β : Type} {x : Except PyErr α} {f g : α → Except PyErr β} (h : ∀ a, x = .ok a → f a = g a) : (x >>= f) = (x >>= g) := by
  cases x with
  | error e => rfl
  | ok a => exact h a rfl

theorem parsePrefstrLim_eq {p : Str} (hp : ShortNumbers lim p) : parsePrefstrLim lim p = parsePrefstr p := by
  have ht : ∀ t ∈ splitKeep isPrefSep p, ShortNumbers lim t := fun t ht => infix_short (splitKeep_infix _ _ t ht) hp
  unfold parsePrefstrLim parsePrefstr extractCandprefsLim extractCandprefs
  simp only [exLoopLim_eq _ ht]
  apply bind_eq_of
  intro cps hcps
  obtain ⟨st, h1, h2⟩ := bind_ok.1 hcps
  cases h2
  have hs := exLoop_short ht h1 (fun e he => by cases he)
  apply bind_eq_of
  intro p1 hp1
  have s1 := prefLoop_short hp1 hs (by simp)
  rw [addRanksLim_eq s1]
  apply bind_eq_of
  intro p2 hp2
  have s2 := addRanks_short hp2 s1
  cases st.retval with
  | nil => rfl
  | cons e rest =>
    obtain ⟨c0, r0⟩ := e
    simp only
    cases hg : Dict.get? p2 c0 with
    | none => rfl
    | some p0 => simp only [addRanksLim_eq s2]

theorem processPreflineLim_eq {qty p : Str} (c : Option Str) (m : Jabmod) (hq : qty.length ≤ lim) (hp : ShortNumbers lim p) :
    processPreflineLim lim qty p c m = processPrefline qty p c m := by
  unfold processPreflineLim processPrefline
  rw [parsePrefstrLim_eq hp]
  cases hb : m.metadata.get? c!"ballotcount" with
  | none =>
    simp only
    unfold bumpBallotcount
    rw [hb]
    rfl
  | some j =>
    simp only
    rw [if_neg (by omega)]
    rfl

theorem readVote_parts {s qty p : Str} (h : readVote s = some (qty, p)) : qty <:+: s ∧ (∀ c ∈ qty, isDigit c = true) ∧ p <:+: s := by
  unfold readVote at h
  split at h
  · rename_i p' hd
    split at h
    · cases h
    · cases h
      refine ⟨(List.takeWhile_prefix _).isInfix, fun c hc => (takeWhile_mem hc).1, ?_⟩
      have : ':' :: p <:+ s := hd ▸ List.dropWhile_suffix _
      exact ((List.suffix_cons _ _).trans this).isInfix
  · cases h

theorem processLineLim_eq (cw sc : Bool) (i : Nat) {l : Str} (m : Jabmod) (hn : ∀ c ∈ l, c ≠ '\n') (hl : ShortNumbers lim l) :
    processLineLim lim cw sc i l m = processLine cw sc i l m := by
  have hi : (if cw = true then lstrip l else l) <:+: l := by
    split
    · exact lstrip_infix l
    · exact List.infix_refl l
  have hn' : ∀ c ∈ (if cw = true then lstrip l else l), c ≠ '\n' := fun c hc => hn c (hi.subset hc)
  unfold processLineLim processLine
  simp only [splitComment_eq _ hn']
  apply bind_eq_of
  intro m' _
  have hb : beforeHash (if cw = true then lstrip l else l) <:+: l := ((List.takeWhile_prefix _).isInfix).trans hi
  cases hv : matchVote (beforeHash (if cw = true then lstrip l else l)) with
  | none => rfl
  | some x =>
    obtain ⟨qty, p⟩ := x
    rw [matchVote_eq _ (fun c hc => hn c (hb.subset hc))] at hv
    obtain ⟨v1, v2, v3⟩ := readVote_parts hv
    have hq := hl _ (v1.trans hb) v2
    have hp := infix_short (v3.trans hb) hl
    cases matchCand (beforeHash (if cw = true then lstrip l else l)) with
    | some x => rfl
    | none =>
      cases matchMeta (beforeHash (if cw = true then lstrip l else l)) with
      | some x => rfl
      | none => exact processPreflineLim_eq _ _ hq hp

theorem processLinesLim_eq (cw sc : Bool) : ∀ (ls : List Str) (i : Nat) (m : Jabmod), (∀ l ∈ ls, (∀ c ∈ l, c ≠ '\n') ∧ ShortNumbers lim l) →
    processLinesLim lim cw sc i ls m = processLines cw sc i ls m
  | [], _, _, _ => rfl
  | l :: ls, i, m, h => by
    unfold processLinesLim processLines
    rw [processLineLim_eq cw sc i m (h l (by simp)).1 (h l (by simp)).2]
    apply bind_eq_of
    intro m' _
    exact processLinesLim_eq cw sc ls (i + 1) m' (fun x hx => h x (by simp [hx]))

/-- C109, numbers within the limit.  A text without a run of more than `lim` digits (4300 in CPython) is read exactly as without a limit. -/
theorem C109_short (lim : Nat) (cw ar sc : Bool) (text : Str) (h : ShortNumbers lim text) :
    convertAbifLim lim cw ar sc text = convertAbif cw ar sc text := by
  unfold convertAbifLim convertAbif
  split
  · rfl
  · rw [processLinesLim_eq cw sc _ _ _ (fun l hl => ⟨splitlines_noNewline text l hl, infix_short (splitlines_infix text l hl) h⟩)]

theorem processPreflineLim_long {qty p : Str} {c : Option Str} {m m' : Jabmod} (hq : lim < qty.length) : processPreflineLim lim qty p c m ≠ .ok m' := by
  intro h
  unfold processPreflineLim at h
  simp only at h
  split at h
  · cases h
  · rw [if_pos hq] at h
    cases h

theorem processLineLim_long (cw sc : Bool) (i : Nat) {l : Str} {m m' : Jabmod} (hn : ∀ c ∈ l, c ≠ '\n') {q p : Str} {c : Option Str}
    (hv : Spec.lineVote (if cw = true then lstrip l else l) = some (q, p, c)) (hq : lim < q.length) : processLineLim lim cw sc i l m ≠ .ok m' := by
  intro h
  have hi : (if cw = true then lstrip l else l) <:+: l := by
    split
    · exact lstrip_infix l
    · exact List.infix_refl l
  have hn' : ∀ c ∈ (if cw = true then lstrip l else l), c ≠ '\n' := fun c hc => hn c (hi.subset hc)
  unfold processLineLim at h
  simp only [splitComment_eq _ hn'] at h
  obtain ⟨m1, _, h⟩ := bind_ok.1 h
  unfold Spec.lineVote at hv
  obtain ⟨⟨q', p'⟩, hr, hv⟩ := Option.map_eq_some_iff.1 hv
  cases hv
  have hb : beforeHash (if cw = true then lstrip l else l) <:+: l := ((List.takeWhile_prefix _).isInfix).trans hi
  have hm : matchVote (beforeHash (if cw = true then lstrip l else l)) = some (q', p') := by
    rw [matchVote_eq _ (fun c hc => hn c (hb.subset hc))]; exact hr
  rw [matchCand_eq, readCand_none_of_vote hr, matchMeta_none_of_vote hr, hm] at h
  exact processPreflineLim_long hq h

theorem processLinesLim_long (cw sc : Bool) {q p : Str} {c : Option Str} (hq : lim < q.length) : ∀ (ls : List Str) (i : Nat) (m m' : Jabmod),
    (∀ l ∈ ls, ∀ c ∈ l, c ≠ '\n') → (q, p, c) ∈ (ls.map (fun l => if cw = true then lstrip l else l)).filterMap Spec.lineVote →
    processLinesLim lim cw sc i ls m ≠ .ok m'
  | [], _, _, _, _, h => by simp at h
  | l :: ls, i, m, m', hn, h => by
    intro h'
    unfold processLinesLim at h'
    obtain ⟨m1, h1, h2⟩ := bind_ok.1 h'
    rw [List.map_cons, List.filterMap_cons] at h
    have rest : (q, p, c) ∈ (ls.map (fun l => if cw = true then lstrip l else l)).filterMap Spec.lineVote → False :=
      fun h => processLinesLim_long cw sc hq ls (i + 1) m1 m' (fun x hx => hn x (by simp [hx])) h h2
    cases hv : Spec.lineVote (if cw = true then lstrip l else l) with
    | none =>
      rw [hv] at h
      exact rest h
    | some v =>
      rw [hv] at h
      rcases List.mem_cons.1 h with h | h
      · subst h
        exact processLineLim_long cw sc i (hn l (by simp)) hv hq h1
      · exact rest h

/-- C109, quantities beyond the limit.  A text which would otherwise be read is refused with a ValueError when the quantity of one of
its votelines has more than `lim` digits: no election is counted with a truncated or rounded quantity. -/
theorem C109_quantity (lim : Nat) (cw ar sc : Bool) (text : Str) {m : Jabmod} (hm : convertAbif cw ar sc text = .ok m)
    {q p : Str} {c : Option Str} (hv : (q, p, c) ∈ Spec.votesOf cw text) (hq : lim < q.length) :
    convertAbifLim lim cw ar sc text = .error .valueError := by
  rcases C109_refines lim cw ar sc text with h | h
  · exfalso
    rw [hm] at h
    unfold convertAbifLim at h
    split at h
    · cases h
    · obtain ⟨m1, h1, _⟩ := bind_ok.1 h
      exact processLinesLim_long cw sc hq _ _ _ _ (splitlines_noNewline text) hv h1
  · exact h

end

section
attribute [local instance] Uni.ascii
set_option maxRecDepth 20000

/-- a text with a number of three digits -/
def longText : Str := c!"101: A/5 > B/3\n7: B/4 > A/1\n"

/-- C109's hypotheses are met: with a limit of three digits the text is read as without a limit, with a limit of two digits
its first voteline is refused -/
example : (Spec.votesOf true longText).map Prod.fst = [c!"101", c!"7"] := by decide +kernel
example : (match convertAbif true false true longText with | .ok m => m.votelines.map Voteline.qty | .error _ => []) = [101, 7] := by decide +kernel
example : (match convertAbifLim 3 true false true longText with | .ok m => m.votelines.map Voteline.qty | .error _ => []) = [101, 7] := by decide +kernel
example : (match convertAbifLim 2 true false true longText with | .ok _ => false | .error e => e == .valueError) = true := by decide +kernel

/-- a rating beyond the limit is refused too, inside or outside of brackets and quotes -/
example : (match convertAbifLim 2 true false true c!"1: A/500 > B/3\n" with | .ok _ => false | .error e => e == .valueError) = true := by
  decide +kernel
example : (match convertAbifLim 2 true false true c!"1: [A b]/500 > B/3\n" with | .ok _ => false | .error e => e == .valueError) = true := by
  decide +kernel
example : (match convertAbifLim 2 true false true c!"1: \"A b\"/500 > B/3\n" with | .ok _ => false | .error e => e == .valueError) = true := by
  decide +kernel
/-- digits in names and comments are not numbers -/
example : (match convertAbifLim 2 true false true c!"1: A12345 > B # 12345\n" with | .ok m => m.votelines.length | .error _ => 0) = 1 := by
  decide +kernel
end

end Verif.Props
