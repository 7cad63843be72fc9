/-
C109: which numbers of a preference list the limit is about.
-/
import Verif.Props.IntLimit
import Verif.Spec.Prefstr

set_option linter.unusedSimpArgs false
set_option linter.unusedSectionVars false

namespace Verif.Props
open Verif Spec

section
variable [U : Uni] {lim : Nat}

theorem exLoopLim_append (s : ExSt) (a b : List Str) :
    exLoopLim lim s (a ++ b) = (exLoopLim lim s a >>= fun s' => exLoopLim lim s' b) := by
  induction a generalizing s with
  | nil => rfl
  | cons t a ih =>
    show (exStepLim lim s t >>= fun s' => exLoopLim lim s' (a ++ b)) = ((exStepLim lim s t >>= fun s' => exLoopLim lim s' a) >>= _)
    cases exStepLim lim s t with
    | error e => rfl
    | ok s' => exact ih s'

/-- the number of a token is within the limit -/
def NumberFits (lim : Nat) (s : ExSt) (t : Str) : Prop := ∀ ds, exNumber s t = some ds → ds.length ≤ lim

theorem exStepLim_fits {s : ExSt} {t : Str} (h : NumberFits lim s t) : exStepLim lim s t = exStep s t := by
  unfold exStepLim
  cases hn : exNumber s t with
  | none => rfl
  | some ds =>
    simp only
    rw [if_neg (by have := h ds hn; omega)]

theorem fits_of_rating {s : ExSt} {t : Str} (h : ∀ b ds, slashRating (strip t) = some (b, ds) → ds.length ≤ lim) : NumberFits lim s t := by
  intro ds hds
  unfold exNumber at hds
  split at hds
  · cases hds
  · split at hds
    · cases hds
    · split at hds
      · obtain ⟨⟨b, x⟩, hx, rfl⟩ := Option.map_eq_some_iff.1 hds
        exact h _ _ hx
      · cases hds

theorem fits_inside {s : ExSt} {t : Str} (h : s.inbrackets = true) : NumberFits lim s t := by
  intro ds hds
  unfold exNumber at hds
  rw [h] at hds
  cases hds

theorem fits_noslash {s : ExSt} {t : Str} (h : '/' ∉ t) : NumberFits lim s t := by
  apply fits_of_rating
  intro b ds hb
  rw [slashRating_none] at hb
  · cases hb
  · rintro ⟨a, x, hx, _⟩
    apply h
    apply (strip_infix t).subset
    rw [hx]; simp

theorem exLoopLim_inside {ps : List Str} : ∀ {s : ExSt}, s.inbrackets = true → (∀ t ∈ ps, CleanToken t) → (∀ t ∈ ps, t.head? ≠ some ']') →
    exLoopLim lim s ps = exLoop s ps := by
  induction ps with
  | nil => intro s _ _ _; rfl
  | cons t ps ih =>
    intro s h1 hc hh
    show (exStepLim lim s t >>= _) = (exStep s t >>= _)
    rw [exStepLim_fits (fits_inside h1), exStep_inside h1 (hc t (by simp)) (hh t (by simp)), ok_bind, ok_bind]
    exact ih (s := { s with quotetok := s.quotetok ++ t }) h1 (fun x hx => hc x (by simp [hx])) (fun x hx => hh x (by simp [hx]))

/-- the rating of an item within the limit, as far as the token loop is concerned: the rating after a quoted token stays a string -/
def FitsItem (lim : Nat) (it : Item) : Prop := it.style ≠ .quoted → ∀ ds, it.rating = some ds → ds.length ≤ lim

theorem quotedRated_written {t ds : Str} (hq : '"' ∉ t) (hne : ds ≠ []) (hd : ∀ c ∈ ds, isDigit c = true) :
    quotedRated ('"' :: (t ++ '"' :: '/' :: ds)) = some (t, ds) := by
  unfold quotedRated prefixMatch
  have hall : ∀ c ∈ t, (c != '"') = true := by
    intro c hc; simp; rintro rfl; exact hq hc
  rw [rmatch_star_greedy _ _ _ _ ([['"'], t, ['"'], ['/'], ds], [])]
  rw [List.dropWhile_cons, if_neg (by decide)]
  apply rmatch_one_ok _ _ _ _ _ ([t, ['"'], ['/'], ds], []) (by decide)
  have e1 : (t ++ '"' :: '/' :: ds).takeWhile (fun c => c != '"') = t := by
    rw [takeWhile_append_of_all hall]; simp
  have e2 : (t ++ '"' :: '/' :: ds).dropWhile (fun c => c != '"') = '"' :: '/' :: ds := by
    rw [dropWhile_append_of_all hall]; simp
  rw [rmatch_star_greedy _ _ _ _ ([['"'], ['/'], ds], []), e1]
  rw [e2]
  apply rmatch_one_ok _ _ _ _ _ ([['/'], ds], []) (by decide)
  apply rmatch_one_ok _ _ _ _ _ ([ds], []) (by decide)
  rw [rmatch_plus_greedy _ _ _ _ ([], []) (by rw [takeWhile_all hd]; exact hne), takeWhile_all hd]
  rw [dropWhile_all hd]; rfl

theorem space_ne_slash {c : Char} (h : isSpace c = true) : c ≠ '/' := by
  rintro rfl
  revert h
  decide

/-- the limit does not matter to an item whose rating is within it -/
theorem exLoopLim_item {s : ExSt} {it : Item} (h : it.Ok) (hf : FitsItem lim it) (h1 : s.inbrackets = false) (h2 : s.inquotes = false)
    (h3 : s.quotetok = []) : exLoopLim lim s (splitKeep isPrefSep it.text) = exLoop s (splitKeep isPrefSep it.text) := by
  rw [isPrefSep_eq]
  obtain ⟨hpre, hpost, hrat, hst⟩ := h
  have h := (⟨hpre, hpost, hrat, hst⟩ : it.Ok)
  have hnpre : ∀ c ∈ it.pre, isSepChar c = false := fun c hc => space_not_sep (hpre c hc)
  have hnpost : ∀ c ∈ it.post, isSepChar c = false := fun c hc => space_not_sep (hpost c hc)
  have hnr := ratingText_nosep h
  have one : (∀ c ∈ it.text, isSepChar c = false) → NumberFits lim s it.text →
      exLoopLim lim s (splitKeep isSepChar it.text) = exLoop s (splitKeep isSepChar it.text) := by
    intro hn hfit
    rw [splitKeep_none hn]
    show (exStepLim lim s _ >>= _) = (exStep s _ >>= _)
    rw [exStepLim_fits hfit]
    rfl
  obtain ⟨pre, style, tok, rating, post⟩ := it
  cases style with
  | bare =>
    obtain ⟨hct, hns, hslash⟩ := hst
    have htext : (Item.mk pre .bare tok rating post).text = pre ++ ((tok ++ (Item.mk pre .bare tok rating post).ratingText) ++ post) := by
      simp [Item.text, Item.tokText]
    apply one
    · intro c hc
      rw [htext] at hc
      simp only [List.mem_append] at hc
      rcases hc with hc | (hc | hc) | hc
      · exact hnpre c hc
      · exact hns c hc
      · exact hnr c hc
      · exact hnpost c hc
    · apply fits_of_rating
      intro b x hx
      cases rating with
      | none =>
        rw [show strip (Item.mk pre .bare tok none post).text = tok by
          rw [htext]
          simp only [Item.ratingText, List.append_nil]
          exact strip_pad hpre hpost hct.2.1, slashRating_none (hslash rfl)] at hx
        cases hx
      | some ds =>
        obtain ⟨hne, hd⟩ := hrat ds rfl
        rw [show strip (Item.mk pre .bare tok (some ds) post).text = tok ++ '/' :: ds by
          rw [htext]
          simp only [Item.ratingText]
          exact strip_pad hpre hpost (strip_rated hct.2.1 hct.1 hd hne), slashRating_rated hne hd] at hx
        cases hx
        exact hf (by intro hh; cases hh) _ rfl
  | quoted =>
    obtain ⟨hq, hns, hrr⟩ := hst
    cases rating with
    | none => exact absurd rfl hrr
    | some ds =>
      obtain ⟨hne, hd⟩ := hrat ds rfl
      have htext : (Item.mk pre .quoted tok (some ds) post).text = pre ++ (('"' :: (tok ++ '"' :: '/' :: ds)) ++ post) := by
        simp [Item.text, Item.tokText, Item.ratingText]
      apply one
      · intro c hc
        rw [htext] at hc
        simp only [List.mem_append, List.mem_cons] at hc
        rcases hc with hc | (rfl | hc | rfl | rfl | hc) | hc
        · exact hnpre c hc
        · decide
        · exact hns c hc
        · decide
        · decide
        · exact digit_not_sep (hd c hc)
        · exact hnpost c hc
      · have hs : strip (Item.mk pre .quoted tok (some ds) post).text = '"' :: (tok ++ '"' :: '/' :: ds) := by
          rw [htext]
          apply strip_pad hpre hpost
          have := strip_rated (t := '"' :: (tok ++ ['"'])) (ds := ds) (by
            rw [strip_eq_iff]
            refine ⟨by intro c hc; cases hc; decide, ?_⟩
            intro c hc
            rw [show '"' :: (tok ++ ['"']) = ('"' :: tok) ++ ['"'] by simp, List.getLast?_concat] at hc
            cases hc; decide) (by simp) hd hne
          simpa using this
        intro x hx
        unfold exNumber at hx
        rw [hs, quotedRated_written hq hne hd, h1, h2] at hx
        cases hx
  | bracket =>
    obtain ⟨hnb, hparts⟩ := hst
    have htext : (Item.mk pre .bracket tok rating post).text =
        pre ++ '[' :: (tok ++ ']' :: ((Item.mk pre .bracket tok rating post).ratingText ++ post)) := by
      simp [Item.text, Item.tokText]
    rw [htext, splitKeep_append (by decide), splitKeep_append (by decide), splitKeep_none hnpre,
      splitKeep_none (s := _ ++ post) (by
        intro c hc
        rcases List.mem_append.1 hc with hc | hc
        · exact hnr c hc
        · exact hnpost c hc)]
    simp only [List.cons_append, List.nil_append]
    show (exStepLim lim s pre >>= fun s' => exLoopLim lim s' _) = (exStep s pre >>= fun s' => exLoop s' _)
    rw [exStepLim_fits (fits_noslash (fun hc => space_ne_slash (hpre _ hc) rfl)), exStep_skip h1 h2 (.inl (strip_spaces hpre)), ok_bind, ok_bind]
    show (exStepLim lim s ['['] >>= fun s' => exLoopLim lim s' _) = (exStep s ['['] >>= fun s' => exLoop s' _)
    have hin : ∀ t ∈ splitKeep isSepChar tok, t.head? ≠ some ']' := by
      intro t ht hh
      apply hnb
      rw [← splitKeep_flatten isSepChar tok, List.mem_flatten]
      refine ⟨t, ht, ?_⟩
      cases t with
      | nil => cases hh
      | cons c u => cases hh; simp
    rw [exStepLim_fits (fits_noslash (by decide)), exStep_open h1 h2, ok_bind, ok_bind, exLoopLim_append, exLoop_append,
      exLoopLim_inside rfl hparts hin, exLoop_inside rfl hparts hin, ok_bind, ok_bind]
    show (exStepLim lim _ [']'] >>= fun s' => exLoopLim lim s' _) = (exStep _ [']'] >>= fun s' => exLoop s' _)
    rw [exStepLim_fits (fits_noslash (by decide)), exStep_close rfl, ok_bind, ok_bind]
    show (exStepLim lim _ _ >>= fun s' => exLoopLim lim s' []) = (exStep _ _ >>= fun s' => exLoop s' [])
    rw [exStepLim_fits]
    · rfl
    · cases rating with
      | none =>
        apply fits_noslash
        simp only [Item.ratingText, List.nil_append]
        exact fun hc => space_ne_slash (hpost _ hc) rfl
      | some ds =>
        obtain ⟨hne, hd⟩ := hrat ds rfl
        apply fits_of_rating
        intro b x hx
        have hs : strip ((Item.mk pre .bracket tok (some ds) post).ratingText ++ post) = [] ++ '/' :: ds := by
          simp only [Item.ratingText]
          have := strip_pad (w1 := []) (w2 := post) (s := '/' :: ds) (by simp) hpost (by
            rw [strip_eq_iff]
            refine ⟨by intro c hc; cases hc; decide, ?_⟩
            intro c hc
            obtain ⟨a, l, rfl⟩ : ∃ a l, ds = l ++ [a] := ⟨_, _, (List.dropLast_append_getLast hne).symm⟩
            rw [show '/' :: (l ++ [a]) = ('/' :: l) ++ [a] by simp, List.getLast?_concat] at hc
            cases hc
            exact digit_not_space (hd _ (by simp)))
          simpa using this
        rw [hs, slashRating_rated hne hd] at hx
        cases hx
        exact hf (by intro hh; cases hh) _ rfl

theorem exLoopLim_items {its : List Item} : ∀ {s : ExSt} {ds : List Char}, (∀ it ∈ its, it.Ok) → (∀ it ∈ its, FitsItem lim it) →
    (∀ d ∈ ds, d = '>' ∨ d = '=' ∨ d = ',') → ds.length + 1 = its.length →
    s.inbrackets = false → s.inquotes = false → s.quotetok = [] →
    exLoopLim lim s (splitKeep isPrefSep (writeItems its ds)) = exLoop s (splitKeep isPrefSep (writeItems its ds)) := by
  induction its with
  | nil => intro s ds _ _ _ hlen; simp at hlen
  | cons it its ih =>
    intro s ds h hf hd hlen h1 h2 h3
    cases its with
    | nil => exact exLoopLim_item (h it (by simp)) (hf it (by simp)) h1 h2 h3
    | cons it2 its =>
      cases ds with
      | nil => simp at hlen
      | cons d ds =>
        have hdd := hd d (by simp)
        have hsep : isPrefSep d = true := by rcases hdd with rfl | rfl | rfl <;> decide
        show exLoopLim lim s (splitKeep isPrefSep (it.text ++ d :: writeItems (it2 :: its) ds)) =
          exLoop s (splitKeep isPrefSep (it.text ++ d :: writeItems (it2 :: its) ds))
        rw [splitKeep_append hsep, exLoop_append, exLoopLim_append, exLoopLim_item (h it (by simp)) (hf it (by simp)) h1 h2 h3,
          exLoop_item (h it (by simp)) h1 h2 h3, ok_bind, ok_bind]
        show (exStepLim lim _ [d] >>= fun s' => exLoopLim lim s' _) = (exStep _ [d] >>= fun s' => exLoop s' _)
        rw [exStepLim_fits (fits_noslash (by rcases hdd with rfl | rfl | rfl <;> decide)),
          exStep_skip (tok := [d]) (by exact h1) (by exact h2) (by rcases hdd with rfl | rfl | rfl <;> decide), ok_bind, ok_bind]
        exact ih (s := { s with ccand := some it.tok, retval := s.retval ++ [(it.tok, rawValue it)] })
          (fun x hx => h x (by simp [hx])) (fun x hx => hf x (by simp [hx])) (fun x hx => hd x (by simp [hx])) (by simpa using hlen) h1 h2 h3

theorem rawValue_short {it : Item} (h : it.Ok) (hf : ∀ ds, it.rating = some ds → ds.length ≤ lim) : ShortRating lim (rawValue it) := by
  have hr := h.2.2.1
  unfold rawValue
  cases hq : it.rating with
  | none => trivial
  | some ds =>
    simp only
    cases it.style with
    | quoted => exact ⟨(hr ds hq).2, hf ds hq⟩
    | bare => trivial
    | bracket => trivial

/-- C109, ratings within the limit.  For a preference list of items only the ratings matter: when none of them has more than `lim` digits the list
is read as without a limit, no matter how many digits the candidates' tokens contain, in brackets or not. -/
theorem C109_items (lim : Nat) (its : List Item) (ds : List Char) (h : ∀ it ∈ its, it.Ok)
    (hd : ∀ d ∈ ds, d = '>' ∨ d = '=' ∨ d = ',') (hlen : ds.length + 1 = its.length)
    (hf : ∀ it ∈ its, ∀ r, it.rating = some r → r.length ≤ lim) :
    parsePrefstrLim lim (writeItems its ds) = parsePrefstr (writeItems its ds) := by
  obtain ⟨st, hst, hret⟩ := exLoop_items (s := {}) h hd hlen rfl rfl rfl
  have hl := exLoopLim_items (lim := lim) (s := {}) h (fun it hit _ => hf it hit) hd hlen rfl rfl rfl
  have hs : AllShort lim st.retval := by
    intro e he
    rw [hret] at he
    simp only [List.nil_append, List.mem_map] at he
    obtain ⟨it, hit, rfl⟩ := he
    exact rawValue_short (h it hit) (hf it hit)
  unfold parsePrefstrLim parsePrefstr extractCandprefsLim extractCandprefs
  rw [hl, hst]
  simp only [ok_bind]
  apply bind_eq_of
  intro p1 hp1
  have s1 := prefLoop_short hp1 hs (by simp)
  rw [addRanksLim_eq s1]
  apply bind_eq_of
  intro p2 hp2
  have s2 := addRanks_short hp2 s1
  cases st.retval with
  | nil => rfl
  | cons e rest =>
    obtain ⟨c0, r0⟩ := e
    simp only
    cases hg : Dict.get? p2 c0 with
    | none => rfl
    | some p0 => simp only [addRanksLim_eq s2]

/-! ### ratings beyond the limit -/

theorem exStepLim_long {s : ExSt} {t b ds : Str} (h1 : s.inbrackets = false) (h2 : s.inquotes = false)
    (hh : ∀ c, (strip t).head? = some c → isSpace c = false ∧ c ≠ '"' ∧ isSepChar c = false) (hne : strip t ≠ [])
    (hs : slashRating (strip t) = some (b, ds)) (hl : lim < ds.length) : exStepLim lim s t = .error .valueError := by
  have hn : exNumber s t = some ds := by
    unfold exNumber
    obtain ⟨q1, q2⟩ := quoted_none (t := strip t) (fun c hc => (hh c hc).1) (fun hc => (hh _ hc).2.1 rfl)
    rw [h1, h2, q1, q2, startsPlain_eq (fun c hc => (hh c hc).1), hs]
    cases hx : strip t with
    | nil => exact absurd hx hne
    | cons c u =>
      have := (hh c (by rw [hx]; rfl)).2.2
      simp [this]
  unfold exStepLim
  rw [hn]
  simp only
  rw [if_pos hl]

theorem exLoopLim_longItem {s : ExSt} {it : Item} (h : it.Ok) (hq : it.style ≠ .quoted) {r : Str} (hr : it.rating = some r) (hl : lim < r.length)
    (h1 : s.inbrackets = false) (h2 : s.inquotes = false) :
    exLoopLim lim s (splitKeep isPrefSep it.text) = .error .valueError := by
  rw [isPrefSep_eq]
  obtain ⟨hpre, hpost, hrat, hst⟩ := h
  have h := (⟨hpre, hpost, hrat, hst⟩ : it.Ok)
  have hnpre : ∀ c ∈ it.pre, isSepChar c = false := fun c hc => space_not_sep (hpre c hc)
  have hnpost : ∀ c ∈ it.post, isSepChar c = false := fun c hc => space_not_sep (hpost c hc)
  have hnr := ratingText_nosep h
  obtain ⟨pre, style, tok, rating, post⟩ := it
  cases hr
  obtain ⟨hne, hd⟩ := hrat r rfl
  cases style with
  | quoted => exact absurd rfl hq
  | bare =>
    obtain ⟨hct, hns, hslash⟩ := hst
    have htext : (Item.mk pre .bare tok (some r) post).text = pre ++ ((tok ++ (Item.mk pre .bare tok (some r) post).ratingText) ++ post) := by
      simp [Item.text, Item.tokText]
    rw [splitKeep_none (by
      intro c hc
      rw [htext] at hc
      simp only [List.mem_append] at hc
      rcases hc with hc | (hc | hc) | hc
      · exact hnpre c hc
      · exact hns c hc
      · exact hnr c hc
      · exact hnpost c hc)]
    have hs : strip (Item.mk pre .bare tok (some r) post).text = tok ++ '/' :: r := by
      rw [htext]
      simp only [Item.ratingText]
      exact strip_pad hpre hpost (strip_rated hct.2.1 hct.1 hd hne)
    show (exStepLim lim s _ >>= _) = _
    rw [exStepLim_long h1 h2 (b := tok) (ds := r) ?_ (by rw [hs]; simp) (by rw [hs]; exact slashRating_rated hne hd) hl]
    · rfl
    · rw [hs]
      intro c hc
      cases tok with
      | nil => exact absurd rfl hct.1
      | cons c' u =>
        cases hc
        refine ⟨(strip_eq_iff.1 hct.2.1).1 _ rfl, ?_, hns _ (by simp)⟩
        rintro rfl
        exact hct.2.2 rfl
  | bracket =>
    obtain ⟨hnb, hparts⟩ := hst
    have htext : (Item.mk pre .bracket tok (some r) post).text =
        pre ++ '[' :: (tok ++ ']' :: ((Item.mk pre .bracket tok (some r) post).ratingText ++ post)) := by
      simp [Item.text, Item.tokText]
    rw [htext, splitKeep_append (by decide), splitKeep_append (by decide), splitKeep_none hnpre,
      splitKeep_none (s := _ ++ post) (by
        intro c hc
        rcases List.mem_append.1 hc with hc | hc
        · exact hnr c hc
        · exact hnpost c hc)]
    simp only [List.cons_append, List.nil_append]
    show (exStepLim lim s pre >>= fun s' => exLoopLim lim s' _) = _
    rw [exStepLim_fits (fits_noslash (fun hc => space_ne_slash (hpre _ hc) rfl)), exStep_skip h1 h2 (.inl (strip_spaces hpre)), ok_bind]
    show (exStepLim lim s ['['] >>= fun s' => exLoopLim lim s' _) = _
    have hin : ∀ t ∈ splitKeep isSepChar tok, t.head? ≠ some ']' := by
      intro t ht hh
      apply hnb
      rw [← splitKeep_flatten isSepChar tok, List.mem_flatten]
      refine ⟨t, ht, ?_⟩
      cases t with
      | nil => cases hh
      | cons c u => cases hh; simp
    rw [exStepLim_fits (fits_noslash (by decide)), exStep_open h1 h2, ok_bind, exLoopLim_append,
      exLoopLim_inside rfl hparts hin, exLoop_inside rfl hparts hin, ok_bind]
    show (exStepLim lim _ [']'] >>= fun s' => exLoopLim lim s' _) = _
    rw [exStepLim_fits (fits_noslash (by decide)), exStep_close rfl, ok_bind]
    show (exStepLim lim _ _ >>= fun s' => exLoopLim lim s' []) = _
    have hs : strip ((Item.mk pre .bracket tok (some r) post).ratingText ++ post) = [] ++ '/' :: r := by
      simp only [Item.ratingText]
      have := strip_pad (w1 := []) (w2 := post) (s := '/' :: r) (by simp) hpost (by
        rw [strip_eq_iff]
        refine ⟨by intro c hc; cases hc; decide, ?_⟩
        intro c hc
        obtain ⟨a, l, rfl⟩ : ∃ a l, r = l ++ [a] := ⟨_, _, (List.dropLast_append_getLast hne).symm⟩
        rw [show '/' :: (l ++ [a]) = ('/' :: l) ++ [a] by simp, List.getLast?_concat] at hc
        cases hc
        exact digit_not_space (hd _ (by simp)))
      simpa using this
    rw [exStepLim_long (by rfl) (by exact h2) (b := []) (ds := r) ?_ (by rw [hs]; simp) (by rw [hs]; exact slashRating_rated hne hd) hl]
    · rfl
    · rw [hs]
      intro c hc
      cases hc
      exact ⟨by decide, by decide, by decide⟩

theorem exLoopLim_longItems {its : List Item} : ∀ {s : ExSt} {ds : List Char}, (∀ it ∈ its, it.Ok) →
    (∃ it ∈ its, it.style ≠ .quoted ∧ ∃ r, it.rating = some r ∧ lim < r.length) →
    (∀ d ∈ ds, d = '>' ∨ d = '=' ∨ d = ',') → ds.length + 1 = its.length →
    s.inbrackets = false → s.inquotes = false → s.quotetok = [] →
    exLoopLim lim s (splitKeep isPrefSep (writeItems its ds)) = .error .valueError := by
  induction its with
  | nil => intro s ds _ _ _ hlen; simp at hlen
  | cons it its ih =>
    intro s ds h hf hd hlen h1 h2 h3
    by_cases hit : it.style ≠ .quoted ∧ ∃ r, it.rating = some r ∧ lim < r.length
    · obtain ⟨hq, r, hr, hl⟩ := hit
      have := exLoopLim_longItem (s := s) (h it (by simp)) hq hr hl h1 h2
      cases its with
      | nil => exact this
      | cons it2 its =>
        cases ds with
        | nil => simp at hlen
        | cons d ds =>
          have hdd := hd d (by simp)
          have hsep : isPrefSep d = true := by rcases hdd with rfl | rfl | rfl <;> decide
          show exLoopLim lim s (splitKeep isPrefSep (it.text ++ d :: writeItems (it2 :: its) ds)) = _
          rw [splitKeep_append hsep, exLoopLim_append, this]
          rfl
    · have hfit : FitsItem lim it := by
        intro hq r hr
        by_contra hc
        exact hit ⟨hq, r, hr, by omega⟩
      cases its with
      | nil =>
        obtain ⟨x, hx, hx'⟩ := hf
        rw [List.mem_singleton] at hx
        subst hx
        exact absurd hx' hit
      | cons it2 its =>
        cases ds with
        | nil => simp at hlen
        | cons d ds =>
          have hdd := hd d (by simp)
          have hsep : isPrefSep d = true := by rcases hdd with rfl | rfl | rfl <;> decide
          show exLoopLim lim s (splitKeep isPrefSep (it.text ++ d :: writeItems (it2 :: its) ds)) = _
          rw [splitKeep_append hsep, exLoopLim_append, exLoopLim_item (h it (by simp)) hfit h1 h2 h3,
            exLoop_item (h it (by simp)) h1 h2 h3, ok_bind]
          show (exStepLim lim _ [d] >>= fun s' => exLoopLim lim s' _) = _
          rw [exStepLim_fits (fits_noslash (by rcases hdd with rfl | rfl | rfl <;> decide)),
            exStep_skip (tok := [d]) (by exact h1) (by exact h2) (by rcases hdd with rfl | rfl | rfl <;> decide), ok_bind]
          refine ih (s := { s with ccand := some it.tok, retval := s.retval ++ [(it.tok, rawValue it)] })
            (fun x hx => h x (by simp [hx])) ?_ (fun x hx => hd x (by simp [hx])) (by simpa using hlen) h1 h2 h3
          obtain ⟨x, hx, hx'⟩ := hf
          rcases List.mem_cons.1 hx with rfl | hx
          · exact absurd hx' hit
          · exact ⟨x, hx, hx'⟩

/-- C109, ratings beyond the limit.  A preference list in which a candidate (bare or in brackets) has a rating of more than `lim` digits
is refused with a ValueError. -/
theorem C109_rating (lim : Nat) (its : List Item) (ds : List Char) (h : ∀ it ∈ its, it.Ok)
    (hd : ∀ d ∈ ds, d = '>' ∨ d = '=' ∨ d = ',') (hlen : ds.length + 1 = its.length)
    {it : Item} (hit : it ∈ its) (hq : it.style ≠ .quoted) {r : Str} (hr : it.rating = some r) (hl : lim < r.length) :
    parsePrefstrLim lim (writeItems its ds) = .error .valueError := by
  unfold parsePrefstrLim extractCandprefsLim
  rw [exLoopLim_longItems (s := {}) h ⟨it, hit, hq, r, hr, hl⟩ hd hlen rfl rfl rfl]
  rfl

end

section
attribute [local instance] Uni.ascii
set_option maxRecDepth 20000

/-- items with long tokens and short ratings -/
def numberedItems : List Item :=
  [{ style := .bracket, tok := c!"Ward 12345/67", rating := some c!"42", post := c!" " }, { pre := c!" ", tok := c!"Q202411", rating := some c!"7" }]

/-- C109_items' hypotheses are met with a limit of two digits -/
example : writeItems numberedItems ['>'] = c!"[Ward 12345/67]/42 > Q202411/7" := by decide +kernel
example : (∀ it ∈ numberedItems, ∀ r, it.rating = some r → r.length ≤ 2) ∧ ['>'].length + 1 = numberedItems.length := by
  refine ⟨?_, rfl⟩
  intro it hit r hr
  simp only [numberedItems, List.mem_cons, List.not_mem_nil, or_false] at hit
  rcases hit with rfl | rfl <;> cases hr <;> decide
example : ∀ it ∈ numberedItems, it.Ok := by
  intro it hit
  simp only [numberedItems, List.mem_cons, List.not_mem_nil, or_false] at hit
  rcases hit with rfl | rfl
  · refine ⟨by simp, by intro c hc; simp at hc; subst hc; decide, ?_, ?_⟩
    · intro ds hds; cases hds; decide +kernel
    · refine ⟨by decide, ?_⟩
      intro part hp
      have : splitKeep isSepChar c!"Ward 12345/67" = [c!"Ward 12345/67"] := by decide +kernel
      simp only [this, List.mem_singleton] at hp
      subst hp
      exact ⟨by decide, by decide +kernel, by decide⟩
  · refine ⟨by intro c hc; simp at hc; subst hc; decide, by simp, ?_, ?_⟩
    · intro ds hds; cases hds; decide +kernel
    · refine ⟨⟨by decide, by decide +kernel, by decide⟩, by decide +kernel, ?_⟩
      intro hn; cases hn
/-- and with a limit of one digit C109_rating's are -/
example : (match parsePrefstrLim 1 (writeItems numberedItems ['>']) with | .ok _ => false | .error e => e == .valueError) = true := by decide +kernel
example : (match parsePrefstrLim 2 (writeItems numberedItems ['>']) with | .ok x => x.2.length | .error _ => 0) = 2 := by decide +kernel
end

end Verif.Props
