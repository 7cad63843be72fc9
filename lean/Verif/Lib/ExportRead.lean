/-
Helper lemmas: reading back the line that export prints for a ballot.
-/
import Verif.Lib.Export

set_option linter.unusedSimpArgs false
set_option linter.unusedSectionVars false

namespace Verif
open Spec
variable [U : Uni]

/-! ### ranks of a printed list -/

theorem adj_count_zero {α : Type} (key : α → Int) (a : α) (l : List α)
    (hs : (a :: l).Pairwise (fun x y => key x ≤ key y)) (j : Nat) (hj : j < (a :: l).length) :
    ((adjDelims key (a :: l)).take j).count '>' = 0 ↔ key (a :: l)[j] = key a := by
  induction l generalizing a j with
  | nil =>
    have : j = 0 := by simp at hj; exact hj
    subst this; simp
  | cons b l ih =>
    cases j with
    | zero => simp
    | succ j =>
      simp only [adjDelims, List.take_succ_cons, List.count_cons, List.getElem_cons_succ]
      have hs2 := (List.pairwise_cons.1 hs).2
      have hle : key a ≤ key b := (List.pairwise_cons.1 hs).1 b (by simp)
      have hj' : j < (b :: l).length := by simpa using hj
      have hi := ih b hs2 j hj'
      have hbj : key b ≤ key (b :: l)[j] := by
        cases j with
        | zero => simp
        | succ j => exact (List.pairwise_cons.1 hs2).1 _ (by simp)
      by_cases h : key b = key a
      · rw [if_pos h]
        simp only [Nat.reduceEqDiff, beq_iff_eq, Char.reduceEq, if_false, Nat.add_zero]
        rw [hi, h]
      · rw [if_neg h]
        simp only [beq_self_eq_true, if_true]
        constructor
        · intro hc; omega
        · intro hc; omega

theorem adj_count_lt {α : Type} (key : α → Int) (l : List α)
    (hs : l.Pairwise (fun x y => key x ≤ key y)) (i j : Nat) (hi : i < l.length) (hj : j < l.length) :
    (((adjDelims key l).take i).count '>' < ((adjDelims key l).take j).count '>' ↔ key l[i] < key l[j]) := by
  induction l generalizing i j with
  | nil => simp at hi
  | cons a l ih =>
    cases l with
    | nil =>
      have h1 : i = 0 := by simpa using hi
      have h2 : j = 0 := by simpa using hj
      subst h1; subst h2; simp
    | cons b l =>
      have hs2 := (List.pairwise_cons.1 hs).2
      have hge : ∀ k (hk : k < (a :: b :: l).length), key a ≤ key (a :: b :: l)[k] := by
        intro k hk
        cases k with
        | zero => simp
        | succ k => exact (List.pairwise_cons.1 hs).1 _ (by simp)
      cases i with
      | zero =>
        have := adj_count_zero key a (b :: l) hs j hj
        have hg := hge j hj
        simp only [List.take_zero, List.count_nil, List.getElem_cons_zero]
        constructor
        · intro h
          have : key (a :: b :: l)[j] ≠ key a := fun h' => by rw [← this] at h'; omega
          omega
        · intro h
          have : ¬ ((adjDelims key (a :: b :: l)).take j).count '>' = 0 := fun h' => by rw [this] at h'; omega
          omega
      | succ i =>
        cases j with
        | zero =>
          have := hge (i + 1) hi
          simp only [List.take_zero, List.count_nil, List.getElem_cons_zero, Nat.not_lt_zero, false_iff]
          omega
        | succ j =>
          have := ih hs2 i j (by simpa using hi) (by simpa using hj)
          simp only [adjDelims, List.take_succ_cons, List.count_cons, List.getElem_cons_succ]
          rw [Nat.add_lt_add_iff_right]
          exact this

/-! ### both branches print a sorted list -/

/-- negating the key changes no delimiter -/
theorem printTail_map {α β : Type} (g : α → β) (key : β → Int) (key' : α → Int) (item : β → Str) (item' : α → Str)
    (hk : ∀ a, key' a = - key (g a)) (l : List α) (hi : ∀ a ∈ l, item' a = item (g a)) (k : Int) :
    printTail key item k (l.map g) = printTail key' item' (-k) l := by
  induction l generalizing k with
  | nil => rfl
  | cons a l ih =>
    simp only [List.map_cons, printTail]
    rw [ih (fun x hx => hi x (by simp [hx])), hi a (by simp), hk a]
    congr 1
    by_cases h : key (g a) = k
    · rw [if_pos h, if_pos (by omega)]
    · rw [if_neg h, if_neg (by omega)]

theorem ratedLe_totalPre : TotalPre ratedLe where
  total a b := by
    unfold ratedLe
    by_cases h1 : b.2.2 < a.2.2
    · simp [h1]
    · by_cases h2 : a.2.2 < b.2.2
      · simp [h2]
      · simp only [h1, h2, if_false]; exact strLe_total _ _
  trans a b c h1 h2 := by
    unfold ratedLe at h1 h2 ⊢
    split at h1
    · split at h2
      · rw [if_pos (by omega)]
      · split at h2
        · cases h2
        · rw [if_pos (by omega)]
    · split at h1
      · cases h1
      · split at h2
        · rw [if_pos (by omega)]
        · split at h2
          · cases h2
          · rw [if_neg (by omega), if_neg (by omega)]
            exact strLe_trans _ _ _ h1 h2

/-- the item of an entry -/
def entryItem (e : Str × Pref) : Item := exItem e.1 e.2.rating

theorem rated_strict {r : Option RVal} (hp : PlainRating r) (h1 : r ≠ none) (h2 : r ≠ some .null) :
    ratingIntStrict r = .ok (r.getD .null, ratingNumber r) := by
  match r with
  | none => exact absurd rfl h1
  | some .null => exact absurd rfl h2
  | some (.int i) => rfl
  | some (.str s) =>
    show (pyIntOfStr s >>= fun i => Except.ok (RVal.str s, i)) = _
    rw [pyInt_digits hp.1 hp.2]; rfl

theorem unrated_strict {r : Option RVal} (h : ¬ (r ≠ none ∧ r ≠ some .null)) : ratingIntStrict r = .error .typeError := by
  match r with
  | none => rfl
  | some .null => rfl
  | some (.int i) => exact absurd ⟨by simp, by simp⟩ h
  | some (.str s) => exact absurd ⟨by simp, by simp⟩ h

theorem mapM_error {ε α β : Type} {f : α → Except ε β} {e : ε} {l : List α} (h : ∀ a ∈ l, (∃ b, f a = .ok b) ∨ f a = .error e)
    (hex : ∃ a ∈ l, f a = .error e) : l.mapM f = .error e := by
  induction l with
  | nil => obtain ⟨a, ha, _⟩ := hex; simp at ha
  | cons a l ih =>
    rw [List.mapM_cons]
    rcases h a (by simp) with ⟨b, hb⟩ | he
    · rw [hb, ok_bind, ih (fun x hx => h x (by simp [hx])) ?_]
      · rfl
      · obtain ⟨x, hx, hxe⟩ := hex
        rcases List.mem_cons.1 hx with rfl | hx
        · rw [hb] at hxe; cases hxe
        · exact ⟨x, hx, hxe⟩
    · rw [he]; rfl

/-- what the exporter sorts a fully rated ballot by -/
def rateKey (kp : Str × Pref) : Str × RVal × Int := (kp.1, kp.2.rating.getD .null, ratingNumber kp.2.rating)

/-- What the exporter prints for a nonempty ballot: its candidates sorted by rating (highest first) if all
are rated, by rank otherwise. -/
theorem prefstr_order {prefs : Dict Str Pref} (hne : prefs ≠ [])
    (hrank : ∀ e ∈ prefs, ∃ r, e.2.rank = some r) (hrat : ∀ e ∈ prefs, PlainRating e.2.rating) :
    ∃ (L : List (Str × Pref)) (key : Str × Pref → Int), L.Perm prefs ∧ L.Pairwise (fun a b => key a ≤ key b) ∧
      prefstrOfPrefs prefs = .ok (writeItems (L.map entryItem) (adjDelims key L)) ∧
      ((∀ e ∈ prefs, Rated e.2) → ∀ e ∈ prefs, key e = - ratingNumber e.2.rating) ∧
      (¬ (∀ e ∈ prefs, Rated e.2) → ∀ e ∈ prefs, e.2.rank = some (key e)) ∧
      ((∀ e ∈ prefs, Rated e.2) → L = pySort (fun a b => ratedLe (rateKey a) (rateKey b)) prefs) ∧
      (¬ (∀ e ∈ prefs, Rated e.2) → L = sortByKey key prefs) := by
  by_cases hall : ∀ e ∈ prefs, Rated e.2
  · let g : Str × Pref → Str × RVal × Int := rateKey
    have hitems : ratedItems prefs = .ok (prefs.map g) := by
      unfold ratedItems
      apply mapM_eq_map
      intro e he
      rw [rated_strict (hrat e he) (hall e he).1 (hall e he).2]
      rfl
    let le : Str × Pref → Str × Pref → Bool := fun a b => ratedLe (g a) (g b)
    let key : Str × Pref → Int := fun e => - ratingNumber e.2.rating
    have hmap : pySort ratedLe (prefs.map g) = (pySort le prefs).map g := pySort_map g le ratedLe (fun _ _ => rfl) prefs
    have hperm : (pySort le prefs).Perm prefs := pySort_perm le prefs
    have hsort : (pySort le prefs).Pairwise (fun a b => key a ≤ key b) := by
      have hp : TotalPre le := ⟨fun a b => ratedLe_totalPre.total _ _, fun a b c => ratedLe_totalPre.trans _ _ _⟩
      refine (pySort_sorted hp prefs).imp ?_
      intro a b hab
      have hab : ratedLe (g a) (g b) = true := hab
      unfold ratedLe at hab
      simp only [g, key, rateKey] at hab ⊢
      split at hab
      · omega
      · split at hab
        · cases hab
        · omega
    refine ⟨pySort le prefs, key, hperm, hsort, ?_, fun _ e _ => rfl, fun h => absurd hall h, fun _ => rfl, fun h => absurd hall h⟩
    unfold prefstrOfPrefs
    rw [hitems]
    simp only
    rw [hmap]
    have hitem : ∀ e ∈ pySort le prefs, (entryItem e).text = tierItem ((g e).1, (g e).2.1) := by
      intro e he
      have hr := hall e (hperm.mem_iff.1 he)
      unfold entryItem
      rw [exItem_text]
      unfold tierItem Item.ratingText
      simp only [g, rateKey]
      congr 1
      unfold exItem printedRating
      have h1 := hr.1
      have h2 := hr.2
      revert h1 h2
      match e.2.rating with
      | none => exact fun h1 _ => absurd rfl h1
      | some .null => exact fun _ h2 => absurd rfl h2
      | some (.int i) => exact fun _ _ => rfl
      | some (.str s) => exact fun _ _ => rfl
    cases hL : pySort le prefs with
    | nil =>
      rw [hL] at hperm
      exact absurd hperm.symm.eq_nil hne
    | cons x rest =>
      rw [hL] at hitem
      rw [List.map_cons, prefstrTiers_top, writeItems_tail]
      rw [printTail_map g (fun x => x.2.2) key (fun x => tierItem (x.1, x.2.1)) (fun x => (entryItem x).text) (fun a => rfl) rest
        (fun a ha => hitem a (by simp [ha]))]
      rw [hitem x (by simp)]
      rfl
  · let key : Str × Pref → Int := fun e => e.2.rank.getD 0
    have hkey : ∀ e ∈ prefs, e.2.rank = some (key e) := by
      intro e he
      obtain ⟨r, hr⟩ := hrank e he
      simp [key, hr]
    have hitems : ratedItems prefs = .error .typeError := by
      unfold ratedItems
      apply mapM_error
      · intro e he
        by_cases hr : Rated e.2
        · left; rw [rated_strict (hrat e he) hr.1 hr.2]; exact ⟨_, rfl⟩
        · right; rw [unrated_strict hr]; rfl
      · have : ∃ e ∈ prefs, ¬ Rated e.2 := by
          by_contra h
          apply hall
          intro e he
          by_contra hr
          exact h ⟨e, he, hr⟩
        obtain ⟨e, he, hr⟩ := this
        exact ⟨e, he, by rw [unrated_strict hr]; rfl⟩
    have hsorted : sortByRank prefs = .ok ((sortByKey Prod.fst (prefs.map (fun e => (key e, e)))).map Prod.snd) := by
      unfold sortByRank
      rw [mapM_eq_map _ (fun e => (key e, e)) prefs (by intro e he; rw [hkey e he])]
      rfl
    have hmap : sortByKey Prod.fst (prefs.map (fun e => (key e, e))) = (sortByKey key prefs).map (fun e => (key e, e)) :=
      pySort_map _ _ _ (fun _ _ => rfl) prefs
    have hL : (sortByKey Prod.fst (prefs.map (fun e => (key e, e)))).map Prod.snd = sortByKey key prefs := by
      rw [hmap, List.map_map]
      simp [Function.comp_def]
    rw [hL] at hsorted
    have hperm := sortByKey_perm key prefs
    refine ⟨sortByKey key prefs, key, hperm, sortByKey_sorted key prefs, ?_, fun h => absurd h hall, fun _ => hkey, fun h => absurd h hall, fun _ => rfl⟩
    unfold prefstrOfPrefs
    rw [hitems]
    simp only
    rw [hsorted, ok_bind]
    apply prefstrRanked_eq
    · intro h; rw [h] at hperm; exact hne hperm.symm.eq_nil
    · intro e he; exact hkey e (hperm.mem_iff.1 he)
    · exact sortByKey_sorted key prefs

theorem prefstr_printed {prefs : Dict Str Pref} (hne : prefs ≠ [])
    (hrank : ∀ e ∈ prefs, ∃ r, e.2.rank = some r) (hrat : ∀ e ∈ prefs, PlainRating e.2.rating) :
    ∃ (L : List (Str × Pref)) (key : Str × Pref → Int), L.Perm prefs ∧ L.Pairwise (fun a b => key a ≤ key b) ∧
      prefstrOfPrefs prefs = .ok (writeItems (L.map entryItem) (adjDelims key L)) ∧
      ((∀ e ∈ prefs, Rated e.2) → ∀ e ∈ prefs, key e = - ratingNumber e.2.rating) ∧
      (¬ (∀ e ∈ prefs, Rated e.2) → ∀ e ∈ prefs, e.2.rank = some (key e)) := by
  obtain ⟨L, key, h1, h2, h3, h4, h5, _, _⟩ := prefstr_order hne hrank hrat
  exact ⟨L, key, h1, h2, h3, h4, h5⟩

/-! ### characters of the printed line -/

theorem mem_writeItems {its : List Item} {ds : List Char} {c : Char} (h : c ∈ writeItems its ds) :
    (∃ it ∈ its, c ∈ it.text) ∨ c ∈ ds := by
  induction its generalizing ds with
  | nil => simp [writeItems] at h
  | cons it its ih =>
    cases its with
    | nil => simp [writeItems] at h; exact .inl ⟨it, by simp, h⟩
    | cons it2 its =>
      cases ds with
      | nil => simp [writeItems] at h; exact .inl ⟨it, by simp, h⟩
      | cons d ds =>
        rw [writeItems] at h
        · rcases List.mem_append.1 h with h | h
          · exact .inl ⟨it, by simp, h⟩
          · rcases List.mem_cons.1 h with rfl | h
            · exact .inr (by simp)
            · rcases ih h with ⟨x, hx, hc⟩ | hc
              · exact .inl ⟨x, by simp [List.mem_cons] at hx ⊢; tauto, hc⟩
              · exact .inr (by simp [hc])
        · simp

theorem digit_ne_hash {c : Char} (h : isDigit c = true) : c ≠ '#' := by
  rintro rfl; rw [digit_ascii (by decide) (by decide)] at h; cases h

theorem lineBreak_space {c : Char} (h : isLineBreak c = true) : isSpace c = true := by
  unfold isLineBreak at h
  unfold isSpace
  simp only [Bool.or_eq_true, Bool.and_eq_true, decide_eq_true_eq, beq_iff_eq] at h ⊢
  omega

theorem digit_not_break {c : Char} (h : isDigit c = true) : isLineBreak c = false := by
  cases hb : isLineBreak c with
  | false => rfl
  | true =>
    have := lineBreak_space hb
    rw [digit_not_space h] at this; cases this

/-- a character that may occur on a printed line -/
def lineChar (c : Char) : Prop := c ≠ '#' ∧ isLineBreak c = false

theorem lineChar_item {e : Str × Pref} (ht : Printable e.1) (hr : PlainRating e.2.rating) :
    ∀ c ∈ (entryItem e).text, lineChar c := by
  intro c hc
  unfold entryItem at hc
  rw [exItem_text] at hc
  have htok : ∀ c ∈ e.1, lineChar c := fun c hc => ⟨fun h => ht.2.2.1 (h ▸ hc), ht.2.2.2.1 c hc⟩
  rcases List.mem_append.1 hc with hc | hc
  · unfold tokenQuote at hc
    split at hc
    · exact htok c hc
    · simp only [List.mem_cons, List.mem_append, List.not_mem_nil, or_false] at hc
      rcases hc with rfl | hc | rfl
      · exact ⟨by decide, by decide⟩
      · exact htok c hc
      · exact ⟨by decide, by decide⟩
  · unfold Item.ratingText at hc
    split at hc
    · rename_i ds hds
      obtain ⟨_, hd, _⟩ := printedRating_digits hr hds
      rcases List.mem_cons.1 hc with rfl | hc
      · exact ⟨by decide, by decide⟩
      · exact ⟨digit_ne_hash (hd c hc), digit_not_break (hd c hc)⟩
    · simp at hc

/-! ### the whole line -/

theorem readVote_printed {q p : Str} (hne : q ≠ []) (hq : ∀ c ∈ q, isDigit c = true) : readVote (q ++ ':' :: p) = some (q, p) := by
  unfold readVote
  rw [dropWhile_append_of_all hq]
  have h1 : List.dropWhile isDigit (':' :: p) = ':' :: p := by
    rw [List.dropWhile_cons, if_neg (by simp [isDigit_colon])]
  have h2 : List.takeWhile isDigit (q ++ ':' :: p) = q := by
    rw [List.takeWhile_append_of_pos hq, List.takeWhile_cons, if_neg (by simp [isDigit_colon])]; simp
  rw [h1, h2]
  simp [hne]

theorem parsePrefstr_nil : parsePrefstr [] = .ok ([], []) := by
  rfl

theorem printedBefore_rated {q : Dict Str Pref} (hall : ∀ (e : Str × Pref), e ∈ q → Rated e.2) (f g : Pref) :
    PrintedBefore q f g ↔ ratingNumber g.rating < ratingNumber f.rating := by
  unfold PrintedBefore
  constructor
  · rintro (h | h)
    · exact h.2
    · exact absurd hall h.1
  · intro h; exact .inl ⟨hall, h⟩

theorem printedBefore_ranked {q : Dict Str Pref} (hall : ¬ ∀ (e : Str × Pref), e ∈ q → Rated e.2) {f g : Pref} {r s : Int}
    (hf : f.rank = some r) (hg : g.rank = some s) : PrintedBefore q f g ↔ r < s := by
  unfold PrintedBefore
  constructor
  · rintro (h | ⟨_, r', s', h1, h2, h3⟩)
    · exact absurd h.1 hall
    · rw [hf] at h1; rw [hg] at h2; cases h1; cases h2; exact h3
  · intro h; exact .inr ⟨hall, r, s, hf, hg, h⟩

/-- a reranked ballot says the same when the ranks follow the ratings -/
theorem Spec.Reranked.same {p q : Dict Str Pref} (h : Reranked p q) (hf : RanksFollowRatings q) : SameBallot p q := by
  refine ⟨h.cands, ?_, h.ranked, h.ratings⟩
  intro a b ra rb sa sb h1 h2 h3 h4
  obtain ⟨fa, hfa, h3⟩ := Option.bind_eq_some_iff.1 h3
  obtain ⟨fb, hfb, h4⟩ := Option.bind_eq_some_iff.1 h4
  rw [h.order a b fa fb ra rb hfa hfb h1 h2]
  by_cases hall : ∀ e ∈ q, Rated e.2
  · rw [hf hall _ _ (Dict.mem_of_get? hfa) (Dict.mem_of_get? hfb) sa sb h3 h4, printedBefore_rated hall]
  · exact printedBefore_ranked hall h3 h4

/-- ... and only then -/
theorem Spec.Reranked.follows {p q : Dict Str Pref} (h : Reranked p q) (hw : Dict.WF q) (hs : SameBallot p q) :
    RanksFollowRatings q := by
  rintro hall ⟨a, fa⟩ ⟨b, fb⟩ ha hb ra rb h1 h2
  have ga := Dict.get?_of_mem hw ha
  have gb := Dict.get?_of_mem hw hb
  have hr : ∀ (x : Str) (f : Pref) (r : Int), Dict.get? q x = some f → f.rank = some r → ∃ s, (Dict.get? p x).bind Pref.rank = some s := by
    intro x f r hx hf
    have := h.ranked x
    rw [hx] at this
    simp only [Option.bind_some, hf, Option.isSome_some] at this
    exact Option.isSome_iff_exists.1 this
  obtain ⟨sa, hsa⟩ := hr a fa ra ga h1
  obtain ⟨sb, hsb⟩ := hr b fb rb gb h2
  rw [← hs.order a b sa sb ra rb hsa hsb (by rw [ga]; exact h1) (by rw [gb]; exact h2), h.order a b fa fb sa sb ga gb hsa hsb]
  exact printedBefore_rated hall _ _

/-- Everything about the line printed for an exportable ballot. -/
theorem votelineStr_reads {vl : Voteline} (h : Exportable vl) :
    ∃ (prefstr : Str) (prefs' : Dict Str Pref),
      votelineStr vl = .ok ((natStr vl.qty.toNat ++ ':' :: prefstr) ++ ['\n']) ∧
      (∀ c ∈ natStr vl.qty.toNat ++ ':' :: prefstr, lineChar c) ∧
      readVote (natStr vl.qty.toNat ++ ':' :: prefstr) = some (natStr vl.qty.toNat, prefstr) ∧
      parsePrefstr prefstr = .ok (prefs', Dict.keys prefs') ∧
      (Dict.keys prefs').Perm (Dict.keys vl.prefs) ∧
      (∀ (a : Str) (e f : Pref), Dict.get? prefs' a = some e → Dict.get? vl.prefs a = some f →
        ratingNumber e.rating = ratingNumber f.rating) ∧
      Reranked prefs' vl.prefs := by
  obtain ⟨q1, q2, q3⟩ := natStr_spec vl.qty.toNat
  have hqc : ∀ c ∈ natStr vl.qty.toNat, lineChar c := fun c hc => ⟨digit_ne_hash (q2 c hc), digit_not_break (q2 c hc)⟩
  by_cases hne : vl.prefs = []
  · refine ⟨[], [], ?_, ?_, readVote_printed q1 q2, parsePrefstr_nil, by rw [hne], ?_, ?_⟩
    · unfold votelineStr
      rw [hne]
      rw [intStr_nonneg h.qty]
      rw [show prefstrOfPrefs [] = .ok [] from rfl, ok_bind]; simp
    · intro c hc
      rcases List.mem_append.1 hc with hc | hc
      · exact hqc c hc
      · simp at hc; subst hc; exact ⟨by decide, by decide⟩
    · intro a e f he; cases he
    · rw [hne]
      exact ⟨.refl _, fun a b f g ra rb h => (by cases h), fun a => rfl, fun a e f he => (by cases he)⟩
  · obtain ⟨L, key, hperm, hsort, hprint, hk1, hk2⟩ := prefstr_printed hne h.ranked h.ratings
    have hmem : ∀ e ∈ L, e ∈ vl.prefs := fun e he => hperm.mem_iff.1 he
    have hkeys : ∀ e ∈ vl.prefs, e.1 ∈ Dict.keys vl.prefs := fun e he => List.mem_map_of_mem he
    have hok : ∀ it ∈ L.map entryItem, it.Ok := by
      intro it hit
      obtain ⟨e, he, rfl⟩ := List.mem_map.1 hit
      exact exItem_ok (h.tokens _ (hkeys e (hmem e he))) (h.ratings e (hmem e he))
    have hd : ∀ d ∈ adjDelims key L, d = '>' ∨ d = '=' ∨ d = ',' := by
      intro d hd
      rcases adjDelims_mem key L d hd with h | h <;> simp [h]
    have hLne : L ≠ [] := by rintro rfl; exact hne hperm.symm.eq_nil
    have hlen : (adjDelims key L).length + 1 = (L.map entryItem).length := by
      cases L with
      | nil => exact absurd rfl hLne
      | cons a l => rw [adjDelims_length]; simp
    have htoks : (L.map entryItem).map Item.tok = Dict.keys L := by
      rw [List.map_map]; rfl
    have hLwf : Dict.WF L := Dict.wf_perm hperm.symm h.wf
    have hnd : ((L.map entryItem).map Item.tok).Nodup := by rw [htoks]; exact hLwf
    have hparse := parsePrefstr_items hok hd hlen hnd
    generalize hp : (L.map entryItem).zipIdx.map (fun x => (x.1.tok, itemEntry (L.map entryItem) (adjDelims key L) x)) = prefs' at hparse
    have hkeys' : Dict.keys prefs' = Dict.keys L := by
      rw [← hp, ← htoks]
      unfold Dict.keys
      rw [List.map_map]
      apply List.ext_getElem (by simp)
      intro j h1 h2
      simp
    have hpl : prefs'.length = L.length := by rw [← hp]; simp
    have hfirst : (adjDelims key L).head? ≠ some ',' := by
      intro hc
      rcases adjDelims_mem key L _ (List.mem_of_head? hc) with h | h <;> cases h
    have hentry : ∀ j (hj : j < L.length), ∃ p, prefs'[j]? = some (L[j].1, p) ∧
        p.rank = some (1 + (((adjDelims key L).take j).count '>' : Nat)) ∧ p.rating = (entryItem L[j]).value := by
      intro j hj
      rw [← hp]
      rw [List.getElem?_map, List.getElem?_eq_getElem (by simpa using hj), List.getElem_zipIdx]
      refine ⟨itemEntry (L.map entryItem) (adjDelims key L) ((L.map entryItem)[j]'(by simpa using hj), 0 + j), ?_, ?_, ?_⟩
      · simp only [Option.map_some, List.getElem_map]; rfl
      · simp [itemEntry, itemRank, hfirst]
      · simp [itemEntry]
    have hwf' : Dict.WF prefs' := by unfold Dict.WF; rw [hkeys']; exact hLwf
    -- the entry of a candidate in both maps
    have hlook : ∀ (a : Str) (f : Pref), Dict.get? vl.prefs a = some f → ∃ (j : Nat) (hj : j < L.length) (p : Pref),
        L[j] = (a, f) ∧ Dict.get? prefs' a = some p ∧ p.rank = some (1 + (((adjDelims key L).take j).count '>' : Nat)) ∧
        p.rating = (entryItem L[j]).value := by
      intro a f hf
      have hm : (a, f) ∈ L := hperm.mem_iff.2 (Dict.mem_of_get? hf)
      obtain ⟨j, hj, hjl⟩ := List.mem_iff_getElem.1 hm
      obtain ⟨p, h1, h2, h3⟩ := hentry j hj
      refine ⟨j, hj, p, hjl, ?_, h2, h3⟩
      apply Dict.get?_of_mem hwf'
      have := List.mem_of_getElem? h1
      rwa [hjl] at this
    have hratings : ∀ (a : Str) (e f : Pref), Dict.get? prefs' a = some e → Dict.get? vl.prefs a = some f →
        ratingNumber e.rating = ratingNumber f.rating := by
      intro a e f he hf
      obtain ⟨j, hj, p, h1, h2, h3, h4⟩ := hlook a f hf
      rw [he] at h2; cases h2
      rw [h4, h1]
      exact exItem_value (h.ratings (a, f) (Dict.mem_of_get? hf))
    refine ⟨_, prefs', ?_, ?_, readVote_printed q1 q2, by rw [hkeys', ← htoks]; exact hparse, ?_, hratings, ?_⟩
    · unfold votelineStr
      rw [hprint, ok_bind, intStr_nonneg h.qty]
      simp
    · intro c hc
      rcases List.mem_append.1 hc with hc | hc
      · exact hqc c hc
      · rcases List.mem_cons.1 hc with rfl | hc
        · exact ⟨by decide, by decide⟩
        · rcases mem_writeItems hc with ⟨it, hit, hc⟩ | hc
          · obtain ⟨e, he, rfl⟩ := List.mem_map.1 hit
            exact lineChar_item (h.tokens _ (hkeys e (hmem e he))) (h.ratings e (hmem e he)) c hc
          · rcases adjDelims_mem key L c hc with rfl | rfl <;> exact ⟨by decide, by decide⟩
    · rw [hkeys']
      exact hperm.map _
    · refine ⟨by rw [hkeys']; exact hperm.map _, ?_, ?_, hratings⟩
      · intro a b fa fb ra rb hfa hfb h1 h2
        obtain ⟨i, hi, pa, i1, i2, i3, _⟩ := hlook a fa hfa
        obtain ⟨j, hj, pb, j1, j2, j3, _⟩ := hlook b fb hfb
        rw [i2] at h1
        rw [j2] at h2
        simp only [Option.bind_some] at h1 h2
        rw [i3] at h1; rw [j3] at h2
        cases h1; cases h2
        have hcount := adj_count_lt key L hsort i j hi hj
        rw [i1, j1] at hcount
        have hma := Dict.mem_of_get? hfa
        have hmb := Dict.mem_of_get? hfb
        have : (key (a, fa) < key (b, fb) ↔ PrintedBefore vl.prefs fa fb) := by
          by_cases hall : ∀ e ∈ vl.prefs, Rated e.2
          · rw [hk1 hall _ hma, hk1 hall _ hmb, printedBefore_rated hall]
            simp only
            omega
          · exact (printedBefore_ranked hall (hk2 hall _ hma) (hk2 hall _ hmb)).symm
        rw [← this, ← hcount]
        omega
      · intro a
        cases hf : Dict.get? vl.prefs a with
        | none =>
          have : Dict.get? prefs' a = none := by
            rw [Dict.get?_eq_none, hkeys'] 
            rw [Dict.get?_eq_none] at hf
            intro hm
            exact hf ((hperm.map Prod.fst).mem_iff.1 hm)
          rw [this]
        | some f =>
          obtain ⟨i, hi, p, i1, i2, i3, _⟩ := hlook a f hf
          obtain ⟨r, hr⟩ := h.ranked _ (Dict.mem_of_get? hf)
          simp only at hr
          rw [i2]
          simp [i3, hr]

end Verif
