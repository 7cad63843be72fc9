/-
Properties of reading one preference string (C05-C07).  Vocabulary: `Verif.Spec.Prefstr`.
-/
import Verif.Lib.Quoted

set_option linter.unusedSectionVars false

namespace Verif.Props
open Spec
section
variable [U : Uni]

/-- C05.  A written list of distinct candidates whose first delimiter is `>` or `=` (or a single candidate)
is read as exactly those candidates, in that order; the `j`-th has rank one plus the number of `>` before
it, its rating as written, and the delimiter that follows it. -/
theorem C05_ranked (its : List Item) (ds : List Char) (h : ∀ it ∈ its, it.Ok)
    (hd : ∀ d ∈ ds, d = '>' ∨ d = '=' ∨ d = ',') (hlen : ds.length + 1 = its.length)
    (hnd : (its.map Item.tok).Nodup) (hfirst : ds.head? ≠ some ',') :
    ∃ prefs, parsePrefstr (writeItems its ds) = .ok (prefs, its.map Item.tok) ∧ prefs.length = its.length ∧
      ∀ j (hj : j < its.length),
        prefs[j]? = some (its[j].tok, {
          rank := some (1 + ((ds.take j).count '>' : Nat))
          rating := its[j].value
          nextdelim := ds[j]?.map (fun d => [d]) }) := by
  refine ⟨_, parsePrefstr_items h hd hlen hnd, by simp, ?_⟩
  intro j hj
  rw [List.getElem?_map, List.getElem?_eq_getElem (by simpa using hj), List.getElem_zipIdx]
  simp only [Option.map_some, itemEntry, itemRank, if_neg hfirst, Nat.zero_add]

/-- C06.  With `,` as the first delimiter, the rank of a candidate is the dense rank of its rating: one
plus the number of distinct higher ratings on the line, a missing rating counting as 0. -/
theorem C06_rated (its : List Item) (ds : List Char) (h : ∀ it ∈ its, it.Ok)
    (hd : ∀ d ∈ ds, d = '>' ∨ d = '=' ∨ d = ',') (hlen : ds.length + 1 = its.length)
    (hnd : (its.map Item.tok).Nodup) (hfirst : ds.head? = some ',') :
    ∃ prefs, parsePrefstr (writeItems its ds) = .ok (prefs, its.map Item.tok) ∧ prefs.length = its.length ∧
      ∀ j (hj : j < its.length),
        prefs[j]? = some (its[j].tok, {
          rank := some (denseRank (its.map Item.number) its[j].number)
          rating := its[j].value
          nextdelim := ds[j]?.map (fun d => [d]) }) := by
  refine ⟨_, parsePrefstr_items h hd hlen hnd, by simp, ?_⟩
  intro j hj
  rw [List.getElem?_map, List.getElem?_eq_getElem (by simpa using hj), List.getElem_zipIdx]
  simp only [Option.map_some, itemEntry, itemRank, if_pos hfirst, Nat.zero_add]

/-- C07, partial.  Writing rated candidates in double quotes instead of bare or in brackets (any of them,
anywhere) changes neither the candidates nor any rank, delimiter or rating number.
MISSING from C07: quoted candidates without a rating, for which it is false (`C07_refuted`; `C07_exact`
says what happens to them). -/
theorem C07_partial (its its' : List Item) (ds : List Char) (h : ∀ it ∈ its, it.Ok) (h' : ∀ it ∈ its', it.Ok)
    (hd : ∀ d ∈ ds, d = '>' ∨ d = '=' ∨ d = ',') (hlen : ds.length + 1 = its.length)
    (hnd : (its.map Item.tok).Nodup)
    (hsame : its.map (fun it => (it.tok, it.rating)) = its'.map (fun it => (it.tok, it.rating))) :
    ∃ prefs prefs' toks, parsePrefstr (writeItems its ds) = .ok (prefs, toks) ∧
      parsePrefstr (writeItems its' ds) = .ok (prefs', toks) ∧
      prefs.map (fun e => (e.1, e.2.rank, e.2.nextdelim, ratingInt e.2.rating)) =
        prefs'.map (fun e => (e.1, e.2.rank, e.2.nextdelim, ratingInt e.2.rating)) := by
  have htok : its.map Item.tok = its'.map Item.tok := by
    have := congrArg (List.map Prod.fst) hsame
    simpa [List.map_map, Function.comp_def] using this
  have hnum : its.map Item.number = its'.map Item.number := by
    have := congrArg (List.map (fun x : Str × Option Str => match x.2 with | none => (0 : Int) | some ds => digitsVal ds)) hsame
    rw [List.map_map, List.map_map] at this
    exact this
  have hl : its.length = its'.length := by simpa using congrArg List.length htok
  refine ⟨_, _, _, parsePrefstr_items h hd hlen hnd, htok ▸ parsePrefstr_items h' hd (by omega) (htok ▸ hnd), ?_⟩
  rw [List.map_map, List.map_map]
  apply List.ext_getElem (by simp [hl])
  intro j h1 h2
  simp only [List.length_map, List.length_zipIdx] at h1 h2
  simp only [List.getElem_map, List.getElem_zipIdx, Function.comp_apply, Nat.zero_add]
  have e1 : its[j].tok = its'[j].tok := by
    have := congrArg (fun l => l[j]?) htok
    simpa [List.getElem?_eq_getElem, h1, h2] using this
  have e2 : its[j].number = its'[j].number := by
    have := congrArg (fun l => l[j]?) hnum
    simpa [List.getElem?_eq_getElem, h1, h2] using this
  have r1 := rawValue_readable (h its[j] (List.getElem_mem h1))
  have r2 := rawValue_readable (h' its'[j] (List.getElem_mem h2))
  simp only [itemEntry]
  rw [← r1.2, ← r2.2, r1.1, r2.1, e1, e2]
  unfold itemRank
  rw [hnum, e2]

/-- C07, what the program does instead, for every voteline: it is read as if the quoted candidates without a
rating had not been written, with the delimiters dealt out in order to the candidates that are left (the last
delimiters, not those around the dropped candidates, are the ones ignored). -/
theorem C07_exact (its : List Item) (ds : List Char) (h : ∀ it ∈ its, it.Ok ∨ it.QuotedUnrated)
    (hd : ∀ d ∈ ds, d = '>' ∨ d = '=' ∨ d = ',') (hlen : ds.length + 1 = its.length) :
    parsePrefstr (writeItems its ds) =
      parsePrefstr (writeItems (its.filter Item.bareOrRated) (ds.take ((its.filter Item.bareOrRated).length - 1))) :=
  parsePrefstr_unrated h hd hlen

/-- C07_exact in terms of the ballot: the candidates are those that are not quoted without a rating; the
`j`-th of them has rank one plus the number of `>` among the first `j` delimiters of the line (for a line
starting with `,`: the dense rank of its rating among them). -/
theorem C07_ranks (its : List Item) (ds : List Char) (h : ∀ it ∈ its, it.Ok ∨ it.QuotedUnrated)
    (hd : ∀ d ∈ ds, d = '>' ∨ d = '=' ∨ d = ',') (hlen : ds.length + 1 = its.length)
    (kept : List Item) (hk : kept = its.filter Item.bareOrRated) (hnd : (kept.map Item.tok).Nodup) (hne : kept ≠ []) :
    ∃ prefs, parsePrefstr (writeItems its ds) = .ok (prefs, kept.map Item.tok) ∧ prefs.length = kept.length ∧
      ∀ j (hj : j < kept.length), ∃ p, prefs[j]? = some (kept[j].tok, p) ∧ p.rating = kept[j].value ∧
        p.rank = some (if ds.head? = some ',' then denseRank (kept.map Item.number) kept[j].number
          else 1 + ((ds.take j).count '>' : Nat)) := by
  have hok : ∀ it ∈ kept, it.Ok := by
    intro it hit
    rw [hk] at hit
    obtain ⟨hi, hb⟩ := List.mem_filter.1 hit
    rcases h it hi with h | h
    · exact h
    · rw [h.dropped] at hb; cases hb
  have hle : kept.length ≤ its.length := by rw [hk]; exact List.length_filter_le _ _
  have hpos : 0 < kept.length := List.length_pos_iff.2 hne
  have hl : (ds.take (kept.length - 1)).length + 1 = kept.length := by rw [List.length_take]; omega
  refine ⟨_, (C07_exact its ds h hd hlen).trans (by
    rw [← hk]
    exact parsePrefstr_items hok (fun d hd' => hd d (List.mem_of_mem_take hd')) hl hnd), by simp, ?_⟩
  intro j hj
  rw [List.getElem?_map, List.getElem?_eq_getElem (by simpa using hj), List.getElem_zipIdx]
  refine ⟨_, rfl, rfl, ?_⟩
  simp only [itemEntry, itemRank, Nat.zero_add, Option.some.injEq]
  have ht : (ds.take (kept.length - 1)).take j = ds.take j := by
    rw [List.take_take]; congr 1; omega
  rw [ht]
  by_cases h1 : kept.length = 1
  · obtain ⟨a, rfl⟩ := List.length_eq_one_iff.1 h1
    have hj0 : j = 0 := by simpa using hj
    subst hj0
    by_cases hc : ds.head? = some ','
    · simp [hc, denseRank, firsts]
    · simp [hc]
  · have : (ds.take (kept.length - 1)).head? = ds.head? := by
      cases ds with
      | nil => simp
      | cons d ds =>
        obtain ⟨n, hn⟩ : ∃ n, kept.length - 1 = n + 1 := ⟨kept.length - 2, by omega⟩
        rw [hn]; rfl
    rw [this]

/-- C07: a voteline is read with all its candidates exactly when none of them is quoted without a rating. -/
theorem C07_iff (its : List Item) (ds : List Char) (h : ∀ it ∈ its, it.Ok ∨ it.QuotedUnrated)
    (hd : ∀ d ∈ ds, d = '>' ∨ d = '=' ∨ d = ',') (hlen : ds.length + 1 = its.length)
    (hnd : (its.map Item.tok).Nodup) :
    (∃ prefs, parsePrefstr (writeItems its ds) = .ok (prefs, its.map Item.tok)) ↔ ∀ it ∈ its, it.Ok := by
  constructor
  · rintro ⟨prefs, hp⟩ it hit
    rcases h it hit with hok | hq
    · exact hok
    · exfalso
      have hlt : (its.filter Item.bareOrRated).length < its.length := by
        apply Nat.lt_of_le_of_ne (List.length_filter_le _ _)
        intro he
        have := List.length_filter_eq_length_iff.1 he it hit
        rw [hq.dropped] at this
        cases this
      by_cases hne : its.filter Item.bareOrRated = []
      · rw [C07_exact its ds h hd hlen, hne] at hp
        have he : its.map Item.tok = [] := (Prod.mk.inj (Except.ok.inj hp)).2.symm
        rw [List.map_eq_nil_iff] at he
        rw [he] at hit
        cases hit
      · obtain ⟨q, hq, _⟩ := C07_ranks its ds h hd hlen _ rfl (hnd.sublist (List.filter_sublist.map _)) hne
        rw [hq] at hp
        have := congrArg List.length (Prod.mk.inj (Except.ok.inj hp)).2
        simp only [List.length_map] at this
        omega
  · intro hok
    exact ⟨_, parsePrefstr_items hok hd hlen hnd⟩

end

section Examples
attribute [local instance] Uni.ascii
set_option maxRecDepth 20000

/-- C07 is false without a rating: the quoted candidate is dropped, and the delimiters are then attached to
the wrong candidates, so that `A="B">C` ranks A and C equal. -/
theorem C07_refuted :
    parsePrefstr c!"A>B>C" = .ok ([(c!"A", { rank := some 1, nextdelim := some c!">" }),
      (c!"B", { rank := some 2, nextdelim := some c!">" }), (c!"C", { rank := some 3 })], [c!"A", c!"B", c!"C"]) ∧
    parsePrefstr c!"A>\"B\">C" = .ok ([(c!"A", { rank := some 1, nextdelim := some c!">" }),
      (c!"C", { rank := some 2 })], [c!"A", c!"C"]) ∧
    parsePrefstr c!"A=\"B\">C" = .ok ([(c!"A", { rank := some 1, nextdelim := some c!"=" }),
      (c!"C", { rank := some 1 })], [c!"A", c!"C"]) := by
  refine ⟨?_, ?_, ?_⟩ <;> decide +kernel

/-- a concrete list meeting the hypotheses of C05: bare, bracketed (with a space and a `>` inside) and
quoted candidates, with and without ratings, and blanks -/
def exItems : List Item :=
  [{ tok := c!"A1", rating := some c!"07", post := c!" " },
   { pre := c!" ", style := .bracket, tok := c!"Doña>B", rating := some c!"3" },
   { style := .bracket, tok := c!"C C" },
   { style := .quoted, tok := c!" D ", rating := some c!"0", post := c!" " }]

example : writeItems exItems ['=', '>', ','] = c!"A1/07 = [Doña>B]/3>[C C],\" D \"/0 " := by decide +kernel

theorem exItems_ok : ∀ it ∈ exItems, it.Ok := by
  have clean : CleanToken c!"A1" ∧ CleanToken c!"Doña" ∧ CleanToken c!">" ∧ CleanToken c!"B" ∧ CleanToken c!"C C" := by
    unfold CleanToken; decide +kernel
  intro it hit
  simp only [exItems, List.mem_cons, List.not_mem_nil, or_false] at hit
  rcases hit with rfl | rfl | rfl | rfl
  all_goals
    simp only [Item.Ok]
    refine ⟨by decide +kernel, by decide +kernel, ?_, ?_⟩
    · intro ds h; cases h; try decide +kernel
  · refine ⟨clean.1, by decide +kernel, fun h => nomatch h⟩
  · refine ⟨by decide +kernel, ?_⟩
    rw [show splitKeep isSepChar c!"Doña>B" = [c!"Doña", c!">", c!"B"] by decide +kernel]
    simp only [List.mem_cons, List.not_mem_nil, or_false, forall_eq_or_imp, forall_eq]
    exact ⟨clean.2.1, clean.2.2.1, clean.2.2.2.1⟩
  · refine ⟨by decide +kernel, ?_⟩
    rw [show splitKeep isSepChar c!"C C" = [c!"C C"] by decide +kernel]
    simp only [List.mem_cons, List.not_mem_nil, or_false, forall_eq]
    exact clean.2.2.2.2
  · decide +kernel

/-- a concrete list meeting the hypotheses of C07_exact with a dropped candidate -/
example : (Item.mk [] .quoted c!"B" none [' ']).QuotedUnrated ∧
    ([{ tok := c!"A" }, Item.mk [] .quoted c!"B" none [' '], { tok := c!"C" }] : List Item).filter Item.bareOrRated =
      [{ tok := c!"A" }, { tok := c!"C" }] := by
  refine ⟨⟨rfl, rfl, ?_, ?_, ?_, ?_⟩, ?_⟩ <;> decide +kernel

example : (exItems.map Item.tok).Nodup ∧ ([ '=', '>', ','].head? ≠ some ',') := by decide +kernel

end Examples

end Verif.Props
