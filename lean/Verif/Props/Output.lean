/-
C52-C54: the text table, the HTML table and the diagram.
Vocabulary: `Verif.Spec.Tally`.
-/
import Verif.Lib.Output
import Verif.Props.Tally

set_option linter.unusedSimpArgs false
set_option linter.unusedSectionVars false

namespace Verif.Props
open Verif Spec

/-! ## C52 -/

/-- C52.  Header and rows list the candidates in the same order, by decreasing wins (equal wins in the order of
the candidate table); the row of `a` has `support a b` in the column of `b`, nothing on the diagonal, and its
label shows the wins and losses of `a` and (as the win-loss-tie table does, see C21) twice its ties. -/
theorem C52_table (m : Jabmod) (h : Spec.AllRanked m) (hn : m.candidates.keys.Nodup) :
    ∃ order : List Str, order.Perm m.candidates.keys ∧ order.Pairwise (fun a b => winsOf m b ≤ winsOf m a) ∧
      (∀ k : Int, order.filter (fun c => decide (winsOf m c = k)) = m.candidates.keys.filter (fun c => decide (winsOf m c = k))) ∧
      textRows m = .ok ((.text c!"   Loser ->\nv Winner" :: order.map .text) ::
        order.map (fun a =>
          .text (a ++ c!" (" ++ intStr (winsOf m a) ++ c!"-" ++ intStr (lossesOf m a) ++ c!"-" ++ intStr (2 * tiesOf m a) ++ c!")") ::
          order.map (fun b => if a = b then .none else .num (support m a b)))) := by
  refine ⟨byWins m, byWins_perm m, byWins_sorted m, fun k => sortByKeyDesc_stable _ _ k, ?_⟩
  unfold textRows
  simp only
  rw [winLossTie_support m h hn, ok_bind, candsByWins_eq m h hn, ok_bind]
  have hmem : ∀ a ∈ byWins m, a ∈ m.candidates.keys := fun a ha => (byWins_perm m).mem_iff.1 ha
  rw [mapM_eq_map _ (fun a =>
          TCell.text (a ++ c!" (" ++ intStr (winsOf m a) ++ c!"-" ++ intStr (lossesOf m a) ++ c!"-" ++ intStr (2 * tiesOf m a) ++ c!")") ::
          (byWins m).map (fun b => if a = b then TCell.none else .num (support m a b)))]
  · rfl
  · intro a ha
    rw [mapM_eq_map _ (fun b => if a = b then none else some (support m a b)), ok_bind,
      Dict.getE_of_get? (get?_sorted_map (recOf m) hn a (hmem a ha)), ok_bind]
    · congr 2
      · simp [recordStr, recOf]
      · rw [List.map_map]
        apply List.map_congr_left
        intro b _
        simp only [Function.comp_apply]
        split <;> rfl
    · intro b hb
      rw [pairwiseCount_support m h, pairGet_matrixOf (hmem a ha) (hmem b hb)]

/-- one printed character against the drawn one -/
def SameInk (c c' : Char) : Prop := c' = c ∨ (c = '-' ∧ c' = '=') ∨ (c = '|' ∧ c' = '+')

theorem subnBar_ink (n : Nat) (s : Str) : List.Forall₂ SameInk s (subnBar n s).1 := by
  induction s generalizing n with
  | nil => cases n <;> exact .nil
  | cons c s ih =>
    cases n with
    | zero =>
      have : ∀ l : Str, List.Forall₂ SameInk l l := by
        intro l; induction l with
        | nil => exact .nil
        | cons x l ih => exact .cons (.inl rfl) ih
      exact this _
    | succ n =>
      unfold subnBar
      split
      · rename_i hc
        exact .cons (.inr (.inr ⟨hc, rfl⟩)) (ih n)
      · exact .cons (.inl rfl) (ih (n + 1))

theorem ink_refl : ∀ l : Str, List.Forall₂ SameInk l l := by
  intro l; induction l with
  | nil => exact .nil
  | cons x l ih => exact .cons (.inl rfl) ih

theorem plusLine_ink (s : Str) : List.Forall₂ SameInk s (plusLine s) := by
  unfold plusLine
  simp only
  split
  · exact subnBar_ink 2 s
  · exact ink_refl s

/-- C52.  What is printed is the drawing: line by line and character by character the same, except that a `-`
may be printed as `=` and a `|` as `+`; a drawing of fewer than four lines is an `IndexError`. -/
theorem C52_print (drawing : Str) :
    (4 ≤ (splitlines drawing).length → ∃ lines : List Str, postprocess drawing = .ok (joinStr c!"\n" lines ++ c!"\n\n") ∧
      List.Forall₂ (List.Forall₂ SameInk) (splitlines drawing) lines) ∧
    ((splitlines drawing).length < 4 → postprocess drawing = .error .indexError) := by
  unfold postprocess
  simp only
  generalize splitlines drawing = ls
  constructor
  · intro hl
    rw [List.getElem?_eq_getElem (by omega)]
    refine ⟨_, rfl, ?_⟩
    match ls, hl with
    | l0 :: l1 :: l2 :: l3 :: rest, _ =>
      simp only [List.getElem_cons_succ, List.getElem_cons_zero, List.set_cons_succ, List.set_cons_zero, List.map_cons]
      refine .cons (plusLine_ink _) (.cons (plusLine_ink _) (.cons (plusLine_ink _) (.cons ?_ ?_)))
      · have e : ∀ s : Str, List.Forall₂ (fun c c' : Char => c' = c ∨ (c = '-' ∧ c' = '=')) s (s.map fun c => if c = '-' then '=' else c) := by
          intro s; induction s with
          | nil => exact .nil
          | cons x s ih =>
            refine .cons ?_ ih
            by_cases hx : x = '-'
            · exact .inr ⟨hx, by simp [hx]⟩
            · exact .inl (by simp [hx])
        have tr : ∀ {a b c : Str}, List.Forall₂ (fun c c' : Char => c' = c ∨ (c = '-' ∧ c' = '=')) a b → List.Forall₂ SameInk b c → List.Forall₂ SameInk a c := by
          intro a b c h1
          induction h1 generalizing c with
          | nil => intro h2; cases h2; exact .nil
          | cons hx _ ih =>
            intro h2
            cases h2 with
            | cons hy h2 =>
              refine .cons ?_ (ih h2)
              rcases hx with rfl | ⟨rfl, rfl⟩
              · exact hy
              · rcases hy with rfl | ⟨hy, _⟩ | ⟨hy, _⟩
                · exact .inr (.inl ⟨rfl, rfl⟩)
                · exact absurd hy (by decide)
                · exact absurd hy (by decide)
        exact tr (e l3) (plusLine_ink _)
      · clear hl
        rename_i hx
        clear hx
        induction rest with
        | nil => exact .nil
        | cons x rest ih => exact .cons (plusLine_ink x) ih
  · intro hl
    rw [List.getElem?_eq_none (by omega)]

/-- the first two bars of a line become `+`; a line with fewer than two bars stays as it is -/
def BarsMarked (s t : Str) : Prop :=
  (s.count '|' < 2 ∧ t = s) ∨
  ∃ p q r : Str, '|' ∉ p ∧ '|' ∉ q ∧ s = p ++ '|' :: (q ++ '|' :: r) ∧ t = p ++ '+' :: (q ++ '+' :: r)

theorem subnBar_none (n : Nat) (s : Str) (h : '|' ∉ s) : subnBar n s = (s, 0) := by
  induction s generalizing n with
  | nil => cases n <;> rfl
  | cons c s ih =>
    cases n with
    | zero => rfl
    | succ n =>
      simp only [List.mem_cons, not_or] at h
      unfold subnBar
      rw [if_neg (fun e => h.1 e.symm), ih _ h.2]

theorem subnBar_first (n : Nat) (p s : Str) (h : '|' ∉ p) :
    subnBar (n + 1) (p ++ '|' :: s) = (p ++ '+' :: (subnBar n s).1, (subnBar n s).2 + 1) := by
  induction p with
  | nil =>
    simp only [List.nil_append]
    rw [subnBar, if_pos rfl]
  | cons c p ih =>
    simp only [List.mem_cons, not_or] at h
    simp only [List.cons_append]
    rw [subnBar, if_neg (fun e => h.1 e.symm), ih h.2]

theorem bar_split (s : Str) : '|' ∉ s ∨ ∃ p r : Str, '|' ∉ p ∧ s = p ++ '|' :: r := by
  induction s with
  | nil => left; simp
  | cons c s ih =>
    by_cases hc : c = '|'
    · exact .inr ⟨[], s, by simp, by simp [hc]⟩
    · rcases ih with h | ⟨p, r, hp, rfl⟩
      · left; simp only [List.mem_cons, not_or]; exact ⟨fun e => hc e.symm, h⟩
      · right; refine ⟨c :: p, r, ?_, by simp⟩
        simp only [List.mem_cons, not_or]; exact ⟨fun e => hc e.symm, hp⟩

theorem plusLine_marked (s : Str) : BarsMarked s (plusLine s) := by
  unfold plusLine
  rcases bar_split s with h | ⟨p, r, hp, rfl⟩
  · rw [subnBar_none _ _ h]
    left
    refine ⟨by rw [List.count_eq_zero_of_not_mem h]; omega, rfl⟩
  · rw [subnBar_first _ _ _ hp]
    rcases bar_split r with h | ⟨q, t, hq, rfl⟩
    · rw [subnBar_none _ _ h]
      left
      refine ⟨?_, rfl⟩
      rw [List.count_append, List.count_eq_zero_of_not_mem hp, List.count_cons_self, List.count_eq_zero_of_not_mem h]
      omega
    · rw [subnBar_first _ _ _ hq]
      right
      exact ⟨p, q, t, hp, hq, rfl, by simp [subnBar]⟩

/-- C52.  Exactly what is done to the drawing: in its fourth line every `-` becomes `=`; then in every line with
at least two bars the first two become `+`.  Nothing else changes. -/
theorem C52_lines (l0 l1 l2 l3 : Str) (rest : List Str) (drawing : Str)
    (hd : splitlines drawing = l0 :: l1 :: l2 :: l3 :: rest) :
    ∃ lines : List Str, postprocess drawing = .ok (joinStr c!"\n" lines ++ c!"\n\n") ∧
      List.Forall₂ BarsMarked (l0 :: l1 :: l2 :: l3.map (fun c => if c = '-' then '=' else c) :: rest) lines := by
  refine ⟨(l0 :: l1 :: l2 :: l3.map (fun c => if c = '-' then '=' else c) :: rest).map plusLine, ?_, ?_⟩
  · unfold postprocess
    simp only [hd]
    rfl
  · have key : ∀ L : List Str, List.Forall₂ BarsMarked L (L.map plusLine) := by
      intro L
      induction L with
      | nil => exact .nil
      | cons x L ih => exact .cons (plusLine_marked x) ih
    exact key _

/-- non-vacuity: a five-line drawing -/
example : (postprocess c!"+--+\n| a |\n| b| c |\n---+\n| x").toOption =
    some c!"+--+\n+ a +\n+ b+ c |\n===+\n| x\n\n" := by decide +kernel

/-- C52 for the general grid (`textgrid_for_2D_dict`): the cell in row `a`, column `b` is `d[a][b]`, provided all
rows have the keys of the table in the same order. -/
theorem C52_grid (d : PairDict) (hw : Dict.WF d) (hs : ∀ a row, Dict.get? d a = some row → row.keys = d.keys) :
    gridRows d = (.text c!"   Loser ->\nv Winner" :: d.keys.map .text) ::
      d.keys.map (fun a => .text a :: d.keys.map (fun b =>
        match pairGet d a b with | .ok x => TCell.ofCount x | .error _ => .none)) := by
  unfold gridRows
  congr 1
  unfold Dict.keys at *
  rw [List.map_map]
  apply List.map_congr_left
  intro row hrow
  simp only [Function.comp_apply]
  congr 1
  have hg : Dict.get? d row.1 = some row.2 := Dict.get?_of_mem hw hrow
  have hk := hs _ _ hg
  have hrw : Dict.WF row.2 := by
    unfold Dict.WF Dict.keys; rw [hk]; exact hw
  rw [← hk, List.map_map]
  unfold Dict.values
  rw [List.map_map]
  apply List.map_congr_left
  intro cell hcell
  simp only [Function.comp_apply]
  unfold pairGet
  rw [Dict.getE_of_get? hg, ok_bind, Dict.getE_of_get? (Dict.get?_of_mem hrw hcell)]

/-! ## C53 -/

/-- the text of a row label: the candidate's name, followed by its token in brackets when they differ -/
def shownAs (tok : Str) (name : Option Str) : Str :=
  match name with
  | some n => if n = tok then n else n ++ c!" [\"" ++ tok ++ c!"\"]"
  | none => c!"None [\"" ++ tok ++ c!"\"]"

/-- What the row of candidate `a` shows: its name, its record (with the ties as in the win-loss-tie table, see
C21), a caption if it has wins, whether it is undefeated, and only matchups of `a`. -/
def RowShows (m : Jabmod) (a : Str) (r : HRow) : Prop :=
  r.label = shownAs a ((m.candidates.get? a).getD none) ∧
  r.record = c!"(" ++ intStr (winsOf m a) ++ c!"-" ++ intStr (lossesOf m a) ++ c!"-" ++ intStr (2 * tiesOf m a) ++ c!")" ∧
  r.victories = (if 0 < winsOf m a then some (a ++ c!" victories") else none) ∧
  r.losses = (if 0 < lossesOf m a then c!"← " ++ a ++ c!" losses" else a ++ c!" is undefeated") ∧
  (∀ c ∈ r.cells, c.ck = a)

/-- C53.  The page has one row per candidate, by decreasing wins, labelled with its name and showing its record;
every unordered pair of different candidates has exactly one cell; every cell shows the votes of two different
candidates against each other, the one listed first being the one with at least as many wins; the footnote is
there iff some cell's first candidate does not have more votes, and these cells, except the last of them in
document order, carry the dagger (no other cell does).  Missing from the full C53: that last cell must carry it too. -/
theorem C53_partial (m : Jabmod) (h : Spec.AllRanked m) (hn : m.candidates.keys.Nodup) (addDesc snippet : Bool)
    (hd : addDesc = true → ∀ n ∈ m.candidates.values, n ≠ none) :
    ∃ p order, htmlPage m addDesc snippet = .ok p ∧
      List.Perm order m.candidates.keys ∧ order.Pairwise (fun a b => winsOf m b ≤ winsOf m a) ∧
      List.Forall₂ (RowShows m) order p.rows ∧
      (∀ a ∈ m.candidates.keys, ∀ b ∈ m.candidates.keys, a ≠ b →
        ((p.rows.flatMap HRow.cells).filter (fun c => decide ((c.rk = a ∧ c.ck = b) ∨ (c.rk = b ∧ c.ck = a)))).length = 1) ∧
      (∀ c ∈ p.rows.flatMap HRow.cells, c.rk ∈ m.candidates.keys ∧ c.ck ∈ m.candidates.keys ∧ c.rk ≠ c.ck ∧
        winsOf m c.ck ≤ winsOf m c.rk ∧
        c.rkscore = support m c.rk c.ck ∧ c.ckscore = support m c.ck c.rk) ∧
      (p.footnote = true ↔ ∃ c ∈ p.rows.flatMap HRow.cells, c.rkscore ≤ c.ckscore) ∧
      (∀ (i : Nat) (c : HCell), (p.rows.flatMap HRow.cells)[i]? = some c →
        (c.dagger = true ↔ c.rkscore ≤ c.ckscore ∧
          ∃ (j : Nat) (d : HCell), i < j ∧ (p.rows.flatMap HRow.cells)[j]? = some d ∧ d.rkscore ≤ d.ckscore)) := by
  have hperm := byWins_perm m
  have hond : (byWins m).Nodup := hperm.nodup_iff.2 hn
  have hmem : ∀ a ∈ byWins m, a ∈ m.candidates.keys := fun a ha => hperm.mem_iff.1 ha
  -- the table before the dagger moves
  obtain ⟨rows0, hr0⟩ : ∃ r, mkRows m (byWins m) (byWins m) ((byWins m).length + 1) = r := ⟨_, rfl⟩
  have hcells0 : rows0.flatMap HRow.cells = (byWins m).flatMap (fun ck => (rowCands (byWins m) ck).map (mkCell m ck)) := by
    rw [← hr0, mkRows_cells]
  have hframe0 : List.Forall₂ (RowShows m) (byWins m) rows0 := by
    rw [← hr0]
    generalize ((byWins m).length + 1 : Int) = n
    have : ∀ l : List Str, ∀ n : Int, List.Forall₂ (RowShows m) l (mkRows m (byWins m) l n) := by
      intro l
      induction l with
      | nil => intro n; exact .nil
      | cons a l ih =>
        intro n
        refine .cons ⟨?_, ?_, rfl, rfl, ?_⟩ (ih _)
        · show htmlLabel a _ = _
          unfold htmlLabel shownAs nameStr
          cases (m.candidates.get? a).getD none with
          | none => rw [if_neg (by simp)]; simp
          | some nm =>
            by_cases e : a = nm
            · simp [e]
            · rw [if_neg (by simpa using e)]; simp only; rw [if_neg (fun e' => e e'.symm)]
        · simp [mkRow, recordStr, recOf]
        · intro c hc
          simp only [mkRow, List.mem_map] at hc
          obtain ⟨rk, _, rfl⟩ := hc
          rfl
    exact this _ _
  -- the page
  have hpage : htmlPage m addDesc snippet = (do
      let desc ← (if addDesc then (do let d ← abifDesc m; .ok (some d)) else .ok none : Except PyErr (Option Json))
      match unmarkRows rows0 with
      | some rows' => .ok { title := if snippet then none else some (abifTitle m), desc := desc, rows := rows', footnote := true }
      | none => .ok { title := if snippet then none else some (abifTitle m), desc := desc, rows := rows0, footnote := false }) := by
    unfold htmlPage
    simp only
    rw [winLossTie_support m h hn, ok_bind, candsByWins_eq m h hn, ok_bind, htmlRows_eq m h hn _ hmem, hr0]
    cases addDesc <;> rfl
  obtain ⟨desc, hdesc⟩ : ∃ d, (if addDesc then (do let d ← abifDesc m; .ok (some d)) else .ok none : Except PyErr (Option Json)) = .ok d := by
    cases addDesc with
    | false => exact ⟨none, rfl⟩
    | true =>
      have : ∃ s, joinCandNames m.candidates.values = .ok s := by
        unfold joinCandNames
        have hm := hd rfl
        rw [mapM_eq_map _ (fun n : Option Str => n.getD [])]
        · exact ⟨_, rfl⟩
        · intro n hnn
          cases n with
          | none => exact absurd rfl (hm _ hnn)
          | some s => rfl
      obtain ⟨s, hs⟩ := this
      unfold abifDesc
      rw [hs]
      exact ⟨_, rfl⟩
  rw [hdesc, ok_bind] at hpage
  -- facts about the cells of rows0
  have hkey : ∀ c ∈ rows0.flatMap HRow.cells, ∃ ck ∈ byWins m, ∃ rk ∈ rowCands (byWins m) ck, c = mkCell m ck rk := by
    intro c hc
    rw [hcells0, List.mem_flatMap] at hc
    obtain ⟨ck, hck, hc⟩ := hc
    obtain ⟨rk, hrk, rfl⟩ := List.mem_map.1 hc
    exact ⟨ck, hck, rk, hrk, rfl⟩
  have hgood : ∀ c ∈ rows0.flatMap HRow.cells, c.rk ∈ m.candidates.keys ∧ c.ck ∈ m.candidates.keys ∧ c.rk ≠ c.ck ∧
        winsOf m c.ck ≤ winsOf m c.rk ∧
        c.rkscore = support m c.rk c.ck ∧ c.ckscore = support m c.ck c.rk := by
    intro c hc
    obtain ⟨ck, hck, rk, hrk, rfl⟩ := hkey c hc
    obtain ⟨h1, h2⟩ := (mem_rowCands hond hck).1 hrk
    refine ⟨hmem _ h1, hmem _ hck, ?_, ?_, rfl, rfl⟩
    · rintro e
      simp only [mkCell] at e
      subst e
      omega
    · have hs := byWins_sorted m
      have i1 := List.idxOf_lt_length_iff.2 h1
      have i2 := List.idxOf_lt_length_iff.2 hck
      have := List.pairwise_iff_getElem.1 hs _ _ i1 i2 h2
      rw [List.getElem_idxOf, List.getElem_idxOf] at this
      exact this
  have hdag0 : ∀ c ∈ rows0.flatMap HRow.cells, (c.dagger = true ↔ c.rkscore ≤ c.ckscore) := by
    intro c hc
    obtain ⟨ck, _, rk, _, rfl⟩ := hkey c hc
    simp [mkCell]
  -- pairs
  have hpn : ((rows0.flatMap HRow.cells).map (fun c => (c.rk, c.ck))).Nodup := by
    rw [hcells0, List.map_flatMap]
    have e : ∀ ck, ((rowCands (byWins m) ck).map (mkCell m ck)).map (fun c => (c.rk, c.ck)) = (rowCands (byWins m) ck).map (fun rk => (rk, ck)) := by
      intro ck; rw [List.map_map]; rfl
    simp only [e]
    rw [List.nodup_flatMap]
    constructor
    · intro ck _
      apply List.Nodup.map
      · intro a b hab; exact (Prod.mk.inj hab).1
      · unfold rowCands
        exact (List.nodup_reverse.2 hond).filter _
    · refine hond.imp ?_
      intro a b hab x hx hy
      obtain ⟨r1, _, rfl⟩ := List.mem_map.1 hx
      obtain ⟨r2, _, e2⟩ := List.mem_map.1 hy
      exact hab (Prod.mk.inj e2).2.symm
  have hpm : ∀ rk ck, (rk, ck) ∈ (rows0.flatMap HRow.cells).map (fun c => (c.rk, c.ck)) ↔
      rk ∈ byWins m ∧ ck ∈ byWins m ∧ (byWins m).idxOf rk < (byWins m).idxOf ck := by
    intro rk ck
    rw [hcells0]
    simp only [List.map_flatMap, List.mem_flatMap, List.map_map, List.mem_map, Function.comp_apply, mkCell, Prod.mk.injEq]
    constructor
    · rintro ⟨a, ha, b, hb, rfl, rfl⟩
      obtain ⟨h1, h2⟩ := (mem_rowCands hond ha).1 hb
      exact ⟨h1, ha, h2⟩
    · rintro ⟨h1, h2, h3⟩
      exact ⟨ck, h2, rk, (mem_rowCands hond h2).2 ⟨h1, h3⟩, rfl, rfl⟩
  have hone : ∀ cells : List HCell, cells.map (fun c => (c.rk, c.ck)) = (rows0.flatMap HRow.cells).map (fun c => (c.rk, c.ck)) →
      ∀ a ∈ m.candidates.keys, ∀ b ∈ m.candidates.keys, a ≠ b →
        (cells.filter (fun c => decide ((c.rk = a ∧ c.ck = b) ∨ (c.rk = b ∧ c.ck = a)))).length = 1 := by
    intro cells hcells a ha b hb hab
    have ha' := hperm.mem_iff.2 ha
    have hb' := hperm.mem_iff.2 hb
    have hl : (cells.filter (fun c => decide ((c.rk = a ∧ c.ck = b) ∨ (c.rk = b ∧ c.ck = a)))).length =
        (((rows0.flatMap HRow.cells).map (fun c => (c.rk, c.ck))).filter (fun x => decide ((x.1 = a ∧ x.2 = b) ∨ (x.1 = b ∧ x.2 = a)))).length := by
      rw [← hcells, List.filter_map, List.length_map]
      rfl
    rw [hl]
    have hidx : (byWins m).idxOf a ≠ (byWins m).idxOf b := fun e => hab ((List.idxOf_inj ha').1 e)
    rcases Nat.lt_or_gt_of_ne hidx with hlt | hgt
    · refine filter_length_one hpn (x := (a, b)) ((hpm a b).2 ⟨ha', hb', hlt⟩) (by simp) ?_
      rintro ⟨r, c⟩ hrc hp
      simp only [decide_eq_true_eq] at hp
      rcases hp with ⟨rfl, rfl⟩ | ⟨rfl, rfl⟩
      · rfl
      · have := ((hpm _ _).1 hrc).2.2
        omega
    · refine filter_length_one hpn (x := (b, a)) ((hpm b a).2 ⟨hb', ha', hgt⟩) (by simp) ?_
      rintro ⟨r, c⟩ hrc hp
      simp only [decide_eq_true_eq] at hp
      rcases hp with ⟨rfl, rfl⟩ | ⟨rfl, rfl⟩
      · have := ((hpm _ _).1 hrc).2.2
        omega
      · rfl
  have hcu := unmarkRows_cells rows0
  cases hu : unmarkRows rows0 with
  | none =>
    rw [hu] at hpage hcu
    simp only [Option.map_none] at hcu
    have hnone := unmarkCells_none.1 hcu.symm
    refine ⟨_, byWins m, hpage, hperm, byWins_sorted m, hframe0, hone _ rfl, hgood, ?_, ?_⟩
    · simp only [Bool.false_eq_true, false_iff]
      rintro ⟨c, hc, hle⟩
      have := (hdag0 c hc).2 hle
      rw [hnone c hc] at this
      cases this
    · intro i c hc
      have hcm := List.mem_of_getElem? hc
      constructor
      · intro hdg
        rw [hnone c hcm] at hdg
        cases hdg
      · rintro ⟨hle, _⟩
        exact (hdag0 c hcm).2 hle
  | some rows' =>
    rw [hu] at hpage hcu
    simp only [Option.map_some] at hcu
    obtain ⟨e1, ⟨cd, hcd, hcdd⟩, e3⟩ := unmarkCells_spec hcu.symm
    have eq4 : ∀ (i : Nat) (c : HCell), (rows'.flatMap HRow.cells)[i]? = some c →
        ∃ c0, (rows0.flatMap HRow.cells)[i]? = some c0 ∧ c.rk = c0.rk ∧ c.rkscore = c0.rkscore ∧ c.ck = c0.ck ∧ c.ckscore = c0.ckscore := by
      intro i c hc
      have := congrArg (fun l => l[i]?) e1
      simp only [List.getElem?_map, hc, Option.map_some] at this
      cases h0 : (rows0.flatMap HRow.cells)[i]? with
      | none => rw [h0] at this; cases this
      | some c0 =>
        rw [h0] at this
        simp only [Option.map_some, Option.some.injEq, Prod.mk.injEq] at this
        exact ⟨c0, rfl, this.1, this.2.1, this.2.2.1, this.2.2.2⟩
    have eq4' : ∀ (i : Nat) (c : HCell), (rows0.flatMap HRow.cells)[i]? = some c →
        ∃ c0, (rows'.flatMap HRow.cells)[i]? = some c0 ∧ c.rk = c0.rk ∧ c.rkscore = c0.rkscore ∧ c.ck = c0.ck ∧ c.ckscore = c0.ckscore := by
      intro i c hc
      have := congrArg (fun l => l[i]?) e1
      simp only [List.getElem?_map, hc, Option.map_some] at this
      cases h0 : (rows'.flatMap HRow.cells)[i]? with
      | none => rw [h0] at this; cases this
      | some c0 =>
        rw [h0] at this
        simp only [Option.map_some, Option.some.injEq, Prod.mk.injEq] at this
        exact ⟨c0, rfl, this.1.symm, this.2.1.symm, this.2.2.1.symm, this.2.2.2.symm⟩
    have hframe : List.Forall₂ (RowShows m) (byWins m) rows' := by
      have : ∀ (l : List Str) (rs rs' : List HRow), unmarkRows rs = some rs' →
        List.Forall₂ (RowShows m) l rs →
        List.Forall₂ (RowShows m) l rs' := by
        intro l rs rs' hun hf
        induction hf generalizing rs' with
        | nil => cases hun
        | @cons a r l rs hr hrs ih =>
          unfold unmarkRows at hun
          cases h1 : unmarkRows rs with
          | some x =>
            rw [h1] at hun
            simp only [Option.some.injEq] at hun
            subst hun
            exact .cons hr (ih x h1)
          | none =>
            rw [h1] at hun
            simp only at hun
            cases h2 : unmarkCells r.cells with
            | none => rw [h2] at hun; cases hun
            | some cs =>
              rw [h2] at hun
              simp only [Option.some.injEq] at hun
              subst hun
              refine .cons ⟨hr.1, hr.2.1, hr.2.2.1, hr.2.2.2.1, ?_⟩ hrs
              intro c hc
              obtain ⟨e, _, _⟩ := unmarkCells_spec h2
              have hm : (c.rk, c.rkscore, c.ck, c.ckscore) ∈ r.cells.map (fun c => (c.rk, c.rkscore, c.ck, c.ckscore)) := by
                rw [← e]
                exact List.mem_map.2 ⟨c, hc, rfl⟩
              obtain ⟨c0, hc0, ee⟩ := List.mem_map.1 hm
              simp only [Prod.mk.injEq] at ee
              rw [← ee.2.2.1]
              exact hr.2.2.2.2 c0 hc0
      exact this _ _ _ hu hframe0
    refine ⟨_, byWins m, hpage, hperm, byWins_sorted m, hframe, hone _ ?_, ?_, ?_, ?_⟩
    · have := congrArg (List.map (fun x : Str × Int × Str × Int => (x.1, x.2.2.1))) e1
      simpa [List.map_map, Function.comp_def] using this
    · intro c hc
      obtain ⟨i, hi, rfl⟩ := List.mem_iff_getElem.1 hc
      obtain ⟨c0, hc0, r1, r2, r3, r4⟩ := eq4 i _ (List.getElem?_eq_getElem hi)
      have := hgood c0 (List.mem_of_getElem? hc0)
      simp only at r1 r2 r3 r4 ⊢
      rw [r1, r2, r3, r4]
      exact this
    · simp only [true_iff]
      obtain ⟨i, hi, rfl⟩ := List.mem_iff_getElem.1 hcd
      obtain ⟨c0, hc0, r1, r2, r3, r4⟩ := eq4' i _ (List.getElem?_eq_getElem hi)
      refine ⟨c0, List.mem_of_getElem? hc0, ?_⟩
      rw [← r2, ← r4]
      exact (hdag0 _ hcd).1 hcdd
    · intro i c hc
      rw [e3 i c hc]
      obtain ⟨c0, hc0, r1, r2, r3, r4⟩ := eq4 i _ hc
      constructor
      · rintro ⟨⟨d, hd1, hd2⟩, j, d', hij, hj1, hj2⟩
        rw [hc0] at hd1
        cases hd1
        refine ⟨by rw [r2, r4]; exact (hdag0 _ (List.mem_of_getElem? hc0)).1 hd2, ?_⟩
        obtain ⟨d0, hd0, s1, s2, s3, s4⟩ := eq4' j _ hj1
        refine ⟨j, d0, hij, hd0, ?_⟩
        rw [← s2, ← s4]
        exact (hdag0 _ (List.mem_of_getElem? hj1)).1 hj2
      · rintro ⟨hle, j, d, hij, hj1, hj2⟩
        refine ⟨⟨c0, hc0, (hdag0 _ (List.mem_of_getElem? hc0)).2 (by rw [← r2, ← r4]; exact hle)⟩, ?_⟩
        obtain ⟨d0, hd0, s1, s2, s3, s4⟩ := eq4 j _ hj1
        exact ⟨j, d0, hij, hd0, (hdag0 _ (List.mem_of_getElem? hd0)).2 (by rw [← s2, ← s4]; exact hj2)⟩

theorem filter_idx_take {order : List Str} (hn : order.Nodup) (i : Nat) :
    order.filter (fun rk => decide (order.idxOf rk < i)) = order.take i := by
  have h1 : ∀ x ∈ order.take i, order.idxOf x < i := by
    intro x hx
    obtain ⟨j, hj, rfl⟩ := List.mem_iff_getElem.1 hx
    rw [List.getElem_take, hn.idxOf_getElem]
    rw [List.length_take] at hj
    omega
  have h2 : ∀ x ∈ order.drop i, ¬ order.idxOf x < i := by
    intro x hx
    obtain ⟨j, hj, rfl⟩ := List.mem_iff_getElem.1 hx
    rw [List.getElem_drop, hn.idxOf_getElem]
    omega
  have := List.take_append_drop i order
  have e : order.filter (fun rk => decide (order.idxOf rk < i)) =
      (order.take i ++ order.drop i).filter (fun rk => decide (order.idxOf rk < i)) := by rw [this]
  rw [e, List.filter_append, List.filter_eq_self.2 (by intro x hx; simpa using h1 x hx),
    List.filter_eq_nil_iff.2 (by intro x hx; simpa using h2 x hx), List.append_nil]

theorem rowCands_length {order : List Str} (hn : order.Nodup) {i : Nat} (hi : i < order.length) :
    (rowCands order order[i]).length = i := by
  have hmem : order[i] ∈ order := List.getElem_mem hi
  have : rowCands order order[i] = (order.filter (fun rk => decide (order.idxOf rk < i))).reverse := by
    unfold rowCands
    rw [← List.filter_reverse]
    apply List.filter_congr
    intro rk hrk
    have hrk' : rk ∈ order := by simpa using hrk
    have e := mem_rowCands (rk := rk) hn hmem
    unfold rowCands at e
    rw [List.mem_filter, hn.idxOf_getElem] at e
    rw [Bool.eq_iff_iff, decide_eq_true_eq, hn.idxOf_getElem]
    constructor
    · intro hp
      exact (e.1 ⟨hrk, hp⟩).2
    · intro hp
      exact (e.2 ⟨hrk', hp⟩).2
  rw [this, List.length_reverse, filter_idx_take hn, List.length_take]
  omega

/-- columns taken by a row: label, record, caption, cells, and the note on losses -/
def rowWidth (r : HRow) : Int := 1 + r.colspan + (if r.victories.isSome then 1 else 0) + r.cells.length + 1

/-- C53.  All rows of the table span the same number of columns. -/
theorem C53_layout (m : Jabmod) (h : Spec.AllRanked m) (hn : m.candidates.keys.Nodup) (addDesc snippet : Bool) (p : HPage)
    (hp : htmlPage m addDesc snippet = .ok p) : ∀ r ∈ p.rows, rowWidth r = m.candidates.length + 4 := by
  have hperm := byWins_perm m
  have hond : (byWins m).Nodup := hperm.nodup_iff.2 hn
  have hlen : (byWins m).length = m.candidates.length := by rw [hperm.length_eq]; simp [Dict.keys]
  have hrows : ∀ r ∈ mkRows m (byWins m) (byWins m) ((byWins m).length + 1), rowWidth r = m.candidates.length + 4 := by
    have : ∀ (pre l : List Str), pre ++ l = byWins m → ∀ r ∈ mkRows m (byWins m) l ((byWins m).length + 1 - pre.length),
        rowWidth r = m.candidates.length + 4 := by
      intro pre l
      induction l generalizing pre with
      | nil => intro _ r hr; cases hr
      | cons c l ih =>
        intro hpl r hr
        rw [mkRows] at hr
        rcases List.mem_cons.1 hr with rfl | hr
        · have hi : pre.length < (byWins m).length := by rw [← hpl]; simp
          have hc : (byWins m)[pre.length] = c := by simp [← hpl]
          have hl := rowCands_length hond hi
          rw [hc] at hl
          unfold rowWidth
          simp only [mkRow, List.length_map, hl]
          rw [← hlen]
          by_cases hw : winsOf m c > 0
          · simp [hw]; omega
          · simp [hw]; omega
        · apply ih (pre ++ [c]) (by simpa using hpl)
          have : ((byWins m).length + 1 - (pre ++ [c]).length : Int) = (byWins m).length + 1 - pre.length - 1 := by
            simp; omega
          rw [this]
          exact hr
    have := this [] (byWins m) rfl
    simpa using this
  have hun : ∀ (rs rs' : List HRow), unmarkRows rs = some rs' → (∀ r ∈ rs, rowWidth r = m.candidates.length + 4) →
      ∀ r ∈ rs', rowWidth r = m.candidates.length + 4 := by
    intro rs
    induction rs with
    | nil => intro rs' hu; cases hu
    | cons r rs ih =>
      intro rs' hu hall x hx
      unfold unmarkRows at hu
      cases h1 : unmarkRows rs with
      | some y =>
        rw [h1] at hu
        simp only [Option.some.injEq] at hu
        subst hu
        rcases List.mem_cons.1 hx with rfl | hx
        · exact hall _ (by simp)
        · exact ih y h1 (fun r hr => hall r (by simp [hr])) x hx
      | none =>
        rw [h1] at hu
        simp only at hu
        cases h2 : unmarkCells r.cells with
        | none => rw [h2] at hu; cases hu
        | some cs =>
          rw [h2] at hu
          simp only [Option.some.injEq] at hu
          subst hu
          rcases List.mem_cons.1 hx with rfl | hx
          · have hl : cs.length = r.cells.length := by
              have := congrArg List.length (unmarkCells_spec h2).1
              simpa using this
            have := hall r (by simp)
            unfold rowWidth at this ⊢
            simp only [hl]
            exact this
          · exact hall _ (by simp [hx])
  unfold htmlPage at hp
  simp only at hp
  rw [winLossTie_support m h hn, ok_bind, candsByWins_eq m h hn, ok_bind,
    htmlRows_eq m h hn _ (fun a ha => hperm.mem_iff.1 ha)] at hp
  have fin : ∀ d : Option Json, (match unmarkRows (mkRows m (byWins m) (byWins m) ((byWins m).length + 1)) with
      | some rows' => Except.ok { title := if snippet then none else some (abifTitle m), desc := d, rows := rows', footnote := true }
      | none => .ok { title := if snippet then none else some (abifTitle m), desc := d, rows := (mkRows m (byWins m) (byWins m) ((byWins m).length + 1)), footnote := false } : Except PyErr HPage) = .ok p →
      ∀ r ∈ p.rows, rowWidth r = m.candidates.length + 4 := by
    intro d hd
    cases hu : unmarkRows (mkRows m (byWins m) (byWins m) ((byWins m).length + 1)) with
    | none => rw [hu] at hd; cases hd; exact hrows
    | some rs => rw [hu] at hd; cases hd; exact hun _ _ hu hrows
  cases addDesc with
  | false => exact fin none hp
  | true =>
    cases hd : abifDesc m with
    | error e => rw [hd] at hp; cases hp
    | ok d => rw [hd] at hp; exact fin (some d) hp

theorem joinStr_intercalate (sep : Str) (l : List Str) : joinStr sep l = List.intercalate sep l := by
  induction l with
  | nil => rfl
  | cons x l ih =>
    cases l with
    | nil => simp [joinStr, List.intercalate]
    | cons y l =>
      rw [joinStr, ih]
      simp [List.intercalate]

/-- C53, heading and description.  Whatever the votes: a full page is headed by the election's title if there is a
non-empty one, otherwise by the file name if there is one, otherwise by a fixed notice; the description, if asked
for, is the election's own or else lists the candidates' names. -/
theorem C53_heading (m : Jabmod) (addDesc snippet : Bool) (p : HPage) (hp : htmlPage m addDesc snippet = .ok p) :
    (snippet = true → p.title = none) ∧
    (snippet = false →
      (∀ t : Str, t ≠ [] → m.metadata.get? c!"title" = some (.str t) → p.title = some (.str t)) ∧
      (∀ f : Json, m.metadata.get? c!"title" = none ∨ m.metadata.get? c!"title" = some (.str []) →
        m.metadata.get? c!"filename" = some f → p.title = some f) ∧
      (m.metadata.get? c!"title" = none ∨ m.metadata.get? c!"title" = some (.str []) →
        m.metadata.get? c!"filename" = none →
        p.title = some (.str c!"(.metadata.title and .metadata.filename missing)"))) ∧
    (addDesc = false → p.desc = none) ∧
    (addDesc = true →
      (∀ d : Json, m.metadata.get? c!"description" = some d → p.desc = some d) ∧
      (m.metadata.get? c!"description" = none → ∃ names : List Str, m.candidates.values = names.map some ∧
        p.desc = some (.str (c!"Candidate matchups for " ++ List.intercalate c!", " names)))) := by
  have hne : ∀ k x, m.metadata.get? k = some x → m.metadata.isEmpty = false := by
    intro k x h
    cases hm : m.metadata with
    | nil => rw [hm] at h; cases h
    | cons a l => rfl
  have hboth : p.title = (if snippet then none else some (abifTitle m)) ∧
      (addDesc = false → p.desc = none) ∧ (addDesc = true → ∃ d, abifDesc m = .ok d ∧ p.desc = some d) := by
    unfold htmlPage at hp
    simp only [bind_ok] at hp
    obtain ⟨_, _, _, _, hp⟩ := hp
    cases addDesc with
    | false =>
      simp only [Bool.false_eq_true, if_false] at hp
      rw [ok_bind, bind_ok] at hp
      obtain ⟨rows, _, hp⟩ := hp
      split at hp <;> (cases hp; exact ⟨rfl, fun _ => rfl, by simp⟩)
    | true =>
      simp only [if_true] at hp
      rw [bind_ok] at hp
      obtain ⟨d', hd, hp⟩ := hp
      rw [bind_ok] at hd
      obtain ⟨d, h1, h2⟩ := hd
      cases h2
      rw [bind_ok] at hp
      obtain ⟨rows, _, hp⟩ := hp
      split at hp <;> (cases hp; exact ⟨rfl, by simp, fun _ => ⟨d, h1, rfl⟩⟩)
  obtain ⟨htitle, hdesc⟩ := hboth
  refine ⟨?_, ?_, hdesc.1, ?_⟩
  · intro h; rw [htitle, h]; rfl
  · intro h
    subst h
    simp only [Bool.false_eq_true, if_false] at htitle
    rw [htitle]
    refine ⟨?_, ?_, ?_⟩
    · intro t ht hg
      unfold abifTitle
      rw [hne _ _ hg, hg]
      simp [Json.truthy, ht]
    · intro f hg hf
      unfold abifTitle
      rw [hne _ _ hf, hf]
      rcases hg with hg | hg <;> rw [hg] <;> simp [Json.truthy]
    · intro hg hf
      unfold abifTitle
      rw [hf]
      rcases hg with hg | hg <;> rw [hg] <;> simp [Json.truthy, missingTitle]
  · intro h
    obtain ⟨d, h1, h2⟩ := hdesc.2 h
    rw [h2]
    unfold abifDesc at h1
    rw [bind_ok] at h1
    obtain ⟨names, hj, h1⟩ := h1
    cases h1
    constructor
    · intro d hd; rw [hd]; rfl
    · intro hd
      rw [hd]
      unfold joinCandNames at hj
      rw [bind_ok] at hj
      obtain ⟨l, hl, hj⟩ := hj
      cases hj
      refine ⟨l, ?_, by rw [joinStr_intercalate]; rfl⟩
      have key : ∀ (L : List (Option Str)) (l : List Str), L.mapM (fun n => match n with
          | some s => Except.ok s
          | none => Except.error PyErr.typeError) = Except.ok l → L = l.map some := by
        intro L
        induction L with
        | nil => intro l h; cases h; rfl
        | cons x L ih =>
          intro l h
          rw [List.mapM_cons, bind_ok] at h
          obtain ⟨a, ha, h⟩ := h
          rw [bind_ok] at h
          obtain ⟨l', hl', h⟩ := h
          cases h
          cases x with
          | none => cases ha
          | some s => cases ha; rw [List.map_cons, ← ih l' hl']
      exact key _ _ hl

/-- C53, error case: when some candidate has no name (as in San Francisco imports), the page with a description is
a `TypeError`, even when the model has its own description. -/
theorem C53_unnamed (m : Jabmod) (h : Spec.AllRanked m) (hn : m.candidates.keys.Nodup) (snippet : Bool)
    (hnone : none ∈ m.candidates.values) : htmlPage m true snippet = .error .typeError := by
  have : joinCandNames m.candidates.values = .error .typeError := by
    unfold joinCandNames
    have hm : ∀ l : List (Option Str), none ∈ l → l.mapM (fun n => match n with
        | some s => Except.ok s
        | none => Except.error PyErr.typeError) = Except.error PyErr.typeError := by
      intro l
      induction l with
      | nil => intro h; cases h
      | cons x l ih =>
        intro hx
        rw [List.mapM_cons]
        cases x with
        | none => rfl
        | some s =>
          rw [ih (by simpa using hx)]
          rfl
    have e := hm _ hnone
    exact (congrArg (fun x => x >>= fun l => Except.ok (joinStr c!", " l)) e :)
  unfold htmlPage
  simp only
  rw [winLossTie_support m h hn, ok_bind, candsByWins_eq m h hn, ok_bind]
  unfold abifDesc
  rw [this]
  rfl

section
attribute [local instance] Uni.ascii
set_option maxRecDepth 40000

/-- C53 is false of the program as stated: in this election the two candidates tie, and the only cell of the page
has no dagger (it has been moved to the footnote). -/
theorem C53_refuted : ∃ text m p, convertAbif true false false text = .ok m ∧ htmlPage m true false = .ok p ∧
    ∃ c ∈ p.rows.flatMap HRow.cells, c.rkscore ≤ c.ckscore ∧ c.dagger = false := by
  obtain ⟨m, hm⟩ : ∃ m, convertAbif true false false c!"1:A=B" = .ok m := by
    cases h : convertAbif true false false c!"1:A=B" with
    | ok m => exact ⟨m, rfl⟩
    | error e =>
      have : (convertAbif true false false c!"1:A=B").isOk = true := by decide +kernel
      rw [h] at this; cases this
  have hc : ((convertAbif true false false c!"1:A=B").toOption.bind (fun m => (htmlPage m true false).toOption)).map (fun p => p.rows.flatMap HRow.cells) =
      some [{ rk := c!"A", rkscore := 0, ck := c!"B", ckscore := 0, dagger := false }] := by decide +kernel
  rw [hm] at hc
  cases hp : htmlPage m true false with
  | error e => simp [Except.toOption, hp] at hc
  | ok p =>
    simp only [Except.toOption, hp, Option.bind_some, Option.map_some, Option.some.injEq] at hc
    exact ⟨_, m, p, hm, hp, _, by rw [hc]; exact List.mem_singleton.2 rfl, by decide, rfl⟩

end

/-- the text of a JSON string -/
def headText : Json → Option Str
  | .str s => some s
  | _ => none

/-- A model for the examples: three candidates in a cycle, with names. -/
def outputExample : Jabmod :=
  { metadata := [], candidates := [(c!"A", some c!"Amy"), (c!"B", some c!"B"), (c!"C", some c!"Cy")]
    votelines := [
      { qty := 3, prefs := [(c!"A", { rank := some 1 }), (c!"B", { rank := some 2 }), (c!"C", { rank := some 3 })] },
      { qty := 3, prefs := [(c!"B", { rank := some 1 }), (c!"C", { rank := some 2 }), (c!"A", { rank := some 3 })] },
      { qty := 3, prefs := [(c!"C", { rank := some 1 }), (c!"A", { rank := some 2 }), (c!"B", { rank := some 3 })] }] }

theorem outputExample_ok : Spec.AllRanked outputExample ∧ outputExample.candidates.keys.Nodup ∧
    (∀ n ∈ outputExample.candidates.values, n ≠ none) := by
  refine ⟨?_, by decide +kernel, by decide +kernel⟩
  intro vl hvl c p hp
  have hmem := Dict.mem_of_get? hp
  have : ∀ vl ∈ outputExample.votelines, ∀ e ∈ vl.prefs, ∃ r : Int, e.2.rank = some r ∧ r < 9223372036854775807 := by
    intro vl hvl e he
    simp only [outputExample, List.mem_cons, List.not_mem_nil, or_false] at hvl
    rcases hvl with rfl | rfl | rfl <;>
    · simp only [List.mem_cons, List.not_mem_nil, or_false] at he
      rcases he with rfl | rfl | rfl <;> exact ⟨_, rfl, by decide⟩
  exact this vl hvl _ hmem

/-- The table of the example, computed. -/
example : textRows outputExample = .ok [
    [.text c!"   Loser ->\nv Winner", .text c!"A", .text c!"B", .text c!"C"],
    [.text c!"A (1-1-0)", .none, .num 6, .num 3],
    [.text c!"B (1-1-0)", .num 3, .none, .num 6],
    [.text c!"C (1-1-0)", .num 6, .num 3, .none]] := by decide +kernel

/-- The page of the example: A loses to C, who has a later row, so that cell was marked; it is the only one, so the
mark is gone. -/
example : (htmlPage outputExample true true).toOption.map (fun p => (p.rows.map HRow.cells, p.footnote)) = some (
    [[], [{ rk := c!"A", rkscore := 6, ck := c!"B", ckscore := 3, dagger := false }],
     [{ rk := c!"B", rkscore := 6, ck := c!"C", ckscore := 3, dagger := false },
      { rk := c!"A", rkscore := 3, ck := c!"C", ckscore := 6, dagger := false }]], true) := by decide +kernel

/-- non-vacuity of `C53_heading`: the example page has no metadata, so it gets the notice and the list of names -/
example : (htmlPage outputExample true false).toOption.map (fun p => (p.title.bind headText, p.desc.bind headText)) =
    some (some c!"(.metadata.title and .metadata.filename missing)", some c!"Candidate matchups for Amy, B, Cy") := by decide +kernel

/-! ## C54 -/

/-- A square matrix over `toks` with the numbers `v a b` off the diagonal. -/
def IsMatrix (d : PairDict) (toks : List Str) (v : Str → Str → Int) : Prop :=
  d.keys = toks ∧ toks.Nodup ∧ ∀ a ∈ toks, ∃ row, d.get? a = some row ∧ row.keys = toks ∧
    ∀ b ∈ toks, b ≠ a → row.get? b = some (some (v a b))

/-- the record of a candidate as the diagram prints it, and the long form for the top candidate -/
def shortLabel (c : Str) (w : WLT) : Str := c ++ c!"\n" ++ intStr w.wins ++ c!"-" ++ intStr w.losses ++ c!"-" ++ intStr w.ties
def longPart (w : WLT) : Str := c!"\n(" ++ intStr w.wins ++ c!" wins, " ++ intStr w.losses ++ c!" losses, " ++ intStr w.ties ++ c!" ties)"

theorem topFold_spec : ∀ (rest : List (Str × WLT)) (pre : List (Str × WLT)) (x : Str × WLT) (mid : List (Str × WLT)),
    (∀ e ∈ pre, e.2.wins < x.2.wins) → (∀ e ∈ mid, e.2.wins ≤ x.2.wins) →
    ∃ pre' c w post, pre ++ x :: mid ++ rest = pre' ++ (c, w) :: post ∧ (∀ e ∈ pre', e.2.wins < w.wins) ∧ (∀ e ∈ post, e.2.wins ≤ w.wins) ∧
      (rest.foldl (fun (best : Str × Int) kv => if kv.2.wins > best.2 then (kv.1, kv.2.wins) else best) (x.1, x.2.wins)).1 = c
  | [], pre, x, mid, h1, h2 => ⟨pre, x.1, x.2, mid, by simp, h1, h2, rfl⟩
  | y :: rest, pre, x, mid, h1, h2 => by
    rw [List.foldl_cons]
    by_cases hy : y.2.wins > x.2.wins
    · simp only [hy, if_true]
      obtain ⟨p, c, w, q, g1, g2, g3, g4⟩ := topFold_spec rest (pre ++ x :: mid) y [] (by
        intro e he
        rcases List.mem_append.1 he with h | h
        · have := h1 e h; omega
        · rcases List.mem_cons.1 h with rfl | h
          · exact hy
          · have := h2 e h; omega) (by simp)
      exact ⟨p, c, w, q, by rw [← g1]; simp, g2, g3, g4⟩
    · simp only [hy, if_false]
      obtain ⟨p, c, w, q, g1, g2, g3, g4⟩ := topFold_spec rest pre x (mid ++ [y]) h1 (by
        intro e he
        rcases List.mem_append.1 he with h | h
        · exact h2 e h
        · rw [List.mem_singleton] at h; subst h; omega)
      exact ⟨p, c, w, q, by rw [← g1]; simp, g2, g3, g4⟩

/-- C54, the nodes: every node shows the candidate and its record; the long form is added for one candidate, the
first of those with the most wins. -/
theorem C54_nodes (d : PairDict) (wlt : Dict Str WLT) (g : Graph) (h : copecountGraph { winningvotes := d, winlosstie := wlt } = .ok g) :
    ∃ pre c w post, wlt = pre ++ (c, w) :: post ∧ (∀ e ∈ pre, e.2.wins < w.wins) ∧ (∀ e ∈ post, e.2.wins ≤ w.wins) ∧
      g.nodes = wlt.map (fun kv => (kv.1, shortLabel kv.1 kv.2 ++ if kv.1 = c then longPart kv.2 else [])) := by
  unfold copecountGraph at h
  obtain ⟨top, htop, h⟩ := bind_ok.1 h
  obtain ⟨edges, _, h⟩ := bind_ok.1 h
  cases h
  cases wlt with
  | nil => cases htop
  | cons x rest =>
    obtain ⟨p, c, w, q, g1, g2, g3, g4⟩ := topFold_spec rest [] x [] (by simp) (by simp)
    obtain ⟨x1, x2⟩ := x
    have ht : top = c := by
      simp only [topCandidate, Except.ok.injEq] at htop
      rw [← htop]; exact g4
    subst ht
    refine ⟨p, top, w, q, by simpa using g1, g2, g3, ?_⟩
    simp only
    apply List.map_congr_left
    intro kv _
    simp [nodeLabel, shortLabel, longPart, recordStr, List.append_assoc]

/-- C54.  For every matrix and every (nonempty) win-loss-tie table, the graph has one node per entry of the
table, and an edge from `a` to `b` exactly when they are different candidates and `a` has at least as many votes
against `b` as `b` against `a`; no edge is drawn twice; the label of an edge shows the two counts. -/
theorem C54_graph (d : PairDict) (toks : List Str) (v : Str → Str → Int) (hd : IsMatrix d toks v)
    (wlt : Dict Str WLT) (hw : wlt ≠ []) :
    ∃ g, copecountGraph { winningvotes := d, winlosstie := wlt } = .ok g ∧
      g.nodes.map Prod.fst = wlt.keys ∧
      (g.edges.map Prod.fst).Nodup ∧
      (∀ a b, (a, b) ∈ g.edges.map Prod.fst ↔ a ∈ toks ∧ b ∈ toks ∧ a ≠ b ∧ v b a ≤ v a b) ∧
      (∀ a b l, ((a, b), l) ∈ g.edges →
        l = c!"← " ++ a ++ c!": " ++ intStr (v a b) ++ c!"\n" ++ b ++ c!": " ++ intStr (v b a)) := by
  obtain ⟨hk, hn, hrows⟩ := hd
  obtain ⟨top, htop⟩ : ∃ t, topCandidate wlt = .ok t := by
    cases wlt with
    | nil => exact absurd rfl hw
    | cons x t => exact ⟨_, rfl⟩
  have hdw : Dict.WF d := by unfold Dict.WF; rw [hk]; exact hn
  have hpg : ∀ a ∈ toks, ∀ b ∈ toks, a ≠ b → pairGet d a b = .ok (some (v a b)) := by
    intro a ha b hb hab
    obtain ⟨row, h1, h2, h3⟩ := hrows a ha
    unfold pairGet
    rw [Dict.getE_of_get? h1, ok_bind, Dict.getE_of_get? (h3 b hb (Ne.symm hab))]
  have hpd : ∀ a ∈ toks, ∃ x, pairGet d a a = .ok x := by
    intro a ha
    obtain ⟨row, h1, h2, h3⟩ := hrows a ha
    obtain ⟨x, hx⟩ := Dict.exists_get?_of_mem (d := row) (k := a) (by rw [h2]; exact ha)
    exact ⟨x, by unfold pairGet; rw [Dict.getE_of_get? h1, ok_bind, Dict.getE_of_get? hx]⟩
  -- what one matchup gives
  let E : Str → Str → Option ((Str × Str) × Str) := fun a b =>
    if a ≠ b ∧ v b a ≤ v a b then some ((a, b), edgeLabel a (v a b) b (v b a)) else none
  have hE : ∀ row ∈ d, ∀ cell ∈ row.2, vizEdge d row.1 cell.1 cell.2 = .ok (E row.1 cell.1) := by
    intro row hrow cell hcell
    have hr1 : row.1 ∈ toks := by rw [← hk]; exact List.mem_map_of_mem hrow
    obtain ⟨row', g1, g2, g3⟩ := hrows _ hr1
    have e : row' = row.2 := by
      have := Dict.get?_of_mem hdw hrow
      rw [g1] at this
      exact Option.some.inj this
    subst e
    have hrw : Dict.WF row.2 := by unfold Dict.WF; rw [g2]; exact hn
    have hc1 : cell.1 ∈ toks := by rw [← g2]; exact List.mem_map_of_mem hcell
    unfold vizEdge
    by_cases hab : row.1 = cell.1
    · obtain ⟨x, hx⟩ := hpd _ hr1
      rw [← hab, hx, ok_bind, if_pos rfl]
      simp [E]
    · rw [hpg _ hc1 _ hr1 (Ne.symm hab), ok_bind, if_neg hab]
      have : cell.2 = some (v row.1 cell.1) := by
        have h1 := g3 _ hc1 (Ne.symm hab)
        have h2 := Dict.get?_of_mem hrw hcell
        rw [h1] at h2
        exact (Option.some.inj h2).symm
      rw [this]
      by_cases hv : v row.1 cell.1 ≥ v cell.1 row.1
      · have e1 : E row.1 cell.1 = some ((row.1, cell.1), edgeLabel row.1 (v row.1 cell.1) cell.1 (v cell.1 row.1)) := if_pos ⟨hab, hv⟩
        rw [e1]
        simp only [hv, if_true]
      · have e1 : E row.1 cell.1 = none := if_neg (fun h => hv h.2)
        rw [e1]
        simp only [hv, if_false]
  have hedges : d.mapM (fun row => row.2.mapM fun cell => vizEdge d row.1 cell.1 cell.2) =
      .ok (toks.map (fun a => toks.map (E a))) := by
    rw [mapM_eq_map _ (fun row => row.2.map (fun cell => E row.1 cell.1))]
    · congr 1
      rw [← hk]
      unfold Dict.keys
      rw [List.map_map]
      apply List.map_congr_left
      intro row hrow
      simp only [Function.comp_apply]
      have hr1 : row.1 ∈ toks := by rw [← hk]; exact List.mem_map_of_mem hrow
      obtain ⟨row', g1, g2, g3⟩ := hrows _ hr1
      have e : row' = row.2 := by
        have := Dict.get?_of_mem hdw hrow
        rw [g1] at this
        exact Option.some.inj this
      subst e
      have hk2 : List.map Prod.fst d = List.map Prod.fst row.2 := hk.trans g2.symm
      rw [hk2, List.map_map]
      rfl
    · intro row hrow
      exact mapM_eq_map _ _ _ (hE row hrow)
  refine ⟨{ nodes := wlt.map fun kv => (kv.1, nodeLabel top kv.1 kv.2),
            edges := (toks.map (fun a => toks.map (E a))).flatten.filterMap id }, ?_, ?_, ?_, ?_, ?_⟩
  · unfold copecountGraph
    simp only
    rw [htop, ok_bind, hedges, ok_bind]
  · simp [Dict.keys, List.map_map, Function.comp_def]
  · have : ((toks.map (fun a => toks.map (E a))).flatten.filterMap id).map Prod.fst =
        toks.flatMap (fun a => (toks.filter (fun b => decide (a ≠ b ∧ v b a ≤ v a b))).map (fun b => (a, b))) := by
      rw [← List.flatMap_def, List.filterMap_flatMap, List.map_flatMap]
      apply List.flatMap_congr
      intro a _
      generalize toks = l
      induction l with
      | nil => rfl
      | cons b l ih =>
        rw [List.map_cons]
        by_cases hp : a ≠ b ∧ v b a ≤ v a b
        · have : E a b = some ((a, b), edgeLabel a (v a b) b (v b a)) := if_pos hp
          rw [this, List.filterMap_cons_some (by rfl), List.map_cons, ih, List.filter_cons_of_pos (by simpa using hp)]
          rfl
        · have : E a b = none := if_neg hp
          rw [this, List.filterMap_cons_none (by rfl), ih, List.filter_cons_of_neg (by simpa using hp)]
    rw [this, List.nodup_flatMap]
    constructor
    · intro a _
      exact (hn.filter _).map (fun x y h => (Prod.mk.inj h).2)
    · refine hn.imp ?_
      intro a b hab x hx hy
      obtain ⟨r1, _, rfl⟩ := List.mem_map.1 hx
      obtain ⟨r2, _, e2⟩ := List.mem_map.1 hy
      exact hab (Prod.mk.inj e2).1.symm
  · intro a b
    simp only [List.mem_map, List.mem_filterMap, List.mem_flatten, id]
    constructor
    · rintro ⟨e, ⟨x, ⟨l, ⟨a', ha', rfl⟩, hx⟩, rfl⟩, he⟩
      obtain ⟨b', hb', hE'⟩ := List.mem_map.1 hx
      simp only [E] at hE'
      split at hE'
      · rename_i hp
        cases hE'
        simp only [Prod.mk.injEq] at he
        obtain ⟨rfl, rfl⟩ := he
        exact ⟨ha', hb', hp⟩
      · cases hE'
    · rintro ⟨ha, hb, hp⟩
      exact ⟨((a, b), edgeLabel a (v a b) b (v b a)), ⟨_, ⟨_, ⟨a, ha, rfl⟩, List.mem_map.2 ⟨b, hb, if_pos hp⟩⟩, rfl⟩, rfl⟩
  · intro a b l hl
    simp only [List.mem_filterMap, List.mem_flatten, List.mem_map, id] at hl
    obtain ⟨x, ⟨l', ⟨a', ha', rfl⟩, hx⟩, rfl⟩ := hl
    obtain ⟨b', hb', hE'⟩ := List.mem_map.1 hx
    simp only [E] at hE'
    split at hE'
    · cases hE'
      simp [edgeLabel]
    · cases hE'

/-- C54 for elections: for every two different candidates there is an edge from the one more voters prefer, no edge
back unless they tie, and both edges when they tie. -/
theorem C54_election (m : Jabmod) (h : Spec.AllRanked m) (hn : m.candidates.keys.Nodup) (hne : m.candidates ≠ []) :
    ∃ cc g, fullCopecount m = .ok cc ∧ copecountGraph cc = .ok g ∧
      (g.nodes.map Prod.fst).Perm m.candidates.keys ∧
      ∀ a ∈ m.candidates.keys, ∀ b ∈ m.candidates.keys, a ≠ b →
        (support m b a < support m a b → (a, b) ∈ g.edges.map Prod.fst ∧ (b, a) ∉ g.edges.map Prod.fst) ∧
        (support m a b = support m b a → (a, b) ∈ g.edges.map Prod.fst ∧ (b, a) ∈ g.edges.map Prod.fst) := by
  have hw := winLossTie_support m h hn
  have hm : IsMatrix (pairwiseCount m) m.candidates.keys (support m) := by
    obtain ⟨h1, h2⟩ := C17_pairwise m h
    refine ⟨h1, hn, ?_⟩
    intro a ha
    obtain ⟨row, r1, r2, _, r4⟩ := h2 a ha
    exact ⟨row, r1, r2, r4⟩
  have hperm := sortByKeyDesc_perm (fun kv : Str × WLT => kv.2.wins) (m.candidates.keys.map (fun c => (c, recOf m c)))
  obtain ⟨g, hg, hnodes, _, hedge, _⟩ := C54_graph _ _ _ hm (sortByKeyDesc (fun kv : Str × WLT => kv.2.wins) (m.candidates.keys.map (fun c => (c, recOf m c)))) (by
    intro e
    have := hperm.length_eq
    rw [e] at this
    simp [Dict.keys] at this
    exact hne (List.eq_nil_of_length_eq_zero this.symm))
  refine ⟨_, g, by unfold fullCopecount; simp only; rw [hw]; rfl, hg, ?_, ?_⟩
  · rw [hnodes]
    have := hperm.map Prod.fst
    simpa [Dict.keys, List.map_map, Function.comp_def] using this
  · intro a ha b hb hab
    rw [hedge, hedge]
    constructor
    · intro hlt
      refine ⟨⟨ha, hb, hab, by omega⟩, ?_⟩
      rintro ⟨_, _, _, h4⟩
      omega
    · intro heq
      exact ⟨⟨ha, hb, hab, by omega⟩, hb, ha, Ne.symm hab, by omega⟩

/-- C54, error case: no candidates, no diagram (`max()` of an empty sequence). -/
theorem C54_empty (d : PairDict) : copecountGraph { winningvotes := d, winlosstie := [] } = .error .valueError := rfl

/-- The graph of the example. -/
example : ((fullCopecount outputExample).toOption.bind (fun cc => (copecountGraph cc).toOption)).map (fun g => (g.nodes, g.edges.map Prod.fst)) =
    some ([(c!"A", c!"A\n1-1-0\n(1 wins, 1 losses, 0 ties)"), (c!"B", c!"B\n1-1-0"), (c!"C", c!"C\n1-1-0")],
      [(c!"A", c!"B"), (c!"B", c!"C"), (c!"C", c!"A")]) := by decide +kernel

end Verif.Props
