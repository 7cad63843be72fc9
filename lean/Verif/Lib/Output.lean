/-
Lemmas about the output tables.
-/
import Verif.Model.Output
import Verif.Lib.Wlt
import Verif.Lib.Prefs
import Mathlib.Data.List.Nodup
import Mathlib.Data.List.Forall2

set_option linter.unusedSimpArgs false
set_option linter.unusedSectionVars false

namespace Verif
open Spec

theorem pairwiseCount_support (m : Jabmod) (h : Spec.AllRanked m) :
    pairwiseCount m = matrixOf m.candidates.keys (fun a b => if a = b then none else some (support m a b)) := by
  rw [pairwiseCount_eq]
  unfold matrixOf
  apply List.map_congr_left
  intro a _
  congr 1
  apply List.map_congr_left
  intro b _
  congr 1
  show cellFold m.votelines a b (if a = b then none else some 0) = (if a = b then none else some (support m a b))
  by_cases hab : a = b
  · subst hab; rw [if_pos rfl, if_pos rfl, cellFold_diag]
  · rw [if_neg hab, if_neg hab, cellFold_eq (fun vl hvl => h vl hvl) hab]
    simp [support]

/-- the record the program computes, in terms of the ballots: ties are counted twice -/
def recOf (m : Jabmod) (c : Str) : WLT := { wins := winsOf m c, losses := lossesOf m c, ties := 2 * tiesOf m c }

theorem winLossTie_support (m : Jabmod) (h : Spec.AllRanked m) (hn : m.candidates.keys.Nodup) :
    winLossTie m.candidates.keys (pairwiseCount m) =
      .ok (sortByKeyDesc (fun kv : Str × WLT => kv.2.wins) (m.candidates.keys.map (fun c => (c, recOf m c)))) := by
  apply winLossTie_ok (v := support m) hn
  intro a ha b hb
  rw [pairwiseCount_support m h, pairGet_matrixOf ha hb]
  refine ⟨⟨_, rfl⟩, ?_⟩
  intro hab
  rw [if_neg hab]

theorem get?_sorted_map (f : Str → WLT) {toks : List Str} (hn : toks.Nodup) (c : Str) (hc : c ∈ toks) :
    Dict.get? (sortByKeyDesc (fun kv : Str × WLT => kv.2.wins) (toks.map (fun c => (c, f c)))) c = some (f c) := by
  rw [← Dict.get?_perm (sortByKeyDesc_perm _ _).symm, Dict.get?_mapKeys toks f, if_pos hc]
  unfold Dict.WF
  simpa [Dict.keys, List.map_map, Function.comp_def] using hn

/-- candidates by decreasing wins -/
def byWins (m : Jabmod) : List Str := sortByKeyDesc (winsOf m) m.candidates.keys

theorem byWins_perm (m : Jabmod) : (byWins m).Perm m.candidates.keys := sortByKeyDesc_perm _ _

theorem byWins_sorted (m : Jabmod) : (byWins m).Pairwise (fun a b => winsOf m b ≤ winsOf m a) := sortByKeyDesc_sorted _ _

theorem candsByWins_eq (m : Jabmod) (h : Spec.AllRanked m) (hn : m.candidates.keys.Nodup) :
    candsByWins (pairwiseCount m)
      (sortByKeyDesc (fun kv : Str × WLT => kv.2.wins) (m.candidates.keys.map (fun c => (c, recOf m c)))) = .ok (byWins m) := by
  unfold candsByWins
  have hk : (pairwiseCount m).keys = m.candidates.keys := by
    rw [pairwiseCount_support m h]
    simp [matrixOf, Dict.keys, List.map_map, Function.comp_def]
  rw [hk, mapM_eq_map _ (fun c => (c, winsOf m c))]
  · show Except.ok _ = Except.ok _
    congr 1
    unfold byWins sortByKeyDesc
    rw [pySort_map (fun c => (c, winsOf m c)) (fun a b => decide (winsOf m b ≤ winsOf m a)), List.map_map]
    · simp [Function.comp_def]
    · intro a b; rfl
  · intro c hc
    rw [Dict.getE_of_get? (get?_sorted_map (recOf m) hn c hc)]
    rfl

/-! ### HTML -/

/-- the cell of the matchup of `rk` and `ck`, before the footnote takes a dagger -/
def mkCell (m : Jabmod) (ck rk : Str) : HCell :=
  { rk := rk, rkscore := support m rk ck, ck := ck, ckscore := support m ck rk,
    dagger := !(decide (support m rk ck > support m ck rk)) }

/-- the candidates that get a cell in the row of `ck` -/
def rowCands (order : List Str) (ck : Str) : List Str :=
  order.reverse.filter (fun rk => decide (ck ≠ rk) && !(decide (order.idxOf ck < order.idxOf rk)))

def mkRow (m : Jabmod) (order : List Str) (ck : Str) (name : Option Str) (colspan : Int) : HRow :=
  { label := htmlLabel ck name
    record := '(' :: (recordStr (recOf m ck) ++ [')'])
    colspan := if winsOf m ck > 0 then colspan else colspan + 1
    victories := if winsOf m ck > 0 then some (ck ++ c!" victories") else none
    cells := (rowCands order ck).map (mkCell m ck)
    losses := if lossesOf m ck > 0 then c!"← " ++ ck ++ c!" losses" else ck ++ c!" is undefeated" }

theorem htmlCell_eq (m : Jabmod) (h : Spec.AllRanked m) {order : List Str} {ck rk : Str}
    (hc : ck ∈ m.candidates.keys) (hr : rk ∈ m.candidates.keys) :
    htmlCell (pairwiseCount m) order ck rk =
      .ok (if (decide (ck ≠ rk) && !(decide (order.idxOf ck < order.idxOf rk))) = true then some (mkCell m ck rk) else none) := by
  unfold htmlCell
  by_cases h1 : ck = rk
  · simp [h1]
  · rw [if_neg h1]
    by_cases h2 : order.idxOf ck < order.idxOf rk
    · rw [if_pos h2]; simp [h1, h2]
    · rw [if_neg h2, pairwiseCount_support m h, pairGet_matrixOf hr hc, pairGet_matrixOf hc hr, if_neg h1,
        if_neg (Ne.symm h1)]
      simp only [ok_bind]
      rw [if_pos (by simp [h1, h2])]
      rfl

theorem htmlRow_eq (m : Jabmod) (h : Spec.AllRanked m) (hn : m.candidates.keys.Nodup) {ck : Str} (hc : ck ∈ m.candidates.keys)
    {name : Option Str} (hname : m.candidates.get? ck = some name) (colspan : Int) :
    htmlRow m (pairwiseCount m) (sortByKeyDesc (fun kv : Str × WLT => kv.2.wins) (m.candidates.keys.map (fun c => (c, recOf m c))))
      (byWins m) ck colspan = .ok (mkRow m (byWins m) ck name colspan) := by
  unfold htmlRow
  rw [Dict.getE_of_get? hname, ok_bind, Dict.getE_of_get? (get?_sorted_map (recOf m) hn ck hc), ok_bind,
    mapM_eq_map _ (fun rk => if (decide (ck ≠ rk) && !(decide ((byWins m).idxOf ck < (byWins m).idxOf rk))) = true then some (mkCell m ck rk) else none)]
  · simp only [ok_bind]
    unfold mkRow rowCands
    congr 2
    generalize (byWins m).reverse = l
    induction l with
    | nil => rfl
    | cons x l ih =>
      simp only [List.map_cons]
      by_cases hp : (decide (ck ≠ x) && !(decide ((byWins m).idxOf ck < (byWins m).idxOf x))) = true
      · rw [List.filter_cons, if_pos hp, if_pos hp, List.filterMap_cons_some (by rfl), ih]; rfl
      · rw [List.filter_cons, if_neg hp, if_neg hp, List.filterMap_cons_none (by rfl), ih]
  · intro rk hrk
    exact htmlCell_eq m h hc ((byWins_perm m).mem_iff.1 (by simpa using hrk))

/-- the rows, for the candidates of `l` -/
def mkRows (m : Jabmod) (order : List Str) : List Str → Int → List HRow
  | [], _ => []
  | ck :: rest, colspan => mkRow m order ck ((m.candidates.get? ck).getD none) colspan :: mkRows m order rest (colspan - 1)

theorem htmlRows_eq (m : Jabmod) (h : Spec.AllRanked m) (hn : m.candidates.keys.Nodup) (l : List Str)
    (hl : ∀ c ∈ l, c ∈ m.candidates.keys) (colspan : Int) :
    htmlRows m (pairwiseCount m) (sortByKeyDesc (fun kv : Str × WLT => kv.2.wins) (m.candidates.keys.map (fun c => (c, recOf m c))))
      (byWins m) l colspan = .ok (mkRows m (byWins m) l colspan) := by
  induction l generalizing colspan with
  | nil => rfl
  | cons ck l ih =>
    unfold htmlRows mkRows
    have hc := hl ck (by simp)
    obtain ⟨name, hname⟩ := Dict.exists_get?_of_mem hc
    rw [htmlRow_eq m h hn hc hname, ok_bind, ih (fun c hc => hl c (by simp [hc])), ok_bind, hname]
    rfl

theorem mkRows_cells (m : Jabmod) (order l : List Str) (colspan : Int) :
    (mkRows m order l colspan).flatMap HRow.cells = l.flatMap (fun ck => (rowCands order ck).map (mkCell m ck)) := by
  induction l generalizing colspan with
  | nil => rfl
  | cons ck l ih => rw [mkRows, List.flatMap_cons, List.flatMap_cons, ih]; rfl

theorem unmarkCells_append_some (l₁ l₂ l₂' : List HCell) (h : unmarkCells l₂ = some l₂') :
    unmarkCells (l₁ ++ l₂) = some (l₁ ++ l₂') := by
  induction l₁ with
  | nil => exact h
  | cons c l₁ ih => simp [unmarkCells, ih]

theorem unmarkCells_append_none (l₁ l₂ : List HCell) (h : unmarkCells l₂ = none) :
    unmarkCells (l₁ ++ l₂) = (unmarkCells l₁).map (· ++ l₂) := by
  induction l₁ with
  | nil => simpa [unmarkCells] using h
  | cons c l₁ ih =>
    simp only [List.cons_append, unmarkCells, ih]
    cases unmarkCells l₁ with
    | some x => rfl
    | none =>
      simp only [Option.map_none]
      by_cases hd : c.dagger <;> simp [hd]

theorem unmarkRows_cells (rows : List HRow) :
    (unmarkRows rows).map (fun rs => rs.flatMap HRow.cells) = unmarkCells (rows.flatMap HRow.cells) := by
  induction rows with
  | nil => rfl
  | cons r rows ih =>
    unfold unmarkRows
    cases hr : unmarkRows rows with
    | some rs' =>
      rw [hr] at ih
      simp only [Option.map_some, List.flatMap_cons]
      rw [unmarkCells_append_some _ _ _ ih.symm]
    | none =>
      rw [hr] at ih
      simp only [List.flatMap_cons]
      rw [unmarkCells_append_none _ _ ih.symm]
      cases unmarkCells r.cells <;> simp

/-- everything but the matchup cells -/
def HRow.frame (r : HRow) : Str × Str × Int × Option Str × Str := (r.label, r.record, r.colspan, r.victories, r.losses)

theorem unmarkRows_frame {rows rows' : List HRow} (h : unmarkRows rows = some rows') :
    rows'.map HRow.frame = rows.map HRow.frame := by
  induction rows generalizing rows' with
  | nil => cases h
  | cons r rows ih =>
    unfold unmarkRows at h
    cases hr : unmarkRows rows with
    | some rs' =>
      rw [hr] at h
      simp only [Option.some.injEq] at h
      subst h
      simp [ih hr]
    | none =>
      rw [hr] at h
      simp only at h
      cases hc : unmarkCells r.cells with
      | none => rw [hc] at h; cases h
      | some cs =>
        rw [hc] at h
        simp only [Option.some.injEq] at h
        subst h
        rfl

theorem unmarkCells_none {l : List HCell} : unmarkCells l = none ↔ ∀ c ∈ l, c.dagger = false := by
  induction l with
  | nil => simp [unmarkCells]
  | cons c l ih =>
    unfold unmarkCells
    cases hu : unmarkCells l with
    | some x =>
      simp only [reduceCtorEq, false_iff]
      intro hall
      have := ih.2 (fun d hd => hall d (by simp [hd]))
      rw [hu] at this
      cases this
    | none =>
      have := ih.1 hu
      by_cases hd : c.dagger = true
      · simp [hd]
      · simp [hd]
        exact this

/-- the dagger is taken off exactly the last cell that has one -/
theorem unmarkCells_spec {l l' : List HCell} (h : unmarkCells l = some l') :
    l'.map (fun c => (c.rk, c.rkscore, c.ck, c.ckscore)) = l.map (fun c => (c.rk, c.rkscore, c.ck, c.ckscore)) ∧
    (∃ c ∈ l, c.dagger = true) ∧
    ∀ (i : Nat) (c : HCell), l'[i]? = some c → (c.dagger = true ↔ (∃ d, l[i]? = some d ∧ d.dagger = true) ∧ ∃ (j : Nat) (d : HCell), i < j ∧ l[j]? = some d ∧ d.dagger = true) := by
  induction l generalizing l' with
  | nil => cases h
  | cons c l ih =>
    unfold unmarkCells at h
    cases hu : unmarkCells l with
    | some x =>
      rw [hu] at h
      simp only [Option.some.injEq] at h
      subst h
      obtain ⟨e1, ⟨d, hd, hdd⟩, e3⟩ := ih hu
      refine ⟨by simp [e1], ⟨d, by simp [hd], hdd⟩, ?_⟩
      intro i
      cases i with
      | zero =>
        intro c' hc'
        simp only [List.getElem?_cons_zero, Option.some.injEq] at hc'
        subst hc'
        obtain ⟨j, hj, hj'⟩ := List.mem_iff_getElem.1 hd
        constructor
        · intro hdag
          refine ⟨⟨c, by simp, hdag⟩, j + 1, d, by omega, ?_, hdd⟩
          rw [List.getElem?_cons_succ, List.getElem?_eq_getElem hj, hj']
        · rintro ⟨⟨d', hd', hdd'⟩, _⟩
          simp only [List.getElem?_cons_zero, Option.some.injEq] at hd'
          subst hd'
          exact hdd'
      | succ i =>
        intro c' hc'
        rw [List.getElem?_cons_succ] at hc'
        rw [e3 i c' hc']
        simp only [List.getElem?_cons_succ]
        constructor
        · rintro ⟨h1, j, d, hij, hjd, hdd⟩
          exact ⟨h1, j + 1, d, by omega, by simpa using hjd, hdd⟩
        · rintro ⟨h1, j, d, hij, hjd, hdd⟩
          obtain ⟨j', rfl⟩ : ∃ j', j = j' + 1 := ⟨j - 1, by omega⟩
          exact ⟨h1, j', d, by omega, by simpa using hjd, hdd⟩
    | none =>
      rw [hu] at h
      have hnone := unmarkCells_none.1 hu
      by_cases hd : c.dagger = true
      · rw [if_pos hd] at h
        simp only [Option.some.injEq] at h
        subst h
        refine ⟨by simp, ⟨c, by simp, hd⟩, ?_⟩
        intro i c' hc'
        have hno : ∀ (j : Nat) (d : HCell), 0 < j → (c :: l)[j]? = some d → d.dagger = true → False := by
          intro j d hj hjd hdd
          obtain ⟨j', rfl⟩ : ∃ j', j = j' + 1 := ⟨j - 1, by omega⟩
          rw [List.getElem?_cons_succ] at hjd
          have := hnone d (List.mem_of_getElem? hjd)
          rw [hdd] at this
          cases this
        constructor
        · intro hdag
          cases i with
          | zero =>
            simp only [List.getElem?_cons_zero, Option.some.injEq] at hc'
            subst hc'
            cases hdag
          | succ i =>
            rw [List.getElem?_cons_succ] at hc'
            have := hnone c' (List.mem_of_getElem? hc')
            rw [hdag] at this
            cases this
        · rintro ⟨_, j, d, hij, hjd, hdd⟩
          exact (hno j d (by omega) hjd hdd).elim
      · rw [if_neg hd] at h
        cases h

theorem mem_rowCands {order : List Str} (hn : order.Nodup) {ck rk : Str} (hc : ck ∈ order) :
    rk ∈ rowCands order ck ↔ rk ∈ order ∧ order.idxOf rk < order.idxOf ck := by
  unfold rowCands
  simp only [List.mem_filter, List.mem_reverse, Bool.and_eq_true, decide_eq_true_eq, Bool.not_eq_true',
    decide_eq_false_iff_not]
  constructor
  · rintro ⟨h1, h2, h3⟩
    refine ⟨h1, ?_⟩
    have : order.idxOf rk ≠ order.idxOf ck := by
      intro e
      apply h2
      exact ((List.idxOf_inj hc).1 e.symm)
    omega
  · rintro ⟨h1, h2⟩
    refine ⟨h1, ?_, by omega⟩
    rintro rfl
    omega

theorem filter_length_one {α : Type} {l : List α} {p : α → Bool} (hn : l.Nodup) {x : α} (hx : x ∈ l) (hp : p x = true)
    (hu : ∀ y ∈ l, p y = true → y = x) : (l.filter p).length = 1 := by
  induction l with
  | nil => cases hx
  | cons a l ih =>
    rw [List.nodup_cons] at hn
    rcases List.mem_cons.1 hx with rfl | hx
    · rw [List.filter_cons_of_pos hp]
      have : l.filter p = [] := by
        rw [List.filter_eq_nil_iff]
        intro y hy hpy
        have := hu y (by simp [hy]) hpy
        subst this
        exact hn.1 hy
      simp [this]
    · have ha : p a ≠ true := by
        intro hpa
        have := hu a (by simp) hpa
        subst this
        exact hn.1 hx
      rw [List.filter_cons_of_neg ha]
      exact ih hn.2 hx (fun y hy => hu y (by simp [hy]))

end Verif
