/-
The pairwise and score counts on objects only look at them.
-/
import Verif.Lib.HeapCount

namespace Verif

open Spec

/-- a computation on objects that only looks, with the given result -/
theorem collect_map {α β : Type} {f : α → HM β} {g : α → β} {h : Heap} : ∀ (l : List α), (∀ x ∈ l, f x h = (.ok (g x), h)) →
    HM.collect f l h = (.ok (l.map g), h)
  | [], _ => rfl
  | x :: l, hx => by
    have ih := collect_map l (fun y hy => hx y (List.mem_cons_of_mem _ hy))
    unfold HM.collect
    rw [HM.bind_of_ok (hx x (List.mem_cons_self ..)), HM.bind_of_ok ih]
    rfl

theorem lineRankH_reads {h : Heap} {d : Dict Str Addr} {D : Dict Str Pref} (hd : itemsAt h d = some D) (t : Str) :
    lineRankH d t h = (.ok (lineRank D t), h) := by
  unfold lineRankH lineRank
  rcases itemsAt_get? t hd with ⟨h1, h2⟩ | ⟨a, p, h1, h2, h3⟩
  · rw [h1, h2]; rfl
  · rw [h1, h2]
    simp only
    rw [HM.bind_of_ok (HM.look_of h3)]
    rfl

theorem pairCellH_reads {h : Heap} {d : Dict Str Addr} {v : Voteline} (hd : itemsAt h d = some v.prefs) (a b : Str) (old : Option Int) :
    pairCellH v.qty d a b old h = (.ok (pairCell v a b old), h) := by
  unfold pairCellH pairCell
  rw [HM.bind_of_ok (lineRankH_reads hd a), HM.bind_of_ok (lineRankH_reads hd b)]
  by_cases hab : a = b
  · rw [if_pos hab, if_pos hab]; rfl
  · rw [if_neg hab, if_neg hab]
    cases lineRank v.prefs a with
    | none => rfl
    | some ra =>
      cases lineRank v.prefs b with
      | none => rfl
      | some rb => rfl

theorem pairLineH_reads {h : Heap} {x : Addr} {v : Voteline} (hv : lineAt h x = some v) (m : PairDict) :
    pairLineH x m h = (.ok (pairLine v m), h) := by
  obtain ⟨l, d, g1, g2, g3, g4, q1, _⟩ := lineAt_some hv
  unfold pairLineH pairLine
  rw [HM.bind_of_ok (HM.look_of g1), HM.bind_of_ok (HM.look_of g2), q1]
  refine collect_map m ?_
  intro row _
  rw [HM.bind_of_ok (collect_map (g := fun cell => (cell.1, pairCell v row.1 cell.1 cell.2)) row.2 ?_)]
  · rfl
  · intro cell _
    rw [HM.bind_of_ok (pairCellH_reads g3 _ _ _)]
    rfl

theorem pairLinesH_reads {h : Heap} : ∀ {l : List Addr} {vls : List Voteline} (m : PairDict), linesOfAddrs h l = some vls →
    pairLinesH l m h = (.ok (vls.foldl (fun d vl => pairLine vl d) m), h)
  | [], vls, m, hv => by cases hv; rfl
  | x :: l, vls, m, hv => by
    obtain ⟨v, vls, h1, h2, rfl⟩ := linesOfAddrs_cons hv
    unfold pairLinesH
    rw [HM.bind_of_ok (pairLineH_reads h1 m), pairLinesH_reads _ h2]
    rfl

theorem pairwiseCountH_reads {h : Heap} {a : Addr} {m : Jabmod} (hm : modelAt h a = some m) :
    pairwiseCountH a h = (.ok (pairwiseCount m), h) := by
  obtain ⟨j, l, h1, _, h3, _, h5, h6⟩ := modelAt_some hm
  unfold pairwiseCountH pairwiseCount
  rw [HM.bind_of_ok (HM.look_of h1), HM.bind_of_ok (HM.look_of h3), HM.bind_of_ok (HM.look_of h5)]
  exact pairLinesH_reads _ h6

section
variable [U : Uni]

theorem scorePrefsH_reads {h : Heap} (qty : Int) : ∀ {d : Dict Str Addr} {D : Dict Str Pref} (r : Dict Str ScoreEntry),
    itemsAt h d = some D → scorePrefsH qty d r h = (scorePrefs qty D r, h)
  | [], D, r, hd => by cases hd; rfl
  | (k, x) :: d, D, r, hd => by
    obtain ⟨p, D, h1, h2, rfl⟩ := itemsAt_cons hd
    unfold scorePrefsH scorePrefs
    rw [HM.bind_of_ok (HM.look_of h1), HM.bind_eq, HM.value_eq]
    cases ratingInt p.rating with
    | error e => rfl
    | ok rt =>
      simp only [ok_bind]
      rw [HM.bind_eq, HM.value_eq]
      cases Dict.getE r k with
      | error e => rfl
      | ok e => exact scorePrefsH_reads qty _ h2

theorem scoreLinesH_reads {h : Heap} : ∀ {l : List Addr} {vls : List Voteline} (r : Dict Str ScoreEntry),
    linesOfAddrs h l = some vls → scoreLinesH l r h = (scoreLines vls r, h)
  | [], vls, r, hv => by cases hv; rfl
  | x :: l, vls, r, hv => by
    obtain ⟨v, vls, h1, h2, rfl⟩ := linesOfAddrs_cons hv
    obtain ⟨lo, d, g1, g2, g3, g4, q1, _⟩ := lineAt_some h1
    unfold scoreLinesH scoreLines
    rw [HM.bind_of_ok (HM.look_of g1), HM.bind_of_ok (HM.look_of g2), HM.bind_eq, scorePrefsH_reads _ r g3, q1]
    cases scorePrefs v.qty v.prefs r with
    | error e => rfl
    | ok r' => exact scoreLinesH_reads r' h2

theorem basicScoreH_reads {h : Heap} {a : Addr} {m : Jabmod} (hm : modelAt h a = some m) :
    basicScoreH a h = (basicScore m, h) := by
  obtain ⟨j, l, h1, _, h3, _, h5, h6⟩ := modelAt_some hm
  unfold basicScoreH basicScore
  rw [HM.bind_of_ok (HM.look_of h1), HM.bind_of_ok (HM.look_of h3), HM.bind_of_ok (HM.look_of h5)]
  exact scoreLinesH_reads _ h6

end

end Verif
