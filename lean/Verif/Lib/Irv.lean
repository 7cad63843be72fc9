/-
Helper lemmas: the instant-runoff count.
-/
import Verif.Lib.Pairwise
import Verif.Lib.Sort
import Verif.Lib.Dict
import Verif.Spec.Irv

set_option linter.unusedSimpArgs false
set_option linter.unusedSectionVars false

namespace Verif
open Spec

/-! ### one line -/

/-- entries with their ranks -/
def rankPairs (prefs : Dict Str Pref) : List (Str × Int) := prefs.map (fun kp => (kp.1, kp.2.rank.getD 0))

/-- every entry has a rank -/
def Ranked (prefs : Dict Str Pref) : Prop := ∀ e ∈ prefs, e.2.rank.isSome = true

theorem mapM_ok_of_forall {α β ε : Type} (f : α → Except ε β) (g : α → β) (l : List α)
    (h : ∀ a ∈ l, f a = .ok (g a)) : l.mapM f = .ok (l.map g) := by
  induction l with
  | nil => rfl
  | cons a l ih =>
    rw [List.mapM_cons, h a (by simp), ih (fun b hb => h b (by simp [hb]))]
    rfl

theorem rankList_ok {prefs : Dict Str Pref} (h : Ranked prefs) :
    rankList prefs = .ok (sortByKey Prod.snd (rankPairs prefs)) := by
  unfold rankList
  rw [mapM_ok_of_forall _ (fun kp => (kp.1, kp.2.rank.getD 0))]
  · rfl
  · intro e he
    obtain ⟨r, hr⟩ := Option.isSome_iff_exists.1 (h e he)
    simp [hr]

/-- the sorted list of names and ranks -/
def rsort (prefs : Dict Str Pref) : List (Str × Int) := sortByKey Prod.snd (rankPairs prefs)

theorem rsort_perm (prefs : Dict Str Pref) : (rsort prefs).Perm (rankPairs prefs) := sortByKey_perm _ _

theorem rsort_length (prefs : Dict Str Pref) : (rsort prefs).length = prefs.length := by
  rw [(rsort_perm prefs).length_eq]; simp [rankPairs]

theorem rsort_eq_nil {prefs : Dict Str Pref} : rsort prefs = [] ↔ prefs = [] := by
  rw [← List.length_eq_zero_iff, rsort_length, List.length_eq_zero_iff]

theorem rsort_sorted (prefs : Dict Str Pref) : (rsort prefs).Pairwise (fun a b => a.2 ≤ b.2) := by
  have := sortByKey_sorted Prod.snd (rankPairs prefs)
  exact this

/-- the scan stops right after the last element not above `x` -/
theorem scanDown_eq (ranks : List Int) (x : Int) (k : Nat) (hk : 1 ≤ k)
    (hlow : ranks.getD (k - 1) 0 ≤ x) (hhigh : ∀ i, k ≤ i → i < ranks.length → x < ranks.getD i 0) :
    ∀ y yr, k ≤ y → y ≤ ranks.length → x < yr → scanDown ranks x y yr = k - 1 := by
  intro y
  induction y with
  | zero => intro yr h1; omega
  | succ y ih =>
    intro yr h1 h2 h3
    unfold scanDown
    rw [if_pos (by omega)]
    by_cases hy : k ≤ y
    · exact ih _ hy (by omega) (hhigh y hy (by omega))
    · have : y = k - 1 := by omega
      subst this
      cases hk' : k - 1 with
      | zero => rfl
      | succ j =>
        rw [hk'] at hlow
        unfold scanDown
        rw [if_neg (by omega)]

/-- the head of a sorted list of pairs starts its group of minimal elements -/
theorem sorted_countP (l : List (Str × Int)) (x : Int) (h : l.Pairwise (fun a b => a.2 ≤ b.2)) :
    (∀ i, i < l.countP (fun e => decide (e.2 ≤ x)) → (l.map Prod.snd).getD i 0 ≤ x) ∧
    (∀ i, l.countP (fun e => decide (e.2 ≤ x)) ≤ i → i < l.length → x < (l.map Prod.snd).getD i 0) := by
  induction l with
  | nil => simp
  | cons a l ih =>
    rw [List.pairwise_cons] at h
    obtain ⟨ih1, ih2⟩ := ih h.2
    by_cases ha : a.2 ≤ x
    · rw [List.countP_cons_of_pos (by simpa using ha)]
      constructor
      · intro i hi
        cases i with
        | zero => simpa using ha
        | succ i => simpa using ih1 i (by omega)
      · intro i hi hl
        cases i with
        | zero => omega
        | succ i => simpa using ih2 i (by omega) (by simpa using hl)
    · have hz : l.countP (fun e => decide (e.2 ≤ x)) = 0 := by
        rw [List.countP_eq_zero]
        intro b hb
        have := h.1 b hb
        simp; omega
      rw [List.countP_cons_of_neg (by simpa using ha), hz]
      constructor
      · intro i hi; omega
      · intro i _ hl
        cases i with
        | zero => simp; omega
        | succ i => simpa using ih2 i (by omega) (by simpa using hl)

theorem topIndex_eq {l : List (Str × Int)} (h : l.Pairwise (fun a b => a.2 ≤ b.2)) {x : Str × Int} {t : List (Str × Int)}
    (hl : l = x :: t) (hinf : x.2 < irvInfinity) :
    topIndex l + 1 = l.countP (fun e => decide (e.2 ≤ x.2)) := by
  have h1 : 1 ≤ l.countP (fun e => decide (e.2 ≤ x.2)) := by
    rw [List.one_le_countP_iff]
    exact ⟨x, by simp [hl], by simp⟩
  obtain ⟨c1, c2⟩ := sorted_countP l x.2 h
  have : topIndex l = l.countP (fun e => decide (e.2 ≤ x.2)) - 1 := by
    unfold topIndex
    subst hl
    obtain ⟨x1, x2⟩ := x
    apply scanDown_eq _ _ _ h1
    · exact c1 _ (by omega)
    · intro i hi hi'
      exact c2 i hi (by simpa using hi')
    · exact List.countP_le_length
    · simp
    · exact hinf
  omega

theorem topIndex_lt {l : List (Str × Int)} (h : l.Pairwise (fun a b => a.2 ≤ b.2)) {x : Str × Int} {t : List (Str × Int)}
    (hl : l = x :: t) (hinf : x.2 < irvInfinity) : topIndex l < l.length := by
  have := topIndex_eq h hl hinf
  have h2 : l.countP (fun e => decide (e.2 ≤ x.2)) ≤ l.length := List.countP_le_length
  omega

theorem rankOf_of_mem {vl : Voteline} (hw : Dict.WF vl.prefs) (hr : Ranked vl.prefs) {e : Str × Pref} (he : e ∈ vl.prefs) :
    rankOf vl e.1 = some (e.2.rank.getD 0) := by
  unfold rankOf
  rw [Dict.get?_of_mem hw he]
  obtain ⟨r, hr'⟩ := Option.isSome_iff_exists.1 (hr e he)
  simp [hr']

/-- tops of a ranked line through the pairs -/
theorem tops_length {vl : Voteline} (hw : Dict.WF vl.prefs) (hr : Ranked vl.prefs) {x : Str × Int} {t : List (Str × Int)}
    (hl : rsort vl.prefs = x :: t) :
    (tops vl).length = (rsort vl.prefs).countP (fun e => decide (e.2 ≤ x.2)) := by
  have hp := rsort_perm vl.prefs
  rw [hp.countP_eq]
  have hmin : ∀ e ∈ vl.prefs, x.2 ≤ e.2.rank.getD 0 := by
    intro e he
    have hs := rsort_sorted vl.prefs
    have hm : (e.1, e.2.rank.getD 0) ∈ rsort vl.prefs := hp.mem_iff.2 (List.mem_map.2 ⟨e, he, rfl⟩)
    rw [hl, List.pairwise_cons] at hs
    rw [hl] at hm
    rcases List.mem_cons.1 hm with h | h
    · rw [← h]; exact Int.le_refl _
    · exact hs.1 _ h
  have hx : ∃ e ∈ vl.prefs, e.1 = x.1 ∧ e.2.rank.getD 0 = x.2 := by
    have hm : x ∈ rankPairs vl.prefs := hp.mem_iff.1 (by simp [hl])
    obtain ⟨e, he, hh⟩ := List.mem_map.1 hm
    exact ⟨e, he, by rw [← hh], by rw [← hh]⟩
  unfold tops Dict.keys rankPairs
  rw [List.filter_map, List.length_map, List.countP_map, List.countP_eq_length_filter]
  congr 1
  apply List.filter_congr
  intro e he
  simp only [Function.comp_apply]
  rw [Bool.eq_iff_iff]
  simp only [List.all_eq_true, List.mem_map, decide_eq_true_eq]
  constructor
  · intro h
    obtain ⟨e', he', h1, h2⟩ := hx
    have := h e'.1 ⟨e', he', rfl⟩
    unfold prefers at this
    rw [rankOf_of_mem hw hr he', rankOf_of_mem hw hr he] at this
    simp at this
    omega
  · rintro h _ ⟨e', he', rfl⟩
    have := hmin e' he'
    unfold prefers
    rw [rankOf_of_mem hw hr he', rankOf_of_mem hw hr he]
    simp; omega

theorem mem_tops_head {vl : Voteline} (hw : Dict.WF vl.prefs) (hr : Ranked vl.prefs) {x : Str × Int} {t : List (Str × Int)}
    (hl : rsort vl.prefs = x :: t) : x.1 ∈ tops vl := by
  have hp := rsort_perm vl.prefs
  have hm : x ∈ rankPairs vl.prefs := hp.mem_iff.1 (by simp [hl])
  obtain ⟨e, he, hh⟩ := List.mem_map.1 hm
  have hx1 : e.1 = x.1 := by rw [← hh]
  have hx2 : e.2.rank.getD 0 = x.2 := by rw [← hh]
  unfold tops
  rw [List.mem_filter]
  refine ⟨by rw [← hx1]; exact List.mem_map.2 ⟨e, he, rfl⟩, ?_⟩
  rw [List.all_eq_true]
  intro d hd
  obtain ⟨e', he', rfl⟩ := List.mem_map.1 hd
  have hs := rsort_sorted vl.prefs
  have hm' : (e'.1, e'.2.rank.getD 0) ∈ rsort vl.prefs := hp.mem_iff.2 (List.mem_map.2 ⟨e', he', rfl⟩)
  rw [hl, List.pairwise_cons] at hs
  rw [hl] at hm'
  have hle : x.2 ≤ e'.2.rank.getD 0 := by
    rcases List.mem_cons.1 hm' with h | h
    · rw [← h]; exact Int.le_refl _
    · exact hs.1 _ h
  unfold prefers
  rw [← hx1, rankOf_of_mem hw hr he', rankOf_of_mem hw hr he]
  simp; omega

theorem tops_nil_iff {vl : Voteline} (hw : Dict.WF vl.prefs) (hr : Ranked vl.prefs) : tops vl = [] ↔ vl.prefs = [] := by
  constructor
  · intro h
    cases hl : rsort vl.prefs with
    | nil => exact rsort_eq_nil.1 hl
    | cons x t =>
      have := mem_tops_head hw hr hl
      rw [h] at this; cases this
  · intro h; unfold tops; rw [h]; rfl

/-- ranks below the program's infinity -/
def Below (prefs : Dict Str Pref) : Prop := ∀ e ∈ prefs, e.2.rank.getD 0 < irvInfinity

theorem rsort_head_below {prefs : Dict Str Pref} (hb : Below prefs) {x : Str × Int} {t : List (Str × Int)}
    (hl : rsort prefs = x :: t) : x.2 < irvInfinity := by
  have hm : x ∈ rankPairs prefs := (rsort_perm prefs).mem_iff.1 (by simp [hl])
  obtain ⟨e, he, hh⟩ := List.mem_map.1 hm
  have := hb e he
  rw [← hh]; exact this

theorem isOvervote_eq {vl : Voteline} (hw : Dict.WF vl.prefs) (hr : Ranked vl.prefs) (hb : Below vl.prefs) :
    isOvervote vl.prefs = .ok (overvoted vl) := by
  unfold isOvervote
  rw [rankList_ok hr]
  show Except.ok (!(rsort vl.prefs).isEmpty && topIndex (rsort vl.prefs) != 0) = _
  congr 1
  cases hl : rsort vl.prefs with
  | nil =>
    have : tops vl = [] := (tops_nil_iff hw hr).2 (rsort_eq_nil.1 hl)
    simp [overvoted, this]
  | cons x t =>
    have h1 := topIndex_eq (rsort_sorted vl.prefs) hl (rsort_head_below hb hl)
    have h2 := tops_length hw hr hl
    rw [← hl]
    unfold overvoted
    rw [h2, ← h1, Bool.eq_iff_iff]
    simp [hl]
    omega

theorem isOvervote_total {prefs : Dict Str Pref} (hr : Ranked prefs) : ∃ b, isOvervote prefs = .ok b := by
  unfold isOvervote
  rw [rankList_ok hr]
  exact ⟨_, rfl⟩

/-- `validTop` on a line that is not overvoted -/
theorem validTop_eq {vl : Voteline} (hw : Dict.WF vl.prefs) (hr : Ranked vl.prefs) (hb : Below vl.prefs)
    (ho : overvoted vl = false) (n : Nat) : validTop (n + 1) vl.prefs = .ok (tops vl).head? := by
  unfold validTop
  rw [rankList_ok hr]
  show (match rsort vl.prefs with | [] => _ | (x, _) :: _ => _) = _
  cases hl : rsort vl.prefs with
  | nil =>
    rw [(tops_nil_iff hw hr).2 (rsort_eq_nil.1 hl)]; rfl
  | cons x t =>
    have h1 := topIndex_eq (rsort_sorted vl.prefs) hl (rsort_head_below hb hl)
    have h2 := tops_length hw hr hl
    have h3 := mem_tops_head hw hr hl
    unfold overvoted at ho
    simp only [decide_eq_false_iff_not] at ho
    obtain ⟨x1, x2⟩ := x
    simp only
    rw [if_pos (by show topIndex (rsort _) = 0; omega)]
    congr 1
    have hpos := List.length_pos_of_mem h3
    match ht : tops vl with
    | [] => rw [ht] at h3; cases h3
    | [c] => rw [ht] at h3; simp at h3; simp [h3]
    | _ :: _ :: _ => rw [ht] at ho; simp at ho

/-- the entries below the tied top group -/
def nextPrefs (prefs : Dict Str Pref) : Dict Str Pref :=
  ((rsort prefs).drop (topIndex (rsort prefs) + 1)).filterMap (fun k => (Dict.get? prefs k.1).map (fun p => (k.1, p)))

theorem validTop_nil (n : Nat) {prefs : Dict Str Pref} (hr : Ranked prefs) (hl : rsort prefs = []) :
    validTop (n + 1) prefs = .ok none := by
  rw [rsort_eq_nil] at hl
  subst hl; rfl

theorem validTop_cons (n : Nat) {prefs : Dict Str Pref} (hr : Ranked prefs) {x : Str × Int} {t : List (Str × Int)}
    (hl : rsort prefs = x :: t) :
    validTop (n + 1) prefs = if topIndex (rsort prefs) = 0 then .ok (some x.1) else validTop n (nextPrefs prefs) := by
  rw [validTop, rankList_ok hr, ok_bind]
  have hl' := hl
  unfold rsort at hl'
  unfold nextPrefs rsort
  rw [hl']

theorem nextPrefs_mem {prefs : Dict Str Pref} {e : Str × Pref} (h : e ∈ nextPrefs prefs) :
    Dict.get? prefs e.1 = some e.2 ∧ e.1 ∈ ((rsort prefs).drop (topIndex (rsort prefs) + 1)).map Prod.fst := by
  obtain ⟨k, hk1, hk⟩ := List.mem_filterMap.1 h
  obtain ⟨p, hp, rfl⟩ := Option.map_eq_some_iff.1 hk
  exact ⟨hp, List.mem_map.2 ⟨k, hk1, rfl⟩⟩

theorem nextPrefs_ranked {prefs : Dict Str Pref} (hr : Ranked prefs) : Ranked (nextPrefs prefs) :=
  fun _ he => hr _ (Dict.mem_of_get? (nextPrefs_mem he).1)

theorem nextPrefs_length {prefs : Dict Str Pref} (h : prefs ≠ []) : (nextPrefs prefs).length < prefs.length := by
  have h3 := List.length_filterMap_le (fun k : Str × Int => (Dict.get? prefs k.1).map (fun p => (k.1, p)))
    ((rsort prefs).drop (topIndex (rsort prefs) + 1))
  have h5 : 0 < prefs.length := List.length_pos_iff.2 h
  rw [List.length_drop, rsort_length] at h3
  unfold nextPrefs
  omega

theorem rsort_head_mem {prefs : Dict Str Pref} {x : Str × Int} {t : List (Str × Int)} (hl : rsort prefs = x :: t) :
    x.1 ∈ Dict.keys prefs := by
  have hm : x ∈ rankPairs prefs := (rsort_perm prefs).mem_iff.1 (by simp [hl])
  obtain ⟨e, he, rfl⟩ := List.mem_map.1 hm
  exact List.mem_map.2 ⟨e, he, rfl⟩

theorem validTop_total : ∀ (n : Nat) (prefs : Dict Str Pref), Ranked prefs → prefs.length < n →
    ∃ r, validTop n prefs = .ok r ∧ ∀ c, r = some c → c ∈ Dict.keys prefs
  | 0, _, _, h => by omega
  | n + 1, prefs, hr, hn => by
    cases hl : rsort prefs with
    | nil => exact ⟨none, validTop_nil n hr hl, by simp⟩
    | cons x t =>
      rw [validTop_cons n hr hl]
      by_cases h0 : topIndex (rsort prefs) = 0
      · rw [if_pos h0]
        exact ⟨some x.1, rfl, by rintro c ⟨⟩; exact rsort_head_mem hl⟩
      · rw [if_neg h0]
        obtain ⟨r, h1, h2⟩ := validTop_total n (nextPrefs prefs) (nextPrefs_ranked hr) (by
          have : prefs ≠ [] := fun h => by rw [← rsort_eq_nil, hl] at h; cases h
          have := nextPrefs_length this
          omega)
        refine ⟨r, h1, ?_⟩
        intro c hc
        obtain ⟨e, he, rfl⟩ := List.mem_map.1 (h2 c hc)
        exact Dict.mem_keys_of_get? (nextPrefs_mem he).1

/-! ### discarding overvotes -/

/-- sum of quantities -/
def qtot (vls : List Voteline) : Int := (vls.map Voteline.qty).sum

theorem qtot_cons (v : Voteline) (l : List Voteline) : qtot (v :: l) = v.qty + qtot l := by simp [qtot]

theorem discard_total : ∀ (vls : List Voteline), (∀ vl ∈ vls, Ranked vl.prefs) →
    ∃ q kept, discardOvervotes vls = .ok (q, kept) ∧ kept.Sublist vls ∧ q + qtot kept = qtot vls
  | [], _ => ⟨0, [], rfl, .refl _, rfl⟩
  | [v], h => by
    obtain ⟨b, hb⟩ := isOvervote_total (h v (by simp))
    unfold discardOvervotes
    rw [hb, ok_bind]
    cases b
    · exact ⟨0, [v], rfl, .refl _, by simp [qtot]⟩
    · exact ⟨v.qty, [], rfl, by simp, by simp [qtot]⟩
  | v :: w :: rest, h => by
    obtain ⟨b, hb⟩ := isOvervote_total (h v (by simp))
    unfold discardOvervotes
    rw [hb, ok_bind]
    cases b
    · obtain ⟨q, kept, h1, h2, h3⟩ := discard_total (w :: rest) (fun x hx => h x (by simp [List.mem_cons.1 hx]))
      simp only [Bool.false_eq_true, if_false]
      rw [h1, ok_bind]
      exact ⟨q, v :: kept, rfl, h2.cons_cons v, by rw [qtot_cons, qtot_cons, ← h3]; omega⟩
    · obtain ⟨q, kept, h1, h2, h3⟩ := discard_total rest (fun x hx => h x (by simp [hx]))
      simp only [if_true]
      rw [h1, ok_bind]
      refine ⟨v.qty + q, w :: kept, rfl, (h2.cons_cons w).cons v, ?_⟩
      rw [qtot_cons, qtot_cons, qtot_cons, ← h3]; omega

/-- well-formed line with small ranks -/
structure CountLine (vl : Voteline) : Prop where
  wf : Dict.WF vl.prefs
  ranked : Ranked vl.prefs
  below : Below vl.prefs

theorem discard_eq : ∀ (vls : List Voteline), (∀ vl ∈ vls, CountLine vl) → adjacentOvervotes vls = false →
    discardOvervotes vls = .ok (qtySum overvoted vls, vls.filter (fun vl => !overvoted vl))
  | [], _, _ => rfl
  | [v], h, _ => by
    have hv := h v (by simp)
    unfold discardOvervotes
    rw [isOvervote_eq hv.wf hv.ranked hv.below, ok_bind]
    cases ho : overvoted v
    · simp [discardOvervotes, qtySum, ho]; rfl
    · simp [qtySum, ho]
  | v :: w :: rest, h, hadj => by
    have hv := h v (by simp)
    unfold adjacentOvervotes at hadj
    rw [Bool.or_eq_false_iff] at hadj
    have ih := discard_eq (w :: rest) (fun x hx => h x (by simp [List.mem_cons.1 hx])) hadj.2
    unfold discardOvervotes
    rw [isOvervote_eq hv.wf hv.ranked hv.below, ok_bind]
    cases ho : overvoted v
    · simp only [Bool.false_eq_true, if_false]
      rw [ih, ok_bind, qtySum_cons overvoted v]
      simp [ho]
    · simp only [if_true]
      have hw : overvoted w = false := by simpa [ho] using hadj.1
      have hadj' : adjacentOvervotes rest = false := by
        cases rest with
        | nil => rfl
        | cons z r =>
          have := hadj.2
          unfold adjacentOvervotes at this
          rw [Bool.or_eq_false_iff] at this
          exact this.2
      rw [discard_eq rest (fun x hx => h x (by simp [hx])) hadj', ok_bind, qtySum_cons, qtySum_cons]
      simp [ho, hw]

/-! ### counting -/

/-- the candidate a kept line is credited to -/
def topOf (vl : Voteline) : Option Str :=
  match validTop (vl.prefs.length + 1) vl.prefs with
  | .ok r => credited r
  | .error _ => none

theorem topOf_of_total {vl : Voteline} (hr : Ranked vl.prefs) :
    ∃ r, validTop (vl.prefs.length + 1) vl.prefs = .ok r ∧ topOf vl = credited r ∧ ∀ c, topOf vl = some c → c ∈ Dict.keys vl.prefs := by
  obtain ⟨r, h1, h2⟩ := validTop_total _ _ hr (Nat.lt_succ_self _)
  refine ⟨r, h1, by unfold topOf; rw [h1], ?_⟩
  intro c hc
  unfold topOf at hc
  rw [h1] at hc
  simp only at hc
  apply h2
  unfold credited at hc
  split at hc
  · cases hc
  · exact hc

theorem countLoop_eq (cands : List Str) (hn : cands.Nodup) : ∀ (vls : List Voteline) (f : Str → Int) (bc ex : Int),
    (∀ vl ∈ vls, Ranked vl.prefs) → (∀ vl ∈ vls, ∀ c, topOf vl = some c → c ∈ cands) →
    countLoop vls { counts := cands.map (fun c => (c, f c)), ballotcount := bc, exhausted := ex } =
      .ok { counts := cands.map (fun c => (c, f c + qtySum (fun vl => topOf vl == some c) vls))
            ballotcount := bc + qtot vls
            exhausted := ex + qtySum (fun vl => topOf vl == none) vls }
  | [], f, bc, ex, _, _ => by simp [countLoop, qtySum, qtot]
  | v :: rest, f, bc, ex, hr, hc => by
    obtain ⟨r, h1, h2, _⟩ := topOf_of_total (hr v (by simp))
    unfold countLoop
    rw [h1, ok_bind]
    simp only
    rw [← h2]
    cases ht : topOf v with
    | none =>
      simp only
      rw [countLoop_eq cands hn rest f _ _ (fun x hx => hr x (by simp [hx])) (fun x hx => hc x (by simp [hx]))]
      congr 1
      rw [qtySum_cons, qtot_cons]
      simp only [ht, beq_self_eq_true, if_true, CountAcc.mk.injEq]
      refine ⟨?_, by omega, by omega⟩
      apply List.map_congr_left
      intro c _
      rw [qtySum_cons]
      simp [ht]
    | some c =>
      have hcm := hc v (by simp) c ht
      have hget : Dict.get? (cands.map (fun c => (c, f c))) c = some (f c) := by
        rw [Dict.get?_mapKeys]; simp [hcm]
      simp only
      rw [Dict.getE_of_get? hget, ok_bind]
      have hset : Dict.set (cands.map (fun c => (c, f c))) c (f c + v.qty) =
          cands.map (fun d => (d, if d = c then f c + v.qty else f d)) := by
        clear hget ht h2 hc
        induction cands with
        | nil => cases hcm
        | cons a l ih =>
          rw [List.nodup_cons] at hn
          simp only [List.map_cons]
          unfold Dict.set
          by_cases ha : a = c
          · subst ha
            simp only [if_true, List.cons.injEq, true_and]
            apply List.map_congr_left
            intro d hd
            have : d ≠ a := fun h => hn.1 (h ▸ hd)
            simp [this]
          · have : c ∈ l := by
              rcases List.mem_cons.1 hcm with h | h
              · exact absurd h.symm ha
              · exact h
            simp only [ha, if_false, List.cons.injEq, true_and]
            exact ih hn.2 this
      rw [hset, countLoop_eq cands hn rest (fun d => if d = c then f c + v.qty else f d) _ _
        (fun x hx => hr x (by simp [hx])) (fun x hx => hc x (by simp [hx]))]
      congr 1
      rw [qtySum_cons, qtot_cons]
      simp only [ht, CountAcc.mk.injEq]
      refine ⟨?_, by omega, by simp⟩
      apply List.map_congr_left
      intro d _
      rw [qtySum_cons]
      simp only [ht, Prod.mk.injEq, true_and]
      by_cases hd : d = c
      · subst hd; simp; omega
      · have : (some c == some d) = false := by simpa using fun h => hd h.symm
        simp [hd, this]

end Verif
