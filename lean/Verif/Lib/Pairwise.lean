/-
Helper lemmas: the pairwise matrix.
-/
import Verif.Lib.Dict
import Verif.Lib.Sort
import Verif.Lib.Prefs
import Verif.Model.Tally
import Verif.Spec.Tally

set_option linter.unusedSimpArgs false
set_option linter.unusedSectionVars false

namespace Verif
open Spec

/-- the matrix with the given cells -/
def matrixOf (toks : List Str) (f : Str → Str → Option Int) : PairDict :=
  toks.map fun a => (a, toks.map fun b => (b, f a b))

theorem pairLine_matrixOf (vl : Voteline) (toks : List Str) (f : Str → Str → Option Int) :
    pairLine vl (matrixOf toks f) = matrixOf toks (fun a b => pairCell vl a b (f a b)) := by
  simp [pairLine, matrixOf, List.map_map, Function.comp_def]

/-- a cell after all votelines -/
def cellFold (vls : List Voteline) (a b : Str) (old : Option Int) : Option Int :=
  vls.foldl (fun o vl => pairCell vl a b o) old

theorem foldl_matrixOf (vls : List Voteline) (toks : List Str) (f : Str → Str → Option Int) :
    vls.foldl (fun d vl => pairLine vl d) (matrixOf toks f) = matrixOf toks (fun a b => cellFold vls a b (f a b)) := by
  induction vls generalizing f with
  | nil => rfl
  | cons vl vls ih =>
    rw [List.foldl_cons, pairLine_matrixOf, ih]
    rfl

theorem pairwiseCount_eq (m : Jabmod) :
    pairwiseCount m = matrixOf m.candidates.keys
      (fun a b => cellFold m.votelines a b (if a = b then none else some 0)) := by
  unfold pairwiseCount
  exact foldl_matrixOf _ _ _

theorem cellFold_diag (vls : List Voteline) (a : Str) : cellFold vls a a none = none := by
  unfold cellFold
  induction vls with
  | nil => rfl
  | cons vl vls ih => simpa [pairCell] using ih

theorem cellFold_some (vls : List Voteline) {a b : Str} (h : a ≠ b) (x : Int) : ∃ y, cellFold vls a b (some x) = some y := by
  unfold cellFold
  induction vls generalizing x with
  | nil => exact ⟨x, rfl⟩
  | cons vl vls ih =>
    rw [List.foldl_cons]
    have : ∃ z, pairCell vl a b (some x) = some z := by
      unfold pairCell
      rw [if_neg h]
      split
      · split
        · exact ⟨_, rfl⟩
        · exact ⟨_, rfl⟩
      · exact ⟨_, rfl⟩
    obtain ⟨z, hz⟩ := this
    rw [hz]
    exact ih z

theorem qtySum_nil (p : Voteline → Bool) : qtySum p [] = 0 := rfl
theorem qtySum_cons (p : Voteline → Bool) (vl : Voteline) (vls : List Voteline) :
    qtySum p (vl :: vls) = (if p vl then vl.qty else 0) + qtySum p vls := by
  unfold qtySum
  rw [List.filter_cons]
  split <;> simp

/-- the ranks of a line are all present and small -/
def LineRanked (vl : Voteline) : Prop :=
  ∀ c p, vl.prefs.get? c = some p → ∃ r, p.rank = some r ∧ r < 9223372036854775807

theorem pairCell_ranked {vl : Voteline} (hr : LineRanked vl) {a b : Str} (h : a ≠ b) (x : Int) :
    pairCell vl a b (some x) = some (x + if prefers vl a b then vl.qty else 0) := by
  unfold pairCell prefers rankOf lineRank
  rw [if_neg h]
  cases ha : vl.prefs.get? a with
  | none =>
    cases hb : vl.prefs.get? b with
    | none => simp
    | some pb =>
      obtain ⟨r, h1, h2⟩ := hr b pb hb
      simp only [Option.bind_none, h1, maxRank]
      rw [if_neg (by omega)]; simp
  | some pa =>
    obtain ⟨ra, h1, h2⟩ := hr a pa ha
    cases hb : vl.prefs.get? b with
    | none =>
      simp only [Option.bind_some, h1, Option.bind_none, maxRank]
      rw [if_pos (by omega)]; simp
    | some pb =>
      obtain ⟨rb, h3, h4⟩ := hr b pb hb
      simp only [Option.bind_some, h1, h3]
      by_cases hlt : ra < rb
      · simp [hlt]
      · simp [hlt]

theorem cellFold_eq {vls : List Voteline} (hr : ∀ vl ∈ vls, LineRanked vl) {a b : Str} (h : a ≠ b) (x : Int) :
    cellFold vls a b (some x) = some (x + qtySum (fun vl => prefers vl a b) vls) := by
  unfold cellFold
  induction vls generalizing x with
  | nil => simp [qtySum_nil]
  | cons vl vls ih =>
    rw [List.foldl_cons, pairCell_ranked (hr vl (by simp)) h, ih (fun v hv => hr v (by simp [hv])), qtySum_cons]
    rw [Int.add_assoc]

theorem pairGet_matrixOf {toks : List Str} {f : Str → Str → Option Int} {a b : Str} (ha : a ∈ toks) (hb : b ∈ toks) :
    pairGet (matrixOf toks f) a b = .ok (f a b) := by
  unfold pairGet matrixOf
  rw [Dict.getE_of_get? (v := toks.map fun b => (b, f a b)), ok_bind, Dict.getE_of_get? (v := f a b)]
  · rw [Dict.get?_mapKeys, if_pos hb]
  · rw [Dict.get?_mapKeys toks (fun a => toks.map fun b => (b, f a b)), if_pos ha]

/-! ### grouping: sums depend only on the weights -/

theorem qtySum_append (p : Voteline → Bool) (l₁ l₂ : List Voteline) : qtySum p (l₁ ++ l₂) = qtySum p l₁ + qtySum p l₂ := by
  simp [qtySum]

/-- weighted sum of a function of the preferences -/
def wSum (g : Dict Str Pref → Int) (vls : List Voteline) : Int := (vls.map (fun vl => g vl.prefs * vl.qty)).sum

theorem wSum_cons (g : Dict Str Pref → Int) (vl : Voteline) (vls : List Voteline) :
    wSum g (vl :: vls) = g vl.prefs * vl.qty + wSum g vls := rfl

theorem wSum_append (g : Dict Str Pref → Int) (l₁ l₂ : List Voteline) : wSum g (l₁ ++ l₂) = wSum g l₁ + wSum g l₂ := by
  simp [wSum]

theorem samePrefs_refl (p : Dict Str Pref) : SamePrefs p p := fun _ => rfl
theorem SamePrefs.symm {p q : Dict Str Pref} (h : SamePrefs p q) : SamePrefs q p := fun c => (h c).symm
theorem SamePrefs.trans {p q r : Dict Str Pref} (h : SamePrefs p q) (h' : SamePrefs q r) : SamePrefs p r :=
  fun c => (h c).trans (h' c)

theorem wSum_filter (g : Dict Str Pref → Int) (p : Voteline → Bool) (l : List Voteline) :
    wSum g l = wSum g (l.filter p) + wSum g (l.filter (fun v => !p v)) := by
  induction l with
  | nil => rfl
  | cons v l ih =>
    rw [wSum_cons, ih]
    cases h : p v <;> simp [List.filter_cons, h, wSum_cons] <;> omega

open Classical in
theorem wSum_zero (g : Dict Str Pref → Int) (P : Dict Str Pref → Prop)
    (hg : ∀ p q, P p → P q → SamePrefs p q → g p = g q) :
    ∀ (n : Nat) (l : List Voteline), l.length ≤ n → (∀ v ∈ l, P v.prefs) → (∀ p, weight l p = 0) → wSum g l = 0 := by
  intro n
  induction n with
  | zero =>
    intro l hl _ _
    cases l with
    | nil => rfl
    | cons _ _ => simp at hl
  | succ n ih =>
    intro l hl hP hw
    cases l with
    | nil => rfl
    | cons v l =>
      let same : Voteline → Bool := fun u => decide (SamePrefs u.prefs v.prefs)
      have hsplit := wSum_filter g same (v :: l)
      have h1 : ∀ l : List Voteline, (∀ u ∈ l, P u.prefs) → wSum g (l.filter same) = g v.prefs * weight l v.prefs := by
        intro l hl'
        unfold weight
        induction l with
        | nil => simp [wSum, qtySum]
        | cons u l ih =>
          rw [List.filter_cons, qtySum_cons]
          have ih := ih (fun u hu => hl' u (by simp [hu]))
          by_cases hu : SamePrefs u.prefs v.prefs
          · have : same u = true := by simp [same, hu]
            rw [this, if_pos rfl, wSum_cons, ih, hg _ _ (hl' u (by simp)) (hP v (by simp)) hu]
            simp only [hu, decide_true, if_true, Int.mul_add]
          · have : same u = false := by simp [same, hu]
            rw [this, if_neg (by simp), ih]
            simp [hu]
      have h2 : wSum g ((v :: l).filter (fun u => !same u)) = 0 := by
        apply ih
        · have : same v = true := by simp [same, samePrefs_refl]
          rw [List.filter_cons, this]
          simp only [Bool.not_true, Bool.false_eq_true, if_false]
          have := List.length_filter_le (fun u => !same u) l
          simp only [List.length_cons] at hl
          omega
        · intro u hu
          exact hP u (List.mem_filter.1 hu).1
        · intro p
          by_cases hp : SamePrefs p v.prefs
          · unfold weight qtySum
            rw [List.filter_filter]
            have : (v :: l).filter (fun a => decide (SamePrefs a.prefs p) && !same a) = [] := by
              rw [List.filter_eq_nil_iff]
              intro u _ hu
              simp only [Bool.and_eq_true, decide_eq_true_eq, Bool.not_eq_true', same, decide_eq_false_iff_not] at hu
              exact hu.2 (SamePrefs.trans hu.1 hp)
            rw [this]; rfl
          · rw [← hw p]
            unfold weight qtySum
            rw [List.filter_filter]
            congr 2
            apply List.filter_congr
            intro u _
            by_cases hu : SamePrefs u.prefs p
            · have : ¬ SamePrefs u.prefs v.prefs := fun h => hp (SamePrefs.trans (SamePrefs.symm hu) h)
              simp [hu, same, this]
            · simp [hu]
      rw [hsplit, h2, h1 _ hP, hw]
      simp

open Classical in
/-- a weighted sum is determined by the weights -/
theorem wSum_congr (g : Dict Str Pref → Int) (P : Dict Str Pref → Prop)
    (hg : ∀ p q, P p → P q → SamePrefs p q → g p = g q) {l l' : List Voteline}
    (hP : ∀ v ∈ l, P v.prefs) (hP' : ∀ v ∈ l', P v.prefs) (h : ∀ p, weight l p = weight l' p) : wSum g l = wSum g l' := by
  let neg : Voteline → Voteline := fun v => { v with qty := -v.qty }
  have hnegw : ∀ (p : Voteline → Bool), (∀ v, p (neg v) = p v) → ∀ l : List Voteline, qtySum p (l.map neg) = - qtySum p l := by
    intro p hp l
    induction l with
    | nil => rfl
    | cons v l ih =>
      rw [List.map_cons, qtySum_cons, qtySum_cons, hp, ih]
      have : (neg v).qty = -v.qty := rfl
      rw [this]
      split <;> omega
  have hnegs : ∀ l : List Voteline, wSum g (l.map neg) = - wSum g l := by
    intro l
    induction l with
    | nil => rfl
    | cons v l ih =>
      rw [List.map_cons, wSum_cons, wSum_cons, ih]
      have : (neg v).qty = -v.qty := rfl
      rw [this, Int.mul_neg]
      show -(g v.prefs * v.qty) + _ = _
      omega
  have := wSum_zero g P hg _ (l ++ l'.map neg) (Nat.le_refl _) (by
    intro v hv
    rcases List.mem_append.1 hv with hv | hv
    · exact hP v hv
    · obtain ⟨u, hu, rfl⟩ := List.mem_map.1 hv
      exact hP' u hu) (by
    intro p
    unfold weight at h ⊢
    rw [qtySum_append, hnegw _ (fun v => rfl), h p]
    omega)
  rw [wSum_append, hnegs] at this
  omega

theorem qtySum_eq_wSum (q : Dict Str Pref → Bool) (l : List Voteline) :
    qtySum (fun vl => q vl.prefs) l = wSum (fun p => if q p then 1 else 0) l := by
  induction l with
  | nil => rfl
  | cons v l ih =>
    rw [qtySum_cons, wSum_cons, ih]
    split <;> simp

/-- `prefers` only looks at the preference map -/
def prefersP (p : Dict Str Pref) (a b : Str) : Bool :=
  match (p.get? a).bind Pref.rank, (p.get? b).bind Pref.rank with
  | some ra, some rb => decide (ra < rb)
  | some _, none => true
  | none, _ => false

theorem prefers_eq (vl : Voteline) (a b : Str) : prefers vl a b = prefersP vl.prefs a b := rfl

theorem support_congr {m m' : Jabmod} (h : SameElection m m') (a b : Str) : support m a b = support m' a b := by
  unfold support
  simp only [prefers_eq]
  rw [qtySum_eq_wSum (fun p => prefersP p a b), qtySum_eq_wSum (fun p => prefersP p a b)]
  apply wSum_congr _ (fun _ => True)
  · intro p q _ _ hpq
    have : prefersP p a b = prefersP q a b := by unfold prefersP; rw [hpq a, hpq b]
    simp only [this]
  · simp
  · simp
  · exact h.2

end Verif
