/-
Properties of `clean_dict` (C50) and `_modify_jabmod` (C51).
-/
import Verif.Spec.PyVal
import Verif.Lib.Dict

set_option linter.unusedSectionVars false
set_option linter.unusedSimpArgs false

namespace Verif.Props
open Spec

/-! ### clean_dict -/

theorem cleanDictItems_eq (l : List PyVal) : cleanDictItems l = l.map cleanDict := by
  induction l with
  | nil => simp [cleanDictItems]
  | cons v t ih => simp [cleanDictItems, ih]

theorem cleanDictEntries_eq (l : List (Key × PyVal)) :
    cleanDictEntries l = l.map (fun (e : Key × PyVal) => (e.1, cleanDict e.2)) := by
  induction l with
  | nil => simp [cleanDictEntries]
  | cons v t ih => obtain ⟨k, v⟩ := v; simp [cleanDictEntries, ih]

theorem reach_hashable {v w : PyVal} (hv : Hashable v) (h : Reach v w) : w = v := by
  cases h with
  | refl => rfl
  | list => exact hv.elim
  | dict => exact hv.elim

theorem cleaned_reach {v : PyVal} (hs : SetsOk v) :
    ∀ {w : PyVal}, Reach (cleanDict v) w → ∀ (l : List PyVal), w ≠ .set l := by
  match v with
  | .set l =>
    intro w hw
    simp only [cleanDict] at hw
    cases hw with
    | refl => intro l h; cases h
    | list hm hr =>
      have hh := hs l (.refl _) _ hm
      rw [reach_hashable hh hr]
      intro l' h; rw [h] at hh; exact hh
  | .null => intro w hw; simp only [cleanDict] at hw; cases hw; intro l h; cases h
  | .bool b => intro w hw; simp only [cleanDict] at hw; cases hw; intro l h; cases h
  | .int i => intro w hw; simp only [cleanDict] at hw; cases hw; intro l h; cases h
  | .str i => intro w hw; simp only [cleanDict] at hw; cases hw; intro l h; cases h
  | .tuple i => intro w hw; simp only [cleanDict] at hw; cases hw; intro l h; cases h
  | .list l =>
    intro w hw
    simp only [cleanDict, cleanDictItems_eq] at hw
    cases hw with
    | refl => intro l h; cases h
    | list hm hr =>
      obtain ⟨x, hx, rfl⟩ := List.mem_map.1 hm
      exact cleaned_reach (v := x) (fun l' h' => hs l' (.list hx h')) hr
  | .dict l =>
    intro w hw
    simp only [cleanDict, cleanDictEntries_eq] at hw
    cases hw with
    | refl => intro l h; cases h
    | dict hm hr =>
      obtain ⟨⟨k, x⟩, hx, he⟩ := List.mem_map.1 hm
      cases he
      exact cleaned_reach (v := x) (fun l' h' => hs l' (.dict hx h')) hr
termination_by sizeOf v
decreasing_by
  · simp_wf; have := List.sizeOf_lt_of_mem hx; omega
  · simp_wf; have := List.sizeOf_lt_of_mem hx; simp at this; omega

/-- C50.  The result contains no set at any place reachable through dicts and lists. -/
theorem C50_no_sets (v : PyVal) (hs : SetsOk v) (l : List PyVal) : ¬ Reach (cleanDict v) (.set l) :=
  fun h => cleaned_reach hs h l rfl

theorem cleanDict_id {v : PyVal} (h : ∀ (l : List PyVal), ¬ Reach v (.set l)) : cleanDict v = v := by
  match v with
  | .set l => exact absurd (.refl _) (h l)
  | .null => rfl
  | .bool b => rfl
  | .int i => rfl
  | .str i => rfl
  | .tuple i => rfl
  | .list l =>
    simp only [cleanDict, cleanDictItems_eq]
    congr 1
    refine (List.map_congr_left ?_).trans (List.map_id l)
    intro x hx
    exact cleanDict_id (v := x) (fun l' h' => h l' (.list hx h'))
  | .dict l =>
    simp only [cleanDict, cleanDictEntries_eq]
    congr 1
    refine (List.map_congr_left ?_).trans (List.map_id l)
    rintro ⟨k, x⟩ hx
    simp only [id_eq, Prod.mk.injEq, true_and]
    exact cleanDict_id (v := x) (fun l' h' => h l' (.dict hx h'))
termination_by sizeOf v
decreasing_by
  · simp_wf; have := List.sizeOf_lt_of_mem hx; omega
  · simp_wf; have := List.sizeOf_lt_of_mem hx; simp at this; omega

/-- C50.  A structure without sets (reachable through dicts and lists) is returned unchanged. -/
theorem C50_unchanged (v : PyVal) (h : ∀ (l : List PyVal), ¬ Reach v (.set l)) : cleanDict v = v := cleanDict_id h

/-- C50.  Cleaning twice is the same as cleaning once. -/
theorem C50_idempotent (v : PyVal) (hs : SetsOk v) : cleanDict (cleanDict v) = cleanDict v :=
  cleanDict_id (fun l => C50_no_sets v hs l)

theorem cleanDict_step {v w : PyVal} {k : Key} (ht : ∀ l, v ≠ .tuple l) (h : v.getItem k = .ok w) :
    (cleanDict v).getItem k = .ok (cleanDict w) := by
  cases v with
  | tuple l => exact absurd rfl (ht l)
  | null => cases k <;> simp [PyVal.getItem] at h
  | bool => cases k <;> simp [PyVal.getItem] at h
  | int => cases k <;> simp [PyVal.getItem] at h
  | set => cases k <;> simp [PyVal.getItem] at h
  | str s =>
    cases k with
    | str => simp [PyVal.getItem] at h
    | int i =>
      have : cleanDict w = w := by
        simp only [PyVal.getItem] at h
        split at h
        · split at h
          · cases h; rfl
          · cases h
        · cases h
      rw [this]; exact h
  | list l =>
    simp only [cleanDict, cleanDictItems_eq]
    cases k with
    | str => simp [PyVal.getItem] at h
    | int i =>
      simp only [PyVal.getItem, List.length_map] at h ⊢
      cases hp : listPos l.length i with
      | none => rw [hp] at h; cases h
      | some n =>
        rw [hp] at h
        simp only [List.getElem?_map] at h ⊢
        cases hx : l[n]? with
        | none => rw [hx] at h; cases h
        | some x => rw [hx] at h; cases h; rfl
  | dict l =>
    simp only [cleanDict, cleanDictEntries_eq, PyVal.getItem] at h ⊢
    rw [Dict.getE_ok] at h ⊢
    rw [Dict.get?_map l (fun _ x => cleanDict x), h]
    rfl

/-- C50.  Everything else stays in its place: whatever a path of subscripts that does not go through a tuple
finds in the input, the same path finds in the result, cleaned; in particular a scalar or a tuple is found
unchanged, and where the input has a set the result has a list of exactly its elements. -/
theorem C50_paths (v w : PyVal) (p : List Key) (h : getPath v p = .ok w)
    (ht : ∀ p1 p2 l, p = p1 ++ p2 → p2 ≠ [] → getPath v p1 ≠ .ok (.tuple l)) :
    getPath (cleanDict v) p = .ok (cleanDict w) := by
  induction p generalizing v with
  | nil => simp only [getPath] at h ⊢; cases h; rfl
  | cons k p ih =>
    unfold getPath at h ⊢
    cases hg : v.getItem k with
    | error e => rw [hg] at h; cases h
    | ok x =>
      rw [hg] at h
      rw [cleanDict_step (fun l hl => ht [] (k :: p) l rfl (by simp) (by rw [hl]; rfl)) hg]
      refine ih x h ?_
      intro p1 p2 l hp hne hgp
      refine ht (k :: p1) p2 l (by rw [hp]; rfl) hne ?_
      unfold getPath; rw [hg]; exact hgp

/-- C50.  A set found by such a path is replaced by a list of exactly its elements. -/
theorem C50_set_elements (v : PyVal) (p : List Key) (l : List PyVal) (h : getPath v p = .ok (.set l))
    (ht : ∀ p1 p2 l, p = p1 ++ p2 → p2 ≠ [] → getPath v p1 ≠ .ok (.tuple l)) :
    getPath (cleanDict v) p = .ok (.list l) := C50_paths v (.set l) p h ht

/-- The limit of C50: a set inside a tuple is not converted, so the result can still hold a set. -/
theorem C50_tuple_limit (l : List PyVal) : cleanDict (.list [.tuple [.set l]]) = .list [.tuple [.set l]] := by
  simp [cleanDict, cleanDictItems]

/-- `{"winner": {"A", "B"}, "n": 3, "rounds": [{"C"}]}` -/
def exPyVal : PyVal := .dict [(.str c!"winner", .set [.str c!"A", .str c!"B"]), (.str c!"n", .int 3),
  (.str c!"rounds", .list [.set [.str c!"C"]])]

example : SetsOk exPyVal := by
  intro l h x hx
  simp only [exPyVal] at h
  have key : ∀ (s : Str), x = .str s → Hashable x := by rintro s rfl; trivial
  cases h with
  | dict hm hr =>
    simp only [List.mem_cons, Prod.mk.injEq, List.not_mem_nil, or_false] at hm
    rcases hm with ⟨_, rfl⟩ | ⟨_, rfl⟩ | ⟨_, rfl⟩
    · cases hr
      simp only [List.mem_cons, List.not_mem_nil, or_false] at hx
      rcases hx with rfl | rfl <;> exact trivial
    · cases hr
    · cases hr with
      | list hm hr =>
        simp only [List.mem_cons, List.not_mem_nil, or_false] at hm
        subst hm
        cases hr
        simp only [List.mem_cons, List.not_mem_nil, or_false] at hx
        subst hx; exact trivial
example : cleanDict exPyVal = .dict [(.str c!"winner", .list [.str c!"A", .str c!"B"]), (.str c!"n", .int 3),
    (.str c!"rounds", .list [.list [.str c!"C"]])] := by
  simp [exPyVal, cleanDict, cleanDictEntries, cleanDictItems]
example : getPath exPyVal [.str c!"rounds", .int (-1)] = .ok (.set [.str c!"C"]) := by
  simp [exPyVal, getPath, PyVal.getItem, Dict.getE, Dict.get?, listPos]

/-! ### _modify_jabmod -/

theorem listPos_lt {n : Nat} {i : Int} {k : Nat} (h : listPos n i = some k) : k < n := by
  unfold listPos at h
  split at h
  · cases h; omega
  · split at h
    · cases h; omega
    · cases h

theorem listPos_other {n : Nat} {i j : Int} {a b : Nat} (ha : listPos n i = some a) (hb : listPos n j = some b)
    (h1 : i ≠ j) (h2 : i ≠ j + n) (h3 : j ≠ i + n) : a ≠ b := by
  unfold listPos at ha hb
  split at ha <;> split at hb
  · cases ha; cases hb; omega
  · split at hb
    · cases ha; cases hb; omega
    · cases hb
  · split at ha
    · cases ha; cases hb; omega
    · cases ha
  · split at ha
    · split at hb
      · cases ha; cases hb; omega
      · cases hb
    · cases ha

/-- storing into an existing or new slot: that slot then holds the value -/
theorem setItem_self {v v' x : PyVal} {k : Key} (h : v.setItem k x = .ok v') : v'.getItem k = .ok x := by
  cases v with
  | dict l =>
    simp only [PyVal.setItem] at h
    cases h
    simp only [PyVal.getItem]
    rw [Dict.getE_ok, Dict.get?_set_self]
  | list l =>
    cases k with
    | str s => simp [PyVal.setItem] at h
    | int i =>
      simp only [PyVal.setItem] at h
      cases hp : listPos l.length i with
      | none => rw [hp] at h; cases h
      | some n =>
        rw [hp] at h; cases h
        simp only [PyVal.getItem, List.length_set, hp]
        rw [List.getElem?_set_self (listPos_lt hp)]
  | _ => cases k <;> simp [PyVal.setItem] at h

theorem getItem_set_other {l : List PyVal} {i j : Int} {n : Nat} {x : PyVal} (hp : listPos l.length i = some n)
    (h1 : i ≠ j) (h2 : i ≠ j + l.length ∧ j ≠ i + l.length) {m : Nat} (hq : listPos l.length j = some m) :
    (l.set n x)[m]? = l[m]? := by
  rw [List.getElem?_set_ne (listPos_other hp hq h1 h2.1 h2.2)]

theorem setItem_other {v v' x : PyVal} {k k' : Key} (h : v.setItem k x = .ok v') (ho : OtherSlot v k k') :
    v'.getItem k' = v.getItem k' := by
  cases v with
  | dict l =>
    simp only [PyVal.setItem] at h
    cases h
    simp only [PyVal.getItem]
    unfold Dict.getE
    rw [Dict.get?_set_ne _ _ ho.1]
  | list l =>
    cases k with
    | str s => simp [PyVal.setItem] at h
    | int i =>
      simp only [PyVal.setItem] at h
      cases hp : listPos l.length i with
      | none => rw [hp] at h; cases h
      | some n =>
        rw [hp] at h; cases h
        cases k' with
        | str s => rfl
        | int j =>
          have hij : i ≠ j := fun e => ho.1 (by rw [e])
          simp only [PyVal.getItem, List.length_set]
          cases hq : listPos l.length j with
          | none => rfl
          | some m => simp only [getItem_set_other hp hij ho.2 hq]
  | _ => cases k <;> simp [PyVal.setItem] at h

theorem putBack_self {v w x : PyVal} {k : Key} (h : v.getItem k = .ok w) (hs : ∀ s, v ≠ .str s) :
    (v.putBack k x).getItem k = .ok x := by
  cases v with
  | str s => exact absurd rfl (hs s)
  | dict l =>
    simp only [PyVal.putBack, PyVal.getItem]
    rw [Dict.getE_ok, Dict.get?_set_self]
  | list l =>
    cases k with
    | str s => simp [PyVal.getItem] at h
    | int i =>
      simp only [PyVal.putBack, PyVal.getItem] at h ⊢
      cases hp : listPos l.length i with
      | none => rw [hp] at h; cases h
      | some n =>
        simp only [List.length_set, hp]
        rw [List.getElem?_set_self (listPos_lt hp)]
  | tuple l =>
    cases k with
    | str s => simp [PyVal.getItem] at h
    | int i =>
      simp only [PyVal.putBack, PyVal.getItem] at h ⊢
      cases hp : listPos l.length i with
      | none => rw [hp] at h; cases h
      | some n =>
        simp only [List.length_set, hp]
        rw [List.getElem?_set_self (listPos_lt hp)]
  | _ => cases k <;> simp [PyVal.getItem] at h

theorem putBack_other {v w x : PyVal} {k k' : Key} (h : v.getItem k = .ok w) (ho : OtherSlot v k k') :
    (v.putBack k x).getItem k' = v.getItem k' := by
  cases v with
  | str s => cases k <;> rfl
  | dict l =>
    simp only [PyVal.putBack, PyVal.getItem]
    unfold Dict.getE
    rw [Dict.get?_set_ne _ _ ho.1]
  | list l =>
    cases k with
    | str s => simp [PyVal.getItem] at h
    | int i =>
      simp only [PyVal.putBack] at h ⊢
      cases hp : listPos l.length i with
      | none => rfl
      | some n =>
        cases k' with
        | str s => rfl
        | int j =>
          have hij : i ≠ j := fun e => ho.1 (by rw [e])
          simp only [PyVal.getItem, List.length_set]
          cases hq : listPos l.length j with
          | none => rfl
          | some m => simp only [getItem_set_other hp hij ho.2 hq]
  | tuple l =>
    cases k with
    | str s => simp [PyVal.getItem] at h
    | int i =>
      simp only [PyVal.putBack] at h ⊢
      cases hp : listPos l.length i with
      | none => rfl
      | some n =>
        cases k' with
        | str s => rfl
        | int j =>
          have hij : i ≠ j := fun e => ho.1 (by rw [e])
          simp only [PyVal.getItem, List.length_set]
          cases hq : listPos l.length j with
          | none => rfl
          | some m => simp only [getItem_set_other hp hij ho.2 hq]
  | _ => cases k <;> simp [PyVal.getItem] at h

/-- characters of a string cannot be modified -/
theorem modify_str (s : Str) (p : List Key) (x v' : PyVal) : modifyJabmod (.str s) p x ≠ .ok v' := by
  induction p generalizing s v' with
  | nil => intro h; cases h
  | cons k p ih =>
    cases p with
    | nil => cases k <;> simp [modifyJabmod, PyVal.setItem]
    | cons k2 r =>
      unfold modifyJabmod
      intro h
      cases hg : (PyVal.str s).getItem k with
      | error e => rw [hg] at h; cases h
      | ok w =>
        rw [hg] at h
        have : ∃ c, w = .str [c] := by
          cases k with
          | str => simp [PyVal.getItem] at hg
          | int i =>
            simp only [PyVal.getItem] at hg
            split at hg
            · split at hg
              · cases hg; exact ⟨_, rfl⟩
              · cases hg
            · cases hg
        obtain ⟨c, rfl⟩ := this
        simp only at h
        cases hm : modifyJabmod (.str [c]) (k2 :: r) x with
        | error e => rw [hm] at h; cases h
        | ok u => exact ih _ _ hm

/-- C51.  When the call succeeds, the path then leads to the new value. -/
theorem C51_set (v v' x : PyVal) (p : List Key) (h : modifyJabmod v p x = .ok v') : getPath v' p = .ok x := by
  induction p generalizing v v' with
  | nil => cases h
  | cons k p ih =>
    cases p with
    | nil =>
      simp only [modifyJabmod] at h
      simp only [getPath]
      rw [setItem_self h]
    | cons k2 r =>
      have hstr : ∀ s, v ≠ .str s := by rintro s rfl; exact modify_str s _ x v' h
      unfold modifyJabmod at h
      cases hg : v.getItem k with
      | error e => rw [hg] at h; cases h
      | ok w =>
        rw [hg] at h
        simp only at h
        cases hm : modifyJabmod w (k2 :: r) x with
        | error e => rw [hm] at h; cases h
        | ok u =>
          rw [hm] at h
          simp only at h
          cases h
          rw [getPath, putBack_self hg hstr]
          exact ih w u hm

/-- C51.  Every path that takes a different slot somewhere finds exactly what it found before
(the same value, or the same error). -/
theorem C51_frame (v v' x : PyVal) (p q : List Key) (h : modifyJabmod v p x = .ok v') (hq : Leaves v p q) :
    getPath v' q = getPath v q := by
  induction hq generalizing v' with
  | @here v k k' p q ho =>
    cases p with
    | nil =>
      simp only [modifyJabmod] at h
      rw [getPath, getPath, setItem_other h ho]
    | cons k2 r =>
      unfold modifyJabmod at h
      cases hg : v.getItem k with
      | error e => rw [hg] at h; cases h
      | ok w =>
        rw [hg] at h
        simp only at h
        cases hm : modifyJabmod w (k2 :: r) x with
        | error e => rw [hm] at h; cases h
        | ok u =>
          rw [hm] at h
          simp only at h
          cases h
          rw [getPath, getPath, putBack_other hg ho]
  | @deeper v w k p q hg hl ih =>
    cases p with
    | nil => cases hl
    | cons k2 r =>
      have hstr : ∀ s, v ≠ .str s := by rintro s rfl; exact modify_str s _ x v' h
      unfold modifyJabmod at h
      rw [hg] at h
      simp only at h
      cases hm : modifyJabmod w (k2 :: r) x with
      | error e => rw [hm] at h; cases h
      | ok u =>
        rw [hm] at h
        simp only at h
        cases h
        rw [getPath, getPath, putBack_self hg hstr, hg]
        exact ih u hm

theorem modify_error_cons {v : PyVal} {k : Key} {p : List Key} {x : PyVal} (hp : p ≠ []) :
    (∃ v', modifyJabmod v (k :: p) x = .ok v') ↔ ∃ w, v.getItem k = .ok w ∧ ∃ u, modifyJabmod w p x = .ok u := by
  cases p with
  | nil => exact absurd rfl hp
  | cons k2 r =>
    rw [modifyJabmod]
    cases hg : v.getItem k with
    | error e => simp
    | ok w =>
      simp only
      cases hm : modifyJabmod w (k2 :: r) x with
      | error e => simp [hm]
      | ok u => simp [hm]

/-- C51.  The call succeeds exactly when the path up to its last key exists and the container there accepts
an assignment: a dict (any key, new or old) or a list (an index within its range).  In every other case —
a missing intermediate key, an index out of range, an empty path — it raises an error. -/
theorem C51_success (v x : PyVal) (p : List Key) :
    (∃ v', modifyJabmod v p x = .ok v') ↔
      ∃ p1 k c, p = p1 ++ [k] ∧ getPath v p1 = .ok c ∧
        ((∃ l, c = .dict l) ∨ (∃ l i, c = .list l ∧ k = .int i ∧ -(l.length : Int) ≤ i ∧ i < l.length)) := by
  induction p generalizing v with
  | nil => simp [modifyJabmod]
  | cons k p ih =>
    by_cases hp : p = []
    · subst hp
      simp only [modifyJabmod]
      constructor
      · rintro ⟨v', h⟩
        refine ⟨[], k, v, rfl, rfl, ?_⟩
        cases v with
        | dict l => exact .inl ⟨l, rfl⟩
        | list l =>
          cases k with
          | str s => simp [PyVal.setItem] at h
          | int i =>
            simp only [PyVal.setItem] at h
            refine .inr ⟨l, i, rfl, rfl, ?_⟩
            unfold listPos at h
            split at h
            · rename_i hc
              split at hc
              · omega
              · split at hc
                · omega
                · cases hc
            · cases h
        | _ => cases k <;> simp [PyVal.setItem] at h
      · rintro ⟨p1, k', c, he, hg, hc⟩
        have : p1 = [] ∧ k = k' := by
          cases p1 with
          | nil => simpa using he
          | cons a t => simp at he
        obtain ⟨rfl, rfl⟩ := this
        simp only [getPath] at hg
        cases hg
        rcases hc with ⟨l, rfl⟩ | ⟨l, i, rfl, rfl, h1, h2⟩
        · exact ⟨_, rfl⟩
        · simp only [PyVal.setItem]
          unfold listPos
          by_cases h0 : 0 ≤ i
          · rw [if_pos ⟨h0, h2⟩]; exact ⟨_, rfl⟩
          · rw [if_neg (by omega), if_pos (by omega)]; exact ⟨_, rfl⟩
    · rw [modify_error_cons hp]
      constructor
      · rintro ⟨w, hw, hu⟩
        obtain ⟨p1, k', c, rfl, hg, hc⟩ := (ih w).1 hu
        refine ⟨k :: p1, k', c, rfl, ?_, hc⟩
        rw [getPath, hw]; exact hg
      · rintro ⟨p1, k', c, he, hg, hc⟩
        cases p1 with
        | nil => simp at he; exact absurd he.2 hp
        | cons a t =>
          simp only [List.cons_append, List.cons.injEq] at he
          obtain ⟨rfl, rfl⟩ := he
          rw [getPath] at hg
          cases hw : v.getItem k with
          | error e => rw [hw] at hg; cases hg
          | ok w =>
            rw [hw] at hg
            exact ⟨w, rfl, (ih w).2 ⟨t, k', c, rfl, hg, hc⟩⟩

/-- C51.  And which exception: an empty path is an `IndexError`; when the way to the last container fails, the exception of that
lookup; in the last container, an index out of a list's range is an `IndexError` and everything else a `TypeError`. -/
theorem C51_errors (v x : PyVal) :
    modifyJabmod v [] x = .error .indexError ∧
    (∀ (p : List Key) (k : Key) (e : PyErr), getPath v p = .error e → modifyJabmod v (p ++ [k]) x = .error e) ∧
    (∀ (p : List Key) (i : Int) (l : List PyVal), getPath v p = .ok (.list l) → (i < -(l.length : Int) ∨ (l.length : Int) ≤ i) →
      modifyJabmod v (p ++ [.int i]) x = .error .indexError) ∧
    (∀ (p : List Key) (k : Key) (c : PyVal), getPath v p = .ok c → (∀ l, c ≠ .dict l) → (∀ l i, ¬ (c = .list l ∧ k = .int i)) →
      modifyJabmod v (p ++ [k]) x = .error .typeError) := by
  have step : ∀ (p : List Key) (v : PyVal) (k : Key) (e : PyErr),
      (getPath v p = .error e ∨ ∃ c, getPath v p = .ok c ∧ c.setItem k x = .error e) → modifyJabmod v (p ++ [k]) x = .error e := by
    intro p
    induction p with
    | nil =>
      rintro v k e (h | ⟨c, h, hs⟩)
      · cases h
      · cases h; exact hs
    | cons a p ih =>
      intro v k e h
      have hne : p ++ [k] ≠ [] := by simp
      obtain ⟨b, r, hbr⟩ := List.exists_cons_of_ne_nil hne
      rw [List.cons_append, hbr, modifyJabmod]
      simp only [getPath] at h
      cases hg : v.getItem a with
      | error e' =>
        rw [hg] at h
        rcases h with h | ⟨c, h, _⟩
        · cases h; rfl
        · cases h
      | ok w =>
        rw [hg] at h
        simp only at h
        have := ih w k e h
        rw [hbr] at this
        simp only [this]
  refine ⟨rfl, fun p k e h => step p v k e (.inl h), fun p i l h hi => step p v _ _ (.inr ⟨_, h, ?_⟩),
    fun p k c h h1 h2 => step p v k _ (.inr ⟨c, h, ?_⟩)⟩
  · simp only [PyVal.setItem]
    have : listPos l.length i = none := by
      unfold listPos
      rw [if_neg (by omega), if_neg (by omega)]
    rw [this]
  · cases c with
    | dict l => exact absurd rfl (h1 l)
    | list l =>
      cases k with
      | int i => exact absurd ⟨rfl, rfl⟩ (h2 l i)
      | str s => rfl
    | _ => cases k <;> rfl

/-- C51, the exception of a step on the way: a key a dict does not have is a `KeyError`; an index beyond a list, a tuple or a string is
an `IndexError`; anything else a `TypeError`. -/
theorem C51_lookup (v : PyVal) (k : Key) :
    (∀ l, v = .dict l → k ∉ Dict.keys l → getPath v [k] = .error .keyError) ∧
    (∀ (i : Int) (n : Nat), k = .int i → ((∃ l, v = .list l ∧ l.length = n) ∨ (∃ l, v = .tuple l ∧ l.length = n) ∨ ∃ s, v = .str s ∧ s.length = n) →
      (i < -(n : Int) ∨ (n : Int) ≤ i) → getPath v [k] = .error .indexError) ∧
    ((∀ l, v ≠ .dict l) → (∀ i, k = .int i → (∀ l, v ≠ .list l) ∧ (∀ l, v ≠ .tuple l) ∧ ∀ s, v ≠ .str s) →
      getPath v [k] = .error .typeError) := by
  refine ⟨?_, ?_, ?_⟩
  · rintro l rfl hk
    simp only [getPath, PyVal.getItem, Dict.getE, Dict.get?_eq_none.2 hk]
  · rintro i n rfl hv hi
    have hl : listPos n i = none := by
      unfold listPos
      rw [if_neg (by omega), if_neg (by omega)]
    rcases hv with ⟨l, rfl, rfl⟩ | ⟨l, rfl, rfl⟩ | ⟨l, rfl, rfl⟩ <;> simp only [getPath, PyVal.getItem, hl]
  · intro h1 h2
    cases k with
    | int i =>
      obtain ⟨g1, g2, g3⟩ := h2 i rfl
      cases v with
      | dict l => exact absurd rfl (h1 l)
      | list l => exact absurd rfl (g1 l)
      | tuple l => exact absurd rfl (g2 l)
      | str s => exact absurd rfl (g3 s)
      | _ => rfl
    | str s =>
      cases v with
      | dict l => exact absurd rfl (h1 l)
      | _ => rfl

/-- `{"votelines": [{"qty": 1}, {"qty": 2}], "metadata": {}}` -/
def exModTree : PyVal := .dict [(.str c!"votelines", .list [.dict [(.str c!"qty", .int 1)], .dict [(.str c!"qty", .int 2)]]),
  (.str c!"metadata", .dict [])]
/-- non-vacuity: an update deep inside, and paths that leave it at two different depths -/
example : modifyJabmod exModTree [.str c!"votelines", .int (-1), .str c!"qty"] (.int 7) =
    .ok (.dict [(.str c!"votelines", .list [.dict [(.str c!"qty", .int 1)], .dict [(.str c!"qty", .int 7)]]),
      (.str c!"metadata", .dict [])]) := by
  simp [exModTree, modifyJabmod, PyVal.getItem, PyVal.setItem, PyVal.putBack, Dict.getE, Dict.get?, Dict.set, listPos]
example : Leaves exModTree [.str c!"votelines", .int (-1), .str c!"qty"] [.str c!"votelines", .int 0, .str c!"qty"] :=
  .deeper (w := .list [.dict [(.str c!"qty", .int 1)], .dict [(.str c!"qty", .int 2)]])
    (by simp [exModTree, PyVal.getItem, Dict.getE, Dict.get?])
    (.here ⟨by decide, by constructor <;> decide⟩)
example : Leaves exModTree [.str c!"votelines", .int (-1), .str c!"qty"] [.str c!"metadata"] :=
  .here ⟨by decide, trivial⟩

end Verif.Props
