/-
Lemmas about computations on objects (Model/Heap).
-/
import Verif.Spec.Heap
import Verif.Lib.Irv

namespace Verif

open Spec

/-! ### the monad -/

theorem HM.bind_eq {α β : Type} (x : HM α) (f : α → HM β) (h : Heap) :
    (x >>= f) h = match x h with
      | (.ok v, h') => f v h'
      | (.error e, h') => (.error e, h') := rfl

theorem HM.bind_of_ok {α β : Type} {x : HM α} {f : α → HM β} {h h' : Heap} {v : α} (hx : x h = (.ok v, h')) :
    (x >>= f) h = f v h' := by rw [HM.bind_eq, hx]

theorem HM.bind_of_error {α β : Type} {x : HM α} {f : α → HM β} {h h' : Heap} {e : PyErr} (hx : x h = (.error e, h')) :
    (x >>= f) h = (.error e, h') := by rw [HM.bind_eq, hx]

theorem HM.ret_eq {α : Type} (x : α) (h : Heap) : HM.ret x h = (.ok x, h) := rfl
theorem HM.value_eq {α : Type} (r : Except PyErr α) (h : Heap) : HM.value r h = (r, h) := rfl
theorem HM.alloc_eq (o : Obj) (h : Heap) : HM.alloc o h = (.ok h.length, h ++ [o]) := rfl
theorem HM.write_eq (a : Addr) (o : Obj) (h : Heap) : HM.write a o h = (.ok (), h.set a o) := rfl

theorem HM.look_of {α : Type} {f : Obj → Option α} {a : Addr} {h : Heap} {x : α} (hx : (h[a]?).bind f = some x) :
    HM.look f a h = (.ok x, h) := by
  unfold HM.look
  rw [hx]

/-- a pure bind: reading with a value that is computed from -/
theorem HM.bind_reads {α β : Type} {x : HM α} {f : α → HM β} {h : Heap} {r : Except PyErr α} {r' : Except PyErr β}
    (hx : x h = (r, h)) (hf : ∀ v, r = .ok v → f v h = (r', h)) (he : ∀ e, r = .error e → r' = .error e) :
    (x >>= f) h = (r', h) := by
  rw [HM.bind_eq, hx]
  cases r with
  | ok v => exact hf v rfl
  | error e => rw [he e rfl]

/-! ### objects stay -/

theorem Spec.Untouched.refl (h : Heap) : Untouched h h := fun _ _ x => x
theorem Spec.Untouched.trans {h1 h2 h3 : Heap} (a : Untouched h1 h2) (b : Untouched h2 h3) : Untouched h1 h3 :=
  fun x o hx => b x o (a x o hx)

theorem untouched_alloc (h : Heap) (o : Obj) : Untouched h (h ++ [o]) := by
  intro a x hx
  have := (List.getElem?_eq_some_iff.1 hx).1
  rw [List.getElem?_append_left this, hx]

theorem Spec.Untouched.length {h h' : Heap} (hu : Untouched h h') : h.length ≤ h'.length := by
  cases hh : h.length with
  | zero => omega
  | succ n =>
    have hx : h[n]? = some h[n] := List.getElem?_eq_getElem (by omega)
    have := (List.getElem?_eq_some_iff.1 (hu n _ hx)).1
    omega

/-- writing to an object that is new with respect to `h0` -/
theorem Spec.Untouched.write {h0 h : Heap} (hu : Untouched h0 h) {a : Addr} (ha : h0.length ≤ a) (o : Obj) :
    Untouched h0 (h.set a o) := by
  intro x y hx
  have := (List.getElem?_eq_some_iff.1 hx).1
  rw [List.getElem?_set_ne (by omega)]
  exact hu x y hx

theorem Spec.Untouched.obj {h h' : Heap} (hu : Untouched h h') {α : Type} {f : Obj → Option α} {a : Addr} {x : α}
    (hx : (h[a]?).bind f = some x) : (h'[a]?).bind f = some x := by
  obtain ⟨o, h1, h2⟩ := Option.bind_eq_some_iff.1 hx
  rw [hu a o h1]
  exact h2

theorem Spec.Untouched.entry {h h' : Heap} (hu : Untouched h h') {a : Addr} {p : Pref} (hx : entryAt h a = some p) :
    entryAt h' a = some p := hu.obj hx

theorem mapM_some_mono {α β : Type} {f g : α → Option β} : ∀ {l : List α} {r : List β},
    (∀ x y, x ∈ l → f x = some y → g x = some y) → l.mapM f = some r → l.mapM g = some r
  | [], r, _, h => h
  | x :: l, r, hfg, h => by
    rw [List.mapM_cons] at h ⊢
    cases hx : f x with
    | none => rw [hx] at h; cases h
    | some y =>
      rw [hx] at h
      rw [hfg x y (List.mem_cons_self ..) hx]
      cases hl : l.mapM f with
      | none => rw [hl] at h; cases h
      | some ys =>
        rw [hl] at h
        rw [mapM_some_mono (fun x y hx => hfg x y (List.mem_cons_of_mem _ hx)) hl]
        exact h

theorem Spec.Untouched.items {h h' : Heap} (hu : Untouched h h') {d : Dict Str Addr} {p : Dict Str Pref}
    (hx : itemsAt h d = some p) : itemsAt h' d = some p := by
  refine mapM_some_mono ?_ hx
  intro kv y _ hy
  obtain ⟨q, h1, h2⟩ := Option.map_eq_some_iff.1 hy
  rw [hu.entry h1, ← h2]
  rfl

theorem Spec.Untouched.prefs {h h' : Heap} (hu : Untouched h h') {a : Addr} {p : Dict Str Pref}
    (hx : prefsAt h a = some p) : prefsAt h' a = some p := by
  obtain ⟨d, h1, h2⟩ := Option.bind_eq_some_iff.1 hx
  unfold Spec.prefsAt
  rw [hu.obj h1]
  exact hu.items h2

theorem Spec.Untouched.line {h h' : Heap} (hu : Untouched h h') {a : Addr} {vl : Voteline}
    (hx : lineAt h a = some vl) : lineAt h' a = some vl := by
  obtain ⟨l, h1, h2⟩ := Option.bind_eq_some_iff.1 hx
  obtain ⟨d, h3, h4⟩ := Option.map_eq_some_iff.1 h2
  unfold Spec.lineAt
  rw [hu.obj h1, Option.bind_some, hu.prefs h3, ← h4]
  rfl

theorem Spec.Untouched.lineList {h h' : Heap} (hu : Untouched h h') {l : List Addr} {vls : List Voteline}
    (hx : linesOfAddrs h l = some vls) : linesOfAddrs h' l = some vls :=
  mapM_some_mono (fun _ _ _ hy => hu.line hy) hx

theorem Spec.Untouched.lines {h h' : Heap} (hu : Untouched h h') {a : Addr} {vls : List Voteline}
    (hx : linesAt h a = some vls) : linesAt h' a = some vls := by
  obtain ⟨l, h1, h2⟩ := Option.bind_eq_some_iff.1 hx
  unfold Spec.linesAt
  rw [hu.obj h1]
  exact hu.lineList h2

theorem Spec.Untouched.model {h h' : Heap} (hu : Untouched h h') {a : Addr} {m : Jabmod}
    (hx : modelAt h a = some m) : modelAt h' a = some m := by
  obtain ⟨j, h1, hx⟩ := Option.bind_eq_some_iff.1 hx
  obtain ⟨md, h2, hx⟩ := Option.bind_eq_some_iff.1 hx
  obtain ⟨cs, h3, hx⟩ := Option.bind_eq_some_iff.1 hx
  obtain ⟨vls, h4, h5⟩ := Option.map_eq_some_iff.1 hx
  unfold Spec.modelAt
  rw [hu.obj h1, Option.bind_some, hu.obj h2, Option.bind_some, hu.obj h3, Option.bind_some, hu.lines h4, ← h5]
  rfl

/-! ### taking values apart -/

theorem itemsAt_nil (h : Heap) : itemsAt h [] = some [] := rfl

theorem itemsAt_cons {h : Heap} {k : Str} {a : Addr} {d : Dict Str Addr} {r : Dict Str Pref}
    (hx : itemsAt h ((k, a) :: d) = some r) : ∃ p r', entryAt h a = some p ∧ itemsAt h d = some r' ∧ r = (k, p) :: r' := by
  unfold itemsAt at hx
  rw [List.mapM_cons] at hx
  simp only at hx
  cases h1 : entryAt h a with
  | none => rw [h1] at hx; cases hx
  | some p =>
    rw [h1] at hx
    cases h2 : List.mapM (m := Option) (fun kv : Str × Addr => (entryAt h kv.2).map fun p => (kv.1, p)) d with
    | none => rw [h2] at hx; cases hx
    | some r' =>
      rw [h2] at hx
      exact ⟨p, r', rfl, h2, (Option.some.inj hx).symm⟩

theorem itemsAt_of_cons {h : Heap} {k : Str} {a : Addr} {d : Dict Str Addr} {p : Pref} {r' : Dict Str Pref}
    (h1 : entryAt h a = some p) (h2 : itemsAt h d = some r') : itemsAt h ((k, a) :: d) = some ((k, p) :: r') := by
  unfold itemsAt at h2 ⊢
  rw [List.mapM_cons, h2]
  simp only [h1]
  rfl

theorem linesOfAddrs_cons {h : Heap} {a : Addr} {l : List Addr} {r : List Voteline}
    (hx : linesOfAddrs h (a :: l) = some r) : ∃ v r', lineAt h a = some v ∧ linesOfAddrs h l = some r' ∧ r = v :: r' := by
  unfold linesOfAddrs at hx
  rw [List.mapM_cons] at hx
  cases h1 : lineAt h a with
  | none => rw [h1] at hx; cases hx
  | some p =>
    rw [h1] at hx
    cases h2 : List.mapM (m := Option) (lineAt h) l with
    | none => rw [h2] at hx; cases hx
    | some r' =>
      rw [h2] at hx
      exact ⟨p, r', rfl, h2, (Option.some.inj hx).symm⟩

theorem linesOfAddrs_of_cons {h : Heap} {a : Addr} {l : List Addr} {v : Voteline} {r' : List Voteline}
    (h1 : lineAt h a = some v) (h2 : linesOfAddrs h l = some r') : linesOfAddrs h (a :: l) = some (v :: r') := by
  unfold linesOfAddrs at h2 ⊢
  rw [List.mapM_cons, h1, h2]
  rfl

/-- the parts of a voteline -/
theorem lineAt_some {h : Heap} {x : Addr} {v : Voteline} (hx : lineAt h x = some v) :
    ∃ l d, (h[x]?).bind Obj.asLine = some l ∧ (h[l.prefs]?).bind Obj.asPrefs = some d ∧ itemsAt h d = some v.prefs ∧
      prefsAt h l.prefs = some v.prefs ∧ l.qty = v.qty ∧ l.comment = v.comment ∧ l.prefstr = v.prefstr ∧
      l.voterid = v.voterid ∧ l.nameq = v.nameq := by
  obtain ⟨l, h1, h2⟩ := Option.bind_eq_some_iff.1 hx
  obtain ⟨D, h3, h4⟩ := Option.map_eq_some_iff.1 h2
  obtain ⟨d, h5, h6⟩ := Option.bind_eq_some_iff.1 h3
  subst h4
  exact ⟨l, d, h1, h5, h6, h3, rfl, rfl, rfl, rfl, rfl⟩

theorem lineAt_of {h : Heap} {x : Addr} {l : LineObj} {D : Dict Str Pref} (h1 : (h[x]?).bind Obj.asLine = some l)
    (h2 : prefsAt h l.prefs = some D) : lineAt h x = some
      { qty := l.qty, prefs := D, comment := l.comment, prefstr := l.prefstr, voterid := l.voterid, nameq := l.nameq } := by
  unfold lineAt
  rw [h1, Option.bind_some, h2]
  rfl

theorem itemsAt_keys {h : Heap} : ∀ {d : Dict Str Addr} {r : Dict Str Pref}, itemsAt h d = some r → Dict.keys r = Dict.keys d ∧ r.length = d.length
  | [], r, hx => by cases hx; exact ⟨rfl, rfl⟩
  | (k, a) :: d, r, hx => by
    obtain ⟨p, r', _, h2, rfl⟩ := itemsAt_cons hx
    obtain ⟨g1, g2⟩ := itemsAt_keys h2
    exact ⟨by unfold Dict.keys at g1 ⊢; simp [g1], by simp [g2]⟩

theorem itemsAt_get? {h : Heap} (k : Str) : ∀ {d : Dict Str Addr} {r : Dict Str Pref}, itemsAt h d = some r →
    (Dict.get? d k = none ∧ Dict.get? r k = none) ∨
    ∃ a p, Dict.get? d k = some a ∧ Dict.get? r k = some p ∧ entryAt h a = some p
  | [], r, hx => by cases hx; exact .inl ⟨rfl, rfl⟩
  | (k', a) :: d, r, hx => by
    obtain ⟨p, r', h1, h2, rfl⟩ := itemsAt_cons hx
    unfold Dict.get?
    by_cases hk : k' = k
    · simp only [hk, ↓reduceIte]
      exact .inr ⟨a, p, rfl, rfl, h1⟩
    · simp only [hk, ↓reduceIte]
      exact itemsAt_get? k h2

end Verif
