/-
C105: the functions that count or copy do not change what they are given, and references make no difference.
-/
import Verif.Lib.HeapRate
import Verif.Props.Irv
import Mathlib.Data.List.Nodup

namespace Verif.Props

open Verif Verif.Spec

/-! ### one call -/

/-- The instant-runoff count of a jabmod in memory, whatever objects its parts share, is the count of the value it stands for,
and every object there was before the call is as it was, also if the count ends with an exception. -/
theorem C105_irv (S : Sched) {h : Heap} {a : Addr} {m : Jabmod} (hm : modelAt h a = some m)
    (hwf : ∀ v ∈ m.votelines, Dict.WF v.prefs) :
    (irvDictH S a h).1 = irvDict S m ∧ Untouched h (irvDictH S a h).2 := by
  obtain ⟨h', e, u⟩ := irvDictH_agrees S hm hwf
  rw [e]
  exact ⟨rfl, u⟩

/-- The pairwise count only looks. -/
theorem C105_pairwise {h : Heap} {a : Addr} {m : Jabmod} (hm : modelAt h a = some m) :
    pairwiseCountH a h = (.ok (pairwiseCount m), h) := pairwiseCountH_reads hm

/-- The score count only looks, also if it ends with an exception. -/
theorem C105_score [U : Uni] {h : Heap} {a : Addr} {m : Jabmod} (hm : modelAt h a = some m) :
    basicScoreH a h = (basicScore m, h) := basicScoreH_reads hm

/-- Adding ratings: the result is a new jabmod with the ratings, and every object there was before the call is as it was, also
if the call ends with an exception. -/
theorem C105_ratings [U : Uni] {h : Heap} {a : Addr} {m : Jabmod} (hm : modelAt h a = some m) :
    Untouched h (addRatingsH a h).2 ∧
    (∀ m', addRatings m = .ok m' → ∃ b, (addRatingsH a h).1 = .ok b ∧ h[b]? = none ∧ modelAt (addRatingsH a h).2 b = some m') ∧
    (∀ e, addRatings m = .error e → (addRatingsH a h).1 = .error e) := by
  obtain ⟨u, t⟩ := addRatingsH_spec hm
  refine ⟨u, fun m' hm' => ?_, fun e he => ?_⟩
  · rw [hm'] at t
    obtain ⟨b, e1, e2, e3⟩ := t
    exact ⟨b, e1, List.getElem?_eq_none e2, e3⟩
  · rw [he] at t
    exact t

/-- Consolidation changes the jabmod it is given, and gives it back: the same object now stands for the consolidated model.
Nothing else that was there has changed: the old votelines, held by someone else, are as they were. -/
theorem C105_consolidate {h : Heap} {a : Addr} {m : Jabmod} (hm : modelAt h a = some m) :
    (consolidateH a h).1 = .ok a ∧ modelAt (consolidateH a h).2 a = some (consolidate m) ∧
    ∀ (b : Addr) (o : Obj), b ≠ a → h[b]? = some o → (consolidateH a h).2[b]? = some o := by
  obtain ⟨h', e, h1, h2⟩ := consolidateH_spec hm
  rw [e]
  exact ⟨rfl, h1, h2⟩

/-! ### what other jabmods stand for after a consolidation -/

/-- objects other than jabmods are not changed: everything but the jabmods reads the same -/
theorem keeps_model {h h' : Heap} {a b : Addr} {j : ModObj} (ha : (h[a]?).bind Obj.asJabmod = some j)
    (hk : ∀ (x : Addr) (o : Obj), x ≠ a → h[x]? = some o → h'[x]? = some o) {m : Jabmod} (hb : b ≠ a)
    (hm : modelAt h b = some m) : modelAt h' b = some m := by
  -- the objects of the model at `b` are not the object `a`: that one is a jabmod, and `b` is another one
  have hobj : ∀ {α : Type} {f : Obj → Option α} {x : Addr} {y : α}, (∀ j, f (.jabmod j) = none) → (h[x]?).bind f = some y →
      (h'[x]?).bind f = some y := by
    intro α f x y hf hx
    obtain ⟨o, o1, o2⟩ := Option.bind_eq_some_iff.1 hx
    rw [hk x o ?_ o1]
    · exact o2
    · rintro rfl
      rw [o1] at ha
      cases o with
      | jabmod j => rw [hf] at o2; cases o2
      | entry _ => cases ha
      | prefs _ => cases ha
      | line _ => cases ha
      | lines _ => cases ha
      | cands _ => cases ha
      | metadata _ => cases ha
  obtain ⟨jb, l, h1, h2, h3, _, h5, h6⟩ := modelAt_some hm
  obtain ⟨o, o1, o2⟩ := Option.bind_eq_some_iff.1 h1
  have hj : (h'[b]?).bind Obj.asJabmod = some jb := by rw [hk b o hb o1]; exact o2
  have hl : linesOfAddrs h' l = some m.votelines := by
    refine mapM_some_mono ?_ h6
    intro x v _ hv
    obtain ⟨lo, dd, f1, f2, f3, _, f5, f6, f7, f8, f9⟩ := lineAt_some hv
    have hi : itemsAt h' dd = some v.prefs := by
      refine mapM_some_mono ?_ f3
      intro kv y _ hy
      obtain ⟨q, g1, g2⟩ := Option.map_eq_some_iff.1 hy
      have : entryAt h' kv.2 = some q := hobj (fun _ => rfl) g1
      rw [this, ← g2]
      rfl
    rw [lineAt_of (hobj (fun _ => rfl) f1) (show prefsAt h' lo.prefs = some v.prefs by
      unfold prefsAt; rw [hobj (fun _ => rfl) f2]; exact hi), f5, f6, f7, f8, f9]
  unfold modelAt linesAt
  rw [hj, Option.bind_some, hobj (fun _ => rfl) h2, Option.bind_some, hobj (fun _ => rfl) h3, Option.bind_some,
    hobj (fun _ => rfl) h5, Option.bind_some, hl]
  rfl

/-- A consolidation changes no other jabmod, even one that shares votelines with the consolidated one. -/
theorem C105_consolidate_other {h : Heap} {a b : Addr} {m mb : Jabmod} (hm : modelAt h a = some m) (hb : modelAt h b = some mb)
    (hne : b ≠ a) : modelAt (consolidateH a h).2 b = some mb := by
  obtain ⟨j, _, h1, _⟩ := modelAt_some hm
  exact keeps_model h1 (C105_consolidate hm).2.2 hne hb

/-! ### sessions -/

/-- the variables of a program: different variables hold different jabmods, which may share parts -/
def Vars (s : List Addr × Heap) (ms : List Jabmod) : Prop :=
  List.Forall₂ (fun a m => modelAt s.2 a = some m) s.1 ms ∧ s.1.Nodup

/-- the dicts are dicts: no key twice -/
def DictsOk (m : Jabmod) : Prop := ∀ v ∈ m.votelines, Dict.WF v.prefs

theorem vars_get {s : List Addr × Heap} {ms : List Jabmod} (hv : Vars s ms) (i : Nat) :
    (s.1[i]? = none ∧ ms[i]? = none) ∨ ∃ a m, s.1[i]? = some a ∧ ms[i]? = some m ∧ modelAt s.2 a = some m := by
  have hl := hv.1.length_eq
  by_cases hi : i < s.1.length
  · have hi' : i < ms.length := by omega
    refine .inr ⟨s.1[i], ms[i], List.getElem?_eq_getElem hi, List.getElem?_eq_getElem hi', ?_⟩
    exact (List.forall₂_iff_get.1 hv.1).2 i hi hi'
  · exact .inl ⟨List.getElem?_eq_none (by omega), List.getElem?_eq_none (by omega)⟩

theorem vars_untouched {vars : List Addr} {h h' : Heap} {ms : List Jabmod} (hv : Vars (vars, h) ms) (hu : Untouched h h') :
    Vars (vars, h') ms :=
  ⟨List.Forall₂.imp (fun _ _ hx => hu.model hx) hv.1, hv.2⟩

theorem vars_lt {vars : List Addr} {h : Heap} {ms : List Jabmod} (hv : Vars (vars, h) ms) : ∀ a ∈ vars, a < h.length := by
  intro a ha
  obtain ⟨i, hi, rfl⟩ := List.getElem_of_mem ha
  rcases vars_get hv i with ⟨h1, _⟩ | ⟨b, m, h1, _, h3⟩
  · rw [List.getElem?_eq_getElem hi] at h1; cases h1
  · rw [List.getElem?_eq_getElem hi] at h1
    cases h1
    obtain ⟨j, _, g1, _⟩ := modelAt_some h3
    obtain ⟨o, o1, _⟩ := Option.bind_eq_some_iff.1 g1
    exact (List.getElem?_eq_some_iff.1 o1).1

theorem consolidateLoop_prefs : ∀ (vls : List Voteline) (d : Dict Str Voteline), (∀ kv ∈ d, Dict.WF kv.2.prefs) →
    (∀ v ∈ vls, Dict.WF v.prefs) → ∀ kv ∈ consolidateLoop vls d, Dict.WF kv.2.prefs
  | [], d, hd, _ => hd
  | v :: vls, d, hd, hv => by
    unfold consolidateLoop
    simp only
    refine consolidateLoop_prefs vls _ ?_ (fun w hw => hv w (List.mem_cons_of_mem _ hw))
    have hset : ∀ (d : Dict Str Voteline) (k : Str) (w : Voteline), (∀ kv ∈ d, Dict.WF kv.2.prefs) → Dict.WF w.prefs →
        ∀ kv ∈ Dict.set d k w, Dict.WF kv.2.prefs := by
      intro d k w hd hw
      induction d with
      | nil => intro kv hkv; rw [Dict.set, List.mem_singleton] at hkv; rw [hkv]; exact hw
      | cons e d ih =>
        obtain ⟨k', v'⟩ := e
        intro kv hkv
        unfold Dict.set at hkv
        by_cases hk : k' = k
        · simp only [hk, ↓reduceIte] at hkv
          rcases List.mem_cons.1 hkv with rfl | hkv
          · exact hw
          · exact hd kv (List.mem_cons_of_mem _ hkv)
        · simp only [hk, ↓reduceIte] at hkv
          rcases List.mem_cons.1 hkv with rfl | hkv
          · exact hd _ (List.mem_cons_self ..)
          · exact ih (fun kv hkv => hd kv (List.mem_cons_of_mem _ hkv)) kv hkv
    have hd1 : ∀ kv ∈ (if Dict.has d (prefsKey v.prefs) then d else Dict.set d (prefsKey v.prefs) { qty := 0, prefs := v.prefs }),
        Dict.WF kv.2.prefs := by
      split
      · exact hd
      · exact hset d _ _ hd (hv v (List.mem_cons_self ..))
    generalize (if Dict.has d (prefsKey v.prefs) then d else Dict.set d (prefsKey v.prefs) { qty := 0, prefs := v.prefs }) = d1 at hd1
    unfold Dict.modify
    cases hg : Dict.get? d1 (prefsKey v.prefs) with
    | none => exact hd1
    | some w => exact hset d1 _ _ hd1 (hd1 (_, w) (Dict.mem_of_get? hg))

theorem dictsOk_consolidate {m : Jabmod} (h : DictsOk m) : DictsOk (consolidate m) := by
  intro v hv
  obtain ⟨kv, hkv, rfl⟩ := List.mem_map.1 hv
  exact consolidateLoop_prefs m.votelines [] (fun kv hkv => by cases hkv) h kv hkv

theorem dictsOk_addRatings [U : Uni] {m m' : Jabmod} (h : DictsOk m) (hm : addRatings m = .ok m') : DictsOk m' := by
  rw [addRatings_loops] at hm
  obtain ⟨vls, h1, h2⟩ := bind_ok.1 hm
  cases h2
  simp only [DictsOk]
  have : ∀ (l : List Voteline) (r : List Voteline), (∀ v ∈ l, Dict.WF v.prefs) →
      l.mapM (rateLine (hasAnyRating m) m.candidates.length) = .ok r → ∀ v ∈ r, Dict.WF v.prefs := by
    intro l
    induction l with
    | nil => intro r _ hr; cases hr; intro v hv; cases hv
    | cons x l ih =>
      intro r hl hr
      obtain ⟨y, ys, e1, e2, rfl⟩ := mapM_cons_ok.1 hr
      intro v hv
      rcases List.mem_cons.1 hv with rfl | hv
      · unfold rateLine at e1
        obtain ⟨D, e3, e4⟩ := bind_ok.1 e1
        cases e4
        have hk : ∀ (D D' : Dict Str Pref), List.mapM (ratePref (hasAnyRating m) m.candidates.length) D = .ok D' →
            Dict.keys D' = Dict.keys D := by
          intro D
          induction D with
          | nil => intro D' hD; cases hD; rfl
          | cons e D ihD =>
            intro D' hD
            obtain ⟨b, bs, f1, f2, rfl⟩ := mapM_cons_ok.1 hD
            unfold ratePref at f1
            obtain ⟨p, _, f3⟩ := bind_ok.1 f1
            cases f3
            have := ihD bs f2
            unfold Dict.keys at this ⊢
            rw [List.map_cons, List.map_cons, this]
        unfold Dict.WF
        rw [hk _ _ e3]
        exact hl x (List.mem_cons_self ..)
      · exact ih ys (fun w hw => hl w (List.mem_cons_of_mem _ hw)) e2 v hv
  exact this _ _ h h1

/-- one call of a session -/
theorem session_step [U : Uni] (c : Call) {s : List Addr × Heap} {ms : List Jabmod} (hv : Vars s ms) (hd : ∀ m ∈ ms, DictsOk m) :
    (onObjects c s).1 = (onValues c ms).1 ∧ Vars (onObjects c s).2 (onValues c ms).2 ∧ ∀ m ∈ (onValues c ms).2, DictsOk m := by
  obtain ⟨vars, h⟩ := s
  cases c with
  | irv S i =>
    rcases vars_get hv i with ⟨e1, e2⟩ | ⟨a, m, e1, e2, e3⟩
    · simp only at e1; simp only [onObjects, onValues, e1, e2]; exact ⟨trivial, hv, hd⟩
    · simp only at e1 e3
      simp only [onObjects, onValues, e1, e2]
      obtain ⟨t1, t2⟩ := C105_irv S e3 (hd m (List.mem_of_getElem? e2))
      exact ⟨by rw [t1], vars_untouched hv t2, hd⟩
  | pairwise i =>
    rcases vars_get hv i with ⟨e1, e2⟩ | ⟨a, m, e1, e2, e3⟩
    · simp only at e1; simp only [onObjects, onValues, e1, e2]; exact ⟨trivial, hv, hd⟩
    · simp only at e1 e3
      simp only [onObjects, onValues, e1, e2, C105_pairwise e3]
      exact ⟨trivial, hv, hd⟩
  | score i =>
    rcases vars_get hv i with ⟨e1, e2⟩ | ⟨a, m, e1, e2, e3⟩
    · simp only at e1; simp only [onObjects, onValues, e1, e2]; exact ⟨trivial, hv, hd⟩
    · simp only at e1 e3
      simp only [onObjects, onValues, e1, e2, C105_score e3]
      exact ⟨trivial, hv, hd⟩
  | ratings i =>
    rcases vars_get hv i with ⟨e1, e2⟩ | ⟨a, m, e1, e2, e3⟩
    · simp only at e1; simp only [onObjects, onValues, e1, e2]; exact ⟨trivial, hv, hd⟩
    · simp only at e1 e3
      simp only [onObjects, onValues, e1, e2]
      obtain ⟨t1, t2, t3⟩ := C105_ratings e3
      revert t1 t2 t3
      generalize addRatingsH a h = res
      obtain ⟨r, h'⟩ := res
      intro t1 t2 t3
      cases hr : addRatings m with
      | ok m' =>
        obtain ⟨b, f1, f2, f3⟩ := t2 m' hr
        simp only at f1 f3
        subst f1
        refine ⟨rfl, ⟨List.rel_append (vars_untouched hv t1).1 (.cons f3 .nil), ?_⟩, ?_⟩
        · rw [List.nodup_append]
          refine ⟨hv.2, by simp, ?_⟩
          intro x hx y hy
          rw [List.mem_singleton] at hy
          subst hy
          rintro rfl
          rw [List.getElem?_eq_getElem (vars_lt hv x hx)] at f2
          cases f2
        · intro w hw
          rcases List.mem_append.1 hw with hw | hw
          · exact hd w hw
          · rw [List.mem_singleton] at hw
            subst hw
            exact dictsOk_addRatings (hd m (List.mem_of_getElem? e2)) hr
      | error e =>
        have f1 := t3 e hr
        simp only at f1
        subst f1
        exact ⟨rfl, vars_untouched hv t1, hd⟩
  | consolidate i =>
    rcases vars_get hv i with ⟨e1, e2⟩ | ⟨a, m, e1, e2, e3⟩
    · simp only at e1; simp only [onObjects, onValues, e1, e2]; exact ⟨trivial, hv, hd⟩
    · simp only at e1 e3
      simp only [onObjects, onValues, e1, e2]
      obtain ⟨t1, t2, _⟩ := C105_consolidate e3
      have t4 : ∀ b mb, modelAt h b = some mb → b ≠ a → modelAt (consolidateH a h).2 b = some mb :=
        fun b mb hb hne => C105_consolidate_other e3 hb hne
      revert t1 t2 t4
      generalize consolidateH a h = res
      obtain ⟨r, h'⟩ := res
      intro t1 t2 t4
      simp only at t1 t2 t4
      subst t1
      refine ⟨rfl, ⟨?_, ?_⟩, ?_⟩
      · have hset : vars.set i a = vars := by
          apply List.ext_getElem?
          intro k
          by_cases hk : i = k
          · subst hk; rw [List.getElem?_set_self (List.getElem?_eq_some_iff.1 e1).1, e1]
          · rw [List.getElem?_set_ne hk]
        simp only [hset]
        rw [List.forall₂_iff_get]
        have hl := hv.1.length_eq
        refine ⟨by rw [List.length_set]; exact hl, ?_⟩
        intro k hk1 hk2
        simp only [List.get_eq_getElem]
        by_cases hk : i = k
        · subst hk
          rw [List.getElem_set_self]
          have : vars[i] = a := by
            have := List.getElem?_eq_getElem hk1
            rw [e1] at this
            exact (Option.some.inj this).symm
          rw [this]
          exact t2
        · rw [List.getElem_set_ne hk]
          refine t4 _ _ ((List.forall₂_iff_get.1 hv.1).2 k hk1 (by rw [List.length_set] at hk2; exact hk2)) ?_
          intro e
          have hi := (List.getElem?_eq_some_iff.1 e1)
          obtain ⟨hi1, hi2⟩ := hi
          exact hk ((List.nodup_iff_injective_get.1 hv.2 (a₁ := ⟨i, hi1⟩) (a₂ := ⟨k, hk1⟩) (by
            simp only [List.get_eq_getElem]; exact hi2.trans e.symm) |> Fin.mk.inj))
      · have hset : vars.set i a = vars := by
          apply List.ext_getElem?
          intro k
          by_cases hk : i = k
          · subst hk; rw [List.getElem?_set_self (List.getElem?_eq_some_iff.1 e1).1, e1]
          · rw [List.getElem?_set_ne hk]
        simp only [hset]
        exact hv.2
      · intro w hw
        rcases List.mem_or_eq_of_mem_set hw with hw | rfl
        · exact hd w hw
        · exact dictsOk_consolidate (hd m (List.mem_of_getElem? e2))

/-- Whatever is called on whatever jabmods in whatever order, the answers are those one gets if jabmods were values, and at the
end the variables stand for the same models. -/
theorem C105_session [U : Uni] : ∀ (calls : List Call) {s : List Addr × Heap} {ms : List Jabmod}, Vars s ms →
    (∀ m ∈ ms, DictsOk m) → (session onObjects calls s).1 = (session onValues calls ms).1 ∧
    Vars (session onObjects calls s).2 (session onValues calls ms).2
  | [], s, ms, hv, _ => ⟨rfl, hv⟩
  | c :: rest, s, ms, hv, hd => by
    obtain ⟨t1, t2, t3⟩ := session_step c hv hd
    obtain ⟨r1, r2⟩ := C105_session rest t2 t3
    exact ⟨by simp only [session, t1, r1], r2⟩

/-- a call that is not `consolidate` -/
def Counts : Call → Prop
  | .consolidate _ => False
  | _ => True

/-- Counting and rating change no variable: after any number of such calls each jabmod reads as it did at the beginning. -/
theorem C105_keeps [U : Uni] (calls : List Call) (hc : ∀ c ∈ calls, Counts c) {s : List Addr × Heap} {ms : List Jabmod}
    (hv : Vars s ms) (hd : ∀ m ∈ ms, DictsOk m) : ∀ (i : Nat) (a : Addr) (m : Jabmod), s.1[i]? = some a → modelAt s.2 a = some m →
    ∃ b, (session onObjects calls s).2.1[i]? = some b ∧ modelAt (session onObjects calls s).2.2 b = some m := by
  intro i a m hi hm
  obtain ⟨_, h2⟩ := C105_session calls hv hd
  have hval : ∀ (calls : List Call), (∀ c ∈ calls, Counts c) → ∀ (ms : List Jabmod), ms[i]? = some m →
      (session onValues calls ms).2[i]? = some m := by
    intro calls
    induction calls with
    | nil => intro _ ms h; exact h
    | cons c rest ih =>
      intro hc ms h
      refine ih (fun c hc' => hc c (List.mem_cons_of_mem _ hc')) _ ?_
      have := hc c (List.mem_cons_self ..)
      cases c with
      | irv S k => simp only [onValues]; split <;> exact h
      | pairwise k => simp only [onValues]; split <;> exact h
      | score k => simp only [onValues]; split <;> exact h
      | ratings k =>
        simp only [onValues]
        split
        · exact h
        · split
          · rw [List.getElem?_append_left (List.getElem?_eq_some_iff.1 h).1]; exact h
          · exact h
      | consolidate k => exact absurd this (fun h => h)
  have hmi : ms[i]? = some m := by
    rcases vars_get hv i with ⟨e1, _⟩ | ⟨b, m', e1, e2, e3⟩
    · rw [hi] at e1; cases e1
    · rw [hi] at e1; cases e1; rw [hm] at e3; cases e3; exact e2
  have := hval calls hc ms hmi
  rcases vars_get h2 i with ⟨_, e2⟩ | ⟨b, m', e1, e2, e3⟩
  · rw [this] at e2; cases e2
  · rw [this] at e2; cases e2; exact ⟨b, e1, e3⟩

/-! ### any models can be the ones in memory -/

theorem place_items : ∀ (D : Dict Str Pref) (h : Heap), ∃ h' d, Untouched h h' ∧ itemsAt h' d = some D
  | [], h => ⟨h, [], .refl h, rfl⟩
  | (k, p) :: D, h => by
    obtain ⟨h', d, u, e⟩ := place_items D h
    refine ⟨h' ++ [.entry p], (k, h'.length) :: d, u.trans (untouched_alloc _ _), ?_⟩
    exact itemsAt_of_cons (by unfold entryAt; rw [alloc_get]; rfl) ((untouched_alloc _ _).items e)

/-- the object for a voteline -/
def lineObj (v : Voteline) (p : Addr) : LineObj :=
  { qty := v.qty, prefs := p, comment := v.comment, prefstr := v.prefstr, voterid := v.voterid, nameq := v.nameq }

theorem place_line (v : Voteline) (h : Heap) : ∃ h' x, Untouched h h' ∧ lineAt h' x = some v := by
  obtain ⟨h', d, u, e⟩ := place_items v.prefs h
  have hp : prefsAt (h' ++ [Obj.prefs d]) h'.length = some v.prefs := by
    unfold prefsAt
    rw [alloc_get]
    exact (untouched_alloc _ _).items e
  refine ⟨h' ++ [.prefs d] ++ [.line (lineObj v h'.length)], (h' ++ [Obj.prefs d]).length,
    (u.trans (untouched_alloc _ _)).trans (untouched_alloc _ _), ?_⟩
  rw [lineAt_of (l := lineObj v h'.length) (by rw [alloc_get]; rfl) ((untouched_alloc _ _).prefs hp)]
  rfl

theorem place_lines : ∀ (vls : List Voteline) (h : Heap), ∃ h' l, Untouched h h' ∧ linesOfAddrs h' l = some vls
  | [], h => ⟨h, [], .refl h, rfl⟩
  | v :: vls, h => by
    obtain ⟨h1, l, u1, e1⟩ := place_lines vls h
    obtain ⟨h2, x, u2, e2⟩ := place_line v h1
    exact ⟨h2, x :: l, u1.trans u2, linesOfAddrs_of_cons e2 (u2.lineList e1)⟩

theorem place_model (m : Jabmod) (h : Heap) : ∃ h' a, Untouched h h' ∧ h.length ≤ a ∧ modelAt h' a = some m := by
  obtain ⟨h1, l, u1, e1⟩ := place_lines m.votelines h
  have u2 := untouched_alloc h1 (.lines l)
  have u3 := untouched_alloc (h1 ++ [.lines l]) (.cands m.candidates)
  have u4 := untouched_alloc (h1 ++ [.lines l] ++ [.cands m.candidates]) (.metadata m.metadata)
  have u5 := untouched_alloc (h1 ++ [.lines l] ++ [.cands m.candidates] ++ [.metadata m.metadata])
    (.jabmod { metadata := (h1 ++ [Obj.lines l] ++ [Obj.cands m.candidates]).length, candidates := (h1 ++ [Obj.lines l]).length,
               votelines := h1.length })
  have hu := ((u1.trans u2).trans u3).trans u4
  refine ⟨_, (h1 ++ [Obj.lines l] ++ [Obj.cands m.candidates] ++ [Obj.metadata m.metadata]).length, hu.trans u5, hu.length, ?_⟩
  have hl : linesAt (h1 ++ [.lines l] ++ [.cands m.candidates] ++ [.metadata m.metadata] ++
      [.jabmod { metadata := (h1 ++ [Obj.lines l] ++ [Obj.cands m.candidates]).length, candidates := (h1 ++ [Obj.lines l]).length,
                 votelines := h1.length }]) h1.length = some m.votelines :=
    u5.lines (u4.lines (u3.lines (linesAt_of (by rw [alloc_get]; rfl) (u2.lineList e1))))
  have hc := u5.obj (u4.obj (show ((h1 ++ [Obj.lines l] ++ [Obj.cands m.candidates])[(h1 ++ [Obj.lines l]).length]?).bind Obj.asCands =
    some m.candidates by rw [alloc_get]; rfl))
  have hmd := u5.obj (show ((h1 ++ [Obj.lines l] ++ [Obj.cands m.candidates] ++ [Obj.metadata m.metadata])[(h1 ++ [Obj.lines l] ++
    [Obj.cands m.candidates]).length]?).bind Obj.asMetadata = some m.metadata by rw [alloc_get]; rfl)
  unfold modelAt
  rw [alloc_get]
  simp only [Obj.asJabmod, Option.bind_some]
  rw [hmd, hc, hl]
  rfl

/-- Any models can be in the variables: the theorems above apply to all of them. -/
theorem C105_place : ∀ (ms : List Jabmod), ∃ s, Vars s ms
  | [] => ⟨([], []), .nil, List.nodup_nil⟩
  | m :: ms => by
    obtain ⟨⟨vars, h⟩, hv⟩ := C105_place ms
    obtain ⟨h', a, u, ha, hm⟩ := place_model m h
    refine ⟨(a :: vars, h'), .cons hm (vars_untouched hv u).1, List.nodup_cons.2 ⟨?_, hv.2⟩⟩
    intro hc
    have := vars_lt hv a hc
    exact absurd ha (Nat.not_le_of_lt this)

/-- what the parser returns can be counted in memory: its dicts are dicts -/
theorem C105_parsed [U : Uni] {cw ar sc : Bool} {text : Str} {m : Jabmod} (hm : convertAbif cw ar sc text = .ok m) : DictsOk m :=
  (parsed_countable _ _ _ _ _ hm).dicts

/-! ### an example: votelines that share their preferences, preferences that share entries -/

section
attribute [local instance] Uni.ascii

/-- memory with one jabmod at address 10 -/
def exHeap : Heap :=
  [.entry { rank := some 1 }, .entry { rank := some 2 },
   .prefs [(c!"A", 0), (c!"B", 1)], .line { qty := 3, prefs := 2 }, .line { qty := 2, prefs := 2 },
   .prefs [(c!"B", 0), (c!"A", 1)], .line { qty := 4, prefs := 5 },
   .lines [3, 4, 6], .cands [(c!"A", some c!"A"), (c!"B", some c!"B")], .metadata [(c!"ballotcount", .int 9)],
   .jabmod { metadata := 9, candidates := 8, votelines := 7 }]

/-- the model it stands for -/
def exHeapModel : Jabmod where
  metadata := [(c!"ballotcount", .int 9)]
  candidates := [(c!"A", some c!"A"), (c!"B", some c!"B")]
  votelines := [{ qty := 3, prefs := [(c!"A", { rank := some 1 }), (c!"B", { rank := some 2 })] },
    { qty := 2, prefs := [(c!"A", { rank := some 1 }), (c!"B", { rank := some 2 })] },
    { qty := 4, prefs := [(c!"B", { rank := some 1 }), (c!"A", { rank := some 2 })] }]

theorem exHeap_holds : modelAt exHeap 10 = some exHeapModel := rfl

theorem exHeap_dicts : DictsOk exHeapModel := by
  have h : exHeapModel.votelines.all (fun v => decide (Dict.keys v.prefs).Nodup) = true := by decide
  intro v hv
  have := List.all_eq_true.1 h v hv
  exact of_decide_eq_true (p := (Dict.keys v.prefs).Nodup) this

example : Vars ([10], exHeap) [exHeapModel] ∧ ∀ m ∈ [exHeapModel], DictsOk m :=
  ⟨⟨.cons exHeap_holds .nil, by simp⟩, by intro m hm; rw [List.mem_singleton] at hm; subst hm; exact exHeap_dicts⟩

/-- the count on this memory: `A` wins with 5 ballots of 9 -/
example : (irvDictH Sched.std 10 exHeap).1.map (fun d => d.run.winner) = .ok [c!"A"] := by
  rw [(C105_irv Sched.std exHeap_holds exHeap_dicts).1]
  decide +kernel

/-- A jabmod does not survive its consolidation: a caller who goes on using the object it passed sees two votelines where there
were three. -/
theorem C105_consolidate_changes : ∃ (h : Heap) (a : Addr) (m m' : Jabmod), modelAt h a = some m ∧
    modelAt (consolidateH a h).2 a = some m' ∧ m.votelines.length = 3 ∧ m'.votelines.length = 2 :=
  ⟨exHeap, 10, exHeapModel, consolidate exHeapModel, exHeap_holds, (C105_consolidate exHeap_holds).2.1, rfl, by decide +kernel⟩

end

end Verif.Props
