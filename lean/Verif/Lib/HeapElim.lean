/-
Elimination of candidates from (a copy of) votelines that may share objects.
-/
import Verif.Lib.HeapIrv

namespace Verif

open Spec

/-- apply `g` to the objects at some addresses, one after the other -/
def visit (g : Obj → Obj) (h : Heap) (l : List Addr) : Heap := l.foldl (fun h x => h.modify x g) h

theorem visit_get (g : Obj → Obj) : ∀ (l : List Addr) (h : Heap), (∀ x ∈ l, ∀ o, h[x]? = some o → g (g o) = g o) →
    ∀ (y : Addr), (visit g h l)[y]? = if y ∈ l then (h[y]?).map g else h[y]?
  | [], h, _, y => by simp [visit]
  | x :: l, h, hi, y => by
    have hm : ∀ (z : Addr), (h.modify x g)[z]? = if x = z then (h[z]?).map g else h[z]? := by
      intro z
      rw [List.getElem?_modify]
      split
      · simp
      · simp
    have ih := visit_get g l (h.modify x g) (by
      intro z hz o ho
      rw [hm] at ho
      by_cases hxz : x = z
      · rw [if_pos hxz] at ho
        obtain ⟨o', h1, h2⟩ := Option.map_eq_some_iff.1 ho
        rw [← h2, hi z (List.mem_cons_of_mem _ hz) o' h1, hi z (List.mem_cons_of_mem _ hz) o' h1]
      · rw [if_neg hxz] at ho
        exact hi z (List.mem_cons_of_mem _ hz) o ho) y
    show (visit g (h.modify x g) l)[y]? = _
    rw [ih, hm]
    by_cases hyl : y ∈ l
    · rw [if_pos hyl, if_pos (List.mem_cons_of_mem _ hyl)]
      by_cases hxy : x = y
      · rw [if_pos hxy]
        cases ho : h[y]? with
        | none => rfl
        | some o =>
          rw [Option.map_some, Option.map_some, hi y (List.mem_cons_of_mem _ hyl) o ho]
      · rw [if_neg hxy]
    · rw [if_neg hyl]
      by_cases hxy : x = y
      · rw [if_pos hxy, if_pos (by rw [hxy]; exact List.mem_cons_self ..)]
      · rw [if_neg hxy, if_neg (by
          intro hc
          rcases List.mem_cons.1 hc with e | e
          · exact hxy e.symm
          · exact hyl e)]

/-- deleting a candidate from a `prefs` object -/
def dropObj (c : Str) : Obj → Obj
  | .prefs d => .prefs (Dict.erase d c)
  | o => o

theorem erase_absent {α : Type} (c : Str) : ∀ (d : Dict Str α), Dict.has d c = false → Dict.erase d c = d
  | [], _ => rfl
  | (k, v) :: d, h => by
    unfold Dict.has Dict.get? at h
    unfold Dict.erase
    by_cases hk : k = c
    · simp [hk] at h
    · rw [if_neg hk] at h ⊢
      rw [erase_absent c d h]

theorem set_eq_modify {h : Heap} {a : Addr} {o : Obj} (g : Obj → Obj) (ho : h[a]? = some o) : h.set a (g o) = h.modify a g := by
  apply List.ext_getElem?
  intro i
  rw [List.getElem?_modify]
  by_cases hi : a = i
  · subst hi
    rw [ho, List.getElem?_set_self (List.getElem?_eq_some_iff.1 ho).1]
    simp
  · rw [List.getElem?_set_ne hi]
    simp [hi]

theorem modify_same {h : Heap} {a : Addr} {o : Obj} (g : Obj → Obj) (ho : h[a]? = some o) (hg : g o = o) : h.modify a g = h := by
  rw [← set_eq_modify g ho, hg]
  apply List.ext_getElem?
  intro i
  by_cases hi : a = i
  · subst hi
    rw [ho, List.getElem?_set_self (List.getElem?_eq_some_iff.1 ho).1]
  · rw [List.getElem?_set_ne hi]

theorem asPrefs_some {o : Option Obj} {d : Dict Str Addr} (h : o.bind Obj.asPrefs = some d) : o = some (.prefs d) := by
  obtain ⟨o', rfl, h2⟩ := Option.bind_eq_some_iff.1 h
  cases o' with
  | prefs _ => cases h2; rfl
  | entry _ => cases h2
  | line _ => cases h2
  | lines _ => cases h2
  | cands _ => cases h2
  | metadata _ => cases h2
  | jabmod _ => cases h2

/-- one voteline: its `prefs` object is changed -/
theorem dropCand_eq {c : Str} {h : Heap} {x : Addr} {l : LineObj} {d : Dict Str Addr} (h1 : (h[x]?).bind Obj.asLine = some l)
    (h2 : (h[l.prefs]?).bind Obj.asPrefs = some d) : dropCand c x h = (.ok (), h.modify l.prefs (dropObj c)) := by
  unfold dropCand
  rw [HM.bind_of_ok (HM.look_of h1), HM.bind_of_ok (HM.look_of h2)]
  have ho := asPrefs_some h2
  cases hc : Dict.has d c with
  | true =>
    simp only [↓reduceIte]
    rw [HM.write_eq, ← set_eq_modify (dropObj c) ho]
    rfl
  | false =>
    simp only [Bool.false_eq_true, ↓reduceIte]
    rw [HM.ret_eq, modify_same (dropObj c) ho (by simp only [dropObj, erase_absent c d hc])]

/-- the `prefs` objects of some votelines -/
def prefsAddrs (h : Heap) (l : List Addr) : List Addr := l.filterMap fun x => ((h[x]?).bind Obj.asLine).map LineObj.prefs

theorem dropObj_asLine {c : Str} (o : Obj) : (dropObj c o).asLine = o.asLine := by cases o <;> rfl
theorem dropObj_asEntry {c : Str} (o : Obj) : (dropObj c o).asEntry = o.asEntry := by cases o <;> rfl
theorem dropObj_asLines {c : Str} (o : Obj) : (dropObj c o).asLines = o.asLines := by cases o <;> rfl

theorem modify_obj {α : Type} {f : Obj → Option α} {g : Obj → Obj} (hfg : ∀ o, f (g o) = f o) (h : Heap) (p x : Addr) :
    ((h.modify p g)[x]?).bind f = (h[x]?).bind f := by
  rw [List.getElem?_modify]
  split
  · cases h[x]? with
    | none => rfl
    | some o => exact hfg o
  · simp

theorem each_dropCand {c : Str} : ∀ (l : List Addr) (h : Heap),
    (∀ x ∈ l, ∃ lo d, (h[x]?).bind Obj.asLine = some lo ∧ (h[lo.prefs]?).bind Obj.asPrefs = some d) →
    HM.each (dropCand c) l h = (.ok (), visit (dropObj c) h (prefsAddrs h l))
  | [], h, _ => rfl
  | x :: l, h, hx => by
    obtain ⟨lo, d, h1, h2⟩ := hx x (List.mem_cons_self ..)
    unfold HM.each
    rw [HM.bind_of_ok (dropCand_eq h1 h2)]
    have := each_dropCand (c := c) l (h.modify lo.prefs (dropObj c)) (by
      intro y hy
      obtain ⟨lo', d', g1, g2⟩ := hx y (List.mem_cons_of_mem _ hy)
      by_cases he : lo.prefs = lo'.prefs
      · refine ⟨lo', Dict.erase d' c, by rw [modify_obj dropObj_asLine]; exact g1, ?_⟩
        rw [List.getElem?_modify, asPrefs_some g2]
        simp only [he, ↓reduceIte]
        rfl
      · refine ⟨lo', d', by rw [modify_obj dropObj_asLine]; exact g1, ?_⟩
        rw [List.getElem?_modify, asPrefs_some g2]
        simp only [he, ↓reduceIte]
        rfl)
    rw [this]
    have hp : prefsAddrs (h.modify lo.prefs (dropObj c)) l = prefsAddrs h l := by
      unfold prefsAddrs
      congr 1
      funext y
      rw [modify_obj dropObj_asLine]
    rw [hp]
    have : prefsAddrs h (x :: l) = lo.prefs :: prefsAddrs h l := by
      unfold prefsAddrs
      rw [List.filterMap_cons, h1]
      rfl
    rw [this]
    rfl

theorem itemsAt_erase {h : Heap} (c : Str) : ∀ {d : Dict Str Addr} {D : Dict Str Pref}, itemsAt h d = some D →
    itemsAt h (Dict.erase d c) = some (Dict.erase D c)
  | [], D, hx => by cases hx; rfl
  | (k, a) :: d, D, hx => by
    obtain ⟨p, r', h1, h2, rfl⟩ := itemsAt_cons hx
    unfold Dict.erase
    by_cases hk : k = c
    · rw [if_pos hk, if_pos hk]
      exact h2
    · rw [if_neg hk, if_neg hk]
      exact itemsAt_of_cons h1 (itemsAt_erase c h2)

theorem mem_erase {α : Type} {c : Str} {kv : Str × α} : ∀ {d : Dict Str α}, kv ∈ Dict.erase d c → kv ∈ d
  | [], h => h
  | (k, a) :: d, h => by
    unfold Dict.erase at h
    split at h
    · exact List.mem_cons_of_mem _ h
    · rcases List.mem_cons.1 h with e | e
      · rw [e]; exact List.mem_cons_self ..
      · exact List.mem_cons_of_mem _ (mem_erase e)

theorem wf_erase' {α : Type} {d : Dict Str α} (h : Dict.WF d) (c : Str) : Dict.WF (Dict.erase d c) := by
  rw [Dict.erase_eq_filter h]
  exact wf_filter _ h

theorem erase_erase {α : Type} {d : Dict Str α} (h : Dict.WF d) (c : Str) : Dict.erase (Dict.erase d c) c = Dict.erase d c := by
  apply erase_absent
  rw [Dict.erase_eq_filter h]
  unfold Dict.has
  rw [Option.isSome_eq_false_iff, Option.isNone_iff_eq_none, Dict.get?_eq_none]
  intro hc
  obtain ⟨kv, h1, h2⟩ := List.mem_map.1 hc
  have := (List.mem_filter.1 h1).2
  simp [h2] at this

/-- one candidate is taken from all votelines -/
theorem drop_spec {h0 : Heap} {c : Str} {l : List Addr} {vls : List Voteline} {h : Heap} (hu : Untouched h0 h)
    (hl : LinesNew h0.length h l vls) (hwf : ∀ v ∈ vls, Dict.WF v.prefs) :
    ∃ h', HM.each (dropCand c) l h = (.ok (), h') ∧ Untouched h0 h' ∧
      (∀ (b : Addr) ls, (h[b]?).bind Obj.asLines = some ls → (h'[b]?).bind Obj.asLines = some ls) ∧
      LinesNew h0.length h' l (vls.map fun v => { v with prefs := v.prefs.erase c }) := by
  have hpart : ∀ x ∈ l, ∃ v, v ∈ vls ∧ LineNew h0.length h x v := by
    intro x hx
    have : ∀ (l : List Addr) (vls : List Voteline), LinesNew h0.length h l vls → x ∈ l → ∃ v, v ∈ vls ∧ LineNew h0.length h x v := by
      intro l vls hl
      induction hl with
      | nil => intro hx; cases hx
      | cons hxy _ ih =>
        intro hx
        rcases List.mem_cons.1 hx with rfl | hx
        · exact ⟨_, List.mem_cons_self .., hxy⟩
        · obtain ⟨v, h1, h2⟩ := ih hx
          exact ⟨v, List.mem_cons_of_mem _ h1, h2⟩
    exact this l vls hl hx
  have hshape : ∀ x ∈ l, ∃ lo d, (h[x]?).bind Obj.asLine = some lo ∧ (h[lo.prefs]?).bind Obj.asPrefs = some d := by
    intro x hx
    obtain ⟨v, _, lo, _, h2, ⟨d, _, g2, _⟩, _⟩ := hpart x hx
    exact ⟨lo, d, h2, g2⟩
  have hps : ∀ p ∈ prefsAddrs h l, h0.length ≤ p ∧ ∃ d, h[p]? = some (.prefs d) ∧ Dict.WF d := by
    intro p hp
    obtain ⟨x, hx, he⟩ := List.mem_filterMap.1 hp
    obtain ⟨v, hv, lo, _, h2, ⟨d, g1, g2, g3, _⟩, _⟩ := hpart x hx
    rw [h2] at he
    cases he
    refine ⟨g1, d, asPrefs_some g2, ?_⟩
    unfold Dict.WF
    rw [← (itemsAt_keys g3).1]
    exact hwf v hv
  have hget := visit_get (dropObj c) (prefsAddrs h l) h (by
    intro x hx o ho
    obtain ⟨_, d, hd, hw⟩ := hps x hx
    rw [hd] at ho
    cases ho
    simp only [dropObj, erase_erase hw])
  have hobj : ∀ {α : Type} {f : Obj → Option α}, (∀ o, f (dropObj c o) = f o) → ∀ (x : Addr),
      ((visit (dropObj c) h (prefsAddrs h l))[x]?).bind f = (h[x]?).bind f := by
    intro α f hf x
    rw [hget]
    split
    · cases h[x]? with
      | none => rfl
      | some o => exact hf o
    · rfl
  refine ⟨_, each_dropCand l h hshape, ?_, ?_, ?_⟩
  · intro a o ha
    rw [hget, if_neg (fun hm => ?_)]
    · exact hu a o ha
    · have := (hps a hm).1
      have := (List.getElem?_eq_some_iff.1 ha).1
      omega
  · intro b ls hb
    rw [hobj dropObj_asLines]
    exact hb
  · have hgen : ∀ (l1 : List Addr) (vls1 : List Voteline), LinesNew h0.length h l1 vls1 → (∀ x ∈ l1, x ∈ l) →
        LinesNew h0.length (visit (dropObj c) h (prefsAddrs h l)) l1 (vls1.map fun v => { v with prefs := v.prefs.erase c }) := by
      intro l1 vls1 hl1
      induction hl1 with
      | nil => intro _; exact .nil
      | @cons x v l1 vls1 hxv _ ih =>
        intro hsub
        refine .cons ?_ (ih (fun y hy => hsub y (List.mem_cons_of_mem _ hy)))
        obtain ⟨lo, n1, h2, ⟨d, g1, g2, g3, g4⟩, q⟩ := hxv
        have hpm : lo.prefs ∈ prefsAddrs h l := List.mem_filterMap.2 ⟨x, hsub x (List.mem_cons_self ..), by rw [h2]; rfl⟩
        refine ⟨lo, n1, by rw [hobj dropObj_asLine]; exact h2, ⟨Dict.erase d c, g1, ?_, ?_, fun kv hkv => g4 kv (mem_erase hkv)⟩, q⟩
        · rw [hget, if_pos hpm, asPrefs_some g2]
          rfl
        · refine mapM_some_mono ?_ (itemsAt_erase c g3)
          intro kv y _ hy
          have : entryAt (visit (dropObj c) h (prefsAddrs h l)) kv.2 = entryAt h kv.2 := hobj dropObj_asEntry _
          rw [this]
          exact hy
    exact hgen l vls hl (fun _ hx => hx)

/-- all candidates, one after the other -/
theorem dropAll_spec {h0 : Heap} {b : Addr} {l : List Addr} : ∀ (cands : List Str) (vls : List Voteline) (h : Heap),
    Untouched h0 h → (h[b]?).bind Obj.asLines = some l → LinesNew h0.length h l vls → (∀ v ∈ vls, Dict.WF v.prefs) →
    ∃ h', HM.each (fun c => do
        let l ← HM.look Obj.asLines b
        HM.each (dropCand c) l) cands h = (.ok (), h') ∧ Untouched h0 h' ∧ (h'[b]?).bind Obj.asLines = some l ∧
      LinesNew h0.length h' l (eliminateCands cands vls)
  | [], vls, h, hu, hb, hl, _ => ⟨h, rfl, hu, hb, hl⟩
  | c :: cands, vls, h, hu, hb, hl, hwf => by
    obtain ⟨h1, e1, u1, k1, v1⟩ := drop_spec (c := c) hu hl hwf
    obtain ⟨h2, e2, u2, k2, v2⟩ := dropAll_spec cands _ h1 u1 (k1 b l hb) v1 (by
      intro v hv
      obtain ⟨w, hw, rfl⟩ := List.mem_map.1 hv
      exact wf_erase' (hwf w hw) c)
    refine ⟨h2, ?_, u2, k2, v2⟩
    unfold HM.each
    rw [HM.bind_of_ok (by rw [HM.bind_of_ok (HM.look_of hb)]; exact e1)]
    exact e2

/-- `_eliminate_cands_from_votelines` -/
theorem eliminateH_spec {h : Heap} {a : Addr} {cands : List Str} {vls : List Voteline} (hv : linesAt h a = some vls)
    (hwf : ∀ v ∈ vls, Dict.WF v.prefs) : ∃ b h', eliminateH cands a h = (.ok b, h') ∧ Untouched h h' ∧
      linesAt h' b = some (eliminateCands cands vls) := by
  obtain ⟨b, l, h1, e1, u1, _, g1, v1⟩ := deepcopyLines_spec hv
  obtain ⟨h2, e2, u2, k2, v2⟩ := dropAll_spec cands vls h1 u1 g1 v1 hwf
  refine ⟨b, h2, ?_, u2, linesAt_of k2 v2.read⟩
  unfold eliminateH
  rw [HM.bind_of_ok e1, HM.bind_of_ok e2]
  rfl

end Verif
