/-
`consolidate_jabmod_voteline_objects` on objects: the jabmod that is given gets a new list of new votelines.
-/
import Verif.Lib.HeapTally

namespace Verif

open Spec

/-- a voteline made by the loop against the one on values -/
def MadeLine (h0 h : Heap) (x : Str × Addr) (y : Str × Voteline) : Prop :=
  x.1 = y.1 ∧ h0.length ≤ x.2 ∧ ∃ pa, h[x.2]? = some (.line { qty := y.2.qty, prefs := pa }) ∧ prefsAt h0 pa = some y.2.prefs ∧
    y.2 = { qty := y.2.qty, prefs := y.2.prefs }

theorem MadeLine.keep {h0 h h' : Heap} {x : Str × Addr} {y : Str × Voteline} (hm : MadeLine h0 h x y)
    (hu : ∀ o, h[x.2]? = some o → h'[x.2]? = some o) : MadeLine h0 h' x y := by
  obtain ⟨h1, h2, pa, h3, h4⟩ := hm
  exact ⟨h1, h2, pa, hu _ h3, h4⟩

theorem MadeLine.lt {h0 h : Heap} {x : Str × Addr} {y : Str × Voteline} (hm : MadeLine h0 h x y) : x.2 < h.length := by
  obtain ⟨_, _, pa, h3, _⟩ := hm
  exact (List.getElem?_eq_some_iff.1 h3).1

theorem made_mem {h0 h : Heap} : ∀ {d : Dict Str Addr} {dv : Dict Str Voteline}, List.Forall₂ (MadeLine h0 h) d dv → ∀ x ∈ d,
    ∃ y, y ∈ dv ∧ MadeLine h0 h x y
  | _, _, .nil, x, hx => by cases hx
  | _, y :: _, .cons hxy hl, x, hx => by
    rcases List.mem_cons.1 hx with rfl | hx
    · exact ⟨y, List.mem_cons_self .., hxy⟩
    · obtain ⟨z, hz, hxz⟩ := made_mem hl x hx
      exact ⟨z, List.mem_cons_of_mem _ hz, hxz⟩

theorem made_get? {h0 h : Heap} (k : Str) : ∀ {d : Dict Str Addr} {dv : Dict Str Voteline}, List.Forall₂ (MadeLine h0 h) d dv →
    (Dict.get? d k = none ∧ Dict.get? dv k = none) ∨
    ∃ b v, Dict.get? d k = some b ∧ Dict.get? dv k = some v ∧ MadeLine h0 h (k, b) (k, v)
  | _, _, .nil => .inl ⟨rfl, rfl⟩
  | (k1, b) :: d, (k2, v) :: dv, .cons hx hl => by
    have hk : k1 = k2 := hx.1
    subst hk
    unfold Dict.get?
    by_cases hk : k1 = k
    · simp only [hk, ↓reduceIte]
      exact .inr ⟨b, v, rfl, rfl, by rw [← hk]; exact hx⟩
    · simp only [hk, ↓reduceIte]
      exact made_get? k hl

theorem made_bump {h0 h : Heap} {k : Str} {b : Addr} {v : Voteline} (q : Int) : ∀ {d : Dict Str Addr} {dv : Dict Str Voteline},
    List.Forall₂ (MadeLine h0 h) d dv → (d.map Prod.snd).Nodup → Dict.get? d k = some b → Dict.get? dv k = some v →
    ∀ (l : LineObj), h[b]? = some (.line l) →
    List.Forall₂ (MadeLine h0 (h.set b (.line { l with qty := l.qty + q }))) d (Dict.set dv k { v with qty := v.qty + q })
  | _, _, .nil, _, hb, _, _, _ => by cases hb
  | (k1, b1) :: d, (k2, v1) :: dv, .cons hx hl, hn, hb, hv, l, hbl => by
    have hk : k1 = k2 := hx.1
    subst hk
    rw [List.map_cons, List.nodup_cons] at hn
    unfold Dict.get? at hb hv
    unfold Dict.set
    by_cases hk : k1 = k
    · simp only [hk, ↓reduceIte] at hb hv ⊢
      cases hb
      cases hv
      refine .cons ?_ ?_
      · obtain ⟨_, g2, pa, g3, g4, g5⟩ := hx
        simp only at g2 g3 g4 g5
        rw [hbl] at g3
        have g6 : l = { qty := v.qty, prefs := pa } := Obj.line.inj (Option.some.inj g3)
        refine ⟨rfl, g2, pa, ?_, g4, by rw [g5]⟩
        simp only
        rw [List.getElem?_set_self (List.getElem?_eq_some_iff.1 hbl).1, g6]
      · refine List.Forall₂.imp ?_ (List.forall₂_iff_zip.2 ⟨hl.length_eq, fun {x y} hxy => ⟨?_, (List.forall₂_iff_zip.1 hl).2 hxy⟩⟩)
          (R := fun x y => x.2 ≠ b ∧ MadeLine h0 h x y)
        · rintro x y ⟨hne, hm⟩
          exact hm.keep (fun o ho => by rw [List.getElem?_set_ne (Ne.symm hne)]; exact ho)
        · intro e
          exact hn.1 (by rw [← e]; exact List.mem_map.2 ⟨x, (List.of_mem_zip hxy).1, rfl⟩)
    · simp only [hk, ↓reduceIte] at hb hv ⊢
      refine .cons ?_ (made_bump q hl hn.2 hb hv l hbl)
      refine hx.keep (fun o ho => ?_)
      rw [List.getElem?_set_ne]
      · exact ho
      · intro e
        simp only at e
        exact hn.1 (by rw [← e]; exact List.mem_map.2 ⟨(k, b), Dict.mem_of_get? hb, rfl⟩)

theorem wholePrefs_reads {h : Heap} {a : Addr} {D : Dict Str Pref} (hD : prefsAt h a = some D) : wholePrefs a h = (.ok D, h) := by
  obtain ⟨d, g1, g2⟩ := Option.bind_eq_some_iff.1 hD
  unfold wholePrefs
  rw [HM.bind_of_ok (HM.look_of g1)]
  have := collect_reads (g := fun (y : Str × Pref) => Except.ok y) (h := h) (f := fun (kv : Str × Addr) => do
      let p ← HM.look Obj.asEntry kv.2
      HM.ret (kv.1, p)) (List.Forall₂.imp (fun x y hxy => by
        rw [HM.bind_of_ok (HM.look_of hxy.2), hxy.1]
        rfl) (itemsAt_forall₂ g2))
  rw [this, mapM_eq_map _ (fun y => y) D (fun x _ => rfl)]
  simp

theorem consolidateLoopH_agrees {h0 : Heap} : ∀ (l : List Addr) (vls : List Voteline) (d : Dict Str Addr) (dv : Dict Str Voteline)
    (h : Heap), linesOfAddrs h0 l = some vls → Untouched h0 h → List.Forall₂ (MadeLine h0 h) d dv → (d.map Prod.snd).Nodup →
    ∃ d' h', consolidateLoopH l d h = (.ok d', h') ∧ Untouched h0 h' ∧ List.Forall₂ (MadeLine h0 h') d' (consolidateLoop vls dv) ∧
      (d'.map Prod.snd).Nodup
  | [], vls, d, dv, h, hv, hu, hm, hn => by
    cases hv
    exact ⟨d, h, rfl, hu, hm, hn⟩
  | x :: l, vls, d, dv, h, hv, hu, hm, hn => by
    obtain ⟨v, vls, h1, h2, rfl⟩ := linesOfAddrs_cons hv
    obtain ⟨lo, _, g1, _, _, g4, q1, _⟩ := lineAt_some h1
    unfold consolidateLoopH consolidateLoop
    simp only
    rw [HM.bind_of_ok (HM.look_of (hu.obj g1)), HM.bind_of_ok (wholePrefs_reads (hu.prefs g4))]
    generalize prefsKey v.prefs = key
    have hadd : ∃ d1 h1', consolidatedH key lo.prefs d h = (.ok d1, h1') ∧ Untouched h0 h1' ∧
        List.Forall₂ (MadeLine h0 h1') d1 (if Dict.has dv key then dv else Dict.set dv key { qty := 0, prefs := v.prefs }) ∧
        (d1.map Prod.snd).Nodup ∧ Dict.has d1 key = true := by
      unfold consolidatedH
      rcases made_get? key hm with ⟨n1, n2⟩ | ⟨b, w, n1, n2, n3⟩
      · have n1' : Dict.has d key = false := by unfold Dict.has; rw [n1]; rfl
        have n2' : Dict.has dv key = false := by unfold Dict.has; rw [n2]; rfl
        simp only [n1', n2', Bool.false_eq_true, ↓reduceIte]
        rw [HM.bind_of_ok (HM.alloc_eq _ _)]
        have ua := untouched_alloc h (.line { qty := 0, prefs := lo.prefs })
        refine ⟨_, _, HM.ret_eq _ _, hu.trans ua, ?_, ?_, ?_⟩
        · rw [Dict.set_of_not_mem _ (Dict.get?_eq_none.1 n1), Dict.set_of_not_mem _ (Dict.get?_eq_none.1 n2)]
          refine List.rel_append (List.Forall₂.imp (fun _ _ hz => hz.keep (fun o ho => ua _ o ho)) hm) (.cons ?_ .nil)
          exact ⟨rfl, hu.length, lo.prefs, by simp, g4, rfl⟩
        · rw [Dict.set_of_not_mem _ (Dict.get?_eq_none.1 n1), List.map_append, List.nodup_append]
          refine ⟨hn, by simp, ?_⟩
          intro y hy z hz
          rw [List.map_singleton, List.mem_singleton] at hz
          subst hz
          obtain ⟨kv, hkv, rfl⟩ := List.mem_map.1 hy
          obtain ⟨w, _, hw⟩ := made_mem hm kv hkv
          have := hw.lt
          exact Nat.ne_of_lt this
        · unfold Dict.has
          rw [Dict.get?_set_self]
          rfl
      · have n1' : Dict.has d key = true := by unfold Dict.has; rw [n1]; rfl
        have n2' : Dict.has dv key = true := by unfold Dict.has; rw [n2]; rfl
        simp only [n1', n2', ↓reduceIte]
        exact ⟨d, h, rfl, hu, hm, hn, n1'⟩
    obtain ⟨d1, h1', e1, u1, m1, n1, k1⟩ := hadd
    rw [HM.bind_of_ok e1]
    generalize (if Dict.has dv key then dv else Dict.set dv key { qty := 0, prefs := v.prefs }) = dv1 at m1 ⊢
    rcases made_get? key m1 with ⟨n3, _⟩ | ⟨b, w, n3, n4, n5⟩
    · unfold Dict.has at k1
      rw [n3] at k1
      cases k1
    · have n6 := n5
      obtain ⟨_, n7, pa, n8, _⟩ := n6
      simp only at n7 n8
      rw [HM.bind_of_ok (by rw [HM.value_eq, Dict.getE_of_get? n3]),
        HM.bind_of_ok (HM.look_of (show (h1'[b]?).bind Obj.asLine = some _ by rw [n8]; rfl)), HM.bind_of_ok (HM.write_eq _ _ _)]
      have hb := made_bump v.qty m1 n1 n3 n4 _ n8
      rw [q1]
      have : Dict.modify dv1 key (fun e => { e with qty := e.qty + v.qty }) = Dict.set dv1 key { w with qty := w.qty + v.qty } := by
        unfold Dict.modify
        rw [n4]
      rw [this]
      exact consolidateLoopH_agrees l vls d1 _ _ h2 (u1.write n7 _) hb n1

theorem made_lines {h0 h : Heap} (hu : Untouched h0 h) : ∀ {d : Dict Str Addr} {dv : Dict Str Voteline},
    List.Forall₂ (MadeLine h0 h) d dv → linesOfAddrs h (Dict.values d) = some (Dict.values dv)
  | _, _, .nil => rfl
  | (k1, b) :: d, (k2, v) :: dv, .cons hx hl => by
    obtain ⟨_, _, pa, g3, g4, g5⟩ := hx
    refine linesOfAddrs_of_cons ?_ (made_lines hu hl)
    have := lineAt_of (h := h) (x := b) (l := { qty := v.qty, prefs := pa }) (by simp only at g3; rw [g3]; rfl) (hu.prefs g4)
    rw [this]
    exact congrArg some g5.symm

/-- `consolidate_jabmod_voteline_objects`: the jabmod is changed and nothing else that was there -/
theorem consolidateH_spec {h : Heap} {a : Addr} {m : Jabmod} (hm : modelAt h a = some m) :
    ∃ h', consolidateH a h = (.ok a, h') ∧ modelAt h' a = some (consolidate m) ∧
      ∀ (b : Addr) (o : Obj), b ≠ a → h[b]? = some o → h'[b]? = some o := by
  obtain ⟨j, l, h1, h2, h3, _, h5, h6⟩ := modelAt_some hm
  obtain ⟨d, h1', e1, u1, m1, _⟩ := consolidateLoopH_agrees l m.votelines [] [] h h6 (.refl h) .nil List.nodup_nil
  have u2 := untouched_alloc h1' (.lines (Dict.values d))
  have u3 := u1.trans u2
  have hother : ∀ (b : Addr) (o : Obj), b ≠ a → (h1' ++ [Obj.lines (Dict.values d)])[b]? = some o →
      ((h1' ++ [Obj.lines (Dict.values d)]).set a (.jabmod { j with votelines := h1'.length }))[b]? = some o := by
    intro b o hb ho
    rw [List.getElem?_set_ne (Ne.symm hb)]
    exact ho
  refine ⟨(h1' ++ [Obj.lines (Dict.values d)]).set a (.jabmod { j with votelines := h1'.length }), ?_, ?_,
    fun b o hb ho => hother b o hb (u3 b o ho)⟩
  · unfold consolidateH
    rw [HM.bind_of_ok (HM.look_of h1), HM.bind_of_ok (HM.look_of h5), HM.bind_of_ok e1, HM.bind_of_ok (HM.alloc_eq _ _),
      HM.bind_of_ok (HM.write_eq _ _ _)]
    rfl
  · have hk : ∀ {α : Type} {f : Obj → Option α} {b : Addr} {x : α}, (∀ j, f (.jabmod j) = none) →
        ((h1' ++ [Obj.lines (Dict.values d)])[b]?).bind f = some x →
        (((h1' ++ [Obj.lines (Dict.values d)]).set a (.jabmod { j with votelines := h1'.length }))[b]?).bind f = some x := by
      intro α f b x hf hx
      obtain ⟨o, o1, o2⟩ := Option.bind_eq_some_iff.1 hx
      rw [hother b o ?_ o1]
      · exact o2
      · rintro rfl
        have h1x := u3.obj h1
        rw [o1] at h1x
        cases o with
        | jabmod j => rw [hf] at o2; cases o2
        | entry _ => cases h1x
        | prefs _ => cases h1x
        | line _ => cases h1x
        | lines _ => cases h1x
        | cands _ => cases h1x
        | metadata _ => cases h1x
    have hitems : ∀ {d' : Dict Str Addr} {D : Dict Str Pref}, itemsAt (h1' ++ [Obj.lines (Dict.values d)]) d' = some D →
        itemsAt ((h1' ++ [Obj.lines (Dict.values d)]).set a (.jabmod { j with votelines := h1'.length })) d' = some D := by
      intro d' D hD
      refine mapM_some_mono ?_ hD
      intro kv y _ hy
      obtain ⟨q, f1, f2⟩ := Option.map_eq_some_iff.1 hy
      have : entryAt ((h1' ++ [Obj.lines (Dict.values d)]).set a (.jabmod { j with votelines := h1'.length })) kv.2 = some q :=
        hk (fun _ => rfl) f1
      rw [this, ← f2]
      rfl
    have hlines : linesOfAddrs ((h1' ++ [Obj.lines (Dict.values d)]).set a (.jabmod { j with votelines := h1'.length }))
        (Dict.values d) = some (Dict.values (consolidateLoop m.votelines [])) := by
      have := u2.lineList (made_lines u1 m1)
      refine mapM_some_mono ?_ this
      intro x v _ hv
      obtain ⟨lo, dd, f1, f2, f3, _, f5, f6, f7, f8, f9⟩ := lineAt_some hv
      rw [lineAt_of (hk (fun _ => rfl) f1) (show prefsAt _ lo.prefs = some v.prefs by
        unfold prefsAt; rw [hk (fun _ => rfl) f2]; exact hitems f3), f5, f6, f7, f8, f9]
    unfold modelAt linesAt
    rw [set_get (u3.obj h1)]
    simp only [Option.bind_some, Obj.asJabmod]
    rw [hk (fun _ => rfl) (u3.obj h2), hk (fun _ => rfl) (u3.obj h3), hk (f := Obj.asLines) (fun _ => rfl)
      (x := Dict.values d) (by rw [alloc_get]; rfl)]
    simp only [Option.bind_some]
    rw [hlines]
    rfl

end Verif
