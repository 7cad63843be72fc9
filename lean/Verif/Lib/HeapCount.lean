/-
The rounds of the instant-runoff count on objects.
-/
import Verif.Lib.HeapElim

namespace Verif

open Spec

theorem itemsAt_filterMap {h : Heap} {d : Dict Str Addr} {D : Dict Str Pref} (hd : itemsAt h d = some D) :
    ∀ (ks : List (Str × Int)), itemsAt h (ks.filterMap (fun k => (Dict.get? d k.1).map (fun e => (k.1, e)))) =
      some (ks.filterMap (fun k => (Dict.get? D k.1).map (fun p => (k.1, p))))
  | [] => rfl
  | k :: ks => by
    have ih := itemsAt_filterMap hd ks
    rw [List.filterMap_cons, List.filterMap_cons]
    rcases itemsAt_get? k.1 hd with ⟨h1, h2⟩ | ⟨a, p, h1, h2, h3⟩
    · rw [h1, h2]
      exact ih
    · rw [h1, h2]
      exact itemsAt_of_cons h3 ih

theorem validTopH_agrees : ∀ (n : Nat) {h : Heap} {x : Addr} {v : Voteline}, lineAt h x = some v →
    ∃ h', validTopH n x h = (validTop n v.prefs, h') ∧ Untouched h h'
  | 0, h, x, v, _ => ⟨h, rfl, .refl h⟩
  | n + 1, h, x, v, hv => by
    obtain ⟨l, d, g1, g2, g3, g4, _⟩ := lineAt_some hv
    unfold validTopH validTop
    rw [HM.bind_of_ok (HM.look_of g1), HM.bind_eq, rankListH_reads g4]
    cases hr : rankList v.prefs with
    | error e => exact ⟨h, rfl, .refl h⟩
    | ok rlist =>
      simp only [ok_bind]
      cases rlist with
      | nil => exact ⟨h, rfl, .refl h⟩
      | cons c rest =>
        obtain ⟨c, r⟩ := c
        simp only
        by_cases ht : topIndex ((c, r) :: rest) = 0
        · rw [if_pos ht, if_pos ht]
          exact ⟨h, rfl, .refl h⟩
        · rw [if_neg ht, if_neg ht, HM.bind_of_ok (HM.look_of g2), HM.bind_of_ok (HM.alloc_eq _ _), HM.bind_of_ok (HM.alloc_eq _ _)]
          generalize hnx : (((c, r) :: rest).drop (topIndex ((c, r) :: rest) + 1)).filterMap
            (fun k => (Dict.get? d k.1).map (fun e => (k.1, e))) = nx
          have hi := itemsAt_filterMap g3 (((c, r) :: rest).drop (topIndex ((c, r) :: rest) + 1))
          rw [hnx] at hi
          have u1 : Untouched h (h ++ [Obj.prefs nx]) := untouched_alloc _ _
          have u2 : Untouched (h ++ [Obj.prefs nx]) (h ++ [Obj.prefs nx] ++ [Obj.line { qty := l.qty, prefs := h.length }]) :=
            untouched_alloc _ _
          have hp : prefsAt (h ++ [Obj.prefs nx]) h.length = some (((((c, r) :: rest).drop (topIndex ((c, r) :: rest) + 1))).filterMap
              (fun k => (Dict.get? v.prefs k.1).map (fun p => (k.1, p)))) := by
            unfold prefsAt
            rw [alloc_get]
            exact u1.items hi
          have hl := lineAt_of (h := h ++ [Obj.prefs nx] ++ [Obj.line { qty := l.qty, prefs := h.length }])
            (x := (h ++ [Obj.prefs nx]).length) (l := { qty := l.qty, prefs := h.length }) (by rw [alloc_get]; rfl) (u2.prefs hp)
          obtain ⟨h', e1, e2⟩ := validTopH_agrees n hl
          exact ⟨h', e1, (u1.trans u2).trans e2⟩

theorem countLoopH_agrees : ∀ (l : List Addr) (vls : List Voteline) (a : CountAcc) (h : Heap), linesOfAddrs h l = some vls →
    ∃ h', countLoopH l a h = (countLoop vls a, h') ∧ Untouched h h'
  | [], vls, a, h, hv => by
    cases hv
    exact ⟨h, rfl, .refl h⟩
  | x :: l, vls, a, h, hv => by
    obtain ⟨v, vls, h1, h2, rfl⟩ := linesOfAddrs_cons hv
    obtain ⟨lo, d, g1, g2, g3, g4, q1, _⟩ := lineAt_some h1
    obtain ⟨h', e1, u1⟩ := validTopH_agrees (v.prefs.length + 1) h1
    unfold countLoopH countLoop
    rw [HM.bind_of_ok (HM.look_of g1), HM.bind_of_ok (HM.look_of g2), ← (itemsAt_keys g3).2, HM.bind_eq, e1]
    cases validTop (v.prefs.length + 1) v.prefs with
    | error e => exact ⟨h', rfl, u1⟩
    | ok r =>
      simp only [ok_bind, q1]
      cases credited r with
      | none =>
        simp only
        obtain ⟨h2', e2, u2⟩ := countLoopH_agrees l vls { a with ballotcount := a.ballotcount + v.qty, exhausted := a.exhausted + v.qty } h' (u1.lineList h2)
        exact ⟨h2', e2, u1.trans u2⟩
      | some c =>
        simp only
        cases hg : Dict.getE a.counts c with
        | error e =>
          refine ⟨h', ?_, u1⟩
          rw [HM.bind_eq, HM.value_eq]
          rfl
        | ok n =>
          obtain ⟨h2', e2, u2⟩ := countLoopH_agrees l vls { a with ballotcount := a.ballotcount + v.qty, counts := Dict.set a.counts c (n + v.qty) } h' (u1.lineList h2)
          exact ⟨h2', by rw [HM.bind_of_ok (HM.value_eq _ _), ok_bind]; exact e2, u1.trans u2⟩

/-- the result of a round on objects against the one on values -/
def SameRoundH (r : RoundOut) (w : RoundOutH) (h : Heap) : Prop :=
  w.counts = r.counts ∧ w.info = r.info ∧
  ((r.next = none ∧ w.next = none) ∨
    ∃ cands vls b, r.next = some (cands, vls) ∧ w.next = some (cands, b) ∧ linesAt h b = some vls ∧ ∀ v ∈ vls, Dict.WF v.prefs)

theorem eliminate_wf : ∀ (cands : List Str) (vls : List Voteline), (∀ v ∈ vls, Dict.WF v.prefs) →
    ∀ v ∈ eliminateCands cands vls, Dict.WF v.prefs
  | [], vls, h => h
  | c :: cands, vls, h => by
    show ∀ v ∈ eliminateCands cands (vls.map fun vl => { vl with prefs := vl.prefs.erase c }), Dict.WF v.prefs
    refine eliminate_wf cands _ ?_
    intro v hv
    obtain ⟨w, hw, rfl⟩ := List.mem_map.1 hv
    exact wf_erase' (h w hw) c

theorem roundFinishH_agrees {S : Sched} {prev : Option RoundMeta} {rn : Nat} {cands : List Str} {vls : List Voteline} {ov : Int}
    {pruned : List Voteline} {pa : Addr} {a : CountAcc} {h : Heap} (hp : linesAt h pa = some pruned)
    (hwf : ∀ v ∈ pruned, Dict.WF v.prefs) :
    Agrees h (roundFinishH S prev rn cands (vls.map Voteline.qty).sum ov pa a h) (roundFinish S prev rn cands vls ov pruned a) SameRoundH := by
  unfold roundFinishH roundFinish
  cases hmn : listMin (a.counts.map Prod.snd) with
  | none => simp only [hmn]; exact ⟨.refl h, rfl⟩
  | some mn =>
    cases hmx : listMax (a.counts.map Prod.snd) with
    | none => simp only [hmn, hmx]; exact ⟨.refl h, rfl⟩
    | some mx =>
      simp only [hmn, hmx]
      generalize chooseElim S rn a.counts mn (penultVotes (a.counts.map Prod.snd) mn mx) = el
      have hnext : ∃ b h', nextLinesH el pa h = (.ok b, h') ∧ Untouched h h' ∧
          linesAt h' b = some (eliminateCands el.eliminated pruned) := by
        unfold nextLinesH
        cases el.bottomtie.isSome with
        | false => exact eliminateH_spec hp hwf
        | true =>
          simp only [↓reduceIte]
          obtain ⟨b, l, h1, e1, u1, _, g1, v1⟩ := deepcopyLines_spec hp
          obtain ⟨b2, h2, e2, u2, v2⟩ := eliminateH_spec (cands := el.eliminated) (linesAt_of g1 v1.read) hwf
          exact ⟨b2, h2, by rw [HM.bind_of_ok e1]; exact e2, u1.trans u2, v2⟩
      obtain ⟨b, h', e1, u1, v1⟩ := hnext
      rw [HM.bind_of_ok e1]
      by_cases hc : mn = mx ∨ 2 * mx > (a.counts.map Prod.snd).sum
      · rw [if_pos hc, if_pos hc]
        exact ⟨u1, _, rfl, rfl, rfl, .inl ⟨rfl, rfl⟩⟩
      · rw [if_neg hc, if_neg hc]
        exact ⟨u1, _, rfl, rfl, rfl, .inr ⟨_, _, b, rfl, rfl, v1, eliminate_wf _ _ hwf⟩⟩

theorem discard_subset : ∀ (vls : List Voteline) (q : Int) (kept : List Voteline), discardOvervotes vls = .ok (q, kept) →
    ∀ v ∈ kept, v ∈ vls
  | [], q, kept, h => by cases h; intro v hv; cases hv
  | [vl], q, kept, h => by
    unfold discardOvervotes at h
    obtain ⟨ov, _, h⟩ := bind_ok.1 h
    cases ov with
    | true => cases h; intro v hv; cases hv
    | false => cases h; intro v hv; exact hv
  | vl :: skipped :: rest, q, kept, h => by
    rw [discardOvervotes.eq_def] at h
    obtain ⟨ov, _, h⟩ := bind_ok.1 h
    cases ov with
    | true =>
      simp only [↓reduceIte] at h
      obtain ⟨⟨q', kept'⟩, hk, h⟩ := bind_ok.1 h
      cases h
      intro v hv
      rcases List.mem_cons.1 hv with rfl | hv
      · exact List.mem_cons_of_mem _ (List.mem_cons_self ..)
      · exact List.mem_cons_of_mem _ (List.mem_cons_of_mem _ (discard_subset rest q' kept' hk v hv))
    | false =>
      simp only [Bool.false_eq_true, ↓reduceIte] at h
      obtain ⟨⟨q', kept'⟩, hk, h⟩ := bind_ok.1 h
      cases h
      intro v hv
      rcases List.mem_cons.1 hv with rfl | hv
      · exact List.mem_cons_self ..
      · exact List.mem_cons_of_mem _ (discard_subset (skipped :: rest) q' kept' hk v hv)

theorem collect_qtys {h : Heap} : ∀ {l : List Addr} {vls : List Voteline}, linesOfAddrs h l = some vls →
    HM.collect (fun x => do
      let vl ← HM.look Obj.asLine x
      HM.ret vl.qty) l h = (.ok (vls.map Voteline.qty), h)
  | [], vls, hv => by cases hv; rfl
  | x :: l, vls, hv => by
    obtain ⟨v, vls, h1, h2, rfl⟩ := linesOfAddrs_cons hv
    obtain ⟨lo, d, g1, g2, g3, g4, q1, _⟩ := lineAt_some h1
    unfold HM.collect
    rw [HM.bind_of_ok (by rw [HM.bind_of_ok (HM.look_of g1)]; exact HM.ret_eq _ _), HM.bind_of_ok (collect_qtys h2), q1]
    rfl

theorem irvRoundH_agrees {S : Sched} {prev : Option RoundMeta} {rn : Nat} {cands : List Str} {vls : List Voteline} {a : Addr}
    {h : Heap} (hv : linesAt h a = some vls) (hwf : ∀ v ∈ vls, Dict.WF v.prefs) :
    Agrees h (irvRoundH S prev rn cands a h) (irvRound S prev rn cands vls) SameRoundH := by
  obtain ⟨l, g1, g2⟩ := Option.bind_eq_some_iff.1 hv
  unfold irvRoundH irvRound
  rw [HM.bind_of_ok (HM.look_of g1), HM.bind_of_ok (collect_qtys g2), HM.bind_eq]
  have hd := discardH_agrees hv
  revert hd
  generalize discardH a h = res
  obtain ⟨r, h1⟩ := res
  rintro ⟨u1, t⟩
  cases hdv : discardOvervotes vls with
  | error e =>
    rw [hdv] at t
    simp only at t
    subst t
    exact ⟨u1, rfl⟩
  | ok p =>
    rw [hdv] at t
    obtain ⟨w, t1, t2, pl, _, t4, t5⟩ := t
    simp only at t1
    subst t1
    obtain ⟨ov, kept⟩ := p
    obtain ⟨ov', pa⟩ := w
    simp only at t2 t4 t5
    subst t2
    simp only [ok_bind]
    rw [HM.bind_of_ok (HM.look_of t4)]
    obtain ⟨h2, e2, u2⟩ := countLoopH_agrees pl kept { counts := cands.map fun c => (c, 0) } h1 t5.read
    rw [HM.bind_eq, e2]
    cases countLoop kept { counts := cands.map fun c => (c, 0) } with
    | error e => exact ⟨u1.trans u2, rfl⟩
    | ok acc =>
      simp only [ok_bind]
      have hf := roundFinishH_agrees (S := S) (prev := prev) (rn := rn) (cands := cands) (vls := vls) (ov := ov') (a := acc)
        (u2.lines (linesAt_of t4 t5.read)) (fun v hv => hwf v (discard_subset vls _ _ hdv v hv))
      exact ⟨(u1.trans u2).trans hf.1, hf.2⟩

theorem irvCountH_agrees (S : Sched) : ∀ (n : Nat) (prev : Option RoundMeta) (rn : Nat) (cands : List Str) (vls : List Voteline)
    (a : Addr) (h : Heap), linesAt h a = some vls → (∀ v ∈ vls, Dict.WF v.prefs) →
    ∃ h', irvCountH S n prev rn cands a h = (irvCount S n prev rn cands vls, h') ∧ Untouched h h'
  | 0, prev, rn, cands, vls, a, h, _, _ => ⟨h, rfl, .refl h⟩
  | n + 1, prev, rn, cands, vls, a, h, hv, hwf => by
    unfold irvCountH irvCount
    rw [HM.bind_eq]
    have hr := irvRoundH_agrees (S := S) (prev := prev) (rn := rn) (cands := cands) hv hwf
    revert hr
    generalize irvRoundH S prev rn cands a h = res
    obtain ⟨r, h1⟩ := res
    rintro ⟨u1, t⟩
    cases hrv : irvRound S prev rn cands vls with
    | error e =>
      rw [hrv] at t
      simp only at t
      subst t
      exact ⟨h1, rfl, u1⟩
    | ok p =>
      rw [hrv] at t
      obtain ⟨w, t1, t2, t3, t4⟩ := t
      simp only at t1 t4
      subst t1
      simp only [ok_bind]
      rcases t4 with ⟨n1, n2⟩ | ⟨cands', vls', b, n1, n2, n3, n4⟩
      · rw [n1, n2, t2, t3]
        exact ⟨h1, rfl, u1⟩
      · rw [n1, n2, t2, t3]
        simp only
        obtain ⟨h2, e2, u2⟩ := irvCountH_agrees S n (some p.info) (rn + 1) cands' vls' b h1 n3 n4
        rw [HM.bind_eq, e2]
        cases irvCount S n (some p.info) (rn + 1) cands' vls' with
        | error e => exact ⟨h2, rfl, u1.trans u2⟩
        | ok t => exact ⟨h2, rfl, u1.trans u2⟩

/-- the parts of a jabmod -/
theorem modelAt_some {h : Heap} {a : Addr} {m : Jabmod} (hm : modelAt h a = some m) : ∃ j l, (h[a]?).bind Obj.asJabmod = some j ∧
    (h[j.metadata]?).bind Obj.asMetadata = some m.metadata ∧ (h[j.candidates]?).bind Obj.asCands = some m.candidates ∧
    linesAt h j.votelines = some m.votelines ∧ (h[j.votelines]?).bind Obj.asLines = some l ∧ linesOfAddrs h l = some m.votelines := by
  obtain ⟨j, h1, hx⟩ := Option.bind_eq_some_iff.1 hm
  obtain ⟨md, h2, hx⟩ := Option.bind_eq_some_iff.1 hx
  obtain ⟨cs, h3, hx⟩ := Option.bind_eq_some_iff.1 hx
  obtain ⟨vls, h4, rfl⟩ := Option.map_eq_some_iff.1 hx
  obtain ⟨l, h5, h6⟩ := Option.bind_eq_some_iff.1 h4
  exact ⟨j, l, h1, h2, h3, h4, h5, h6⟩

theorem irvDictH_agrees (S : Sched) {h : Heap} {a : Addr} {m : Jabmod} (hm : modelAt h a = some m)
    (hwf : ∀ v ∈ m.votelines, Dict.WF v.prefs) :
    ∃ h', irvDictH S a h = (irvDict S m, h') ∧ Untouched h h' := by
  obtain ⟨j, _, h1, _, h3, h4, _⟩ := modelAt_some hm
  obtain ⟨b, l, h1', e1, u1, _, g1, v1⟩ := deepcopyLines_spec h4
  obtain ⟨h2', e2, u2⟩ := irvCountH_agrees S (m.candidates.length + 1) none 1 m.candidates.keys m.votelines b h1'
    (linesAt_of g1 v1.read) hwf
  refine ⟨h2', ?_, u1.trans u2⟩
  unfold irvDictH irvDict
  rw [HM.bind_of_ok (HM.look_of h1), HM.bind_of_ok (HM.look_of h3), HM.bind_of_ok e1, HM.bind_eq, e2]
  cases irvCount S (m.candidates.length + 1) none 1 m.candidates.keys m.votelines with
  | error e => rfl
  | ok run =>
    simp only [ok_bind]
    rw [HM.bind_eq, HM.value_eq]
    cases winnerStr m.candidates run.winner with
    | error e => rfl
    | ok s => rfl

end Verif
