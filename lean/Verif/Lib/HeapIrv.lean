/-
The instant-runoff count on objects does what the count on values does, and leaves every object there was as it was.
-/
import Verif.Lib.HeapCopy
import Verif.Lib.IrvRound

namespace Verif

open Spec

/-! ### reading -/

theorem collect_reads {α β γ : Type} {f : α → HM γ} {g : β → Except PyErr γ} {h : Heap} :
    ∀ {l : List α} {m : List β}, List.Forall₂ (fun x y => f x h = (g y, h)) l m → HM.collect f l h = (m.mapM g, h)
  | _, _, .nil => rfl
  | x :: l, y :: m, .cons hx hl => by
    have ih := collect_reads hl
    unfold HM.collect
    rw [List.mapM_cons, HM.bind_eq, hx]
    cases g y with
    | error e => rfl
    | ok v =>
      simp only [ok_bind]
      rw [HM.bind_eq, ih]
      cases m.mapM g with
      | error e => rfl
      | ok vs => rfl

theorem itemsAt_forall₂ {h : Heap} : ∀ {d : Dict Str Addr} {D : Dict Str Pref}, itemsAt h d = some D →
    List.Forall₂ (fun (x : Str × Addr) (y : Str × Pref) => x.1 = y.1 ∧ entryAt h x.2 = some y.2) d D
  | [], D, hx => by cases hx; exact .nil
  | (k, a) :: d, D, hx => by
    obtain ⟨p, r', h1, h2, rfl⟩ := itemsAt_cons hx
    exact .cons ⟨rfl, h1⟩ (itemsAt_forall₂ h2)

theorem linesOfAddrs_forall₂ {h : Heap} : ∀ {l : List Addr} {vls : List Voteline}, linesOfAddrs h l = some vls →
    List.Forall₂ (fun x v => lineAt h x = some v) l vls
  | [], D, hx => by cases hx; exact .nil
  | a :: l, D, hx => by
    obtain ⟨p, r', h1, h2, rfl⟩ := linesOfAddrs_cons hx
    exact .cons h1 (linesOfAddrs_forall₂ h2)

/-- the rank of an entry -/
def entryRank (kp : Str × Pref) : Except PyErr (Str × Int) :=
  match kp.2.rank with
  | some r => .ok (kp.1, r)
  | none => .error .keyError

theorem rankList_eq (D : Dict Str Pref) : rankList D = (D.mapM entryRank >>= fun ks => .ok (sortByKey Prod.snd ks)) := rfl

theorem rankListH_reads {h : Heap} {a : Addr} {D : Dict Str Pref} (hD : prefsAt h a = some D) :
    rankListH a h = (rankList D, h) := by
  obtain ⟨d, g1, g2⟩ := Option.bind_eq_some_iff.1 hD
  unfold rankListH
  rw [rankList_eq, HM.bind_of_ok (HM.look_of g1)]
  have := collect_reads (f := entryRankH) (g := entryRank) (h := h)
    (List.Forall₂.imp (fun x y hxy => by
      unfold entryRankH entryRank
      rw [HM.bind_of_ok (HM.look_of hxy.2), hxy.1]
      cases y.2.rank with
      | none => rfl
      | some r => rfl) (itemsAt_forall₂ g2))
  rw [HM.bind_eq, this]
  cases List.mapM entryRank D with
  | error e => rfl
  | ok ks => rfl

/-! ### discarding overvotes -/

/-- all objects but lists are as they were -/
def KeepsBallots (h h' : Heap) : Prop := ∀ (a : Addr) (o : Obj), h[a]? = some o → (∀ l, o ≠ .lines l) → h'[a]? = some o

theorem KeepsBallots.obj {h h' : Heap} (hu : KeepsBallots h h') {α : Type} {f : Obj → Option α} (hf : ∀ l, f (.lines l) = none)
    {a : Addr} {x : α} (hx : (h[a]?).bind f = some x) : (h'[a]?).bind f = some x := by
  obtain ⟨o, h1, h2⟩ := Option.bind_eq_some_iff.1 hx
  rw [hu a o h1 (fun l e => by rw [e, hf] at h2; cases h2)]
  exact h2

theorem KeepsBallots.line {n : Nat} {h h' : Heap} (hu : KeepsBallots h h') {x : Addr} {v : Voteline} (hv : LineNew n h x v) :
    LineNew n h' x v := by
  obtain ⟨l, h1, h2, ⟨d, g1, g2, g3, g4⟩, h4⟩ := hv
  refine ⟨l, h1, hu.obj (fun _ => rfl) h2, ⟨d, g1, hu.obj (fun _ => rfl) g2, ?_, g4⟩, h4⟩
  refine mapM_some_mono ?_ g3
  intro kv y _ hy
  obtain ⟨q, e1, e2⟩ := Option.map_eq_some_iff.1 hy
  have : entryAt h' kv.2 = some q := hu.obj (fun _ => rfl) e1
  rw [this, ← e2]
  rfl

theorem keepsBallots_write {h : Heap} {b : Addr} {l : List Addr} (hb : (h[b]?).bind Obj.asLines = some l) (l' : List Addr) :
    KeepsBallots h (h.set b (.lines l')) := by
  intro a o ha hne
  by_cases hab : b = a
  · subst hab
    rw [ha] at hb
    cases o with
    | lines l => exact absurd rfl (hne l)
    | entry _ => cases hb
    | prefs _ => cases hb
    | line _ => cases hb
    | cands _ => cases hb
    | metadata _ => cases hb
    | jabmod _ => cases hb
  · rw [List.getElem?_set_ne hab]
    exact ha

theorem set_get {h : Heap} {b : Addr} {α : Type} {f : Obj → Option α} {x : α} (hb : (h[b]?).bind f = some x) (o : Obj) :
    (h.set b o)[b]? = some o := by
  obtain ⟨o', h1, _⟩ := Option.bind_eq_some_iff.1 hb
  rw [List.getElem?_set_self (List.getElem?_eq_some_iff.1 h1).1]

/-- the result of a computation on objects, given the result of the one on values -/
def Agrees {α β : Type} (h0 : Heap) (x : Except PyErr β × Heap) (r : Except PyErr α) (Q : α → β → Heap → Prop) : Prop :=
  Untouched h0 x.2 ∧ match r with
    | .error e => x.1 = .error e
    | .ok v => ∃ w, x.1 = .ok w ∧ Q v w x.2

theorem discardLoopH_agrees {h0 : Heap} {b : Addr} (hb0 : h0.length ≤ b) : ∀ (n : Nat) (pre suf : List Addr)
    (vls : List Voteline) (ov : Int) (h : Heap), suf.length ≤ n → Untouched h0 h → (h[b]?).bind Obj.asLines = some (pre ++ suf) →
    LinesNew h0.length h suf vls →
    Agrees h0 (discardLoopH n pre.length b ov h) (discardOvervotes vls) (fun r w h' =>
      w = ov + r.1 ∧ KeepsBallots h h' ∧ ∃ suf', (h'[b]?).bind Obj.asLines = some (pre ++ suf') ∧ LinesNew h0.length h' suf' r.2) := by
  intro n
  induction n with
  | zero =>
    intro pre suf vls ov h hn hu hb hv
    have : suf = [] := List.length_eq_zero_iff.1 (by omega)
    subst this
    cases hv
    exact ⟨hu, ov, rfl, by simp, fun _ _ x _ => x, [], hb, .nil⟩
  | succ n ih =>
    intro pre suf vls ov h hn hu hb hv
    cases hv with
    | nil =>
      refine ⟨?_, ?_⟩
      · unfold discardLoopH
        rw [HM.bind_of_ok (HM.look_of hb), List.append_nil, List.getElem?_eq_none (Nat.le_refl _)]
        exact hu
      · unfold discardLoopH
        rw [HM.bind_of_ok (HM.look_of hb), List.append_nil, List.getElem?_eq_none (Nat.le_refl _)]
        exact ⟨ov, rfl, by simp, fun _ _ x _ => x, [], hb, .nil⟩
    | @cons x v suf vls hx hl =>
      have hx0 := hx
      obtain ⟨l, _, g2, g3, q1, _⟩ := hx0
      have hstep : discardLoopH (n + 1) pre.length b ov h =
          (match isOvervote v.prefs with
          | .error e => (.error e, h)
          | .ok true => discardLoopH n (pre.length + 1) b (ov + v.qty) (h.set b (.lines (pre ++ suf)))
          | .ok false => discardLoopH n (pre.length + 1) b ov h) := by
        conv => lhs; unfold discardLoopH
        rw [HM.bind_of_ok (HM.look_of hb)]
        simp only [List.getElem?_append_right (Nat.le_refl _), Nat.sub_self, List.getElem?_cons_zero]
        rw [HM.bind_of_ok (HM.look_of g2), HM.bind_eq, rankListH_reads g3.prefsAt]
        unfold isOvervote
        cases rankList v.prefs with
        | error e => rfl
        | ok rlist =>
          simp only [ok_bind]
          cases hc : (!rlist.isEmpty && topIndex rlist != 0) with
          | false => simp only [Bool.false_eq_true, ↓reduceIte]
          | true =>
            simp only [↓reduceIte]
            rw [HM.bind_of_ok (HM.write_eq _ _ _), q1]
            congr 2
            rw [List.eraseIdx_append_of_length_le (Nat.le_refl _), Nat.sub_self]
            rfl
      rw [hstep]
      unfold discardOvervotes
      cases hov : isOvervote v.prefs with
      | error e => exact ⟨hu, rfl⟩
      | ok t =>
        simp only [ok_bind]
        cases t with
        | false =>
          simp only [Bool.false_eq_true, ↓reduceIte]
          have hb' : (h[b]?).bind Obj.asLines = some ((pre ++ [x]) ++ suf) := by rw [hb]; simp
          have := ih (pre ++ [x]) suf vls ov h (by simpa using hn) hu hb' hl
          rw [List.length_append, List.length_singleton] at this
          refine ⟨this.1, ?_⟩
          have h2 := this.2
          cases hd : discardOvervotes vls with
          | error e => rw [hd] at h2; exact h2
          | ok r =>
            rw [hd] at h2
            obtain ⟨w, e1, e2, e3, suf', e4, e5⟩ := h2
            refine ⟨w, e1, e2, e3, x :: suf', ?_, .cons (e3.line hx) e5⟩
            rw [e4]
            simp
        | true =>
          simp only [↓reduceIte]
          have hk := keepsBallots_write hb (pre ++ suf)
          have hu' : Untouched h0 (h.set b (.lines (pre ++ suf))) := hu.write hb0 _
          have hg : ((h.set b (.lines (pre ++ suf)))[b]?).bind Obj.asLines = some (pre ++ suf) := by rw [set_get hb]; rfl
          have hl' : LinesNew h0.length (h.set b (.lines (pre ++ suf))) suf vls := List.Forall₂.imp (fun _ _ hz => hk.line hz) hl
          cases hl' with
          | nil =>
            have := ih (pre) [] [] (ov + v.qty) (h.set b (.lines (pre ++ []))) (by simp) hu' hg .nil
            have hz : ∀ (n : Nat), discardLoopH n (pre.length + 1) b (ov + v.qty) (h.set b (.lines (pre ++ []))) =
                (.ok (ov + v.qty), h.set b (.lines (pre ++ []))) := by
              intro n
              cases n with
              | zero => rfl
              | succ n =>
                unfold discardLoopH
                rw [HM.bind_of_ok (HM.look_of hg), List.append_nil, List.getElem?_eq_none (by omega)]
                rfl
            rw [hz]
            exact ⟨hu', _, rfl, rfl, hk, [], hg, .nil⟩
          | @cons y w suf2 vls2 hy hl2 =>
            simp only
            have hg' : ((h.set b (.lines (pre ++ y :: suf2)))[b]?).bind Obj.asLines = some ((pre ++ [y]) ++ suf2) := by
              rw [hg]; simp
            have := ih (pre ++ [y]) suf2 vls2 (ov + v.qty) _ (by simp only [List.length_cons] at hn; omega) hu' hg' hl2
            rw [List.length_append, List.length_singleton] at this
            refine ⟨this.1, ?_⟩
            have h2 := this.2
            cases hd : discardOvervotes vls2 with
            | error e => rw [hd] at h2; exact h2
            | ok r =>
              rw [hd] at h2
              obtain ⟨w', e1, e2, e3, suf', e4, e5⟩ := h2
              refine ⟨w', e1, by rw [e2]; simp only; omega, fun a o ha hne => e3 a o (hk a o ha hne) hne, y :: suf', ?_,
                .cons (e3.line hy) e5⟩
              rw [e4]
              simp

theorem discardH_agrees {h : Heap} {a : Addr} {vls : List Voteline} (hv : linesAt h a = some vls) :
    Agrees h (discardH a h) (discardOvervotes vls) (fun r w h' => w.1 = r.1 ∧ ∃ l, h.length ≤ w.2 ∧
      (h'[w.2]?).bind Obj.asLines = some l ∧ LinesNew h.length h' l r.2) := by
  obtain ⟨b, l, h1, e1, u1, n1, g1, v1⟩ := deepcopyLines_spec hv
  have := discardLoopH_agrees n1 l.length [] l vls 0 h1 (Nat.le_refl _) u1 g1 v1
  have hstep : discardH a h = match discardLoopH l.length 0 b 0 h1 with
      | (.ok ov, h') => (.ok (ov, b), h')
      | (.error e, h') => (.error e, h') := by
    unfold discardH
    rw [HM.bind_of_ok e1, HM.bind_of_ok (HM.look_of g1), HM.bind_eq]
    rcases discardLoopH l.length 0 b 0 h1 with ⟨_ | _, _⟩ <;> rfl
  rw [hstep]
  revert this
  simp only [List.length_nil]
  rintro ⟨t1, t2⟩
  generalize discardLoopH l.length 0 b 0 h1 = res at t1 t2 ⊢
  obtain ⟨r, h'⟩ := res
  cases hd : discardOvervotes vls with
  | error e =>
    rw [hd] at t2
    simp only at t2
    subst t2
    exact ⟨t1, rfl⟩
  | ok r0 =>
    rw [hd] at t2
    obtain ⟨w, e2, e3, _, suf', e4, e5⟩ := t2
    simp only at e2
    subst e2
    exact ⟨t1, (w, b), rfl, by rw [e3]; simp, suf', n1, e4, e5⟩

end Verif
