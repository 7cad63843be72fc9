/-
`_add_ratings_to_jabmod_votelines` on objects: the ratings are added to a copy.
-/
import Verif.Lib.HeapCons
import Verif.Lib.ExportRead

namespace Verif

open Spec

/-! ### the copy -/

theorem deepcopyModel_spec {h : Heap} {a : Addr} {m : Jabmod} (hm : modelAt h a = some m) :
    ∃ b j l h', deepcopyModel a h = (.ok b, h') ∧ Untouched h h' ∧ h.length ≤ b ∧ h.length ≤ j.metadata ∧
      h'[b]? = some (.jabmod j) ∧ h'[j.metadata]? = some (.metadata m.metadata) ∧
      h'[j.candidates]? = some (.cands m.candidates) ∧ h'[j.votelines]? = some (.lines l) ∧ LinesNew h.length h' l m.votelines := by
  obtain ⟨j, _, h1, h2, h3, h4, _⟩ := modelAt_some hm
  have u1 := untouched_alloc h (.metadata m.metadata)
  have u2 := untouched_alloc (h ++ [.metadata m.metadata]) (.cands m.candidates)
  have hl := (u1.trans u2).length
  obtain ⟨b, l, h', e1, u3, n1, g1, v1⟩ := deepcopyLines_spec ((u1.trans u2).lines h4)
  have u4 := untouched_alloc h' (.jabmod { metadata := h.length, candidates := (h ++ [Obj.metadata m.metadata]).length, votelines := b })
  have g1' : h'[b]? = some (.lines l) := by
    obtain ⟨o, o1, o2⟩ := Option.bind_eq_some_iff.1 g1
    rw [o1]
    cases o with
    | lines _ => cases o2; rfl
    | entry _ => cases o2
    | prefs _ => cases o2
    | line _ => cases o2
    | cands _ => cases o2
    | metadata _ => cases o2
    | jabmod _ => cases o2
  refine ⟨h'.length, { metadata := h.length, candidates := (h ++ [Obj.metadata m.metadata]).length, votelines := b }, l,
    h' ++ [.jabmod { metadata := h.length, candidates := (h ++ [Obj.metadata m.metadata]).length, votelines := b }], ?_,
    ((u1.trans u2).trans u3).trans u4, ((u1.trans u2).trans u3).length, Nat.le_refl _, by simp, ?_, ?_, u4 _ _ g1', ?_⟩
  · unfold deepcopyModel
    rw [HM.bind_of_ok (HM.look_of h1), HM.bind_of_ok (HM.look_of h2), HM.bind_of_ok (HM.alloc_eq _ _),
      HM.bind_of_ok (HM.look_of (u1.obj h3)), HM.bind_of_ok (HM.alloc_eq _ _), HM.bind_of_ok e1]
    rfl
  · exact u4 _ _ (u3 _ _ (u2 _ _ (by simp)))
  · exact u4 _ _ (u3 _ _ (by simp))
  · refine LinesNew.mono (List.Forall₂.imp (fun x v hv => ?_) v1) u4
    obtain ⟨lo, f1, f2, ⟨d, p1, p2, p3, p4⟩, f4⟩ := hv
    exact ⟨lo, Nat.le_trans hl f1, f2, ⟨d, Nat.le_trans hl p1, p2, p3, fun kv hkv => Nat.le_trans hl (p4 kv hkv)⟩, f4⟩

/-! ### the loop -/

/-- the metadata with the mark -/
def markedMeta (md : Dict Str Json) : Dict Str Json := md.set c!"is_ranking_to_rating" (.bool true)

theorem set_twice {α : Type} (k : Str) (v : α) : ∀ (d : Dict Str α), Dict.set (Dict.set d k v) k v = Dict.set d k v
  | [] => by simp [Dict.set]
  | (k', v') :: d => by
    unfold Dict.set
    by_cases hk : k' = k
    · simp [hk, Dict.set]
    · simp only [hk, ↓reduceIte]
      rw [Dict.set]
      simp only [hk, ↓reduceIte]
      rw [set_twice k v d]

/-- an entry is rated once: a second visit finds what the first one left -/
theorem addRatingEntry_twice {hr : Bool} {n : Int} {p p' : Pref} (hp : addRatingEntry hr n p = .ok p') :
    addRatingEntry hr n p' = .ok p' ∧ (ratingTruthy p'.rating = false → ratingTruthy p.rating = false) := by
  unfold addRatingEntry at hp
  by_cases ht : ratingTruthy p.rating = true
  · rw [if_pos ht] at hp
    cases hp
    refine ⟨?_, fun h => h⟩
    unfold addRatingEntry
    rw [if_pos ht]
  · rw [if_neg ht] at hp
    refine ⟨?_, fun _ => by simpa using ht⟩
    by_cases hh : hr = true
    · rw [if_pos hh] at hp
      cases hp
      unfold addRatingEntry
      rw [if_pos hh]
      split <;> rfl
    · rw [if_neg hh] at hp
      cases hk : p.rank with
      | none => rw [hk] at hp; cases hp
      | some r =>
        rw [hk] at hp
        cases hp
        unfold addRatingEntry
        simp only [hh]
        split <;> rfl

/-- memory during the loop: `h0` before the call, `h1` after the copy; the entries in `done` have been rated -/
structure Rating (hr : Bool) (n : Int) (h0 h1 : Heap) (mdA : Addr) (md : Dict Str Json) (done : List Addr) (h : Heap) : Prop where
  old : Untouched h0 h
  other : ∀ (a : Addr) (o : Obj), h1[a]? = some o → a ≠ mdA → (∀ p, o ≠ .entry p) → h[a]? = some o
  rated : ∀ (x : Addr) (p : Pref), h1[x]? = some (.entry p) → x ∈ done → ∃ p', addRatingEntry hr n p = .ok p' ∧ h[x]? = some (.entry p')
  unrated : ∀ (x : Addr) (p : Pref), h1[x]? = some (.entry p) → x ∉ done → h[x]? = some (.entry p)
  marks : ∃ flag : Bool, h[mdA]? = some (.metadata (if flag then markedMeta md else md)) ∧
    (flag = true ↔ hr = false ∧ ∃ x ∈ done, ∃ p, h1[x]? = some (.entry p) ∧ ratingTruthy p.rating = false)

theorem addRatingEntryH_step {hr : Bool} {n : Int} {h0 h1 h : Heap} {mdA : Addr} {md : Dict Str Json} {done : List Addr}
    (hmd0 : h0.length ≤ mdA) (hmd1 : h1[mdA]? = some (.metadata md)) (hR : Rating hr n h0 h1 mdA md done h) {x : Addr} {p : Pref}
    (hx : h1[x]? = some (.entry p)) (hx0 : h0.length ≤ x) :
    (∃ h', addRatingEntryH hr n mdA x h = (.ok (), h') ∧ Rating hr n h0 h1 mdA md (x :: done) h' ∧
      ∃ p', addRatingEntry hr n p = .ok p') ∨
    (∃ h', addRatingEntryH hr n mdA x h = (.error .keyError, h') ∧ Untouched h0 h' ∧ addRatingEntry hr n p = .error .keyError) := by
  have hne : x ≠ mdA := by
    rintro rfl
    rw [hx] at hmd1
    cases hmd1
  -- what is at `x` now
  have hnow : ∃ q, h[x]? = some (.entry q) ∧ addRatingEntry hr n q = addRatingEntry hr n p ∧
      (ratingTruthy q.rating = false → ratingTruthy p.rating = false) ∧ (x ∉ done → q = p) := by
    by_cases hd : x ∈ done
    · obtain ⟨p', e1, e2⟩ := hR.rated x p hx hd
      obtain ⟨t1, t2⟩ := addRatingEntry_twice e1
      exact ⟨p', e2, by rw [t1, e1], t2, fun hc => absurd hd hc⟩
    · exact ⟨p, hR.unrated x p hx hd, rfl, fun h => h, fun _ => rfl⟩
  obtain ⟨q, q1, q2, q3, q4⟩ := hnow
  obtain ⟨flag, f1, f2⟩ := hR.marks
  -- changing the entry
  have hset : ∀ (p' : Pref), addRatingEntry hr n p = .ok p' → ∀ (flag' : Bool),
      (flag' = true ↔ hr = false ∧ ∃ y ∈ x :: done, ∃ r, h1[y]? = some (.entry r) ∧ ratingTruthy r.rating = false) →
      ∀ (h' : Heap), h'[mdA]? = some (.metadata (if flag' then markedMeta md else md)) → h'[x]? = some (.entry p') →
      (∀ a, a ≠ x → a ≠ mdA → h'[a]? = h[a]?) → Rating hr n h0 h1 mdA md (x :: done) h' := by
    intro p' hp' flag' hf h' g1 g2 g3
    refine ⟨?_, ?_, ?_, ?_, flag', g1, hf⟩
    · intro a o ha
      have hlt := (List.getElem?_eq_some_iff.1 ha).1
      rw [g3 a (Nat.ne_of_lt (Nat.lt_of_lt_of_le hlt hx0)) (Nat.ne_of_lt (Nat.lt_of_lt_of_le hlt hmd0))]
      exact hR.old a o ha
    · intro a o ha hne' hno
      rw [g3 a (by rintro rfl; rw [hx] at ha; exact hno p (Option.some.inj ha).symm) hne']
      exact hR.other a o ha hne' hno
    · intro y r hy hmem
      by_cases hyx : y = x
      · subst hyx
        rw [hx] at hy
        cases hy
        exact ⟨p', hp', g2⟩
      · rw [g3 y hyx (by rintro rfl; rw [hmd1] at hy; cases hy)]
        exact hR.rated y r hy ((List.mem_cons.1 hmem).resolve_left hyx)
    · intro y r hy hmem
      rw [g3 y (fun e => hmem (by rw [e]; exact List.mem_cons_self ..)) (by rintro rfl; rw [hmd1] at hy; cases hy)]
      exact hR.unrated y r hy (fun hc => hmem (List.mem_cons_of_mem _ hc))
  -- the mark when it need not be set
  have hkeep : (hr = false → ratingTruthy p.rating = false → flag = true) →
      (flag = true ↔ hr = false ∧ ∃ y ∈ x :: done, ∃ r, h1[y]? = some (.entry r) ∧ ratingTruthy r.rating = false) := by
    intro hk
    rw [f2]
    constructor
    · rintro ⟨a1, y, a2, a3⟩
      exact ⟨a1, y, List.mem_cons_of_mem _ a2, a3⟩
    · rintro ⟨a1, y, a2, r, a3, a4⟩
      rcases List.mem_cons.1 a2 with rfl | a2
      · rw [hx] at a3
        cases a3
        exact f2.1 (hk a1 a4)
      · exact ⟨a1, y, a2, r, a3, a4⟩
  unfold addRatingEntryH
  rw [HM.bind_of_ok (HM.look_of (show (h[x]?).bind Obj.asEntry = some q by rw [q1]; rfl))]
  by_cases ht : ratingTruthy q.rating = true
  · rw [if_pos ht]
    have hq : addRatingEntry hr n p = .ok q := by
      rw [← q2]
      unfold addRatingEntry
      rw [if_pos ht]
    refine .inl ⟨h, rfl, hset q hq flag (hkeep ?_) h f1 q1 (fun _ _ _ => rfl), q, hq⟩
    intro e1 e2
    by_cases hd : x ∈ done
    · exact f2.2 ⟨e1, x, hd, p, hx, e2⟩
    · rw [q4 hd, e2] at ht
      cases ht
  · rw [if_neg ht]
    have hxl : x < h.length := (List.getElem?_eq_some_iff.1 q1).1
    by_cases hh : hr = true
    · rw [if_pos hh]
      have hq : addRatingEntry hr n p = .ok { q with rating := some (.int 0) } := by
        rw [← q2]
        unfold addRatingEntry
        rw [if_neg ht, if_pos hh]
      refine .inl ⟨_, HM.write_eq _ _ _, hset _ hq flag (hkeep (fun e => by rw [hh] at e; cases e)) _ ?_ ?_ ?_, _, hq⟩
      · rw [List.getElem?_set_ne hne]; exact f1
      · rw [List.getElem?_set_self hxl]
      · intro a ha _
        rw [List.getElem?_set_ne (Ne.symm ha)]
    · rw [if_neg hh]
      cases hk : q.rank with
      | none =>
        refine .inr ⟨h, rfl, hR.old, ?_⟩
        rw [← q2]
        unfold addRatingEntry
        rw [if_neg ht, if_neg hh, hk]
      | some r =>
        simp only
        have hq : addRatingEntry hr n p = .ok { q with rating := some (.int (n - r)), rank := some r } := by
          rw [← q2]
          unfold addRatingEntry
          rw [if_neg ht, if_neg hh, hk]
        have hml : mdA < h.length := (List.getElem?_eq_some_iff.1 f1).1
        rw [HM.bind_of_ok (HM.write_eq _ _ _), HM.bind_of_ok (HM.look_of (show (((h.set x
          (.entry { q with rating := some (.int (n - r)), rank := some r })))[mdA]?).bind Obj.asMetadata = some (if flag then markedMeta md else md) by
            rw [List.getElem?_set_ne hne, f1]; rfl)), HM.write_eq]
        refine .inl ⟨_, rfl, hset _ hq true ?_ _ ?_ ?_ ?_, _, hq⟩
        · simp only [true_iff]
          exact ⟨by simpa using hh, x, List.mem_cons_self .., p, hx, q3 (by simpa using ht)⟩
        · rw [List.getElem?_set_self (by rw [List.length_set]; exact hml)]
          cases flag with
          | false => rfl
          | true => simp only [↓reduceIte]; unfold markedMeta; rw [set_twice]
        · rw [List.getElem?_set_ne (Ne.symm hne), List.getElem?_set_self hxl]
        · intro a ha hb
          rw [List.getElem?_set_ne (Ne.symm hb), List.getElem?_set_ne (Ne.symm ha)]

theorem rateEach {hr : Bool} {n : Int} {h0 h1 : Heap} {mdA : Addr} {md : Dict Str Json}
    (hmd0 : h0.length ≤ mdA) (hmd1 : h1[mdA]? = some (.metadata md)) : ∀ (xs : List Addr) (done : List Addr) (h : Heap),
    Rating hr n h0 h1 mdA md done h → (∀ x ∈ xs, h0.length ≤ x ∧ ∃ p, h1[x]? = some (.entry p)) →
    (∃ h', HM.each (addRatingEntryH hr n mdA) xs h = (.ok (), h') ∧ Rating hr n h0 h1 mdA md (xs ++ done) h' ∧
      ∀ x ∈ xs, ∀ p, h1[x]? = some (.entry p) → ∃ p', addRatingEntry hr n p = .ok p') ∨
    (∃ h', HM.each (addRatingEntryH hr n mdA) xs h = (.error .keyError, h') ∧ Untouched h0 h' ∧
      ∃ x ∈ xs, ∃ p, h1[x]? = some (.entry p) ∧ addRatingEntry hr n p = .error .keyError)
  | [], done, h, hR, _ => .inl ⟨h, rfl, hR, fun x hx => by cases hx⟩
  | x :: xs, done, h, hR, hxs => by
    obtain ⟨hx0, p, hx⟩ := hxs x (List.mem_cons_self ..)
    unfold HM.each
    rcases addRatingEntryH_step hmd0 hmd1 hR hx hx0 with ⟨h', e1, r1, p', e2⟩ | ⟨h', e1, u1, e2⟩
    · rw [HM.bind_of_ok e1]
      rcases rateEach hmd0 hmd1 xs (x :: done) h' r1 (fun y hy => hxs y (List.mem_cons_of_mem _ hy)) with
        ⟨h2, e3, r2, e4⟩ | ⟨h2, e3, u2, y, hy, e4⟩
      · refine .inl ⟨h2, e3, ?_, ?_⟩
        · have hmem : ∀ z, z ∈ xs ++ x :: done ↔ z ∈ x :: xs ++ done := by intro z; simp; tauto
          obtain ⟨a1, a2, a3, a4, flag, a5, a6⟩ := r2
          exact ⟨a1, a2, fun z q hz hd => a3 z q hz ((hmem z).2 hd), fun z q hz hd => a4 z q hz (fun hc => hd ((hmem z).1 hc)),
            flag, a5, by rw [a6]; simp only [hmem]⟩
        · intro y hy q hq
          rcases List.mem_cons.1 hy with rfl | hy
          · rw [hx] at hq; cases hq; exact ⟨p', e2⟩
          · exact e4 y hy q hq
      · exact .inr ⟨h2, e3, u2, y, List.mem_cons_of_mem _ hy, e4⟩
    · rw [HM.bind_of_error e1]
      exact .inr ⟨h', rfl, u1, x, List.mem_cons_self .., p, hx, e2⟩

/-- the entries of some ballots -/
def entriesOf (h : Heap) (l : List Addr) : List Addr :=
  l.flatMap fun x => match (h[x]?).bind Obj.asLine with
    | some lo => match (h[lo.prefs]?).bind Obj.asPrefs with
      | some d => Dict.values d
      | none => []
    | none => []

theorem asEntry_some {o : Option Obj} {p : Pref} (h : o.bind Obj.asEntry = some p) : o = some (.entry p) := by
  obtain ⟨o', rfl, h2⟩ := Option.bind_eq_some_iff.1 h
  cases o' with
  | entry _ => cases h2; rfl
  | prefs _ => cases h2
  | line _ => cases h2
  | lines _ => cases h2
  | cands _ => cases h2
  | metadata _ => cases h2
  | jabmod _ => cases h2

theorem asLine_some {o : Option Obj} {l : LineObj} (h : o.bind Obj.asLine = some l) : o = some (.line l) := by
  obtain ⟨o', rfl, h2⟩ := Option.bind_eq_some_iff.1 h
  cases o' with
  | line _ => cases h2; rfl
  | prefs _ => cases h2
  | entry _ => cases h2
  | lines _ => cases h2
  | cands _ => cases h2
  | metadata _ => cases h2
  | jabmod _ => cases h2

theorem entriesOf_cons {h : Heap} {x : Addr} {l : List Addr} {lo : LineObj} {d : Dict Str Addr}
    (h1 : (h[x]?).bind Obj.asLine = some lo) (h2 : (h[lo.prefs]?).bind Obj.asPrefs = some d) :
    entriesOf h (x :: l) = Dict.values d ++ entriesOf h l := by
  unfold entriesOf
  rw [List.flatMap_cons, h1]
  simp only [h2]

/-- the addresses of entries hold entries -/
theorem items_entry {h : Heap} {d : Dict Str Addr} {D : Dict Str Pref} (hd : itemsAt h d = some D) :
    ∀ x ∈ Dict.values d, ∃ k p, (k, p) ∈ D ∧ h[x]? = some (.entry p) := by
  intro x hx
  obtain ⟨kv, hkv, rfl⟩ := List.mem_map.1 hx
  have := itemsAt_forall₂ hd
  clear hd hx
  induction this with
  | nil => cases hkv
  | @cons a b l1 l2 hab _ ih =>
    rcases List.mem_cons.1 hkv with rfl | hkv
    · exact ⟨b.1, b.2, List.mem_cons_self .., asEntry_some hab.2⟩
    · obtain ⟨k, p, h1, h2⟩ := ih hkv
      exact ⟨k, p, List.mem_cons_of_mem _ h1, h2⟩

theorem rateLines {hr : Bool} {n : Int} {h0 h1 : Heap} {mdA : Addr} {md : Dict Str Json}
    (hmd0 : h0.length ≤ mdA) (hmd1 : h1[mdA]? = some (.metadata md)) : ∀ (l : List Addr) (vls : List Voteline) (done : List Addr) (h : Heap),
    Rating hr n h0 h1 mdA md done h → LinesNew h0.length h1 l vls →
    (∃ h', HM.each (addRatingLineH hr n mdA) l h = (.ok (), h') ∧ (∃ done', (∀ y, y ∈ done' ↔ y ∈ entriesOf h1 l ∨ y ∈ done) ∧
        Rating hr n h0 h1 mdA md done' h') ∧
      ∀ x ∈ entriesOf h1 l, ∀ p, h1[x]? = some (.entry p) → ∃ p', addRatingEntry hr n p = .ok p') ∨
    (∃ h', HM.each (addRatingLineH hr n mdA) l h = (.error .keyError, h') ∧ Untouched h0 h' ∧
      ∃ x ∈ entriesOf h1 l, ∃ p, h1[x]? = some (.entry p) ∧ addRatingEntry hr n p = .error .keyError)
  | _, _, done, h, hR, .nil => .inl ⟨h, rfl, ⟨done, by simp [entriesOf], hR⟩, fun x hx => by cases hx⟩
  | x :: l, v :: vls, done, h, hR, .cons hx hl => by
    obtain ⟨lo, g1, g2, ⟨d, g3, g4, g5, g6⟩, _⟩ := hx
    have hlo : h[x]? = some (.line lo) := by
      refine hR.other x _ (asLine_some g2) ?_ (fun p hp => by cases hp)
      rintro rfl; rw [hmd1] at g2; cases g2
    have hd : h[lo.prefs]? = some (.prefs d) := by
      refine hR.other _ _ (asPrefs_some g4) ?_ (fun p hp => by cases hp)
      intro e; rw [e, hmd1] at g4; cases g4
    unfold HM.each
    have hstep : addRatingLineH hr n mdA x h = HM.each (addRatingEntryH hr n mdA) (Dict.values d) h := by
      unfold addRatingLineH
      rw [HM.bind_of_ok (HM.look_of (show (h[x]?).bind Obj.asLine = some lo by rw [hlo]; rfl)),
        HM.bind_of_ok (HM.look_of (show (h[lo.prefs]?).bind Obj.asPrefs = some d by rw [hd]; rfl))]
    rw [HM.bind_eq, hstep, entriesOf_cons g2 g4]
    have hxs : ∀ y ∈ Dict.values d, h0.length ≤ y ∧ ∃ p, h1[y]? = some (.entry p) := by
      intro y hy
      obtain ⟨k, p, _, hp⟩ := items_entry g5 y hy
      obtain ⟨kv, hkv, rfl⟩ := List.mem_map.1 hy
      exact ⟨g6 kv hkv, p, hp⟩
    rcases rateEach hmd0 hmd1 (Dict.values d) done h hR hxs with ⟨h2, e1, r1, e2⟩ | ⟨h2, e1, u1, y, hy, e2⟩
    · rw [e1]
      simp only
      rcases rateLines hmd0 hmd1 l vls _ h2 r1 hl with ⟨h3, e3, ⟨done', t1, t2⟩, e4⟩ | ⟨h3, e3, u2, y, hy, e4⟩
      · refine .inl ⟨h3, e3, ⟨done', ?_, t2⟩, ?_⟩
        · intro y
          rw [t1, List.mem_append, List.mem_append]
          tauto
        · intro y hy q hq
          rcases List.mem_append.1 hy with hy | hy
          · exact e2 y hy q hq
          · exact e4 y hy q hq
      · exact .inr ⟨h3, e3, u2, y, List.mem_append_right _ hy, e4⟩
    · rw [e1]
      exact .inr ⟨h2, rfl, u1, y, List.mem_append_left _ hy, e2⟩

/-! ### the result -/

/-- the rating of one preference, as `addRatings` does it -/
def ratePref (hr : Bool) (n : Int) (kp : Str × Pref) : Except PyErr (Str × Pref) := do
  let p ← addRatingEntry hr n kp.2
  .ok (kp.1, p)

/-- the rating of one voteline, as `addRatings` does it -/
def rateLine (hr : Bool) (n : Int) (vl : Voteline) : Except PyErr Voteline := do
  let prefs ← vl.prefs.mapM (ratePref hr n)
  .ok { vl with prefs := prefs }

theorem addRatings_loops [U : Uni] (m : Jabmod) : addRatings m = (do
    let vls ← m.votelines.mapM (rateLine (hasAnyRating m) m.candidates.length)
    .ok { m with votelines := vls,
                 metadata := if (!hasAnyRating m && m.votelines.any (fun vl => vl.prefs.any (fun kp => !ratingTruthy kp.2.rating)))
                             then markedMeta m.metadata else m.metadata }) := rfl

theorem rated_items {hr : Bool} {n : Int} {h0 h1 h : Heap} {mdA : Addr} {md : Dict Str Json} {done : List Addr}
    (hR : Rating hr n h0 h1 mdA md done h) : ∀ {d : Dict Str Addr} {D : Dict Str Pref}, itemsAt h1 d = some D →
    (∀ x ∈ Dict.values d, x ∈ done) → ∃ D', List.mapM (ratePref hr n) D = .ok D' ∧ itemsAt h d = some D'
  | [], D, hd, _ => by cases hd; exact ⟨[], rfl, rfl⟩
  | (k, a) :: d, D, hd, hdone => by
    obtain ⟨p, D, g1, g2, rfl⟩ := itemsAt_cons hd
    obtain ⟨p', e1, e2⟩ := hR.rated a p (asEntry_some g1) (hdone a (List.mem_cons_self ..))
    obtain ⟨D', e3, e4⟩ := rated_items hR g2 (fun x hx => hdone x (List.mem_cons_of_mem _ hx))
    refine ⟨(k, p') :: D', ?_, itemsAt_of_cons (show (h[a]?).bind Obj.asEntry = some p' by rw [e2]; rfl) e4⟩
    rw [mapM_cons_ok]
    refine ⟨(k, p'), D', ?_, e3, rfl⟩
    unfold ratePref
    rw [e1]
    rfl

theorem rated_lines {hr : Bool} {n : Int} {h0 h1 h : Heap} {mdA : Addr} {md : Dict Str Json} {done : List Addr}
    (hmd1 : h1[mdA]? = some (.metadata md))
    (hR : Rating hr n h0 h1 mdA md done h) : ∀ {l : List Addr} {vls : List Voteline}, LinesNew h0.length h1 l vls →
    (∀ x ∈ entriesOf h1 l, x ∈ done) → ∃ vls', vls.mapM (rateLine hr n) = .ok vls' ∧ linesOfAddrs h l = some vls'
  | _, _, .nil, _ => ⟨[], rfl, rfl⟩
  | x :: l, v :: vls, .cons hx hl, hdone => by
    obtain ⟨lo, g1, g2, ⟨d, g3, g4, g5, g6⟩, q1, q2, q3, q4, q5⟩ := hx
    have hlo : h[x]? = some (.line lo) := by
      refine hR.other x _ (asLine_some g2) ?_ (fun p hp => by cases hp)
      rintro rfl; rw [hmd1] at g2; cases g2
    have hd : h[lo.prefs]? = some (.prefs d) := by
      refine hR.other _ _ (asPrefs_some g4) ?_ (fun p hp => by cases hp)
      intro e; rw [e, hmd1] at g4; cases g4
    rw [entriesOf_cons g2 g4] at hdone
    obtain ⟨D', e1, e2⟩ := rated_items hR g5 (fun y hy => hdone y (List.mem_append_left _ hy))
    obtain ⟨vls', e3, e4⟩ := rated_lines hmd1 hR hl (fun y hy => hdone y (List.mem_append_right _ hy))
    refine ⟨{ v with prefs := D' } :: vls', ?_, linesOfAddrs_of_cons ?_ e4⟩
    · rw [mapM_cons_ok]
      refine ⟨{ v with prefs := D' }, vls', ?_, e3, rfl⟩
      unfold rateLine
      rw [e1]
      rfl
    · rw [lineAt_of (show (h[x]?).bind Obj.asLine = some lo by rw [hlo]; rfl) (show prefsAt h lo.prefs = some D' by
        unfold prefsAt; rw [hd]; exact e2), q1, q2, q3, q4, q5]

/-- an entry there is one of the model -/
theorem entriesOf_value {n : Nat} {h : Heap} : ∀ {l : List Addr} {vls : List Voteline}, LinesNew n h l vls →
    (∀ x ∈ entriesOf h l, ∃ v ∈ vls, ∃ kp ∈ v.prefs, h[x]? = some (.entry kp.2)) ∧
    (∀ v ∈ vls, ∀ kp ∈ v.prefs, ∃ x ∈ entriesOf h l, h[x]? = some (.entry kp.2))
  | _, _, .nil => ⟨fun x hx => (by cases hx), fun v hv => (by cases hv)⟩
  | x :: l, v :: vls, .cons hx hl => by
    obtain ⟨lo, g1, g2, ⟨d, g3, g4, g5, g6⟩, _⟩ := hx
    obtain ⟨i1, i2⟩ := entriesOf_value hl
    rw [entriesOf_cons g2 g4]
    constructor
    · intro y hy
      rcases List.mem_append.1 hy with hy | hy
      · obtain ⟨k, p, hk, hp⟩ := items_entry g5 y hy
        exact ⟨v, List.mem_cons_self .., (k, p), hk, hp⟩
      · obtain ⟨w, hw, kp, hkp, e⟩ := i1 y hy
        exact ⟨w, List.mem_cons_of_mem _ hw, kp, hkp, e⟩
    · intro w hw kp hkp
      rcases List.mem_cons.1 hw with rfl | hw
      · have hf := itemsAt_forall₂ g5
        have : ∃ y ∈ Dict.values d, h[y]? = some (.entry kp.2) := by
          clear g4 g5 g6 i1 i2
          revert hkp
          generalize w.prefs = D at hf
          intro hkp
          induction hf with
          | nil => cases hkp
          | @cons a b l1 l2 hab _ ih =>
            rcases List.mem_cons.1 hkp with rfl | hkp
            · exact ⟨a.2, List.mem_cons_self .., asEntry_some hab.2⟩
            · obtain ⟨y, hy, e⟩ := ih hkp
              exact ⟨y, List.mem_cons_of_mem _ hy, e⟩
        obtain ⟨y, hy, e⟩ := this
        exact ⟨y, List.mem_append_left _ hy, e⟩
      · obtain ⟨y, hy, e⟩ := i2 w hw kp hkp
        exact ⟨y, List.mem_append_right _ hy, e⟩

theorem seen_reads {h : Heap} : ∀ {l : List Addr} {vls : List Voteline}, linesOfAddrs h l = some vls →
    HM.collect (fun x => do
      let vl ← HM.look Obj.asLine x
      let prefs ← wholePrefs vl.prefs
      HM.ret (prefs.any (fun kp => kp.2.rating.isSome))) l h = (.ok (vls.map fun vl => vl.prefs.any (fun kp => kp.2.rating.isSome)), h)
  | [], vls, hv => by cases hv; rfl
  | x :: l, vls, hv => by
    obtain ⟨v, vls, h1, h2, rfl⟩ := linesOfAddrs_cons hv
    obtain ⟨lo, d, g1, g2, g3, g4, q1, _⟩ := lineAt_some h1
    unfold HM.collect
    rw [HM.bind_of_ok (by rw [HM.bind_of_ok (HM.look_of g1), HM.bind_of_ok (wholePrefs_reads g4)]; exact HM.ret_eq _ _),
      HM.bind_of_ok (seen_reads h2)]
    rfl

theorem addRatingEntry_cases (hr : Bool) (n : Int) (p : Pref) :
    (∃ p', addRatingEntry hr n p = .ok p') ∨ addRatingEntry hr n p = .error .keyError := by
  unfold addRatingEntry
  split
  · exact .inl ⟨_, rfl⟩
  · split
    · exact .inl ⟨_, rfl⟩
    · split
      · exact .inl ⟨_, rfl⟩
      · exact .inr rfl

theorem ratePref_cases (hr : Bool) (n : Int) (kp : Str × Pref) :
    (∃ p', ratePref hr n kp = .ok p') ∨ ratePref hr n kp = .error .keyError := by
  unfold ratePref
  rcases addRatingEntry_cases hr n kp.2 with ⟨p', e⟩ | e
  · rw [e]; exact .inl ⟨_, rfl⟩
  · rw [e]; exact .inr rfl

theorem mapM_cases {α β : Type} {f : α → Except PyErr β} {e : PyErr} : ∀ (l : List α),
    (∀ x, (∃ y, f x = .ok y) ∨ f x = .error e) → (∃ r, l.mapM f = .ok r) ∨ l.mapM f = .error e
  | [], _ => .inl ⟨[], rfl⟩
  | x :: l, h => by
    rw [List.mapM_cons]
    rcases h x with ⟨y, hy⟩ | hy
    · rw [hy, ok_bind]
      rcases mapM_cases l h with ⟨r, hr⟩ | hr
      · rw [hr]; exact .inl ⟨_, rfl⟩
      · rw [hr]; exact .inr rfl
    · rw [hy]; exact .inr rfl

theorem rateLine_cases (hr : Bool) (n : Int) (v : Voteline) :
    (∃ v', rateLine hr n v = .ok v') ∨ rateLine hr n v = .error .keyError := by
  unfold rateLine
  rcases mapM_cases (e := .keyError) v.prefs (ratePref_cases hr n) with ⟨p', e⟩ | e
  · rw [e]; exact .inl ⟨_, rfl⟩
  · rw [e]; exact .inr rfl

/-- `_add_ratings_to_jabmod_votelines` -/
theorem addRatingsH_spec [U : Uni] {h : Heap} {a : Addr} {m : Jabmod} (hm : modelAt h a = some m) :
    Agrees h (addRatingsH a h) (addRatings m) (fun m' b h' => h.length ≤ b ∧ modelAt h' b = some m') := by
  obtain ⟨j, l0, h1, h2, h3, h4, h5, h6⟩ := modelAt_some hm
  obtain ⟨b, j', l, hc, e1, u1, n1, n2, g1, g2, g3, g4, v1⟩ := deepcopyModel_spec hm
  have hany : List.any (m.votelines.map fun vl => vl.prefs.any (fun kp => kp.2.rating.isSome)) id = hasAnyRating m := by
    unfold hasAnyRating
    rw [List.any_map]
    rfl
  have hstep : addRatingsH a h = match HM.each (addRatingLineH (hasAnyRating m) m.candidates.length j'.metadata) l hc with
      | (.ok _, h') => (.ok b, h')
      | (.error e, h') => (.error e, h') := by
    unfold addRatingsH
    rw [HM.bind_of_ok (HM.look_of h1), HM.bind_of_ok (HM.look_of h5), HM.bind_of_ok (seen_reads h6),
      HM.bind_of_ok (HM.look_of h3), HM.bind_of_ok e1,
      HM.bind_of_ok (HM.look_of (show (hc[b]?).bind Obj.asJabmod = some j' by rw [g1]; rfl)),
      HM.bind_of_ok (HM.look_of (show (hc[j'.votelines]?).bind Obj.asLines = some l by rw [g4]; rfl)), HM.bind_eq, hany]
    rcases HM.each (addRatingLineH (hasAnyRating m) m.candidates.length j'.metadata) l hc with ⟨_ | _, _⟩ <;> rfl
  have hR0 : Rating (hasAnyRating m) m.candidates.length h hc j'.metadata m.metadata [] hc := by
    refine ⟨u1, fun a o ha _ _ => ha, fun x p _ hx => (by cases hx), fun x p hx _ => hx, false, g2, ?_⟩
    simp
  rw [hstep, addRatings_loops]
  rcases rateLines n2 g2 l m.votelines [] hc hR0 v1 with ⟨h', e2, ⟨done, t1, t2⟩, e3⟩ | ⟨h', e2, u2, x, hx, p, e3, e4⟩
  · rw [e2]
    obtain ⟨vls', r1, r2⟩ := rated_lines g2 t2 v1 (fun x hx => (t1 x).2 (.inl hx))
    rw [r1]
    refine ⟨t2.old, b, rfl, n1, ?_⟩
    obtain ⟨flag, f1, f2⟩ := t2.marks
    have hb : h'[b]? = some (.jabmod j') := t2.other b _ g1 (by rintro rfl; rw [g2] at g1; cases g1) (fun p hp => by cases hp)
    have hcs : h'[j'.candidates]? = some (.cands m.candidates) :=
      t2.other _ _ g3 (by intro e; rw [e, g2] at g3; cases g3) (fun p hp => by cases hp)
    have hls : h'[j'.votelines]? = some (.lines l) :=
      t2.other _ _ g4 (by intro e; rw [e, g2] at g4; cases g4) (fun p hp => by cases hp)
    have hflag : flag = (!hasAnyRating m && m.votelines.any (fun vl => vl.prefs.any (fun kp => !ratingTruthy kp.2.rating))) := by
      rw [Bool.eq_iff_iff, f2]
      simp only [Bool.and_eq_true, Bool.not_eq_true', List.any_eq_true]
      refine and_congr_right fun _ => ?_
      constructor
      · rintro ⟨x, hx, p, hp, hp2⟩
        obtain ⟨v, hv, kp, hkp, e⟩ := (entriesOf_value v1).1 x (by simpa using (t1 x).1 hx)
        rw [hp] at e
        cases e
        exact ⟨v, hv, kp, hkp, hp2⟩
      · rintro ⟨v, hv, kp, hkp, hp2⟩
        obtain ⟨x, hx, e⟩ := (entriesOf_value v1).2 v hv kp hkp
        exact ⟨x, (t1 x).2 (.inl hx), kp.2, e, hp2⟩
    unfold modelAt linesAt
    simp only [hb, Option.bind_some, Obj.asJabmod, f1, Obj.asMetadata, hcs, Obj.asCands, hls, Obj.asLines, r2, Option.map_some, hflag]
  · rw [e2]
    have : m.votelines.mapM (rateLine (hasAnyRating m) m.candidates.length) = .error .keyError := by
      obtain ⟨v, hv, kp, hkp, e⟩ := (entriesOf_value v1).1 x hx
      rw [e3] at e
      cases e
      refine mapM_error (fun w _ => rateLine_cases _ _ w) ⟨v, hv, ?_⟩
      unfold rateLine
      rw [mapM_error (e := .keyError) (fun w _ => ratePref_cases _ _ w) ⟨kp, hkp, by unfold ratePref; rw [e4]; rfl⟩]
      rfl
    rw [this]
    exact ⟨u2, rfl⟩

end Verif
