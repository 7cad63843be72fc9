/-
Helper lemmas: what the instant-runoff count does with tied ballots.
-/
import Verif.Lib.IrvElim
import Verif.Spec.IrvExact

set_option linter.unusedSimpArgs false
set_option linter.unusedSectionVars false

namespace Verif
open Spec

/-! ### which lines stay -/

/-- keeping lines with the parity of the run of overvotes before them -/
def keptFrom : Bool → List Voteline → List Voteline
  | _, [] => []
  | b, v :: rest => if overvoted v then (if b then v :: keptFrom false rest else keptFrom true rest) else v :: keptFrom false rest

def thrownFrom : Bool → List Voteline → List Voteline
  | _, [] => []
  | b, v :: rest => if overvoted v then (if b then thrownFrom false rest else v :: thrownFrom true rest) else thrownFrom false rest

theorem odd_bool (n : Nat) : decide ((n + 1) % 2 = 1) = !decide (n % 2 = 1) := by
  rcases Nat.mod_two_eq_zero_or_one n with h | h
  · have : (n + 1) % 2 = 1 := by omega
    simp [h, this]
  · have : (n + 1) % 2 = 0 := by omega
    simp [h, this]

theorem thrownOut_at (pre : List Voteline) (v : Voteline) (rest : List Voteline) :
    thrownOut (pre ++ v :: rest) pre.length = (overvoted v && !decide ((pre.reverse.takeWhile overvoted).length % 2 = 1)) := by
  unfold thrownOut overvotesBefore
  rw [List.getElem?_append_right (Nat.le_refl _)]
  simp only [Nat.sub_self, List.getElem?_cons_zero, List.take_left']
  rcases Nat.mod_two_eq_zero_or_one (pre.reverse.takeWhile overvoted).length with h | h <;> simp [h]

theorem kept_link (p : Bool) : ∀ (rest pre : List Voteline),
    (((rest.zipIdx pre.length).filter (fun vi => thrownOut (pre ++ rest) vi.2 == p)).map Prod.fst) =
      (if p then thrownFrom else keptFrom) (decide ((pre.reverse.takeWhile overvoted).length % 2 = 1)) rest
  | [], pre => by cases p <;> rfl
  | v :: rest, pre => by
    have ih := kept_link p rest (pre ++ [v])
    rw [List.length_append, List.length_singleton, List.append_assoc, List.singleton_append, List.reverse_append,
      List.reverse_singleton, List.singleton_append] at ih
    rw [List.zipIdx_cons, List.filter_cons]
    simp only [thrownOut_at pre v rest]
    cases hv : overvoted v
    · rw [List.takeWhile_cons_of_neg (by simp [hv])] at ih
      simp only [List.length_nil, Nat.zero_mod] at ih
      cases p <;> simp [thrownFrom, keptFrom, hv] at ih ⊢ <;> exact ih
    · rw [List.takeWhile_cons_of_pos hv, List.length_cons, odd_bool] at ih
      cases hb : decide ((pre.reverse.takeWhile overvoted).length % 2 = 1) <;> rw [hb] at ih <;>
        cases p <;> simp [thrownFrom, keptFrom, hv] at ih ⊢ <;> exact ih

theorem keptLines_eq (vls : List Voteline) : keptLines vls = keptFrom false vls := by
  have := kept_link false vls []
  simp only [List.length_nil, List.nil_append, List.reverse_nil, List.takeWhile_nil, Nat.zero_mod] at this
  unfold keptLines
  simpa using this

theorem thrownLines_eq (vls : List Voteline) : thrownLines vls = thrownFrom false vls := by
  have := kept_link true vls []
  simp only [List.length_nil, List.nil_append, List.reverse_nil, List.takeWhile_nil, Nat.zero_mod] at this
  unfold thrownLines
  simpa using this

theorem discard_from : ∀ (vls : List Voteline), (∀ vl ∈ vls, CountLine vl) →
    discardOvervotes vls = .ok (qtot (thrownFrom false vls), keptFrom false vls)
  | [], _ => rfl
  | [v], h => by
    have hv := h v (by simp)
    unfold discardOvervotes
    rw [isOvervote_eq hv.wf hv.ranked hv.below, ok_bind]
    cases ho : overvoted v
    · simp [discardOvervotes, qtot, ho, thrownFrom, keptFrom]; rfl
    · simp [qtot, ho, thrownFrom, keptFrom]
  | v :: w :: rest, h => by
    have hv := h v (by simp)
    unfold discardOvervotes
    rw [isOvervote_eq hv.wf hv.ranked hv.below, ok_bind]
    cases ho : overvoted v
    · simp only [Bool.false_eq_true, if_false]
      rw [discard_from (w :: rest) (fun x hx => h x (by simp [List.mem_cons.1 hx])), ok_bind]
      simp only [thrownFrom, keptFrom, ho, Bool.false_eq_true, if_false]
    · simp only [if_true]
      rw [discard_from rest (fun x hx => h x (by simp [hx])), ok_bind]
      have e1 : thrownFrom false (v :: w :: rest) = v :: thrownFrom false rest := by
        simp only [thrownFrom, ho, if_true, Bool.false_eq_true, if_false]
        cases overvoted w <;> simp
      have e2 : keptFrom false (v :: w :: rest) = w :: keptFrom false rest := by
        simp only [keptFrom, ho, if_true, Bool.false_eq_true, if_false]
        cases overvoted w <;> simp
      rw [e1, e2, qtot_cons]

theorem discard_exact {vls : List Voteline} (h : ∀ vl ∈ vls, CountLine vl) :
    discardOvervotes vls = .ok (qtot (thrownLines vls), keptLines vls) := by
  rw [thrownLines_eq, keptLines_eq]; exact discard_from vls h

theorem keptFrom_sub : ∀ (b : Bool) (vls : List Voteline), (keptFrom b vls).Sublist vls
  | _, [] => .refl _
  | b, v :: rest => by
    unfold keptFrom
    split
    · split
      · exact (keptFrom_sub _ rest).cons_cons v
      · exact (keptFrom_sub _ rest).cons v
    · exact (keptFrom_sub _ rest).cons_cons v

theorem keptLines_mem {vls : List Voteline} {v : Voteline} (h : v ∈ keptLines vls) : v ∈ vls := by
  rw [keptLines_eq] at h
  exact (keptFrom_sub _ _).subset h

/-! ### who gets the vote -/

/-- `firstAlone` through ranks -/
def AloneAt (prefs : Dict Str Pref) (c : Str) : Prop :=
  ∃ e ∈ prefs, e.1 = c ∧ (∀ d ∈ prefs, d.2.rank.getD 0 = e.2.rank.getD 0 → d.1 = c) ∧
    ∀ d ∈ prefs, d.2.rank.getD 0 < e.2.rank.getD 0 → ∃ f ∈ prefs, f.1 ≠ d.1 ∧ f.2.rank.getD 0 = d.2.rank.getD 0

theorem prefers_entries {vl : Voteline} (hw : Dict.WF vl.prefs) (hr : Ranked vl.prefs) {e d : Str × Pref} (he : e ∈ vl.prefs) (hd : d ∈ vl.prefs) :
    prefers vl e.1 d.1 = decide (e.2.rank.getD 0 < d.2.rank.getD 0) := by
  unfold prefers
  rw [rankOf_of_mem hw hr he, rankOf_of_mem hw hr hd]

theorem indifferent_entries {vl : Voteline} (hw : Dict.WF vl.prefs) (hr : Ranked vl.prefs) {e d : Str × Pref} (he : e ∈ vl.prefs) (hd : d ∈ vl.prefs) :
    indifferent vl e.1 d.1 = decide (e.2.rank.getD 0 = d.2.rank.getD 0) := by
  unfold indifferent
  rw [prefers_entries hw hr he hd, prefers_entries hw hr hd he, Bool.eq_iff_iff]
  simp
  omega

theorem firstAlone_iff {vl : Voteline} (hw : Dict.WF vl.prefs) (hr : Ranked vl.prefs) (c : Str) :
    firstAlone c vl = true ↔ AloneAt vl.prefs c := by
  unfold firstAlone AloneAt
  simp only [Bool.and_eq_true, decide_eq_true_eq, List.all_eq_true, Bool.or_eq_true, Bool.not_eq_true', List.any_eq_true]
  constructor
  · rintro ⟨⟨h1, h2⟩, h3⟩
    obtain ⟨e, he, rfl⟩ := List.mem_map.1 h1
    refine ⟨e, he, rfl, ?_, ?_⟩
    · intro d hd hrk
      rcases h2 d.1 (List.mem_map.2 ⟨d, hd, rfl⟩) with h | h
      · exact h
      · rw [indifferent_entries hw hr he hd] at h
        simp at h
        exact absurd hrk.symm h
    · intro d hd hlt
      rcases h3 d.1 (List.mem_map.2 ⟨d, hd, rfl⟩) with h | ⟨f, hf, h1, h2⟩
      · rw [prefers_entries hw hr hd he] at h
        simp at h; omega
      · obtain ⟨f, hf', rfl⟩ := List.mem_map.1 hf
        rw [indifferent_entries hw hr hd hf', decide_eq_true_eq] at h2
        exact ⟨f, hf', h1, h2.symm⟩
  · rintro ⟨e, he, rfl, h2, h3⟩
    refine ⟨⟨List.mem_map.2 ⟨e, he, rfl⟩, ?_⟩, ?_⟩
    · intro d hd
      obtain ⟨d, hd', rfl⟩ := List.mem_map.1 hd
      rw [indifferent_entries hw hr he hd']
      by_cases hx : d.2.rank.getD 0 = e.2.rank.getD 0
      · exact .inl (h2 d hd' hx)
      · right; simp; exact fun h => hx h.symm
    · intro d hd
      obtain ⟨d, hd', rfl⟩ := List.mem_map.1 hd
      rw [prefers_entries hw hr hd' he]
      by_cases hx : d.2.rank.getD 0 < e.2.rank.getD 0
      · right
        obtain ⟨f, hf, g1, g2⟩ := h3 d hd' hx
        refine ⟨f.1, List.mem_map.2 ⟨f, hf, rfl⟩, g1, ?_⟩
        rw [indifferent_entries hw hr hd' hf]
        simp [g2]
      · left; simpa using hx

/-- dropping the group of minimal elements of a sorted list -/
theorem drop_countP (l : List (Str × Int)) (x : Int) (h : l.Pairwise (fun a b => a.2 ≤ b.2)) :
    l.drop (l.countP (fun e => decide (e.2 ≤ x))) = l.filter (fun e => decide (x < e.2)) := by
  induction l with
  | nil => rfl
  | cons a l ih =>
    rw [List.pairwise_cons] at h
    by_cases ha : a.2 ≤ x
    · rw [List.countP_cons_of_pos (by simpa using ha), List.drop_succ_cons, ih h.2, List.filter_cons_of_neg (by simpa using ha)]
    · have hz : l.countP (fun e => decide (e.2 ≤ x)) = 0 := by
        rw [List.countP_eq_zero]
        intro b hb
        have := h.1 b hb
        simp; omega
      rw [List.countP_cons_of_neg (by simpa using ha), hz, List.drop_zero]
      symm
      rw [List.filter_eq_self]
      intro b hb
      rcases List.mem_cons.1 hb with rfl | hb
      · simpa using ha
      · have := h.1 b hb
        simp; omega

theorem nextPrefs_eq {prefs : Dict Str Pref} (hb : Below prefs) {x : Str × Int} {t : List (Str × Int)}
    (hl : rsort prefs = x :: t) :
    nextPrefs prefs = ((rsort prefs).filter (fun e => decide (x.2 < e.2))).filterMap (fun k => (Dict.get? prefs k.1).map (fun p => (k.1, p))) := by
  unfold nextPrefs
  rw [topIndex_eq (rsort_sorted prefs) hl (rsort_head_below hb hl), drop_countP _ _ (rsort_sorted prefs)]

theorem mem_nextPrefs {prefs : Dict Str Pref} (hw : Dict.WF prefs) (hb : Below prefs) {x : Str × Int} {t : List (Str × Int)}
    (hl : rsort prefs = x :: t) {e : Str × Pref} : e ∈ nextPrefs prefs ↔ e ∈ prefs ∧ x.2 < e.2.rank.getD 0 := by
  rw [nextPrefs_eq hb hl, List.mem_filterMap]
  constructor
  · rintro ⟨k, hk, hke⟩
    obtain ⟨hk1, hk2⟩ := List.mem_filter.1 hk
    obtain ⟨p, hp, rfl⟩ := Option.map_eq_some_iff.1 hke
    have := (rsort_perm prefs).mem_iff.1 hk1
    obtain ⟨e, he, rfl⟩ := List.mem_map.1 this
    rw [Dict.get?_of_mem hw he] at hp
    cases hp
    exact ⟨he, by simpa using hk2⟩
  · rintro ⟨he, hlt⟩
    refine ⟨(e.1, e.2.rank.getD 0), List.mem_filter.2 ⟨(rsort_perm prefs).mem_iff.2 (List.mem_map.2 ⟨e, he, rfl⟩), by simpa using hlt⟩, ?_⟩
    simp [Dict.get?_of_mem hw he]

theorem nextPrefs_wf {prefs : Dict Str Pref} (hw : Dict.WF prefs) : Dict.WF (nextPrefs prefs) := by
  have hk : ∀ (l : List (Str × Int)), (Dict.keys (l.filterMap (fun k => (Dict.get? prefs k.1).map (fun p => (k.1, p))))).Sublist (l.map Prod.fst) := by
    intro l
    induction l with
    | nil => exact .refl _
    | cons k l ih =>
      rw [List.filterMap_cons]
      cases hg : Dict.get? prefs k.1 with
      | none => exact ih.cons _
      | some p => exact ih.cons_cons _
  unfold Dict.WF
  refine List.Nodup.sublist (hk _) ?_
  have h1 : ((rsort prefs).map Prod.fst).Nodup := by
    have := ((rsort_perm prefs).map Prod.fst).nodup_iff.2 (by
      unfold rankPairs; rw [List.map_map]
      exact hw)
    exact this
  exact List.Nodup.sublist (List.drop_sublist _ _ |>.map _) h1

/-- the first candidate alone is unique -/
theorem aloneAt_unique {prefs : Dict Str Pref} {c d : Str} (hc : AloneAt prefs c) (hd : AloneAt prefs d) : c = d := by
  obtain ⟨e, he, rfl, h1, h2⟩ := hc
  obtain ⟨f, hf, rfl, g1, g2⟩ := hd
  rcases Int.lt_trichotomy (e.2.rank.getD 0) (f.2.rank.getD 0) with h | h | h
  · obtain ⟨k, hk, hne, hr⟩ := g2 e he h
    exact absurd (h1 k hk hr) hne
  · exact g1 e he h
  · obtain ⟨k, hk, hne, hr⟩ := h2 f hf h
    exact absurd (g1 k hk hr) hne

theorem validTop_exact : ∀ (n : Nat) (prefs : Dict Str Pref), Dict.WF prefs → Ranked prefs → Below prefs → prefs.length < n →
    ∃ r, validTop n prefs = .ok r ∧ ∀ c, r = some c ↔ AloneAt prefs c
  | 0, _, _, _, _, h => by omega
  | n + 1, prefs, hw, hr, hb, hn => by
    cases hl : rsort prefs with
    | nil =>
      refine ⟨none, validTop_nil n hr hl, ?_⟩
      intro c
      have := rsort_eq_nil.1 hl
      subst this
      simp [AloneAt]
    | cons x t =>
      rw [validTop_cons n hr hl]
      have hti := topIndex_eq (rsort_sorted prefs) hl (rsort_head_below hb hl)
      have hmem : ∀ e : Str × Pref, e ∈ prefs → (e.1, e.2.rank.getD 0) ∈ rsort prefs := fun e he => (rsort_perm prefs).mem_iff.2 (List.mem_map.2 ⟨e, he, rfl⟩)
      have hmin : ∀ e ∈ prefs, x.2 ≤ e.2.rank.getD 0 := by
        intro e he
        have hs := rsort_sorted prefs
        have hm := hmem e he
        rw [hl, List.pairwise_cons] at hs
        rw [hl] at hm
        rcases List.mem_cons.1 hm with h | h
        · rw [← h]; exact Int.le_refl _
        · exact hs.1 _ h
      obtain ⟨ex, hex, hxe⟩ : ∃ e ∈ prefs, (e.1, e.2.rank.getD 0) = x := List.mem_map.1 ((rsort_perm prefs).mem_iff.1 (by rw [hl]; simp))
      have hx1 : ex.1 = x.1 := by rw [← hxe]
      have hx2 : ex.2.rank.getD 0 = x.2 := by rw [← hxe]
      by_cases h0 : topIndex (rsort prefs) = 0
      · rw [if_pos h0]
        have hal : AloneAt prefs x.1 := by
          refine ⟨ex, hex, hx1, ?_, ?_⟩
          · intro d hd hdr
            rw [h0] at hti
            rw [hl, List.countP_cons_of_pos (by simp)] at hti
            have hz : t.countP (fun e => decide (e.2 ≤ x.2)) = 0 := by omega
            rw [List.countP_eq_zero] at hz
            have hm := hmem d hd
            rw [hl] at hm
            rcases List.mem_cons.1 hm with h | h
            · rw [← h]
            · have := hz _ h
              simp at this; omega
          · intro d hd hlt
            have := hmin d hd
            omega
        refine ⟨some x.1, rfl, ?_⟩
        intro c
        constructor
        · rintro ⟨⟩; exact hal
        · intro hc
          rw [aloneAt_unique hal hc]
      · rw [if_neg h0]
        have hne : prefs ≠ [] := fun h => by rw [← rsort_eq_nil, hl] at h; cases h
        have hnm : ∀ e : Str × Pref, e ∈ nextPrefs prefs ↔ e ∈ prefs ∧ x.2 < e.2.rank.getD 0 := fun e => mem_nextPrefs hw hb hl
        obtain ⟨r, h1, h2⟩ := validTop_exact n (nextPrefs prefs) (nextPrefs_wf hw) (nextPrefs_ranked hr)
          (fun e he => hb e ((hnm e).1 he).1) (by have := nextPrefs_length hne; omega)
        refine ⟨r, h1, fun c => (h2 c).trans ?_⟩
        -- two entries at the top
        have htwo : ∀ d ∈ prefs, d.2.rank.getD 0 = x.2 → ∃ f ∈ prefs, f.1 ≠ d.1 ∧ f.2.rank.getD 0 = x.2 := by
          intro d hd hdr
          rw [hl] at hti h0
          rw [List.countP_cons_of_pos (by simp)] at hti
          have hz : 0 < t.countP (fun e => decide (e.2 ≤ x.2)) := by omega
          rw [List.countP_pos_iff] at hz
          obtain ⟨y, hy, hyx⟩ := hz
          obtain ⟨ey, hey, hye⟩ : ∃ e ∈ prefs, (e.1, e.2.rank.getD 0) = y := List.mem_map.1 ((rsort_perm prefs).mem_iff.1 (by rw [hl]; simp [hy]))
          have hy2 : ey.2.rank.getD 0 = x.2 := by
            have := hmin ey hey
            have h3 : ey.2.rank.getD 0 = y.2 := by rw [← hye]
            simp at hyx; omega
          by_cases hdx : d.1 = x.1
          · refine ⟨ey, hey, ?_, hy2⟩
            have hnd : ((rsort prefs).map Prod.fst).Nodup := ((rsort_perm prefs).map Prod.fst).nodup_iff.2 (by
              unfold rankPairs; rw [List.map_map]; exact hw)
            rw [hl, List.map_cons, List.nodup_cons] at hnd
            rw [hdx]
            intro hh
            apply hnd.1
            have : y.1 = x.1 := by rw [← hye]; exact hh
            rw [← this]
            exact List.mem_map.2 ⟨y, hy, rfl⟩
          · exact ⟨ex, hex, by rw [hx1]; exact fun h => hdx h.symm, hx2⟩
        constructor
        · rintro ⟨e, he, rfl, g1, g2⟩
          obtain ⟨hep, hel⟩ := (hnm e).1 he
          refine ⟨e, hep, rfl, ?_, ?_⟩
          · intro d hd hdr
            exact g1 d ((hnm d).2 ⟨hd, by omega⟩) hdr
          · intro d hd hlt
            by_cases hdx : d.2.rank.getD 0 = x.2
            · obtain ⟨f, hf, k1, k2⟩ := htwo d hd hdx
              exact ⟨f, hf, k1, by omega⟩
            · have := hmin d hd
              obtain ⟨f, hf, k1, k2⟩ := g2 d ((hnm d).2 ⟨hd, by omega⟩) hlt
              exact ⟨f, ((hnm f).1 hf).1, k1, k2⟩
        · rintro ⟨e, he, rfl, g1, g2⟩
          have hel : x.2 < e.2.rank.getD 0 := by
            have h3 := hmin e he
            rcases Int.lt_or_eq_of_le h3 with h | h
            · exact h
            · obtain ⟨f, hf, k1, k2⟩ := htwo e he h.symm
              exact absurd (g1 f hf (by omega)) k1
          refine ⟨e, (hnm e).2 ⟨he, hel⟩, rfl, fun d hd hdr => g1 d ((hnm d).1 hd).1 hdr, ?_⟩
          intro d hd hlt
          obtain ⟨hdp, hdl⟩ := (hnm d).1 hd
          obtain ⟨f, hf, k1, k2⟩ := g2 d hdp hlt
          exact ⟨f, (hnm f).2 ⟨hf, by omega⟩, k1, k2⟩

theorem topOf_exact {vl : Voteline} (h : CountLine vl) (c : Str) :
    (topOf vl == some c) = (decide (c ≠ []) && firstAlone c vl) := by
  obtain ⟨r, h1, h2⟩ := validTop_exact _ _ h.wf h.ranked h.below (Nat.lt_succ_self _)
  unfold topOf
  rw [h1, Bool.eq_iff_iff]
  simp only [beq_iff_eq, Bool.and_eq_true, decide_eq_true_eq, firstAlone_iff h.wf h.ranked, ← h2]
  match r with
  | none => simp [credited]
  | some [] => simp [credited]
  | some (a :: s) =>
    simp only [credited, Option.some.injEq]
    constructor
    · intro e; rw [← e]; simp
    · exact fun e => e.2

theorem topOf_none {vl : Voteline} (h : CountLine vl) : (topOf vl == none) = nobodyAlone vl := by
  rw [Bool.eq_iff_iff]
  unfold nobodyAlone
  simp only [beq_iff_eq, List.all_eq_true, Bool.or_eq_true, decide_eq_true_eq, Bool.not_eq_true']
  constructor
  · intro hn c _
    have := topOf_exact h c
    rw [hn] at this
    by_cases hc : c = []
    · exact .inl hc
    · right; simpa [hc] using this.symm
  · intro hall
    cases ht : topOf vl with
    | none => rfl
    | some c =>
      have := topOf_exact h c
      rw [ht] at this
      simp only [beq_self_eq_true] at this
      have h2 := this.symm
      rw [Bool.and_eq_true, decide_eq_true_eq] at h2
      have hk : c ∈ Dict.keys vl.prefs := by
        have h3 := h2.2
        unfold firstAlone at h3
        simp only [Bool.and_eq_true, decide_eq_true_eq] at h3
        exact h3.1.1
      rcases hall c hk with h4 | h4
      · exact absurd h4 h2.1
      · rw [h4] at h2; simp at h2

theorem run_exact {S : Sched} {prev : Option RoundMeta} {rn : Nat} {cands : List Str} {vls : List Voteline} {run : IrvRun}
    (h : Steps S prev rn cands vls run) (hs : IrvState cands vls) (hne : cands ≠ []) (hg : ∀ vl ∈ vls, CountLine vl) :
    ∀ (k : Nat) (rm : RoundMeta) (cnt : Dict Str Int) (E : List Voteline), run.roundmeta[k]? = some rm → run.rounds[k]? = some cnt →
      (enteringAsIs (run.roundmeta.map RoundMeta.startingCands) vls)[k]? = some E →
      (∀ c ∈ rm.startingCands, Dict.get? cnt c = some (qtySum (fun v => decide (c ≠ []) && firstAlone c v) (keptLines E))) ∧
      rm.overvoteqty = qtot (thrownLines E) ∧ rm.exhaustedqty = qtySum nobodyAlone (keptLines E) ∧ rm.startingqty = qtot E := by
  have htally : ∀ (vls : List Voteline), (∀ vl ∈ vls, CountLine vl) → ∀ c, tally (keptLines vls) c = qtySum (fun v => decide (c ≠ []) && firstAlone c v) (keptLines vls) := by
    intro vls hg c
    exact qtySum_congr (fun v hv => topOf_exact (hg v (keptLines_mem hv)) c)
  have hexh : ∀ (vls : List Voteline), (∀ vl ∈ vls, CountLine vl) → exhaustedQty (keptLines vls) = qtySum nobodyAlone (keptLines vls) := by
    intro vls hg
    exact qtySum_congr (fun v hv => topOf_none (hg v (keptLines_mem hv)))
  revert hg
  refine steps_induction (S := S) (P := fun _ _ cands vls run => (∀ vl ∈ vls, CountLine vl) →
    ∀ (k : Nat) (rm : RoundMeta) (cnt : Dict Str Int) (E : List Voteline), run.roundmeta[k]? = some rm → run.rounds[k]? = some cnt →
      (enteringAsIs (run.roundmeta.map RoundMeta.startingCands) vls)[k]? = some E →
      (∀ c ∈ rm.startingCands, Dict.get? cnt c = some (qtySum (fun v => decide (c ≠ []) && firstAlone c v) (keptLines E))) ∧
      rm.overvoteqty = qtot (thrownLines E) ∧ rm.exhaustedqty = qtySum nobodyAlone (keptLines E) ∧ rm.startingqty = qtot E) ?_ ?_ h hs hne
  · intro prev rn cands vls q kept mn mx hs hne k1 k2 k3 a1 a2 b1 b2 hc hg k rm cnt E h1 h2 h3
    cases k with
    | succ k => simp at h1
    | zero =>
      simp only [List.getElem?_cons_zero, Option.some.injEq, List.map_cons, enteringAsIs] at h1 h2 h3
      subst h1; subst h2; subst h3
      have hself := restrict_self (C := cands) hs.known
      simp only [infoOf]
      rw [hself]
      rw [discard_exact hg] at k1
      cases k1
      refine ⟨?_, rfl, hexh vls hg, rfl⟩
      intro c hc
      rw [get?_countsOf, if_pos hc, htally vls hg]
  · intro prev rn cands vls q kept mn mx t hs hne k1 k2 k3 a1 a2 b1 b2 hlt hle ht hst ih hg k rm cnt E h1 h2 h3
    have hself := restrict_self (C := cands) hs.known
    rw [List.map_cons] at h3
    unfold enteringAsIs at h3
    simp only [infoOf] at h3
    rw [hself] at h3
    rw [discard_exact hg] at k1
    cases k1
    have hwk : ∀ vl ∈ keptLines vls, Dict.WF vl.prefs := fun v hv => hs.wf v (keptLines_mem hv)
    obtain ⟨rm0, g1, _, g2, _⟩ := run_head ht hst (next_nonempty (S := S) (rn := rn) a1 a2 b1 hlt).1
    have hcons : ∃ tl, t.roundmeta = rm0 :: tl := by
      cases hm : t.roundmeta with
      | nil => rw [hm] at g1; simp at g1
      | cons x tl => rw [hm] at g1; simp at g1; exact ⟨tl, by rw [g1]⟩
    obtain ⟨tl, htl⟩ := hcons
    have hent : enteringAsIs (t.roundmeta.map RoundMeta.startingCands)
        (eliminateCands (elimOf S rn cands (keptLines vls) mn mx).eliminated (keptLines vls)) =
        enteringAsIs (t.roundmeta.map RoundMeta.startingCands) (keptLines vls) := by
      rw [htl, List.map_cons]
      unfold enteringAsIs
      rw [restrict_eliminate hwk]
      intro c hc
      rw [g2, (S.setOrder_perm rn _).mem_iff, List.mem_filter] at hc
      simpa using hc.2
    cases k with
    | zero =>
      simp only [List.getElem?_cons_zero, Option.some.injEq] at h1 h2 h3
      subst h1; subst h2; subst h3
      refine ⟨?_, rfl, hexh vls hg, rfl⟩
      intro c hc
      have hc : c ∈ cands := hc
      rw [get?_countsOf, if_pos hc, htally vls hg]
    | succ k =>
      simp only [List.getElem?_cons_succ] at h1 h2 h3
      apply ih
      · intro vl hv
        rw [eliminate_eq _ _ hwk] at hv
        obtain ⟨v, hv', rfl⟩ := List.mem_map.1 hv
        exact countLine_filter (hg v (keptLines_mem hv')) _
      · exact h1
      · exact h2
      · rw [hent]; exact h3

end Verif
