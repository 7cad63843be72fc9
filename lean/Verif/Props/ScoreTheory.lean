/-
C97: which candidates the score and STAR winners can be.
-/
import Verif.Props.CopelandTheory
import Verif.Props.Merge
import Verif.Props.Preserve
import Mathlib.Data.List.Forall2

set_option linter.unusedSimpArgs false
set_option linter.unusedSectionVars false

namespace Verif.Props
open Spec

/-- `c` is the first entry of `l` whose number under `f` is largest. -/
def FirstMax (f : Str → Int) (l : List Str) (c : Str) : Prop :=
  ∃ before after, l = before ++ c :: after ∧ (∀ d ∈ before, f d < f c) ∧ ∀ d ∈ after, f d ≤ f c

theorem firstMax_mem {f : Str → Int} {l : List Str} {c : Str} (h : FirstMax f l c) : c ∈ l := by
  obtain ⟨p, q, rfl, _⟩ := h; simp

theorem firstMax_le {f : Str → Int} {l : List Str} {c : Str} (h : FirstMax f l c) : ∀ d ∈ l, f d ≤ f c := by
  obtain ⟨p, q, rfl, h1, h2⟩ := h
  intro d hd
  rcases List.mem_append.1 hd with hd | hd
  · exact Int.le_of_lt (h1 d hd)
  · rcases List.mem_cons.1 hd with rfl | hd
    · exact Int.le_refl _
    · exact h2 d hd

theorem firstMax_unique {f : Str → Int} {l : List Str} {c c' : Str} (h : FirstMax f l c) (h' : FirstMax f l c') : c = c' := by
  obtain ⟨p, q, e, h1, h2⟩ := h
  obtain ⟨p', q', e', h1', h2'⟩ := h'
  rw [e] at e'
  rcases List.append_eq_append_iff.1 e' with ⟨t, rfl, e2⟩ | ⟨t, rfl, e2⟩
  · cases t with
    | nil => simpa using (List.cons.inj e2).1
    | cons x t =>
      simp only [List.cons_append, List.cons.injEq] at e2
      obtain ⟨rfl, rfl⟩ := e2
      have a := h1' c (by simp)
      have b := h2 c' (by simp)
      omega
  · cases t with
    | nil => simpa using (List.cons.inj e2).1.symm
    | cons x t =>
      simp only [List.cons_append, List.cons.injEq] at e2
      obtain ⟨rfl, rfl⟩ := e2
      have a := h1 c' (by simp)
      have b := h2' c (by simp)
      omega

/-- the first entry of a list sorted by descending key -/
theorem head_of_sorted {f : Str → Int} {l : List Str} {c : Str} {t : List Str} (hp : (c :: t).Perm l)
    (hs : (c :: t).Pairwise (fun x y => f y ≤ f x))
    (hst : (c :: t).filter (fun x => decide (f x = f c)) = l.filter (fun x => decide (f x = f c))) : FirstMax f l c := by
  have hmax : ∀ d ∈ l, f d ≤ f c := by
    intro d hd
    rcases List.mem_cons.1 (hp.mem_iff.2 hd) with rfl | hd
    · exact Int.le_refl _
    · exact (List.pairwise_cons.1 hs).1 d hd
  rw [List.filter_cons_of_pos (by simp)] at hst
  obtain ⟨p, q, rfl, hpre, _, _⟩ := List.filter_eq_cons_iff.1 hst.symm
  refine ⟨p, q, rfl, fun d hd => ?_, fun d hd => hmax d (by simp [hd])⟩
  have h1 := hmax d (by simp [hd])
  have h2 := hpre d hd
  simp only [decide_eq_true_eq] at h2
  omega

theorem head_sorted {f : Str → Int} {l : List Str} {c : Str} {t : List Str} (h : sortByKeyDesc f l = c :: t) : FirstMax f l c := by
  have hp := sortByKeyDesc_perm f l
  have hs := sortByKeyDesc_sorted f l
  have hst := sortByKeyDesc_stable f l (f c)
  rw [h] at hp hs hst
  exact head_of_sorted hp hs hst

theorem sorted_head {f : Str → Int} {l : List Str} {c : Str} (h : FirstMax f l c) : ∃ t, sortByKeyDesc f l = c :: t := by
  cases hs : sortByKeyDesc f l with
  | nil =>
    have := (sortByKeyDesc_perm f l).mem_iff.2 (firstMax_mem h)
    rw [hs] at this; cases this
  | cons x t =>
    have := firstMax_unique (head_sorted hs) h
    exact ⟨t, by rw [this]⟩

/-- raising one entry and lowering others keeps the first maximum, also in a part of the list -/
theorem firstMax_mono {f g : Str → Int} {l : List Str} {c : Str} (h : FirstMax f l c) (hc : ∀ d ∈ l, f c - f d ≤ g c - g d) : FirstMax g l c := by
  obtain ⟨p, q, rfl, h1, h2⟩ := h
  refine ⟨p, q, rfl, fun d hd => ?_, fun d hd => ?_⟩
  · have := h1 d hd; have := hc d (by simp [hd]); omega
  · have := h2 d hd; have := hc d (by simp [hd]); omega

theorem firstMax_filter {f : Str → Int} {l : List Str} {c : Str} {p : Str → Bool} (h : FirstMax f l c) (hc : p c = true) :
    FirstMax f (l.filter p) c := by
  obtain ⟨a, b, rfl, h1, h2⟩ := h
  refine ⟨a.filter p, b.filter p, by rw [List.filter_append, List.filter_cons_of_pos hc], fun d hd => h1 d (List.mem_filter.1 hd).1,
    fun d hd => h2 d (List.mem_filter.1 hd).1⟩

/-- `c` and `d` are the two entries of `l` with the largest numbers (earlier entries first where numbers are equal): each is the
first maximum when the other is left out. -/
def TopTwo (f : Str → Int) (l : List Str) (c d : Str) : Prop :=
  c ≠ d ∧ FirstMax f (l.filter (fun x => decide (x ≠ d))) c ∧ FirstMax f (l.filter (fun x => decide (x ≠ c))) d

theorem topTwo_symm {f : Str → Int} {l : List Str} {c d : Str} (h : TopTwo f l c d) : TopTwo f l d c := ⟨Ne.symm h.1, h.2.2, h.2.1⟩

theorem topTwo_mem {f : Str → Int} {l : List Str} {c d : Str} (h : TopTwo f l c d) : c ∈ l ∧ d ∈ l :=
  ⟨(List.mem_filter.1 (firstMax_mem h.2.1)).1, (List.mem_filter.1 (firstMax_mem h.2.2)).1⟩

theorem topTwo_of_sorted {f : Str → Int} {l : List Str} (hn : l.Nodup) {c d : Str} {t : List Str} (h : sortByKeyDesc f l = c :: d :: t) :
    TopTwo f l c d := by
  have hp := sortByKeyDesc_perm f l
  have hs := sortByKeyDesc_sorted f l
  have hnd : (c :: d :: t).Nodup := by rw [← h]; exact hp.nodup_iff.2 hn
  have hcd : c ≠ d := by
    rintro rfl
    simp at hnd
  have hct : c ∉ d :: t := (List.nodup_cons.1 hnd).1
  refine ⟨hcd, firstMax_filter (head_sorted h) (by simpa using hcd), ?_⟩
  have e : (c :: d :: t).filter (fun x => decide (x ≠ c)) = d :: t := by
    rw [List.filter_cons_of_neg (by simp)]
    apply List.filter_eq_self.2
    intro x hx
    simp only [ne_eq, decide_not, Bool.not_eq_eq_eq_not, Bool.not_true, decide_eq_false_iff_not]
    rintro rfl
    exact hct hx
  refine head_of_sorted (t := t) ?_ ?_ ?_
  · have := hp.filter (fun x => decide (x ≠ c))
    rw [h, e] at this
    exact this
  · rw [h] at hs
    exact (List.pairwise_cons.1 hs).2
  · have hst := congrArg (List.filter (fun x => decide (x ≠ c))) (sortByKeyDesc_stable f l (f d))
    rw [h] at hst
    rw [List.filter_filter, List.filter_filter] at hst
    rw [← e, List.filter_filter, List.filter_filter]
    simp only [Bool.and_comm] at hst ⊢
    exact hst

theorem topTwo_unique {f : Str → Int} {l : List Str} (hn : l.Nodup) {c d x y : Str} {t : List Str} (hs : sortByKeyDesc f l = x :: y :: t)
    (h : TopTwo f l c d) : x = c ∧ y = d ∨ x = d ∧ y = c := by
  have hx := head_sorted hs
  have hxy := topTwo_of_sorted hn hs
  have key : ∀ c d : Str, TopTwo f l c d → x ≠ d → x = c ∧ y = d := by
    intro c d h hxd
    have hxc : x = c := firstMax_unique (firstMax_filter hx (p := fun x => decide (x ≠ d)) (by simpa using hxd)) h.2.1
    subst hxc
    exact ⟨rfl, firstMax_unique hxy.2.2 h.2.2⟩
  by_cases hxd : x = d
  · exact .inr (key d c (topTwo_symm h) (by rw [hxd]; exact Ne.symm h.1))
  · exact .inl (key c d h hxd)

section
variable [U : Uni]

/-- `c` is announced as the score winner: the first entry of `ranklist`. -/
def ScoreWinner (m : Jabmod) (c : Str) : Prop := ∃ r, enhancedScore m = .ok r ∧ r.ranklist.head? = some c

/-- What the score count needs: `Scorable` and a ballot count. -/
def Counted (m : Jabmod) : Prop := Scorable m ∧ ∃ bc, Dict.get? m.metadata c!"ballotcount" = some bc

/-- C97.  The score winner is the candidate with the largest score, the first in the candidate table if there are several;
there is exactly one as soon as there is a candidate. -/
theorem C97_score (m : Jabmod) (h : Counted m) (c : Str) : ScoreWinner m c ↔ FirstMax (scoreOf m) (Dict.keys m.candidates) c := by
  obtain ⟨hs, bc, hbc⟩ := h
  unfold ScoreWinner
  rw [enhancedScore_eq m hs bc hbc]
  constructor
  · rintro ⟨r, e, hh⟩
    cases e
    simp only at hh
    cases hsort : sortByKeyDesc (scoreOf m) (Dict.keys m.candidates) with
    | nil => rw [hsort] at hh; cases hh
    | cons x t => rw [hsort] at hh; cases hh; exact head_sorted hsort
  · intro hf
    obtain ⟨t, ht⟩ := sorted_head hf
    exact ⟨_, rfl, by simp only [ht, List.head?_cons]⟩

/-- The second line rates `w` no lower and the others no higher than the first. -/
def RatesUp (w : Str) (v v' : Voteline) : Prop := ratingOf v w ≤ ratingOf v' w ∧ ∀ d, d ≠ w → ratingOf v' d ≤ ratingOf v d

theorem score_sum_le {f g : Voteline → Int} {l l' : List Voteline} {R : Voteline → Voteline → Prop}
    (h : List.Forall₂ (fun v v' => v.qty = v'.qty ∧ 0 ≤ v.qty ∧ R v v') l l') (hfg : ∀ v v', R v v' → f v ≤ g v') :
    (l.map (fun v => v.qty * f v)).sum ≤ (l'.map (fun v => v.qty * g v)).sum := by
  induction h with
  | nil => exact Int.le_refl _
  | @cons v v' l l' h _ ih =>
    simp only [List.map_cons, List.sum_cons]
    have := Int.mul_le_mul_of_nonneg_left (hfg v v' h.2.2) h.2.1
    rw [← h.1]
    omega

/-- C97, monotonicity: a score winner that voters rate higher, and the others lower, stays the score winner. -/
theorem C97_score_monotone (m m' : Jabmod) (hc : Dict.keys m'.candidates = Dict.keys m.candidates) (h : Counted m) (h' : Counted m') (w : Str)
    (hl : List.Forall₂ (fun v v' => v.qty = v'.qty ∧ 0 ≤ v.qty ∧ RatesUp w v v') m.votelines m'.votelines)
    (hw : ScoreWinner m w) : ScoreWinner m' w := by
  rw [C97_score m' h', hc]
  refine firstMax_mono ((C97_score m h w).1 hw) ?_
  intro d _
  have up : scoreOf m w ≤ scoreOf m' w := score_sum_le (f := fun v => ratingOf v w) (g := fun v => ratingOf v w) hl (fun v v' r => r.1)
  by_cases hd : d = w
  · rw [hd]; omega
  · have hback : List.Forall₂ (fun v' v => v'.qty = v.qty ∧ 0 ≤ v'.qty ∧ RatesUp w v v') m'.votelines m.votelines :=
      hl.flip.imp (fun v' v hv => ⟨hv.1.symm, by rw [← hv.1]; exact hv.2.1, hv.2.2⟩)
    have down : scoreOf m' d ≤ scoreOf m d := score_sum_le (f := fun v => ratingOf v d) (g := fun v => ratingOf v d) hback (fun v v' r => r.2 d hd)
    omega

/-- C97, participation: voters who rate the score winner at least as high as every other candidate do not change the result by
voting; `m'` holds their lines in addition to those of `m`. -/
theorem C97_score_participation (m m' : Jabmod) (new : List Voteline) (hc : Dict.keys m'.candidates = Dict.keys m.candidates)
    (h : Counted m) (h' : Counted m') (hp : m'.votelines.Perm (m.votelines ++ new)) (w : Str)
    (hn : ∀ v ∈ new, 0 ≤ v.qty ∧ ∀ d, ratingOf v d ≤ ratingOf v w) (hw : ScoreWinner m w) : ScoreWinner m' w := by
  rw [C97_score m' h', hc]
  refine firstMax_mono ((C97_score m h w).1 hw) ?_
  intro d _
  have split : ∀ x, scoreOf m' x = scoreOf m x + (new.map (fun v => v.qty * ratingOf v x)).sum := by
    intro x
    unfold scoreOf
    rw [perm_sum (hp.map _), List.map_append, List.sum_append]
  have le : (new.map (fun v => v.qty * ratingOf v d)).sum ≤ (new.map (fun v => v.qty * ratingOf v w)).sum := by
    refine score_sum_le (R := fun v v' => v = v' ∧ ∀ d, ratingOf v d ≤ ratingOf v w) (f := fun v => ratingOf v d) (g := fun v => ratingOf v w) ?_ ?_
    · exact List.forall₂_same.2 (fun v hv => ⟨rfl, (hn v hv).1, rfl, (hn v hv).2⟩)
    · rintro v v' ⟨rfl, hv⟩
      exact hv d
  rw [split, split]
  omega

/-- C97, independence of losers: without some of the losing candidates (same ballots otherwise) the score winner is the same. -/
theorem C97_score_withdrawal (m m' : Jabmod) (p : Str → Bool) (hc : Dict.keys m'.candidates = (Dict.keys m.candidates).filter p)
    (h : Counted m) (h' : Counted m')
    (hl : List.Forall₂ (fun v v' => v.qty = v'.qty ∧ ∀ d, p d = true → ratingOf v' d = ratingOf v d) m.votelines m'.votelines)
    (w : Str) (hpw : p w = true) (hw : ScoreWinner m w) : ScoreWinner m' w := by
  rw [C97_score m' h', hc]
  have hsame : ∀ d, p d = true → scoreOf m' d = scoreOf m d := by
    intro d hd
    unfold scoreOf
    have : ∀ l l' : List Voteline, List.Forall₂ (fun v v' => v.qty = v'.qty ∧ ∀ d, p d = true → ratingOf v' d = ratingOf v d) l l' →
        (l'.map (fun v => v.qty * ratingOf v d)).sum = (l.map (fun v => v.qty * ratingOf v d)).sum := by
      intro l l' hll
      induction hll with
      | nil => rfl
      | cons hv _ ih => simp only [List.map_cons, List.sum_cons]; rw [ih, hv.2 d hd, hv.1]
    exact this _ _ hl
  refine firstMax_mono (firstMax_filter ((C97_score m h w).1 hw) hpw) ?_
  intro d hd
  rw [hsame d (List.mem_filter.1 hd).2, hsame w hpw]
  exact Int.le_refl _

/-- C97, consistency: a candidate that wins the score count of two texts over the same candidates wins it for the texts
together. -/
theorem C97_score_join (cw : Bool) (t1 t2 : Str) (m1 m2 m : Jabmod) (h1 : convertAbif cw false false (t1 ++ ['\n']) = .ok m1)
    (h2 : convertAbif cw false false t2 = .ok m2) (h : convertAbif cw false false (t1 ++ '\n' :: t2) = .ok m)
    (hcands : ∀ c, c ∈ Dict.keys m1.candidates ↔ c ∈ Dict.keys m2.candidates) (w : Str)
    (w1 : ScoreWinner m1 w) (w2 : ScoreWinner m2 w) : ScoreWinner m w := by
  obtain ⟨m', hm', hs, hk, _, n1, n2, b1, b2, b3⟩ := C83_merge cw t1 t2 m1 m2 h1 h2
  rw [h] at hm'
  cases hm'
  have c1 : Counted m1 := ⟨parsed_scorable _ _ _ _ _ h1, _, b1⟩
  have c2 : Counted m2 := ⟨parsed_scorable _ _ _ _ _ h2, _, b2⟩
  have c3 : Counted m := ⟨parsed_scorable _ _ _ _ _ h, _, b3⟩
  rw [C97_score m c3]
  have hkeys : Dict.keys m.candidates = Dict.keys m1.candidates := by
    rw [hk, firsts_append_subset (fun x hx => (hcands x).2 hx), firsts_of_nodup c1.1.cands]
  rw [hkeys]
  refine firstMax_mono ((C97_score m1 c1 w).1 w1) ?_
  intro d hd
  have hle := firstMax_le ((C97_score m2 c2 w).1 w2) d ((hcands d).1 hd)
  have e1 := (C83_counts m m1 m2 hs.1 w w).2.2.1
  have e2 := (C83_counts m m1 m2 hs.1 d d).2.2.1
  omega

/-! ### STAR -/

/-- `c` is announced as the STAR winner: it is the finalist with more votes, and its name is printed. -/
def WinsStar (m : Jabmod) (c : Str) : Prop := ∃ r, starResult m = .ok r ∧
  (r.fin1 = c ∧ r.fin2votes < r.fin1votes ∧ r.winner = .won r.fin1n ∨ r.fin2 = c ∧ r.fin1votes < r.fin2votes ∧ r.winner = .won r.fin2n)

/-- What STAR needs: ratings, ranks, and the ballot count. -/
def StarCounted (m : Jabmod) : Prop := Scorable m ∧ Spec.AllRanked m ∧
  Dict.get? m.metadata c!"ballotcount" = some (.int (m.votelines.map Voteline.qty).sum)

theorem star_finalists {m : Jabmod} (h : StarCounted m) {r : StarResult} (hr : starResult m = .ok r) :
    ∃ t, sortByKeyDesc (scoreOf m) (Dict.keys m.candidates) = r.fin1 :: r.fin2 :: t := by
  unfold starResult at hr
  rw [enhancedScore_eq m h.1 _ h.2.2, ok_bind, fullCopecount_eq m h.1.cands, ok_bind] at hr
  simp only at hr
  match hs : sortByKeyDesc (scoreOf m) (Dict.keys m.candidates) with
  | [] => rw [hs] at hr; cases hr
  | [x] => rw [hs] at hr; cases hr
  | a :: b :: t =>
    rw [hs] at hr
    simp only at hr
    rw [bind_ok] at hr
    obtain ⟨e1, _, hr⟩ := hr
    rw [bind_ok] at hr
    obtain ⟨e2, _, hr⟩ := hr
    rw [bind_ok] at hr
    obtain ⟨v1, _, hr⟩ := hr
    rw [bind_ok] at hr
    obtain ⟨v2, _, hr⟩ := hr
    cases v1 with
    | none => cases hr
    | some v1 =>
      cases v2 with
      | none => cases hr
      | some v2 => cases hr; exact ⟨t, rfl⟩

/-- C97.  A candidate is announced as the STAR winner exactly when it is one of the two with the largest scores (in the order of
the candidate table where scores are equal) and more voters prefer it to the other one than the other way round. -/
theorem C97_star (m : Jabmod) (h : StarCounted m) (c : Str) :
    WinsStar m c ↔ ∃ d, TopTwo (scoreOf m) (Dict.keys m.candidates) c d ∧ support m d c < support m c d := by
  constructor
  · rintro ⟨r, hr, hc⟩
    obtain ⟨t, ht⟩ := star_finalists h hr
    have htop := topTwo_of_sorted h.1.cands ht
    have h2 : 2 ≤ m.candidates.length := by
      have := (sortByKeyDesc_perm (scoreOf m) (Dict.keys m.candidates)).length_eq
      rw [ht] at this
      simp [Dict.keys] at this
      omega
    obtain ⟨r', hr', _, _, _, _, _, _, _, v1, v2, _⟩ := C26_star m h.1 h.2.1 h.2.2 h2
    rw [hr] at hr'
    cases hr'
    rcases hc with ⟨rfl, g, _⟩ | ⟨rfl, g, _⟩
    · exact ⟨r.fin2, htop, by rw [← v1, ← v2]; exact g⟩
    · exact ⟨r.fin1, topTwo_symm htop, by rw [← v1, ← v2]; exact g⟩
  · rintro ⟨d, htop, hsup⟩
    have h2 : 2 ≤ m.candidates.length := by
      obtain ⟨hc, hd⟩ := topTwo_mem htop
      have hne := htop.1
      cases hm : m.candidates with
      | nil => rw [hm] at hc; cases hc
      | cons x l =>
        cases l with
        | nil =>
          rw [hm] at hc hd
          simp only [Dict.keys, List.map_cons, List.map_nil, List.mem_singleton] at hc hd
          exact absurd (hc.trans hd.symm) hne
        | cons y l => simp
    obtain ⟨r, hr, _, _, _, _, _, _, _, v1, v2, hw, _⟩ := C26_star m h.1 h.2.1 h.2.2 h2
    obtain ⟨t, ht⟩ := star_finalists h hr
    refine ⟨r, hr, ?_⟩
    rcases topTwo_unique h.1.cands ht htop with ⟨e1, e2⟩ | ⟨e1, e2⟩
    · rw [e1, e2] at v1 v2
      refine .inl ⟨e1, by omega, ?_⟩
      rcases hw with ⟨g, _⟩ | ⟨_, g⟩ | ⟨_, g⟩
      · exact g
      · omega
      · omega
    · rw [e1, e2] at v1 v2
      refine .inr ⟨e2, by omega, ?_⟩
      rcases hw with ⟨_, g⟩ | ⟨g, _⟩ | ⟨_, g⟩
      · omega
      · exact g
      · omega

/-- C97: a candidate that beats every other head to head and is one of the two with the largest scores wins STAR. -/
theorem C97_star_condorcet (m : Jabmod) (h : StarCounted m) (c : Str) (hf : ∃ d, TopTwo (scoreOf m) (Dict.keys m.candidates) c d)
    (hc : ∀ d ∈ Dict.keys m.candidates, d ≠ c → support m d c < support m c d) : WinsStar m c := by
  obtain ⟨d, hd⟩ := hf
  exact (C97_star m h c).2 ⟨d, hd, hc d (topTwo_mem hd).2 (Ne.symm hd.1)⟩

theorem topTwo_mono {f g : Str → Int} {l : List Str} {c d : Str} (h : TopTwo f l c d) (hc : f c ≤ g c) (hd : ∀ x ∈ l, x ≠ c → g x = f x) :
    TopTwo g l c d := by
  have hdl := (topTwo_mem h).2
  refine ⟨h.1, firstMax_mono h.2.1 ?_, firstMax_mono h.2.2 ?_⟩
  · intro x hx
    by_cases hxc : x = c
    · rw [hxc]; omega
    · rw [hd x (List.mem_filter.1 hx).1 hxc]; omega
  · intro x hx
    obtain ⟨h1, h2⟩ := List.mem_filter.1 hx
    rw [hd x h1 (by simpa using h2), hd d hdl (Ne.symm h.1)]
    exact Int.le_refl _

/-- C97, monotonicity: a STAR winner that voters rate and rank higher, leaving the others as they are, stays the STAR winner. -/
theorem C97_star_monotone (m m' : Jabmod) (hc : Dict.keys m'.candidates = Dict.keys m.candidates) (h : StarCounted m) (h' : StarCounted m')
    (w : Str) (hl : List.Forall₂ (fun v v' => v.qty = v'.qty ∧ 0 ≤ v.qty ∧
      (ratingOf v w ≤ ratingOf v' w ∧ (∀ d, d ≠ w → ratingOf v' d = ratingOf v d) ∧ Raises w v v')) m.votelines m'.votelines)
    (hw : WinsStar m w) : WinsStar m' w := by
  obtain ⟨d, htop, hsup⟩ := (C97_star m h w).1 hw
  rw [C97_star m' h', hc]
  have hback := hl.flip.imp (S := fun v' v => v'.qty = v.qty ∧ 0 ≤ v'.qty ∧
    (ratingOf v w ≤ ratingOf v' w ∧ (∀ d, d ≠ w → ratingOf v' d = ratingOf v d) ∧ Raises w v v'))
    (fun v' v hv => ⟨hv.1.symm, by rw [← hv.1]; exact hv.2.1, hv.2.2⟩)
  refine ⟨d, topTwo_mono htop ?_ ?_, ?_⟩
  · exact score_sum_le (f := fun v => ratingOf v w) (g := fun v => ratingOf v w) hl (fun v v' r => r.1)
  · intro x _ hx
    apply Int.le_antisymm
    · exact score_sum_le (f := fun v => ratingOf v x) (g := fun v => ratingOf v x) hback (fun v v' r => Int.le_of_eq (r.2.1 x hx))
    · exact score_sum_le (f := fun v => ratingOf v x) (g := fun v => ratingOf v x) hl (fun v v' r => Int.le_of_eq (r.2.1 x hx).symm)
  · have up : support m w d ≤ support m' w d := qtySum_mono hl (fun v v' r hp => r.2.2.1 d hp)
    have down : support m' d w ≤ support m d w := qtySum_mono hback (fun v' v r hp => r.2.2.2.1 d hp)
    omega

/-- C97: without some of the candidates that are not finalists (same ballots otherwise) the STAR winner is the same. -/
theorem C97_star_withdrawal (m m' : Jabmod) (p : Str → Bool) (hc : Dict.keys m'.candidates = (Dict.keys m.candidates).filter p)
    (h : StarCounted m) (h' : StarCounted m')
    (hl : List.Forall₂ (fun v v' => v.qty = v'.qty ∧ (∀ d, p d = true → ratingOf v' d = ratingOf v d) ∧
      ∀ c d, p c = true → p d = true → prefers v' c d = prefers v c d) m.votelines m'.votelines)
    (r : StarResult) (hr : starResult m = .ok r) (h1 : p r.fin1 = true) (h2 : p r.fin2 = true) (w : Str) (hw : WinsStar m w) : WinsStar m' w := by
  obtain ⟨d, htop, hsup⟩ := (C97_star m h w).1 hw
  obtain ⟨t, ht⟩ := star_finalists h hr
  have hpp : p w = true ∧ p d = true := by
    rcases topTwo_unique h.1.cands ht htop with ⟨e1, e2⟩ | ⟨e1, e2⟩
    · rw [← e1, ← e2]; exact ⟨h1, h2⟩
    · rw [← e1, ← e2]; exact ⟨h2, h1⟩
  rw [C97_star m' h', hc]
  have hscore : ∀ x, p x = true → scoreOf m' x = scoreOf m x := by
    intro x hx
    unfold scoreOf
    generalize m.votelines = l, m'.votelines = l' at hl
    induction hl with
    | nil => rfl
    | cons hv _ ih => simp only [List.map_cons, List.sum_cons]; rw [ih, hv.2.1 x hx, hv.1]
  have hsupp : ∀ x y, p x = true → p y = true → support m' x y = support m x y := by
    intro x y hx hy
    unfold support
    generalize m.votelines = l, m'.votelines = l' at hl
    induction hl with
    | nil => rfl
    | cons hv _ ih => rw [qtySum_cons, qtySum_cons, ih, hv.2.2 x y hx hy, hv.1]
  refine ⟨d, ⟨htop.1, ?_, ?_⟩, ?_⟩
  · rw [List.filter_comm]
    refine firstMax_mono (firstMax_filter htop.2.1 hpp.1) ?_
    intro x hx
    rw [hscore x (List.mem_filter.1 hx).2, hscore w hpp.1]; exact Int.le_refl _
  · rw [List.filter_comm]
    refine firstMax_mono (firstMax_filter htop.2.2 hpp.2) ?_
    intro x hx
    rw [hscore x (List.mem_filter.1 hx).2, hscore d hpp.2]; exact Int.le_refl _
  · rw [hsupp _ _ hpp.1 hpp.2, hsupp _ _ hpp.2 hpp.1]; exact hsup

/-- What the program reads can be counted. -/
theorem parsed_starCounted (cw ar sc : Bool) (text : Str) (m : Jabmod) (h : convertAbif cw ar sc text = .ok m) (hlen : text.length < 2 ^ 61) :
    StarCounted m := ⟨parsed_scorable _ _ _ _ _ h, parsed_allRanked _ _ _ _ _ h hlen, (C01_ballotcount _ _ _ _ _ h).1⟩

theorem parsed_counted (cw ar sc : Bool) (text : Str) (m : Jabmod) (h : convertAbif cw ar sc text = .ok m) :
    Counted m := ⟨parsed_scorable _ _ _ _ _ h, _, (C01_ballotcount _ _ _ _ _ h).1⟩
end

/-! ### what does not hold, and examples -/
section
attribute [local instance] Uni.ascii
set_option maxRecDepth 40000

/-- the election read from a text -/
def readText (t : Str) : Jabmod := (convertAbif true false false t).toOption.getD emptyishJabmod

theorem readText_eq {t : Str} (h : (convertAbif true false false t).toOption.isSome = true) : convertAbif true false false t = .ok (readText t) := by
  unfold readText
  cases hc : convertAbif true false false t with
  | error e => rw [hc] at h; cases h
  | ok m => rfl

/-- score winner and STAR result, for the examples -/
def scoreWinnerOf (m : Jabmod) : Option Str := (enhancedScore m).toOption.bind (fun r => r.ranklist.head?)
def starOf (m : Jabmod) : Option (List Str) :=
  (starResult m).toOption.map (fun r => [r.fin1, r.fin2, if r.fin2votes < r.fin1votes then r.fin1 else if r.fin1votes < r.fin2votes then r.fin2 else []])

theorem scoreWinner_of {m : Jabmod} {c : Str} (h : scoreWinnerOf m = some c) : ScoreWinner m c := by
  unfold scoreWinnerOf at h
  unfold ScoreWinner
  cases hr : enhancedScore m with
  | error e => rw [hr] at h; cases h
  | ok r => rw [hr] at h; exact ⟨r, rfl, h⟩

/-- 3 of 5 voters prefer A to everybody, but rate it low -/
def lowText : Str := c!"3:A/1>B/0>C/0\n2:B/5>C/4>A/0\n"
/-- A and B are finalists and A wins; C would beat A -/
def showText : Str := c!"6:A/5>B/4>C/0\n9:C/5>A/4>B/3\n"
/-- two more voters, who rate A highest -/
def joinText : Str := c!"6:A/5>B/4>C/0\n9:C/5>A/4>B/3\n2:A/5>C/4>B/0\n"

theorem winsStar_of {m : Jabmod} {a b c : Str} (hne : c ≠ []) (hs : starOf m = some [a, b, c])
    (h2 : 2 ≤ m.candidates.length) (h : StarCounted m) : WinsStar m c := by
  obtain ⟨r, hr, _, _, _, _, _, _, _, _, _, hw, _⟩ := C26_star m h.1 h.2.1 h.2.2 h2
  unfold starOf at hs
  rw [hr] at hs
  simp only [Except.toOption, Option.map_some, Option.some.injEq, List.cons.injEq, and_true] at hs
  obtain ⟨_, _, h3⟩ := hs
  refine ⟨r, hr, ?_⟩
  by_cases g1 : r.fin2votes < r.fin1votes
  · rw [if_pos g1] at h3
    refine .inl ⟨h3, g1, ?_⟩
    rcases hw with ⟨g, _⟩ | ⟨_, g⟩ | ⟨_, g⟩
    · exact g
    · omega
    · omega
  · rw [if_neg g1] at h3
    by_cases g2 : r.fin1votes < r.fin2votes
    · rw [if_pos g2] at h3
      refine .inr ⟨h3, g2, ?_⟩
      rcases hw with ⟨_, g⟩ | ⟨g, _⟩ | ⟨_, g⟩
      · omega
      · exact g
      · omega
    · rw [if_neg g2] at h3
      exact absurd h3.symm hne

theorem winsStar_only {m : Jabmod} {a b c d : Str} (hs : starOf m = some [a, b, c]) (h : WinsStar m d) : d = c := by
  obtain ⟨r, hr, hd⟩ := h
  unfold starOf at hs
  rw [hr] at hs
  simp only [Except.toOption, Option.map_some, Option.some.injEq, List.cons.injEq, and_true] at hs
  obtain ⟨_, _, h3⟩ := hs
  rcases hd with ⟨e, g, _⟩ | ⟨e, g, _⟩
  · rw [if_pos g] at h3; rw [← e, h3]
  · rw [if_neg (by omega), if_pos g] at h3; rw [← e, h3]

theorem scoreWinner_only {m : Jabmod} {c d : Str} (hs : scoreWinnerOf m = some c) (h : ScoreWinner m d) : d = c := by
  obtain ⟨r, hr, hd⟩ := h
  unfold scoreWinnerOf at hs
  rw [hr] at hs
  change r.ranklist.head? = some c at hs
  rw [hd] at hs
  exact Option.some.inj hs

/-- C97: neither method guarantees that a candidate whom a majority prefers to everybody else wins. -/
theorem C97_majority_refuted : ∃ text m c, convertAbif true false false text = .ok m ∧ c ∈ Dict.keys m.candidates ∧
    (∀ d ∈ Dict.keys m.candidates, d ≠ c → (m.votelines.map Voteline.qty).sum < 2 * support m c d) ∧
    ¬ ScoreWinner m c ∧ ¬ WinsStar m c := by
  refine ⟨lowText, readText lowText, c!"A", readText_eq (by decide +kernel), by decide +kernel, by decide +kernel, ?_, ?_⟩
  · intro h
    have hs : scoreWinnerOf (readText lowText) = some c!"B" := by decide +kernel
    have := scoreWinner_only hs h
    revert this; decide
  · intro h
    have hs : starOf (readText lowText) = some [c!"B", c!"C", c!"B"] := by decide +kernel
    have := winsStar_only hs h
    revert this; decide

/-- C97: participation fails for STAR: voters who rate and rank the STAR winner above everybody else can make it lose by voting. -/
theorem C97_star_participation_refuted : ∃ t new m m' w, convertAbif true false false t = .ok m ∧ convertAbif true false false (t ++ new) = .ok m' ∧
    (∃ v, m'.votelines.Perm (m.votelines ++ [v]) ∧ 0 < v.qty ∧ ∀ d ∈ Dict.keys m.candidates, d ≠ w → ratingOf v d < ratingOf v w ∧ prefers v w d = true) ∧
    Dict.keys m'.candidates = Dict.keys m.candidates ∧ WinsStar m w ∧ ¬ WinsStar m' w := by
  have e1 : convertAbif true false false showText = .ok (readText showText) := readText_eq (by decide +kernel)
  have e2 : convertAbif true false false joinText = .ok (readText joinText) := readText_eq (by decide +kernel)
  have hs : starOf (readText showText) = some [c!"A", c!"B", c!"A"] := by decide +kernel
  have hs' : starOf (readText joinText) = some [c!"A", c!"C", c!"C"] := by decide +kernel
  refine ⟨showText, c!"2:A/5>C/4>B/0\n", readText showText, readText joinText, c!"A", e1, e2, ?_, by decide +kernel,
    winsStar_of (by decide) hs (by decide +kernel) (parsed_starCounted _ _ _ _ _ e1 (by decide +kernel)), ?_⟩
  · have hl : (readText joinText).votelines = (readText showText).votelines ++ (readText joinText).votelines.drop 2 ∧
      ∀ v ∈ (readText joinText).votelines.drop 2, 0 < v.qty ∧
        ∀ d ∈ Dict.keys (readText showText).candidates, d ≠ c!"A" → ratingOf v d < ratingOf v c!"A" ∧ prefers v c!"A" d = true := by
      decide +kernel
    have hlen : ((readText joinText).votelines.drop 2).length = 1 := by decide +kernel
    obtain ⟨v, hv⟩ := List.length_eq_one_iff.1 hlen
    rw [hv] at hl
    exact ⟨v, by rw [hl.1], hl.2 v (by simp)⟩
  · intro h
    have := winsStar_only hs' h
    revert this; decide

/-! ### the hypotheses are met -/
/-- the same election after the 9 voters rate and rank A higher -/
def upText : Str := c!"6:A/5>B/4>C/0\n9:A/6>C/5>B/3\n"
/-- without B -/
def withoutText : Str := c!"6:A/5>C/0\n9:C/5>A/4\n"

example : ScoreWinner (readText showText) c!"A" ∧ WinsStar (readText showText) c!"A" :=
  ⟨scoreWinner_of (by decide +kernel), winsStar_of (a := c!"A") (b := c!"B") (by decide) (by decide +kernel) (by decide +kernel)
    (parsed_starCounted true false false showText _ (readText_eq (by decide +kernel)) (by decide +kernel))⟩

theorem forall₂_of_zip {R : Voteline → Voteline → Prop} {l l' : List Voteline} (h : l.length = l'.length) (h2 : ∀ x ∈ l.zip l', R x.1 x.2) :
    List.Forall₂ R l l' := List.forall₂_iff_zip.2 ⟨h, fun {a b} hab => h2 (a, b) hab⟩

/-- `C97_score_monotone`, `C97_star_monotone`: A is rated and ranked higher -/
example : List.Forall₂ (fun v v' => v.qty = v'.qty ∧ 0 ≤ v.qty ∧
      (ratingOf v c!"A" ≤ ratingOf v' c!"A" ∧ (∀ d, d ≠ c!"A" → ratingOf v' d = ratingOf v d) ∧ Raises c!"A" v v'))
      (readText showText).votelines (readText upText).votelines := by
  have hlen : (readText showText).votelines.length = (readText upText).votelines.length := by decide +kernel
  refine forall₂_of_zip hlen ?_
  have h : ∀ x ∈ (readText showText).votelines.zip (readText upText).votelines,
      x.1.qty = x.2.qty ∧ 0 ≤ x.1.qty ∧ ratingOf x.1 c!"A" ≤ ratingOf x.2 c!"A" ∧
      (∀ b ∈ [c!"A", c!"B", c!"C"], b ≠ c!"A" → ratingOf x.2 b = ratingOf x.1 b) ∧
      (∀ b ∈ [c!"A", c!"B", c!"C"], prefers x.1 c!"A" b = true → prefers x.2 c!"A" b = true) ∧
      (∀ b ∈ [c!"A", c!"B", c!"C"], prefers x.2 b c!"A" = true → prefers x.1 b c!"A" = true) ∧
      (∀ b ∈ [c!"A", c!"B", c!"C"], ∀ c ∈ [c!"A", c!"B", c!"C"], b ≠ c!"A" → c ≠ c!"A" → prefers x.2 b c = prefers x.1 b c) ∧
      (∀ b ∈ c!"A" :: [c!"A", c!"B", c!"C"], (rankOf x.1 b).isSome = (rankOf x.2 b).isSome) ∧
      (∀ c ∈ Dict.keys x.1.prefs ++ Dict.keys x.2.prefs, c ∈ [c!"A", c!"B", c!"C"]) := by decide +kernel
  intro x hx
  obtain ⟨g1, g2, g3, g4, g5, g6, g7, g8, g9⟩ := h x hx
  refine ⟨g1, g2, g3, fun d hd => ?_, raises_of_listed [c!"A", c!"B", c!"C"] (fun c hc => g9 c (List.mem_append.2 hc)) g5 g6 g7 g8⟩
  by_cases hd' : d ∈ [c!"A", c!"B", c!"C"]
  · exact g4 d hd' hd
  · unfold ratingOf
    rw [Dict.get?_eq_none.2 (fun h => hd' (g9 d (List.mem_append_left _ h))), Dict.get?_eq_none.2 (fun h => hd' (g9 d (List.mem_append_right _ h)))]
/-- `C97_score_participation`: the two new voters rate A highest -/
example : ∀ v ∈ (readText joinText).votelines.drop 2, 0 ≤ v.qty ∧ ∀ d ∈ Dict.keys v.prefs, ratingOf v d ≤ ratingOf v c!"A" := by decide +kernel
/-- `C97_score_withdrawal`: without B -/
example : Dict.keys (readText withoutText).candidates = (Dict.keys (readText showText).candidates).filter (fun c => decide (c ≠ c!"B")) ∧
    ∀ x ∈ (readText showText).votelines.zip (readText withoutText).votelines, x.1.qty = x.2.qty ∧
      ∀ d ∈ [c!"A", c!"C"], ratingOf x.2 d = ratingOf x.1 d ∧ ∀ c ∈ [c!"A", c!"C"], prefers x.2 c d = prefers x.1 c d := by decide +kernel
/-- `C97_score_join`: A wins the text and the text of the two new voters -/
example : scoreWinnerOf (readText c!"2:A/5>C/4>B/0\n") = some c!"A" ∧ scoreWinnerOf (readText joinText) = some c!"A" := by decide +kernel
end
end Verif.Props
