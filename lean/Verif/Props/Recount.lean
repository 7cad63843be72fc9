/-
C128: how much a few ballots can change.
-/
import Verif.Spec.Recount
import Verif.Props.PaperJoin
import Verif.Props.ThirdParty
import Verif.Props.Precincts
import Verif.Lib.Borda
import Mathlib.Tactic.Linarith
import Mathlib.Tactic.Ring

set_option linter.unusedSimpArgs false
set_option linter.unusedSectionVars false

namespace Verif.Props
open Spec

section
variable [U : Uni]

/-- counting the ballots one by one -/
theorem paperSum_cast (p : List PaperLine) (f : Ballot → Bool) : paperSum p f = (castBallots p).countP f := by
  unfold paperSum castBallots
  induction paperVotes p with
  | nil => rfl
  | cons v l ih =>
    rw [List.flatMap_cons, List.countP_append, ← ih, List.countP_replicate]
    by_cases h : f v.2 = true
    · rw [List.filter_cons_of_pos (p := fun v : Nat × Ballot => f v.2) h, if_pos h, List.map_cons, List.sum_cons]
    · rw [List.filter_cons_of_neg (p := fun v : Nat × Ballot => f v.2) h, if_neg h, Nat.zero_add]

theorem sum_equal (n : Nat) (a : Int) : (List.replicate n a).sum = (n : Int) * a := by
  induction n with
  | zero => simp
  | succ n ih => rw [List.replicate_succ, List.sum_cons, ih]; push_cast; ring

theorem sum_both {α : Type} (a b : α → Nat) : ∀ l : List α, (l.map (fun x => a x + b x)).sum = (l.map a).sum + (l.map b).sum
  | [] => rfl
  | x :: l => by simp only [List.map_cons, List.sum_cons, sum_both a b l]; omega

theorem sum_nothing {l : List Nat} (h : ∀ n ∈ l, n = 0) : l.sum = 0 := by
  induction l with
  | nil => rfl
  | cons a l ih => rw [List.sum_cons, h a (by simp), ih (fun n hn => h n (List.mem_cons_of_mem _ hn))]

theorem paperPoints_cast (p : List PaperLine) (x : Str) : paperPoints p x = ((castBallots p).map (fun b => b.points x)).sum := by
  unfold paperPoints castBallots
  induction paperVotes p with
  | nil => rfl
  | cons v l ih =>
    rw [List.flatMap_cons, List.map_append, List.sum_append, ← ih, List.map_replicate, sum_equal, List.map_cons, List.sum_cons]

theorem differBy_symm {k : Nat} {p q : List PaperLine} (h : DifferBy k p q) : DifferBy k q p := by
  obtain ⟨hc, common, old, new, h1, h2, h3, h4⟩ := h
  exact ⟨fun x => (hc x).symm, common, new, old, h2, h1, h4, h3⟩

theorem differ_sum {k : Nat} {p q : List PaperLine} (h : DifferBy k p q) (f : Ballot → Bool) : paperSum q f ≤ paperSum p f + k := by
  obtain ⟨_, common, old, new, h1, h2, h3, h4⟩ := h
  rw [paperSum_cast, paperSum_cast, h1.countP_eq, h2.countP_eq, List.countP_append, List.countP_append]
  have : new.countP f ≤ new.length := List.countP_le_length
  omega

theorem points_range {R : Nat} {x : Str} : ∀ l : List Ballot, (∀ b ∈ l, 0 ≤ b.points x ∧ b.points x ≤ R) →
    0 ≤ (l.map (fun b => b.points x)).sum ∧ (l.map (fun b => b.points x)).sum ≤ (R : Int) * l.length
  | [], _ => by simp
  | b :: l, h => by
    obtain ⟨h1, h2⟩ := points_range l (fun c hc => h c (List.mem_cons_of_mem _ hc))
    obtain ⟨h3, h4⟩ := h b (by simp)
    rw [List.map_cons, List.sum_cons, List.length_cons]
    push_cast
    constructor
    · omega
    · rw [mul_add, mul_one]; omega

theorem differ_points {k R : Nat} {p q : List PaperLine} (h : DifferBy k p q) (hp : PointsWithin R p) (hq : PointsWithin R q) (x : Str) :
    paperPoints q x ≤ paperPoints p x + R * k := by
  obtain ⟨_, common, old, new, h1, h2, h3, h4⟩ := h
  rw [paperPoints_cast, paperPoints_cast, perm_sum (h1.map _), perm_sum (h2.map _), List.map_append, List.map_append,
    List.sum_append, List.sum_append]
  have h5 := (points_range old (x := x) (R := R) (fun b hb => hp b (h1.mem_iff.2 (List.mem_append.2 (.inr hb))) x)).1
  have h6 := (points_range new (x := x) (R := R) (fun b hb => hq b (h2.mem_iff.2 (List.mem_append.2 (.inr hb))) x)).2
  have h7 : (R : Int) * new.length ≤ R * k := Int.mul_le_mul_of_nonneg_left (by exact_mod_cast h4) (by positivity)
  linarith

/-- C128, head-to-head counts.  When two files differ in at most `k` ballots, the cells that `-t paircountjson` prints for them differ by at
most `k`. -/
theorem C128_pairs (env env' : CliEnv) (k : Nat) (p q : List PaperLine) (file file' : Str) (hp : PaperOk p) (hq : PaperOk q)
    (hd : DifferBy k p q) (hlp : (paperText p).length < 2 ^ 61) (hlq : (paperText q).length < 2 ^ 61) (hf : PlainWord file) (hf' : PlainWord file')
    (hh : Holds env file (paperText p)) (hh' : Holds env' file' (paperText q)) :
    ∃ doc doc', CommandPrints env (command c!"paircountjson" [] file) doc ∧ CommandPrints env' (command c!"paircountjson" [] file') doc' ∧
      ∀ x ∈ paperCands p, ∀ y ∈ paperCands p, x ≠ y → ∃ a b : Nat, valueAt doc [.key x, .key y] = some (.int a) ∧
        valueAt doc' [.key x, .key y] = some (.int b) ∧ a ≤ b + k ∧ b ≤ a + k := by
  obtain ⟨d, a1, _, a3⟩ := C103_pairs env p file hp hlp hf hh
  obtain ⟨d', b1, _, b3⟩ := C103_pairs env' q file' hq hlq hf' hh'
  refine ⟨d, d', a1, b1, ?_⟩
  intro x hx y hy hne
  refine ⟨paperPrefers p x y, paperPrefers q x y, by rw [a3 x hx y hy, if_neg hne], ?_, differ_sum (differBy_symm hd) _, differ_sum hd _⟩
  rw [b3 x ((hd.1 x).1 hx) y ((hd.1 y).1 hy), if_neg hne]

/-- ballots that name nobody twice and give everybody at most `R` points -/
theorem pointsWithin_of {R : Nat} {p : List PaperLine} (hn : ∀ b ∈ castBallots p, (b.items.map Item.tok).Nodup)
    (hr : ∀ b ∈ castBallots p, ∀ it ∈ b.items, 0 ≤ it.number ∧ it.number ≤ R) : PointsWithin R p := by
  intro b hb x
  unfold Ballot.points
  have h1 := hn b hb
  have h2 := hr b hb
  generalize b.items = l at h1 h2
  induction l with
  | nil => simp
  | cons i l ih =>
    rw [List.map_cons, List.nodup_cons] at h1
    have ih := ih h1.2 (fun it h => h2 it (List.mem_cons_of_mem _ h))
    by_cases e : i.tok = x
    · have hz : l.filter (fun it => decide (it.tok = x)) = [] := by
        rw [List.filter_eq_nil_iff]
        intro it hit hx
        exact h1.1 (by rw [e, ← of_decide_eq_true hx]; exact List.mem_map_of_mem hit)
      rw [List.filter_cons_of_pos (by simpa using e), hz]
      simpa using h2 i (by simp)
    · rw [List.filter_cons_of_neg (by simpa using e)]
      exact ih

theorem cands_length {k : Nat} {p q : List PaperLine} (h : DifferBy k p q) : (paperCands q).length = (paperCands p).length :=
  ((List.perm_ext_iff_of_nodup (nodup_paperCands _) (nodup_paperCands _)).2 (fun x => (h.1 x).symm)).length_eq

/-- C128, Condorcet winners.  A candidate who beats every other by more than `2 * k` ballots is the one that `-t text -m Copeland` prints
for every file that differs in at most `k` ballots. -/
theorem C128_condorcet (env : CliEnv) (k : Nat) (p q : List PaperLine) (file : Str) (hq : PaperOk q) (hd : DifferBy k p q)
    (hl : (paperText q).length < 2 ^ 61) (hf : PlainWord file) (hh : Holds env file (paperText q)) (w : Str) (hw : w ∈ paperCands p)
    (hwin : ∀ y ∈ paperCands p, y ≠ w → paperPrefers p y w + 2 * k < paperPrefers p w y) :
    CommandWrites env (textCommand c!"Copeland" file)
      (c!"Copeland Winner: " ++ paperName q w ++ c!" (score: " ++ natStr ((paperCands p).length - 1) ++ c!".0)\n") := by
  have := C103_condorcet env q file hq hl hf hh w ((hd.1 w).1 hw) (fun y hy hne => by
    have h1 := hwin y ((hd.1 y).2 hy) hne
    have h2 := differ_sum hd (fun b => b.above y w)
    have h3 := differ_sum (differBy_symm hd) (fun b => b.above w y)
    unfold paperPrefers at h1 ⊢
    omega)
  rwa [cands_length hd] at this

/-- C128, duels.  When every two candidates are more than `2 * k` ballots apart, `-t winlosstiejson` prints the same wins, losses and ties for
every file that differs in at most `k` ballots. -/
theorem C128_duels (env env' : CliEnv) (k : Nat) (p q : List PaperLine) (file file' : Str) (hp : PaperOk p) (hq : PaperOk q)
    (hd : DifferBy k p q) (hlp : (paperText p).length < 2 ^ 61) (hlq : (paperText q).length < 2 ^ 61) (hf : PlainWord file) (hf' : PlainWord file')
    (hh : Holds env file (paperText p)) (hh' : Holds env' file' (paperText q))
    (hfar : ∀ x ∈ paperCands p, ∀ y ∈ paperCands p, x ≠ y → paperPrefers p x y + 2 * k < paperPrefers p y x ∨
      paperPrefers p y x + 2 * k < paperPrefers p x y) :
    ∃ doc doc', CommandPrints env (command c!"winlosstiejson" [] file) doc ∧ CommandPrints env' (command c!"winlosstiejson" [] file') doc' ∧
      (∀ x, x ∈ keysOf doc ↔ x ∈ keysOf doc') ∧
      ∀ x ∈ paperCands p, (member x doc).isSome = true ∧ member x doc' = member x doc := by
  obtain ⟨d, a1, a2, _, a4⟩ := C103_duels env p file hp hlp hf hh
  obtain ⟨d', b1, b2, _, b4⟩ := C103_duels env' q file' hq hlq hf' hh'
  refine ⟨d, d', a1, b1, fun x => by rw [a2.mem_iff, b2.mem_iff]; exact hd.1 x, ?_⟩
  intro x hx
  have key : ∀ r : Nat → Nat → Bool, (∀ a b a' b' : Nat, (a + 2 * k < b ∨ b + 2 * k < a) → a ≤ a' + k → a' ≤ a + k → b ≤ b' + k → b' ≤ b + k →
      r a' b' = r a b) → paperAgainst q x r = paperAgainst p x r := by
    intro r hr
    unfold paperAgainst
    have hperm := (List.perm_ext_iff_of_nodup (nodup_paperCands q) (nodup_paperCands p)).2 (fun x => (hd.1 x).symm)
    rw [(hperm.filter _).length_eq]
    refine congrArg List.length (List.filter_congr (fun y hy => ?_))
    by_cases e : y = x
    · simp [e]
    · rw [hr (paperPrefers p x y) (paperPrefers p y x) (paperPrefers q x y) (paperPrefers q y x) (hfar x hx y hy (fun h => e h.symm)) (differ_sum (differBy_symm hd) _) (differ_sum hd _)
        (differ_sum (differBy_symm hd) _) (differ_sum hd _)]
  rw [a4 x hx, b4 x ((hd.1 x).1 hx)]
  refine ⟨rfl, ?_⟩
  rw [key (fun a b => decide (b < a)) (fun a b a' b' h1 h2 h3 h4 h5 => decide_eq_decide.2 (by omega)),
    key (fun a b => decide (a < b)) (fun a b a' b' h1 h2 h3 h4 h5 => decide_eq_decide.2 (by omega)),
    key (fun a b => decide (a = b)) (fun a b a' b' h1 h2 h3 h4 h5 => decide_eq_decide.2 (by omega))]

/-- a ballot has at most one favourite -/
theorem favours_one {b : Ballot} {C : List Str} {x y : Str} (hx : b.favours C x = true) (hy : b.favours C y = true) : x = y := by
  unfold Ballot.favours at hx hy
  simp only [Bool.and_eq_true, decide_eq_true_eq, List.all_eq_true, Bool.or_eq_true] at hx hy
  obtain ⟨⟨x1, x2⟩, x3⟩ := hx
  obtain ⟨⟨y1, y2⟩, y3⟩ := hy
  rcases x3 y y2 with h | h
  · exact h.symm
  rcases y3 x x2 with g | g
  · exact g
  exfalso
  cases b with
  | ranked ts =>
    have e := tierAbove_asymm h
    rw [show tierAbove ts y x = true from g] at e
    cases e
  | scored its =>
    simp only [Ballot.above, List.any_eq_true, Bool.and_eq_true, decide_eq_true_eq, List.all_eq_true, Bool.or_eq_true, Bool.not_eq_true',
      decide_eq_false_iff_not] at h g
    obtain ⟨i, hi, ei, h⟩ := h
    obtain ⟨j, hj, ej, g⟩ := g
    have h1 := (h j hj).resolve_left (fun n => n ej)
    have h2 := (g i hi).resolve_left (fun n => n ei)
    omega

/-- the ballots with a favourite among some of the candidates -/
theorem favours_count {C : List Str} : ∀ (l : List Str), l.Nodup → ∀ b : Ballot, (l.map (fun x => if b.favours C x then 1 else 0)).sum ≤ 1
  | [], _, _ => by simp
  | x :: l, hn, b => by
    rw [List.map_cons, List.sum_cons]
    by_cases h : b.favours C x = true
    · have hz : (l.map (fun y => if b.favours C y then 1 else 0)).sum = 0 := by
        apply sum_nothing
        intro n hm
        obtain ⟨y, hy, rfl⟩ := List.mem_map.1 hm
        rw [if_neg]
        intro hf
        exact (List.nodup_cons.1 hn).1 (favours_one h hf ▸ hy)
      rw [if_pos h, hz]
    · rw [if_neg h, Nat.zero_add]
      exact favours_count l (List.nodup_cons.1 hn).2 b

theorem count_tops (C l : List Str) : ∀ B : List Ballot,
    (l.map (fun x => B.countP (fun b => b.favours C x))).sum = (B.map (fun b => (l.map (fun x => if b.favours C x then 1 else 0)).sum)).sum
  | [] => by induction l with | nil => rfl | cons _ _ _ => simp
  | b :: B => by
    rw [List.map_cons, List.sum_cons, ← count_tops C l B]
    simp only [List.countP_cons]
    rw [sum_both]
    omega

theorem tops_le (C l : List Str) (hn : l.Nodup) (B : List Ballot) : (l.map (fun x => B.countP (fun b => b.favours C x))).sum ≤ B.length := by
  rw [count_tops]
  induction B with
  | nil => simp
  | cons b B ih =>
    rw [List.map_cons, List.sum_cons, List.length_cons]
    have := favours_count (C := C) l hn b
    omega

theorem differ_tops {k : Nat} {p q : List PaperLine} (h : DifferBy k p q) (C l : List Str) (hn : l.Nodup) :
    (l.map (paperTop q C)).sum ≤ (l.map (paperTop p C)).sum + k := by
  obtain ⟨_, common, old, new, h1, h2, h3, h4⟩ := h
  have e : ∀ (r : List PaperLine) (a b : List Ballot), (castBallots r).Perm (a ++ b) → (l.map (paperTop r C)).sum =
      (l.map (fun x => a.countP (fun b => b.favours C x))).sum + (l.map (fun x => b.countP (fun b => b.favours C x))).sum := by
    intro r a b hr
    rw [← sum_both]
    congr 1
    apply List.map_congr_left
    intro x _
    unfold paperTop
    rw [paperSum_cast, hr.countP_eq, List.countP_append]
  rw [e p _ _ h1, e q _ _ h2]
  have := tops_le C l hn new
  omega

/-- C128, majorities.  When the ballots with `w` first are more than half of those that name anybody, by more than `2 * k`, then `-t irvjson`
prints one round and `w` as the only winner for every file that differs in at most `k` ballots and has no two candidates on a par. -/
theorem C128_majority (env : CliEnv) (k : Nat) (p q : List PaperLine) (file : Str) (hq : PaperOk q) (hd : DifferBy k p q)
    (hl : (paperText q).length < 4999999998) (hf : PlainWord file) (hh : Holds env file (paperText q)) (hs : PaperStrict q)
    (hnil : [] ∉ paperCands p) (w : Str) (hw : w ∈ paperCands p)
    (hmaj : ((paperCands p).map (paperTop p (paperCands p))).sum + 2 * k < 2 * paperTop p (paperCands p) w) :
    ∃ doc, CommandPrints env (command c!"irvjson" [] file) doc ∧ member c!"winner" doc = some (texts [w]) ∧
      valueAt doc [.key c!"rounds", .idx 1] = none := by
  refine C103_majority env q file hq hl hf hh hs (fun h => hnil ((hd.1 _).2 h)) w ((hd.1 w).1 hw) ?_
  rw [tops_same (nodup_paperCands q) (nodup_paperCands p) (fun x => (hd.1 x).symm), paperTop_same (fun x => (hd.1 x).symm)]
  have hperm := List.perm_cons_erase hw
  have hsum : ∀ r : List PaperLine, ((paperCands p).map (paperTop r (paperCands p))).sum =
      paperTop r (paperCands p) w + (((paperCands p).erase w).map (paperTop r (paperCands p))).sum := by
    intro r
    rw [(hperm.map _).sum_nat, List.map_cons, List.sum_cons]
  rw [hsum] at hmaj ⊢
  have h1 := differ_tops hd (paperCands p) _ ((nodup_paperCands p).erase w)
  have h2 : paperTop p (paperCands p) w ≤ paperTop q (paperCands p) w + k := differ_sum (differBy_symm hd) _
  omega

theorem decisive_mem {p : List PaperLine} {k : Nat} {C : List Str} {w : Str} (h : Decisive p k C w) : w ∈ C := by
  induction h with
  | majority C w hw h => exact hw
  | drop C e w he h rest ih => exact List.mem_of_mem_erase ih

/-- what is decided by more than `2 * k` ballots in one paper is decided in the other -/
theorem decisive_near {k : Nat} {p q : List PaperLine} (hd : DifferBy k p q) {C : List Str} {w : Str} (h : Decisive p k C w) (hn : C.Nodup) :
    Decisive q 0 C w := by
  induction h with
  | majority C w hw h =>
    refine .majority C w hw ?_
    have hperm := List.perm_cons_erase hw
    have hsum : ∀ r : List PaperLine, (C.map (paperTop r C)).sum = paperTop r C w + ((C.erase w).map (paperTop r C)).sum := by
      intro r
      rw [(hperm.map _).sum_nat, List.map_cons, List.sum_cons]
    rw [hsum] at h ⊢
    have h1 := differ_tops hd C _ (hn.erase w)
    have h2 : paperTop p C w ≤ paperTop q C w + k := differ_sum (differBy_symm hd) _
    omega
  | drop C e w he h rest ih =>
    refine .drop C e w he (fun c hc hne => ?_) (ih (hn.erase e))
    have h1 := h c hc hne
    have h2 : paperTop q C e ≤ paperTop p C e + k := differ_sum hd _
    have h3 : paperTop p C c ≤ paperTop q C c + k := differ_sum (differBy_symm hd) _
    omega

open Runoff in
open Classical in
/-- nobody else can win a decided count -/
theorem decisive_only {q : List PaperLine} {m : Jabmod} (he : StrictElection m) (ht : ∀ C x, votesAmong m.votelines C x = (paperTop q C x : Int))
    {C : List Str} {w : Str} (h : Decisive q 0 C w) (hn : C.Nodup) {w' : Str}
    (hc : CanWin Voteline.qty favourite m.votelines C.toFinset w') : w' = w := by
  have hv : ∀ (C : List Str) (x : Str), votes Voteline.qty favourite m.votelines C.toFinset x = (paperTop q C x : Int) :=
    fun C x => (votes_favourite he C x).trans (ht C x)
  have hall : ∀ C : List Str, C.Nodup → counted Voteline.qty favourite m.votelines C.toFinset = (((C.map (paperTop q C)).sum : Nat) : Int) := by
    intro C hC
    rw [counted_favourite he hC, show votesAmong m.votelines C = fun x => (paperTop q C x : Int) from funext (ht C)]
    have key : ∀ l : List Str, (l.map (fun x => (paperTop q C x : Int))).sum = (((l.map (paperTop q C)).sum : Nat) : Int) := by
      intro l
      induction l with
      | nil => rfl
      | cons a l ih => rw [List.map_cons, List.sum_cons, ih, List.map_cons, List.sum_cons]; push_cast; rfl
    exact key C
  have hch := favourite_choice he
  have hset : ∀ (C : List Str) (e : Str), C.Nodup → (C.erase e).toFinset = C.toFinset.erase e := by
    intro C e hC
    ext x
    rw [List.mem_toFinset, Finset.mem_erase, List.mem_toFinset, hC.mem_erase_iff]
  have hcan : ∀ {C : List Str} {w : Str}, Decisive q 0 C w → C.Nodup → CanWin Voteline.qty favourite m.votelines C.toFinset w := by
    intro C w h
    induction h with
    | majority C w hw h =>
      intro hC
      exact .won _ _ ⟨List.mem_toFinset.2 hw, .inl (by rw [hall C hC, hv]; omega)⟩
    | drop C e w he' h rest ih =>
      intro hC
      refine .drop _ _ e (List.mem_toFinset.2 he') (fun y hy => ?_) (by rw [← hset C e hC]; exact ih (hC.erase e))
      rw [hv, hv]
      by_cases e' : y = e
      · rw [e']
      · have := h y (List.mem_toFinset.1 hy) e'
        omega
  induction h with
  | majority C w hw h => exact won_unique hch hc ⟨List.mem_toFinset.2 hw, .inl (by rw [hall C hn, hv]; omega)⟩
  | drop C e w he' h rest ih =>
    have hwe := (hn.mem_erase_iff.1 (decisive_mem rest))
    have hlow : votes Voteline.qty favourite m.votelines C.toFinset e < votes Voteline.qty favourite m.votelines C.toFinset w := by
      rw [hv, hv]
      have := h w hwe.2 hwe.1
      omega
    have hother : ∀ x ∈ C.toFinset, (∀ y ∈ C.toFinset, votes Voteline.qty favourite m.votelines C.toFinset x ≤
        votes Voteline.qty favourite m.votelines C.toFinset y) → x = e := by
      intro x hx hmin
      by_contra hne
      have h1 := hmin e (List.mem_toFinset.2 he')
      have h2 := h x (List.mem_toFinset.1 hx) hne
      rw [hv, hv] at h1
      omega
    cases hc with
    | won _ _ hwon =>
      have hne : w' ≠ e := by
        rintro rfl
        rcases hwon.2 with h1 | h1
        · have := two_le_counted hch (C := C.toFinset) hwe.1
          omega
        · exact hwe.1 (h1 w (List.mem_toFinset.2 hwe.2))
      have hD : Won Voteline.qty favourite m.votelines (C.erase e).toFinset w' :=
        won_mono hch (by rw [hset C e hn]; exact Finset.erase_subset _ _)
          (by rw [List.mem_toFinset, hn.mem_erase_iff]; exact ⟨hne, List.mem_toFinset.1 hwon.1⟩) hwon
      exact (won_unique hch (hcan rest (hn.erase e)) hD).symm
    | drop _ _ x hx hmin hc =>
      obtain rfl := hother x hx hmin
      rw [← hset C x hn] at hc
      exact ih (hn.erase x) hc

/-- C128, instant runoff.  When in every round of the count of a paper one candidate has more than `2 * k` votes fewer than everybody else, until
`w` has more than half of the votes by more than `2 * k`, then `-t irvjson` prints `w` as the only winner for every file that differs in at
most `k` ballots and has no two candidates on a par. -/
theorem C128_irv (env : CliEnv) (k : Nat) (p q : List PaperLine) (file : Str) (hq : PaperOk q) (hd : DifferBy k p q)
    (hl : (paperText q).length < 4999999998) (hf : PlainWord file) (hh : Holds env file (paperText q)) (hs : PaperStrict q)
    (hnil : [] ∉ paperCands p) (w : Str) (hdec : Decisive p k (paperCands p) w) :
    ∃ doc, CommandPrints env (command c!"irvjson" [] file) doc ∧ member c!"winner" doc = some (texts [w]) := by
  obtain ⟨a, m, vls, h1, h2, h3, h4, h5, h6, h7, h8⟩ := paper_runs (format := c!"irvjson") (mods := []) hq (by show _ ∈ _; decide) (by simp) hf hh
  have he := paper_strictElection hl hs (fun h => hnil ((hd.1 _).2 h)) h4 h5 h6 h7
  have hcne : m.candidates ≠ [] := by
    intro hz
    have hw := (hd.1 w).1 (decisive_mem hdec)
    rw [← h7, hz] at hw
    cases hw
  obtain ⟨d, hid, _⟩ := C28_parsed env.sched _ _ _ _ _ h4 hcne
  obtain ⟨doc, g1, _, _, g4, _⟩ := C90_irv env a _ m d h2 (parsed_cands_nodup _ _ _ _ _ h4) hid (.inl h3)
  have hwin : d.run.winner = [w] := by
    refine run_unique he hid (fun w' hw' => ?_)
    refine decisive_only he (paper_top hq he h5 h6) (decisive_near hd hdec (nodup_paperCands p)) (nodup_paperCands p) ?_
    have e : (Dict.keys m.candidates).toFinset = (paperCands p).toFinset := by
      ext x
      rw [List.mem_toFinset, List.mem_toFinset, h7, hd.1]
    rwa [e] at hw'
  exact ⟨doc, h1 doc g1, by rw [← hwin]; exact g4⟩

/-- C128, scores.  When no ballot gives more than `R` points or less than none, a candidate who leads all others by more than `2 * R * k`
points is the score winner that `-t text -m score` prints for every file that differs in at most `k` ballots. -/
theorem C128_score (env : CliEnv) (k R : Nat) (p q : List PaperLine) (file : Str) (hq : PaperOk q) (hd : DifferBy k p q)
    (hf : PlainWord file) (hh : Holds env file (paperText q)) (hrp : PointsWithin R p) (hrq : PointsWithin R q) (w : Str) (hw : w ∈ paperCands p)
    (hlead : ∀ y ∈ paperCands p, y ≠ w → paperPoints p y + 2 * (R * k) < paperPoints p w) :
    ∃ lines, CommandWrites env (textCommand c!"score" file) (lines ++ (c!"Score Winner: " ++ paperName q w ++ c!"\n")) := by
  have hwq := (hd.1 w).1 hw
  obtain ⟨w', rest, h1, h2, _, h4⟩ := C103_text_score env q file hq hf hh (List.ne_nil_of_mem hwq)
  have e : w' = w := by
    by_contra hne
    have hw' := h1.mem_iff.1 (show w' ∈ w' :: rest by simp)
    have hr : w ∈ rest := (List.mem_cons.1 (h1.mem_iff.2 hwq)).resolve_left (fun h => hne h.symm)
    have h5 := (List.pairwise_cons.1 h2).1 w hr
    have h6 := hlead w' ((hd.1 _).2 hw') hne
    have h7 := differ_points hd hrp hrq w'
    have h8 := differ_points (differBy_symm hd) hrq hrp w
    linarith
  subst e
  exact ⟨_, h4⟩

/-- C128, STAR.  When no ballot gives more than `R` points or less than none, `f` and `g` lead all others by more than `2 * R * k` points and
`f` is above `g` on more than `2 * k` more ballots than the other way round, `f` is the winner that `-t json -m STAR` prints for every file
that differs in at most `k` ballots. -/
theorem C128_star (env : CliEnv) (k R : Nat) (p q : List PaperLine) (file : Str) (hq : PaperOk q) (hd : DifferBy k p q)
    (hl : (paperText q).length < 2 ^ 61) (hf : PlainWord file) (hh : Holds env file (paperText q)) (hrp : PointsWithin R p)
    (hrq : PointsWithin R q) (f g : Str) (hfm : f ∈ paperCands p) (hgm : g ∈ paperCands p) (hfg : f ≠ g)
    (hlead : ∀ y ∈ paperCands p, y ≠ f → y ≠ g → paperPoints p y + 2 * (R * k) < paperPoints p f ∧ paperPoints p y + 2 * (R * k) < paperPoints p g)
    (hrun : paperPrefers p g f + 2 * k < paperPrefers p f g) :
    ∃ doc, CommandPrints env (command c!"json" [c!"STAR"] file) doc ∧ member c!"winner" doc = some (.str (paperName q f)) := by
  have hfq := (hd.1 f).1 hfm
  have hgq := (hd.1 g).1 hgm
  have h2 : 2 ≤ (paperCands q).length := by
    have := (List.subperm_of_subset (l₁ := [f, g]) (l₂ := paperCands q) (by simp [hfg])
      (fun x hx => by
        simp only [List.mem_cons, List.not_mem_nil, or_false] at hx
        rcases hx with rfl | rfl <;> assumption)).length_le
    exact this
  obtain ⟨doc, f1, f2, rest, g1, g2, g3, _, _, _, _, _, _, g9, g10, _⟩ := C103_star env q file hq hl hf hh h2
  have hlt : ∀ y ∈ paperCands q, y ≠ f → y ≠ g → paperPoints q y < paperPoints q f ∧ paperPoints q y < paperPoints q g := by
    intro y hy h1 h3
    obtain ⟨h4, h5⟩ := hlead y ((hd.1 y).2 hy) h1 h3
    have h6 := differ_points hd hrp hrq y
    have h7 := differ_points (differBy_symm hd) hrq hrp f
    have h8 := differ_points (differBy_symm hd) hrq hrp g
    constructor <;> linarith
  have hm1 : f1 ∈ paperCands q := g2.mem_iff.1 (by simp)
  have hm2 : f2 ∈ paperCands q := g2.mem_iff.1 (by simp)
  have hnd : (f1 :: f2 :: rest).Nodup := g2.nodup_iff.2 (nodup_paperCands q)
  have hp1 := (List.pairwise_cons.1 g3).1
  have hp2 := (List.pairwise_cons.1 (List.pairwise_cons.1 g3).2).1
  have hfin : f ∈ f1 :: f2 :: rest := g2.mem_iff.2 hfq
  have hgin : g ∈ f1 :: f2 :: rest := g2.mem_iff.2 hgq
  have hrunq : paperPrefers q g f < paperPrefers q f g := by
    have h3 := differ_sum hd (fun b => b.above g f)
    have h4 := differ_sum (differBy_symm hd) (fun b => b.above f g)
    unfold paperPrefers at hrun ⊢
    omega
  have hne12 : f1 ≠ f2 := fun e => (List.nodup_cons.1 hnd).1 (by rw [e]; simp)
  have hin1 : f1 = f ∨ f1 = g := by
    by_contra hc
    push Not at hc
    have h3 := (hlt f1 hm1 hc.1 hc.2).1
    have h4 := hp1 f ((List.mem_cons.1 hfin).resolve_left (fun e => hc.1 e.symm))
    linarith
  have hin2 : f2 = f ∨ f2 = g := by
    by_contra hc
    push Not at hc
    obtain ⟨h3, h4⟩ := hlt f2 hm2 hc.1 hc.2
    rcases hin1 with e | e
    · have h5 : g ∈ f2 :: rest := (List.mem_cons.1 hgin).resolve_left (fun e' => hfg (e.symm.trans e'.symm))
      have := hp2 g ((List.mem_cons.1 h5).resolve_left (fun e' => hc.2 e'.symm))
      linarith
    · have h5 : f ∈ f2 :: rest := (List.mem_cons.1 hfin).resolve_left (fun e' => hfg (e'.trans e))
      have := hp2 f ((List.mem_cons.1 h5).resolve_left (fun e' => hc.1 e'.symm))
      linarith
  refine ⟨doc, g1, ?_⟩
  rcases hin1 with e1 | e1
  · have e2 : f2 = g := hin2.resolve_left (fun e => hne12 (e1.trans e.symm))
    subst e1 e2
    exact g9 hrunq
  · have e2 : f2 = f := hin2.resolve_right (fun e => hne12 (e1.trans e.symm))
    subst e1 e2
    exact g10 hrunq

end

section
attribute [local instance] Uni.ascii
set_option maxRecDepth 40000

/-- the second precinct of Props/PaperJoin with one ballot read upside down -/
def misreadPaper : List PaperLine := [.ballots 3 (.ranked [[{ tok := c!"A" }], [{ tok := c!"B" }]]) none,
  .ballots 1 (.ranked [[{ tok := c!"B" }], [{ tok := c!"A" }]]) none]

/-- the hypotheses of `C128_condorcet` and `C128_majority` are met with one misread ballot -/
example : DifferBy 1 secondPaper misreadPaper ∧ PaperStrict misreadPaper ∧
    (∀ y ∈ paperCands secondPaper, y ≠ c!"A" → paperPrefers secondPaper y c!"A" + 2 * 1 < paperPrefers secondPaper c!"A" y) ∧
    ((paperCands secondPaper).map (paperTop secondPaper (paperCands secondPaper))).sum + 2 * 1 <
      2 * paperTop secondPaper (paperCands secondPaper) c!"A" := by
  refine ⟨⟨?_, List.replicate 3 (.ranked [[{ tok := c!"A" }], [{ tok := c!"B" }]]), [.ranked [[{ tok := c!"A" }], [{ tok := c!"B" }]]],
    [.ranked [[{ tok := c!"B" }], [{ tok := c!"A" }]]], ?_, ?_, by decide, by decide⟩, by unfold PaperStrict; decide +kernel, by decide +kernel, by decide +kernel⟩
  · intro x
    rw [show paperCands misreadPaper = paperCands secondPaper by decide +kernel]
  · exact List.Perm.refl _
  · exact List.Perm.refl _

/-- the points of the paper of Props/Paper are within five -/
example : PointsWithin 5 exPaper := by
  refine pointsWithin_of (by decide +kernel) (by decide +kernel)

/-- the hypotheses of `C128_score` are met with one unread ballot -/
def fivePaper : List PaperLine := [.ballots 9 (.scored [{ tok := c!"A", rating := some c!"5" }, { tok := c!"B", rating := some c!"2" }]) none]

example : DifferBy 1 fivePaper [.ballots 8 (.scored [{ tok := c!"A", rating := some c!"5" }, { tok := c!"B", rating := some c!"2" }]) none] ∧
    PointsWithin 5 fivePaper ∧ (∀ y ∈ paperCands fivePaper, y ≠ c!"A" → paperPoints fivePaper y + 2 * (5 * 1) < paperPoints fivePaper c!"A") ∧
    (∀ y ∈ paperCands fivePaper, y ≠ c!"A" → y ≠ c!"B" → paperPoints fivePaper y + 2 * (5 * 1) < paperPoints fivePaper c!"B") ∧
    paperPrefers fivePaper c!"B" c!"A" + 2 * 1 < paperPrefers fivePaper c!"A" c!"B" := by
  refine ⟨⟨?_, List.replicate 8 (.scored [{ tok := c!"A", rating := some c!"5" }, { tok := c!"B", rating := some c!"2" }]),
    [.scored [{ tok := c!"A", rating := some c!"5" }, { tok := c!"B", rating := some c!"2" }]], [], List.Perm.refl _, List.Perm.refl _, by decide, by decide⟩,
    pointsWithin_of (by decide +kernel) (by decide +kernel), by decide +kernel, by decide +kernel, by decide +kernel⟩
  intro x
  rw [show paperCands [PaperLine.ballots 8 (.scored [{ tok := c!"A", rating := some c!"5" }, { tok := c!"B", rating := some c!"2" }]) none] =
    paperCands fivePaper by decide +kernel]

/-- the hypothesis of `C128_duels` is met with one ballot -/
example : ∀ x ∈ paperCands secondPaper, ∀ y ∈ paperCands secondPaper, x ≠ y → paperPrefers secondPaper x y + 2 * 1 < paperPrefers secondPaper y x ∨
    paperPrefers secondPaper y x + 2 * 1 < paperPrefers secondPaper x y := by decide +kernel

/-- three parties; `B` wins when `C` is eliminated -/
def decidedPaper : List PaperLine := [.ballots 7 (.ranked [[{ tok := c!"A" }], [{ tok := c!"B" }], [{ tok := c!"C" }]]) none,
  .ballots 7 (.ranked [[{ tok := c!"B" }], [{ tok := c!"A" }], [{ tok := c!"C" }]]) none,
  .ballots 4 (.ranked [[{ tok := c!"C" }], [{ tok := c!"B" }], [{ tok := c!"A" }]]) none]

/-- the hypothesis of `C128_irv` is met with one ballot and two rounds -/
example : Decisive decidedPaper 1 (paperCands decidedPaper) c!"B" := by
  refine .drop _ c!"C" _ (by decide +kernel) (by decide +kernel) (.majority _ _ (by decide +kernel) (by decide +kernel))

def closeText : Str := c!"3:A>B\n1:B>A\n"
def recountedText : Str := c!"2:A>B\n2:B>A\n"
def firstCountText : Str := c!"7:A>B>C\n6:B>A>C\n5:C>B>A\n"
def secondCountText : Str := c!"7:A>B>C\n5:B>A>C\n6:C>B>A\n"

/-- The bounds cannot be lowered: a lead of two ballots can be lost by one misread ballot.  And the lead in the last round of an instant runoff
says nothing: one ballot decides who is eliminated first, `B` wins with eleven against seven in one count and `A` with twelve
against six in the other. -/
theorem C128_refuted : (∃ m m' : Jabmod, convertAbif true false false closeText = .ok m ∧ convertAbif true false false recountedText = .ok m' ∧
      support m c!"A" c!"B" = support m c!"B" c!"A" + 2 ∧ CopelandWinners m [c!"A"] ∧ CopelandWinners m' [c!"A", c!"B"]) ∧
    ∃ (m m' : Jabmod) (d d' : IrvDict), convertAbif true false false firstCountText = .ok m ∧ convertAbif true false false secondCountText = .ok m' ∧
      StrictElection m ∧ StrictElection m' ∧ irvDict Sched.std m = .ok d ∧ irvDict Sched.std m' = .ok d' ∧
      support m c!"B" c!"A" = 11 ∧ support m c!"A" c!"B" = 7 ∧ d.run.winner = [c!"B"] ∧ d'.run.winner = [c!"A"] := by
  obtain ⟨d, hd, hw⟩ := irvOf_some (m := readText firstCountText) (ws := [c!"B"]) (by decide +kernel)
  obtain ⟨d', hd', hw'⟩ := irvOf_some (m := readText secondCountText) (ws := [c!"A"]) (by decide +kernel)
  exact ⟨⟨_, _, readText_eq (by decide +kernel), readText_eq (by decide +kernel), by decide +kernel, copeland_of (by decide +kernel),
      copeland_of (by decide +kernel)⟩,
    _, _, d, d', readText_eq (by decide +kernel), readText_eq (by decide +kernel),
    strict_text (by decide +kernel) (by decide +kernel) (by decide +kernel) (by unfold Strict; decide +kernel),
    strict_text (by decide +kernel) (by decide +kernel) (by decide +kernel) (by unfold Strict; decide +kernel),
    hd, hd', by decide +kernel, by decide +kernel, hw, hw'⟩
end

end Verif.Props
