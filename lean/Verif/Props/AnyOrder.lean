/-
C130: every elimination order can come out of the instant-runoff count.
-/
import Verif.Props.AnyDuels

set_option linter.unusedSimpArgs false
set_option linter.unusedSectionVars false

namespace Verif.Props
open Spec

section
variable [U : Uni]

/-- the ballots name one candidate each -/
structure Single (B : Str → Ballot) : Prop where
  toks : ∀ x, (B x).items.map Item.tok = [x]
  above : ∀ x y, y ≠ x → (B x).above x y = true

/-- each candidate of the list has ballots that name nobody else: twice as many as there are candidates, and one more for each candidate before it -/
def orderPaper (B : Str → Ballot) (L : List Str) : List PaperLine := L.map (fun x => .ballots (2 * L.length + L.idxOf x) (B x) none)

theorem order_votes (B : Str → Ballot) (L : List Str) : paperVotes (orderPaper B L) = L.map (fun x => (2 * L.length + L.idxOf x, B x)) := by
  unfold paperVotes orderPaper
  rw [List.filterMap_map]
  have h : ∀ (f : Str → Nat) (l : List Str), List.filterMap (PaperLine.vote ∘ fun x => PaperLine.ballots (f x) (B x) none) l =
      l.map (fun x => (f x, B x)) := by
    intro f l
    induction l with
    | nil => rfl
    | cons a l ih => rw [List.filterMap_cons, List.map_cons, ih]; rfl
  exact h (fun x => 2 * L.length + L.idxOf x) L

theorem order_cands {B : Str → Ballot} (hB : Single B) {L : List Str} (hn : L.Nodup) : paperCands (orderPaper B L) = L := by
  have h : ∀ (f : Str → Nat) (l : List Str), l.flatMap (fun x => PaperLine.mentions (.ballots (f x) (B x) none)) = l := by
    intro f l
    induction l with
    | nil => rfl
    | cons a l ih =>
      rw [List.flatMap_cons, ih, show PaperLine.mentions (.ballots (f a) (B a) none) = [a] from hB.toks a]; rfl
  unfold paperCands orderPaper
  rw [List.flatMap_map, h (fun x => 2 * L.length + L.idxOf x) L, firsts_of_nodup hn]

theorem filter_only {x : Str} : ∀ {l : List Str}, l.Nodup → x ∈ l → l.filter (fun y => decide (y = x)) = [x]
  | [], _, h => (by cases h)
  | a :: l, hn, h => by
    rw [List.nodup_cons] at hn
    by_cases e : a = x
    · subst e
      rw [List.filter_cons_of_pos (by simp)]
      congr 1
      rw [List.filter_eq_nil_iff]
      intro y hy hc
      rw [decide_eq_true_eq] at hc
      exact hn.1 (hc ▸ hy)
    · rw [List.filter_cons_of_neg (by simp [e])]
      exact filter_only hn.2 ((List.mem_cons.1 h).resolve_left (fun c => e c.symm))

theorem order_favours {B : Str → Ballot} (hB : Single B) (x y : Str) (C : List Str) (hx : x ∈ C) : (B y).favours C x = decide (y = x) := by
  unfold Ballot.favours
  rw [hB.toks]
  by_cases h : y = x
  · subst h
    simp only [hx, List.mem_singleton, decide_true, Bool.true_and]
    rw [List.all_eq_true]
    intro z _
    by_cases hz : z = y
    · simp [hz]
    · rw [hB.above y z hz]; simp
  · have : ¬ x = y := fun e => h e.symm
    simp [h, this]

theorem order_top {B : Str → Ballot} (hB : Single B) {L : List Str} (hn : L.Nodup) {x : Str} (hx : x ∈ L) {C : List Str} (hC : x ∈ C) :
    paperTop (orderPaper B L) C x = 2 * L.length + L.idxOf x := by
  unfold paperTop paperSum
  rw [order_votes, List.filter_map, List.map_map]
  have e : L.filter ((fun v : Nat × Ballot => v.2.favours C x) ∘ fun x => (2 * L.length + L.idxOf x, B x)) = [x] := by
    have : ((fun v : Nat × Ballot => v.2.favours C x) ∘ fun x => (2 * L.length + L.idxOf x, B x)) = fun j => decide (j = x) := by
      funext j
      exact order_favours hB x j C hC
    rw [this]
    exact filter_only hn hx
  rw [e]
  simp

theorem order_top_at {B : Str → Ballot} (hB : Single B) {L : List Str} (hn : L.Nodup) {i : Nat} (hi : i < L.length) {C : List Str} (hC : L[i] ∈ C) :
    paperTop (orderPaper B L) C L[i] = 2 * L.length + i := by
  rw [order_top hB hn (List.getElem_mem hi) hC, hn.idxOf_getElem i hi]

/-- somebody who is left after `k` eliminations has a place from `k` on -/
theorem drop_place {L : List Str} {k : Nat} {x : Str} (h : x ∈ L.drop k) : ∃ (i : Nat) (hi : i < L.length), k ≤ i ∧ x = L[i] := by
  obtain ⟨j, hj, e⟩ := List.mem_iff_getElem.1 h
  rw [List.length_drop] at hj
  exact ⟨k + j, by omega, by omega, by rw [← e, List.getElem_drop]⟩

/-- each round of the count has one candidate less, in the order of the list -/
theorem order_round {B : Str → Ballot} (hB : Single B) {L : List Str} (hn : L.Nodup) {rounds : List (List Str)} {winners : List Str} (h : InstantRunoff (orderPaper B L) rounds winners) :
    ∀ (k : Nat) (C : List Str), rounds[k]? = some C → C.Perm (L.drop k) := by
  intro k
  induction k with
  | zero =>
    intro C hC
    rw [h.first, order_cands hB hn] at hC
    obtain rfl := Option.some.inj hC
    exact List.Perm.refl _
  | succ k ih =>
    intro D hD
    obtain ⟨C, hC⟩ : ∃ C, rounds[k]? = some C := by
      have := (List.getElem?_eq_some_iff.1 hD).1
      exact ⟨_, List.getElem?_eq_getElem (by omega)⟩
    have hp := ih C hC
    obtain ⟨out, o1, o2, o3, o4, o5, _⟩ := h.step k C D hC hD
    have hk : k < L.length := by
      obtain ⟨e, he⟩ := List.exists_mem_of_ne_nil _ o1
      obtain ⟨i, hi, hki, _⟩ := drop_place (hp.mem_iff.1 (o3 e he))
      omega
    have hhead : L.drop k = L[k] :: L.drop (k + 1) := List.drop_eq_getElem_cons hk
    have hkC : L[k] ∈ C := hp.mem_iff.2 (by rw [hhead]; exact List.mem_cons_self)
    have hone : ∀ e ∈ out, e = L[k] := by
      intro e he
      obtain ⟨i, hi, hki, rfl⟩ := drop_place (hp.mem_iff.1 (o3 e he))
      have := o5 _ he _ hkC
      rw [order_top_at hB hn hi (o3 _ he), order_top_at hB hn hk hkC] at this
      have : i = k := by omega
      subst this
      rfl
    have hin : L[k] ∈ out := by
      obtain ⟨e, he⟩ := List.exists_mem_of_ne_nil _ o1
      rw [← hone e he]; exact he
    have hnd : (L[k] :: L.drop (k + 1)).Nodup := by rw [← hhead]; exact hn.sublist (List.drop_sublist _ _)
    rw [List.nodup_cons] at hnd
    refine o4.trans ((hp.filter _).trans ?_)
    rw [hhead, List.filter_cons_of_neg (by simp [hin])]
    rw [List.filter_eq_self.2]
    intro y hy
    rw [decide_eq_true_eq]
    intro hc
    exact hnd.1 (hone y hc ▸ hy)

theorem order_sum {B : Str → Ballot} (hB : Single B) {L : List Str} (hn : L.Nodup) {k : Nat} {C : List Str} (hp : C.Perm (L.drop k)) :
    (C.map (paperTop (orderPaper B L) C)).sum = ((L.drop k).map (fun x => 2 * L.length + L.idxOf x)).sum := by
  rw [← (hp.map _).sum_nat]
  congr 1
  apply List.map_congr_left
  intro x hx
  exact order_top hB hn (List.drop_subset _ _ (hp.mem_iff.1 hx)) hx

theorem many_votes {α : Type} (n : Nat) (f : α → Nat) : ∀ l : List α, l.length * n ≤ (l.map (fun x => n + f x)).sum
  | [] => by simp
  | x :: l => by
    have := many_votes n f l
    rw [List.length_cons, List.map_cons, List.sum_cons, Nat.add_mul]
    omega

/-- the count goes on until two are left, and the last of the list wins -/
theorem order_run {B : Str → Ballot} (hB : Single B) {L : List Str} (hn : L.Nodup) (hne : L ≠ []) {rounds : List (List Str)} {winners : List Str}
    (h : InstantRunoff (orderPaper B L) rounds winners) :
    rounds.length = max 1 (L.length - 1) ∧ winners = [L.getLast hne] := by
  have hpos : 0 < L.length := List.length_pos_iff.2 hne
  have hround := order_round hB hn h
  have hstep : ∀ k, k + 1 < rounds.length → k + 2 < L.length := by
    intro k hk
    have hC := List.getElem?_eq_getElem (show k < rounds.length by omega)
    have hD := List.getElem?_eq_getElem hk
    obtain ⟨hmaj, a, ha, b, hb, hab⟩ := h.notYet k _ _ hC hD
    have hp := hround k _ hC
    by_contra hlt
    obtain ⟨i, hi, hki, rfl⟩ := drop_place (hp.mem_iff.1 ha)
    obtain ⟨j, hj, hkj, rfl⟩ := drop_place (hp.mem_iff.1 hb)
    rw [order_top_at hB hn hi ha, order_top_at hB hn hj hb] at hab
    have hlen : L.length = k + 2 := by omega
    have hm := hmaj _ hb
    rw [order_top_at hB hn hj hb, order_sum hB hn hp, List.drop_eq_getElem_cons (show k < L.length by omega),
      List.drop_eq_getElem_cons (show k + 1 < L.length by omega), List.drop_eq_nil_of_le (by omega)] at hm
    simp only [List.map_cons, List.map_nil, List.sum_cons, List.sum_nil, hn.idxOf_getElem] at hm
    omega
  obtain ⟨C, hC, hlast⟩ := h.last
  rw [List.getLast?_eq_getElem?] at hC
  have hp := hround _ _ hC
  have hlt := (List.getElem?_eq_some_iff.1 hC).1
  have hb : rounds.length - 1 = 0 ∨ rounds.length + 1 ≤ L.length := by
    rcases Nat.eq_zero_or_pos (rounds.length - 1) with h0 | h0
    · exact .inl h0
    · have := hstep (rounds.length - 2) (by omega)
      exact .inr (by omega)
  have hCl : C.length = L.length - (rounds.length - 1) := by rw [hp.length_eq, List.length_drop]
  rw [List.getLast_eq_getElem]
  have hlastC : L[L.length - 1] ∈ C := by
    refine hp.mem_iff.2 (List.mem_iff_getElem.2 ⟨L.length - 1 - (rounds.length - 1), by rw [List.length_drop]; omega, ?_⟩)
    rw [List.getElem_drop]
    congr 1
    omega
  rcases hlast with ⟨hw, v, hv⟩ | ⟨w, hw, e, hm⟩
  · have hfirst : L[rounds.length - 1]'(by omega) ∈ C := by
      refine hp.mem_iff.2 ?_
      rw [List.drop_eq_getElem_cons (show rounds.length - 1 < L.length by omega)]
      exact List.mem_cons_self
    have h1 := hv _ hlastC
    have h2 := hv _ hfirst
    rw [order_top_at hB hn _ hlastC] at h1
    rw [order_top_at hB hn _ hfirst] at h2
    have hone : L.length = 1 := by omega
    refine ⟨by omega, ?_⟩
    rw [hw]
    have hc1 : C.length = 1 := by omega
    obtain ⟨c, rfl⟩ := List.length_eq_one_iff.1 hc1
    rw [List.mem_singleton] at hlastC
    rw [hlastC]
  · have hsum := many_votes (2 * L.length) (fun x => L.idxOf x) (L.drop (rounds.length - 1))
    rw [← order_sum hB hn hp, ← hp.length_eq] at hsum
    obtain ⟨i, hi, hki, rfl⟩ := drop_place (hp.mem_iff.1 hw)
    rw [order_top_at hB hn hi hw] at hm
    have hC2 : C.length ≤ 2 := by
      by_contra hgt
      have : 3 * (2 * L.length) ≤ C.length * (2 * L.length) := Nat.mul_le_mul_right _ (by omega)
      omega
    refine ⟨by omega, ?_⟩
    rw [e]
    suffices hil : i = L.length - 1 by subst hil; rfl
    by_contra hil
    have hk2 : rounds.length - 1 + 2 = L.length := by omega
    rw [order_sum hB hn hp, List.drop_eq_getElem_cons (show rounds.length - 1 < L.length by omega),
      List.drop_eq_getElem_cons (show rounds.length - 1 + 1 < L.length by omega), List.drop_eq_nil_of_le (by omega)] at hm
    simp only [List.map_cons, List.map_nil, List.sum_cons, List.sum_nil, hn.idxOf_getElem] at hm
    omega

theorem order_ok {B : Str → Ballot} {L : List Str} (hne : L ≠ []) (hw : ∀ x ∈ L, (B x).Ok) : PaperOk (orderPaper B L) := by
  constructor
  · intro l hl
    obtain ⟨x, hx, rfl⟩ := List.mem_map.1 hl
    exact ⟨hw x hx, fun t h => (by cases h)⟩
  · obtain ⟨x, hx⟩ := List.exists_mem_of_ne_nil _ hne
    exact ⟨_, _, none, List.mem_map.2 ⟨x, hx, rfl⟩⟩

theorem order_strict {B : Str → Ballot} (hB : Single B) (L : List Str) : PaperStrict (orderPaper B L) := by
  intro v hv x hx y hy hne
  rw [order_votes] at hv
  obtain ⟨z, _, rfl⟩ := List.mem_map.1 hv
  rw [hB.toks, List.mem_singleton] at hx hy
  exact absurd (hx.trans hy.symm) hne

theorem order_prints {B : Str → Ballot} (hB : Single B) {L : List Str} (hne : L ≠ []) (hn : L.Nodup) (hw : ∀ x ∈ L, WritableToken x)
    (hok : ∀ x ∈ L, (B x).Ok) (env : CliEnv) (file : Str) (hf : PlainWord file) (hh : Holds env file (paperText (orderPaper B L)))
    (hl : (paperText (orderPaper B L)).length < 4999999998) :
    ∃ doc, CommandPrints env (command c!"irvjson" [] file) doc ∧ member c!"winner" doc = some (texts [L.getLast hne]) ∧
      (∀ k, k = 0 ∨ k + 2 ≤ L.length → ∃ o, valueAt doc [.key c!"rounds", .idx k] = some o ∧ (keysOf o).Perm (L.drop k)) ∧
      ∀ k, 1 ≤ k → L.length < k + 2 → valueAt doc [.key c!"rounds", .idx k] = none := by
  have hnil : [] ∉ paperCands (orderPaper B L) := by
    rw [order_cands hB hn]
    intro h
    have hc : CleanToken [] := (hw _ h).1.2.2.2.1
    exact hc.1 rfl
  obtain ⟨doc, rounds, winners, g1, g2, g3, g4, g5⟩ := C103_irv env (orderPaper B L) file (order_ok hne hok) hl hf hh (order_strict hB L)
    (by rw [order_cands hB hn]; exact hne) hnil
  obtain ⟨r1, r2⟩ := order_run hB hn hne g2
  refine ⟨doc, g1, by rw [g3, r2], ?_, ?_⟩
  · intro k hk
    have hlt : k < rounds.length := by omega
    obtain ⟨o, o1, o2, _⟩ := g4 k _ (List.getElem?_eq_getElem hlt)
    exact ⟨o, o1, by rw [o2]; exact order_round hB hn g2 k _ (List.getElem?_eq_getElem hlt)⟩
  · intro k h1 h2
    exact g5 k (by omega)

theorem single_ranking : Single (fun x => ranking [x]) :=
  ⟨fun x => ranking_toks [x], fun x y h => by rw [above_ranking]; simp [comesBefore, Ne.symm h]⟩

/-- C130.  For every list of candidates there is an .abif file for which `-t irvjson` eliminates them one at a time in this order until two are
left, of whom the last one wins. -/
theorem C130_order (L : List Str) (hne : L ≠ []) (hn : L.Nodup) (hw : ∀ x ∈ L, WritableToken x) :
    ∃ text : Str, ∀ (env : CliEnv) (file : Str), PlainWord file → Holds env file text → text.length < 4999999998 →
      ∃ doc, CommandPrints env (command c!"irvjson" [] file) doc ∧ member c!"winner" doc = some (texts [L.getLast hne]) ∧
        (∀ k, k = 0 ∨ k + 2 ≤ L.length → ∃ o, valueAt doc [.key c!"rounds", .idx k] = some o ∧ (keysOf o).Perm (L.drop k)) ∧
        ∀ k, 1 ≤ k → L.length < k + 2 → valueAt doc [.key c!"rounds", .idx k] = none :=
  ⟨paperText (orderPaper (fun x => ranking [x]) L), fun env file hf hh hl => order_prints single_ranking hne hn hw
    (fun x hx => ranking_ok (by simp) (by simpa using hw x hx)) env file hf hh hl⟩

/-! ### the score winner is another matter -/

/-- two points for `w` on its ballots, one for the others on theirs -/
def pointed (w x : Str) : Ballot := .ranked [[{ tok := x, rating := some (if x = w then c!"2" else c!"1") }]]

theorem single_pointed (w : Str) : Single (pointed w) := by
  refine ⟨fun x => rfl, fun x y h => ?_⟩
  simp [pointed, Ballot.above, tierAbove, onTier, Ne.symm h]

theorem one_two : (isDigit '1' = true ∧ digitsVal c!"1" = 1) ∧ isDigit '2' = true ∧ digitsVal c!"2" = 2 := by
  have h1 := natStr_spec 1
  have h2 := natStr_spec 2
  rw [show natStr 1 = c!"1" by decide] at h1
  rw [show natStr 2 = c!"2" by decide] at h2
  exact ⟨⟨h1.2.1 _ (by simp), by exact_mod_cast h1.2.2⟩, h2.2.1 _ (by simp), by exact_mod_cast h2.2.2⟩

theorem pointed_ok {w x : Str} (h : WritableToken x) : (pointed w x).Ok := by
  obtain ⟨h1, h2⟩ := h
  have hd : ∀ c ∈ (if x = w then c!"2" else c!"1"), c = '2' ∨ c = '1' := by
    intro c hc
    split at hc <;> simp at hc <;> simp [hc]
  refine ⟨?_, by simp [pointed, Ballot.items], ?_, fun its h => (by cases h)⟩
  · intro it hit
    simp only [pointed, Ballot.items, List.flatten_cons, List.flatten_nil, List.append_nil, List.mem_singleton] at hit
    subst hit
    refine ⟨⟨h1.1, h1.2.1, ?_, h1.2.2.2.1, h1.2.2.2.2.1, fun h => (by cases h)⟩, ?_⟩
    · intro ds e
      cases e
      refine ⟨by split <;> simp, fun c hc => ?_⟩
      rcases hd c hc with rfl | rfl
      · exact one_two.2.1
      · exact one_two.1.1
    · intro c hc
      have hc' : c ∈ x ∨ c = '/' ∨ c ∈ (if x = w then c!"2" else c!"1") := by
        simpa [Item.text, Item.tokText, Item.ratingText] using hc
      rcases hc' with h | rfl | h
      · exact h2 c (by simpa [Item.text, Item.tokText, Item.ratingText] using h)
      · decide
      · rcases hd c h with rfl | rfl <;> decide
  · intro ts e t ht
    cases e
    rw [List.mem_singleton] at ht
    subst ht
    simp

theorem pointed_points (w x y : Str) : (pointed w y).points x = if y = x then (if x = w then 2 else 1) else 0 := by
  unfold Ballot.points pointed Ballot.items
  by_cases h : y = x
  · subst h
    by_cases hw : y = w
    · subst hw
      simp [Item.number, one_two.2.2]
    · simp [hw, Item.number, one_two.1.2]
  · simp [h]

theorem sum_single {f : Str → Int} {x : Str} : ∀ {l : List Str}, l.Nodup → x ∈ l → (l.map (fun y => if y = x then f y else 0)).sum = f x
  | [], _, h => (by cases h)
  | a :: l, hn, h => by
    rw [List.nodup_cons] at hn
    rw [List.map_cons, List.sum_cons]
    by_cases e : a = x
    · subst e
      have : (l.map (fun y => if y = a then f y else 0)).sum = 0 := by
        rw [show l.map (fun y => if y = a then f y else 0) = l.map (fun _ => 0) from
          List.map_congr_left (fun y hy => if_neg (fun (c : y = a) => hn.1 (c ▸ hy)))]
        simp
      rw [this, if_pos rfl]; omega
    · rw [if_neg e, sum_single hn.2 ((List.mem_cons.1 h).resolve_left (fun c => e c.symm))]; omega

theorem order_points {L : List Str} (hn : L.Nodup) (w : Str) {x : Str} (hx : x ∈ L) :
    paperPoints (orderPaper (pointed w) L) x = ((2 * L.length + L.idxOf x : Nat) : Int) * (if x = w then 2 else 1) := by
  unfold paperPoints
  rw [order_votes, List.map_map]
  have e : ((fun v : Nat × Ballot => (v.1 : Int) * v.2.points x) ∘ fun x => (2 * L.length + L.idxOf x, pointed w x)) =
      fun y => if y = x then ((2 * L.length + L.idxOf y : Nat) : Int) * (if x = w then 2 else 1) else 0 := by
    funext y
    show ((2 * L.length + L.idxOf y : Nat) : Int) * (pointed w y).points x = _
    rw [pointed_points]
    by_cases h : y = x <;> simp [h]
  rw [e]
  exact sum_single (f := fun y => ((2 * L.length + L.idxOf y : Nat) : Int) * (if x = w then 2 else 1)) hn hx

theorem order_name (B : Str → Ballot) (L : List Str) (x : Str) : paperName (orderPaper B L) x = x := by
  have : (orderPaper B L).filterMap PaperLine.naming = [] := by
    rw [List.filterMap_eq_nil_iff]
    intro l hl
    obtain ⟨y, _, rfl⟩ := List.mem_map.1 hl
    rfl
  unfold paperName
  rw [this]
  rfl

/-- C130, two methods.  For every elimination order and every candidate there is an .abif file for which `-t irvjson` eliminates the candidates in
this order and `-t text -m score` prints that candidate as the winner: the score winner may come anywhere in the instant runoff, even first to go. -/
theorem C130_score (L : List Str) (hne : L ≠ []) (hn : L.Nodup) (hw : ∀ x ∈ L, WritableToken x) (w : Str) (hwL : w ∈ L) :
    ∃ text : Str, ∀ (env : CliEnv) (file : Str), PlainWord file → Holds env file text → text.length < 4999999998 →
      (∃ doc, CommandPrints env (command c!"irvjson" [] file) doc ∧ member c!"winner" doc = some (texts [L.getLast hne]) ∧
        (∀ k, k = 0 ∨ k + 2 ≤ L.length → ∃ o, valueAt doc [.key c!"rounds", .idx k] = some o ∧ (keysOf o).Perm (L.drop k)) ∧
        ∀ k, 1 ≤ k → L.length < k + 2 → valueAt doc [.key c!"rounds", .idx k] = none) ∧
      ∃ lines, CommandWrites env (textCommand c!"score" file) (lines ++ (c!"Score Winner: " ++ w ++ c!"\n")) := by
  refine ⟨paperText (orderPaper (pointed w) L), fun env file hf hh hl => ⟨order_prints (single_pointed w) hne hn hw
    (fun x hx => pointed_ok (hw x hx)) env file hf hh hl, ?_⟩⟩
  have hc := order_cands (single_pointed w) hn
  obtain ⟨v, rest, g1, g2, _, g4⟩ := C103_text_score env (orderPaper (pointed w) L) file (order_ok hne (fun x hx => pointed_ok (hw x hx))) hf hh
    (by rw [hc]; exact hne)
  rw [hc] at g1
  rw [order_name] at g4
  have hv : v = w := by
    by_contra hvw
    have hvL : v ∈ L := g1.mem_iff.1 (by simp)
    have hwr : w ∈ rest := (List.mem_cons.1 (g1.mem_iff.2 hwL)).resolve_left (fun c => hvw c.symm)
    have := (List.pairwise_cons.1 g2).1 w hwr
    rw [order_points hn w hwL, order_points hn w hvL, if_pos rfl, if_neg hvw] at this
    have h1 := List.idxOf_lt_length_iff.2 hvL
    omega
  rw [hv] at g4
  exact ⟨_, g4⟩

end

section
attribute [local instance] Uni.ascii
set_option maxRecDepth 40000

/-- the hypotheses of `C130_order` are met, and this is the file -/
example : [c!"A", c!"B", c!"C"].Nodup ∧ (∀ x ∈ [c!"A", c!"B", c!"C"], WritableToken x) ∧
    paperText (orderPaper (fun x => ranking [x]) [c!"B", c!"A", c!"C"]) = c!"6:B\n7:A\n8:C\n" :=
  ⟨by decide +kernel, letters_writable, by decide +kernel⟩

/-- the hypotheses of `C130_score` are met with them, and this is the file that gives the first to go the most points -/
example : c!"B" ∈ [c!"B", c!"A", c!"C"] ∧
    paperText (orderPaper (pointed c!"B") [c!"B", c!"A", c!"C"]) = c!"6:B/2\n7:A/1\n8:C/1\n" := by decide +kernel
end

end Verif.Props
