/-
C129: whatever the duels of an election are to be, some file has them.
-/
import Verif.Props.Recount

set_option linter.unusedSimpArgs false
set_option linter.unusedSectionVars false

namespace Verif.Props
open Spec

section
variable [U : Uni]

/-- a ballot that ranks these candidates, the first one best -/
def ranking (l : List Str) : Ballot := .ranked (l.map (fun x => [({ tok := x } : Item)]))

/-- the token can be written without brackets or quotes -/
def WritableToken (x : Str) : Prop := ({ tok := x } : Item).Ok ∧ ∀ c ∈ ({ tok := x } : Item).text, isLineBreak c = false ∧ c ≠ '#'

/-- `x` comes before `y`, or `y` does not come at all -/
def comesBefore : List Str → Str → Str → Bool
  | [], _, _ => false
  | a :: l, x, y => if a = x then !decide (a = y) else if a = y then false else comesBefore l x y

theorem above_ranking (l : List Str) (x y : Str) : (ranking l).above x y = comesBefore l x y := by
  show tierAbove (l.map (fun x => [({ tok := x } : Item)])) x y = _
  induction l with
  | nil => rfl
  | cons a l ih =>
    rw [List.map_cons, tierAbove, comesBefore, ih]
    by_cases h1 : a = x <;> by_cases h2 : a = y <;> simp [onTier, h1, h2]

theorem before_skip {u v : List Str} {x y : Str} (hx : x ∉ u) (hy : y ∉ u) : comesBefore (u ++ v) x y = comesBefore v x y := by
  induction u with
  | nil => rfl
  | cons a u ih =>
    rw [List.mem_cons, not_or] at hx hy
    rw [List.cons_append, comesBefore, if_neg (fun h => hx.1 h.symm), if_neg (fun h => hy.1 h.symm), ih hx.2 hy.2]

theorem before_left {u v : List Str} {x y : Str} (hx : x ∈ u) (hy : y ∉ u) : comesBefore (u ++ v) x y = true := by
  induction u with
  | nil => cases hx
  | cons a u ih =>
    rw [List.mem_cons, not_or] at hy
    rw [List.cons_append, comesBefore]
    by_cases e : a = x
    · rw [if_pos e]
      rw [decide_eq_false (fun h : a = y => hy.1 h.symm)]; rfl
    · rw [if_neg e, if_neg (fun h => hy.1 h.symm), ih ((List.mem_cons.1 hx).resolve_left (fun h => e h.symm)) hy.2]

theorem before_right {u v : List Str} {x y : Str} (hx : x ∉ u) (hy : y ∈ u) : comesBefore (u ++ v) x y = false := by
  induction u with
  | nil => cases hy
  | cons a u ih =>
    rw [List.mem_cons, not_or] at hx
    rw [List.cons_append, comesBefore, if_neg (fun h => hx.1 h.symm)]
    by_cases e : a = y
    · rw [if_pos e]
    · rw [if_neg e, ih hx.2 ((List.mem_cons.1 hy).resolve_left (fun h => e h.symm))]

theorem before_both {u v : List Str} {x y : Str} (hx : x ∈ u) (hy : y ∈ u) : comesBefore (u ++ v) x y = comesBefore u x y := by
  induction u with
  | nil => cases hx
  | cons a u ih =>
    rw [List.cons_append, comesBefore, comesBefore]
    by_cases e1 : a = x
    · rw [if_pos e1, if_pos e1]
    · rw [if_neg e1, if_neg e1]
      by_cases e2 : a = y
      · rw [if_pos e2, if_pos e2]
      · rw [if_neg e2, if_neg e2, ih ((List.mem_cons.1 hx).resolve_left (fun h => e1 h.symm)) ((List.mem_cons.1 hy).resolve_left (fun h => e2 h.symm))]

/-- a ranking and the same upside down cancel -/
theorem before_reverse {l : List Str} (hn : l.Nodup) {x y : Str} (hx : x ∈ l) (hy : y ∈ l) (hne : x ≠ y) :
    comesBefore l.reverse x y = !comesBefore l x y := by
  induction l with
  | nil => cases hx
  | cons a l ih =>
    rw [List.nodup_cons] at hn
    rw [List.reverse_cons, comesBefore]
    by_cases e1 : a = x
    · have e2 : a ≠ y := fun h => hne (e1.symm.trans h)
      rw [if_pos e1, before_right (fun h => hn.1 (e1 ▸ List.mem_reverse.1 h)) (List.mem_reverse.2 ((List.mem_cons.1 hy).resolve_left (fun h => e2 h.symm)))]
      simp [e2]
    · have hx' := (List.mem_cons.1 hx).resolve_left (fun h => e1 h.symm)
      rw [if_neg e1]
      by_cases e2 : a = y
      · rw [if_pos e2, before_left (List.mem_reverse.2 hx') (fun h => hn.1 (e2 ▸ List.mem_reverse.1 h))]; rfl
      · have hy' := (List.mem_cons.1 hy).resolve_left (fun h => e2 h.symm)
        rw [if_neg e2, before_both (List.mem_reverse.2 hx') (List.mem_reverse.2 hy'), ih hn.2 hx' hy']

/-- the other candidates -/
def othersOf (L : List Str) (e : Str × Str) : List Str := L.filter (fun x => decide (x ≠ e.1) && decide (x ≠ e.2))

/-- two rankings that differ from a tie of everybody with everybody in that the first of the pair beats the second -/
def duelRankings (L : List Str) (e : Str × Str) : List (List Str) :=
  [e.1 :: e.2 :: othersOf L e, (othersOf L e).reverse ++ [e.1, e.2]]

theorem mem_others {L : List Str} {e : Str × Str} {x : Str} : x ∈ othersOf L e ↔ x ∈ L ∧ x ≠ e.1 ∧ x ≠ e.2 := by
  unfold othersOf; rw [List.mem_filter]; simp

theorem duelRankings_count {L : List Str} (hn : L.Nodup) {e : Str × Str} (he : e.1 ≠ e.2) {x y : Str} (hx : x ∈ L) (hy : y ∈ L) (hne : x ≠ y) :
    (duelRankings L e).countP (fun l => comesBefore l x y) + (if e = (y, x) then 1 else 0) = 1 + if e = (x, y) then 1 else 0 := by
  obtain ⟨a, b⟩ := e
  have he : a ≠ b := he
  have hall : ∀ z ∈ L, z = a ∨ z = b ∨ z ∈ othersOf L (a, b) := by
    intro z hz
    by_cases h1 : z = a
    · exact .inl h1
    by_cases h2 : z = b
    · exact .inr (.inl h2)
    exact .inr (.inr (mem_others.2 ⟨hz, h1, h2⟩))
  have ha : a ∉ othersOf L (a, b) := fun h => (mem_others.1 h).2.1 rfl
  have hb : b ∉ othersOf L (a, b) := fun h => (mem_others.1 h).2.2 rfl
  have hnr : (othersOf L (a, b)).Nodup := hn.filter _
  unfold duelRankings
  simp only [List.countP_cons, List.countP_nil, Nat.zero_add]
  generalize othersOf L (a, b) = R at hall ha hb hnr
  have c1 : ∀ z w, comesBefore (a :: b :: R) z w = comesBefore ([a, b] ++ R) z w := fun _ _ => rfl
  have har : a ∉ R.reverse := fun h => ha (List.mem_reverse.1 h)
  have hbr : b ∉ R.reverse := fun h => hb (List.mem_reverse.1 h)
  rcases hall x hx with rfl | rfl | hxr
  · rcases hall y hy with rfl | rfl | hyr
    · exact absurd rfl hne
    · rw [before_skip har hbr]
      simp [comesBefore, he, he.symm]
    · have hyb : b ≠ y := fun h => hb (h ▸ hyr)
      rw [before_right har (List.mem_reverse.2 hyr)]
      simp [comesBefore, hne, hyb, hne.symm]
  · rcases hall y hy with rfl | rfl | hyr
    · rw [before_skip hbr har]
      simp [comesBefore, he, he.symm]
    · exact absurd rfl hne
    · have hya : a ≠ y := fun h => ha (h ▸ hyr)
      rw [before_right hbr (List.mem_reverse.2 hyr)]
      simp [comesBefore, hne, hya, he, hne.symm]
  · have hxa : a ≠ x := fun h => ha (h ▸ hxr)
    have hxb : b ≠ x := fun h => hb (h ▸ hxr)
    rcases hall y hy with rfl | rfl | hyr
    · rw [before_left (List.mem_reverse.2 hxr) har]
      simp [comesBefore, hxa, hxb, hne]
    · rw [before_left (List.mem_reverse.2 hxr) hbr]
      simp [comesBefore, hxa, hxb, he, hne]
    · have hya : a ≠ y := fun h => ha (h ▸ hyr)
      have hyb : b ≠ y := fun h => hb (h ▸ hyr)
      rw [c1, before_skip (u := [a, b]) (v := R) (by simp [Ne.symm hxa, Ne.symm hxb]) (by simp [Ne.symm hya, Ne.symm hyb]), before_both (List.mem_reverse.2 hxr) (List.mem_reverse.2 hyr),
        before_reverse hnr hxr hyr hne]
      cases comesBefore R x y <;> simp [hxa, hya]

/-- everybody, everybody upside down, and two rankings for each of the pairs -/
def duelPaper (L : List Str) (E : List (Str × Str)) : List PaperLine :=
  (L :: L.reverse :: E.flatMap (duelRankings L)).map (fun l => .ballots 1 (ranking l) none)

theorem paperVotes_rankings (ls : List (List Str)) :
    paperVotes (ls.map (fun l => PaperLine.ballots 1 (ranking l) none)) = ls.map (fun l => (1, ranking l)) := by
  unfold paperVotes
  induction ls with
  | nil => rfl
  | cons l ls ih => rw [List.map_cons, List.filterMap_cons, ih]; rfl

theorem paperSum_rankings (ls : List (List Str)) (f : Ballot → Bool) :
    paperSum (ls.map (fun l => PaperLine.ballots 1 (ranking l) none)) f = ls.countP (fun l => f (ranking l)) := by
  unfold paperSum
  rw [paperVotes_rankings]
  induction ls with
  | nil => rfl
  | cons l ls ih =>
    rw [List.map_cons, List.countP_cons, ← ih]
    by_cases h : f (ranking l) = true
    · rw [List.filter_cons_of_pos (p := fun v : Nat × Ballot => f v.2) h, if_pos h, List.map_cons, List.sum_cons, Nat.add_comm]
    · rw [List.filter_cons_of_neg (p := fun v : Nat × Ballot => f v.2) h, if_neg h]; rfl

/-- the head-to-head counts of the paper -/
theorem duelPaper_prefers {L : List Str} (hn : L.Nodup) {E : List (Str × Str)} (hE : ∀ e ∈ E, e.1 ≠ e.2) {x y : Str} (hx : x ∈ L) (hy : y ∈ L)
    (hne : x ≠ y) : paperPrefers (duelPaper L E) x y + E.count (y, x) = 1 + E.length + E.count (x, y) := by
  unfold paperPrefers duelPaper
  rw [paperSum_rankings]
  simp only [above_ranking]
  rw [List.countP_cons, List.countP_cons, before_reverse hn hx hy hne]
  have key : (E.flatMap (duelRankings L)).countP (fun l => comesBefore l x y) + E.count (y, x) = E.length + E.count (x, y) := by
    induction E with
    | nil => rfl
    | cons e E ih =>
      have h1 := ih (fun e he => hE e (List.mem_cons_of_mem _ he))
      have h2 := duelRankings_count hn (hE e (by simp)) hx hy hne
      rw [List.flatMap_cons, List.countP_append, List.count_cons, List.count_cons, List.length_cons]
      simp only [beq_iff_eq]
      omega
  cases comesBefore L x y <;> simp <;> omega

theorem ranking_toks (l : List Str) : (ranking l).items.map Item.tok = l := by
  show (l.map (fun x => [({ tok := x } : Item)])).flatten.map Item.tok = l
  induction l with
  | nil => rfl
  | cons a l ih => rw [List.map_cons, List.flatten_cons, List.map_append, ih]; rfl

theorem ranking_ok {l : List Str} (hn : l.Nodup) (hw : ∀ x ∈ l, WritableToken x) : (ranking l).Ok := by
  refine ⟨?_, by rw [ranking_toks]; exact hn, ?_, fun its h => (by cases h)⟩
  · intro it hit
    have : ∃ x ∈ l, it = { tok := x } := by
      obtain ⟨t, ht, hi⟩ := List.mem_flatten.1 (show it ∈ (l.map (fun x => [({ tok := x } : Item)])).flatten from hit)
      obtain ⟨x, hx, rfl⟩ := List.mem_map.1 ht
      exact ⟨x, hx, List.mem_singleton.1 hi⟩
    obtain ⟨x, hx, rfl⟩ := this
    exact hw x hx
  · intro ts h t ht
    cases h
    obtain ⟨x, _, rfl⟩ := List.mem_map.1 ht
    exact fun h => by cases h

theorem rankings_of {L : List Str} (hn : L.Nodup) {E : List (Str × Str)} (hE : ∀ e ∈ E, e.1 ∈ L ∧ e.2 ∈ L ∧ e.1 ≠ e.2) :
    ∀ l ∈ L :: L.reverse :: E.flatMap (duelRankings L), l.Nodup ∧ ∀ x ∈ l, x ∈ L := by
  intro l hl
  rcases List.mem_cons.1 hl with rfl | hl
  · exact ⟨hn, fun _ h => h⟩
  rcases List.mem_cons.1 hl with rfl | hl
  · exact ⟨List.nodup_reverse.2 hn, fun _ h => List.mem_reverse.1 h⟩
  obtain ⟨e, he, hl⟩ := List.mem_flatMap.1 hl
  obtain ⟨h1, h2, h3⟩ := hE e he
  have hR : (othersOf L e).Nodup := hn.filter _
  have ha : e.1 ∉ othersOf L e := fun h => (mem_others.1 h).2.1 rfl
  have hb : e.2 ∉ othersOf L e := fun h => (mem_others.1 h).2.2 rfl
  have hsub : ∀ x ∈ othersOf L e, x ∈ L := fun x h => (mem_others.1 h).1
  unfold duelRankings at hl
  rcases List.mem_cons.1 hl with rfl | hl
  · refine ⟨by simp [h3, ha, hb, hR], ?_⟩
    intro x hx
    rcases List.mem_cons.1 hx with rfl | hx
    · exact h1
    rcases List.mem_cons.1 hx with rfl | hx
    · exact h2
    exact hsub x hx
  · rw [List.mem_singleton] at hl
    subst hl
    refine ⟨?_, ?_⟩
    · rw [List.nodup_append]
      refine ⟨List.nodup_reverse.2 hR, by simp [h3], ?_⟩
      intro u hu v hv huv
      subst huv
      simp only [List.mem_cons, List.not_mem_nil, or_false] at hv
      rcases hv with rfl | rfl
      · exact ha (List.mem_reverse.1 hu)
      · exact hb (List.mem_reverse.1 hu)
    · intro x hx
      rcases List.mem_append.1 hx with hx | hx
      · exact hsub x (List.mem_reverse.1 hx)
      · simp only [List.mem_cons, List.not_mem_nil, or_false] at hx
        rcases hx with rfl | rfl <;> assumption

theorem duelPaper_ok {L : List Str} (hn : L.Nodup) (hw : ∀ x ∈ L, WritableToken x) {E : List (Str × Str)}
    (hE : ∀ e ∈ E, e.1 ∈ L ∧ e.2 ∈ L ∧ e.1 ≠ e.2) : PaperOk (duelPaper L E) := by
  refine ⟨?_, 1, ranking L, none, List.mem_map.2 ⟨L, by simp, rfl⟩⟩
  intro pl hpl
  obtain ⟨l, hl, rfl⟩ := List.mem_map.1 hpl
  obtain ⟨h1, h2⟩ := rankings_of hn hE l hl
  exact ⟨ranking_ok h1 (fun x hx => hw x (h2 x hx)), fun t h => (by cases h)⟩

theorem duelPaper_cands {L : List Str} (hn : L.Nodup) {E : List (Str × Str)} (hE : ∀ e ∈ E, e.1 ∈ L ∧ e.2 ∈ L ∧ e.1 ≠ e.2) :
    (paperCands (duelPaper L E)).Perm L := by
  refine (List.perm_ext_iff_of_nodup (nodup_paperCands _) hn).2 (fun x => ?_)
  unfold paperCands
  rw [mem_firsts, List.mem_flatMap]
  constructor
  · rintro ⟨pl, hpl, hx⟩
    obtain ⟨l, hl, rfl⟩ := List.mem_map.1 hpl
    rw [show PaperLine.mentions (.ballots 1 (ranking l) none) = l from ranking_toks l] at hx
    exact (rankings_of hn hE l hl).2 x hx
  · intro hx
    exact ⟨.ballots 1 (ranking L) none, List.mem_map.2 ⟨L, by simp, rfl⟩, by
      rw [show PaperLine.mentions (.ballots 1 (ranking L) none) = L from ranking_toks L]; exact hx⟩

/-- C129, margins.  For candidates `L` whose tokens can be written and any list `E` of pairs of different candidates there is a file whose
candidates are `L` and for which `-t paircountjson` prints, for every `x` and `y`, a number that exceeds the one for `y` and `x` by twice the
number of times `(x, y)` is in `E`, less twice the number of times `(y, x)` is. -/
theorem C129_margins (L : List Str) (hn : L.Nodup) (hw : ∀ x ∈ L, WritableToken x) (E : List (Str × Str))
    (hE : ∀ e ∈ E, e.1 ∈ L ∧ e.2 ∈ L ∧ e.1 ≠ e.2) :
    ∃ text : Str, ∀ (env : CliEnv) (file : Str), PlainWord file → Holds env file text → text.length < 2 ^ 61 →
      ∃ doc, CommandPrints env (command c!"paircountjson" [] file) doc ∧ (keysOf doc).Perm L ∧
        ∀ x ∈ L, ∀ y ∈ L, x ≠ y → ∃ a b : Int, valueAt doc [.key x, .key y] = some (.int a) ∧ valueAt doc [.key y, .key x] = some (.int b) ∧
          a - b = 2 * E.count (x, y) - 2 * E.count (y, x) := by
  refine ⟨paperText (duelPaper L E), ?_⟩
  intro env file hf hh hl
  obtain ⟨doc, g1, g2, g3⟩ := C103_pairs env (duelPaper L E) file (duelPaper_ok hn hw hE) hl hf hh
  have hc := duelPaper_cands hn hE
  refine ⟨doc, g1, by rw [g2]; exact hc, ?_⟩
  intro x hx y hy hne
  refine ⟨paperPrefers (duelPaper L E) x y, paperPrefers (duelPaper L E) y x, ?_, ?_, ?_⟩
  · rw [g3 x (hc.mem_iff.2 hx) y (hc.mem_iff.2 hy), if_neg hne]
  · rw [g3 y (hc.mem_iff.2 hy) x (hc.mem_iff.2 hx), if_neg (fun h => hne h.symm)]
  · have h1 := duelPaper_prefers hn (fun e he => (hE e he).2.2) hx hy hne
    have h2 := duelPaper_prefers hn (fun e he => (hE e he).2.2) hy hx (fun h => hne h.symm)
    omega

/-- C129, duels.  For candidates `L` whose tokens can be written and any relation `beats` in which no two candidates beat each other there is a
file whose candidates are `L` and for which `-t winlosstiejson` prints that every candidate wins, loses and ties (counted twice, see
C90) exactly the duels it does in `beats`. -/
theorem C129_duels (L : List Str) (hn : L.Nodup) (hw : ∀ x ∈ L, WritableToken x) (beats : Str → Str → Bool)
    (hb : ∀ x ∈ L, ∀ y ∈ L, beats x y = true → beats y x = false) :
    ∃ text : Str, ∀ (env : CliEnv) (file : Str), PlainWord file → Holds env file text → text.length < 2 ^ 61 →
      ∃ doc, CommandPrints env (command c!"winlosstiejson" [] file) doc ∧ (keysOf doc).Perm L ∧
        ∀ x ∈ L, member x doc = some (.obj [(c!"wins", .int ((L.filter (fun y => beats x y)).length : Nat)),
          (c!"losses", .int ((L.filter (fun y => beats y x)).length : Nat)),
          (c!"ties", .int (2 * ((L.filter (fun y => decide (y ≠ x) && (!beats x y && !beats y x))).length : Nat)))]) := by
  let E : List (Str × Str) := L.flatMap (fun x => (L.filter (fun y => beats x y)).map (fun y => (x, y)))
  have hirr : ∀ x ∈ L, beats x x = false := by
    intro x hx
    cases h : beats x x with
    | false => rfl
    | true => have := hb x hx x hx h; rw [h] at this; cases this
  have hmem : ∀ x y, (x, y) ∈ E ↔ x ∈ L ∧ y ∈ L ∧ beats x y = true := by
    intro x y
    show (x, y) ∈ L.flatMap _ ↔ _
    rw [List.mem_flatMap]
    constructor
    · rintro ⟨z, hz, h⟩
      obtain ⟨w, hw', e⟩ := List.mem_map.1 h
      cases e
      obtain ⟨h1, h2⟩ := List.mem_filter.1 hw'
      exact ⟨hz, h1, h2⟩
    · rintro ⟨h1, h2, h3⟩
      exact ⟨x, h1, List.mem_map.2 ⟨y, List.mem_filter.2 ⟨h2, h3⟩, rfl⟩⟩
  have hE : ∀ e ∈ E, e.1 ∈ L ∧ e.2 ∈ L ∧ e.1 ≠ e.2 := by
    rintro ⟨x, y⟩ he
    obtain ⟨h1, h2, h3⟩ := (hmem x y).1 he
    refine ⟨h1, h2, ?_⟩
    intro e
    rw [← show x = y from e, hirr x h1] at h3
    cases h3
  have hzero : ∀ x y, x ∈ L → y ∈ L → (0 < E.count (x, y) ↔ beats x y = true) := by
    intro x y hx hy
    rw [List.count_pos_iff, hmem]
    simp [hx, hy]
  refine ⟨paperText (duelPaper L E), ?_⟩
  intro env file hf hh hl
  obtain ⟨doc, g1, g2, _, g4⟩ := C103_duels env (duelPaper L E) file (duelPaper_ok hn hw hE) hl hf hh
  have hc := duelPaper_cands hn hE
  refine ⟨doc, g1, g2.trans hc, ?_⟩
  intro x hx
  have hlt : ∀ z ∈ L, ∀ y ∈ L, z ≠ y → (paperPrefers (duelPaper L E) y z < paperPrefers (duelPaper L E) z y ↔ beats z y = true) := by
    intro z hz y hy hne
    have h1 := duelPaper_prefers hn (fun e he => (hE e he).2.2) hz hy hne
    have h2 := duelPaper_prefers hn (fun e he => (hE e he).2.2) hy hz (fun h => hne h.symm)
    have h3 := hzero z y hz hy
    have h4 := hzero y z hy hz
    constructor
    · intro h
      apply h3.1
      omega
    · intro h
      have h5 := hb z hz y hy h
      have h6 : E.count (y, z) = 0 := by
        rcases Nat.eq_zero_or_pos (E.count (y, z)) with h | h
        · exact h
        · rw [h4.1 h] at h5; cases h5
      have := h3.2 h
      omega
  have against : ∀ (r : Nat → Nat → Bool) (s : Str → Bool), (∀ y ∈ L, y ≠ x → r (paperPrefers (duelPaper L E) x y) (paperPrefers (duelPaper L E) y x) = s y) →
      paperAgainst (duelPaper L E) x r = (L.filter (fun y => decide (y ≠ x) && s y)).length := by
    intro r s h
    unfold paperAgainst
    rw [(hc.filter _).length_eq]
    refine congrArg List.length (List.filter_congr (fun y hy => ?_))
    by_cases e : y = x
    · simp [e]
    · rw [h y hy e]
  have drop : ∀ s : Str → Bool, s x = false → L.filter (fun y => decide (y ≠ x) && s y) = L.filter s := by
    intro s h
    refine List.filter_congr (fun y _ => ?_)
    by_cases e : y = x
    · simp [e, h]
    · simp [e]
  rw [g4 x (hc.mem_iff.2 hx), against (fun a b => decide (b < a)) (fun y => beats x y) (fun y hy hne => by
      rw [Bool.eq_iff_iff, decide_eq_true_iff]; exact hlt x hx y hy (fun h => hne h.symm)),
    against (fun a b => decide (a < b)) (fun y => beats y x) (fun y hy hne => by
      rw [Bool.eq_iff_iff, decide_eq_true_iff]; exact hlt y hy x hx hne),
    against (fun a b => decide (a = b)) (fun y => !beats x y && !beats y x) (fun y hy hne => by
      have h1 := hlt x hx y hy (fun h => hne h.symm)
      have h2 := hlt y hy x hx hne
      rw [Bool.eq_iff_iff, decide_eq_true_iff, Bool.and_eq_true, Bool.not_eq_true', Bool.not_eq_true', ← Bool.not_eq_true, ← Bool.not_eq_true, ← h1, ← h2]
      omega),
    drop (fun y => beats x y) (hirr x hx), drop (fun y => beats y x) (hirr x hx)]

end

section
attribute [local instance] Uni.ascii
set_option maxRecDepth 40000

/-- letters can be written -/
theorem letters_writable : ∀ x ∈ [c!"A", c!"B", c!"C"], WritableToken x := by
  have clean : CleanToken c!"A" ∧ CleanToken c!"B" ∧ CleanToken c!"C" := by unfold CleanToken; decide +kernel
  have noslash : ∀ x : Char, x ≠ '/' → ¬ ∃ t ds, [x] = t ++ '/' :: ds ∧ ds ≠ [] ∧ ∀ c ∈ ds, isDigit c = true := by
    rintro x hx ⟨t, ds, e, hne, _⟩
    cases t with
    | nil => exact hx (List.cons.inj e).1
    | cons a t => have := congrArg List.length e; simp at this
  intro x hx
  simp only [List.mem_cons, List.not_mem_nil, or_false] at hx
  rcases hx with rfl | rfl | rfl
  · exact ⟨⟨by decide +kernel, by decide +kernel, fun ds h => (by cases h), clean.1, by decide +kernel, fun _ => noslash 'A' (by decide)⟩, by decide +kernel⟩
  · exact ⟨⟨by decide +kernel, by decide +kernel, fun ds h => (by cases h), clean.2.1, by decide +kernel, fun _ => noslash 'B' (by decide)⟩, by decide +kernel⟩
  · exact ⟨⟨by decide +kernel, by decide +kernel, fun ds h => (by cases h), clean.2.2, by decide +kernel, fun _ => noslash 'C' (by decide)⟩, by decide +kernel⟩

/-- three candidates in a circle: the file has eight ballots, and every duel is won by five to three -/
example : paperText (duelPaper [c!"A", c!"B", c!"C"] [(c!"A", c!"B"), (c!"B", c!"C"), (c!"C", c!"A")]) =
      c!"1:A>B>C\n1:C>B>A\n1:A>B>C\n1:C>A>B\n1:B>C>A\n1:A>B>C\n1:C>A>B\n1:B>C>A\n" ∧
    paperPrefers (duelPaper [c!"A", c!"B", c!"C"] [(c!"A", c!"B"), (c!"B", c!"C"), (c!"C", c!"A")]) c!"C" c!"A" = 5 := by decide +kernel
end

end Verif.Props
