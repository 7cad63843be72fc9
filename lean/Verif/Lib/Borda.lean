/-
Helper lemmas: the ranks of a written ballot, and counting points.
-/
import Verif.Spec.Borda
import Verif.Lib.Paper
import Mathlib.Data.List.Nodup

set_option linter.unusedSimpArgs false
set_option linter.unusedSectionVars false

namespace Verif
open Spec

section
variable [U : Uni]

/-- the ranks the program gives to the candidates of a ranked ballot -/
theorem parse_ballot_rank {tiers : List (List Item)} (h : (Ballot.ranked tiers).Ok) {prefs : Dict Str Pref} {cands : List Str}
    (hp : parsePrefstr (Ballot.ranked tiers).text = .ok (prefs, cands)) (vl : Voteline) (hvl : vl.prefs = prefs) (z : Str) :
    rankOf vl z = tierRankAt tiers 0 z := by
  by_cases hne : tiers = []
  · subst hne
    obtain ⟨prefs', _, h1, h2, _⟩ := parsePrefstr_tiers (tiers := []) (post := []) (by simp) (by simp) (by simp) (by simp)
    have hp' : prefs' = [] := by
      have : prefs'.map (fun kp => (kp.1, kp.2.rank)) = [] := h2
      simpa using this
    have e := hp.symm.trans h1
    have e := (Prod.mk.inj (Except.ok.inj e)).1
    unfold rankOf
    rw [hvl, e, hp']
    rfl
  · have ht : ∀ t ∈ tiers, t ≠ [] := h.tiers _ rfl
    have ht' : ∀ t ∈ tierToks tiers, t ≠ [] := by
      intro t hm
      obtain ⟨u, hu, rfl⟩ := List.mem_map.1 hm
      simpa using ht u hu
    have hlen := tierDelims_length (tiers := tierToks tiers) (by simpa [tierToks] using hne) ht'
    rw [tierToks_flatten, List.length_map] at hlen
    have hd : ∀ d ∈ tierDelims (tierToks tiers), d = '>' ∨ d = '=' ∨ d = ',' := fun d hd => by
      rcases tierDelims_mem d hd with h | h
      · exact .inl h
      · exact .inr (.inl h)
    have hnd : (tiers.flatten.map Item.tok).Nodup := h.nodup
    have hq := parsePrefstr_items (its := tiers.flatten) (ds := tierDelims (tierToks tiers)) (fun it hit => (h.items it hit).1) hd hlen hnd
    rw [writeItems_ranked hne ht] at hq
    have e := hp.symm.trans hq
    have e := (Prod.mk.inj (Except.ok.inj e)).1
    have hr : ranksOf vl = tierRanks (tierToks tiers) := by
      unfold ranksOf
      rw [hvl, e, List.map_map]
      have := tier_ranks (tiers := tierToks tiers) ht' [] 0
      unfold tierRanks
      rw [← this]
      have hh : (tierDelims (tierToks tiers)).head? ≠ some ',' := by
        intro hh
        rcases tierDelims_mem _ (List.mem_of_head? hh) with h | h <;> exact absurd h (by decide)
      have e1 : (tokItems [] (tierToks tiers).flatten).zipIdx.map (fun x => (x.1.tok, some (1 + ((0 : Nat) : Int) + (((tierDelims (tierToks tiers)).take x.2).count '>' : Nat)))) =
          (tierToks tiers).flatten.zipIdx.map (fun x => (x.1, some (1 + ((0 : Nat) : Int) + (((tierDelims (tierToks tiers)).take x.2).count '>' : Nat)))) := by
        conv => rhs; rw [← tokItems_tok [] (tierToks tiers).flatten]
        rw [List.zipIdx_map, List.map_map]
        rfl
      rw [e1, tierToks_flatten, List.zipIdx_map, List.map_map]
      apply List.map_congr_left
      rintro ⟨it, j⟩ hx
      simp [itemEntry, itemRank, hh]
    rw [rankOf_ranks, hr]
    exact get?_tierRanks tiers 0 z

/-- the voteline has the ranks of the ranked ballot -/
def HoldsRanks (v : Nat × Ballot) (vl : Voteline) : Prop := ∀ tiers, v.2 = .ranked tiers → ∀ z, rankOf vl z = tierRankAt tiers 0 z

theorem says_ranks {p : List PaperLine} (h : ∀ l ∈ p, l.Ok) (cw : Bool) {vls : List Voteline}
    (f : List.Forall₂ SaysBallot ((p.map (seenLine cw)).filterMap Spec.lineVote) vls) : List.Forall₂ HoldsRanks (paperVotes p) vls := by
  induction p generalizing vls with
  | nil => cases f; exact .nil
  | cons l p ih =>
    have hl := h l (by simp)
    have hp : ∀ l ∈ p, l.Ok := fun l hl => h l (by simp [hl])
    rw [List.map_cons, List.filterMap_cons] at f
    cases l with
    | cand tok name =>
      have : Spec.lineVote (seenLine cw (.cand tok name)) = none := by unfold Spec.lineVote; rw [(seen_cand hl).2]; rfl
      rw [this] at f
      exact ih hp f
    | note t =>
      have : Spec.lineVote (seenLine cw (.note t)) = none := by unfold Spec.lineVote; rw [(seen_note hl).2]; rfl
      rw [this] at f
      exact ih hp f
    | ballots n b com =>
      have : Spec.lineVote (seenLine cw (.ballots n b com)) = some (natStr n, b.text, hashComment (seenLine cw (.ballots n b com))) := by
        unfold Spec.lineVote; rw [seen_ballots hl]; rfl
      rw [this] at f
      simp only at f
      cases f with
      | cons g1 g2 =>
        refine .cons ?_ (ih hp g2)
        obtain ⟨_, ⟨cs, s2⟩, _⟩ := g1
        rintro tiers rfl z
        exact parse_ballot_rank hl.1 s2 _ rfl z

/-- what is read of a paper, with the ranks -/
theorem convertAbif_ranks {p : List PaperLine} (h : PaperOk p) {cw : Bool} {m : Jabmod} (hm : convertAbif cw false false (paperText p) = .ok m) :
    ∃ vls, List.Forall₂ (fun v vl => HoldsBallots v vl ∧ HoldsRanks v vl) (paperVotes p) vls ∧ m.votelines.Perm vls := by
  obtain ⟨vls, f1, _, f2, _⟩ := convertAbif_ok hm
  unfold votesOf at f1
  rw [textLines_paper h.1 cw] at f1
  refine ⟨vls, ?_, (f2 ▸ stableSorted vls).1⟩
  have a := says_paper h.1 cw f1
  have b := says_ranks h.1 cw f1
  clear f1 f2 hm
  have both : ∀ (votes : List (Nat × Ballot)) (vls : List Voteline), List.Forall₂ HoldsBallots votes vls → List.Forall₂ HoldsRanks votes vls →
      List.Forall₂ (fun v vl => HoldsBallots v vl ∧ HoldsRanks v vl) votes vls := by
    intro votes vls a
    induction a with
    | nil => exact fun _ => .nil
    | cons g _ ih => intro b; cases b with | cons g' b => exact .cons ⟨g, g'⟩ (ih b)
  exact both _ _ a b

/-! ### points -/

theorem onTier_iff {t : List Item} {x : Str} : onTier t x = true ↔ x ∈ t.map Item.tok := by
  unfold onTier
  simp [List.any_eq_true]

theorem tierRankAt_above (tiers : List (List Item)) (k : Nat) (x : Str) :
    tierRankAt tiers k x = if x ∈ tiers.flatten.map Item.tok then some ((k : Int) + 1 + tiersAbove tiers x) else none := by
  induction tiers generalizing k with
  | nil => rfl
  | cons t ts ih =>
    unfold tierRankAt tiersAbove
    have hm : x ∈ (t :: ts).flatten.map Item.tok ↔ onTier t x = true ∨ x ∈ ts.flatten.map Item.tok := by
      rw [List.flatten_cons, List.map_append, List.mem_append, ← onTier_iff]
    by_cases hx : onTier t x = true
    · rw [if_pos hx, if_pos hx, if_pos (hm.2 (.inl hx))]
      simp
    · rw [if_neg hx, if_neg hx, ih]
      by_cases h2 : x ∈ ts.flatten.map Item.tok
      · rw [if_pos h2, if_pos (hm.2 (.inr h2))]
        congr 1; push_cast; omega
      · rw [if_neg h2, if_neg (fun h => (hm.1 h).elim hx h2)]

/-- on a ballot without ties: those who are not below a candidate are the candidate and one on each tier above -/
theorem not_below {tiers : List (List Item)} (hne : ∀ t ∈ tiers, t ≠ []) (hnd : (tiers.flatten.map Item.tok).Nodup)
    (hs : ∀ x ∈ tiers.flatten.map Item.tok, ∀ y ∈ tiers.flatten.map Item.tok, x ≠ y → tierAbove tiers x y = true ∨ tierAbove tiers y x = true)
    {x : Str} (hx : x ∈ tiers.flatten.map Item.tok) {C : List Str} (hC : C.Nodup) (hsub : ∀ y ∈ tiers.flatten.map Item.tok, y ∈ C) :
    C.countP (fun y => !tierAbove tiers x y) = tiersAbove tiers x + 1 := by
  induction tiers generalizing C with
  | nil => cases hx
  | cons t ts ih =>
    rw [List.flatten_cons, List.map_append] at hnd hx hsub hs
    rw [List.nodup_append] at hnd
    obtain ⟨n1, n2, n3⟩ := hnd
    -- the first tier has one candidate
    obtain ⟨it, rfl⟩ : ∃ it, t = [it] := by
      cases t with
      | nil => exact absurd rfl (hne [] (by simp))
      | cons a r =>
        cases r with
        | nil => exact ⟨a, rfl⟩
        | cons b r =>
          exfalso
          have hab : a.tok ≠ b.tok := by
            rw [List.map_cons, List.map_cons, List.nodup_cons] at n1
            intro e; exact n1.1 (by rw [e]; simp)
          have ha : onTier (a :: b :: r) a.tok = true := onTier_iff.2 (by simp)
          have hb : onTier (a :: b :: r) b.tok = true := onTier_iff.2 (by simp)
          rcases hs a.tok (by simp) b.tok (by simp) hab with h | h
          · unfold tierAbove at h; rw [if_pos ha, hb] at h; cases h
          · unfold tierAbove at h; rw [if_pos hb, ha] at h; cases h
    have hit : it.tok ∈ C := hsub _ (by simp)
    have hperm : C.Perm (it.tok :: C.erase it.tok) := List.perm_cons_erase hit
    have hon : ∀ z, onTier [it] z = true ↔ z = it.tok := by intro z; rw [onTier_iff]; simp
    rw [hperm.countP_eq, List.countP_cons]
    by_cases hxt : x = it.tok
    · subst hxt
      have h0 : (C.erase it.tok).countP (fun y => !tierAbove ([it] :: ts) it.tok y) = 0 := by
        rw [List.countP_eq_zero]
        intro y hy
        have hy' : y ≠ it.tok := by
          rintro rfl
          exact hC.not_mem_erase hy
        unfold tierAbove
        rw [if_pos ((hon _).2 rfl)]
        have : onTier [it] y = false := by
          rw [← Bool.not_eq_true, hon]; exact hy'
        simp [this]
      rw [h0]
      unfold tierAbove tiersAbove
      rw [if_pos ((hon _).2 rfl), if_pos ((hon _).2 rfl)]
      simp [(hon _).2 rfl]
    · have hx' : x ∈ ts.flatten.map Item.tok := by
        rcases List.mem_append.1 hx with h | h
        · exact absurd (by simpa using h) hxt
        · exact h
      have hnx : ¬ onTier [it] x = true := fun h => hxt ((hon x).1 h)
      have hcongr : (C.erase it.tok).countP (fun y => !tierAbove ([it] :: ts) x y) = (C.erase it.tok).countP (fun y => !tierAbove ts x y) := by
        apply List.countP_congr
        intro y hy
        have hy' : y ≠ it.tok := by
          rintro rfl
          exact hC.not_mem_erase hy
        have hny : ¬ onTier [it] y = true := fun h => hy' ((hon y).1 h)
        rw [show tierAbove ([it] :: ts) x y = tierAbove ts x y by conv => lhs; unfold tierAbove; rw [if_neg hnx, if_neg hny]]
      have hfirst : tierAbove ([it] :: ts) x it.tok = false := by
        unfold tierAbove; rw [if_neg hnx, if_pos ((hon _).2 rfl)]
      have hab : tiersAbove ([it] :: ts) x = tiersAbove ts x + 1 := by
        conv => lhs; unfold tiersAbove
        rw [if_neg hnx]
      have notTok : ∀ y ∈ ts.flatten.map Item.tok, y ≠ it.tok := fun y hy e => n3 it.tok (by simp) y hy e.symm
      rw [hcongr, hfirst, hab, ih (fun t ht => hne t (by simp [ht])) n2 ?_ hx' (hC.erase _) ?_]
      · rfl
      · intro a ha b hb hab
        have hna : ¬ onTier [it] a = true := fun h => notTok a ha ((hon a).1 h)
        have hnb : ¬ onTier [it] b = true := fun h => notTok b hb ((hon b).1 h)
        have := hs a (List.mem_append.2 (.inr ha)) b (List.mem_append.2 (.inr hb)) hab
        unfold tierAbove at this
        rw [if_neg hna, if_neg hnb, if_neg hna, if_neg hnb] at this
        exact this
      · intro y hy
        exact (List.mem_erase_of_ne (notTok y hy)).2 (hsub y (List.mem_append.2 (.inr hy)))

theorem tierAbove_unlisted {tiers : List (List Item)} {x : Str} (hx : x ∉ tiers.flatten.map Item.tok) (y : Str) : tierAbove tiers x y = false := by
  rw [← tierAbove_rank tiers 0, tierRankAt_above, if_neg hx]
  rfl

theorem tierAbove_irrefl (tiers : List (List Item)) (x : Str) : tierAbove tiers x x = false := by
  rw [← tierAbove_rank tiers 0]
  cases tierRankAt tiers 0 x <;> simp [rankBefore]

theorem tierAbove_asymm {tiers : List (List Item)} {x y : Str} (h : tierAbove tiers x y = true) : tierAbove tiers y x = false := by
  rw [← tierAbove_rank tiers 0] at h ⊢
  cases hx : tierRankAt tiers 0 x <;> cases hy : tierRankAt tiers 0 y <;> rw [hx, hy] at h <;> simp [rankBefore] at h ⊢
  omega

/-- Borda points are the candidates below, on a ballot without ties -/
theorem borda_below {b : Ballot} (hb : b.Ok) {tiers : List (List Item)} (ht : b = .ranked tiers)
    (hs : ∀ x ∈ b.items.map Item.tok, ∀ y ∈ b.items.map Item.tok, x ≠ y → b.above x y = true ∨ b.above y x = true)
    {C : List Str} (hC : C.Nodup) (hsub : ∀ y ∈ b.items.map Item.tok, y ∈ C) (x : Str) :
    b.borda C.length x = (C.countP (fun y => b.above x y) : Int) := by
  subst ht
  unfold Ballot.borda
  simp only
  by_cases hx : x ∈ tiers.flatten.map Item.tok
  · rw [if_pos hx]
    have h1 := not_below (hb.tiers _ rfl) hb.nodup hs hx hC hsub
    have h2 := List.length_eq_countP_add_countP (fun y => (Ballot.ranked tiers).above x y) (l := C)
    have h3 : C.countP (fun y => !tierAbove tiers x y) = C.countP (fun y => decide ¬ (Ballot.ranked tiers).above x y = true) := by
      apply List.countP_congr
      intro y _
      simp [Ballot.above]
    omega
  · rw [if_neg hx]
    have : C.countP (fun y => (Ballot.ranked tiers).above x y) = 0 := by
      rw [List.countP_eq_zero]
      intro y _
      show ¬ tierAbove tiers x y = true
      rw [tierAbove_unlisted hx]
      simp
    rw [this]
    rfl

end
end Verif
