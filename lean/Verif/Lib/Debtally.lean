/-
Helper lemmas about the Debian importer.
-/
import Verif.Model.Debtally
import Verif.Spec.Debtally
import Verif.Lib.Preflib
import Verif.Lib.ExportRead

set_option linter.unusedSimpArgs false
set_option linter.unusedSectionVars false

namespace Verif
open Spec
variable [U : Uni]

/-! ### matching lines -/

theorem starGo_none {α : Type} (p : Char → Bool) (k : Str → Str → Option α) (s acc : Str)
    (h : ∀ t, t <:+ s → ∀ a, k t a = none) : starGo p k s acc = none := by
  induction s generalizing acc with
  | nil => exact h [] (List.suffix_refl _) acc
  | cons c t ih =>
    rw [starGo]
    split
    · rw [ih _ (fun u hu a => h u (hu.trans (List.suffix_cons c t)) a), h _ (List.suffix_refl _)]; rfl
    · exact h _ (List.suffix_refl _) acc

/-- greedy matching stops at the last place where the rest matches -/
theorem starGo_last {α : Type} (p : Char → Bool) (k : Str → Str → Option α) (a b acc : Str) (r : α)
    (ha : ∀ c ∈ a, p c = true) (hk : k b (a.reverse ++ acc) = some r)
    (hnone : ∀ c t, b = c :: t → ∀ u, u <:+ t → ∀ x, k u x = none) :
    starGo p k (a ++ b) acc = some r := by
  induction a generalizing acc with
  | nil =>
    cases b with
    | nil => exact hk
    | cons c t =>
      rw [List.nil_append, starGo]
      split
      · rw [starGo_none _ _ _ _ (hnone c t rfl)]; exact hk
      · exact hk
  | cons c a ih =>
    rw [List.cons_append, starGo, if_pos (ha c (by simp)), ih (c :: acc) (fun c hc => ha c (by simp [hc]))]
    · rfl
    · simpa using hk

omit U in
theorem searchMatch_skip (fin : Str → Bool) (as : List Atom) (pre s : Str) (r : List Str × Str)
    (hpre : ∀ a b, pre = a ++ b → b ≠ [] → rmatch fin as (b ++ s) = none) (hs : rmatch fin as s = some r) :
    searchMatch fin as (pre ++ s) = some (pre, r.1, r.2) := by
  induction pre with
  | nil =>
    cases s with
    | nil => simp [searchMatch, hs]
    | cons c t => simp [searchMatch, hs]
  | cons c pre ih =>
    rw [List.cons_append, searchMatch]
    have h0 := hpre [] (c :: pre) rfl (by simp)
    rw [List.cons_append] at h0
    rw [h0]
    simp only
    rw [ih (fun a b hab hb => hpre (c :: a) b (by simp [hab]) hb)]
    rfl

omit U in
theorem searchMatch_none (fin : Str → Bool) (as : List Atom) (s : Str) (h : ∀ t, t <:+ s → rmatch fin as t = none) :
    searchMatch fin as s = none := by
  induction s with
  | nil => simp [searchMatch, h [] (List.suffix_refl _)]
  | cons c t ih =>
    rw [searchMatch, h _ (List.suffix_refl _)]
    simp only
    rw [ih (fun u hu => h u (hu.trans (List.suffix_cons c t)))]
    rfl

theorem optionMatch_none_of_prefix {t : Str} (h : ¬ c!"Option " <+: t) : rmatch (fun _ => true) optionAtoms t = none := by
  unfold optionAtoms
  rw [rmatch_lits]
  have hp : List.isPrefixOf c!"Option " t = false := by
    cases hx : List.isPrefixOf c!"Option " t with
    | false => rfl
    | true => exact absurd (List.isPrefixOf_iff_prefix.1 hx) h
  rw [hp]; rfl

theorem debOption_none {line : Str} (h : ¬ c!"Option " <:+: line) : debOption line = none := by
  unfold debOption
  rw [searchMatch_none]
  · rfl
  · intro t ht
    apply optionMatch_none_of_prefix
    intro hp
    exact h (hp.isInfix.trans ht.isInfix)

theorem rmatch_space_name {gap name : Str} (hg : Blanks gap) (hn : ∀ c, name.head? = some c → isSpace c = false)
    (hb : ∀ c ∈ name, isLineBreak c = false) :
    rmatch (fun _ => true) [.plus isSpace, .star isDot] (gap ++ name) = some ([gap, name], []) := by
  have t1 : (gap ++ name).takeWhile isSpace = gap := by
    rw [takeWhile_append_of_all hg.2]
    cases name with
    | nil => simp
    | cons c t => simp [hn c rfl]
  have t2 : (gap ++ name).dropWhile isSpace = name := by
    rw [dropWhile_append_of_all hg.2]
    cases name with
    | nil => rfl
    | cons c t => simp [hn c rfl]
  have := rmatch_plus_greedy (fun _ => true) isSpace [.star isDot] (gap ++ name) ([name], []) (by rw [t1]; exact hg.1) (by
    rw [t2]
    have := rmatch_star_greedy (fun _ => true) isDot [] name ([], []) (by
      rw [dropWhile_all (isDot_of_noBreak hb)]; rfl)
    rw [takeWhile_all (isDot_of_noBreak hb)] at this
    exact this)
  rw [t1] at this
  exact this

theorem debOption_opt {pre mid gap name : Str} {k : Nat} (h : (DLine.opt pre k mid gap name).Ok) :
    debOption (DLine.opt pre k mid gap name).text = some name := by
  obtain ⟨h1, _, h3, h4, h5, h6⟩ := h
  have hb : ∀ c ∈ mid ++ ':' :: (gap ++ name), isLineBreak c = false := by
    intro c hc
    apply h6
    simp only [DLine.text, List.mem_append] at hc ⊢
    exact .inr (.inr (.inr hc))
  have hname : ∀ c ∈ name, isLineBreak c = false := fun c hc => hb c (by simp [hc])
  unfold debOption
  simp only [DLine.text]
  obtain ⟨n1, n2, _⟩ := natStr_spec k
  -- the digits
  set rest := mid ++ ':' :: (gap ++ name) with hrest
  have hdig : ∃ mid', rest.dropWhile isDigit = mid' ++ ':' :: (gap ++ name) ∧ mid' <:+ mid := by
    refine ⟨mid.dropWhile isDigit, ?_, List.dropWhile_suffix _⟩
    rw [hrest, dropWhile_append_stop]
    intro c t' he
    cases he
    exact isDigit_colon
  obtain ⟨mid', hd, hsuf⟩ := hdig
  have hmain : rmatch (fun _ => true) [.star isDot, .one (fun c => c == ':'), .plus isSpace, .star isDot] (mid' ++ ':' :: (gap ++ name)) =
      some ([mid', [':'], gap, name], []) := by
    rw [rmatch_star_eq]
    apply starGo_last
    · intro c hc
      apply isDot_of_noBreak (s := mid) _ c (hsuf.subset hc)
      intro c hc
      exact hb c (by simp [hrest, hc])
    · rw [rmatch_one_ok _ _ _ _ _ ([gap, name], []) rfl (rmatch_space_name h3 h4 hname)]
      simp
    · intro c t he u hu x
      cases he
      -- no colon followed by a blank in `gap ++ name`
      rw [Option.map_eq_none_iff]
      cases u with
      | nil => exact rmatch_one_nil _ _ _
      | cons c u =>
        rw [rmatch_one]
        split
        · rename_i hc
          have hc : c = ':' := by simpa using hc
          subst hc
          rw [Option.map_eq_none_iff]
          cases u with
          | nil => exact rmatch_plus_nil _ _ _
          | cons w u =>
            rw [rmatch_plus_cons]
            have hw : isSpace w = false := by
              obtain ⟨v, hv⟩ := hu
              cases hw : isSpace w with
              | false => rfl
              | true =>
                exfalso
                -- the colon lies in `name`
                have : ∃ v', name = v' ++ ':' :: w :: u := by
                  rcases List.append_eq_append_iff.1 hv with ⟨a', ha1, ha2⟩ | ⟨c', hc1, hc2⟩
                  · cases a' with
                    | nil => exact ⟨[], by simpa using ha2.symm⟩
                    | cons x a' =>
                      simp only [List.cons_append, List.cons.injEq] at ha2
                      have := h3.2 x (by rw [ha1]; simp)
                      rw [← ha2.1] at this
                      exact absurd this (by decide)
                  · exact ⟨c', hc2⟩
                obtain ⟨v', hv'⟩ := this
                exact h5 ⟨v', w, u, hv', hw⟩
            rw [hw]; rfl
        · rfl
  have hopt : ∃ d, rmatch (fun _ => true) optionAtoms (c!"Option " ++ (natStr k ++ rest)) =
      some (d ++ [name], []) := by
    unfold optionAtoms
    rw [rmatch_lits]
    have hp : List.isPrefixOf c!"Option " (c!"Option " ++ (natStr k ++ rest)) = true := by simp
    rw [if_pos hp, List.drop_left]
    have := rmatch_plus_greedy (fun _ => true) isDigit [.star isDot, .one (fun c => c == ':'), .plus isSpace, .star isDot]
      (natStr k ++ rest) ([mid', [':'], gap, name], []) (by
        rw [takeWhile_append_of_all n2]
        intro h
        exact n1 (List.append_eq_nil_iff.1 h).1) (by
        rw [dropWhile_append_of_all n2, hd]; exact hmain)
    rw [this]
    exact ⟨c!"Option ".map (fun c => [c]) ++ [List.takeWhile isDigit (natStr k ++ rest), mid', [':'], gap], rfl⟩
  obtain ⟨d, hopt⟩ := hopt
  rw [searchMatch_skip _ _ _ _ _ _ hopt]
  · simp
  · intro a b hab hbne
    apply optionMatch_none_of_prefix
    cases b with
    | nil => exact absurd rfl hbne
    | cons c b =>
      rintro ⟨z, hz⟩
      simp only [List.cons_append, List.cons.injEq] at hz
      exact h1 (by rw [hab, hz.1]; simp)

theorem debVote_vote {ranks gap vid rest : Str} (h : (DLine.vote ranks gap vid rest).Ok) :
    debVote (DLine.vote ranks gap vid rest).text = some (ranks, vid) := by
  obtain ⟨h1, h2, h3, h4, h5, h6, _, h8⟩ := h
  unfold debVote fullMatch
  simp only [DLine.text]
  rw [rmatch_lits]
  have hp : List.isPrefixOf c!"V: " (c!"V: " ++ (ranks ++ (gap ++ (vid ++ rest)))) = true := by simp
  rw [if_pos hp, List.drop_left]
  have hrb : ∀ c ∈ rest, isDot c = true := by
    apply isDot_of_noBreak
    intro c hc
    apply h8
    simp [DLine.text, hc]
  have hcls : ∀ c ∈ ranks, (fun c => c == '-' || isDigit c) c = true := by
    intro c hc
    rcases h2 c hc with rfl | h
    · rfl
    · simp [h]
  obtain ⟨g, gs, hgap⟩ : ∃ g gs, gap = g :: gs := by
    cases gap with
    | nil => exact absurd rfl h3.1
    | cons g gs => exact ⟨g, gs, rfl⟩
  obtain ⟨v, vs, hvid⟩ : ∃ v vs, vid = v :: vs := by
    cases vid with
    | nil => exact absurd rfl h4
    | cons g gs => exact ⟨g, gs, rfl⟩
  have hg : (g == '-' || isDigit g) = false := by
    have hs := h3.2 g (by simp [hgap])
    have h1 : g ≠ '-' := by rintro rfl; exact absurd hs (by decide)
    have h2 : isDigit g = false := by
      cases hd : isDigit g with
      | false => rfl
      | true => rw [digit_not_space hd] at hs; cases hs
    simp [h1, h2]
  have hv : isSpace v = false := h5 v (by simp [hvid])
  have e1 : (ranks ++ (gap ++ (vid ++ rest))).takeWhile (fun c => c == '-' || isDigit c) = ranks := by
    rw [takeWhile_append_of_all hcls, hgap]; simp only [List.cons_append, List.takeWhile_cons, hg]; simp
  have e2 : (ranks ++ (gap ++ (vid ++ rest))).dropWhile (fun c => c == '-' || isDigit c) = gap ++ (vid ++ rest) := by
    rw [dropWhile_append_of_all hcls, hgap]; simp only [List.cons_append, List.dropWhile_cons, hg]; simp
  have e3 : (gap ++ (vid ++ rest)).takeWhile isSpace = gap := by
    rw [takeWhile_append_of_all h3.2, hvid]; simp [hv]
  have e4 : (gap ++ (vid ++ rest)).dropWhile isSpace = vid ++ rest := by
    rw [dropWhile_append_of_all h3.2, hvid]; simp [hv]
  have hns : ∀ c ∈ vid, (fun c => !isSpace c) c = true := fun c hc => by simp [h5 c hc]
  have e5 : (vid ++ rest).takeWhile (fun c => !isSpace c) = vid := by
    rw [takeWhile_append_of_all hns]
    cases rest with
    | nil => simp
    | cons c t => simp [h6 c rfl]
  have e6 : (vid ++ rest).dropWhile (fun c => !isSpace c) = rest := by
    rw [dropWhile_append_of_all hns]
    cases rest with
    | nil => rfl
    | cons c t => simp [h6 c rfl]
  have m1 := rmatch_last_star isDot rest hrb
  have m2 := rmatch_plus_greedy List.isEmpty (fun c => !isSpace c) [.star isDot] (vid ++ rest) ([rest], []) (by rw [e5]; exact h4)
    (by rw [e6]; exact m1)
  rw [e5] at m2
  have m3 := rmatch_plus_greedy List.isEmpty isSpace [.plus (fun c => !isSpace c), .star isDot] (gap ++ (vid ++ rest)) ([vid, rest], [])
    (by rw [e3]; exact h3.1) (by rw [e4]; exact m2)
  rw [e3] at m3
  have m4 := rmatch_plus_greedy List.isEmpty (fun c => c == '-' || isDigit c) [.plus isSpace, .plus (fun c => !isSpace c), .star isDot]
    (ranks ++ (gap ++ (vid ++ rest))) ([gap, vid, rest], []) (by rw [e1]; exact h1) (by rw [e2]; exact m3)
  rw [e1] at m4
  rw [m4]
  rfl

theorem debVote_none {line : Str} (h : ¬ c!"V: " <+: line) : debVote line = none := by
  unfold debVote fullMatch
  rw [rmatch_lits]
  have hp : List.isPrefixOf c!"V: " line = false := by
    cases hx : List.isPrefixOf c!"V: " line with
    | false => rfl
    | true => exact absurd (List.isPrefixOf_iff_prefix.1 hx) h
  rw [hp]; rfl

/-! ### tiers -/

theorem natStr_small {r : Nat} (h : r < 10) : natStr r = [rankChar r] := by
  have : r = 0 ∨ r = 1 ∨ r = 2 ∨ r = 3 ∨ r = 4 ∨ r = 5 ∨ r = 6 ∨ r = 7 ∨ r = 8 ∨ r = 9 := by omega
  rcases this with rfl | rfl | rfl | rfl | rfl | rfl | rfl | rfl | rfl | rfl <;> decide

theorem natStr_large {r : Nat} (h : 10 ≤ r) (c : Char) : natStr r ≠ [c] := by
  intro he
  unfold natStr at he
  rw [Nat.toDigits_eq_if (by decide), if_neg (by omega)] at he
  have hlen := congrArg List.length he
  simp only [List.length_append, List.length_cons, List.length_nil] at hlen
  have : Nat.toDigits 10 (r / 10) = [] := List.length_eq_zero_iff.1 (by omega)
  exact (natStr_spec (r / 10)).1 this

theorem debCrs_large {r : Nat} (h : 10 ≤ r) (i : Nat) (pref : Str) : debCrs (natStr r) i pref = [] := by
  induction pref generalizing i with
  | nil => rfl
  | cons c t ih => rw [debCrs, if_neg (fun he => natStr_large h c he.symm), ih]

theorem debCrs_small {r : Nat} (h : r < 10) (shorts : List Str) (pref : Str) (hl : pref.length ≤ shorts.length) (k : Nat) (full : List Str)
    (hk : full.drop k = shorts) :
    (debCrs (natStr r) k pref).mapM (optAt full) =
      .ok (((shorts.zip pref).filter (fun tc => decide (tc.2 = rankChar r))).map Prod.fst) := by
  rw [natStr_small h]
  induction pref generalizing shorts k with
  | nil => simp [debCrs]; rfl
  | cons c t ih =>
    cases shorts with
    | nil => simp at hl
    | cons s shorts =>
      have hs : full[k]? = some s := by
        have := congrArg List.head? hk
        rw [List.head?_drop] at this
        exact this
      have hk' : full.drop (k + 1) = shorts := by
        have := congrArg List.tail hk
        rw [List.tail_drop] at this
        exact this
      have := ih shorts (by simpa using hl) (k + 1) hk'
      rw [debCrs, List.zip_cons_cons]
      by_cases hc : c = rankChar r
      · rw [if_pos (by rw [hc]), List.mapM_cons, show optAt full k = .ok s by (unfold optAt; rw [hs]), this, List.filter_cons_of_pos (by simp [hc])]
        rfl
      · rw [if_neg (by simpa using hc), this, List.filter_cons_of_neg (by simp [hc])]

theorem debCrs_nil_iff {strrank : Str} {i : Nat} {pref : Str} : debCrs strrank i pref = [] ↔ ∀ c ∈ pref, [c] ≠ strrank := by
  induction pref generalizing i with
  | nil => simp [debCrs]
  | cons c t ih =>
    rw [debCrs]
    split
    · rename_i h; simp [h]
    · rename_i h; rw [ih]; simp [h]

theorem debTier_small {r : Nat} (h : r < 10) {shorts : List Str} {pref : Str} (hl : pref.length ≤ shorts.length) :
    debTier shorts pref r = .ok ([((shorts.zip pref).filter (fun tc => decide (tc.2 = rankChar r))).map Prod.fst].filter (fun t => decide (t ≠ [])) |>.map (joinStr ['='])) := by
  have key := debCrs_small h shorts pref hl 0 shorts rfl
  unfold debTier
  split
  · rename_i hn
    rw [hn] at key
    have : ((shorts.zip pref).filter (fun tc => decide (tc.2 = rankChar r))).map Prod.fst = [] := by
      simp only [List.mapM_nil] at key
      exact (Except.ok.inj key).symm
    simp [this]
  · rename_i hn
    rw [key]
    have hne : ((shorts.zip pref).filter (fun tc => decide (tc.2 = rankChar r))).map Prod.fst ≠ [] := by
      intro he
      apply hn
      rw [debCrs_nil_iff]
      intro c hc hcr
      rw [natStr_small h] at hcr
      have hcr : c = rankChar r := by simpa using hcr
      rw [List.map_eq_nil_iff, List.filter_eq_nil_iff] at he
      obtain ⟨i, hi, rfl⟩ := List.mem_iff_getElem.1 hc
      have hm : (shorts[i]'(by omega), pref[i]) ∈ shorts.zip pref := by
        rw [List.mem_iff_getElem]
        exact ⟨i, by simp; omega, by simp⟩
      exact he _ hm (by simp [hcr])
    rw [List.filter_cons_of_pos (by simpa using hne)]
    rfl

theorem debTiers {shorts : List Str} {pref : Str} (hl : pref.length ≤ shorts.length) :
    ∃ ts, (List.range shorts.length).mapM (fun r => debTier shorts pref (r + 1)) = .ok ts ∧
      ts.flatten = (sheetTiers shorts pref).map (joinStr ['=']) := by
  refine ⟨_, mapM_ok (g := fun r => if r < 9 then
      ([((shorts.zip pref).filter (fun tc => decide (tc.2 = rankChar (r + 1)))).map Prod.fst].filter (fun t => decide (t ≠ [])) |>.map (joinStr ['=']))
      else []) ?_, ?_⟩
  · intro r _
    split
    · exact debTier_small (by omega) hl
    · unfold debTier
      rw [debCrs_large (by omega)]
  · unfold sheetTiers
    have e1 : ∀ n, List.flatten ((List.range n).map (fun r => if r < 9 then
      ([((shorts.zip pref).filter (fun tc => decide (tc.2 = rankChar (r + 1)))).map Prod.fst].filter (fun t => decide (t ≠ [])) |>.map (joinStr ['=']))
      else [])) = (((List.range' 1 (min 9 n)).map (fun r => ((shorts.zip pref).filter (fun tc => decide (tc.2 = rankChar r))).map Prod.fst)).filter
        (fun t => decide (t ≠ []))).map (joinStr ['=']) := by
      intro n
      induction n with
      | zero => rfl
      | succ n ih =>
        rw [List.range_succ, List.map_append, List.flatten_append, ih]
        by_cases hn : n < 9
        · have : min 9 (n + 1) = min 9 n + 1 := by omega
          rw [this, List.range'_concat, List.map_append, List.filter_append, List.map_append]
          congr 1
          have : 1 + 1 * min 9 n = n + 1 := by omega
          simp only [List.map_cons, List.map_nil, List.flatten_cons, List.flatten_nil, List.append_nil, hn, if_true, this]
        · have : min 9 (n + 1) = min 9 n := by omega
          rw [this]
          simp [hn]
    exact e1 _

theorem debCrs_append (strrank : Str) (a b : Str) (i : Nat) :
    debCrs strrank i (a ++ b) = debCrs strrank i a ++ debCrs strrank (i + a.length) b := by
  induction a generalizing i with
  | nil => simp [debCrs]
  | cons c t ih =>
    have e : i + 1 + t.length = i + (c :: t).length := by simp; omega
    rw [List.cons_append, debCrs, debCrs, ih, e]
    split <;> rfl

theorem sheetTiers_take (toks : List Str) (ranks : Str) : sheetTiers toks (ranks.take toks.length) = sheetTiers toks ranks := by
  have : ∀ (toks : List Str) (ranks : Str), toks.zip (ranks.take toks.length) = toks.zip ranks := by
    intro toks
    induction toks with
    | nil => intro ranks; rfl
    | cons x t ih =>
      intro ranks
      cases ranks with
      | nil => rfl
      | cons c r =>
        rw [List.length_cons, List.take_succ_cons, List.zip_cons_cons, List.zip_cons_cons, ih]
  unfold sheetTiers
  rw [this]

/-- characters after the last option that are not ranks change nothing -/
theorem debTier_extra {n r : Nat} {shorts : List Str} {pref : Str} (hr : 1 ≤ r) (hrn : r ≤ n) (hx : NoExtra n pref) :
    debTier shorts pref r = debTier shorts (pref.take n) r := by
  have : debCrs (natStr r) 0 pref = debCrs (natStr r) 0 (pref.take n) := by
    by_cases h10 : r < 10
    · have e := debCrs_append (natStr r) (pref.take n) (pref.drop n) 0
      rw [List.take_append_drop] at e
      rw [e]
      have : debCrs (natStr r) (0 + (pref.take n).length) (pref.drop n) = [] := by
        rw [debCrs_nil_iff, natStr_small h10]
        intro c hc hcr
        have hcr : c = rankChar r := by simpa using hcr
        subst hcr
        obtain ⟨i, hi, hi2⟩ := List.mem_iff_getElem.1 hc
        refine hx (n + i) r (by omega) ⟨hr, by omega, hrn, ?_⟩
        rw [← List.getElem?_drop, List.getElem?_eq_getElem hi, hi2]
      rw [this, List.append_nil]
    · rw [debCrs_large (by omega), debCrs_large (by omega)]
  unfold debTier
  rw [this]

theorem debTiers_extra {shorts : List Str} {pref : Str} (hx : NoExtra shorts.length pref) :
    ∃ ts, (List.range shorts.length).mapM (fun r => debTier shorts pref (r + 1)) = .ok ts ∧
      ts.flatten = (sheetTiers shorts pref).map (joinStr ['=']) := by
  have e : (List.range shorts.length).mapM (fun r => debTier shorts pref (r + 1)) =
      (List.range shorts.length).mapM (fun r => debTier shorts (pref.take shorts.length) (r + 1)) := by
    have : ∀ l : List Nat, (∀ r ∈ l, r + 1 ≤ shorts.length) → l.mapM (fun r => debTier shorts pref (r + 1)) =
        l.mapM (fun r => debTier shorts (pref.take shorts.length) (r + 1)) := by
      intro l
      induction l with
      | nil => intro _; rfl
      | cons r l ih =>
        intro hl
        rw [List.mapM_cons, List.mapM_cons, ih (fun x hx => hl x (by simp [hx])), debTier_extra (by omega) (hl r (by simp)) hx]
    exact this _ (fun r hr => by have := List.mem_range.1 hr; omega)
  rw [e, ← sheetTiers_take]
  exact debTiers (by rw [List.length_take]; omega)

/-- a rank after the last option is an index error -/
theorem debTier_tooLong {shorts : List Str} {pref : Str} {i d : Nat} (hi : shorts.length ≤ i) (h : RankedAs shorts.length pref i d) :
    debTier shorts pref d = .error .indexError := by
  obtain ⟨h1, h9, hn, hc⟩ := h
  have hmem : ∀ (pref : Str) (k i : Nat), pref[i]? = some (rankChar d) → k + i ∈ debCrs (natStr d) k pref := by
    intro pref
    rw [natStr_small (show d < 10 by omega)]
    induction pref with
    | nil => intro k i hc; cases hc
    | cons c t ih =>
      intro k i hc
      rw [debCrs]
      cases i with
      | zero =>
        have : c = rankChar d := by simpa using hc
        rw [if_pos (by rw [this])]
        simp
      | succ i =>
        have := ih (k + 1) i (by simpa using hc)
        have e : k + 1 + i = k + (i + 1) := by omega
        rw [e] at this
        split
        · exact List.mem_cons_of_mem _ this
        · exact this
  have hm := hmem pref 0 i hc
  rw [Nat.zero_add] at hm
  unfold debTier
  cases hcrs : debCrs (natStr d) 0 pref with
  | nil => rw [hcrs] at hm; cases hm
  | cons a l =>
    rw [hcrs] at hm
    have : (a :: l).mapM (optAt shorts) = .error .indexError := by
      apply mapM_error
      · intro k _
        unfold optAt
        split
        · exact .inl ⟨_, rfl⟩
        · exact .inr rfl
      · refine ⟨i, hm, ?_⟩
        unfold optAt
        rw [List.getElem?_eq_none hi]
    simp only [this]
    rfl

theorem debTier_cases (shorts : List Str) (pref : Str) (r : Nat) :
    (∃ x, debTier shorts pref r = .ok x) ∨ debTier shorts pref r = .error .indexError := by
  unfold debTier
  have hcase : ∀ l : List Nat, (∃ x, l.mapM (optAt shorts) = .ok x) ∨ l.mapM (optAt shorts) = .error .indexError := by
    intro l
    induction l with
    | nil => exact .inl ⟨_, rfl⟩
    | cons a l ih =>
      rw [List.mapM_cons]
      have ha : (∃ x, optAt shorts a = .ok x) ∨ optAt shorts a = .error .indexError := by
        unfold optAt
        split
        · exact .inl ⟨_, rfl⟩
        · exact .inr rfl
      rcases ha with ⟨x, hx⟩ | hx
      · rcases ih with ⟨y, hy⟩ | hy
        · rw [hx, hy]; exact .inl ⟨_, rfl⟩
        · rw [hx, hy]; exact .inr rfl
      · rw [hx]; exact .inr rfl
  split
  · exact .inl ⟨_, rfl⟩
  · rcases hcase (debCrs (natStr r) 0 pref) with ⟨x, hx⟩ | hx
    · rw [hx]; exact .inl ⟨_, rfl⟩
    · rw [hx]; exact .inr rfl

end Verif
