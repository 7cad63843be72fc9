/-
Helper lemmas: what an importer wrote, read, written again by the exporter, and read again.
-/
import Verif.Props.Export
import Verif.Lib.Tiers
import Verif.Spec.ImportText

set_option linter.unusedSimpArgs false
set_option linter.unusedSectionVars false

namespace Verif
open Spec Props

/-- undoing an insertion on the other side of a relation -/
theorem forall₂_insert {α β : Type} {S : α → β → Prop} {le : α → α → Bool} {le' : β → β → Bool}
    (hle : ∀ a b c d, S a c → S b d → le a b = le' c d) (b : α) (L : List α) (C : List β) (h : List.Forall₂ S (pyInsert le b L) C) :
    ∃ c C', S b c ∧ List.Forall₂ S L C' ∧ C = pyInsert le' c C' := by
  induction L generalizing C with
  | nil =>
    cases h with
    | cons h1 h2 =>
      cases h2
      exact ⟨_, [], h1, .nil, rfl⟩
  | cons a L ih =>
    unfold pyInsert at h
    by_cases hab : le b a = true
    · rw [if_pos hab] at h
      cases h with
      | cons h1 h2 =>
        cases h2 with
        | cons h2 h3 =>
          refine ⟨_, _, h1, .cons h2 h3, ?_⟩
          unfold pyInsert
          rw [← hle _ _ _ _ h1 h2, if_pos hab]
    · rw [if_neg hab] at h
      cases h with
      | cons h1 h2 =>
        obtain ⟨c, C', e1, e2, rfl⟩ := ih _ h2
        refine ⟨c, _ :: C', e1, .cons h1 e2, ?_⟩
        conv_rhs => unfold pyInsert
        rw [← hle _ _ _ _ e1 h1, if_neg hab]

/-- undoing a sort on the other side of a relation -/
theorem forall₂_sort {α β : Type} {S : α → β → Prop} {le : α → α → Bool} {le' : β → β → Bool}
    (hle : ∀ a b c d, S a c → S b d → le a b = le' c d) (B : List α) (C : List β) (h : List.Forall₂ S (pySort le B) C) :
    ∃ C0, List.Forall₂ S B C0 ∧ C = pySort le' C0 := by
  induction B generalizing C with
  | nil =>
    cases h
    exact ⟨[], .nil, rfl⟩
  | cons b B ih =>
    obtain ⟨c, C', e1, e2, rfl⟩ := forall₂_insert hle b _ C h
    obtain ⟨C0, e3, rfl⟩ := ih C' e2
    exact ⟨c :: C0, .cons e1 e3, rfl⟩

variable [U : Uni]

/-- there is only one stable sort -/
theorem stableSorted_unique {a b : List Voteline} (h : StableSortedDesc a b) : b = sortByKeyDesc Voteline.qty a := by
  apply sorted_stable_unique (fun v => - v.qty)
  · exact h.2.1.imp (by intro x y hxy; omega)
  · exact (sortByKeyDesc_sorted Voteline.qty a).imp (by intro x y hxy; omega)
  · intro k
    have h1 := h.2.2 (-k)
    have h2 := sortByKeyDesc_stable Voteline.qty a (-k)
    have e : ∀ v : Voteline, decide (- v.qty = k) = decide (v.qty = - k) := by
      intro v
      by_cases h : v.qty = -k
      · simp [h]
      · simp [h]; omega
    simp only [e]
    rw [h1, h2]

theorem simpleTok_printable {t : Str} (h : SimpleTok t) : Printable t := by
  obtain ⟨h1, h2, h3, _⟩ := h
  refine ⟨h1, ?_, ?_, fun c hc => (h3 c hc).1, ?_⟩
  · intro hm
    have := (h3 _ hm).2.1
    revert this; decide
  · intro hm; exact (h3 _ hm).2.2.1 rfl
  · intro part hp
    rw [splitKeep_none (fun c hc => (h3 c hc).2.1)] at hp
    simp only [List.mem_singleton] at hp
    subst hp
    refine ⟨h1, h2, ?_⟩
    intro hh
    cases part with
    | nil => exact h1 rfl
    | cons c t =>
      simp only [List.head?_cons, Option.some.injEq] at hh
      exact (h3 c (by simp)).2.2.2.2 hh

theorem tierRanks_keys_go (tiers : List (List Str)) (n : Nat) :
    ((tiers.zipIdx n).flatMap (fun ti => ti.1.map (fun c => (c, some ((ti.2 : Int) + 1))))).map Prod.fst = tiers.flatten := by
  induction tiers generalizing n with
  | nil => rfl
  | cons t ts ih =>
    rw [List.zipIdx_cons, List.flatMap_cons, List.map_append, ih (n + 1), List.flatten_cons]
    simp [List.map_map, Function.comp_def]

theorem tierRanks_keys (tiers : List (List Str)) : (tierRanks tiers).map Prod.fst = tiers.flatten := tierRanks_keys_go tiers 0

theorem mem_tierRanks {tiers : List (List Str)} {i : Nat} {t : List Str} {a : Str} (h : tiers[i]? = some t) (ha : a ∈ t) :
    (a, some ((i : Int) + 1)) ∈ tierRanks tiers := by
  unfold tierRanks
  refine List.mem_flatMap.2 ⟨(t, i), ?_, ?_⟩
  · rw [List.mem_zipIdx_iff_getElem?]
    exact h
  · exact List.mem_map.2 ⟨a, ha, rfl⟩

theorem mem_tierRanks_rank {tiers : List (List Str)} {e : Str × Option Int} (h : e ∈ tierRanks tiers) : ∃ r, e.2 = some r := by
  unfold tierRanks at h
  obtain ⟨ti, _, h⟩ := List.mem_flatMap.1 h
  obtain ⟨c, _, rfl⟩ := List.mem_map.1 h
  exact ⟨_, rfl⟩

theorem keys_of_ranks {vl : Voteline} {tiers : List (List Str)} (h : ranksOf vl = tierRanks tiers) : Dict.keys vl.prefs = tiers.flatten := by
  rw [← tierRanks_keys, ← h]
  unfold ranksOf Dict.keys
  rw [List.map_map]
  rfl

/-- a ballot whose ranks are those of its tiers holds them -/
theorem holdsTiers_of_ranks {vl : Voteline} {tiers : List (List Str)} (hnd : tiers.flatten.Nodup) (h : ranksOf vl = tierRanks tiers)
    (hr : ∀ kp ∈ vl.prefs, kp.2.rating = none) : HoldsTiers tiers vl.prefs := by
  have hk := keys_of_ranks h
  have hwf : Dict.WF vl.prefs := by unfold Dict.WF; rw [hk]; exact hnd
  have get : ∀ (i : Nat) (t : List Str) (a : Str), tiers[i]? = some t → a ∈ t → (Dict.get? vl.prefs a).bind Pref.rank = some ((i : Int) + 1) := by
    intro i t a h1 h2
    have hm := mem_tierRanks h1 h2
    rw [← h] at hm
    unfold ranksOf at hm
    obtain ⟨kp, hkp, e⟩ := List.mem_map.1 hm
    have e1 : kp.1 = a := congrArg Prod.fst e
    have e2 : kp.2.rank = some ((i : Int) + 1) := congrArg Prod.snd e
    have : Dict.get? vl.prefs a = some kp.2 := by
      rw [← e1]; exact Dict.get?_of_mem hwf hkp
    rw [this]
    exact e2
  refine ⟨by rw [hk], ?_, ?_⟩
  · intro i j t u a b h1 h2 h3 h4
    exact ⟨_, _, get i t a h1 h3, get j u b h2 h4, by omega⟩
  · intro a p hp
    have := hr _ (Dict.mem_of_get? hp)
    simp only at this
    rw [this]
    rfl

theorem holdsTiers_same {tiers : List (List Str)} {p q : Dict Str Pref} (h : HoldsTiers tiers q) (hs : SameBallot p q) : HoldsTiers tiers p := by
  have get : ∀ (a : Str) (r : Int), (Dict.get? q a).bind Pref.rank = some r → ∃ s, (Dict.get? p a).bind Pref.rank = some s := by
    intro a r hr
    have := hs.ranked a
    rw [hr] at this
    exact Option.isSome_iff_exists.1 (by rw [this]; rfl)
  refine ⟨hs.cands.trans h.cands, ?_, ?_⟩
  · intro i j t u a b h1 h2 h3 h4
    obtain ⟨ra, rb, e1, e2, e3⟩ := h.order i j t u a b h1 h2 h3 h4
    obtain ⟨sa, f1⟩ := get a ra e1
    obtain ⟨sb, f2⟩ := get b rb e2
    exact ⟨sa, sb, f1, f2, (hs.order a b sa sb ra rb f1 f2 e1 e2).trans e3⟩
  · intro a e he
    have hm : a ∈ Dict.keys q := by
      rw [← hs.cands.mem_iff]
      exact List.mem_map_of_mem (f := Prod.fst) (Dict.mem_of_get? he)
    obtain ⟨f, hf⟩ := Dict.exists_get?_of_mem hm
    rw [hs.ratings a e f he hf]
    exact h.unrated a f hf

/-- An importer's file, converted: read, exported and read again, it has one voteline per ballot, holding the ballot's tiers,
and the declared candidates. -/
theorem impFile_converted (cw : Bool) {metas : List Str} {cands : List (Str × Str)} {votes : List ImpVote}
    (hm : ∀ l ∈ metas, l.head? = some '{' ∧ ∀ c ∈ l, isLineBreak c = false)
    (hc : ∀ cn ∈ cands, CandOk cn) (hnd : (cands.map Prod.fst).Nodup)
    (hv : ∀ v ∈ votes, v.Ok) (hsub : ∀ v ∈ votes, ∀ t ∈ v.tiers.flatten, t ∈ cands.map Prod.fst) (hne : votes ≠ [])
    (hname : ∀ cn ∈ cands, (∀ c ∈ cn.1, isUrlSafe c = true) ∨ (cn.2 = cn.1 ∧ ∃ v ∈ votes, cn.1 ∈ v.tiers.flatten)) :
    ∃ m out m' vls, convertAbif false false false ((impFile metas cands votes).flatMap (fun l => l ++ ['\n'])) = .ok m ∧
      ExportableModel m ∧
      convertToAbif m = .ok out ∧ convertAbif cw false false out = .ok m' ∧
      List.Forall₂ (fun (v : ImpVote) (vl : Voteline) => vl.qty = (digitsVal v.qty : Int) ∧ HoldsTiers v.tiers vl.prefs) votes vls ∧
      StableSortedDesc vls m'.votelines ∧
      ∀ tok, Dict.get? m'.candidates tok = Dict.get? (cands.map (fun cn => (cn.1, some cn.2))) tok := by
  obtain ⟨m, vls, g1, g2, g3, g4⟩ := convertAbif_impFile hm hc hnd hv hsub hne
  -- the ballots of the first reading
  have hball : ∀ vl ∈ m.votelines, ∃ v ∈ votes, v.Ok ∧ vl.qty = (digitsVal v.qty : Int) ∧ ranksOf vl = tierRanks v.tiers ∧
      ∀ kp ∈ vl.prefs, kp.2.rating = none := by
    intro vl hvl
    have : vl ∈ vls := (g3.1.mem_iff).1 hvl
    obtain ⟨i, hi, e⟩ := List.getElem_of_mem this
    have hl := g2.length_eq
    have := (List.forall₂_iff_get.1 g2).2 i (by omega) hi
    simp only [List.get_eq_getElem] at this
    rw [e] at this
    exact ⟨votes[i]'(by omega), List.getElem_mem _, hv _ (List.getElem_mem _), this.1, this.2.1, this.2.2.1⟩
  have hkeys : ∀ vl ∈ m.votelines, ∀ k ∈ Dict.keys vl.prefs, Printable k := by
    intro vl hvl k hk
    obtain ⟨v, _, hvok, _, hr, _⟩ := hball vl hvl
    rw [keys_of_ranks hr] at hk
    exact simpleTok_printable (hvok.toks k hk)
  obtain ⟨x1, x2, x3, x4⟩ := parsed_exportable g1 (fun vl hvl k hk => hkeys vl hvl k hk) (by intro h; cases h)
  have hmk : Dict.keys m.candidates = cands.map Prod.fst := by
    rw [g4]
    unfold Dict.keys
    rw [List.map_map]
    rfl
  have hE : ExportableModel m := by
    refine ⟨x3, ?_, ?_, ?_, ?_, x2.keys⟩
    · intro vl hvl
      refine ⟨x1 vl hvl, ?_⟩
      obtain ⟨v, _, _, _, _, hu⟩ := hball vl hvl
      intro hall a b ha
      exact absurd (hu a ha) (hall a ha).1
    · intro vl hvl k hk
      obtain ⟨v, hvm, _, _, hr, _⟩ := hball vl hvl
      rw [keys_of_ranks hr] at hk
      rw [hmk]
      exact hsub v hvm k hk
    · unfold Dict.WF
      rw [hmk]
      exact hnd
    · intro tok name hmem
      rw [g4] at hmem
      obtain ⟨cn, hcn, e⟩ := List.mem_map.1 hmem
      cases e
      have hcok := hc cn hcn
      rcases hname cn hcn with h | ⟨h, v, hv1, hv2⟩
      · refine .inl ⟨h, cn.2, rfl, ?_, ?_, ?_⟩
        · intro hx; exact (hcok.2 _ hx).2.2 rfl
        · intro hx; exact (hcok.2 _ hx).2.1 rfl
        · intro c hx; exact (hcok.2 _ hx).1
      · refine .inr ⟨simpleTok_printable hcok.1, by rw [h], ?_⟩
        obtain ⟨i, hi, e⟩ := List.getElem_of_mem hv1
        have hl := g2.length_eq
        have hrel := (List.forall₂_iff_get.1 g2).2 i hi (by omega)
        simp only [List.get_eq_getElem] at hrel
        refine ⟨vls[i]'(by omega), g3.1.mem_iff.2 (List.getElem_mem _), ?_⟩
        rw [keys_of_ranks hrel.2.1, e]
        exact hv2
  obtain ⟨out, m', vls2, f1, f2, _, f4, f5, f6⟩ := C15_partial cw m hE
  have hsort := stableSorted_unique g3
  rw [hsort] at f5
  obtain ⟨C0, y1, y2⟩ := forall₂_sort (S := fun (a b : Voteline) => b.qty = a.qty ∧ SameBallot b.prefs a.prefs)
    (le := fun a b => decide (b.qty ≤ a.qty)) (le' := fun a b => decide (b.qty ≤ a.qty))
    (by rintro a b c d ⟨h1, _⟩ ⟨h2, _⟩; rw [h1, h2]) vls vls2 f5
  have hsame : m'.votelines = vls2 := by
    rw [stableSorted_unique f6, y2]
    exact pySort_of_sorted _ _ (by
      have := sortByKeyDesc_sorted Voteline.qty C0
      exact this.imp (by intro a b h; exact decide_eq_true h))
  refine ⟨m, out, m', C0, g1, hE, f1, f2, ?_, ?_, ?_⟩
  · refine forall₂_comp' g2 y1 ?_
    rintro v hvm vl c ⟨a1, a2, a3, _⟩ ⟨b1, b2⟩
    exact ⟨b1.trans a1, holdsTiers_same (holdsTiers_of_ranks (hv v hvm).nodup a2 a3) b2⟩
  · rw [hsame, y2]
    exact stableSorted C0
  · intro tok
    rw [f4 tok, g4]

open Classical in
/-- what comes back of a declared candidate: the name when the token is url-safe; otherwise the token, if some ballot has it,
and nothing if none does -/
noncomputable def comesBack (votes : List ImpVote) (tok name : Str) : Option (Option Str) :=
  if ∀ c ∈ tok, isUrlSafe c = true then some (some name)
  else if ∃ v ∈ votes, tok ∈ v.tiers.flatten then some (some tok)
  else none

/-- The same without the condition on the names, saying what comes back of each. -/
theorem impFile_converted_exact (cw : Bool) {metas : List Str} {cands : List (Str × Str)} {votes : List ImpVote}
    (hm : ∀ l ∈ metas, l.head? = some '{' ∧ ∀ c ∈ l, isLineBreak c = false)
    (hc : ∀ cn ∈ cands, CandOk cn) (hnd : (cands.map Prod.fst).Nodup)
    (hv : ∀ v ∈ votes, v.Ok) (hsub : ∀ v ∈ votes, ∀ t ∈ v.tiers.flatten, t ∈ cands.map Prod.fst) (hne : votes ≠ []) :
    ∃ m out m' vls, convertAbif false false false ((impFile metas cands votes).flatMap (fun l => l ++ ['\n'])) = .ok m ∧
      convertToAbif m = .ok out ∧ convertAbif cw false false out = .ok m' ∧
      List.Forall₂ (fun (v : ImpVote) (vl : Voteline) => vl.qty = (digitsVal v.qty : Int) ∧ HoldsTiers v.tiers vl.prefs) votes vls ∧
      StableSortedDesc vls m'.votelines ∧
      ∀ tok, Dict.get? m'.candidates tok = (Dict.get? cands tok).bind (comesBack votes tok) := by
  obtain ⟨m, vls, g1, g2, g3, g4⟩ := convertAbif_impFile hm hc hnd hv hsub hne
  -- the ballots of the first reading
  have hball : ∀ vl ∈ m.votelines, ∃ v ∈ votes, v.Ok ∧ vl.qty = (digitsVal v.qty : Int) ∧ ranksOf vl = tierRanks v.tiers ∧
      ∀ kp ∈ vl.prefs, kp.2.rating = none := by
    intro vl hvl
    have : vl ∈ vls := (g3.1.mem_iff).1 hvl
    obtain ⟨i, hi, e⟩ := List.getElem_of_mem this
    have hl := g2.length_eq
    have := (List.forall₂_iff_get.1 g2).2 i (by omega) hi
    simp only [List.get_eq_getElem] at this
    rw [e] at this
    exact ⟨votes[i]'(by omega), List.getElem_mem _, hv _ (List.getElem_mem _), this.1, this.2.1, this.2.2.1⟩
  have hkeys : ∀ vl ∈ m.votelines, ∀ k ∈ Dict.keys vl.prefs, Printable k := by
    intro vl hvl k hk
    obtain ⟨v, _, hvok, _, hr, _⟩ := hball vl hvl
    rw [keys_of_ranks hr] at hk
    exact simpleTok_printable (hvok.toks k hk)
  obtain ⟨x1, x2, x3, x4⟩ := parsed_exportable g1 (fun vl hvl k hk => hkeys vl hvl k hk) (by intro h; cases h)
  have hmk : Dict.keys m.candidates = cands.map Prod.fst := by
    rw [g4]
    unfold Dict.keys
    rw [List.map_map]
    rfl
  have hunr : ∀ vl ∈ m.votelines, RanksFollowRatings vl.prefs := by
    intro vl hvl
    obtain ⟨v, _, _, _, _, hu⟩ := hball vl hvl
    intro hall a b ha
    exact absurd (hu a ha) (hall a ha).1
  have hE : WritableModel m := by
    refine ⟨x3, fun vl hvl => x1 vl hvl, ?_, ?_, ?_, x2.keys⟩
    · intro vl hvl k hk
      obtain ⟨v, hvm, _, _, hr, _⟩ := hball vl hvl
      rw [keys_of_ranks hr] at hk
      rw [hmk]
      exact hsub v hvm k hk
    · unfold Dict.WF
      rw [hmk]
      exact hnd
    · intro tok name hmem
      rw [g4] at hmem
      obtain ⟨cn, hcn, e⟩ := List.mem_map.1 hmem
      cases e
      have hcok := hc cn hcn
      by_cases h : ∀ c ∈ cn.1, isUrlSafe c = true
      · refine .inl ⟨h, cn.2, rfl, ?_, ?_, ?_⟩
        · intro hx; exact (hcok.2 _ hx).2.2 rfl
        · intro hx; exact (hcok.2 _ hx).2.1 rfl
        · intro c hx; exact (hcok.2 _ hx).1
      · refine .inr ⟨h, simpleTok_printable hcok.1, ?_⟩
        intro d hd c hx
        cases hd
        exact (hcok.2 _ hx).1
  have hon : ∀ tok, (∃ vl ∈ m.votelines, tok ∈ Dict.keys vl.prefs) ↔ ∃ v ∈ votes, tok ∈ v.tiers.flatten := by
    intro tok
    constructor
    · rintro ⟨vl, hvl, hk⟩
      obtain ⟨v, hvm, _, _, hr, _⟩ := hball vl hvl
      rw [keys_of_ranks hr] at hk
      exact ⟨v, hvm, hk⟩
    · rintro ⟨v, hv1, hv2⟩
      obtain ⟨i, hi, e⟩ := List.getElem_of_mem hv1
      have hl := g2.length_eq
      have hrel := (List.forall₂_iff_get.1 g2).2 i hi (by omega)
      simp only [List.get_eq_getElem] at hrel
      refine ⟨vls[i]'(by omega), g3.1.mem_iff.2 (List.getElem_mem _), ?_⟩
      rw [keys_of_ranks hrel.2.1, e]
      exact hv2
  obtain ⟨out, m', vls2, f1, f2, _, f4, f5, f6⟩ := C15_exact cw m hE
  have f5 : List.Forall₂ (fun (a b : Voteline) => b.qty = a.qty ∧ SameBallot b.prefs a.prefs) m.votelines vls2 := by
    refine forall₂_imp_mem f5 ?_
    rintro a ha b ⟨e1, e2⟩
    exact ⟨e1, e2.same (hunr a ha)⟩
  have hsort := stableSorted_unique g3
  rw [hsort] at f5
  obtain ⟨C0, y1, y2⟩ := forall₂_sort (S := fun (a b : Voteline) => b.qty = a.qty ∧ SameBallot b.prefs a.prefs)
    (le := fun a b => decide (b.qty ≤ a.qty)) (le' := fun a b => decide (b.qty ≤ a.qty))
    (by rintro a b c d ⟨h1, _⟩ ⟨h2, _⟩; rw [h1, h2]) vls vls2 f5
  have hsame : m'.votelines = vls2 := by
    rw [stableSorted_unique f6, y2]
    exact pySort_of_sorted _ _ (by
      have := sortByKeyDesc_sorted Voteline.qty C0
      exact this.imp (by intro a b h; exact decide_eq_true h))
  refine ⟨m, out, m', C0, g1, f1, f2, ?_, ?_, ?_⟩
  · refine forall₂_comp' g2 y1 ?_
    rintro v hvm vl c ⟨a1, a2, a3, _⟩ ⟨b1, b2⟩
    exact ⟨b1.trans a1, holdsTiers_same (holdsTiers_of_ranks (hv v hvm).nodup a2 a3) b2⟩
  · rw [hsame, y2]
    exact stableSorted C0
  · intro tok
    rw [f4 tok, g4]
    have hmap : Dict.get? (cands.map (fun cn => (cn.1, some cn.2))) tok = (Dict.get? cands tok).map some :=
      Dict.get?_map cands (fun _ v => some v) tok
    rw [hmap]
    cases Dict.get? cands tok with
    | none => rfl
    | some name =>
      simp only [Option.map_some, Option.bind_some]
      unfold nameBack comesBack
      split
      · rfl
      · by_cases h : ∃ v ∈ votes, tok ∈ v.tiers.flatten
        · rw [if_pos h, if_pos ((hon tok).2 h)]
        · rw [if_neg h, if_neg (fun x => h ((hon tok).1 x))]

end Verif
