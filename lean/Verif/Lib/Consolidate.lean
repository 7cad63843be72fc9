/-
Helper lemmas: the JSON grouping key and `consolidate_jabmod_voteline_objects`.
-/
import Verif.Lib.JsonInj
import Verif.Lib.StrLe
import Verif.Spec.Consolidate
import Verif.Model.Export
import Mathlib.Data.List.Nodup

set_option linter.unusedSimpArgs false
set_option linter.unusedSectionVars false

namespace Verif
open Spec

/-! ### the key -/

/-- the sorted JSON of an entry -/
def prefSorted (p : Pref) : Json :=
  .obj ((match p.nextdelim with | some d => [(c!"nextdelim", Json.str d)] | none => []) ++
        (match p.rank with | some r => [(c!"rank", Json.int r)] | none => []) ++
        (match p.rating with | some r => [(c!"rating", r.toJson)] | none => []))

theorem rval_sortKeys (r : RVal) : r.toJson.sortKeys = r.toJson := by
  cases r <;> (unfold RVal.toJson Json.sortKeys; rfl)

theorem prefSorted_eq (p : Pref) : p.toJson.sortKeys = prefSorted p := by
  obtain ⟨rating, rank, nd⟩ := p
  unfold Pref.toJson prefSorted Json.sortKeys
  congr 1
  cases rating <;> cases rank <;> cases nd <;>
    (simp only [List.nil_append, List.append_nil, List.cons_append, Json.sortKeysObj, rval_sortKeys, Json.sortKeys]; rfl)

theorem rval_inj {r s : RVal} (h : r.toJson = s.toJson) : r = s := by
  cases r <;> cases s <;> simp [RVal.toJson] at h <;> simp [h]

theorem prefSorted_inj {p q : Pref} (h : prefSorted p = prefSorted q) : p = q := by
  obtain ⟨r1, k1, n1⟩ := p
  obtain ⟨r2, k2, n2⟩ := q
  unfold prefSorted at h
  have hr : ∀ {a b : RVal}, a.toJson = b.toJson → a = b := rval_inj
  cases r1 <;> cases r2 <;> cases k1 <;> cases k2 <;> cases n1 <;> cases n2 <;>
    simp [List.cons.injEq] at h ⊢ <;> tauto

theorem sortKeysObj_eq (p : Dict Str Pref) :
    Json.sortKeysObj (p.map fun kp => (kp.1, kp.2.toJson)) = p.map (fun kp => (kp.1, prefSorted kp.2)) := by
  induction p with
  | nil => rfl
  | cons e p ih => simp only [List.map_cons, Json.sortKeysObj, ih, prefSorted_eq]

theorem prefsJson_sorted (p : Dict Str Pref) : (prefsJson p).sortKeys =
    .obj (pySort (fun a b => strLe a.1 b.1) (p.map (fun kp => (kp.1, prefSorted kp.2)))) := by
  unfold prefsJson
  rw [Json.sortKeys, sortKeysObj_eq]

theorem keyLe_totalPre : TotalPre (fun (a b : Str × Json) => strLe a.1 b.1) :=
  ⟨fun a b => strLe_total a.1 b.1, fun a b c => strLe_trans a.1 b.1 c.1⟩

theorem mapSorted_wf {p : Dict Str Pref} (h : Dict.WF p) : Dict.WF (p.map (fun kp => (kp.1, prefSorted kp.2))) := by
  unfold Dict.WF; rw [Dict.keys_map]; exact h

theorem get?_mapSorted (p : Dict Str Pref) (k : Str) :
    Dict.get? (p.map (fun kp => (kp.1, prefSorted kp.2))) k = (Dict.get? p k).map prefSorted :=
  Dict.get?_map p (fun _ v => prefSorted v) k

theorem perm_of_sameMap {p q : Dict Str Pref} (hp : Dict.WF p) (hq : Dict.WF q) (h : SameMap p q) : p.Perm q := by
  have np : p.Nodup := List.Nodup.of_map Prod.fst hp
  have nq : q.Nodup := List.Nodup.of_map Prod.fst hq
  rw [List.perm_ext_iff_of_nodup np nq]
  rintro ⟨k, v⟩
  constructor
  · intro hm; exact Dict.mem_of_get? (by rw [← h k]; exact Dict.get?_of_mem hp hm)
  · intro hm; exact Dict.mem_of_get? (by rw [h k]; exact Dict.get?_of_mem hq hm)

theorem prefsKey_iff {p q : Dict Str Pref} (hp : Dict.WF p) (hq : Dict.WF q) : prefsKey p = prefsKey q ↔ SameMap p q := by
  unfold prefsKey Json.dumpsSorted
  constructor
  · intro h
    have h := dumps_injective h
    rw [prefsJson_sorted, prefsJson_sorted] at h
    injection h with h
    have hperm := (pySort_perm (fun (a b : Str × Json) => strLe a.1 b.1) (p.map (fun (kp : Str × Pref) => (kp.1, prefSorted kp.2)))).symm.trans
      (h ▸ pySort_perm (fun (a b : Str × Json) => strLe a.1 b.1) (q.map (fun (kp : Str × Pref) => (kp.1, prefSorted kp.2))))
    intro k
    have hg := Dict.get?_perm hperm (mapSorted_wf hp) k
    rw [get?_mapSorted, get?_mapSorted] at hg
    cases h1 : Dict.get? p k with
    | none =>
      rw [h1] at hg
      cases h2 : Dict.get? q k with
      | none => rfl
      | some b => rw [h2] at hg; cases hg
    | some a =>
      rw [h1] at hg
      cases h2 : Dict.get? q k with
      | none => rw [h2] at hg; cases hg
      | some b =>
        rw [h2] at hg
        simp only [Option.map_some, Option.some.injEq] at hg
        rw [prefSorted_inj hg]
  · intro h
    have hperm : (p.map (fun kp => (kp.1, prefSorted kp.2))).Perm (q.map (fun kp => (kp.1, prefSorted kp.2))) :=
      (perm_of_sameMap hp hq h).map _
    rw [prefsJson_sorted, prefsJson_sorted]
    congr 2
    refine List.Perm.eq_of_pairwise ?_ (pySort_sorted keyLe_totalPre _) (pySort_sorted keyLe_totalPre _)
      ((pySort_perm _ _).trans (hperm.trans (pySort_perm _ _).symm))
    rintro ⟨a, v⟩ ⟨b, w⟩ ha hb h1 h2
    have hk : a = b := strLe_antisymm a b h1 h2
    subst hk
    have ha := Dict.get?_of_mem (mapSorted_wf hp) (mem_pySort.1 ha)
    have hb := Dict.get?_of_mem (mapSorted_wf hq) (mem_pySort.1 hb)
    rw [Dict.get?_perm hperm (mapSorted_wf hp)] at ha
    rw [ha] at hb
    cases hb; rfl

/-! ### the loop -/

/-- one iteration -/
def consStep (d : Dict Str Voteline) (vl : Voteline) : Dict Str Voteline :=
  (if d.has (prefsKey vl.prefs) then d else d.set (prefsKey vl.prefs) { qty := 0, prefs := vl.prefs }).modify
    (prefsKey vl.prefs) (fun e => { e with qty := e.qty + vl.qty })

theorem consolidateLoop_cons (vl : Voteline) (l : List Voteline) (d : Dict Str Voteline) :
    consolidateLoop (vl :: l) d = consolidateLoop l (consStep d vl) := rfl

/-- the invariant of the dict: keyed by the grouping key, entries with only preferences and quantity -/
structure ConsInv (d : Dict Str Voteline) : Prop where
  wf : Dict.WF d
  entry : ∀ (e : Str × Voteline), e ∈ d → e.1 = prefsKey e.2.prefs ∧ e.2 = { qty := e.2.qty, prefs := e.2.prefs } ∧ Dict.WF e.2.prefs

theorem modify_eq_map {κ α : Type} [DecidableEq κ] {d : Dict κ α} (h : Dict.WF d) (k : κ) (f : α → α) :
    Dict.modify d k f = d.map (fun (e : κ × α) => (e.1, if e.1 = k then f e.2 else e.2)) := by
  apply Dict.ext_of_wf (Dict.wf_modify k f h)
  · unfold Dict.WF; rw [Dict.keys_map d (fun e => if e.1 = k then f e.2 else e.2)]; exact h
  · rw [Dict.keys_modify, Dict.keys_map d (fun e => if e.1 = k then f e.2 else e.2)]
  · intro x
    rw [Dict.get?_modify, Dict.get?_map d (fun a v => if a = k then f v else v)]
    by_cases hk : k = x
    · subst hk; simp
    · have : ¬ x = k := fun e => hk e.symm
      simp only [hk, this, if_false]
      simp

theorem consStep_old {d : Dict Str Voteline} {vl : Voteline} (hw : Dict.WF d) (h : prefsKey vl.prefs ∈ Dict.keys d) :
    consStep d vl = d.map (fun (e : Str × Voteline) => (e.1, if e.1 = prefsKey vl.prefs then { e.2 with qty := e.2.qty + vl.qty } else e.2)) := by
  unfold consStep
  rw [if_pos (Dict.has_iff.2 h), modify_eq_map hw]

theorem consStep_new {d : Dict Str Voteline} {vl : Voteline} (h : prefsKey vl.prefs ∉ Dict.keys d) :
    consStep d vl = d ++ [(prefsKey vl.prefs, { qty := vl.qty, prefs := vl.prefs })] := by
  unfold consStep
  have : Dict.has d (prefsKey vl.prefs) = false := by
    cases hh : Dict.has d (prefsKey vl.prefs) with
    | false => rfl
    | true => exact absurd (Dict.has_iff.1 hh) h
  rw [this]
  simp only [Bool.false_eq_true, if_false]
  unfold Dict.modify
  rw [Dict.get?_set_self]
  simp only
  rw [Dict.set_of_not_mem _ h]
  clear this
  generalize prefsKey vl.prefs = key at h ⊢
  induction d with
  | nil => simp [Dict.set]
  | cons e d ih =>
    obtain ⟨k, v⟩ := e
    simp only [Dict.keys, List.map_cons, List.mem_cons, not_or] at h
    simp only [List.cons_append, Dict.set]
    rw [if_neg (fun he => h.1 he.symm), ih h.2]

theorem SameMap.refl (p : Dict Str Pref) : SameMap p p := fun _ => rfl
theorem SameMap.symm {p q : Dict Str Pref} (h : SameMap p q) : SameMap q p := fun k => (h k).symm
theorem SameMap.trans {p q r : Dict Str Pref} (h : SameMap p q) (h' : SameMap q r) : SameMap p r :=
  fun k => (h k).trans (h' k)

theorem consInv_step {d : Dict Str Voteline} {vl : Voteline} (hd : ConsInv d) (hv : Dict.WF vl.prefs) :
    ConsInv (consStep d vl) := by
  by_cases h : prefsKey vl.prefs ∈ Dict.keys d
  · rw [consStep_old hd.wf h]
    refine ⟨?_, ?_⟩
    · unfold Dict.WF
      rw [Dict.keys_map d (fun (e : Str × Voteline) => if e.1 = prefsKey vl.prefs then { e.2 with qty := e.2.qty + vl.qty } else e.2)]
      exact hd.wf
    · intro e he
      obtain ⟨e', he', rfl⟩ := List.mem_map.1 he
      obtain ⟨h1, h2, h3⟩ := hd.entry e' he'
      dsimp only
      split
      · refine ⟨h1, ?_, h3⟩
        rw [h2]
      · exact ⟨h1, h2, h3⟩
  · rw [consStep_new h]
    refine ⟨?_, ?_⟩
    · unfold Dict.WF Dict.keys
      rw [List.map_append, List.nodup_append]
      refine ⟨hd.wf, by simp, ?_⟩
      intro a ha b hb
      simp at hb
      subst hb
      rintro rfl
      exact h ha
    · intro e he
      rcases List.mem_append.1 he with he | he
      · exact hd.entry e he
      · simp at he
        subst he
        exact ⟨rfl, rfl, hv⟩

open Classical in
theorem ballotsWith_cons (P : Dict Str Pref → Bool) (vl : Voteline) (l : List Voteline) :
    ballotsWith P (vl :: l) = (if P vl.prefs then vl.qty else 0) + ballotsWith P l := by
  unfold ballotsWith
  by_cases h : P vl.prefs = true <;> simp [h]

open Classical in
/-- the number of ballots equal to `p` as a map -/
noncomputable def ballotsSame (p : Dict Str Pref) (l : List Voteline) : Int := ballotsWith (fun q => decide (SameMap q p)) l

open Classical in
theorem ballotsSame_cons (p : Dict Str Pref) (vl : Voteline) (l : List Voteline) :
    ballotsSame p (vl :: l) = (if SameMap vl.prefs p then vl.qty else 0) + ballotsSame p l := by
  unfold ballotsSame
  rw [ballotsWith_cons]
  simp

theorem key_mem_iff {d : Dict Str Voteline} (hd : ConsInv d) {p : Dict Str Pref} (hp : Dict.WF p) :
    prefsKey p ∈ Dict.keys d ↔ ∃ (q : Dict Str Pref), q ∈ (Dict.values d).map Voteline.prefs ∧ SameMap q p := by
  constructor
  · intro h
    obtain ⟨e, he, hk⟩ := List.mem_map.1 h
    obtain ⟨h1, h2, h3⟩ := hd.entry e he
    refine ⟨e.2.prefs, List.mem_map.2 ⟨e.2, List.mem_map.2 ⟨e, he, rfl⟩, rfl⟩, ?_⟩
    exact (prefsKey_iff h3 hp).1 (by rw [← h1, hk])
  · rintro ⟨q, hq, hs⟩
    obtain ⟨v, hv, rfl⟩ := List.mem_map.1 hq
    obtain ⟨e, he, rfl⟩ := List.mem_map.1 hv
    obtain ⟨h1, h2, h3⟩ := hd.entry e he
    rw [← (prefsKey_iff h3 hp).2 hs, ← h1]
    exact List.mem_map.2 ⟨e, he, rfl⟩

theorem firstApp_mem {seen l : List (Dict Str Pref)} {p : Dict Str Pref} (h : p ∈ firstAppearances seen l) :
    p ∈ l ∧ ∀ (q : Dict Str Pref), q ∈ seen → ¬ SameMap q p := by
  induction l generalizing seen with
  | nil => simp [firstAppearances] at h
  | cons a l ih =>
    unfold firstAppearances at h
    split at h
    · obtain ⟨h1, h2⟩ := ih h
      exact ⟨List.mem_cons_of_mem _ h1, h2⟩
    · rename_i hn
      rcases List.mem_cons.1 h with rfl | h
      · exact ⟨List.mem_cons_self, fun q hq hs => hn ⟨q, hq, hs⟩⟩
      · obtain ⟨h1, h2⟩ := ih h
        exact ⟨List.mem_cons_of_mem _ h1, fun q hq => h2 q (List.mem_append_left _ hq)⟩

theorem consLoop_eq {l : List Voteline} (hl : ∀ (vl : Voteline), vl ∈ l → Dict.WF vl.prefs) :
    ∀ {d : Dict Str Voteline}, ConsInv d →
    Dict.values (consolidateLoop l d) =
      (Dict.values d).map (fun (e : Voteline) => { e with qty := e.qty + ballotsSame e.prefs l }) ++
      (firstAppearances ((Dict.values d).map Voteline.prefs) (l.map Voteline.prefs)).map
        (fun p => { qty := ballotsSame p l, prefs := p }) := by
  induction l with
  | nil =>
    intro d hd
    simp [consolidateLoop, firstAppearances, ballotsSame, ballotsWith]
  | cons vl l ih =>
    intro d hd
    have hv : Dict.WF vl.prefs := hl vl List.mem_cons_self
    rw [consolidateLoop_cons, ih (fun v hv => hl v (List.mem_cons_of_mem _ hv)) (consInv_step hd hv)]
    by_cases h : prefsKey vl.prefs ∈ Dict.keys d
    · have hex := (key_mem_iff hd hv).1 h
      have hfa : firstAppearances ((Dict.values d).map Voteline.prefs) ((vl :: l).map Voteline.prefs) =
          firstAppearances ((Dict.values d).map Voteline.prefs) (l.map Voteline.prefs) := by
        rw [List.map_cons, firstAppearances, if_pos hex]
      rw [hfa]
      have hvals : Dict.values (consStep d vl) = (Dict.values d).map (fun (e : Voteline) => 
          open Classical in if SameMap vl.prefs e.prefs then { e with qty := e.qty + vl.qty } else e) := by
        rw [consStep_old hd.wf h]
        unfold Dict.values
        rw [List.map_map, List.map_map]
        apply List.map_congr_left
        intro e he
        obtain ⟨h1, h2, h3⟩ := hd.entry e he
        have : e.1 = prefsKey vl.prefs ↔ SameMap vl.prefs e.2.prefs := by
          rw [h1, ← prefsKey_iff hv h3]; exact eq_comm
        simp only [Function.comp_apply]
        by_cases hc : SameMap vl.prefs e.2.prefs
        · rw [if_pos hc, if_pos (this.2 hc)]
        · rw [if_neg hc, if_neg (fun h => hc (this.1 h))]
      rw [hvals]
      have hp : ((Dict.values d).map (fun (e : Voteline) => 
          open Classical in if SameMap vl.prefs e.prefs then { e with qty := e.qty + vl.qty } else e)).map Voteline.prefs =
          (Dict.values d).map Voteline.prefs := by
        rw [List.map_map]
        apply List.map_congr_left
        intro e he
        simp only [Function.comp_apply]
        split <;> rfl
      rw [hp, List.map_map]
      congr 1
      · apply List.map_congr_left
        intro e he
        simp only [Function.comp_apply, ballotsSame_cons]
        by_cases hs : SameMap vl.prefs e.prefs
        · simp only [hs, if_true]; congr 1; omega
        · simp only [hs, if_false]; congr 1; omega
      · apply List.map_congr_left
        intro p hpm
        have := (firstApp_mem hpm).2
        obtain ⟨q, hq, hs⟩ := hex
        have hns : ¬ SameMap vl.prefs p := fun hs' => this q hq (SameMap.trans hs hs')
        rw [ballotsSame_cons, if_neg hns]; congr 1; omega
    · have hnex := fun hh => h ((key_mem_iff hd hv).2 hh)
      rw [consStep_new h]
      have e1 : Dict.values (d ++ [(prefsKey vl.prefs, ({ qty := vl.qty, prefs := vl.prefs } : Voteline))]) =
        Dict.values d ++ [{ qty := vl.qty, prefs := vl.prefs }] := by unfold Dict.values; simp
      have hfa : firstAppearances ((Dict.values d).map Voteline.prefs) ((vl :: l).map Voteline.prefs) =
          vl.prefs :: firstAppearances ((Dict.values d).map Voteline.prefs ++ [vl.prefs]) (l.map Voteline.prefs) := by
        rw [List.map_cons, firstAppearances, if_neg hnex]
      rw [e1, List.map_append, List.map_append, hfa]
      simp only [List.map_cons, List.map_nil, List.append_assoc, List.cons_append, List.nil_append]
      congr 1
      · apply List.map_congr_left
        intro e he
        have hns : ¬ SameMap vl.prefs e.prefs := fun hs => hnex ⟨e.prefs, List.mem_map.2 ⟨e, he, rfl⟩, SameMap.symm hs⟩
        rw [ballotsSame_cons, if_neg hns]; congr 1; omega
      · congr 1
        · rw [ballotsSame_cons, if_pos (SameMap.refl _)]
        · apply List.map_congr_left
          intro p hpm
          have := (firstApp_mem hpm).2 vl.prefs (by simp)
          rw [ballotsSame_cons, if_neg this]; congr 1; omega

theorem consInv_nil : ConsInv [] := ⟨Dict.wf_nil, by simp⟩

theorem consolidate_votelines {m : Jabmod} (hl : ∀ (vl : Voteline), vl ∈ m.votelines → Dict.WF vl.prefs) :
    (consolidate m).votelines = (firstAppearances [] (m.votelines.map Voteline.prefs)).map
        (fun p => { qty := ballotsSame p m.votelines, prefs := p }) := by
  unfold consolidate
  simp only
  rw [consLoop_eq hl consInv_nil]
  simp [Dict.values]

theorem firstApp_pairwise (seen l : List (Dict Str Pref)) :
    (firstAppearances seen l).Pairwise (fun p q => ¬ SameMap p q) := by
  induction l generalizing seen with
  | nil => simp [firstAppearances]
  | cons a l ih =>
    unfold firstAppearances
    split
    · exact ih _
    · refine List.pairwise_cons.2 ⟨?_, ih _⟩
      intro q hq
      exact (firstApp_mem hq).2 a (by simp)

theorem firstApp_sublist (seen l : List (Dict Str Pref)) : List.Sublist (firstAppearances seen l) l := by
  induction l generalizing seen with
  | nil => simp [firstAppearances]
  | cons a l ih =>
    unfold firstAppearances
    split
    · exact (ih _).cons _
    · exact (ih _).cons_cons _

theorem firstApp_cover {seen l : List (Dict Str Pref)} {p : Dict Str Pref} (h : p ∈ l) :
    ∃ (q : Dict Str Pref), q ∈ seen ++ firstAppearances seen l ∧ SameMap q p := by
  induction l generalizing seen with
  | nil => simp at h
  | cons a l ih =>
    unfold firstAppearances
    split
    · rename_i hex
      rcases List.mem_cons.1 h with rfl | h
      · obtain ⟨q, hq, hs⟩ := hex
        exact ⟨q, List.mem_append_left _ hq, hs⟩
      · exact ih h
    · rcases List.mem_cons.1 h with rfl | h
      · exact ⟨p, by simp, SameMap.refl _⟩
      · obtain ⟨q, hq, hs⟩ := ih (seen := seen ++ [a]) h
        exact ⟨q, by simpa using hq, hs⟩

theorem firstApp_of_pairwise {seen l : List (Dict Str Pref)}
    (h : (seen ++ l).Pairwise (fun p q => ¬ SameMap p q)) : firstAppearances seen l = l := by
  induction l generalizing seen with
  | nil => rfl
  | cons a l ih =>
    have h' : (seen ++ [a] ++ l).Pairwise (fun p q => ¬ SameMap p q) := by simpa using h
    unfold firstAppearances
    rw [if_neg, ih h']
    rintro ⟨q, hq, hs⟩
    exact (List.pairwise_append.1 h).2.2 q hq a List.mem_cons_self hs

theorem ballotsSame_unique {l : List Voteline} (h : (l.map Voteline.prefs).Pairwise (fun p q => ¬ SameMap p q))
    {vl : Voteline} (hv : vl ∈ l) : ballotsSame vl.prefs l = vl.qty := by
  induction l with
  | nil => simp at hv
  | cons a l ih =>
    rw [List.map_cons, List.pairwise_cons] at h
    rw [ballotsSame_cons]
    rcases List.mem_cons.1 hv with rfl | hv
    · rw [if_pos (SameMap.refl _)]
      have : ballotsSame vl.prefs l = 0 := by
        unfold ballotsSame ballotsWith
        rw [List.filter_eq_nil_iff.2]
        · rfl
        · intro b hb hs
          exact h.1 b.prefs (List.mem_map.2 ⟨b, hb, rfl⟩) (SameMap.symm (by simpa using hs))
      omega
    · rw [if_neg (h.1 vl.prefs (List.mem_map.2 ⟨vl, hv, rfl⟩)), ih h.2 hv]; omega

theorem ballotsWith_append (P : Dict Str Pref → Bool) (l l' : List Voteline) :
    ballotsWith P (l ++ l') = ballotsWith P l + ballotsWith P l' := by
  unfold ballotsWith; simp

theorem ballotsWith_bump (P : Dict Str Pref → Bool) {d : Dict Str Voteline} (hw : Dict.WF d) {k : Str} {e : Voteline}
    (hm : (k, e) ∈ d) (n : Int) :
    ballotsWith P (Dict.values (d.map (fun (e : Str × Voteline) => (e.1, if e.1 = k then { e.2 with qty := e.2.qty + n } else e.2)))) =
      ballotsWith P (Dict.values d) + (if P e.prefs then n else 0) := by
  induction d with
  | nil => simp at hm
  | cons a d ih =>
    obtain ⟨k', v⟩ := a
    have hw' : k' ∉ Dict.keys d ∧ Dict.WF d := by simpa [Dict.WF, Dict.keys] using hw
    simp only [List.map_cons, Dict.values]
    rw [ballotsWith_cons, ballotsWith_cons]
    rcases List.mem_cons.1 hm with hm | hm
    · cases hm
      have : (d.map (fun (x : Str × Voteline) => (x.1, if x.1 = k then { x.2 with qty := x.2.qty + n } else x.2))) = d := by
        conv_rhs => rw [← List.map_id d]
        apply List.map_congr_left
        intro x hx
        have : ¬ x.1 = k := by
          rintro rfl
          exact hw'.1 (List.mem_map.2 ⟨x, hx, rfl⟩)
        simp [this]
      rw [this]
      simp only [if_true]
      split <;> omega
    · have hne : ¬ k' = k := by
        rintro rfl
        exact hw'.1 (List.mem_map.2 ⟨(k', e), hm, rfl⟩)
      have := ih hw'.2 hm
      unfold Dict.values at this
      rw [this]
      simp only [hne, if_false]
      omega

theorem ballotsWith_step {P : Dict Str Pref → Bool} (hP : ∀ (p q : Dict Str Pref), SameMap p q → P p = P q)
    {d : Dict Str Voteline} {vl : Voteline} (hd : ConsInv d) (hv : Dict.WF vl.prefs) :
    ballotsWith P (Dict.values (consStep d vl)) = ballotsWith P (Dict.values d) + (if P vl.prefs then vl.qty else 0) := by
  by_cases h : prefsKey vl.prefs ∈ Dict.keys d
  · rw [consStep_old hd.wf h]
    obtain ⟨⟨k, e⟩, he, hk⟩ := List.mem_map.1 h
    simp only at hk
    subst hk
    rw [ballotsWith_bump P hd.wf he]
    obtain ⟨h1, h2, h3⟩ := hd.entry _ he
    rw [hP vl.prefs e.prefs ((prefsKey_iff hv h3).1 h1)]
  · rw [consStep_new h]
    have e1 : Dict.values (d ++ [(prefsKey vl.prefs, ({ qty := vl.qty, prefs := vl.prefs } : Voteline))]) =
        Dict.values d ++ [{ qty := vl.qty, prefs := vl.prefs }] := by unfold Dict.values; simp
    rw [e1, ballotsWith_append, ballotsWith_cons]
    simp [ballotsWith]

theorem ballotsWith_loop {P : Dict Str Pref → Bool} (hP : ∀ (p q : Dict Str Pref), SameMap p q → P p = P q)
    {l : List Voteline} (hl : ∀ (vl : Voteline), vl ∈ l → Dict.WF vl.prefs) :
    ∀ {d : Dict Str Voteline}, ConsInv d →
    ballotsWith P (Dict.values (consolidateLoop l d)) = ballotsWith P (Dict.values d) + ballotsWith P l := by
  induction l with
  | nil => intro d hd; simp [consolidateLoop, ballotsWith]
  | cons vl l ih =>
    intro d hd
    have hv : Dict.WF vl.prefs := hl vl List.mem_cons_self
    rw [consolidateLoop_cons, ih (fun v hv => hl v (List.mem_cons_of_mem _ hv)) (consInv_step hd hv),
      ballotsWith_step hP hd hv, ballotsWith_cons]
    omega

end Verif
