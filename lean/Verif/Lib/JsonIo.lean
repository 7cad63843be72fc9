/-
Reading and writing jabmods as JSON; every model the tool reads has distinct keys.
-/
import Verif.Model.JsonIo
import Verif.Lib.JsonLoad
import Verif.Lib.ParseTop
import Verif.Lib.Consolidate
import Verif.Model.Cli
import Verif.Props.Consolidate

set_option linter.unusedSimpArgs false
set_option linter.unusedSectionVars false
set_option linter.unusedVariables false

namespace Verif
open Spec Props

/-! ### a jabmod's JSON stands for it -/

theorem prefOf_toJson (p : Pref) : prefOf p.toJson = .ok p := by
  obtain ⟨r, k, d⟩ := p
  rcases r with _ | (_ | _ | _) <;> rcases k with _ | k <;> rcases d with _ | d <;> rfl

theorem prefsOf_json (d : Dict Str Pref) : prefsOf (some (prefsJson d)) = .ok d := by
  unfold prefsJson prefsOf
  simp only
  rw [List.mapM_map, mapM_eq_map _ id]
  · simp
  · intro kp _
    show prefMemberOf (kp.1, kp.2.toJson) = _
    unfold prefMemberOf
    simp only [prefOf_toJson]
    rfl

theorem votelineOf_toJson (vl : Voteline) : votelineOf vl.toJson = .ok vl := by
  obtain ⟨q, p, c, s, v, n⟩ := vl
  have hp := prefsOf_json p
  unfold Voteline.toJson votelineOf
  rcases c with _ | c <;> rcases s with _ | s <;> rcases v with _ | v <;> rcases n with _ | n <;>
    simp only [optMember, List.append_nil, List.cons_append, List.nil_append] <;>
    simp [Dict.get?, qtyOf, hp, commentOf, optStrOf] <;> rfl

theorem jabmodOf_toJson (m : Jabmod) : jabmodOf m.toJson = .ok m := by
  obtain ⟨md, cs, vs⟩ := m
  have hc : (cs.map fun kv => (kv.1, match kv.2 with | some s => Json.str s | none => Json.null)).mapM candOf = .ok cs := by
    rw [List.mapM_map, mapM_eq_map _ id]
    · simp
    · rintro ⟨k, n⟩ _
      cases n <;> rfl
  have hv : (vs.map Voteline.toJson).mapM votelineOf = .ok vs := by
    rw [List.mapM_map, mapM_eq_map _ id]
    · simp
    · intro vl _
      exact votelineOf_toJson vl
  show ((cs.map fun kv => (kv.1, match kv.2 with | some s => Json.str s | none => Json.null)).mapM candOf >>= fun cs =>
    (vs.map Voteline.toJson).mapM votelineOf >>= fun vs => Except.ok ({ metadata := md, candidates := cs, votelines := vs } : Jabmod)) = _
  rw [hc, ok_bind, hv, ok_bind]

/-! ### distinct keys -/

theorem distinctObj_iff (l : List (Str × Json)) : DistinctKeysObj l ↔ ∀ e ∈ l, DistinctKeys e.2 := by
  induction l with
  | nil => simp [DistinctKeysObj]
  | cons e l ih =>
    obtain ⟨k, v⟩ := e
    simp [DistinctKeysObj, ih]

theorem distinctArr_iff (l : List Json) : DistinctKeysArr l ↔ ∀ e ∈ l, DistinctKeys e := by
  induction l with
  | nil => simp [DistinctKeysArr]
  | cons e l ih => simp [DistinctKeysArr, ih]

theorem pref_distinct (p : Pref) : DistinctKeys p.toJson := by
  obtain ⟨r, k, d⟩ := p
  rcases r with _ | (_ | _ | _) <;> rcases k with _ | k <;> rcases d with _ | d <;>
    simp [Pref.toJson, RVal.toJson, DistinctKeys, DistinctKeysObj]

theorem prefs_distinct {d : Dict Str Pref} (h : Dict.WF d) : DistinctKeys (prefsJson d) := by
  unfold prefsJson
  refine ⟨?_, ?_⟩
  · rw [List.map_map]
    exact h
  · rw [distinctObj_iff]
    intro e he
    obtain ⟨kp, _, rfl⟩ := List.mem_map.1 he
    exact pref_distinct _

theorem voteline_distinct {vl : Voteline} (h : Dict.WF vl.prefs) : DistinctKeys vl.toJson := by
  obtain ⟨q, p, c, s, v, n⟩ := vl
  have hp := prefs_distinct h
  simp only at hp
  unfold Voteline.toJson
  rcases c with _ | c <;> rcases s with _ | s <;> rcases v with _ | v <;> rcases n with _ | n <;>
    simp only [optMember, List.append_nil, List.cons_append, List.nil_append] <;>
    simp [DistinctKeys, DistinctKeysObj, hp]

theorem jabmod_distinct {m : Jabmod} (h : KeysOk m) : DistinctKeys m.toJson := by
  unfold Jabmod.toJson
  refine ⟨by simp, ?_⟩
  rw [distinctObj_iff]
  intro e he
  simp only [List.mem_cons, List.not_mem_nil, or_false] at he
  rcases he with rfl | rfl | rfl
  · refine ⟨?_, ?_⟩
    · rw [List.map_map]; exact h.cands
    · rw [distinctObj_iff]
      intro e he
      obtain ⟨kp, _, rfl⟩ := List.mem_map.1 he
      obtain ⟨k, n⟩ := kp
      cases n <;> trivial
  · exact ⟨h.mdata, (distinctObj_iff _).2 h.values⟩
  · show DistinctKeysArr _
    rw [distinctArr_iff]
    intro e he
    obtain ⟨vl, hv, rfl⟩ := List.mem_map.1 he
    exact voteline_distinct (h.prefs vl hv)

/-- writing a model and reading it back -/
theorem load_dump {m : Jabmod} (h : KeysOk m) {a b : Str} (ha : Blank a) (hb : Blank b) : loadModel (a ++ dumpModel m ++ b) = .ok m := by
  unfold loadModel dumpModel Json.dumpsIndent
  rw [jsonLoads_text ha hb (pretty_textOf _ 0) (jabmod_distinct h)]
  exact jabmodOf_toJson m

/-! ### what is read has distinct keys -/

section
variable [U : Uni]

/-- metadata with distinct keys -/
def MetaOk (md : Dict Str Json) : Prop := Dict.WF md ∧ ∀ e ∈ md, DistinctKeys e.2

theorem metaOk_set {md : Dict Str Json} (h : MetaOk md) (k : Str) {v : Json} (hv : DistinctKeys v) : MetaOk (md.set k v) := by
  refine ⟨Dict.wf_set k v h.1, ?_⟩
  rintro ⟨x, w⟩ he
  have hg := Dict.get?_of_mem (Dict.wf_set k v h.1) he
  rw [Dict.get?_set] at hg
  split at hg
  · cases hg; exact hv
  · exact h.2 _ (Dict.mem_of_get? hg)

theorem mergeCands_wf (l : List Str) {d : Dict Str (Option Str)} (h : Dict.WF d) : Dict.WF (mergeCands l d) := by
  induction l generalizing d with
  | nil => exact h
  | cons x l ih =>
    unfold mergeCands
    apply ih
    split
    · exact h
    · exact Dict.wf_set _ _ h

theorem processLine_keys {cw sc : Bool} {i : Nat} {l : Str} {m m' : Jabmod} (h : processLine cw sc i l m = .ok m') (hm : KeysOk m) :
    KeysOk m' := by
  unfold processLine at h
  obtain ⟨m1, h1, h⟩ := bind_ok.1 h
  have hm1 : KeysOk m1 := by
    unfold processComment at h1
    split at h1
    · split at h1
      · simp only at h1
        split at h1
        · cases h1
          have hd : ∀ s, DistinctKeys (.arr [.arr [.int i, .str s]]) := by intro s; simp [DistinctKeys, DistinctKeysArr]
          exact ⟨hm.prefs, hm.cands, (metaOk_set ⟨hm.mdata, hm.values⟩ _ (hd _)).1, (metaOk_set ⟨hm.mdata, hm.values⟩ _ (hd _)).2⟩
        · rename_i lst hl
          cases h1
          have hd : DistinctKeys (.arr lst) := hm.values _ (Dict.mem_of_get? hl)
          have hd : DistinctKeysArr lst := hd
          have hd : ∀ s, DistinctKeys (.arr (lst ++ [.arr [.int i, .str s]])) := by
            intro s
            show DistinctKeysArr _
            rw [distinctArr_iff] at hd ⊢
            intro e he
            rcases List.mem_append.1 he with he | he
            · exact hd e he
            · rw [List.mem_singleton.1 he]; simp [DistinctKeys, DistinctKeysArr]
          exact ⟨hm.prefs, hm.cands, (metaOk_set ⟨hm.mdata, hm.values⟩ _ (hd _)).1, (metaOk_set ⟨hm.mdata, hm.values⟩ _ (hd _)).2⟩
        · cases h1
      · cases h1; exact hm
    · cases h1; exact hm
  split at h
  · cases h
    exact ⟨hm1.prefs, Dict.wf_set _ _ hm1.cands, hm1.mdata, hm1.values⟩
  · split at h
    · cases h
      exact ⟨hm1.prefs, hm1.cands, Dict.wf_set _ _ hm1.mdata, (metaOk_set ⟨hm1.mdata, hm1.values⟩ _ (v := .str _) trivial).2⟩
    · split at h
      · unfold processPrefline at h
        simp only at h
        obtain ⟨md, hmd, h⟩ := bind_ok.1 h
        obtain ⟨pc, hpc, h⟩ := bind_ok.1 h
        obtain ⟨prefs, cands⟩ := pc
        cases h
        have hMd : MetaOk md := by
          unfold bumpBallotcount at hmd
          split at hmd
          · cases hmd; exact metaOk_set ⟨hm1.mdata, hm1.values⟩ _ (by trivial)
          · cases hmd
          · cases hmd
        refine ⟨?_, mergeCands_wf _ hm1.cands, hMd.1, hMd.2⟩
        intro vl hvl
        rcases List.mem_append.1 hvl with hvl | hvl
        · exact hm1.prefs vl hvl
        · rw [List.mem_singleton.1 hvl]
          exact (parsePrefstr_ok hpc).2.1
      · cases h; exact hm1

theorem processLines_keys {cw sc : Bool} {i : Nat} {ls : List Str} {m m' : Jabmod} (h : processLines cw sc i ls m = .ok m') (hm : KeysOk m) :
    KeysOk m' := by
  induction ls generalizing i m with
  | nil => cases h; exact hm
  | cons l ls ih =>
    unfold processLines at h
    obtain ⟨m1, h1, h⟩ := bind_ok.1 h
    exact ih h (processLine_keys h1 hm)

omit U in
theorem mapM_fst {β γ : Type} {f : Str × β → Except PyErr (Str × γ)} (hf : ∀ e r, f e = .ok r → r.1 = e.1) {l : List (Str × β)} {r : List (Str × γ)}
    (h : l.mapM f = .ok r) : r.map Prod.fst = l.map Prod.fst := by
  induction l generalizing r with
  | nil => cases h; rfl
  | cons e l ih =>
    rw [List.mapM_cons] at h
    obtain ⟨a, ha, h⟩ := bind_ok.1 h
    obtain ⟨b, hb, h⟩ := bind_ok.1 h
    cases h
    rw [List.map_cons, List.map_cons, hf e a ha, ih hb]

omit U in
theorem mem_of_mapM {α β : Type} {f : α → Except PyErr β} {l : List α} {r : List β} (h : l.mapM f = .ok r) : ∀ b ∈ r, ∃ a ∈ l, f a = .ok b := by
  induction l generalizing r with
  | nil => cases h; intro b hb; cases hb
  | cons e l ih =>
    rw [List.mapM_cons] at h
    obtain ⟨a, ha, h⟩ := bind_ok.1 h
    obtain ⟨b, hb, h⟩ := bind_ok.1 h
    cases h
    intro x hx
    rcases List.mem_cons.1 hx with rfl | hx
    · exact ⟨e, List.mem_cons_self, ha⟩
    · obtain ⟨y, hy, hy'⟩ := ih hb x hx
      exact ⟨y, List.mem_cons_of_mem _ hy, hy'⟩

theorem addRatings_keys {m m' : Jabmod} (h : addRatings m = .ok m') (hm : KeysOk m) : KeysOk m' := by
  unfold addRatings at h
  obtain ⟨vls, hv, h⟩ := bind_ok.1 h
  cases h
  refine ⟨?_, hm.cands, ?_, ?_⟩
  · intro vl hvl
    obtain ⟨v, hv', he⟩ := mem_of_mapM hv vl hvl
    obtain ⟨ps, hps, he⟩ := bind_ok.1 he
    cases he
    have : ps.map Prod.fst = v.prefs.map Prod.fst := mapM_fst (fun e r h => by
      obtain ⟨p, _, h⟩ := bind_ok.1 h
      cases h; rfl) hps
    show (ps.map Prod.fst).Nodup
    rw [this]
    exact hm.prefs v hv'
  · simp only
    split
    · exact Dict.wf_set _ _ hm.mdata
    · exact hm.mdata
  · simp only
    split
    · exact (metaOk_set ⟨hm.mdata, hm.values⟩ _ (by trivial)).2
    · exact hm.values

theorem emptyish_keys : KeysOk emptyishJabmod :=
  ⟨(by intro vl h; cases h), Dict.wf_nil, by simp [Dict.WF, Dict.keys, emptyishJabmod], by
    intro e he
    rw [List.mem_singleton.1 he]; trivial⟩

/-- C72: reading ABIF text -/
theorem convertAbif_keys {cw ar sc : Bool} {text : Str} {m : Jabmod} (h : convertAbif cw ar sc text = .ok m) : KeysOk m := by
  rw [convertAbif_eq] at h
  obtain ⟨m0, h0, h⟩ := bind_ok.1 h
  rw [← processLines_text] at h0
  have k0 := processLines_keys h0 emptyish_keys
  unfold finish at h
  split at h
  · cases h
  · obtain ⟨m1, h1, h⟩ := bind_ok.1 h
    have k1 : KeysOk m1 := by
      split at h1
      · exact addRatings_keys h1 k0
      · cases h1; exact k0
    cases h
    exact ⟨fun vl hvl => k1.prefs vl ((sortByKeyDesc_perm _ _).mem_iff.1 hvl), k1.cands, k1.mdata, k1.values⟩

theorem consolidate_keys {m : Jabmod} (h : KeysOk m) : KeysOk (consolidate m) := by
  refine ⟨?_, h.cands, h.mdata, h.values⟩
  intro vl hvl
  have hm : vl.prefs ∈ (consolidate m).votelines.map Voteline.prefs := List.mem_map.2 ⟨vl, hvl, rfl⟩
  rw [consolidate_prefs h.prefs] at hm
  have := (firstApp_sublist [] _).subset hm
  obtain ⟨v, hv, he⟩ := List.mem_map.1 this
  rw [← he]
  exact h.prefs v hv

theorem parseQsGroup_wf (l : List (Str × Str)) {d : Dict Str (List Str)} (h : Dict.WF d) : Dict.WF (parseQsGroup l d) := by
  induction l generalizing d with
  | nil => exact h
  | cons e l ih =>
    obtain ⟨k, v⟩ := e
    unfold parseQsGroup
    exact ih (Dict.wf_set _ _ h)

omit U in
theorem foldl_set_wf {α β : Type} {γ : Type} [DecidableEq γ] (f : α → γ) (g : α → β) (l : List α) {d : Dict γ β} (h : Dict.WF d) :
    Dict.WF (l.foldl (fun d a => Dict.set d (f a) (g a)) d) := by
  induction l generalizing d with
  | nil => exact h
  | cons e l ih => exact ih (Dict.wf_set _ _ h)

theorem nameqCands_wf (vls : List Voteline) {d : Dict Str (Option Str)} (h : Dict.WF d) : Dict.WF (nameqCands vls d) := by
  induction vls generalizing d with
  | nil => exact h
  | cons v vls ih =>
    unfold nameqCands
    exact ih (foldl_set_wf id some _ h)

theorem nameq_keys {text : Str} {m : Jabmod} (h : nameqToJabmod text = .ok m) : KeysOk m := by
  unfold nameqToJabmod at h
  split at h
  · cases h
  · rename_i vls hv
    cases h
    refine ⟨?_, nameqCands_wf _ Dict.wf_nil, by simp [Dict.WF, Dict.keys], ?_⟩
    · intro vl hvl
      obtain ⟨line, _, hl⟩ := mem_of_mapM hv vl hvl
      unfold nameqLine at hl
      split at hl
      · rename_i ps hps
        cases hl
        have : ps.map Prod.fst = (parseQs (strip line)).map Prod.fst := mapM_fst (fun e r h => by
          unfold nameqEntry at h
          split at h
          · split at h
            · cases h; rfl
            · cases h
          · cases h) hps
        show (ps.map Prod.fst).Nodup
        rw [this]
        exact parseQsGroup_wf _ Dict.wf_nil
      · cases hl
    · intro e he
      simp only [List.mem_cons, List.not_mem_nil, or_false] at he
      rcases he with rfl | rfl <;> trivial

theorem sfCands_wf (l : List (Str × Option Str)) (n : Nat) {d : Dict Str (Option Str)} (h : Dict.WF d) : Dict.WF (sfCands l n d) := by
  induction l generalizing n d with
  | nil => exact h
  | cons e l ih =>
    unfold sfCands
    exact ih _ (Dict.wf_set _ _ h)

theorem sfPrefs_wf (vb : Bool) (l : List SfVote) {d : Dict Str Pref} (h : Dict.WF d) : Dict.WF (sfPrefs vb l d) := by
  induction l generalizing d with
  | nil => exact h
  | cons e l ih =>
    unfold sfPrefs
    split
    · exact ih (Dict.wf_set _ _ h)
    · exact ih h

theorem sf_keys {vb : Bool} {a b : Str} {m : Jabmod} (h : sfConvert vb a b = .ok m) : KeysOk m := by
  unfold sfConvert at h
  generalize readBlob masterSpec a = r1 at h
  cases r1 with
  | error e => cases h
  | ok rows =>
  simp only at h
  cases h2 : sfPool rows with
  | error e => rw [h2] at h; cases h
  | ok pc =>
  rw [h2] at h
  obtain ⟨pool, contest⟩ := pc
  simp only at h
  generalize readFieldspec imageSpec = r3 at h
  cases r3 with
  | error e => cases h
  | ok fields =>
  simp only at h
  split at h
  · cases h
  cases h4 : sfBallots fields pool contest (splitlines b) none with
  | error e => rw [h4] at h; cases h
  | ok bs =>
  rw [h4] at h
  simp only at h
  cases hv : bs.mapM (sfVoteline vb) with
  | error e => rw [hv] at h; cases h
  | ok vls =>
    rw [hv] at h
    simp only at h
    have key : ∀ (c : Option Str) (p : List (Str × Option Str)), KeysOk { metadata := [(c!"ballotcount", .int vls.length), (c!"contestid", optJson c)], candidates := sfCands p 0 [], votelines := vls } := by
      intro c p
      refine ⟨?_, sfCands_wf _ _ Dict.wf_nil, by simp [Dict.WF, Dict.keys], ?_⟩
      · intro vl hvl
        obtain ⟨bl, _, hl⟩ := mem_of_mapM hv vl hvl
        unfold sfVoteline at hl
        split at hl
        · cases hl
        · cases hl; exact sfPrefs_wf _ _ Dict.wf_nil
      · intro e he
        simp only [List.mem_cons, List.not_mem_nil, or_false] at he
        rcases he with rfl | rfl
        · trivial
        · cases c <;> trivial
    cases vb with
    | true => cases h; exact key _ _
    | false => cases h; exact consolidate_keys (key _ _)

end

theorem foldl_set_values {P : Json → Prop} (l : List (Str × Json)) {d : Dict Str Json} (hl : ∀ e ∈ l, P e.2) (hw : Dict.WF d) (hd : ∀ e ∈ d, P e.2) :
    ∀ e ∈ l.foldl (fun d kv => Dict.set d kv.1 kv.2) d, P e.2 := by
  induction l generalizing d with
  | nil => exact hd
  | cons x l ih =>
    rw [List.foldl_cons]
    refine ih (fun e he => hl e (List.mem_cons_of_mem _ he)) (Dict.wf_set _ _ hw) ?_
    rintro ⟨k, v⟩ he
    have hg := Dict.get?_of_mem (Dict.wf_set x.1 x.2 hw) he
    rw [Dict.get?_set] at hg
    split at hg
    · cases hg; exact hl x List.mem_cons_self
    · exact hd _ (Dict.mem_of_get? hg)

theorem jsonNumber_distinct {s r : Str} {v : Json} (h : jsonNumber s = .ok (v, r)) : DistinctKeys v := by
  unfold jsonNumber at h
  simp only at h
  split at h
  · cases h
  · split at h
    · cases h
    · cases h; trivial

theorem json_distinct (n : Nat) : (∀ s v r, jsonVal n s = .ok (v, r) → DistinctKeys v) ∧
    (∀ s l r, jsonElems n s = .ok (l, r) → DistinctKeysArr l) ∧ (∀ s l r, jsonMembers n s = .ok (l, r) → DistinctKeysObj l) := by
  induction n with
  | zero =>
    refine ⟨?_, ?_, ?_⟩ <;> intro s v r h
    · rw [jsonVal] at h; cases h
    · rw [jsonElems] at h; cases h
    · rw [jsonMembers] at h; cases h
  | succ n ih =>
    obtain ⟨i1, i2, i3⟩ := ih
    refine ⟨?_, ?_, ?_⟩
    · intro s v r h
      unfold jsonVal at h
      split at h
      · cases h
      · split at h
        · split at h
          · cases h
          · cases h; trivial
        · split at h
          · split at h
            · cases h; exact ⟨List.nodup_nil, trivial⟩
            · split at h
              · cases h
              · rename_i kvs r' hm
                cases h
                refine ⟨foldl_set_wf Prod.fst Prod.snd kvs Dict.wf_nil, ?_⟩
                rw [distinctObj_iff]
                exact foldl_set_values kvs ((distinctObj_iff _).1 (i3 _ _ _ hm)) Dict.wf_nil (by intro e he; cases he)
          · split at h
            · split at h
              · cases h; trivial
              · split at h
                · cases h
                · rename_i vs r' hm
                  cases h
                  exact i2 _ _ _ hm
            · repeat' (split at h)
              all_goals first
                | (cases h; trivial)
                | (cases h; done)
                | exact jsonNumber_distinct h
    · intro s l r h
      unfold jsonElems at h
      split at h
      · cases h
      · rename_i v r1 hv
        have hd := i1 _ _ _ hv
        split at h
        · cases h
        · split at h
          · cases h; exact ⟨hd, trivial⟩
          · split at h
            · split at h
              · cases h
              · rename_i hm
                cases h; exact ⟨hd, i2 _ _ _ hm⟩
            · cases h
    · intro s l r h
      unfold jsonMembers at h
      split at h
      · cases h
      · split at h
        · split at h
          · cases h
          · split at h
            · cases h
            · split at h
              · split at h
                · cases h
                · rename_i v r1 hv
                  have hd := i1 _ _ _ hv
                  split at h
                  · cases h
                  · split at h
                    · cases h; exact ⟨hd, trivial⟩
                    · split at h
                      · split at h
                        · cases h
                        · rename_i hm
                          cases h; exact ⟨hd, i3 _ _ _ hm⟩
                      · cases h
              · cases h
        · cases h

/-- what `json.loads` returns has no key twice -/
theorem jsonLoads_distinct {s : Str} {v : Json} (h : jsonLoads s = .ok v) : DistinctKeys v := by
  unfold jsonLoads at h
  split at h
  · cases h
  · split at h
    · cases h
    · rename_i hv
      split at h
      · cases h; exact (json_distinct _).1 _ _ _ hv
      · cases h

theorem distinct_get {l : List (Str × Json)} (h : DistinctKeys (.obj l)) {k : Str} {v : Json} (hg : Dict.get? l k = some v) : DistinctKeys v :=
  (distinctObj_iff l).1 h.2 _ (Dict.mem_of_get? hg)

theorem votelineOf_wf {j : Json} {vl : Voteline} (hd : DistinctKeys j) (h : votelineOf j = .ok vl) : Dict.WF vl.prefs := by
  unfold votelineOf at h
  split at h
  · rename_i l
    obtain ⟨q, _, h⟩ := bind_ok.1 h
    obtain ⟨p, hp, h⟩ := bind_ok.1 h
    obtain ⟨_, _, h⟩ := bind_ok.1 h
    obtain ⟨_, _, h⟩ := bind_ok.1 h
    obtain ⟨_, _, h⟩ := bind_ok.1 h
    obtain ⟨_, _, h⟩ := bind_ok.1 h
    cases h
    unfold prefsOf at hp
    split at hp
    · rename_i ps hg
      have := mapM_fst (fun e r h => by
        unfold prefMemberOf at h
        obtain ⟨_, _, h⟩ := bind_ok.1 h
        cases h; rfl) hp
      show (p.map Prod.fst).Nodup
      rw [this]
      exact (distinct_get hd hg).1
    · cases hp
  · cases h

theorem jabmodOf_keys {j : Json} {m : Jabmod} (hd : DistinctKeys j) (h : jabmodOf j = .ok m) : KeysOk m := by
  unfold jabmodOf at h
  split at h
  · rename_i l
    split at h
    · rename_i cs md vs h1 h2 h3
      obtain ⟨cs', hc, h⟩ := bind_ok.1 h
      obtain ⟨vs', hv, h⟩ := bind_ok.1 h
      cases h
      refine ⟨?_, ?_, (distinct_get hd h2).1, (distinctObj_iff _).1 (distinct_get hd h2).2⟩
      · intro vl hvl
        obtain ⟨j, hj, hj'⟩ := mem_of_mapM hv vl hvl
        exact votelineOf_wf ((distinctArr_iff vs).1 (distinct_get hd h3) j hj) hj'
      · have := mapM_fst (fun e r h => by
          unfold candOf at h
          obtain ⟨_, _, h⟩ := bind_ok.1 h
          cases h; rfl) hc
        show (cs'.map Prod.fst).Nodup
        rw [this]
        exact (distinct_get hd h1).1
    · cases h
  · cases h

theorem loadModel_keys {s : Str} {m : Jabmod} (h : loadModel s = .ok m) : KeysOk m := by
  unfold loadModel at h
  cases hj : jsonLoads s with
  | error e => rw [hj] at h; cases h
  | ok j =>
    rw [hj] at h
    exact jabmodOf_keys (jsonLoads_distinct hj) h

section
variable [U : Uni]

/-- every model the command line works on has distinct keys -/
theorem cliModel_keys {env : CliEnv} (hl : env.loads = loadModel) {a : CliArgs} {fmt s : Str} {blobs : List Str} {m : Jabmod}
    (h : cliModel env a fmt s blobs = .ok m) : KeysOk m := by
  have viaAbif : ∀ {x : Except PyErr Str}, x.bind (convertAbif false false false) = .ok m → KeysOk m := by
    intro x hx
    cases x with
    | error e => cases hx
    | ok t => exact convertAbif_keys hx
  unfold cliModel at h
  split at h
  · exact convertAbif_keys h
  · split at h
    · exact viaAbif h
    · split at h
      · rw [hl] at h; exact loadModel_keys h
      · split at h
        · exact nameq_keys h
        · split at h
          · exact viaAbif h
          · split at h
            · split at h
              · exact sf_keys h
              · cases h
            · split at h
              · cases hw : convertWidj (.str s) with
                | error e => rw [hw] at h; cases h
                | ok w => rw [hw] at h; cases h
              · cases h

end

end Verif
