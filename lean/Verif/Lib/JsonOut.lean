/-
The documents of Model/JsonOut: their keys are distinct, and looking things up in them.
-/
import Verif.Model.Cli
import Verif.Spec.JsonOut
import Verif.Lib.JsonIo
import Verif.Props.Tally

namespace Verif
open Verif.Spec Verif.Props

/-! ### lookup -/

theorem member_obj (k : Str) (l : List (Str × Json)) : member k (.obj l) = Dict.get? l k := by
  unfold member
  induction l with
  | nil => rfl
  | cons e l ih =>
    obtain ⟨k', v⟩ := e
    unfold Dict.get?
    by_cases h : k' = k
    · simp [h]
    · simp only [List.find?_cons, h, decide_false, if_false]
      exact ih

theorem get?_mapJson {α : Type} (f : α → Json) (d : Dict Str α) (k : Str) :
    Dict.get? (d.map fun kv => (kv.1, f kv.2)) k = (Dict.get? d k).map f := by
  induction d with
  | nil => rfl
  | cons e l ih =>
    obtain ⟨k', v⟩ := e
    simp only [List.map_cons, Dict.get?]
    split
    · rfl
    · exact ih

/-! ### distinct keys -/

theorem optStr_distinct (s : Option Str) : DistinctKeys (optStrJson s) := by cases s <;> trivial
theorem optInt_distinct (s : Option Int) : DistinctKeys (optIntJson s) := by cases s <;> trivial

theorem strs_distinct (l : List Str) : DistinctKeys (strsJson l) := by
  show DistinctKeysArr _
  rw [distinctArr_iff]
  intro e he
  obtain ⟨s, _, rfl⟩ := List.mem_map.1 he
  trivial

theorem obj_distinct {α : Type} {d : Dict Str α} (hd : Dict.WF d) {f : Str × α → Json} (hf : ∀ kv ∈ d, DistinctKeys (f kv)) :
    DistinctKeys (.obj (d.map fun kv => (kv.1, f kv))) := by
  refine ⟨?_, ?_⟩
  · rw [List.map_map]; exact hd
  · rw [distinctObj_iff]
    intro e he
    obtain ⟨kv, hkv, rfl⟩ := List.mem_map.1 he
    exact hf kv hkv

theorem pairs_distinct {m : Jabmod} (h : Dict.WF m.candidates) : DistinctKeys (pairsDoc (pairwiseCount m)) := by
  rw [pairwiseCount_eq]
  have hk : (Dict.keys m.candidates).Nodup := h
  generalize Dict.keys m.candidates = toks at hk
  have hwf : ∀ {α : Type} (f : Str → α), Dict.WF (toks.map fun a => (a, f a)) := by
    intro α f
    unfold Dict.WF Dict.keys
    simpa [List.map_map, Function.comp_def] using hk
  unfold pairsDoc matrixOf
  refine obj_distinct (hwf _) ?_
  intro kv hkv
  obtain ⟨a, _, rfl⟩ := List.mem_map.1 hkv
  refine obj_distinct (hwf _) ?_
  intro kv hkv
  exact optInt_distinct _

theorem wlt_distinct {d : Dict Str WLT} (h : Dict.WF d) : DistinctKeys (wltDoc d) := by
  refine obj_distinct h ?_
  intro kv _
  simp [WLT.toJson, DistinctKeys, DistinctKeysObj]

theorem winLossTie_wf {m : Jabmod} {w : Dict Str WLT} (h : Dict.WF m.candidates)
    (hw : winLossTie m.candidates.keys (pairwiseCount m) = .ok w) : Dict.WF w := by
  obtain ⟨cc, hcc, hv, hp, _⟩ := C21_partial m h
  unfold fullCopecount at hcc
  simp only at hcc
  rw [hw, ok_bind] at hcc
  cases hcc
  exact hp.nodup_iff.2 h

theorem countLoop_wf {vls : List Voteline} {a b : CountAcc} (h : countLoop vls a = .ok b) (ha : Dict.WF a.counts) : Dict.WF b.counts := by
  induction vls generalizing a with
  | nil => cases h; exact ha
  | cons vl rest ih =>
    unfold countLoop at h
    obtain ⟨r, _, h⟩ := bind_ok.1 h
    simp only at h
    split at h
    · obtain ⟨n, _, h⟩ := bind_ok.1 h
      exact ih h (Dict.wf_set _ _ ha)
    · exact ih h ha

/-- the dicts of a run of IRV have distinct keys -/
theorem irvCount_wf {S : Sched} {n : Nat} {prev : Option RoundMeta} {rn : Nat} {cands : List Str} {vls : List Voteline} {run : IrvRun}
    (h : irvCount S n prev rn cands vls = .ok run) (hn : cands.Nodup) : ∀ cs ∈ run.rounds, Dict.WF cs := by
  induction n generalizing prev rn cands vls run with
  | zero => cases h
  | succ n ih =>
    unfold irvCount at h
    obtain ⟨r, h1, h2⟩ := bind_ok.1 h
    unfold irvRound at h1
    obtain ⟨⟨ov, pruned⟩, _, h1⟩ := bind_ok.1 h1
    obtain ⟨a, hc, h1⟩ := bind_ok.1 h1
    have hwf : Dict.WF a.counts := countLoop_wf hc (by
      unfold Dict.WF Dict.keys
      simpa [List.map_map, Function.comp_def] using hn)
    unfold roundFinish at h1
    simp only at h1
    split at h1
    · split at h1
      · cases h1
        cases h2
        intro cs hcs
        rw [List.mem_singleton.1 hcs]
        exact hwf
      · cases h1
        simp only at h2
        obtain ⟨t, ht, h2⟩ := bind_ok.1 h2
        cases h2
        intro cs hcs
        rcases List.mem_cons.1 hcs with rfl | hcs
        · exact hwf
        · exact ih ht ((S.setOrder_perm _ _).nodup_iff.2 (hn.filter _)) cs hcs
    · cases h1

theorem roundmeta_distinct (L : SetListing) (n : Nat) (r : RoundMeta) : DistinctKeys (r.toJson L n) := by
  obtain ⟨a1, a2, a3, a4, a5, a6, a7, a8, a9, a10, a11, a12, bt, be, re, el, ae, w⟩ := r
  have hs := strs_distinct
  unfold RoundMeta.toJson
  rcases bt with _ | bt <;> rcases w with _ | w <;> cases be <;> cases re <;>
    simp only [trueMember, List.append_nil, List.cons_append, List.nil_append, if_true, Bool.false_eq_true, if_false] <;>
    refine ⟨by simp only [List.map_cons, List.map_nil]; decide, ?_⟩ <;>
    simp [DistinctKeys, DistinctKeysObj, hs]

theorem irv_distinct {S : Sched} {L : SetListing} {m : Jabmod} {d : IrvDict} (h : Dict.WF m.candidates) (hd : irvDict S m = .ok d) :
    DistinctKeys (irvDoc L m.candidates d) := by
  have hr : ∀ cs ∈ d.run.rounds, Dict.WF cs := by
    unfold irvDict at hd
    obtain ⟨run, h1, h2⟩ := bind_ok.1 hd
    obtain ⟨w, _, h3⟩ := bind_ok.1 h2
    cases h3
    exact irvCount_wf h1 h
  unfold irvDoc
  refine ⟨by simp only [List.map_cons, List.map_nil]; decide, ?_⟩
  rw [distinctObj_iff]
  intro e he
  simp only [List.mem_cons, List.not_mem_nil, or_false] at he
  rcases he with rfl | rfl | rfl | rfl | rfl | rfl
  · exact obj_distinct h (fun kv _ => optStr_distinct _)
  · exact strs_distinct _
  · show DistinctKeysArr _
    rw [distinctArr_iff]
    intro e he
    obtain ⟨cs, hcs, rfl⟩ := List.mem_map.1 he
    exact obj_distinct (hr cs hcs) (fun kv _ => trivial)
  · show DistinctKeysArr _
    generalize 0 = n
    induction d.run.roundmeta generalizing n with
    | nil => trivial
    | cons r rs ih => exact ⟨roundmeta_distinct L n r, ih _⟩
  · exact optStr_distinct _
  · trivial

section
variable [U : Uni]

theorem scorePrefs_wf {qty : Int} {l : List (Str × Pref)} {d d' : Dict Str ScoreEntry} (h : scorePrefs qty l d = .ok d') (hd : Dict.WF d) :
    Dict.WF d' := by
  induction l generalizing d with
  | nil => cases h; exact hd
  | cons e l ih =>
    obtain ⟨c, p⟩ := e
    unfold scorePrefs at h
    obtain ⟨r, _, h⟩ := bind_ok.1 h
    obtain ⟨x, _, h⟩ := bind_ok.1 h
    exact ih h (Dict.wf_set _ _ hd)

theorem scoreLines_wf {l : List Voteline} {d d' : Dict Str ScoreEntry} (h : scoreLines l d = .ok d') (hd : Dict.WF d) : Dict.WF d' := by
  induction l generalizing d with
  | nil => cases h; exact hd
  | cons vl l ih =>
    unfold scoreLines at h
    obtain ⟨x, hx, h⟩ := bind_ok.1 h
    exact ih h (scorePrefs_wf hx hd)

theorem starResult_wf {m : Jabmod} {r : StarResult} (hm : Dict.WF m.candidates) (h : starResult m = .ok r) :
    Dict.WF r.base.scores ∧ ∃ bc, r.base.totalvoters = .int bc := by
  unfold starResult at h
  obtain ⟨b, hb, h⟩ := bind_ok.1 h
  obtain ⟨cc, _, h⟩ := bind_ok.1 h
  have hwf : Dict.WF b.scores := by
    unfold enhancedScore at hb
    obtain ⟨s, hs, hb⟩ := bind_ok.1 hb
    obtain ⟨tv, _, hb⟩ := bind_ok.1 hb
    cases hb
    refine scoreLines_wf hs ?_
    unfold Dict.WF Dict.keys at hm ⊢
    simpa [List.map_map, Function.comp_def] using hm
  split at h
  · obtain ⟨e1, _, h⟩ := bind_ok.1 h
    obtain ⟨e2, _, h⟩ := bind_ok.1 h
    obtain ⟨v1, _, h⟩ := bind_ok.1 h
    obtain ⟨v2, _, h⟩ := bind_ok.1 h
    split at h
    · cases h
      exact ⟨hwf, _, by assumption⟩
    · cases h
  · cases h

theorem star_distinct {m : Jabmod} {r : StarResult} (hm : Dict.WF m.candidates) (h : starResult m = .ok r) : DistinctKeys (starDoc r) := by
  obtain ⟨hwf, bc, htv⟩ := starResult_wf hm h
  unfold starDoc
  refine ⟨by simp only [List.map_cons, List.map_nil]; decide, ?_⟩
  rw [distinctObj_iff]
  intro e he
  simp only [List.mem_cons, List.not_mem_nil, or_false] at he
  rcases he with rfl | rfl | rfl | rfl | rfl | rfl | rfl | rfl | rfl | rfl | rfl | rfl | rfl
  · refine obj_distinct (f := fun kv => (scoreEntryJson r.base.ranks kv).2) hwf ?_
    intro kv _
    unfold scoreEntryJson
    cases kv.2.candname <;> cases Dict.get? r.base.ranks kv.1 <;> simp [DistinctKeys, DistinctKeysObj, optStrJson]
  · exact strs_distinct _
  · trivial
  · rw [htv]; trivial
  · exact strs_distinct _
  · trivial
  · trivial
  · exact optStr_distinct _
  · exact optStr_distinct _
  · trivial
  · trivial
  · trivial
  · cases r.winner
    · exact optStr_distinct _
    · trivial

end

end Verif
