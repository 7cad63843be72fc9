/-
Helper lemmas: a parsed model can be exported when its ballot tokens are printable.
-/
import Verif.Lib.ParsedRatings
import Verif.Lib.ExportFile

set_option linter.unusedSimpArgs false
set_option linter.unusedSectionVars false

namespace Verif
open Spec
variable [U : Uni]

theorem dropOne_mem {p : Char → Bool} {s : Str} {c : Char} (h : c ∈ dropOne p s) : c ∈ s := by
  cases s with
  | nil => exact h
  | cons a t =>
    rw [dropOne] at h
    split at h
    · exact List.mem_cons_of_mem _ h
    · exact h

theorem readCand_mem {s t d : Str} (h : readCand s = some (t, d)) : (∀ c ∈ t, c ∈ s) ∧ (∀ c ∈ d, c ∈ s) := by
  obtain ⟨u, rfl⟩ := readCand_head h
  rw [readCand_cons_eq] at h
  simp only at h
  have hu : ∀ c ∈ dropOne (fun c => c == '"' || c == '[') (u.dropWhile isSpace), c ∈ '=' :: u := fun c hc =>
    List.mem_cons_of_mem _ ((List.dropWhile_sublist _).subset (dropOne_mem hc))
  generalize dropOne (fun c => c == '"' || c == '[') (u.dropWhile isSpace) = w at h hu
  split at h
  · rename_i d' heq
    split at h
    · cases h
      refine ⟨fun c hc => hu c ((List.takeWhile_sublist _).subset hc), fun c hc => ?_⟩
      have h1 := dropOne_mem ((List.takeWhile_sublist _).subset hc)
      have h2 : c ∈ ':' :: d' := List.mem_cons_of_mem _ h1
      rw [← heq] at h2
      exact hu c ((List.dropWhile_sublist _).subset (dropOne_mem h2))
    · cases h
  · cases h

theorem textLines_noBreak (cw : Bool) (text : Str) : ∀ l ∈ textLines cw text, ∀ c ∈ beforeHash l, isLineBreak c = false := by
  intro l hl c hc
  obtain ⟨l0, h0, rfl⟩ := List.mem_map.1 hl
  have hc := (List.takeWhile_sublist _).subset hc
  have : c ∈ l0 := by
    cases cw with
    | false => simpa using hc
    | true =>
      simp only [if_true] at hc
      exact (List.dropWhile_sublist _).subset hc
  exact splitlines_noBreak text l0 h0 c this

theorem metaValue_key {ls : List Str} {k v : Str} (h : metaValue ls k = some v) :
    k = c!"ballotcount_abif_metadata" ∨ ∃ l ∈ ls, matchMeta (beforeHash l) = some (k, v) := by
  unfold metaValue at h
  simp only [← matchMeta_eq] at h
  obtain ⟨⟨k', v'⟩, h1, rfl⟩ := Option.map_eq_some_iff.1 h
  have h2 := List.mem_of_getLast? h1
  obtain ⟨h3, h4⟩ := List.mem_filter.1 h2
  obtain ⟨l, hl, h5⟩ := List.mem_filterMap.1 h3
  simp only [decide_eq_true_eq] at h4
  split at h4
  · exact .inl h4.symm
  · subst h4; exact .inr ⟨l, hl, h5⟩

theorem metaForm_key {s k v : Str} (h : MetaForm s k v) : ∀ c ∈ k, c ∈ s := by
  obtain ⟨w1, q1, w2, q2, w3, w4, q3, w5, q4, w6, hs, _⟩ := h
  intro c hc
  rw [hs]
  simp [hc]

theorem declared_mem {ls : List Str} {t d : Str} (h : declared ls t = some d) : ∃ l ∈ ls, readCand (beforeHash l) = some (t, d) := by
  unfold declared at h
  obtain ⟨⟨k', v'⟩, h1, rfl⟩ := Option.map_eq_some_iff.1 h
  have h2 := List.mem_of_getLast? h1
  obtain ⟨h3, h4⟩ := List.mem_filter.1 h2
  obtain ⟨l, hl, h5⟩ := List.mem_filterMap.1 h3
  simp only [decide_eq_true_eq] at h4
  subst h4
  exact ⟨l, hl, h5⟩

theorem parsed_oneLine {cw : Bool} {text : Str} {m : Jabmod} (h : convertAbif cw false false text = .ok m)
    (htok : ∀ (vl : Voteline), vl ∈ m.votelines → ∀ (k : Str), k ∈ Dict.keys vl.prefs → Printable k) :
    (∀ (kv : Str × Json), kv ∈ m.metadata → ∀ c ∈ kv.1, isLineBreak c = false) ∧
    (∀ (kv : Str × Option Str), kv ∈ m.candidates → ∀ c ∈ kv.1, isLineBreak c = false) ∧
    (∀ (kv : Str × Option Str), kv ∈ m.candidates → ∀ d, kv.2 = some d → ∀ c ∈ d, isLineBreak c = false) := by
  obtain ⟨vls, f1, fx, f2, f3, f4, fy, f6⟩ := convertAbif_ok h
  have hlines := textLines_noBreak cw text
  have hcw : Dict.WF m.candidates := by
    unfold Dict.WF
    rw [f3]; exact nodup_firsts _
  have hvtok : ∀ src ∈ votesOf cw text, ∀ k ∈ ballotCands src.2.1, Printable k := by
    have : ∀ vl ∈ vls, ∀ (k : Str), k ∈ Dict.keys vl.prefs → Printable k := by
      intro vl hvl
      apply htok vl
      rw [f2, (sortByKeyDesc_perm _ _).mem_iff]
      exact hvl
    clear h f2 f3 f4 f6 hlines htok fx fy
    generalize votesOf cw text = vo at f1
    induction f1 with
    | nil => simp
    | cons hs _ ih =>
      intro src hsrc
      rcases List.mem_cons.1 hsrc with rfl | hsrc
      · intro k hk
        obtain ⟨_, ⟨cands, hp⟩, _⟩ := hs
        unfold ballotCands at hk
        rw [hp] at hk
        exact this _ (by simp) k hk
      · exact ih (fun vl hvl => this vl (by simp [hvl])) src hsrc
  have htoks : ∀ (kv : Str × Option Str), kv ∈ m.candidates → ∀ c ∈ kv.1, isLineBreak c = false := by
    rintro ⟨tok, name⟩ hm c hc
    have : tok ∈ Dict.keys m.candidates := List.mem_map_of_mem (f := Prod.fst) hm
    rw [f3, mem_firsts, List.mem_flatMap] at this
    obtain ⟨l, hl, ht⟩ := this
    unfold lineMentions at ht
    cases hr : readCand (beforeHash l) with
    | some r =>
      rw [hr] at ht
      obtain ⟨t', d⟩ := r
      simp only [List.mem_singleton] at ht; subst ht
      exact hlines l hl c ((readCand_mem hr).1 c hc)
    | none =>
      rw [hr] at ht
      simp only at ht
      cases hrv : readVote (beforeHash l) with
      | none => rw [hrv] at ht; cases ht
      | some r =>
        rw [hrv] at ht
        obtain ⟨q, p⟩ := r
        have := hvtok (q, p, hashComment l) (List.mem_filterMap.2 ⟨l, hl, by unfold lineVote; rw [hrv]; rfl⟩) tok ht
        exact this.2.2.2.1 c hc
  refine ⟨?_, htoks, ?_⟩
  · rintro ⟨k, v⟩ hm
    by_cases hk1 : k = c!"comments"
    · subst hk1; simp only; decide
    by_cases hk2 : k = c!"ballotcount"
    · subst hk2; simp only; decide
    have hk : k ∈ Dict.keys m.metadata := List.mem_map_of_mem (f := Prod.fst) hm
    obtain ⟨v', hv'⟩ := Dict.exists_get?_of_mem hk
    rw [f6 k hk1 hk2] at hv'
    obtain ⟨v'', h1, _⟩ := Option.map_eq_some_iff.1 hv'
    rcases metaValue_key h1 with rfl | ⟨l, hl, hmm⟩
    · simp only; decide
    · intro c hc
      exact hlines l hl c (metaForm_key (matchMeta_sound hmm) c hc)
  · rintro ⟨tok, name⟩ hm d hd
    simp only at hd; subst hd
    have hk : tok ∈ Dict.keys m.candidates := List.mem_map_of_mem (f := Prod.fst) hm
    have h1 := Dict.get?_of_mem hcw hm
    rw [f4 tok hk] at h1
    cases hdc : declared (textLines cw text) tok with
    | none =>
      rw [hdc] at h1
      cases h1
      exact htoks _ hm
    | some d' =>
      rw [hdc] at h1
      cases h1
      obtain ⟨l, hl, hr⟩ := declared_mem hdc
      exact fun c hc => hlines l hl c ((readCand_mem hr).2 c hc)

theorem ratedLine_keys (b : Bool) (n : Int) (vl : Voteline) : Dict.keys (ratedLine b n vl).prefs = Dict.keys vl.prefs := by
  unfold ratedLine Dict.keys
  simp [List.map_map, Function.comp_def]

theorem parsed_exportable {cw ar : Bool} {text : Str} {m : Jabmod} (h : convertAbif cw ar false text = .ok m)
    (htok : ∀ (vl : Voteline), vl ∈ m.votelines → ∀ (k : Str), k ∈ Dict.keys vl.prefs → Printable k)
    (hrate : ar = true → ∀ (vl : Voteline), vl ∈ m.votelines → ∀ (e : Str × Pref), e ∈ vl.prefs → PlainRating e.2.rating) :
    (∀ vl ∈ m.votelines, Exportable vl) ∧ OneLine m.metadata m.candidates ∧ m.votelines ≠ [] ∧
    Dict.get? m.metadata c!"ballotcount" = some (.int (m.votelines.map Voteline.qty).sum) := by
  have base : ∀ {m : Jabmod}, convertAbif cw false false text = .ok m →
      (∀ (vl : Voteline), vl ∈ m.votelines → ∀ (k : Str), k ∈ Dict.keys vl.prefs → Printable k) →
      (∀ vl ∈ m.votelines, Exportable vl) ∧ OneLine m.metadata m.candidates ∧ m.votelines ≠ [] ∧
      Dict.get? m.metadata c!"ballotcount" = some (.int (m.votelines.map Voteline.qty).sum) := by
    intro m h htok
    obtain ⟨h1, h2, h3⟩ := parsed_oneLine h htok
    obtain ⟨vls, f1, fne, f2, _, _, f5, _⟩ := convertAbif_ok h
    have hperm := sortByKeyDesc_perm Voteline.qty vls
    refine ⟨?_, ⟨h1, h2, h3⟩, ?_, ?_⟩
    · intro vl hvl
      have hs : ∃ src, SaysBallot src vl := by
        rw [f2, hperm.mem_iff] at hvl
        exact forall₂_right (P := fun vl => ∃ src, SaysBallot src vl) (fun a b hab => ⟨a, hab⟩) f1 vl hvl
      obtain ⟨src, hs⟩ := hs
      exact exportable_of_says hs (htok vl hvl)
    · rw [f2]
      intro he
      exact fne (List.Perm.nil_eq (he ▸ hperm)).symm
    · rw [f5, f2, perm_sum (hperm.map Voteline.qty)]
  cases ar with
  | false => exact base h htok
  | true =>
    rw [convertAbif_rated] at h
    obtain ⟨m0, h0, h⟩ := bind_ok.1 h
    cases h
    have htok0 : ∀ (vl : Voteline), vl ∈ m0.votelines → ∀ (k : Str), k ∈ Dict.keys vl.prefs → Printable k := by
      intro vl hvl k hk
      apply htok (ratedLine (hasAnyRating m0) m0.candidates.length vl) (List.mem_map_of_mem hvl)
      rw [ratedLine_keys]; exact hk
    obtain ⟨b1, b2, b3, b4⟩ := base h0 htok0
    refine ⟨?_, ?_, ?_, ?_⟩
    · intro vl' hvl'
      have hr := hrate rfl vl' hvl'
      have ht := htok vl' hvl'
      obtain ⟨vl, hvl, rfl⟩ := List.mem_map.1 hvl'
      have e := b1 vl hvl
      refine ⟨e.qty, ?_, ht, ?_, hr⟩
      · unfold Dict.WF; rw [ratedLine_keys]; exact e.wf
      · intro kp hkp
        simp only [ratedLine, List.mem_map] at hkp
        obtain ⟨kp0, hkp0, rfl⟩ := hkp
        obtain ⟨r, hr⟩ := e.ranked kp0 hkp0
        refine ⟨r, ?_⟩
        simp only
        unfold ratedEntry
        split
        · exact hr
        · split <;> exact hr
    · refine ⟨?_, b2.toks, b2.names⟩
      simp only
      split
      · rintro ⟨k, v⟩ hkv
        have hk : k ∈ Dict.keys (m0.metadata.set c!"is_ranking_to_rating" (.bool true)) := List.mem_map_of_mem (f := Prod.fst) hkv
        rcases Dict.mem_keys_set.1 hk with hk | hk
        · subst hk; simp only; decide
        · obtain ⟨v', hv'⟩ := Dict.exists_get?_of_mem hk
          exact b2.keys (k, v') (Dict.mem_of_get? hv')
      · exact b2.keys
    · simpa using b3
    · simp only
      have : Dict.get? (if (!hasAnyRating m0 && m0.votelines.any (fun vl => !vl.prefs.isEmpty)) = true
          then m0.metadata.set c!"is_ranking_to_rating" (.bool true) else m0.metadata) c!"ballotcount" = Dict.get? m0.metadata c!"ballotcount" := by
        split
        · rw [Dict.get?_set_ne _ _ (by decide)]
        · rfl
      rw [this, b4]
      simp [List.map_map, Function.comp_def, ratedLine]

end Verif
