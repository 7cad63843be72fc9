/-
C94: converting an election does not change its results.
-/
import Verif.Props.Order
import Verif.Props.Export
import Verif.Props.Nameq
import Verif.Props.SfMain

set_option linter.unusedSimpArgs false
set_option linter.unusedSectionVars false

namespace Verif.Props
open Spec

theorem firsts_append_subset {κ : Type} [DecidableEq κ] {a b : List κ} (h : ∀ x ∈ b, x ∈ a) : firsts (a ++ b) = firsts a := by
  rw [← addKeys_nil, addKeys_append, addKeys_nil, addKeys_eq]
  simpa [mem_firsts] using h

theorem dict_ext {α : Type} {d d' : Dict Str α} (hk : Dict.keys d = Dict.keys d') (hn : (Dict.keys d).Nodup)
    (hg : ∀ k, Dict.get? d k = Dict.get? d' k) : d = d' := by
  induction d generalizing d' with
  | nil => cases d' with
    | nil => rfl
    | cons e d' => cases hk
  | cons e d ih =>
    cases d' with
    | nil => cases hk
    | cons e' d' =>
      obtain ⟨k, v⟩ := e
      obtain ⟨k', v'⟩ := e'
      have hk' : k = k' ∧ Dict.keys d = Dict.keys d' := by
        have := hk
        simp only [Dict.keys, List.map_cons, List.cons.injEq] at this
        exact this
      obtain ⟨rfl, hk'⟩ := hk'
      have hn' : k ∉ Dict.keys d ∧ (Dict.keys d).Nodup := by
        simpa [Dict.keys] using hn
      have gc : ∀ (v : α) (d : Dict Str α) (c : Str), Dict.get? ((k, v) :: d) c = if k = c then some v else Dict.get? d c :=
        fun _ _ _ => rfl
      have h0 := hg k
      rw [gc, gc, if_pos rfl, if_pos rfl] at h0
      cases h0
      congr 1
      apply ih hk' hn'.2
      intro c
      by_cases hc : k = c
      · subst hc
        rw [Dict.get?_eq_none.2 hn'.1, Dict.get?_eq_none.2 (hk' ▸ hn'.1)]
      · have := hg c
        rwa [gc, gc, if_neg hc, if_neg hc] at this

section
variable [U : Uni]

/-- ballots that say the same agree on every two candidates -/
theorem sameBallot_agree {v w : Voteline} (h : SameBallot v.prefs w.prefs) (C : List Str) : AgreeOn C v w := by
  intro a _ b _
  unfold prefers rankOf
  have ra := h.ranked a
  have rb := h.ranked b
  cases ea : (Dict.get? v.prefs a).bind Pref.rank with
  | none =>
    rw [ea] at ra
    cases fa : (Dict.get? w.prefs a).bind Pref.rank with
    | none => rfl
    | some _ => rw [fa] at ra; cases ra
  | some x =>
    rw [ea] at ra
    cases fa : (Dict.get? w.prefs a).bind Pref.rank with
    | none => rw [fa] at ra; cases ra
    | some x' =>
      cases eb : (Dict.get? v.prefs b).bind Pref.rank with
      | none =>
        rw [eb] at rb
        cases fb : (Dict.get? w.prefs b).bind Pref.rank with
        | none => rfl
        | some _ => rw [fb] at rb; cases rb
      | some y =>
        rw [eb] at rb
        cases fb : (Dict.get? w.prefs b).bind Pref.rank with
        | none => rw [fb] at rb; cases rb
        | some y' =>
          simp only [decide_eq_decide]
          exact h.order a b x y x' y' ea eb fa fb

theorem sameBallot_order {v w : Voteline} (h : SameBallot v.prefs w.prefs) : SameOrder v w :=
  ⟨fun _ => h.cands.mem_iff, sameBallot_agree h _⟩

theorem ratingOf_number {vl : Voteline} (h : ∀ e ∈ vl.prefs, PlainRating e.2.rating) (c : Str) :
    ratingOf vl c = match Dict.get? vl.prefs c with | some p => ratingNumber p.rating | none => 0 := by
  unfold ratingOf
  cases hg : Dict.get? vl.prefs c with
  | none => rfl
  | some p =>
    have hp := h _ (Dict.mem_of_get? hg)
    simp only at hp ⊢
    cases hr : p.rating with
    | none => rfl
    | some r =>
      rw [hr] at hp
      cases r with
      | null => rfl
      | int i => rfl
      | str s => simp only [ratingInt, pyInt_digits hp.1 hp.2]; rfl

end

/-- the candidate table of a file whose tokens are all url-safe comes back in its order -/
theorem safe_keys [U : Uni] {cw : Bool} {m m' : Jabmod} {text : Str} (h : ExportableModel m)
    (hsafe : ∀ k ∈ Dict.keys m.candidates, ∀ c ∈ k, isUrlSafe c = true)
    (ht : convertToAbif m = .ok text) (hm : convertAbif cw false false text = .ok m') : Dict.keys m'.candidates = Dict.keys m.candidates := by
  have hex : ∀ vl ∈ m.votelines, Exportable vl := fun vl hvl => (h.ballots vl hvl).1
  obtain ⟨vlines, ht', hv⟩ := convertToAbif_printed hex
  rw [ht] at ht'
  cases ht'
  have hsc : ∀ kv ∈ m.candidates, SafeCand kv := by
    rintro ⟨tok, name⟩ hkv
    have hs := hsafe tok (List.mem_map_of_mem (f := Prod.fst) hkv)
    rcases h.names tok name hkv with ⟨h1, d', h2, h3, h4, _⟩ | ⟨h1, h2, h3⟩
    · exact ⟨h1, d', h2, h3, h4⟩
    · exact ⟨hs, tok, h2, h1.2.1, h1.2.2.1⟩
  obtain ⟨_, _, _, _, g3, _⟩ := convertAbif_ok hm
  rw [textLines_file cw (exportable_oneLine h) hv] at g3
  have hall := mentions_file (md := m.metadata) hv (fun kv hkv => .inl (hsc kv hkv))
  have hmeta : ∀ md : Dict Str Json, (md.map metaLine).flatMap lineMentions = [] := by
    intro md
    rw [List.flatMap_eq_nil_iff]
    intro l hl
    obtain ⟨kv, _, rfl⟩ := List.mem_map.1 hl
    unfold lineMentions metaLine
    rw [beforeHash_cons (by decide), readCand_head_none (by decide), readVote_head_none (by rfl)]
  have hcand : ∀ cs : Dict Str (Option Str), (∀ kv ∈ cs, SafeCand kv) → (cs.map candLine).flatMap lineMentions = Dict.keys cs := by
    intro cs hcs
    induction cs with
    | nil => rfl
    | cons kv cs ih =>
      rw [List.map_cons, List.flatMap_cons, ih (fun x hx => hcs x (by simp [hx]))]
      obtain ⟨d, _, e⟩ := candLine_safe (hcs kv (by simp))
      unfold lineMentions
      rw [e]
      rfl
  have hsplit : (fileLines m.metadata m.candidates vlines).flatMap lineMentions =
      Dict.keys m.candidates ++ vlines.flatMap lineMentions := by
    unfold fileLines
    rw [List.flatMap_cons, List.flatMap_append, List.flatMap_cons, List.flatMap_append, List.flatMap_cons, hmeta, hcand _ hsc]
    rfl
  rw [hsplit] at hall
  rw [g3, hsplit, firsts_append_subset, firsts_of_nodup h.once]
  intro x hx
  rcases (hall x).1 (List.mem_append_right _ hx) with ⟨d, hd, _⟩ | ⟨vl, hvl, hk⟩
  · exact List.mem_map_of_mem (f := Prod.fst) hd
  · exact h.known vl hvl x hk

/-! ## C94 -/

/-- the results for every candidate and pair of candidates, whatever the order of the table -/
theorem same_tallies {m m' : Jabmod} (hn : (Dict.keys m.candidates).Nodup) (hn' : (Dict.keys m'.candidates).Nodup)
    (hk : ∀ c, c ∈ Dict.keys m.candidates ↔ c ∈ Dict.keys m'.candidates) (hr : Spec.AllRanked m) (hr' : Spec.AllRanked m')
    (h : SameOpinions (Dict.keys m.candidates) m.votelines m'.votelines) :
    (∀ a ∈ Dict.keys m.candidates, ∀ b ∈ Dict.keys m.candidates, pairGet (pairwiseCount m) a b = pairGet (pairwiseCount m') a b) ∧
    ∃ cc cc', fullCopecount m = .ok cc ∧ fullCopecount m' = .ok cc' ∧ (∀ c, Dict.get? cc.winlosstie c = Dict.get? cc'.winlosstie c) ∧
      (m.candidates ≠ [] → ∃ ws ws', copelandWinners cc.winlosstie = .ok ws ∧ copelandWinners cc'.winlosstie = .ok ws' ∧ ws.Perm ws') := by
  have hperm : (Dict.keys m.candidates).Perm (Dict.keys m'.candidates) := (List.perm_ext_iff_of_nodup hn hn').2 hk
  have hsup : ∀ a ∈ Dict.keys m.candidates, ∀ b ∈ Dict.keys m.candidates, support m a b = support m' a b := by
    intro a ha b hb
    exact qtySum_classes AgreeOn.refl (fun _ _ h => h.symm) (fun _ _ _ h h' => h.trans h') (fun _ => True) (fun v => prefers v a b)
      (fun v w _ _ hvw => hvw a ha b hb) _ m.votelines m'.votelines (Nat.le_refl _) (by simp) (by simp) h
  have cell : ∀ (m : Jabmod), Spec.AllRanked m → ∀ a ∈ Dict.keys m.candidates, ∀ b ∈ Dict.keys m.candidates,
      pairGet (pairwiseCount m) a b = .ok (if a = b then none else some (support m a b)) := by
    intro m hr a ha b hb
    rw [pairwiseCount_eq, pairGet_matrixOf ha hb]
    by_cases hab : a = b
    · subst hab
      rw [if_pos rfl, if_pos rfl, cellFold_diag]
    · rw [if_neg hab, cellFold_eq (fun vl hvl => hr vl hvl) hab, if_neg hab]
      simp [support]
  have hcells : ∀ a ∈ Dict.keys m.candidates, ∀ b ∈ Dict.keys m.candidates,
      pairGet (pairwiseCount m) a b = pairGet (pairwiseCount m') a b := by
    intro a ha b hb
    rw [cell m hr a ha b hb, cell m' hr' a ((hk a).1 ha) b ((hk b).1 hb), hsup a ha b hb]
  have hnum : ∀ a ∈ Dict.keys m.candidates, ∀ b ∈ Dict.keys m.candidates,
      cellNum (pairwiseCount m) a b = cellNum (pairwiseCount m') a b := by
    intro a ha b hb
    unfold cellNum
    rw [hcells a ha b hb]
  have hopp : ∀ (c : Str) (p q : Str → Bool), (∀ b ∈ Dict.keys m.candidates, p b = q b) →
      countOpp (Dict.keys m.candidates) c p = countOpp (Dict.keys m'.candidates) c q := by
    intro c p q hpq
    unfold countOpp
    rw [← (hperm.filter _).length_eq]
    congr 2
    apply List.filter_congr
    intro b hb
    rw [hpq b hb]
  have hrec : ∀ c ∈ Dict.keys m.candidates, wltOf (Dict.keys m.candidates) (cellNum (pairwiseCount m)) c =
      wltOf (Dict.keys m'.candidates) (cellNum (pairwiseCount m')) c := by
    intro c hc
    unfold wltOf
    congr 1
    · exact hopp c _ _ (fun b hb => by rw [hnum c hc b hb, hnum b hb c hc])
    · exact hopp c _ _ (fun b hb => by rw [hnum c hc b hb, hnum b hb c hc])
    · rw [hopp c _ _ (fun b hb => by rw [hnum c hc b hb, hnum b hb c hc])]
  have hW : (sortByKeyDesc (fun kv : Str × WLT => kv.2.wins)
        ((Dict.keys m.candidates).map (fun c => (c, wltOf (Dict.keys m.candidates) (cellNum (pairwiseCount m)) c)))).Perm
      (sortByKeyDesc (fun kv : Str × WLT => kv.2.wins)
        ((Dict.keys m'.candidates).map (fun c => (c, wltOf (Dict.keys m'.candidates) (cellNum (pairwiseCount m')) c)))) := by
    refine (sortByKeyDesc_perm _ _).trans (List.Perm.trans ?_ (sortByKeyDesc_perm _ _).symm)
    have e : (Dict.keys m.candidates).map (fun c => (c, wltOf (Dict.keys m.candidates) (cellNum (pairwiseCount m)) c)) =
        (Dict.keys m.candidates).map (fun c => (c, wltOf (Dict.keys m'.candidates) (cellNum (pairwiseCount m')) c)) := by
      apply List.map_congr_left
      intro c hc
      rw [hrec c hc]
    rw [e]
    exact hperm.map _
  refine ⟨hcells, _, _, fullCopecount_eq m hn, fullCopecount_eq m' hn', ?_, ?_⟩
  · intro c
    apply Dict.get?_perm hW
    unfold Dict.WF
    refine ((sortByKeyDesc_perm _ _).map Prod.fst).nodup_iff.2 ?_
    simpa [Dict.keys, List.map_map, Function.comp_def] using hn
  · intro hne
    have hne1 : Dict.keys m.candidates ≠ [] := by intro h0; apply hne; simpa [Dict.keys] using h0
    have hne2 : Dict.keys m'.candidates ≠ [] := by
      intro h0; rw [h0] at hperm; exact hne1 hperm.eq_nil
    obtain ⟨cc, ws, _, e1, e2, _, _, e3, _, e4, _⟩ := C23_copeland m hn hne1
    obtain ⟨cc', ws', _, e1', e2', _, _, e3', _, e4', _⟩ := C23_copeland m' hn' hne2
    rw [fullCopecount_eq m hn] at e1
    rw [fullCopecount_eq m' hn'] at e1'
    cases e1
    cases e1'
    refine ⟨ws, ws', e2, e2', (List.perm_ext_iff_of_nodup e3 e3').2 ?_⟩
    intro c
    rw [e4, e4']
    have hS : (copelandScores2 (sortByKeyDesc (fun kv : Str × WLT => kv.2.wins)
        ((Dict.keys m.candidates).map (fun c => (c, wltOf (Dict.keys m.candidates) (cellNum (pairwiseCount m)) c))))).Perm
      (copelandScores2 (sortByKeyDesc (fun kv : Str × WLT => kv.2.wins)
        ((Dict.keys m'.candidates).map (fun c => (c, wltOf (Dict.keys m'.candidates) (cellNum (pairwiseCount m')) c))))) := by
      unfold copelandScores2
      exact (sortByKeyDesc_perm _ _).trans ((hW.map _).trans (sortByKeyDesc_perm _ _).symm)
    simp only [hS.mem_iff]

section
variable [U : Uni]

/-- what reading an exported file gives, in terms of opinions, ballots and scores -/
theorem export_same {cw : Bool} {m : Jabmod} {text : Str} (h : ExportableModel m) (ht : convertToAbif m = .ok text) :
    ∃ m', convertAbif cw false false text = .ok m' ∧ (∀ tok, Dict.get? m'.candidates tok = Dict.get? m.candidates tok) ∧
      Dict.get? m'.metadata c!"ballotcount" = some (.int (m.votelines.map Voteline.qty).sum) ∧
      (∀ C, SameOpinions C m.votelines m'.votelines) ∧ SameBallots m.votelines m'.votelines ∧
      (Strict m.votelines → Strict m'.votelines) ∧
      (∀ c, scoreOf m' c = scoreOf m c ∧ ratersOf m' c = ratersOf m c) := by
  obtain ⟨text', m', vls, h1, h2, h3, h4, h5, h6⟩ := C15_partial cw m h
  rw [ht] at h1
  cases h1
  have hp : m'.votelines.Perm vls := h6.1
  have h5' : List.Forall₂ (fun (a b : Voteline) => a.qty = b.qty ∧ SameBallot b.prefs a.prefs) m.votelines vls :=
    h5.imp (fun a b hab => ⟨hab.1.symm, hab.2⟩)
  have hold : ∀ (R : Voteline → Voteline → Prop), (∀ v w, R v w → R w v) → (∀ u v w, R u v → R v w → R u w) →
      (∀ v w : Voteline, SameBallot w.prefs v.prefs → R v w) → ∀ u, holders R m.votelines u = holders R m'.votelines u := by
    intro R hs htr hR u
    rw [holders_forall₂ hs htr hR h5' u]
    unfold holders qtySum
    exact perm_sum ((hp.symm.filter _).map _)
  refine ⟨m', h2, h4, h3, ?_, ?_, ?_, ?_⟩
  · intro C u
    exact hold (AgreeOn C) (fun _ _ h => h.symm) (fun _ _ _ h h' => h.trans h') (fun v w hvw => (sameBallot_agree hvw C).symm) u
  · intro u
    exact hold SameOrder (fun _ _ h => h.symm) (fun _ _ _ h h' => h.trans h') (fun v w hvw => (sameBallot_order hvw).symm) u
  · intro hst w hw
    obtain ⟨v, hv, _, hvw⟩ := forall₂_mem_right h5' (hp.mem_iff.1 hw)
    have ho := sameBallot_order hvw
    intro a ha b hb hab
    rw [ho.2 a ha b hb, ho.2 b hb a ha]
    exact hst v hv a ((ho.1 a).1 ha) b ((ho.1 b).1 hb) hab
  · intro c
    have hplain : ∀ w ∈ vls, ∀ e ∈ w.prefs, PlainRating e.2.rating := by
      intro w hw e he
      obtain ⟨vls0, f1, _, f2, _⟩ := convertAbif_ok h2
      have hw' : w ∈ vls0 := by
        have := hp.mem_iff.2 hw
        rw [f2, (sortByKeyDesc_perm Voteline.qty vls0).mem_iff] at this
        exact this
      obtain ⟨src, _, hs⟩ := forall₂_mem_right f1 hw'
      have hg := goodLine_of_says hs
      obtain ⟨_, ⟨cands, hpp⟩, _⟩ := hs
      exact parsePrefstr_plain hpp e.1 e.2 (Dict.get?_of_mem hg.wf he)
    have hr : List.Forall₂ (fun (a b : Voteline) => a.qty = b.qty ∧ ratingOf a c = ratingOf b c) m.votelines vls := by
      refine (List.forall₂_iff_zip.2 ⟨h5'.length_eq, ?_⟩)
      intro v w hz
      have hvw := (List.forall₂_iff_zip.1 h5').2 hz
      refine ⟨hvw.1, ?_⟩
      have hv : v ∈ m.votelines := (List.of_mem_zip hz).1
      have hw : w ∈ vls := (List.of_mem_zip hz).2
      rw [ratingOf_number (fun e he => (h.ballots v hv).1.ratings e he), ratingOf_number (hplain w hw)]
      have hk := hvw.2.cands.mem_iff (a := c)
      cases hg : Dict.get? v.prefs c with
      | none =>
        have : c ∉ Dict.keys w.prefs := fun hc => Dict.get?_eq_none.1 hg (hk.1 hc)
        rw [Dict.get?_eq_none.2 this]
      | some p =>
        obtain ⟨q, hq⟩ := Dict.exists_get?_of_mem (hk.2 (Dict.mem_keys_of_get? hg))
        rw [hq]
        exact (hvw.2.ratings c q p hq hg).symm
    constructor
    · unfold scoreOf
      rw [perm_sum (hp.map _), forall₂_map_eq hr (f := fun v => v.qty * ratingOf v c) (g := fun v => v.qty * ratingOf v c)
        (fun a b hab => by rw [hab.1, hab.2])]
    · unfold ratersOf
      have : qtySum (fun vl => decide (0 < ratingOf vl c)) m'.votelines = qtySum (fun vl => decide (0 < ratingOf vl c)) vls := by
        unfold qtySum
        exact perm_sum ((hp.filter _).map _)
      rw [this]
      clear h5 h5' h6 hp hplain this hold h4 h3 h2 ht h
      generalize m.votelines = l at hr
      induction hr with
      | nil => rfl
      | cons hab _ ih => rw [qtySum_cons, qtySum_cons, ih, hab.1, hab.2]

/-- C94, .abif.  Exporting an exportable election and reading the text back gives the same result for every candidate: each
head-to-head count, each win-loss-tie record, the Copeland winners, and each score with its number of raters.  (Ratings enter only when
they are integers or absent, as the scores need.) -/
theorem C94_abif (cw : Bool) (m : Jabmod) (h : ExportableModel m) (hr : Spec.AllRanked m) (text : Str) (ht : convertToAbif m = .ok text)
    (hlen : text.length < 2 ^ 61) : ∃ m', convertAbif cw false false text = .ok m' ∧
      (∀ tok, Dict.get? m'.candidates tok = Dict.get? m.candidates tok) ∧
      (∀ a ∈ Dict.keys m.candidates, ∀ b ∈ Dict.keys m.candidates, pairGet (pairwiseCount m) a b = pairGet (pairwiseCount m') a b) ∧
      (∃ cc cc', fullCopecount m = .ok cc ∧ fullCopecount m' = .ok cc' ∧ (∀ c, Dict.get? cc.winlosstie c = Dict.get? cc'.winlosstie c) ∧
        (m.candidates ≠ [] → ∃ ws ws', copelandWinners cc.winlosstie = .ok ws ∧ copelandWinners cc'.winlosstie = .ok ws' ∧ ws.Perm ws')) ∧
      (Scorable m → ∃ d d', basicScore m = .ok d ∧ basicScore m' = .ok d' ∧ ∀ c, Dict.get? d c = Dict.get? d' c) := by
  obtain ⟨m', h1, h2, _, h3, _, _, h4⟩ := export_same (cw := cw) h ht
  obtain ⟨e1, e2⟩ := same_tallies h.once (parsed_cands_nodup _ _ _ _ m' h1) (by
    intro c
    rw [← Dict.has_iff, ← Dict.has_iff]
    unfold Dict.has
    rw [h2]) hr (parsed_allRanked _ _ _ _ m' h1 hlen) (h3 _)
  refine ⟨m', h1, h2, e1, e2, ?_⟩
  intro hs
  obtain ⟨d, f1, f2, f3⟩ := C24_scores m hs
  obtain ⟨d', f1', f2', f3'⟩ := C24_scores m' (parsed_scorable _ _ _ _ m' h1)
  refine ⟨d, d', f1, f1', ?_⟩
  intro c
  cases hg : Dict.get? m.candidates c with
  | some name =>
    rw [f3 c name hg, f3' c name (by rw [h2]; exact hg), (h4 c).1, (h4 c).2]
  | none =>
    have g1 : c ∉ Dict.keys d := by rw [f2]; exact Dict.get?_eq_none.1 hg
    have g2 : c ∉ Dict.keys d' := by rw [f2']; exact Dict.get?_eq_none.1 (by rw [h2]; exact hg)
    rw [Dict.get?_eq_none.2 g1, Dict.get?_eq_none.2 g2]

/-- C94, .abif, when all tokens are url-safe: then the results are the same in every respect, including the order in which candidates
are listed and ties are broken: the matrix, the win-loss-tie table, the scores, the STAR result, the scaled scores (apart from the highest rating, which is metadata), and (when no
ballot has equal ranks) the whole IRV count, for every random choice. -/
theorem C94_identical (cw : Bool) (m : Jabmod) (h : ExportableModel m) (hr : Spec.AllRanked m)
    (hsafe : ∀ k ∈ Dict.keys m.candidates, ∀ c ∈ k, isUrlSafe c = true)
    (text : Str) (ht : convertToAbif m = .ok text) (hlen : text.length < 4999999998) :
    ∃ m', convertAbif cw false false text = .ok m' ∧ m'.candidates = m.candidates ∧
      pairwiseCount m' = pairwiseCount m ∧ fullCopecount m' = fullCopecount m ∧
      (Scorable m → basicScore m' = basicScore m) ∧
      (Scorable m → Dict.get? m.metadata c!"ballotcount" = some (.int (m.votelines.map Voteline.qty).sum) →
        enhancedScore m' = enhancedScore m ∧ starResult m' = starResult m ∧ 
          ∀ target, (scaledScores m' target).map (fun r => { r with maxRating := .null }) =
            (scaledScores m target).map (fun r => { r with maxRating := .null })) ∧
      (RanksBelowInfinity m → Strict m.votelines → ∀ S, irvDict S m' = irvDict S m) := by
  obtain ⟨m', h1, h2, hbc, h3, hb, hst, h4⟩ := export_same (cw := cw) h ht
  have hc : m'.candidates = m.candidates := dict_ext (safe_keys h hsafe ht h1) (parsed_cands_nodup _ _ _ _ m' h1) h2
  obtain ⟨p1, p2⟩ := C84_pairwise m m' hc.symm hr (parsed_allRanked _ _ _ _ m' h1 (by omega)) (h3 _)
  have hscore : Scorable m → basicScore m' = basicScore m := by
    intro hs
    rw [basicScore_ok hs, basicScore_ok (parsed_scorable _ _ _ _ m' h1), hc]
    congr 1
    apply List.map_congr_left
    intro kv _
    rw [(h4 kv.1).1, (h4 kv.1).2]
  refine ⟨m', h1, hc, p1.symm, p2.symm, hscore, ?_, ?_⟩
  · intro hs hbc'
    have he : enhancedScore m' = enhancedScore m := by
      unfold enhancedScore
      rw [hscore hs]
      simp only [Dict.getE_of_get? hbc, Dict.getE_of_get? hbc']
    have hstar : starResult m' = starResult m := by
      unfold starResult
      rw [he, p2]
    refine ⟨he, hstar, ?_⟩
    intro target
    unfold scaledScores
    rw [hstar, hc]
    cases starResult m with
    | error e => rfl
    | ok r =>
      simp only [ok_bind]
      cases trueDiv target r.base.totalAllScores with
      | error e => rfl
      | ok scale =>
        simp only [ok_bind]
        cases m.candidates.mapM (fun kv => (do
          let e ← r.base.scores.getE kv.1
          let s ← mulFloat e.score scale
          Except.ok (kv.1, ({ candname := kv.2, scaledScore := s, score := e.score } : ScaledEntry)) : Except PyErr (Str × ScaledEntry))) with
        | error e => rfl
        | ok cd =>
          simp only [ok_bind]
          cases (cd.map fun kv => kv.2.scaledScore).foldlM addFloat 0 <;> rfl
  · intro hbelow hstrict S
    have hcount : Countable m :=
      ⟨h.once, fun vl hvl => (h.ballots vl hvl).1.wf, h.known, fun vl hvl c p hp => (h.ballots vl hvl).1.ranked (c, p) (Dict.mem_of_get? hp)⟩
    exact C84_irv_ballots S m m' hc.symm hcount (parsed_countable _ _ _ _ m' h1) hbelow (parsed_below _ _ _ _ m' h1 hlen)
      hstrict (hst hstrict) hb

end

/-- the rank of a candidate is found in the list of its ranks -/
theorem rankOf_ranksOf (vl : Voteline) (c : Str) : rankOf vl c = (Dict.get? (ranksOf vl) c).bind id := by
  unfold rankOf ranksOf
  generalize vl.prefs = d
  have := Dict.get?_map d (fun _ (p : Pref) => p.rank) c
  rw [this]
  cases Dict.get? d c <;> rfl

theorem ranksOf_agree {v w : Voteline} (h : ranksOf v = ranksOf w) (C : List Str) : AgreeOn C v w := by
  intro a _ b _
  unfold prefers
  rw [rankOf_ranksOf, rankOf_ranksOf, rankOf_ranksOf w, rankOf_ranksOf w, h]

theorem ranksOf_keys {v w : Voteline} (h : ranksOf v = ranksOf w) : Dict.keys v.prefs = Dict.keys w.prefs := by
  have := congrArg (List.map Prod.fst) h
  simpa [ranksOf, Dict.keys, List.map_map, Function.comp_def] using this

/-- single ballots hold the opinions of the lines they come from -/
theorem holders_single (R : Voteline → Voteline → Prop) (vls : List Voteline) (hq : ∀ v ∈ vls, 0 ≤ v.qty) (u : Voteline) :
    holders R ((singleBallots vls).map (fun v => { v with qty := 1 })) u =
      holders (fun v w => R { v with qty := 1 } w) vls u := by
  classical
  unfold holders singleBallots
  induction vls with
  | nil => rfl
  | cons v vls ih =>
    rw [List.flatMap_cons, List.map_append, qtySum_append, ih (fun w hw => hq w (by simp [hw])), qtySum_cons]
    congr 1
    have h0 := hq v (by simp)
    rw [List.map_replicate]
    obtain ⟨n, hn⟩ : ∃ n : Nat, v.qty = n := ⟨v.qty.toNat, by omega⟩
    rw [hn, Int.toNat_natCast]
    clear ih hn h0 hq
    induction n with
    | zero => simp [qtySum]
    | succ n ihn =>
      rw [List.replicate_succ, qtySum_cons, ihn]
      split
      · push_cast; exact Int.add_comm _ _
      · rfl

/-- C94, nameq.  When every candidate stands on some ballot and no quantity is negative, writing the election as nameq and reading it
back keeps each head-to-head count, each win-loss-tie record and the Copeland winners. -/
theorem C94_nameq [U : Uni] (m : Jabmod) (hn : (Dict.keys m.candidates).Nodup) (hr : Spec.AllRanked m) (hq : QtyNonneg m)
    (hw : ∀ vl ∈ m.votelines, Dict.WF vl.prefs)
    (hall : ∀ c, c ∈ Dict.keys m.candidates ↔ ∃ vl ∈ m.votelines, 0 < vl.qty ∧ c ∈ Dict.keys vl.prefs)
    (text : Str) (ht : jabmodToNameq m = .ok text) : ∃ m', nameqToJabmod text = .ok m' ∧
      (∀ a ∈ Dict.keys m.candidates, ∀ b ∈ Dict.keys m.candidates, pairGet (pairwiseCount m) a b = pairGet (pairwiseCount m') a b) ∧
      ∃ cc cc', fullCopecount m = .ok cc ∧ fullCopecount m' = .ok cc' ∧ (∀ c, Dict.get? cc.winlosstie c = Dict.get? cc'.winlosstie c) ∧
        (m.candidates ≠ [] → ∃ ws ws', copelandWinners cc.winlosstie = .ok ws ∧ copelandWinners cc'.winlosstie = .ok ws' ∧ ws.Perm ws') := by
  classical
  obtain ⟨m', h1, h2, h3, _, h5⟩ := C42_round_trip m text ht hw
  have hkeys : (Dict.keys m'.candidates).Nodup := (nameq_keys h1).cands
  refine ⟨m', h1, same_tallies hn hkeys ?_ hr ?_ ?_⟩
  · intro c
    rw [← Dict.has_iff (d := m'.candidates)]
    unfold Dict.has
    rw [h5, hall]
    constructor
    · rintro ⟨vl, hvl, h0, hc⟩
      rw [if_pos ⟨vl, List.mem_flatMap.2 ⟨vl, hvl, List.mem_replicate.2 ⟨by omega, rfl⟩⟩, hc⟩]
      rfl
    · intro hc
      split at hc
      · rename_i hx
        obtain ⟨vl, hvl, hk⟩ := hx
        obtain ⟨v, hv, hvl⟩ := List.mem_flatMap.1 hvl
        obtain ⟨h0, rfl⟩ := List.mem_replicate.1 hvl
        exact ⟨vl, hv, by omega, hk⟩
      · cases hc
  · intro w hw' c p hp
    have : ranksOf w ∈ (singleBallots m.votelines).map ranksOf := by
      rw [← h2]; exact List.mem_map_of_mem hw'
    obtain ⟨v, hv, hvw⟩ := List.mem_map.1 this
    obtain ⟨v', hv', hv⟩ := List.mem_flatMap.1 hv
    obtain ⟨_, rfl⟩ := List.mem_replicate.1 hv
    have hk : c ∈ Dict.keys v.prefs := by rw [ranksOf_keys hvw]; exact Dict.mem_keys_of_get? hp
    obtain ⟨q, hq'⟩ := Dict.exists_get?_of_mem hk
    obtain ⟨r, h6, h7⟩ := hr v hv' c q hq'
    refine ⟨r, ?_, h7⟩
    have e : rankOf v c = rankOf w c := by rw [rankOf_ranksOf, rankOf_ranksOf, hvw]
    unfold rankOf at e
    rw [hp, hq'] at e
    simpa [h6] using e.symm
  · intro u
    have e1 : holders (AgreeOn (Dict.keys m.candidates)) m'.votelines u =
        holders (AgreeOn (Dict.keys m.candidates)) ((singleBallots m.votelines).map (fun v => { v with qty := 1 })) u := by
      refine (holders_forall₂ (T := AgreeOn (Dict.keys m.candidates)) (fun _ _ h => h.symm) (fun _ _ _ h h' => h.trans h') (fun _ _ h => h) ?_ u)
      rw [List.forall₂_map_right_iff]
      have hf : List.Forall₂ (fun (a b : Voteline) => ranksOf a = ranksOf b) m'.votelines (singleBallots m.votelines) := by
        have := List.forall₂_eq_eq_eq ▸ h2
        rwa [List.forall₂_map_left_iff, List.forall₂_map_right_iff] at this
      refine List.forall₂_iff_zip.2 ⟨hf.length_eq, ?_⟩
      intro a b hz
      have hab := (List.forall₂_iff_zip.1 hf).2 hz
      exact ⟨(h3 a (List.of_mem_zip hz).1).1, ranksOf_agree hab _⟩
    rw [e1, holders_single _ _ hq]
    rfl

section
attribute [local instance] Uni.ascii
set_option maxRecDepth 20000

/-- C94 is false of nameq for scores (ratings are not written), and for candidates who stand on no ballot (they are lost): `A` has score
15 and loses nothing to `C`, who is gone after the conversion. -/
def viaNameq (text : Str) : Except PyErr (List (Str × Int)) :=
  match convertAbif false false false text with
  | .error e => .error e
  | .ok m => match jabmodToNameq m with
    | .error e => .error e
    | .ok t => match nameqToJabmod t with
      | .error e => .error e
      | .ok m' => (basicScore m').map (fun d => d.map (fun kv => (kv.1, kv.2.score)))
def scoresIn (text : Str) : Except PyErr (List (Str × Int)) :=
  match convertAbif false false false text with
  | .error e => .error e
  | .ok m => (basicScore m).map (fun d => d.map (fun kv => (kv.1, kv.2.score)))
theorem C94_nameq_refuted :
    (scoresIn c!"=C:[Cee]\n3:A/5>B/2\n").toOption = some [(c!"C", 0), (c!"A", 15), (c!"B", 6)] ∧
    (viaNameq c!"=C:[Cee]\n3:A/5>B/2\n").toOption = some [(c!"A", 0), (c!"B", 0)] := by
  constructor <;> decide +kernel

-- the hypotheses of C94_abif hold of `exportModel` …
example : Spec.AllRanked exportModel := by
  intro vl hvl c p hp
  simp only [exportModel, List.mem_singleton] at hvl
  subst hvl
  have hm := Dict.mem_of_get? hp
  have hall : ∀ e ∈ exportBallot.prefs, ∃ r, e.2.rank = some r ∧ r < 9223372036854775807 := by
    intro e he
    simp only [exportBallot, List.mem_cons, List.not_mem_nil, or_false] at he
    rcases he with rfl | rfl | rfl <;> exact ⟨_, rfl, by decide⟩
  exact hall _ hm

-- … and those of C94_identical and C94_nameq of this election, whose ratings follow its ranks and whose lines have different quantities
def keepModel : Jabmod where
  metadata := [(c!"ballotcount", .int 8)]
  candidates := [(c!"A", some c!"Ann"), (c!"B", some c!"Bob"), (c!"C", some c!"Cyd")]
  votelines := [{ qty := 3, prefs := [(c!"B", { rank := some 4, rating := some (.int 1) }), (c!"A", { rank := some 2, rating := some (.str c!"5") })] },
    { qty := 5, prefs := [(c!"C", { rank := some 1 }), (c!"A", { rank := some 9 })] }]

theorem keepModel_ok : ExportableModel keepModel := by
  have hlines : ∀ vl ∈ keepModel.votelines, vl = keepModel.votelines[0] ∨ vl = keepModel.votelines[1] := by
    intro vl hvl
    simpa [keepModel] using hvl
  have hplain : ∀ t ∈ [c!"A", c!"B", c!"C"], Printable t := by
    intro t ht
    simp only [List.mem_cons, List.not_mem_nil, or_false] at ht
    rcases ht with rfl | rfl | rfl <;> exact printable_plain (by decide) (by decide +kernel) (by decide +kernel)
  refine ⟨by simp [keepModel], ?_, ?_, by unfold Dict.WF; decide, ?_, ?_⟩
  · intro vl hvl
    rcases hlines vl hvl with rfl | rfl
    · refine ⟨⟨by decide, by unfold Dict.WF; decide, ?_, ?_, ?_⟩, ?_⟩
      · intro k hk; exact hplain k (by revert k; decide)
      · intro e he
        simp only [keepModel, List.getElem_cons_zero, List.mem_cons, List.not_mem_nil, or_false] at he
        rcases he with rfl | rfl <;> exact ⟨_, rfl⟩
      · intro e he
        simp only [keepModel, List.getElem_cons_zero, List.mem_cons, List.not_mem_nil, or_false] at he
        rcases he with rfl | rfl
        · show (0 : Int) ≤ 1; decide
        · exact ⟨by decide, by decide +kernel⟩
      · intro _ a b ha hb ra rb hra hrb
        simp only [keepModel, List.getElem_cons_zero, List.mem_cons, List.not_mem_nil, or_false] at ha hb
        rcases ha with rfl | rfl <;> rcases hb with rfl | rfl <;> cases hra <;> cases hrb <;> decide +kernel
    · refine ⟨⟨by decide, by unfold Dict.WF; decide, ?_, ?_, ?_⟩, ?_⟩
      · intro k hk; exact hplain k (by revert k; decide)
      · intro e he
        simp only [keepModel, List.getElem_cons_succ, List.getElem_cons_zero, List.mem_cons, List.not_mem_nil, or_false] at he
        rcases he with rfl | rfl <;> exact ⟨_, rfl⟩
      · intro e he
        simp only [keepModel, List.getElem_cons_succ, List.getElem_cons_zero, List.mem_cons, List.not_mem_nil, or_false] at he
        rcases he with rfl | rfl <;> trivial
      · intro hr
        exact absurd rfl (hr (c!"C", { rank := some 1 }) (by simp [keepModel])).1
  · intro vl hvl
    rcases hlines vl hvl with rfl | rfl <;> decide
  · intro tok name hm
    simp only [keepModel, List.mem_cons, List.not_mem_nil, or_false, Prod.mk.injEq] at hm
    rcases hm with ⟨rfl, rfl⟩ | ⟨rfl, rfl⟩ | ⟨rfl, rfl⟩ <;> exact .inl ⟨by decide +kernel, _, rfl, by decide +kernel⟩
  · rintro ⟨k, v⟩ hm
    simp only [keepModel, List.mem_cons, List.not_mem_nil, or_false, Prod.mk.injEq] at hm
    obtain ⟨rfl, _⟩ := hm
    simp only; decide +kernel

example : ∀ k ∈ Dict.keys keepModel.candidates, ∀ c ∈ k, isUrlSafe c = true := by decide +kernel
example : Strict keepModel.votelines := by unfold Strict; decide +kernel
def keepText : Str := c!"#------- metadata -------\n{ballotcount: 8}\n#------ candlines ------\n=A:[Ann]\n=B:[Bob]\n=C:[Cyd]\n#------- votelines ------\n3:A/5>B/1\n5:C>A\n"
example : convertToAbif keepModel = .ok keepText := by decide +kernel
example : (jabmodToNameq keepModel).toOption = some c!"B=4&A=2\nB=4&A=2\nB=4&A=2\nC=1&A=9\nC=1&A=9\nC=1&A=9\nC=1&A=9\nC=1&A=9\n" := by decide +kernel
example (c : Str) : c ∈ Dict.keys keepModel.candidates ↔ ∃ vl ∈ keepModel.votelines, 0 < vl.qty ∧ c ∈ Dict.keys vl.prefs := by
  constructor
  · intro hc
    have : c = c!"A" ∨ c = c!"B" ∨ c = c!"C" := by simpa [keepModel, Dict.keys] using hc
    rcases this with rfl | rfl | rfl
    · exact ⟨keepModel.votelines[0], by simp [keepModel], by decide, by decide⟩
    · exact ⟨keepModel.votelines[0], by simp [keepModel], by decide, by decide⟩
    · exact ⟨keepModel.votelines[1], by simp [keepModel], by decide, by decide⟩
  · rintro ⟨vl, hvl, _, hc⟩
    exact keepModel_ok.known vl hvl c hc
end

end Verif.Props
