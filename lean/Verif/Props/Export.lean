/-
Properties of writing .abif text and reading it back (C14-C16, C60).  Vocabulary: `Verif.Spec.Export`.
-/
import Verif.Lib.ExportCands
import Verif.Model.Util
import Verif.Lib.ParsedExport

set_option linter.unusedSectionVars false

namespace Verif.Props
open Spec
section
variable [U : Uni]

/-! ### C16: quoting one token -/

/-- C16.  A nonempty token without surrounding blanks and without `[ ] > = , "` is read back from its
printed form as exactly that token, alone on the ballot, ranked first and without a rating. -/
theorem C16_quote (tok : Str) (hne : tok ≠ []) (hstrip : strip tok = tok)
    (hsep : ∀ c ∈ tok, c ≠ '[' ∧ c ≠ ']' ∧ c ≠ '>' ∧ c ≠ '=' ∧ c ≠ ',' ∧ c ≠ '"') :
    parsePrefstr (tokenQuote tok) = .ok ([(tok, { rank := some 1 })], [tok]) := by
  have hs : ∀ c ∈ tok, isSepChar c = false := by
    intro c hc
    obtain ⟨h1, h2, h3, h4, h5, _⟩ := hsep c hc
    simp [isSepChar, h1, h2, h3, h4, h5]
  have hclean : CleanToken tok := ⟨hne, hstrip, fun h => (hsep _ (List.mem_of_head? h)).2.2.2.2.2 rfl⟩
  have hok : (exItem tok none).Ok := by
    unfold Item.Ok
    refine ⟨by simp [exItem], by simp [exItem], by simp [exItem, printedRating], ?_⟩
    by_cases h : quotePlus tok = tok
    · have hst : (exItem tok none).style = .bare := by simp [exItem, h]
      rw [hst]
      refine ⟨hclean, hs, ?_⟩
      rintro _ ⟨t, ds, h1, _⟩
      have hm : '/' ∈ tok := by
        have : tok = t ++ '/' :: ds := h1
        rw [this]; simp
      exact (urlSafe_props ((quotePlus_eq_iff tok).1 h _ hm)).2.2.2.1 rfl
    · have hst : (exItem tok none).style = .bracket := by simp [exItem, h]
      rw [hst]
      refine ⟨fun hm => (hsep _ hm).2.1 rfl, ?_⟩
      have : splitKeep isSepChar tok = [tok] := splitKeep_none hs
      simp only [exItem, this, List.mem_singleton]
      rintro _ rfl
      exact hclean
  have := parsePrefstr_items (its := [exItem tok none]) (ds := []) (by simpa using hok) (by simp) rfl (by simp)
  have e : writeItems [exItem tok none] [] = tokenQuote tok := by
    show (exItem tok none).text = _
    rw [exItem_text]; simp [Item.ratingText, exItem, printedRating]
  rw [e] at this
  rw [this]
  simp [exItem, itemEntry, itemRank, Item.value, printedRating]

/-! ### C14: one ballot -/

/-- C14, what the program does in every case: re-parsing the line printed for an exportable ballot gives one
voteline with the same quantity, candidates and rating numbers, ranked in the order in which the ballot is
printed: by rating when every candidate is rated, by rank otherwise. -/
theorem C14_exact (cw : Bool) (vl : Voteline) (h : Exportable vl) :
    ∃ (line : Str) (m : Jabmod) (vl' : Voteline), votelineStr vl = .ok line ∧ convertAbif cw false false line = .ok m ∧
      m.votelines = [vl'] ∧ vl'.qty = vl.qty ∧ Reranked vl'.prefs vl.prefs := by
  obtain ⟨p, prefs', e1, e2, e3, e4, e5, _, e6⟩ := votelineStr_reads h
  have hl : textLines cw ((natStr vl.qty.toNat ++ ':' :: p) ++ ['\n']) = [natStr vl.qty.toNat ++ ':' :: p] := by
    have := splitlines_lines [natStr vl.qty.toNat ++ ':' :: p] (by
      intro l hl; simp only [List.mem_singleton] at hl; subst hl; exact fun c hc => (e2 c hc).2)
    simp only [List.flatMap_cons, List.flatMap_nil, List.append_nil] at this
    unfold textLines
    rw [this]
    obtain ⟨q1, q2, _⟩ := natStr_spec vl.qty.toNat
    cases hq : natStr vl.qty.toNat with
    | nil => exact absurd hq q1
    | cons c t =>
      have := lstrip_of_head_ne (c := c) (t := t ++ ':' :: p) (digit_not_space (q2 c (by rw [hq]; simp)))
      cases cw <;> simp [this]
  have hpr : PrintedAs vl (natStr vl.qty.toNat ++ ':' :: p) := ⟨p, prefs', rfl, e2, e3, e4, e5, e6⟩
  obtain ⟨f1, f2, f3⟩ := printed_facts hpr
  have hv : votesOf cw ((natStr vl.qty.toNat ++ ':' :: p) ++ ['\n']) = [(natStr vl.qty.toNat, p, none)] := by
    unfold votesOf
    rw [hl, List.filterMap_cons_some (b := (natStr vl.qty.toNat, p, none)) (by unfold lineVote; rw [f1, e3, f2]; rfl)]
    rfl
  obtain ⟨m, hm⟩ := convertAbif_total cw false ((natStr vl.qty.toNat ++ ':' :: p) ++ ['\n']) (by
      intro l hl' q' p' hr
      rw [hl] at hl'
      simp only [List.mem_singleton] at hl'
      subst hl'
      rw [f1, e3] at hr
      cases hr
      exact ⟨_, e4⟩) (by rw [hv]; simp)
  obtain ⟨vls, g1, _, g2, _⟩ := convertAbif_ok hm
  rw [hv] at g1
  cases g1 with
  | @cons _ vl' _ _ hs hnil =>
    cases hnil
    refine ⟨_, m, vl', e1, hm, by rw [g2]; rfl, ?_, ?_⟩
    · rw [hs.1]
      have := h.qty
      simp only [(natStr_spec vl.qty.toNat).2.2]
      omega
    · obtain ⟨_, ⟨cands, hp⟩, _⟩ := hs
      simp only at hp
      rw [e4] at hp
      cases hp
      exact e6

/-- C14, partial.  Re-parsing the line printed for an exportable ballot gives one voteline with the same
quantity that says the same: same candidates, same weak order, same rating numbers.
MISSING from C14: ballots on which every candidate is rated and the ranks are not the ranks by rating; for
these it is false (`C14_refuted`, `C14_iff`). -/
theorem C14_partial (cw : Bool) (vl : Voteline) (h : Exportable vl) (hf : RanksFollowRatings vl.prefs) :
    ∃ (line : Str) (m : Jabmod) (vl' : Voteline), votelineStr vl = .ok line ∧ convertAbif cw false false line = .ok m ∧
      m.votelines = [vl'] ∧ vl'.qty = vl.qty ∧ SameBallot vl'.prefs vl.prefs := by
  obtain ⟨line, m, vl', h1, h2, h3, h4, h5⟩ := C14_exact cw vl h
  exact ⟨line, m, vl', h1, h2, h3, h4, h5.same hf⟩

/-- C14: an exportable ballot survives the round trip exactly when, if all its candidates are rated, its ranks
are the ranks by rating. -/
theorem C14_iff (cw : Bool) (vl : Voteline) (h : Exportable vl) :
    (∃ (line : Str) (m : Jabmod) (vl' : Voteline), votelineStr vl = .ok line ∧ convertAbif cw false false line = .ok m ∧
      m.votelines = [vl'] ∧ vl'.qty = vl.qty ∧ SameBallot vl'.prefs vl.prefs) ↔ RanksFollowRatings vl.prefs := by
  constructor
  · rintro ⟨line, m, vl', h1, h2, h3, _, h5⟩
    obtain ⟨line', m', vl'', g1, g2, g3, _, g5⟩ := C14_exact cw vl h
    rw [h1] at g1; cases g1
    rw [h2] at g2; cases g2
    rw [h3] at g3; cases g3
    exact g5.follows h.wf h5
  · exact C14_partial cw vl h

/-! ### C15: a whole file -/

/-- The models for which the round trip is proved: at least one ballot, all exportable with ranks that
agree with full ratings, over known candidates; every candidate either has a url-safe token and a name
without `]`, `#` and line breaks, or has a printable token used on some ballot and is named by that token;
metadata keys have no line breaks. -/
structure ExportableModel (m : Jabmod) : Prop where
  nonempty : m.votelines ≠ []
  ballots : ∀ (vl : Voteline), vl ∈ m.votelines → Exportable vl ∧ RanksFollowRatings vl.prefs
  known : ∀ (vl : Voteline), vl ∈ m.votelines → ∀ (k : Str), k ∈ Dict.keys vl.prefs → k ∈ Dict.keys m.candidates
  once : Dict.WF m.candidates
  names : ∀ (tok : Str) (name : Option Str), (tok, name) ∈ m.candidates →
    ((∀ c ∈ tok, isUrlSafe c = true) ∧ ∃ d, name = some d ∧ ']' ∉ d ∧ '#' ∉ d ∧ ∀ c ∈ d, isLineBreak c = false) ∨
    (Printable tok ∧ name = some tok ∧ ∃ (vl : Voteline), vl ∈ m.votelines ∧ tok ∈ Dict.keys vl.prefs)
  keys : ∀ (kv : Str × Json), kv ∈ m.metadata → ∀ c ∈ kv.1, isLineBreak c = false

theorem forall₂_map_eq {α β γ : Type} {R : α → β → Prop} {f : α → γ} {g : β → γ} {l : List α} {r : List β}
    (h : List.Forall₂ R l r) (hf : ∀ a b, R a b → f a = g b) : l.map f = r.map g := by
  induction h with
  | nil => rfl
  | cons hr _ ih => simp [hf _ _ hr, ih]

theorem forall₂_comp' {α β γ : Type} {R : α → β → Prop} {S : β → γ → Prop} {T : α → γ → Prop} {l : List α} {r : List β} {t : List γ}
    (h : List.Forall₂ R l r) (h' : List.Forall₂ S r t) (hT : ∀ a ∈ l, ∀ b c, R a b → S b c → T a c) : List.Forall₂ T l t := by
  induction h generalizing t with
  | nil => cases h'; exact .nil
  | cons hr _ ih =>
    cases h' with
    | cons hs h' => exact .cons (hT _ (by simp) _ _ hr hs) (ih h' (fun a ha => hT a (by simp [ha])))

theorem forall₂_imp_mem {α β : Type} {R S : α → β → Prop} {l : List α} {r : List β} (h : List.Forall₂ R l r)
    (hi : ∀ a ∈ l, ∀ b, R a b → S a b) : List.Forall₂ S l r := by
  induction h with
  | nil => exact .nil
  | cons hr _ ih => exact .cons (hi _ (by simp) _ hr) (ih (fun a ha => hi a (by simp [ha])))

theorem forall₂_both {α β : Type} {R S : α → β → Prop} {l : List α} {r : List β} (h : List.Forall₂ R l r)
    (h' : List.Forall₂ S l r) : ∀ a ∈ l, ∃ b, R a b ∧ S a b := by
  induction h with
  | nil => simp
  | cons hr _ ih =>
    cases h' with
    | cons hs h' =>
      intro a ha
      rcases List.mem_cons.1 ha with rfl | ha
      · exact ⟨_, hr, hs⟩
      · exact ih h' a ha

theorem exportable_oneLine {m : Jabmod} (h : ExportableModel m) : OneLine m.metadata m.candidates := by
  refine ⟨h.keys, ?_, ?_⟩
  · rintro ⟨tok, name⟩ hm
    rcases h.names tok name hm with ⟨h1, _⟩ | ⟨h1, _⟩
    · intro c hc
      have := (urlSafe_props (h1 c hc)).1
      cases hb : isLineBreak c with
      | false => rfl
      | true => rw [lineBreak_space hb] at this; cases this
    · exact h1.2.2.2.1
  · rintro ⟨tok, name⟩ hm d hd
    simp only at hd
    rcases h.names tok name hm with ⟨_, d', h1, _, _, h2⟩ | ⟨h1, h2, _⟩
    · rw [hd] at h1; cases h1; exact h2
    · rw [hd] at h2; cases h2; exact h1.2.2.2.1

/-- The models that .abif text can carry at all: at least one ballot, all exportable, over known candidates;
every candidate either has a url-safe token and a name without `]`, `#` and line breaks, or has a printable
token and some name without line breaks; metadata keys have no line breaks. -/
structure WritableModel (m : Jabmod) : Prop where
  nonempty : m.votelines ≠ []
  ballots : ∀ (vl : Voteline), vl ∈ m.votelines → Exportable vl
  known : ∀ (vl : Voteline), vl ∈ m.votelines → ∀ (k : Str), k ∈ Dict.keys vl.prefs → k ∈ Dict.keys m.candidates
  once : Dict.WF m.candidates
  names : ∀ (tok : Str) (name : Option Str), (tok, name) ∈ m.candidates →
    ((∀ c ∈ tok, isUrlSafe c = true) ∧ ∃ d, name = some d ∧ ']' ∉ d ∧ '#' ∉ d ∧ ∀ c ∈ d, isLineBreak c = false) ∨
    ((¬ ∀ c ∈ tok, isUrlSafe c = true) ∧ Printable tok ∧ ∀ (d : Str), name = some d → ∀ c ∈ d, isLineBreak c = false)
  keys : ∀ (kv : Str × Json), kv ∈ m.metadata → ∀ c ∈ kv.1, isLineBreak c = false

open Classical in
/-- the name that comes back for a candidate: its own when the token is url-safe; otherwise the token, if
some ballot mentions it, and no entry at all if none does -/
noncomputable def nameBack (m : Jabmod) (tok : Str) (name : Option Str) : Option (Option Str) :=
  if ∀ c ∈ tok, isUrlSafe c = true then some name
  else if ∃ (vl : Voteline), vl ∈ m.votelines ∧ tok ∈ Dict.keys vl.prefs then some (some tok)
  else none

/-- C15, what the program does in every case: the export of a writable model is accepted, with the same ballot
count; url-safe candidates keep their names, the others are named by their token if a ballot mentions them
and are lost otherwise; the votelines are those exported, with the same quantity, each ranked in the order in
which it is printed (see C14_exact), sorted by quantity (stably). -/
theorem C15_exact (cw : Bool) (m : Jabmod) (h : WritableModel m) :
    ∃ (text : Str) (m' : Jabmod) (vls : List Voteline),
      convertToAbif m = .ok text ∧ convertAbif cw false false text = .ok m' ∧
      Dict.get? m'.metadata c!"ballotcount" = some (.int (m.votelines.map Voteline.qty).sum) ∧
      (∀ (tok : Str), Dict.get? m'.candidates tok = (Dict.get? m.candidates tok).bind (nameBack m tok)) ∧
      List.Forall₂ (fun (a b : Voteline) => b.qty = a.qty ∧ Reranked b.prefs a.prefs) m.votelines vls ∧
      StableSortedDesc vls m'.votelines := by
  have hex : ∀ vl ∈ m.votelines, Exportable vl := h.ballots
  obtain ⟨vlines, ht, hv⟩ := convertToAbif_printed hex
  have hone : OneLine m.metadata m.candidates := by
    refine ⟨h.keys, ?_, ?_⟩
    · rintro ⟨tok, name⟩ hm
      rcases h.names tok name hm with ⟨h1, _⟩ | ⟨_, h1, _⟩
      · intro c hc
        have := (urlSafe_props (h1 c hc)).1
        cases hb : isLineBreak c with
        | false => rfl
        | true => rw [lineBreak_space hb] at this; cases this
      · exact h1.2.2.2.1
    · rintro ⟨tok, name⟩ hm d hd
      simp only at hd
      rcases h.names tok name hm with ⟨_, d', h1, _, _, h2⟩ | ⟨_, _, h2⟩
      · rw [hd] at h1; cases h1; exact h2
      · exact h2 d hd
  have hc : ∀ kv ∈ m.candidates, SafeCand kv ∨ BracketCand kv := by
    rintro ⟨tok, name⟩ hm
    rcases h.names tok name hm with ⟨h1, d', h2, h3, h4, _⟩ | ⟨h1, h2, _⟩
    · exact .inl ⟨h1, d', h2, h3, h4⟩
    · exact .inr ⟨h1, h2.2.1, h2.2.2.1⟩
  have htl := textLines_file cw hone hv
  have hvf := votes_file (md := m.metadata) (cs := m.candidates) hv
  obtain ⟨m', hm'⟩ : ∃ m', convertAbif cw false false ((fileLines m.metadata m.candidates vlines).flatMap (fun l => l ++ ['\n'])) = .ok m' := by
    apply convertAbif_total
    · intro l hl q p hr
      rw [htl] at hl
      have hsrc : (q, p, hashComment l) ∈ (fileLines m.metadata m.candidates vlines).filterMap lineVote :=
        List.mem_filterMap.2 ⟨l, hl, by unfold lineVote; rw [hr]; rfl⟩
      have := forall₂_right (P := fun src : Str × Str × Option Str => ∃ r, parsePrefstr src.2.1 = .ok r)
        (by rintro a b ⟨prefs', _, _, hp, _⟩; exact ⟨_, hp⟩) hvf _ hsrc
      exact this
    · unfold votesOf
      rw [htl]
      intro he
      rw [he] at hvf
      cases hvs : m.votelines with
      | nil => exact h.nonempty hvs
      | cons a l => rw [hvs] at hvf; cases hvf
  obtain ⟨vls, g1, _, g2, g3, g4, g5, _⟩ := convertAbif_ok hm'
  unfold votesOf at g1
  rw [htl] at g1 g3 g4
  have hall := forall₂_comp' (T := fun (a b : Voteline) => b.qty = a.qty ∧ Reranked b.prefs a.prefs) hvf g1 (by
    rintro a ha b c ⟨prefs', h1, _, h3, _, h5⟩ ⟨s1, ⟨cands, s2⟩, _⟩
    rw [h3] at s2
    cases s2
    refine ⟨?_, h5⟩
    rw [s1, h1, (natStr_spec _).2.2]
    have := (hex a ha).qty
    omega)
  refine ⟨_, m', vls, ht, hm', ?_, ?_, hall, ?_⟩
  · rw [g5, forall₂_map_eq hall (f := Voteline.qty) (g := Voteline.qty) (fun a b hab => hab.1.symm)]
  · intro tok
    have hkeys : tok ∈ Dict.keys m'.candidates ↔ (∃ d, (tok, some d) ∈ m.candidates ∧ SafeCand (tok, some d)) ∨
        (∃ vl ∈ m.votelines, tok ∈ Dict.keys vl.prefs) := by
      rw [g3, mem_firsts, mentions_file hv hc]
    obtain ⟨d1, d2⟩ := declared_file (md := m.metadata) hv h.once hc
    cases hname : Dict.get? m.candidates tok with
    | none =>
      rw [Option.bind_none, Dict.get?_eq_none, hkeys]
      have hn := Dict.get?_eq_none.1 hname
      rintro (⟨d, hd, _⟩ | ⟨vl, hvl, hk⟩)
      · exact hn (List.mem_map_of_mem (f := Prod.fst) hd)
      · exact hn (h.known vl hvl tok hk)
    | some name =>
      rw [Option.bind_some]
      have hmem := Dict.mem_of_get? hname
      unfold nameBack
      rcases hc _ hmem with hs | hb
      · obtain ⟨hu, d, hd, _⟩ := id hs
        simp only at hd hu; subst hd
        rw [if_pos hu, g4 tok (hkeys.2 (.inl ⟨d, hmem, hs⟩)), d1 tok d hmem hs]; rfl
      · rw [if_neg hb.1]
        by_cases hv' : ∃ (vl : Voteline), vl ∈ m.votelines ∧ tok ∈ Dict.keys vl.prefs
        · rw [if_pos hv', g4 tok (hkeys.2 (.inr hv')), d2 tok name hmem hb]; rfl
        · rw [if_neg hv', Dict.get?_eq_none, hkeys]
          rintro (⟨d, hd, hs⟩ | hv'')
          · exact hb.1 hs.1
          · exact hv' hv''
  · rw [g2]
    exact stableSorted vls

theorem ExportableModel.writable {m : Jabmod} (h : ExportableModel m) : WritableModel m := by
  refine ⟨h.nonempty, fun vl hvl => (h.ballots vl hvl).1, h.known, h.once, ?_, h.keys⟩
  intro tok name hm
  rcases h.names tok name hm with h1 | ⟨h1, h2, _⟩
  · exact .inl h1
  · by_cases hs : ∀ c ∈ tok, isUrlSafe c = true
    · exact .inl ⟨hs, tok, h2, h1.2.1, h1.2.2.1, h1.2.2.2.1⟩
    · exact .inr ⟨hs, h1, fun d hd => by rw [h2] at hd; cases hd; exact h1.2.2.2.1⟩

/-- C15, partial.  For an exportable model, export succeeds and re-parsing the text gives: the same ballot
count (the sum of the quantities), the same candidate table, and one voteline per exported voteline, with
the same quantity and saying the same, sorted by quantity (stably).
MISSING from C15: candidates that have to be bracketed and are named other than by their token
(`C15_refuted`, `C15_iff`), and the ballots of `C14_refuted`. -/
theorem C15_partial (cw : Bool) (m : Jabmod) (h : ExportableModel m) :
    ∃ (text : Str) (m' : Jabmod) (vls : List Voteline),
      convertToAbif m = .ok text ∧ convertAbif cw false false text = .ok m' ∧
      Dict.get? m'.metadata c!"ballotcount" = some (.int (m.votelines.map Voteline.qty).sum) ∧
      (∀ (tok : Str), Dict.get? m'.candidates tok = Dict.get? m.candidates tok) ∧
      List.Forall₂ (fun (a b : Voteline) => b.qty = a.qty ∧ SameBallot b.prefs a.prefs) m.votelines vls ∧
      StableSortedDesc vls m'.votelines := by
  obtain ⟨text, m', vls, h1, h2, h3, h4, h5, h6⟩ := C15_exact cw m h.writable
  refine ⟨text, m', vls, h1, h2, h3, ?_, ?_, h6⟩
  · intro tok
    rw [h4]
    cases hname : Dict.get? m.candidates tok with
    | none => rfl
    | some name =>
      rw [Option.bind_some]
      unfold nameBack
      by_cases hs : ∀ c ∈ tok, isUrlSafe c = true
      · rw [if_pos hs]
      · rw [if_neg hs]
        rcases h.names tok name (Dict.mem_of_get? hname) with ⟨h1, _⟩ | ⟨_, h2, h3⟩
        · exact absurd h1 hs
        · rw [if_pos h3, h2]
  · refine forall₂_imp_mem h5 ?_
    rintro a ha b ⟨e1, e2⟩
    exact ⟨e1, e2.same (h.ballots a ha).2⟩

/-- C15: for a writable model, the candidate table survives the round trip exactly when every candidate whose
token is not url-safe is mentioned on a ballot and named by its token; and the ballots, exactly when each
ranks fully rated candidates by rating. -/
theorem C15_iff (cw : Bool) (m : Jabmod) (h : WritableModel m) :
    ∃ (text : Str) (m' : Jabmod) (vls : List Voteline),
      convertToAbif m = .ok text ∧ convertAbif cw false false text = .ok m' ∧ StableSortedDesc vls m'.votelines ∧
      ((∀ (tok : Str), Dict.get? m'.candidates tok = Dict.get? m.candidates tok) ↔
        ∀ (tok : Str) (name : Option Str), (tok, name) ∈ m.candidates → (¬ ∀ c ∈ tok, isUrlSafe c = true) →
          name = some tok ∧ ∃ (vl : Voteline), vl ∈ m.votelines ∧ tok ∈ Dict.keys vl.prefs) ∧
      (List.Forall₂ (fun (a b : Voteline) => b.qty = a.qty ∧ SameBallot b.prefs a.prefs) m.votelines vls ↔
        ∀ (vl : Voteline), vl ∈ m.votelines → RanksFollowRatings vl.prefs) := by
  obtain ⟨text, m', vls, h1, h2, h3, h4, h5, h6⟩ := C15_exact cw m h
  refine ⟨text, m', vls, h1, h2, h6, ⟨?_, ?_⟩, ⟨?_, ?_⟩⟩
  · intro hsame tok name hm hs
    have hg := Dict.get?_of_mem h.once hm
    have := h4 tok
    rw [hsame, hg, Option.bind_some] at this
    unfold nameBack at this
    rw [if_neg hs] at this
    by_cases hv : ∃ (vl : Voteline), vl ∈ m.votelines ∧ tok ∈ Dict.keys vl.prefs
    · rw [if_pos hv] at this; exact ⟨Option.some.inj this, hv⟩
    · rw [if_neg hv] at this; cases this
  · intro hall tok
    rw [h4]
    cases hname : Dict.get? m.candidates tok with
    | none => rfl
    | some name =>
      rw [Option.bind_some]
      unfold nameBack
      by_cases hs : ∀ c ∈ tok, isUrlSafe c = true
      · rw [if_pos hs]
      · rw [if_neg hs]
        obtain ⟨g1, g2⟩ := hall tok name (Dict.mem_of_get? hname) hs
        rw [if_pos g2, g1]
  · intro hsame vl hvl
    obtain ⟨b, e1, e2⟩ := forall₂_both h5 hsame vl hvl
    exact e1.2.follows (h.ballots vl hvl).wf e2.2
  · intro hf
    refine forall₂_imp_mem h5 ?_
    rintro a ha b ⟨e1, e2⟩
    exact ⟨e1, e2.same (hf a ha)⟩

/-! ### C60: the tool reads what it writes -/

/-- C60, partial.  When `convert_text_to_abif` gets an accepted .abif text whose ballot tokens are printable
(and, with `add_ratings`, whose resulting ratings are not negative), it succeeds and its output is accepted,
whatever the whitespace option, with the same ballot count.
MISSING from C60: tokens that are not printable, for which it is false (`C60_refuted`). -/
theorem C60_partial (cw ar cw' : Bool) (text : Str) (m : Jabmod) (h : convertAbif cw ar false text = .ok m)
    (htok : ∀ (vl : Voteline), vl ∈ m.votelines → ∀ (k : Str), k ∈ Dict.keys vl.prefs → Printable k)
    (hrate : ar = true → ∀ (vl : Voteline), vl ∈ m.votelines → ∀ (e : Str × Pref), e ∈ vl.prefs → PlainRating e.2.rating) :
    ∃ (out : Str) (m' : Jabmod), abifTextToAbif cw ar text = .ok out ∧ convertAbif cw' false false out = .ok m' ∧
      Dict.get? m'.metadata c!"ballotcount" = Dict.get? m.metadata c!"ballotcount" := by
  obtain ⟨h1, h2, h3, h4⟩ := parsed_exportable h htok hrate
  obtain ⟨vlines, ht, hv⟩ := convertToAbif_printed h1
  have htl := textLines_file cw' h2 hv
  have hvf := votes_file (md := m.metadata) (cs := m.candidates) hv
  obtain ⟨m', hm'⟩ : ∃ m', convertAbif cw' false false ((fileLines m.metadata m.candidates vlines).flatMap (fun l => l ++ ['\n'])) = .ok m' := by
    apply convertAbif_total
    · intro l hl q p hr
      rw [htl] at hl
      have hsrc : (q, p, hashComment l) ∈ (fileLines m.metadata m.candidates vlines).filterMap lineVote :=
        List.mem_filterMap.2 ⟨l, hl, by unfold lineVote; rw [hr]; rfl⟩
      have := forall₂_right (P := fun src : Str × Str × Option Str => ∃ r, parsePrefstr src.2.1 = .ok r)
        (by rintro a b ⟨prefs', _, _, hp, _⟩; exact ⟨_, hp⟩) hvf _ hsrc
      exact this
    · unfold votesOf
      rw [htl]
      intro he
      rw [he] at hvf
      cases hvs : m.votelines with
      | nil => exact h3 hvs
      | cons a l => rw [hvs] at hvf; cases hvf
  obtain ⟨vls, g1, _, _, _, _, g5, _⟩ := convertAbif_ok hm'
  unfold votesOf at g1
  rw [htl] at g1
  refine ⟨_, m', by unfold abifTextToAbif; rw [h]; exact ht, hm', ?_⟩
  rw [g5, h4]
  have hall := forall₂_comp' (T := fun (a b : Voteline) => b.qty = a.qty) hvf g1 (by
    rintro a ha b c ⟨prefs', e1, _, _, _, _⟩ ⟨s1, _⟩
    rw [s1, e1, (natStr_spec _).2.2]
    have := (h1 a ha).qty
    omega)
  rw [forall₂_map_eq hall (f := Voteline.qty) (g := Voteline.qty) (fun a b hab => hab.symm)]

end

section Examples
attribute [local instance] Uni.ascii
set_option maxRecDepth 20000

/-- C14 is false when every candidate is rated against the ranking: `A/1>B/5` ranks A first; it is printed
as `B/5>A/1`, which ranks B first. -/
theorem C14_refuted :
    parsePrefstr c!"A/1>B/5" = .ok ([(c!"A", { rating := some (.int 1), rank := some 1, nextdelim := some c!">" }),
      (c!"B", { rating := some (.int 5), rank := some 2 })], [c!"A", c!"B"]) ∧
    votelineStr { qty := 3, prefs := [(c!"A", { rating := some (.int 1), rank := some 1, nextdelim := some c!">" }),
      (c!"B", { rating := some (.int 5), rank := some 2 })] } = .ok c!"3:B/5>A/1\n" ∧
    parsePrefstr c!"B/5>A/1" = .ok ([(c!"B", { rating := some (.int 5), rank := some 1, nextdelim := some c!">" }),
      (c!"A", { rating := some (.int 1), rank := some 2 })], [c!"B", c!"A"]) := by
  refine ⟨?_, ?_, ?_⟩ <;> decide +kernel

/-- the name the table gives to a token -/
def nameIn (text tok : Str) : Except PyErr (Option (Option Str)) := do
  let m ← convertAbif false false false text
  .ok (Dict.get? m.candidates tok)

/-- C15 is false for a bracketed candidate with a name of its own: the exported line `=[x y]:[Foo]` is not
recognized when read back, so the name is lost. -/
theorem C15_refuted :
    nameIn c!"=x y:[Foo]\n1:[x y]>B\n" c!"x y" = .ok (some (some c!"Foo")) ∧
    (abifTextToAbif false false c!"=x y:[Foo]\n1:[x y]>B\n" >>= fun out => nameIn out c!"x y") = .ok (some (some c!"x y")) := by
  refine ⟨?_, ?_⟩ <;> decide +kernel

/-- C60 is false for an empty quoted token: `""/5` is accepted and printed as `/5`, which is rejected with an
`IndexError`. -/
theorem C60_refuted :
    (∃ out, abifTextToAbif false false c!"1:\"\"/5\n" = .ok out ∧ convertAbif false false false out = .error .indexError) := by
  have h : (abifTextToAbif false false c!"1:\"\"/5\n") = .ok c!"#------- metadata -------\n{ballotcount: 1}\n#------ candlines ------\n=:[]\n#------- votelines ------\n1:/5\n" := by
    decide +kernel
  refine ⟨_, h, ?_⟩
  have : (convertAbif false false false c!"#------- metadata -------\n{ballotcount: 1}\n#------ candlines ------\n=:[]\n#------- votelines ------\n1:/5\n" >>= fun m => .ok m.votelines) = .error .indexError := by
    decide +kernel
  revert this
  generalize convertAbif false false false c!"#------- metadata -------\n{ballotcount: 1}\n#------ candlines ------\n=:[]\n#------- votelines ------\n1:/5\n" = r
  cases r with
  | error e => intro h; cases h; rfl
  | ok m => intro h; cases h

/-- tokens meeting the hypotheses of C16, one printed bare and one printed in brackets -/
example : tokenQuote c!"a-1_b.c~" = c!"a-1_b.c~" ∧ tokenQuote c!"Doña/Ann + Bo" = c!"[Doña/Ann + Bo]" ∧
    strip c!"Doña/Ann + Bo" = c!"Doña/Ann + Bo" ∧
    (∀ c ∈ c!"Doña/Ann + Bo", c ≠ '[' ∧ c ≠ ']' ∧ c ≠ '>' ∧ c ≠ '=' ∧ c ≠ ',' ∧ c ≠ '"') := by
  decide +kernel

/-- a ballot meeting the hypotheses of C14: three candidates, a tie, a bracketed token, one rating -/
def exportBallot : Voteline where
  qty := 12
  prefs := [(c!"B", { rank := some 2 }), (c!"C,Jr", { rank := some 1, rating := some (.int 7) }), (c!"D", { rank := some 1 })]

theorem printable_plain {t : Str} (h1 : t ≠ []) (h2 : strip t = t)
    (h3 : ∀ c ∈ t, isSepChar c = false ∧ c ≠ '"' ∧ c ≠ '#' ∧ isLineBreak c = false) : Printable t := by
  refine ⟨h1, fun h => absurd (h3 _ h).1 (by decide), fun h => (h3 _ h).2.2.1 rfl, fun c hc => (h3 c hc).2.2.2, ?_⟩
  rw [splitKeep_none (fun c hc => (h3 c hc).1)]
  simp only [List.mem_singleton, forall_eq]
  exact ⟨h1, h2, fun h => (h3 _ (List.mem_of_head? h)).2.1 rfl⟩

theorem exportBallot_ok : Exportable exportBallot ∧ RanksFollowRatings exportBallot.prefs := by
  refine ⟨⟨by decide, by unfold Dict.WF; decide, ?_, ?_, ?_⟩, ?_⟩
  · intro k hk
    simp only [exportBallot, Dict.keys, List.map_cons, List.map_nil, List.mem_cons, List.not_mem_nil, or_false] at hk
    rcases hk with rfl | rfl | rfl
    · exact printable_plain (by decide) (by decide) (by decide +kernel)
    · refine ⟨by decide, by decide, by decide, by decide +kernel, ?_⟩
      rw [show splitKeep isSepChar c!"C,Jr" = [c!"C", c!",", c!"Jr"] by decide +kernel]
      simp only [List.mem_cons, List.not_mem_nil, or_false, forall_eq_or_imp, forall_eq]
      unfold CleanToken
      decide +kernel
    · exact printable_plain (by decide) (by decide) (by decide +kernel)
  · intro e he
    simp only [exportBallot, List.mem_cons, List.not_mem_nil, or_false] at he
    rcases he with rfl | rfl | rfl <;> exact ⟨_, rfl⟩
  · intro e he
    simp only [exportBallot, List.mem_cons, List.not_mem_nil, or_false] at he
    rcases he with rfl | rfl | rfl
    · trivial
    · show (0 : Int) ≤ 7; decide
    · trivial
  · intro h
    have := (h (c!"B", { rank := some 2 }) (by simp [exportBallot])).1
    exact absurd rfl this

example : votelineStr exportBallot = .ok c!"12:[C,Jr]/7=D>B\n" := by decide +kernel

/-- a model meeting the hypotheses of C15 -/
def exportModel : Jabmod where
  metadata := [(c!"ballotcount", .int 12), (c!"title", .str c!"Où?")]
  candidates := [(c!"B", some c!"Bee (Ind.)"), (c!"C,Jr", some c!"C,Jr"), (c!"D", some c!"D"), (c!"E", some [])]
  votelines := [exportBallot]

theorem exportModel_ok : ExportableModel exportModel := by
  refine ⟨by simp [exportModel], ?_, ?_, by unfold Dict.WF; decide, ?_, ?_⟩
  · intro vl hvl
    simp only [exportModel, List.mem_singleton] at hvl
    subst hvl; exact exportBallot_ok
  · intro vl hvl
    simp only [exportModel, List.mem_singleton] at hvl
    subst hvl; decide
  · intro tok name hm
    simp only [exportModel, List.mem_cons, List.not_mem_nil, or_false, Prod.mk.injEq] at hm
    rcases hm with ⟨rfl, rfl⟩ | ⟨rfl, rfl⟩ | ⟨rfl, rfl⟩ | ⟨rfl, rfl⟩
    · exact .inl ⟨by decide +kernel, _, rfl, by decide +kernel⟩
    · exact .inr ⟨exportBallot_ok.1.tokens _ (by decide), rfl, exportBallot, by simp [exportModel], by decide⟩
    · exact .inl ⟨by decide +kernel, _, rfl, by decide +kernel⟩
    · exact .inl ⟨by decide +kernel, _, rfl, by decide +kernel⟩
  · rintro ⟨k, v⟩ hm
    simp only [exportModel, List.mem_cons, List.not_mem_nil, or_false, Prod.mk.injEq] at hm
    rcases hm with ⟨rfl, _⟩ | ⟨rfl, _⟩ <;> (simp only; decide +kernel)

/-- a model meeting the hypotheses of C15_exact and C15_iff but not surviving the round trip: the bracketed
candidate has a name of its own -/
example : WritableModel { exportModel with candidates := [(c!"B", some c!"Bee (Ind.)"), (c!"C,Jr", some c!"Cee"), (c!"D", some c!"D")] } := by
  refine ⟨exportModel_ok.nonempty, fun vl h => (exportModel_ok.ballots vl h).1, ?_, by unfold Dict.WF; decide, ?_, exportModel_ok.keys⟩
  · intro vl hvl
    simp only [exportModel, List.mem_singleton] at hvl
    subst hvl; decide
  · intro tok name hm
    simp only [List.mem_cons, List.not_mem_nil, or_false, Prod.mk.injEq] at hm
    rcases hm with ⟨rfl, rfl⟩ | ⟨rfl, rfl⟩ | ⟨rfl, rfl⟩
    · exact .inl ⟨by decide +kernel, _, rfl, by decide +kernel⟩
    · refine .inr ⟨by decide +kernel, exportBallot_ok.1.tokens _ (by decide), ?_⟩
      intro d hd; cases hd; decide +kernel
    · exact .inl ⟨by decide +kernel, _, rfl, by decide +kernel⟩

/-- a ballot meeting the hypotheses of C14_exact on which every candidate is rated against the ranking -/
example : Exportable { qty := 3, prefs := [(c!"A", { rating := some (.int 1), rank := some 1 }), (c!"B", { rating := some (.int 5), rank := some 2 })] } ∧
    ¬ RanksFollowRatings [(c!"A", { rating := some (.int 1), rank := some 1 }), (c!"B", { rating := some (.int 5), rank := some 2 })] := by
  refine ⟨⟨by decide, by unfold Dict.WF; decide, ?_, ?_, ?_⟩, ?_⟩
  · intro k hk
    simp only [Dict.keys, List.map_cons, List.map_nil, List.mem_cons, List.not_mem_nil, or_false] at hk
    rcases hk with rfl | rfl <;> exact printable_plain (by decide) (by decide) (by decide +kernel)
  · intro e he
    simp only [List.mem_cons, List.not_mem_nil, or_false] at he
    rcases he with rfl | rfl <;> exact ⟨_, rfl⟩
  · intro e he
    simp only [List.mem_cons, List.not_mem_nil, or_false] at he
    rcases he with rfl | rfl
    · show (0 : Int) ≤ 1; decide
    · show (0 : Int) ≤ 5; decide
  · intro h
    have := (h (by
      intro e he
      simp only [List.mem_cons, List.not_mem_nil, or_false] at he
      rcases he with rfl | rfl <;> exact ⟨by simp, by simp⟩) _ _ (List.mem_cons_self) (List.mem_cons_of_mem _ List.mem_cons_self) 1 2 rfl rfl).1 (by decide)
    exact absurd this (by decide)

/-- a text meeting the hypotheses of C60: the tokens are those of `exportBallot` -/
example : (convertAbif true false false c!" {title: x}\n=B:[Bee (Ind.)]\n12:[C,Jr]/7=D>B # c\n2:D\n" >>= fun m =>
    .ok (m.votelines.map (fun vl => Dict.keys vl.prefs))) = .ok [[c!"C,Jr", c!"D", c!"B"], [c!"D"]] := by decide +kernel

end Examples
end Verif.Props
