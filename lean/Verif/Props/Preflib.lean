/-
C43: PrefLib import.
-/
import Verif.Lib.Preflib
import Verif.Model.Sftxt
import Mathlib.Data.List.Nodup

set_option linter.unusedSimpArgs false
set_option linter.unusedSectionVars false

namespace Verif.Props
open Verif Spec

section
variable [U : Uni]

/-! ### the text -/

theorem prefText_lines {doc : List PLine} (h : ∀ l ∈ doc, l.Ok) : splitlines (prefText doc) = doc.map PLine.text := by
  have : prefText doc = (doc.map PLine.text).flatMap (fun l => l ++ ['\n']) := by
    unfold prefText; rw [List.flatMap_map]
  rw [this]
  apply splitlines_lines
  intro l hl c hc
  obtain ⟨x, hx, rfl⟩ := List.mem_map.1 hl
  have hok := h x hx
  cases x with
  | alt k name =>
    simp only [PLine.text, List.mem_append, List.mem_cons] at hc
    rcases hc with hc | hc | rfl | rfl | hc
    · have : ∀ c ∈ c!"# ALTERNATIVE NAME ", isLineBreak c = false := by decide
      exact this c (by simpa using hc)
    · exact natStr_noBreak k c hc
    · decide
    · decide
    · exact hok c hc
  | vote q ps =>
    simp only [PLine.text, List.mem_append, List.mem_cons] at hc
    rcases hc with hc | rfl | rfl | hc
    · exact natStr_noBreak q c hc
    · decide
    · decide
    · rcases joinStr_mem hc with hc | ⟨p, hp, hc⟩
      · simp at hc; subst hc; decide
      · obtain ⟨p, _, rfl⟩ := List.mem_map.1 hp
        cases p with
        | bare n => exact natStr_noBreak n c hc
        | group ns =>
          simp only [PItem.text, List.mem_cons, List.mem_append, List.not_mem_nil, or_false] at hc
          rcases hc with rfl | hc | rfl
          · decide
          · rcases joinStr_mem hc with hc | ⟨p, hp, hc⟩
            · simp at hc; subst hc; decide
            · obtain ⟨n, _, rfl⟩ := List.mem_map.1 hp
              exact natStr_noBreak n c hc
          · decide
  | comment t =>
    simp only [PLine.text, List.mem_cons] at hc
    rcases hc with rfl | hc
    · decide
    · exact hok.1 c hc

theorem places_noBreak (ps : List PItem) : ∀ c ∈ joinStr [','] (ps.map PItem.text), isLineBreak c = false := by
  intro c hc
  rcases joinStr_mem hc with hc | ⟨p, hp, hc⟩
  · simp at hc; subst hc; decide
  · obtain ⟨p, _, rfl⟩ := List.mem_map.1 hp
    cases p with
    | bare n => exact natStr_noBreak n c hc
    | group ns =>
      simp only [PItem.text, List.mem_cons, List.mem_append, List.not_mem_nil, or_false] at hc
      rcases hc with rfl | hc | rfl
      · decide
      · rcases joinStr_mem hc with hc | ⟨p, hp, hc⟩
        · simp at hc; subst hc; decide
        · obtain ⟨n, _, rfl⟩ := List.mem_map.1 hp
          exact natStr_noBreak n c hc
      · decide

theorem altNames_doc {doc : List PLine} (h : ∀ l ∈ doc, l.Ok) : altNames (prefText doc) = (prefAlts doc).map Prod.snd := by
  unfold altNames
  rw [prefText_lines h, List.filterMap_map]
  unfold prefAlts
  rw [List.map_filterMap]
  apply List.filterMap_congr
  intro l hl
  have hok := h l hl
  cases l with
  | alt k name =>
    simp only [Function.comp, PLine.text]
    exact altName_alt hok
  | vote q ps =>
    simp only [Function.comp, PLine.text]
    show altName _ = none
    apply altName_none_of_head
    rintro ⟨r, hr⟩
    obtain ⟨n1, n2, _⟩ := natStr_spec q
    cases hq : natStr q with
    | nil => exact n1 hq
    | cons c t =>
      rw [hq] at hr n2
      simp only [List.cons_append, List.cons.injEq] at hr
      have := n2 c (by simp)
      rw [← hr.1, digit_ascii (by decide) (by decide)] at this
      cases this
  | comment t =>
    simp only [Function.comp, PLine.text]
    show altName _ = none
    apply altName_none_of_head
    rintro ⟨r, hr⟩
    simp only [List.cons_append, List.cons.injEq] at hr
    exact hok.2 ⟨r, hr.2⟩

/-- the votes of the text as the importer sees them -/
theorem prefLines_doc {doc : List PLine} (h : ∀ l ∈ doc, l.Ok) :
    ∃ vs : List (Nat × List PItem), vs.map (fun v => (v.1, v.2.map PItem.nums)) = prefVotes doc ∧
      (∀ v ∈ vs, ∀ p ∈ v.2, p.nums ≠ []) ∧
      (splitlines (prefText doc)).filterMap prefLineMatch =
        vs.map (fun v => (natStr v.1, joinStr [','] (v.2.map PItem.text))) := by
  rw [prefText_lines h, List.filterMap_map]
  induction doc with
  | nil => exact ⟨[], rfl, by simp, rfl⟩
  | cons l doc ih =>
    obtain ⟨vs, h1, h2, h3⟩ := ih (fun l hl => h l (by simp [hl]))
    have hok := h l (by simp)
    cases l with
    | alt k name =>
      refine ⟨vs, ?_, h2, ?_⟩
      · simp only [prefVotes, List.filterMap_cons] at h1 ⊢; exact h1
      · rw [List.filterMap_cons]
        have : (prefLineMatch ∘ PLine.text) (.alt k name) = none := prefLineMatch_hash _
        rw [this]
        exact h3
    | vote q ps =>
      refine ⟨(q, ps) :: vs, ?_, ?_, ?_⟩
      · simp only [prefVotes, List.filterMap_cons, List.map_cons] at h1 ⊢; rw [h1]
      · intro v hv
        rcases List.mem_cons.1 hv with rfl | hv
        · exact hok
        · exact h2 v hv
      · rw [List.filterMap_cons]
        have : (prefLineMatch ∘ PLine.text) (.vote q ps) = some (natStr q, joinStr [','] (ps.map PItem.text)) :=
          prefLineMatch_vote (natStr_spec q).1 (natStr_spec q).2.1 (places_noBreak ps)
        rw [this, h3]
        rfl
    | comment t =>
      refine ⟨vs, ?_, h2, ?_⟩
      · simp only [prefVotes, List.filterMap_cons] at h1 ⊢; exact h1
      · rw [List.filterMap_cons]
        have : (prefLineMatch ∘ PLine.text) (.comment t) = none := prefLineMatch_hash _
        rw [this]
        exact h3

/-- numbered alternatives are found by position -/
theorem nameOf_numbered {alts : List (Nat × Str)} {s : Nat} (h : alts.map Prod.fst = List.range' s alts.length) (n : Nat) :
    altNameOf alts (s + n) = (alts.map Prod.snd)[n]? := by
  induction alts generalizing s n with
  | nil => rfl
  | cons a alts ih =>
    simp only [List.map_cons, List.length_cons, List.range'_succ, List.cons.injEq] at h
    obtain ⟨h1, h2⟩ := h
    unfold altNameOf
    cases n with
    | zero => simp [h1]
    | succ n =>
      rw [List.find?_cons_of_neg (by simp [h1])]
      have := ih h2 n
      unfold altNameOf at this
      rw [show s + (n + 1) = s + 1 + n from by omega, this]
      simp

theorem nameOf_zero {alts : List (Nat × Str)} (h : alts.map Prod.fst = List.range' 1 alts.length) : altNameOf alts 0 = none := by
  unfold altNameOf
  rw [Option.map_eq_none_iff, List.find?_eq_none]
  intro a ha
  have : a.1 ∈ alts.map Prod.fst := List.mem_map_of_mem ha
  rw [h, List.mem_range'] at this
  simp only [decide_eq_true_eq]
  omega

theorem noSpaces_eq (s : Str) : preflibToken s = noSpaces s := by
  unfold preflibToken noSpaces
  apply List.filter_congr
  intro c _
  by_cases h : c = ' ' <;> simp [h]

theorem shortAt_named {alts : List (Nat × Str)} (h : alts.map Prod.fst = List.range' 1 alts.length) {n : Nat}
    (hn : (altNameOf alts n).isSome = true) :
    shortAt ((alts.map Prod.snd).map preflibToken) n = .ok (altTok alts n) := by
  cases n with
  | zero => rw [nameOf_zero h] at hn; cases hn
  | succ n =>
    have := nameOf_numbered h n
    rw [Nat.add_comm] at this
    obtain ⟨x, hx⟩ := Option.isSome_iff_exists.1 hn
    rw [this] at hx
    unfold shortAt
    simp only
    rw [List.getElem?_map, hx]
    simp only [Option.map_some]
    unfold altTok
    rw [this, hx, Option.getD_some, noSpaces_eq]

theorem prefVoteline_doc {alts : List (Nat × Str)} (h : alts.map Prod.fst = List.range' 1 alts.length) {v : Nat × List PItem}
    (hv : ∀ p ∈ v.2, ∀ n ∈ p.nums, (altNameOf alts n).isSome = true) :
    prefVoteline ((alts.map Prod.snd).map preflibToken) (natStr v.1, joinStr [','] (v.2.map PItem.text)) =
      .ok ((prefBallot alts (v.1, v.2.map PItem.nums)).line ++ ['\n']) := by
  unfold prefVoteline
  rw [splitBrace_items, List.mapM_map]
  have : List.mapM (fun p => prefTier ((alts.map Prod.snd).map preflibToken) (PItem.text p)) v.2 =
      .ok (v.2.map (fun p => joinStr ['='] (p.nums.map (altTok alts)))) := by
    apply mapM_ok
    intro p hp
    unfold prefTier
    rw [digitRuns_item, List.mapM_map]
    have : List.mapM (fun n => shortAt ((alts.map Prod.snd).map preflibToken) (digitsVal (natStr n))) p.nums =
        .ok (p.nums.map (altTok alts)) := by
      apply mapM_ok
      intro n hn
      rw [(natStr_spec n).2.2]
      exact shortAt_named h (hv p hp n hn)
    rw [show (List.mapM ((fun n => shortAt ((alts.map Prod.snd).map preflibToken) (digitsVal n)) ∘ natStr) p.nums) = _ from this]
    rfl
  rw [show (List.mapM (prefTier ((alts.map Prod.snd).map preflibToken) ∘ PItem.text) v.2) = _ from this]
  show Except.ok _ = Except.ok _
  congr 1
  simp only [ImpVote.line, prefBallot, vidText, List.append_nil, tierText, List.map_map, List.append_assoc, List.cons_append]
  rfl

/-- C43 (partial: the alternatives are listed as 1, 2, 3, …; see `C43_order_refuted`).  Every PrefLib file whose votes
name only listed alternatives is imported: the .abif text declares each alternative under its name without spaces, and
has one voteline per vote, in file order, with the vote's quantity and the tokens of its alternatives in its tiers. -/
theorem C43_text_partial (doc : List PLine) (h : ∀ l ∈ doc, l.Ok) (hnum : Numbered doc) (hr : InRange doc) :
    convertPreflib (prefText doc) = .ok
      ((impFile [] ((prefAlts doc).map (fun a => (noSpaces a.2, a.2)))
        ((prefVotes doc).map (prefBallot (prefAlts doc)))).flatMap (fun l => l ++ ['\n'])) := by
  unfold convertPreflib prefRankings
  rw [altNames_doc h]
  obtain ⟨vs, h1, h2, h3⟩ := prefLines_doc h
  rw [h3]
  simp only [List.mapM_map]
  have : List.mapM (prefVoteline (((prefAlts doc).map Prod.snd).map preflibToken) ∘
      (fun v : Nat × List PItem => (natStr v.1, joinStr [','] (v.2.map PItem.text)))) vs =
      .ok (vs.map (fun v => (prefBallot (prefAlts doc) (v.1, v.2.map PItem.nums)).line ++ ['\n'])) := by
    apply mapM_ok
    intro v hv
    apply prefVoteline_doc hnum
    intro p hp n hn
    have hv' : (v.1, v.2.map PItem.nums) ∈ prefVotes doc := by
      rw [← h1]; exact List.mem_map.2 ⟨v, hv, rfl⟩
    exact hr _ hv' _ (List.mem_map.2 ⟨p, hp, rfl⟩) n hn
  rw [this]
  show Except.ok _ = Except.ok _
  congr 1
  unfold impFile
  rw [← h1]
  simp only [List.nil_append, List.flatMap_append, List.flatMap_cons, List.flatMap_nil, List.append_nil, List.flatMap_map,
    List.map_map, List.append_assoc, List.zip_map_left, List.flatten_eq_flatMap]
  have e1 : ∀ l : List (Nat × Str),
      List.flatMap (fun a : (Nat × Str) × Str => '=' :: ((Prod.map (preflibToken ∘ Prod.snd) id a).fst ++
              ':' :: '[' :: ((Prod.map (preflibToken ∘ Prod.snd) id a).snd ++ [']', '\n'])))
        (l.zip (l.map Prod.snd)) =
      List.flatMap (fun a : Nat × Str => declLine (noSpaces a.2, a.2) ++ ['\n']) l := by
    intro l
    induction l with
    | nil => rfl
    | cons a l ih =>
      simp only [List.map_cons, List.zip_cons_cons, List.flatMap_cons, ih]
      simp [declLine, noSpaces_eq]
  rw [e1]
  rfl

/-- the ballots of a PrefLib file can be printed and read, over declared candidates -/
theorem pref_ballots_ok (doc : List PLine) (h : ∀ l ∈ doc, l.Ok) (hr : InRange doc)
    (hnames : ∀ a ∈ prefAlts doc, CandOk (noSpaces a.2, a.2)) (hdist : ((prefAlts doc).map (fun a => noSpaces a.2)).Nodup)
    (hdup : ∀ v ∈ prefVotes doc, v.2.flatten.Nodup) :
    ∀ v ∈ (prefVotes doc).map (prefBallot (prefAlts doc)), v.Ok ∧
      ∀ t ∈ v.tiers.flatten, t ∈ ((prefAlts doc).map (fun a => (noSpaces a.2, a.2))).map Prod.fst := by
  have hmem : ∀ n, (altNameOf (prefAlts doc) n).isSome = true → ∃ a ∈ prefAlts doc, a.1 = n ∧ altTok (prefAlts doc) n = noSpaces a.2 := by
    intro n hn
    obtain ⟨x, hx⟩ := Option.isSome_iff_exists.1 hn
    have hx' := hx
    unfold altNameOf at hx
    obtain ⟨a, ha, rfl⟩ := Option.map_eq_some_iff.1 hx
    have h1 := List.mem_of_find?_eq_some ha
    have h2 := List.find?_some ha
    refine ⟨a, h1, by simpa using h2, ?_⟩
    unfold altTok
    rw [hx']; rfl
  have hflat : ∀ v : Nat × List (List Nat), ((prefBallot (prefAlts doc) v).tiers).flatten = v.2.flatten.map (altTok (prefAlts doc)) := by
    intro v
    simp only [prefBallot]
    rw [List.map_flatten]
  have hin : ∀ v ∈ prefVotes doc, ∀ n ∈ v.2.flatten, (altNameOf (prefAlts doc) n).isSome = true := by
    intro v hv n hn
    obtain ⟨t, ht, hn⟩ := List.mem_flatten.1 hn
    exact hr v hv t ht n hn
  have hinj : ∀ n n', (altNameOf (prefAlts doc) n).isSome = true → (altNameOf (prefAlts doc) n').isSome = true →
      altTok (prefAlts doc) n = altTok (prefAlts doc) n' → n = n' := by
    intro n n' hn hn' he
    obtain ⟨a, ha, rfl, ha2⟩ := hmem n hn
    obtain ⟨b, hb, rfl, hb2⟩ := hmem n' hn'
    rw [ha2, hb2] at he
    have := List.inj_on_of_nodup_map hdist ha hb he
    rw [this]
  have hok : ∀ v ∈ (prefVotes doc).map (prefBallot (prefAlts doc)), v.Ok := by
    intro v hv
    obtain ⟨w0, hw0, rfl⟩ := List.mem_map.1 hv
    clear hv
    have hv := hw0
    clear hw0
    rename' w0 => v
    refine ⟨(natStr_spec v.1).1, (natStr_spec v.1).2.1, ?_, ?_, ?_, by simp [prefBallot]⟩
    · intro t ht
      simp only [prefBallot, List.mem_map] at ht
      obtain ⟨t, ht, rfl⟩ := ht
      have : t ≠ [] := by
        obtain ⟨vs, h1, h2, _⟩ := prefLines_doc h
        rw [← h1] at hv
        obtain ⟨w, hw, rfl⟩ := List.mem_map.1 hv
        obtain ⟨p, hp, rfl⟩ := List.mem_map.1 ht
        exact h2 w hw p hp
      simpa using this
    · intro c hc
      rw [hflat, List.mem_map] at hc
      obtain ⟨n, hn, rfl⟩ := hc
      obtain ⟨a, ha, _, he⟩ := hmem n (hin v hv n hn)
      rw [he]
      exact (hnames a ha).1
    · rw [hflat]
      apply List.Nodup.map_on _ (hdup v hv)
      intro n hn n' hn' he
      exact hinj n n' (hin v hv n hn) (hin v hv n' hn') he
  intro v hv
  refine ⟨hok v hv, ?_⟩
  intro t ht
  obtain ⟨w0, hw0, rfl⟩ := List.mem_map.1 hv
  rw [hflat, List.mem_map] at ht
  obtain ⟨n, hn, rfl⟩ := ht
  obtain ⟨a, ha, _, he⟩ := hmem n (hin w0 hw0 n hn)
  rw [he, List.map_map]
  exact List.mem_map.2 ⟨a, ha, rfl⟩

/-- C43 (partial, as above), through to the model.  If moreover the tokens are distinct and need no quoting and no
vote lists an alternative twice, then reading the imported text gives one voteline per vote with the vote's
quantity, rank 1 for the alternatives of its first place, 2 for its second and so on, no ratings, and the
candidate table of the file. -/
theorem C43_model_partial (doc : List PLine) (h : ∀ l ∈ doc, l.Ok) (hnum : Numbered doc) (hr : InRange doc)
    (hvotes : prefVotes doc ≠ [])
    (hnames : ∀ a ∈ prefAlts doc, CandOk (noSpaces a.2, a.2)) (hdist : ((prefAlts doc).map (fun a => noSpaces a.2)).Nodup)
    (hdup : ∀ v ∈ prefVotes doc, v.2.flatten.Nodup) :
    ∃ text m vls, convertPreflib (prefText doc) = .ok text ∧ convertAbif false false false text = .ok m ∧
      List.Forall₂ (fun (v : Nat × List (List Nat)) (vl : Voteline) => vl.qty = v.1 ∧
          ranksOf vl = tierRanks (v.2.map (fun t => t.map (altTok (prefAlts doc)))) ∧
          (∀ kp ∈ vl.prefs, kp.2.rating = none) ∧ vl.voterid = none) (prefVotes doc) vls ∧
      StableSortedDesc vls m.votelines ∧
      m.candidates = (prefAlts doc).map (fun a => (noSpaces a.2, some a.2)) := by
  have hbal := pref_ballots_ok doc h hr hnames hdist hdup
  obtain ⟨m, vls, g1, g2, g3, g4⟩ := convertAbif_impFile (metas := []) (cands := (prefAlts doc).map (fun a => (noSpaces a.2, a.2)))
    (votes := (prefVotes doc).map (prefBallot (prefAlts doc))) (by simp)
    (by
      intro cn hcn
      obtain ⟨a, ha, rfl⟩ := List.mem_map.1 hcn
      exact hnames a ha)
    (by rw [List.map_map]; exact hdist) (fun v hv => (hbal v hv).1) (fun v hv => (hbal v hv).2)
    (by simpa using hvotes)
  refine ⟨_, m, vls, C43_text_partial doc h hnum hr, g1, ?_, g3, by rw [g4, List.map_map]; rfl⟩
  rw [List.forall₂_map_left_iff] at g2
  refine g2.imp ?_
  rintro v vl ⟨s1, s2, s3, s4⟩
  refine ⟨?_, s2, s3, s4⟩
  rw [s1]
  simp only [prefBallot]
  rw [(natStr_spec v.1).2.2]

/-- a vote with a number beyond the alternatives cannot be imported -/
theorem prefTier_large {names : List Str} {p : PItem} (h : ∃ n ∈ p.nums, names.length < n) :
    prefTier names p.text = .error .indexError := by
  unfold prefTier
  rw [digitRuns_item, List.mapM_map]
  have : List.mapM ((fun n => shortAt names (digitsVal n)) ∘ natStr) p.nums = .error .indexError := by
    apply mapM_error
    · intro n _
      simp only [Function.comp]
      unfold shortAt
      split
      · split
        · exact .inl ⟨_, rfl⟩
        · exact .inr rfl
      · split
        · exact .inl ⟨_, rfl⟩
        · exact .inr rfl
    · obtain ⟨n, hn, hl⟩ := h
      refine ⟨n, hn, ?_⟩
      simp only [Function.comp]
      rw [(natStr_spec n).2.2]
      cases n with
      | zero => omega
      | succ n =>
        unfold shortAt
        simp only
        rw [List.getElem?_eq_none (by omega)]
  rw [this]; rfl

theorem prefTier_cases (names : List Str) (s : Str) : (∃ x, prefTier names s = .ok x) ∨ prefTier names s = .error .indexError := by
  unfold prefTier
  have : ∀ l : List Str, (∃ x, List.mapM (fun n => shortAt names (digitsVal n)) l = .ok x) ∨
      List.mapM (fun n => shortAt names (digitsVal n)) l = .error .indexError := by
    intro l
    induction l with
    | nil => exact .inl ⟨[], rfl⟩
    | cons a l ih =>
      rw [List.mapM_cons]
      have : (∃ x, shortAt names (digitsVal a) = .ok x) ∨ shortAt names (digitsVal a) = .error .indexError := by
        unfold shortAt
        split
        · split
          · exact .inl ⟨_, rfl⟩
          · exact .inr rfl
        · split
          · exact .inl ⟨_, rfl⟩
          · exact .inr rfl
      rcases this with ⟨x, hx⟩ | hx
      · rw [hx]
        rcases ih with ⟨y, hy⟩ | hy
        · exact .inl ⟨x :: y, by rw [hy]; rfl⟩
        · exact .inr (by rw [hy]; rfl)
      · exact .inr (by rw [hx]; rfl)
  rcases this (digitRuns s []) with ⟨x, hx⟩ | hx
  · exact .inl ⟨_, by rw [hx]; rfl⟩
  · exact .inr (by rw [hx]; rfl)

theorem prefVoteline_cases (names : List Str) (qr : Str × Str) :
    (∃ x, prefVoteline names qr = .ok x) ∨ prefVoteline names qr = .error .indexError := by
  unfold prefVoteline
  have : ∀ l : List Str, (∃ x, List.mapM (prefTier names) l = .ok x) ∨ List.mapM (prefTier names) l = .error .indexError := by
    intro l
    induction l with
    | nil => exact .inl ⟨[], rfl⟩
    | cons a l ih =>
      rw [List.mapM_cons]
      rcases prefTier_cases names a with ⟨x, hx⟩ | hx
      · rw [hx]
        rcases ih with ⟨y, hy⟩ | hy
        · exact .inl ⟨x :: y, by rw [hy]; rfl⟩
        · exact .inr (by rw [hy]; rfl)
      · exact .inr (by rw [hx]; rfl)
  rcases this ((splitBrace false qr.2 []).filter (fun p => !skipPart p)) with ⟨x, hx⟩ | hx
  · exact .inl ⟨_, by rw [hx]; rfl⟩
  · exact .inr (by rw [hx]; rfl)

/-- C43 (partial: 0 is accepted, see `C43_zero_refuted`).  A vote with an alternative number larger than the number of
listed alternatives makes the import fail with an IndexError. -/
theorem C43_range_partial (doc : List PLine) (h : ∀ l ∈ doc, l.Ok)
    (hbad : ∃ v ∈ prefVotes doc, ∃ t ∈ v.2, ∃ n ∈ t, (prefAlts doc).length < n) :
    convertPreflib (prefText doc) = .error .indexError := by
  unfold convertPreflib prefRankings
  rw [altNames_doc h]
  obtain ⟨vs, h1, h2, h3⟩ := prefLines_doc h
  rw [h3]
  simp only [List.mapM_map]
  set names := ((prefAlts doc).map Prod.snd).map preflibToken with hn
  have hlen : names.length = (prefAlts doc).length := by simp [hn]
  have : List.mapM (prefVoteline names ∘ (fun v : Nat × List PItem => (natStr v.1, joinStr [','] (v.2.map PItem.text)))) vs =
      .error .indexError := by
    apply mapM_error
    · intro v _
      exact prefVoteline_cases _ _
    · obtain ⟨v, hv, t, ht, n, hnt, hl⟩ := hbad
      rw [← h1] at hv
      obtain ⟨w, hw, rfl⟩ := List.mem_map.1 hv
      obtain ⟨p, hp, rfl⟩ := List.mem_map.1 ht
      refine ⟨w, hw, ?_⟩
      simp only [Function.comp, prefVoteline]
      rw [splitBrace_items, List.mapM_map]
      have : List.mapM (prefTier names ∘ PItem.text) w.2 = .error .indexError := by
        apply mapM_error
        · intro p _
          exact prefTier_cases _ _
        · exact ⟨p, hp, prefTier_large ⟨n, hnt, by omega⟩⟩
      rw [this]; rfl
  rw [this]; rfl

end

section
attribute [local instance] Uni.ascii
set_option maxRecDepth 20000

/-- C43: alternative number 0 is not an error; it is read as the last alternative. -/
theorem C43_zero_refuted :
    convertPreflib c!"# ALTERNATIVE NAME 1: Ann\n# ALTERNATIVE NAME 2: Bob\n3: 0,1\n" =
      .ok c!"=Ann:[Ann]\n=Bob:[Bob]\n# ---------------\n3:Bob>Ann\n" := by
  decide +kernel

/-- C43: the numbers in the alternative lines are ignored; when they are not listed as 1, 2, …, votes go to the wrong
alternatives. -/
theorem C43_order_refuted :
    convertPreflib c!"# ALTERNATIVE NAME 2: Bob\n# ALTERNATIVE NAME 1: Ann\n3: 1\n" =
      .ok c!"=Bob:[Bob]\n=Ann:[Ann]\n# ---------------\n3:Bob\n" := by
  decide +kernel

theorem splitBrace_flatten (b : Bool) (s cur : Str) : (splitBrace b s cur).flatten = cur.reverse ++ s := by
  induction s generalizing b cur with
  | nil => cases b <;> simp [splitBrace]
  | cons c t ih =>
    cases b with
    | true =>
      unfold splitBrace
      split
      · rw [List.flatten_cons, ih]; simp
      · rw [ih]; simp
    | false =>
      unfold splitBrace
      split
      · rename_i h; rw [List.flatten_cons, ih]; simp [h.1]
      · split
        · rename_i h; rw [List.flatten_cons, List.flatten_cons, ih]; simp [h]
        · rw [ih]; simp

theorem splitAtChar_some {sep : Char} (s cur : Str) : splitAtChar sep s cur ≠ [] := by
  induction s generalizing cur with
  | nil => simp [splitAtChar]
  | cons c t ih =>
    unfold splitAtChar
    split
    · simp
    · exact ih _

theorem splitBrace_noClose (s cur : Str) (h : '}' ∉ s) : splitBrace false s cur = (splitAtChar ',' s cur).intersperse [','] := by
  induction s generalizing cur with
  | nil => simp [splitBrace, splitAtChar]
  | cons c t ih =>
    rw [List.mem_cons, not_or] at h
    unfold splitBrace splitAtChar
    rw [if_neg (fun hx => h.2 hx.2)]
    split
    · rw [ih _ h.2]
      cases hs : splitAtChar ',' t [] with
      | nil => exact absurd hs (splitAtChar_some t [])
      | cons a l => rw [List.intersperse_cons_cons]
    · exact ih _ h.2

/-- C43, for any ranking part, well formed or not: the pieces it is cut into make up the text again, and a brace that is never
closed is ordinary text, so that the line is cut at its commas. -/
theorem C43_pieces (s : Str) : (splitBrace false s []).flatten = s ∧
    ('}' ∉ s → splitBrace false s [] = (splitAtChar ',' s []).intersperse [',']) :=
  ⟨by rw [splitBrace_flatten]; rfl, fun h => splitBrace_noClose s [] h⟩

example : splitBrace false c!"1,{2,3" [] = [c!"1", c!",", c!"{2", c!",", c!"3"] := by decide
example : splitBrace false c!"1,{2,3}" [] = [c!"1", c!",", c!"", c!"{2,3}", c!""] := by decide

/-- a file meeting the hypotheses of the C43 theorems -/
def exPrefDoc : List PLine :=
  [.comment c!" TITLE: x", .alt 1 c!"Bob Kiss", .alt 2 c!"Andy Montroll", .alt 3 c!"Write-In",
   .vote 840 [.bare 3, .group [1, 2]], .vote 355 [.bare 1, .bare 2, .group [3]]]

example : (∀ l ∈ exPrefDoc, l.Ok) ∧ Numbered exPrefDoc ∧ InRange exPrefDoc ∧ prefVotes exPrefDoc ≠ [] := by
  refine ⟨?_, rfl, by unfold InRange; decide +kernel, by decide⟩
  intro l hl
  simp only [exPrefDoc, List.mem_cons, List.not_mem_nil, or_false] at hl
  rcases hl with rfl | rfl | rfl | rfl | rfl | rfl
  · exact ⟨by decide, by decide⟩
  · show ∀ c ∈ _, _; decide
  · show ∀ c ∈ _, _; decide
  · show ∀ c ∈ _, _; decide
  · show ∀ p ∈ _, _; decide
  · show ∀ p ∈ _, _; decide

example : prefText exPrefDoc =
    c!"# TITLE: x\n# ALTERNATIVE NAME 1: Bob Kiss\n# ALTERNATIVE NAME 2: Andy Montroll\n# ALTERNATIVE NAME 3: Write-In\n840: 3,{1,2}\n355: 1,2,{3}\n" := by
  decide +kernel

theorem simpleTok_of {t : Str} (h1 : t ≠ []) (h2 : strip t = t)
    (h3 : ∀ c ∈ t, isLineBreak c = false ∧ isSepChar c = false ∧ c ≠ '#' ∧ c ≠ ':' ∧ c ≠ '"') (h4 : '/' ∉ t) : SimpleTok t := by
  refine ⟨h1, h2, h3, ?_⟩
  rintro ⟨a, ds, rfl, _⟩
  exact h4 (by simp)

example : (∀ a ∈ prefAlts exPrefDoc, CandOk (noSpaces a.2, a.2)) ∧ ((prefAlts exPrefDoc).map (fun a => noSpaces a.2)).Nodup ∧
    (∀ v ∈ prefVotes exPrefDoc, v.2.flatten.Nodup) := by
  refine ⟨?_, by decide, by decide⟩
  intro a ha
  simp only [prefAlts, exPrefDoc, List.filterMap_cons, List.filterMap_nil, List.mem_cons, List.not_mem_nil, or_false] at ha
  rcases ha with rfl | rfl | rfl
  · exact ⟨simpleTok_of (by decide) (by decide) (by decide +kernel) (by decide), by decide +kernel⟩
  · exact ⟨simpleTok_of (by decide) (by decide) (by decide +kernel) (by decide), by decide +kernel⟩
  · exact ⟨simpleTok_of (by decide) (by decide) (by decide +kernel) (by decide), by decide +kernel⟩

end

end Verif.Props
