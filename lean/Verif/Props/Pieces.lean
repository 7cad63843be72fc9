/-
C107: preference lists without brackets and double quotes, however sloppily written.  Also C09: the error a text is
refused with.
-/
import Verif.Lib.Pieces
import Verif.Props.Merge
import Verif.Props.Prefstr

set_option linter.unusedSectionVars false

namespace Verif.Props
open Spec
section
variable [U : Uni]

theorem mem_takeWhile_p {α : Type} {p : α → Bool} {l : List α} {x : α} (h : x ∈ l.takeWhile p) : p x = true := by
  induction l with
  | nil => cases h
  | cons a l ih =>
    rw [List.takeWhile_cons] at h
    split at h
    · rcases List.mem_cons.1 h with rfl | h
      · assumption
      · exact ih h
    · cases h

/-- a voteline that cannot be read stops the reading with its own error -/
theorem processPlain_error (i : Nat) (ls : List Str) (m : Jabmod) (n : Int) (hn : m.metadata.get? c!"ballotcount" = some (.int n))
    (good : List (Str × Str × Option Str)) (bad : Str × Str × Option Str) (rest : List (Str × Str × Option Str)) (err : PyErr)
    (hv : ls.filterMap Spec.lineVote = good ++ bad :: rest)
    (h : ∀ v ∈ good, ∃ r, parsePrefstr v.2.1 = .ok r) (hb : parsePrefstr bad.2.1 = .error err) :
    processPlain false i ls m = .error err := by
  induction ls generalizing i m n good with
  | nil => cases good <;> simp at hv
  | cons l ls ih =>
    have pass : ∀ m1 n1, lineEffect l m = .ok m1 → Dict.get? m1.metadata c!"ballotcount" = some (.int n1) →
        ∀ good', (∀ v ∈ good', ∃ r, parsePrefstr v.2.1 = .ok r) → ls.filterMap Spec.lineVote = good' ++ bad :: rest →
        processPlain false i (l :: ls) m = .error err := by
      intro m1 n1 e1 e2 good' hg hv'
      simp only [processPlain, processComment_false, ok_bind, e1]
      exact ih (i + 1) m1 n1 e2 good' hv' hg
    rw [List.filterMap_cons] at hv
    cases hl : Spec.lineVote l with
    | none =>
      rw [hl] at hv
      have hno : readVote (beforeHash l) = none := by
        unfold Spec.lineVote at hl
        cases hr : readVote (beforeHash l) with
        | none => rfl
        | some x => rw [hr] at hl; cases hl
      have step : ∃ m1, lineEffect l m = .ok m1 ∧ Dict.get? m1.metadata c!"ballotcount" = some (.int n) := by
        unfold lineEffect
        cases hc : readCand (beforeHash l) with
        | some td => exact ⟨_, rfl, hn⟩
        | none =>
          cases hm : matchMeta (beforeHash l) with
          | some kv =>
            refine ⟨_, rfl, ?_⟩
            simp only [processMeta]
            rw [Dict.get?_set_ne _ _ (by split <;> simp_all), hn]
          | none => rw [hno]; exact ⟨_, rfl, hn⟩
      obtain ⟨m1, e1, e2⟩ := step
      exact pass m1 n e1 e2 good h hv
    | some v =>
      rw [hl] at hv
      simp only at hv
      obtain ⟨q, p, c⟩ := v
      have hrv : readVote (beforeHash l) = some (q, p) := by
        unfold Spec.lineVote at hl
        cases hr : readVote (beforeHash l) with
        | none => rw [hr] at hl; cases hl
        | some x => rw [hr] at hl; cases hl; rfl
      have hcand : readCand (beforeHash l) = none := readCand_none_of_vote hrv
      have hmeta : matchMeta (beforeHash l) = none := matchMeta_none_of_vote hrv
      have heff : lineEffect l m = processPrefline q p (hashComment l) m := by
        unfold lineEffect
        rw [hcand, hmeta, hrv]
      cases good with
      | nil =>
        simp only [List.nil_append, List.cons.injEq] at hv
        obtain ⟨rfl, _⟩ := hv
        simp only [processPlain, processComment_false, ok_bind, heff, processPrefline, bumpBallotcount, hn, hb]
        rfl
      | cons g good =>
        simp only [List.cons_append, List.cons.injEq] at hv
        obtain ⟨rfl, hv⟩ := hv
        obtain ⟨⟨prefs, cands⟩, hp⟩ := h _ (List.mem_cons_self ..)
        refine pass _ (n + digitsVal q) (by rw [heff]; simp only [processPrefline, bumpBallotcount, hn, ok_bind, hp]; rfl) ?_ good
          (fun v hv => h v (List.mem_cons_of_mem _ hv)) hv
        exact Dict.get?_set_self _ _ _

/-- C09, the error.  A text with a voteline that cannot be read is refused with the error of the first such voteline. -/
theorem C09_first_error (cw ar : Bool) (text : Str) (good : List (Str × Str × Option Str)) (bad : Str × Str × Option Str)
    (rest : List (Str × Str × Option Str)) (err : PyErr) (hv : votesOf cw text = good ++ bad :: rest)
    (h : ∀ v ∈ good, ∃ r, parsePrefstr v.2.1 = .ok r) (hb : parsePrefstr bad.2.1 = .error err) :
    convertAbif cw ar false text = .error err := by
  have base : convertAbif cw false false text = .error err := by
    rw [convertAbif_eq, processPlain_error 0 (textLines cw text) emptyishJabmod 0 rfl good bad rest err hv h hb]
    rfl
  cases ar with
  | false => exact base
  | true => rw [convertAbif_rated, base]; rfl

/-! ### pieces -/

/-- any text is blanks, its stripped part, and blanks -/
theorem strip_parts (s : Str) : ∃ pre post, OnlyBlanks pre ∧ OnlyBlanks post ∧ s = pre ++ (strip s ++ post) := by
  have hr : ∀ x : Str, ∃ post, OnlyBlanks post ∧ x = rstrip x ++ post := by
    intro x
    refine ⟨(x.reverse.takeWhile isSpace).reverse, ?_, ?_⟩
    · intro c hc
      rw [List.mem_reverse] at hc
      exact (mem_takeWhile_p hc)
    · unfold rstrip
      rw [← List.reverse_append, List.takeWhile_append_dropWhile, List.reverse_reverse]
  obtain ⟨post, h1, h2⟩ := hr (lstrip s)
  refine ⟨s.takeWhile isSpace, post, fun c hc => mem_takeWhile_p hc, h1, ?_⟩
  unfold strip
  rw [← h2]
  unfold lstrip
  rw [List.takeWhile_append_dropWhile]

/-- every text without `[ ] > = ,` and double quotes is a piece -/
theorem exists_piece (s : Str) (h : ∀ c ∈ s, isSepChar c = false ∧ c ≠ '"') : ∃ p : Piece, p.Ok ∧ p.text = s := by
  obtain ⟨pre, post, h1, h2, h3⟩ := strip_parts s
  have hin : ∀ c ∈ strip s, isSepChar c = false ∧ c ≠ '"' := by
    intro c hc
    exact h c (by rw [h3]; simp [hc])
  by_cases h0 : strip s = []
  · refine ⟨.blank s, ?_, rfl⟩
    rw [h0] at h3
    intro c hc
    rw [h3] at hc
    simp only [List.nil_append, List.mem_append] at hc
    rcases hc with hc | hc
    · exact h1 c hc
    · exact h2 c hc
  · by_cases hd : ∃ t ds, strip s = t ++ '/' :: ds ∧ Digits ds
    · obtain ⟨t, ds, e1, e2⟩ := hd
      by_cases ht : t = []
      · subst ht
        refine ⟨.late pre ds post, ⟨h1, h2, e2⟩, ?_⟩
        rw [h3, e1]; rfl
      · refine ⟨.rated pre t ds post, ⟨h1, h2, ⟨ht, ?_, ?_⟩, e2⟩, ?_⟩
        · intro c hc
          refine ⟨strip_head (s := s) ?_, (hin c ?_).2⟩
          · rw [e1, List.head?_append, hc]; rfl
          · rw [e1]; exact List.mem_append_left _ (List.mem_of_head? hc)
        · intro c hc
          exact (hin c (by rw [e1]; exact List.mem_append_left _ hc)).1
        · rw [h3, e1]; simp [Piece.text]
    · refine ⟨.cand pre (strip s) post, ⟨h1, h2, ⟨h0, ?_, fun c hc => (hin c hc).1⟩, fun c hc => strip_last (s := s) hc, hd⟩, h3.symm⟩
      intro c hc
      exact ⟨strip_head (s := s) hc, (hin c (List.mem_of_head? hc)).2⟩

/-- C107: every preference list without brackets and double quotes is a list of pieces between delimiters. -/
theorem C107_every (s : Str) (h : ∀ c ∈ s, c ≠ '[' ∧ c ≠ ']' ∧ c ≠ '"') :
    ∃ (ps : List Piece) (ds : List Char), (∀ p ∈ ps, p.Ok) ∧ (∀ d ∈ ds, d = '>' ∨ d = '=' ∨ d = ',') ∧
      ds.length + 1 = ps.length ∧ s = writePieces ps ds := by
  have step : ∀ n : Nat, ∀ s : Str, s.length ≤ n → (∀ c ∈ s, c ≠ '[' ∧ c ≠ ']' ∧ c ≠ '"') →
      ∃ (ps : List Piece) (ds : List Char), (∀ p ∈ ps, p.Ok) ∧ (∀ d ∈ ds, d = '>' ∨ d = '=' ∨ d = ',') ∧
        ds.length + 1 = ps.length ∧ s = writePieces ps ds := by
    intro n
    induction n with
    | zero =>
      intro s hs _
      have : s = [] := List.length_eq_zero_iff.1 (by omega)
      subst this
      exact ⟨[.blank []], [], by intro p hp; simp at hp; subst hp; exact (fun c hc => absurd hc (by simp)), by simp, rfl, rfl⟩
    | succ n ih =>
      intro s hs h
      have hx : s.takeWhile (fun c => !isSepChar c) ++ s.dropWhile (fun c => !isSepChar c) = s := List.takeWhile_append_dropWhile
      obtain ⟨p, hp, ht⟩ := exists_piece (s.takeWhile (fun c => !isSepChar c)) (by
        intro c hc
        refine ⟨by simpa using mem_takeWhile_p hc, (h c (by rw [← hx]; exact List.mem_append_left _ hc)).2.2⟩)
      cases hd : s.dropWhile (fun c => !isSepChar c) with
      | nil =>
        rw [hd, List.append_nil] at hx
        exact ⟨[p], [], by simpa using hp, by simp, rfl, by rw [← hx, ← ht]; rfl⟩
      | cons d r =>
        rw [hd] at hx
        have hdl : isSepChar d = true := by
          have := List.head?_dropWhile_not (fun c => !isSepChar c) s
          rw [hd] at this
          simpa using this
        have hdm : d ∈ s := by rw [← hx]; simp
        obtain ⟨n1, n2, _⟩ := h d hdm
        have hdd : d = '>' ∨ d = '=' ∨ d = ',' := by
          simp [isSepChar] at hdl
          rcases hdl with rfl | rfl | h | h | h
          · exact absurd rfl n1
          · exact absurd rfl n2
          · exact Or.inl h
          · exact Or.inr (Or.inl h)
          · exact Or.inr (Or.inr h)
        have hr : r.length ≤ n := by
          have := congrArg List.length hx
          simp at this; omega
        obtain ⟨ps, ds, g1, g2, g3, g4⟩ := ih r hr (fun c hc => h c (by rw [← hx]; simp [hc]))
        refine ⟨p :: ps, d :: ds, ?_, ?_, by simp [g3], ?_⟩
        · intro q hq
          rcases List.mem_cons.1 hq with rfl | hq
          · exact hp
          · exact g1 q hq
        · intro q hq
          rcases List.mem_cons.1 hq with rfl | hq
          · exact hdd
          · exact g2 q hq
        · rw [← hx, ← ht, g4]
          cases ps with
          | nil => simp at g3
          | cons p2 ps => rfl
  exact step s.length s (Nat.le_refl _) h

/-- C107, what is read.  A list of pieces is refused (`IndexError`) if a rating alone comes before any candidate.
Otherwise the candidates are those named by the pieces, and the one named `j`-th (for the last time) has the rating
written with it and as rank one plus the number of `>` among the first `j` delimiters of the line or, if the line's first delimiter is
a comma, the dense rank of its rating.  OnlyBlanks pieces name nobody but their delimiters count. -/
theorem C107_exact (ps : List Piece) (ds : List Char) (h : ∀ p ∈ ps, p.Ok)
    (hd : ∀ d ∈ ds, d = '>' ∨ d = '=' ∨ d = ',') (hlen : ds.length + 1 = ps.length) :
    (named [] ps = none → parsePrefstr (writePieces ps ds) = .error .indexError) ∧
    ∀ l, named [] ps = some l → ∃ prefs, parsePrefstr (writePieces ps ds) = .ok (prefs, l.map Prod.fst) ∧
      Dict.keys prefs = firsts (l.map Prod.fst) ∧
      ∀ j t r, l[j]? = some (t, r) → (∀ k r', j < k → l[k]? ≠ some (t, r')) →
        Dict.get? prefs t = some {
          rank := some (if ds.head? = some ',' then
              denseRank ((firsts (l.map Prod.fst)).map (fun x => writtenNumber (lastRating l x))) (writtenNumber r)
            else 1 + ((ds.take j).count '>' : Nat))
          rating := storedRating r
          nextdelim := if j + 1 < l.length then ds[j]?.map (fun d => [d]) else none } :=
  parsePrefstr_pieces h hd hlen

theorem named_some_of_nonempty {l : List (Str × Option Str)} (hl : l ≠ []) (ps : List Piece) : named l ps ≠ none := by
  induction ps generalizing l with
  | nil => simp [named]
  | cons p ps ih =>
    cases p with
    | blank ws => exact ih hl
    | cand a b c => exact ih (by simp)
    | rated a b c d => exact ih (by simp)
    | late a b c =>
      simp only [named]
      cases hg : l.getLast? with
      | none => exact absurd (List.getLast?_eq_none_iff.1 hg) hl
      | some x => exact ih (by simp)

theorem named_none_iff (ps : List Piece) :
    named [] ps = none ↔ ∃ bs pre ds post rest, ps = bs ++ Piece.late pre ds post :: rest ∧ ∀ b ∈ bs, ∃ ws, b = Piece.blank ws := by
  induction ps with
  | nil =>
    constructor
    · intro h; cases h
    · rintro ⟨bs, _, _, _, _, h, _⟩; cases bs <;> cases h
  | cons p ps ih =>
    cases p with
    | blank ws =>
      show named [] ps = none ↔ _
      rw [ih]
      constructor
      · rintro ⟨bs, a, b, c, rest, rfl, hb⟩
        exact ⟨.blank ws :: bs, a, b, c, rest, rfl, by
          intro x hx
          rcases List.mem_cons.1 hx with rfl | hx
          · exact ⟨ws, rfl⟩
          · exact hb x hx⟩
      · rintro ⟨bs, a, b, c, rest, he, hb⟩
        cases bs with
        | nil => cases he
        | cons x bs =>
          simp only [List.cons_append, List.cons.injEq] at he
          exact ⟨bs, a, b, c, rest, he.2, fun y hy => hb y (List.mem_cons_of_mem _ hy)⟩
    | cand a b c =>
      constructor
      · intro h; exact absurd h (named_some_of_nonempty (by simp) ps)
      · rintro ⟨bs, _, _, _, rest, he, hb⟩
        cases bs with
        | nil => cases he
        | cons x bs =>
          simp only [List.cons_append, List.cons.injEq] at he
          obtain ⟨w, hw⟩ := hb x (by simp)
          rw [hw] at he; cases he.1
    | rated a b c d =>
      constructor
      · intro h; exact absurd h (named_some_of_nonempty (by simp) ps)
      · rintro ⟨bs, _, _, _, rest, he, hb⟩
        cases bs with
        | nil => cases he
        | cons x bs =>
          simp only [List.cons_append, List.cons.injEq] at he
          obtain ⟨w, hw⟩ := hb x (by simp)
          rw [hw] at he; cases he.1
    | late a b c =>
      constructor
      · intro _; exact ⟨[], a, b, c, ps, rfl, by simp⟩
      · intro _; rfl

/-- C107, which lists are refused: those whose first piece that is not blank is a rating alone, with `IndexError`;
every other list without brackets and double quotes can be read. -/
theorem C107_refused (ps : List Piece) (ds : List Char) (h : ∀ p ∈ ps, p.Ok)
    (hd : ∀ d ∈ ds, d = '>' ∨ d = '=' ∨ d = ',') (hlen : ds.length + 1 = ps.length) (err : PyErr) :
    parsePrefstr (writePieces ps ds) = .error err ↔
      err = .indexError ∧
      ∃ bs pre digits post rest, ps = bs ++ Piece.late pre digits post :: rest ∧ ∀ b ∈ bs, ∃ ws, b = Piece.blank ws := by
  obtain ⟨h1, h2⟩ := C107_exact ps ds h hd hlen
  rw [← named_none_iff]
  constructor
  · intro he
    cases hn : named [] ps with
    | none => rw [h1 hn] at he; cases he; exact ⟨rfl, rfl⟩
    | some l =>
      obtain ⟨prefs, hp, _⟩ := h2 l hn
      rw [hp] at he; cases he
  · rintro ⟨rfl, hn⟩
    exact h1 hn

/-- C107: with `>` alone between the pieces, blank pieces do no harm: distinct candidates are ranked 1, 2, 3, … in the order
written.  MISSING: lists with other delimiters, for which a blank piece does harm (`C107_refuted`). -/
theorem C107_strict_partial (ps : List Piece) (ds : List Char) (h : ∀ p ∈ ps, p.Ok)
    (hd : ∀ d ∈ ds, d = '>') (hlen : ds.length + 1 = ps.length) (l : List (Str × Option Str)) (hn : named [] ps = some l)
    (hnd : (l.map Prod.fst).Nodup) :
    ∃ prefs, parsePrefstr (writePieces ps ds) = .ok (prefs, l.map Prod.fst) ∧ Dict.keys prefs = l.map Prod.fst ∧
      ∀ (j : Nat) t r, l[j]? = some (t, r) → ∃ p, Dict.get? prefs t = some p ∧ p.rank = some (1 + (j : Int)) ∧ p.rating = storedRating r := by
  obtain ⟨prefs, h1, h2, h3⟩ := (C107_exact ps ds h (fun d hd' => Or.inl (hd d hd')) hlen).2 l hn
  rw [firsts_of_nodup hnd] at h2
  refine ⟨prefs, h1, h2, ?_⟩
  intro j t r hj
  have hlast : ∀ k r', j < k → l[k]? ≠ some (t, r') := by
    intro k r' hk he
    have e1 : (l.map Prod.fst)[j]? = some t := by rw [List.getElem?_map, hj]; rfl
    have e2 : (l.map Prod.fst)[k]? = some t := by rw [List.getElem?_map, he]; rfl
    have := (List.getElem?_inj (by rw [List.length_map]; exact (List.getElem?_eq_some_iff.1 hj).1) hnd).1 (e1.trans e2.symm)
    omega
  refine ⟨_, h3 j t r hj hlast, ?_, rfl⟩
  have hh : ds.head? ≠ some ',' := by
    intro he
    have := hd _ (List.mem_of_head? he)
    exact absurd this (by decide)
  simp only [if_neg hh]
  have hjl : j ≤ ds.length := by
    have := (List.getElem?_eq_some_iff.1 hj).1
    have h4 := named_length hn
    simp at h4; omega
  have : (ds.take j).count '>' = j := by
    rw [List.count_eq_length.2 (by intro d hd'; exact (hd d (List.mem_of_mem_take hd')).symm), List.length_take]
    omega
  rw [this]

theorem named_append (l : List (Str × Option Str)) (a b : List Piece) : named l (a ++ b) = (named l a).bind (fun l' => named l' b) := by
  induction a generalizing l with
  | nil => rfl
  | cons p a ih =>
    rw [List.cons_append, named_cons, named_cons l p a]
    cases named l [p] with
    | none => rfl
    | some l' => exact ih l'

/-- C107: a delimiter (and blanks) at the end of a line with a delimiter changes nothing. -/
theorem C107_trailing (ps : List Piece) (ds : List Char) (h : ∀ p ∈ ps, p.Ok)
    (hd : ∀ d ∈ ds, d = '>' ∨ d = '=' ∨ d = ',') (hlen : ds.length + 1 = ps.length) (hne : ds ≠ [])
    (d : Char) (hd1 : d = '>' ∨ d = '=' ∨ d = ',') (ws : Str) (hws : ∀ c ∈ ws, isSpace c = true) :
    parsePrefstr (writePieces (ps ++ [.blank ws]) (ds ++ [d])) = parsePrefstr (writePieces ps ds) := by
  have hok : ∀ p ∈ ps ++ [Piece.blank ws], p.Ok := by
    intro p hp
    rcases List.mem_append.1 hp with hp | hp
    · exact h p hp
    · simp at hp; subst hp; exact hws
  have hdd : ∀ x ∈ ds ++ [d], x = '>' ∨ x = '=' ∨ x = ',' := by
    intro x hx
    rcases List.mem_append.1 hx with hx | hx
    · exact hd x hx
    · simp at hx; subst hx; exact hd1
  have hnm : named [] (ps ++ [.blank ws]) = named [] ps := by
    rw [named_append]
    cases named [] ps <;> rfl
  obtain ⟨a1, a2⟩ := C107_exact ps ds h hd hlen
  obtain ⟨b1, b2⟩ := C107_exact (ps ++ [.blank ws]) (ds ++ [d]) hok hdd (by simp; omega)
  cases hn : named [] ps with
  | none => rw [a1 hn, b1 (hnm.trans hn)]
  | some l =>
    obtain ⟨p1, e1, e2, e3⟩ := a2 l hn
    obtain ⟨p2, f1, f2, f3⟩ := b2 l (hnm.trans hn)
    rw [e1, f1]
    have hw : ∀ p : Dict Str Pref, Dict.keys p = firsts (l.map Prod.fst) → p.WF := by
      intro p hp; unfold Dict.WF; rw [hp]; exact nodup_firsts _
    have : p2 = p1 := by
      apply Dict.ext_of_wf (hw _ f2) (hw _ e2) (f2.trans e2.symm)
      intro t
      by_cases ht : t ∈ l.map Prod.fst
      swap
      · rw [Dict.get?_eq_none.2 (by rw [f2, mem_firsts]; exact ht), Dict.get?_eq_none.2 (by rw [e2, mem_firsts]; exact ht)]
      obtain ⟨j, r, g1, g2⟩ := exists_last l t ht
      rw [e3 j t r g1 g2, f3 j t r g1 g2]
      have hjl : j < l.length := (List.getElem?_eq_some_iff.1 g1).1
      have hll := named_length hn
      simp at hll
      have t1 : (ds ++ [d]).take j = ds.take j := by rw [List.take_append_of_le_length (by omega)]
      have t2 : (ds ++ [d]).head? = ds.head? := by cases ds with | nil => exact absurd rfl hne | cons => rfl
      have t3 : (if j + 1 < l.length then (ds ++ [d])[j]?.map (fun d => [d]) else none) =
          (if j + 1 < l.length then ds[j]?.map (fun d => [d]) else none) := by
        split
        · rw [List.getElem?_append_left (by omega)]
        · rfl
      rw [t1, t2, t3]
    rw [this]

/-- C107 for whole texts: if no voteline has brackets or double quotes, the text is refused exactly if it has no
votelines or the first piece of some voteline that is not blank is a rating alone (then with `IndexError`). -/
theorem C107_text (cw ar : Bool) (text : Str) (hq : ∀ v ∈ votesOf cw text, ∀ c ∈ v.2.1, c ≠ '[' ∧ c ≠ ']' ∧ c ≠ '"') :
    ((∃ v ∈ votesOf cw text, parsePrefstr v.2.1 = .error .indexError) → convertAbif cw ar false text = .error .indexError) ∧
    (votesOf cw text ≠ [] → (∀ v ∈ votesOf cw text, parsePrefstr v.2.1 ≠ .error .indexError) →
      ∃ m, convertAbif cw ar false text = .ok m) := by
  have two : ∀ v ∈ votesOf cw text, (∃ r, parsePrefstr v.2.1 = .ok r) ∨ parsePrefstr v.2.1 = .error .indexError := by
    intro v hv
    obtain ⟨ps, ds, h1, h2, h3, h4⟩ := C107_every v.2.1 (hq v hv)
    rw [h4]
    cases hr : parsePrefstr (writePieces ps ds) with
    | ok r => exact Or.inl ⟨r, rfl⟩
    | error e => rw [((C107_refused ps ds h1 h2 h3 e).1 hr).1]; exact Or.inr rfl
  refine ⟨?_, ?_⟩
  · intro hbad
    have split : ∀ l : List (Str × Str × Option Str), (∀ v ∈ l, (∃ r, parsePrefstr v.2.1 = .ok r) ∨ parsePrefstr v.2.1 = .error .indexError) →
        (∃ v ∈ l, parsePrefstr v.2.1 = .error .indexError) →
        ∃ good bad rest, l = good ++ bad :: rest ∧ (∀ v ∈ good, ∃ r, parsePrefstr v.2.1 = .ok r) ∧ parsePrefstr bad.2.1 = .error .indexError := by
      intro l
      induction l with
      | nil => rintro _ ⟨v, hv, _⟩; cases hv
      | cons a l ih =>
        intro ht hb
        rcases ht a (by simp) with ha | ha
        · obtain ⟨v, hv, he⟩ := hb
          have hv' : v ∈ l := by
            rcases List.mem_cons.1 hv with rfl | hv
            · obtain ⟨r, hr⟩ := ha; rw [hr] at he; cases he
            · exact hv
          obtain ⟨g, b, r, e1, e2, e3⟩ := ih (fun v hv => ht v (by simp [hv])) ⟨v, hv', he⟩
          refine ⟨a :: g, b, r, by rw [e1]; rfl, ?_, e3⟩
          intro x hx
          rcases List.mem_cons.1 hx with rfl | hx
          · exact ha
          · exact e2 x hx
        · exact ⟨[], a, l, rfl, by simp, ha⟩
    obtain ⟨g, b, r, e1, e2, e3⟩ := split _ two hbad
    exact C09_first_error cw ar text g b r _ e1 e2 e3
  · intro hne hall
    refine (C09_accepted cw ar text).2 ⟨hne, fun v hv => ?_⟩
    rcases two v hv with h | h
    · exact h
    · exact absurd h (hall v hv)

end

section
attribute [local instance] Uni.ascii
set_option maxRecDepth 20000

/-- a sloppy list: a blank piece, a candidate twice, a rating alone -/
def sloppy : List Piece := [.cand [] c!"A" c!" ", .blank c!" ", .rated c!" " c!"B" c!"3" [], .late [] c!"5" c!" ", .cand [] c!"A" []]

example : writePieces sloppy ['>', '>', '=', '>'] = c!"A > > B/3=/5 >A" := by decide +kernel
example : named [] sloppy = some [(c!"A", none), (c!"B", some c!"5"), (c!"A", none)] := by decide +kernel
example : parsePrefstr c!"A > > B/3=/5 >A" = .ok ([(c!"A", { rank := some 3 }),
    (c!"B", { rank := some 2, rating := some (.int 5), nextdelim := some c!">" })], [c!"A", c!"B", c!"A"]) := by decide +kernel
theorem sloppy_ok : ∀ p ∈ sloppy, p.Ok := by
  intro p hp
  simp only [sloppy, List.mem_cons, List.not_mem_nil, or_false] at hp
  have noSlash : ∀ c : Char, c ≠ '/' → ¬ ∃ t ds, [c] = t ++ '/' :: ds ∧ Digits ds := by
    rintro c hc ⟨t, ds, e, h1, _⟩
    cases t with
    | nil => simp at e; exact h1 e.2
    | cons a t => simp at e
  rcases hp with rfl | rfl | rfl | rfl | rfl
  · exact ⟨by unfold OnlyBlanks; decide +kernel, by unfold OnlyBlanks; decide +kernel, ⟨by decide, by decide +kernel, by decide +kernel⟩,
      by decide +kernel, noSlash _ (by decide)⟩
  · show OnlyBlanks _; unfold OnlyBlanks; decide +kernel
  · exact ⟨by unfold OnlyBlanks; decide +kernel, by unfold OnlyBlanks; decide +kernel, ⟨by decide, by decide +kernel, by decide +kernel⟩,
      by decide, by decide +kernel⟩
  · exact ⟨by unfold OnlyBlanks; decide +kernel, by unfold OnlyBlanks; decide +kernel, by decide, by decide +kernel⟩
  · exact ⟨by unfold OnlyBlanks; decide +kernel, by unfold OnlyBlanks; decide +kernel, ⟨by decide, by decide +kernel, by decide +kernel⟩,
      by decide +kernel, noSlash _ (by decide)⟩

/-- the refused lists -/
example : parsePrefstr c!" > /5>A" = .error .indexError := by decide +kernel

/-- C107 is false with mixed delimiters: a blank piece shifts the delimiters, so that `>A=B` ranks A above B, and `A=>B` ranks
them equal. -/
theorem C107_refuted :
    (∃ prefs, parsePrefstr c!"A=B" = .ok (prefs, [c!"A", c!"B"]) ∧ prefs.map (fun e => (e.1, e.2.rank)) = [(c!"A", some 1), (c!"B", some 1)]) ∧
    (∃ prefs, parsePrefstr c!">A=B" = .ok (prefs, [c!"A", c!"B"]) ∧ prefs.map (fun e => (e.1, e.2.rank)) = [(c!"A", some 1), (c!"B", some 2)]) ∧
    (∃ prefs, parsePrefstr c!"A=>B" = .ok (prefs, [c!"A", c!"B"]) ∧ prefs.map (fun e => (e.1, e.2.rank)) = [(c!"A", some 1), (c!"B", some 1)]) := by
  refine ⟨⟨[(c!"A", { rank := some 1, nextdelim := some c!"=" }), (c!"B", { rank := some 1 })], ?_, ?_⟩,
    ⟨[(c!"A", { rank := some 1, nextdelim := some c!">" }), (c!"B", { rank := some 2 })], ?_, ?_⟩,
    ⟨[(c!"A", { rank := some 1, nextdelim := some c!"=" }), (c!"B", { rank := some 1 })], ?_, ?_⟩⟩ <;> decide +kernel

/-- a text with an unreadable voteline -/
example : (match convertAbif false false false c!"3:A>B\n2:/5,A\n" with | .error e => decide (e = .indexError) | .ok _ => false) = true := by
  decide +kernel

end

end Verif.Props
