/-
Brackets that are opened and never closed (C112).
-/
import Verif.Props.Pieces

set_option linter.unusedSectionVars false

namespace Verif.Props
open Spec

section
variable [U : Uni]

/-- No closing bracket, nothing to replace. -/
theorem matchLen_unclosed {t : Str} (h : ']' ∉ t) : matchLen bracketAtoms t = none := by
  unfold matchLen
  cases hp : prefixMatch bracketAtoms t with
  | none => rfl
  | some r =>
    obtain ⟨h1, h2, _⟩ := rmatch_sound _ _ _ _ hp
    exfalso
    unfold bracketAtoms at h1
    cases hr : r.1 with
    | nil => rw [hr] at h1; cases h1
    | cons p1 l1 =>
      rw [hr] at h1
      cases h1 with
      | cons a1 h1 =>
        cases h1 with
        | cons a2 h1 =>
          cases h1 with
          | cons a3 h1 =>
            obtain ⟨c, hc, hc'⟩ := a3
            apply h
            rw [← h2, hr, hc, show c = ']' by simpa using hc']
            simp

theorem reSub_unclosed {t : Str} (h : ']' ∉ t) (r : Str) : reSub (matchLen bracketAtoms) r t = t := by
  induction t with
  | nil => rfl
  | cons c t ih =>
    unfold reSub
    rw [reSubAux, matchLen_unclosed h]
    simp only
    rw [show reSubAux (matchLen bracketAtoms) r 0 t = reSub (matchLen bracketAtoms) r t from rfl, ih (fun hh => h (by simp [hh]))]

/-- inside a bracket a part that is not blank changes no candidate -/
theorem exStep_within {s : ExSt} {t : Str} (h1 : s.inbrackets = true) (h2 : t.head? ≠ some ']') (hq : '"' ∉ t) (hb : ']' ∉ t) :
    exStep s t = if strip t = [] then .error .typeError else .ok { s with quotetok := s.quotetok ++ strip t } := by
  have hmem : ∀ c ∈ strip t, c ∈ t := by
    obtain ⟨pre, post, _, _, e⟩ := strip_parts t
    intro c hc
    rw [e]; simp [hc]
  have g1 : (strip t).head? ≠ some ']' := fun hh => hb (hmem _ (List.mem_of_head? hh))
  have g2 : startsQuote (strip t) = false :=
    startsQuote_false (fun c hc => strip_head (s := t) hc) (fun hh => hq (hmem _ (List.mem_of_head? hh)))
  unfold exStep
  simp only [h1, Bool.true_or, if_true]
  rw [if_neg (by simp), if_neg (by simp [g1]), g2]
  simp only [Bool.false_eq_true, if_false]
  by_cases hs : strip t = []
  · rw [if_neg (by simp [hs]), if_pos hs]
  · rw [if_pos hs, if_neg hs]

theorem exLoop_within {s : ExSt} {ts : List Str} (h1 : s.inbrackets = true) (hq : ∀ t ∈ ts, '"' ∉ t ∧ ']' ∉ t) :
    if ∃ t ∈ ts, strip t = [] then exLoop s ts = .error .typeError
    else ∃ s', exLoop s ts = .ok s' ∧ s'.retval = s.retval := by
  induction ts generalizing s with
  | nil => rw [if_neg (by simp)]; exact ⟨s, rfl, rfl⟩
  | cons t ts ih =>
    obtain ⟨q1, q2⟩ := hq t (by simp)
    have e := exStep_within h1 (fun hh => q2 (List.mem_of_head? hh)) q1 q2
    show if _ then (exStep s t >>= fun s' => exLoop s' ts) = _ else ∃ s', (exStep s t >>= fun s' => exLoop s' ts) = _ ∧ _
    by_cases hs : strip t = []
    · rw [if_pos ⟨t, by simp, hs⟩, e, if_pos hs]; rfl
    · rw [e, if_neg hs, ok_bind]
      have := ih (s := { s with quotetok := s.quotetok ++ strip t }) h1 (fun x hx => hq x (by simp [hx]))
      by_cases hex : ∃ x ∈ ts, strip x = []
      · rw [if_pos hex] at this
        rw [if_pos (by obtain ⟨x, hx, h⟩ := hex; exact ⟨x, by simp [hx], h⟩)]
        exact this
      · rw [if_neg hex] at this
        rw [if_neg (by
          rintro ⟨x, hx, h⟩
          rcases List.mem_cons.1 hx with rfl | hx
          · exact hs h
          · exact hex ⟨x, hx, h⟩)]
        exact this

/-- the parts of a text between `[ ] > = ,`: one of them is blank exactly if two such characters (or the ends) have nothing but blanks between them -/
theorem gap_iff (r : Str) : (∃ t ∈ splitKeep isSepChar r, strip t = []) ↔ Gap r := by
  constructor
  · have step : ∀ n : Nat, ∀ r : Str, r.length ≤ n → (∃ t ∈ splitKeep isSepChar r, strip t = []) → Gap r := by
      intro n
      induction n with
      | zero =>
        intro r hr _
        have : r = [] := List.length_eq_zero_iff.1 (by omega)
        subst this
        exact ⟨[], [], [], rfl, fun c hc => absurd hc (by simp), .inl rfl, .inl rfl⟩
      | succ n ih =>
        intro r hr hex
        have hx : r.takeWhile (fun c => !isSepChar c) ++ r.dropWhile (fun c => !isSepChar c) = r := List.takeWhile_append_dropWhile
        have hno : ∀ c ∈ r.takeWhile (fun c => !isSepChar c), isSepChar c = false := fun c hc => by simpa using mem_takeWhile_p hc
        generalize hA : r.takeWhile (fun c => !isSepChar c) = A at hx hno
        have blanks : ∀ A : Str, strip A = [] → OnlyBlanks A := by
          intro A hs
          obtain ⟨pre, post, b1, b2, e⟩ := strip_parts A
          rw [hs, List.nil_append] at e
          intro c hc
          rw [e] at hc
          rcases List.mem_append.1 hc with hc | hc
          · exact b1 c hc
          · exact b2 c hc
        cases hd : r.dropWhile (fun c => !isSepChar c) with
        | nil =>
          rw [hd, List.append_nil] at hx
          subst hx
          rw [splitKeep_none hno] at hex
          obtain ⟨t, ht, hs⟩ := hex
          simp at ht
          subst ht
          exact ⟨[], t, [], by simp, blanks t hs, .inl rfl, .inl rfl⟩
        | cons d B =>
          rw [hd] at hx
          have hdl : isSepChar d = true := by
            have := List.head?_dropWhile_not (fun c => !isSepChar c) r
            rw [hd] at this
            simpa using this
          rw [← hx, splitKeep_append hdl, splitKeep_none hno] at hex
          obtain ⟨t, ht, hs⟩ := hex
          simp only [List.cons_append, List.nil_append, List.mem_cons] at ht
          rcases ht with rfl | rfl | ht
          · exact ⟨[], t, d :: B, by simp [← hx], blanks t hs, .inl rfl, .inr ⟨d, B, rfl, hdl⟩⟩
          · exfalso
            have hsp : isSpace d = false := by
              cases hsp : isSpace d with
              | false => rfl
              | true => rw [space_not_sep hsp] at hdl; cases hdl
            have : OnlyBlanks [d] := blanks [d] hs
            rw [this d (by simp)] at hsp
            cases hsp
          · have hB : B.length ≤ n := by
              have := congrArg List.length hx
              simp at this; omega
            obtain ⟨a, w, b, e, h1, h2, h3⟩ := ih B hB ⟨t, ht, hs⟩
            refine ⟨A ++ d :: a, w, b, by rw [← hx, e]; simp, h1, .inr ?_, h3⟩
            rcases h2 with rfl | ⟨a', c, rfl, hc⟩
            · exact ⟨A, d, by simp, hdl⟩
            · exact ⟨A ++ d :: a', c, by simp, hc⟩
    exact step r.length r (Nat.le_refl _)
  · rintro ⟨a, w, b, rfl, hw, ha, hb⟩
    have hs : strip w = [] := strip_spaces hw
    refine ⟨w, ?_, hs⟩
    have hwn : splitKeep isSepChar w = [w] := splitKeep_none (fun c hc => space_not_sep (hw c hc))
    have h2 : w ∈ splitKeep isSepChar (w ++ b) := by
      rcases hb with rfl | ⟨c, b', rfl, hc⟩
      · rw [List.append_nil, hwn]; simp
      · rw [splitKeep_append hc, hwn]; simp
    rcases ha with rfl | ⟨a', c, rfl, hc⟩
    · simpa using h2
    · have : a' ++ [c] ++ w ++ b = a' ++ c :: (w ++ b) := by simp
      rw [this, splitKeep_append hc]
      simp [h2]

theorem parts_clean {r : Str} {x : Char} (h : x ∉ r) : ∀ t ∈ splitKeep isSepChar r, x ∉ t := by
  intro t ht hx
  apply h
  rw [← splitKeep_flatten isSepChar r, List.mem_flatten]
  exact ⟨t, ht, hx⟩

theorem foldl_same {α β : Type} {f g : β → α → β} {l : List α} (h : ∀ acc, ∀ x ∈ l, f acc x = g acc x) (b : β) : l.foldl f b = l.foldl g b := by
  induction l generalizing b with
  | nil => rfl
  | cons a l ih =>
    rw [List.foldl_cons, List.foldl_cons, h b a (by simp)]
    exact ih (fun acc x hx => h acc x (by simp [hx])) _

/-- the single candidate of a list without delimiters has rank 1 whatever kind of list it is taken for -/
theorem single_rank (mode : RankOrRate) (ds : List Char) (x : Str × Option Str) (hx : ∀ d, x.2 = some d → Digits d) :
    (prefLoop mode ds 1 0 1 [rawOf x] [] >>= addRanksByRating) =
      .ok [(x.1, { rating := storedRating x.2, rank := some 1 })] := by
  obtain ⟨t, r⟩ := x
  rw [prefLoop_fold (by omega) (by simp) (by intro _; simp), ok_bind]
  have hr := stored_rating hx
  simp only [List.zipIdx_cons, List.zipIdx_nil, List.foldl_cons, List.foldl_nil, rawOf]
  have hD : Dict.set ([] : Dict Str Pref) t (pieceEntry mode ds 1 0 (r.map (fun ds => RVal.int (digitsVal ds)))) =
    [(t, pieceEntry mode ds 1 0 (r.map (fun ds => RVal.int (digitsVal ds))))] := rfl
  rw [hD, addRanksByRating_eq (by simp [Dict.WF, Dict.keys]) (by
    intro e he
    simp at he
    subst he
    exact ⟨_, by simp only [pieceEntry]; rw [hr.1]; exact hr.2⟩)]
  simp only [List.map_cons, List.map_nil]
  congr 3
  cases mode <;> simp [pieceEntry, modeRank, rankTruthy, denseRank, hr.1]
  all_goals rfl

/-- C112.  Take a preference list in which a bracket is opened and not closed again, with a list without brackets and double quotes before it.
Everything from the bracket on is silently left out: the ballot is the one of the list before it.  Only two delimiters in the lost part
with nothing between them (or one next to the bracket or at the end) are noticed, as a `TypeError`, if the list before the bracket could be read. -/
theorem C112_exact (s r : Str) (hs : ∀ c ∈ s, c ≠ '[' ∧ c ≠ ']' ∧ c ≠ '"') (hr : ∀ c ∈ r, c ≠ ']' ∧ c ≠ '"') :
    (¬ Gap r → parsePrefstr (s ++ '[' :: r) = parsePrefstr s) ∧
    (Gap r → (∀ x, parsePrefstr s = .ok x → parsePrefstr (s ++ '[' :: r) = .error .typeError) ∧
      (∀ e, parsePrefstr s = .error e → parsePrefstr (s ++ '[' :: r) = .error e)) := by
  obtain ⟨ps, ds, h, hd, hlen, rfl⟩ := C107_every s hs
  have hbr : ']' ∉ r := fun hh => (hr _ hh).1 rfl
  have hqr : '"' ∉ r := fun hh => (hr _ hh).2 rfl
  have hsplit : splitKeep isPrefSep (writePieces ps ds ++ '[' :: r) =
      splitKeep isPrefSep (writePieces ps ds) ++ ['['] :: splitKeep isSepChar r := by
    rw [isPrefSep_eq]; exact splitKeep_append (by decide)
  have hdet : ∃ ds', determineRankOrRate (writePieces ps ds ++ '[' :: r) = (modeOf (ds ++ ds'), ds ++ ds') := by
    refine ⟨r.filter isDelim, ?_⟩
    have e0 : (reSub (matchLen bracketAtoms) c!"[PLACEHOLDER]" (writePieces ps ds ++ '[' :: r)).filter isDelim = ds ++ r.filter isDelim := by
      have hopen : '[' ∉ writePieces ps ds := fun hh => (hs _ hh).1 rfl
      have h0 := delims_pieces h hd hlen
      have h1 := reSub_plain hopen (t := []) c!"[PLACEHOLDER]"
      rw [List.append_nil] at h1
      rw [h1, List.filter_append] at h0
      rw [reSub_plain hopen, reSub_unclosed (by simp [hbr]), List.filter_append]
      have h3 : ((reSub (matchLen bracketAtoms) c!"[PLACEHOLDER]" []).filter isDelim) = [] := rfl
      rw [h3, List.append_nil] at h0
      rw [h0]
      rfl
    unfold determineRankOrRate
    unfold isDelim at e0
    simp only [e0]
    cases hl : ds ++ r.filter isDelim with
    | nil => unfold isDelim at hl; rw [hl]; rfl
    | cons d l =>
      unfold isDelim at hl
      rw [hl]
      simp only [modeOf]
      split <;> rfl
  obtain ⟨ds', hdet⟩ := hdet
  have key := exLoop_pieces (s := {}) (l := []) ⟨rfl, rfl, rfl, by simp⟩ h hd hlen
  have hparts : ∀ t ∈ splitKeep isSepChar r, '"' ∉ t ∧ ']' ∉ t := fun t ht => ⟨parts_clean hqr t ht, parts_clean hbr t ht⟩
  cases hn : named [] ps with
  | none =>
    rw [hn] at key
    simp only at key
    have e1 : parsePrefstr (writePieces ps ds) = .error .indexError := (parsePrefstr_pieces h hd hlen).1 hn
    have e2 : parsePrefstr (writePieces ps ds ++ '[' :: r) = .error .indexError := by
      unfold parsePrefstr extractCandprefs
      rw [hdet, hsplit, exLoop_append, key]
      rfl
    refine ⟨fun _ => by rw [e1, e2], fun _ => ⟨fun x hx => (by rw [e1] at hx; cases hx), fun e he => (by rw [e1] at he; cases he; exact e2)⟩⟩
  | some l =>
    rw [hn] at key
    obtain ⟨s', e1, hi1, hi2, hi3, _⟩ := key
    have hext : exLoop {} (splitKeep isPrefSep (writePieces ps ds ++ '[' :: r)) =
        exLoop { s' with inbrackets := true } (splitKeep isSepChar r) := by
      rw [hsplit, exLoop_append, e1, ok_bind]
      show (exStep s' ['['] >>= fun s' => exLoop s' _) = _
      rw [exStep_open hi1 hi2, ok_bind]
    have hin := exLoop_within (s := { s' with inbrackets := true }) (ts := splitKeep isSepChar r) rfl hparts
    by_cases hgap : Gap r
    · rw [if_pos ((gap_iff r).2 hgap)] at hin
      refine ⟨fun hng => absurd hgap hng, fun _ => ⟨fun x _ => ?_, fun e he => ?_⟩⟩
      · unfold parsePrefstr extractCandprefs
        rw [hdet, hext, hin]
        rfl
      · obtain ⟨prefs, hp, _⟩ := (parsePrefstr_pieces h hd hlen).2 l hn
        rw [hp] at he
        cases he
    · rw [if_neg (fun hh => hgap ((gap_iff r).1 hh))] at hin
      obtain ⟨s'', e2, e3⟩ := hin
      refine ⟨fun _ => ?_, fun hg => absurd hg hgap⟩
      have hex1 : extractCandprefs (writePieces ps ds) = .ok (l.map rawOf) := by
        unfold extractCandprefs
        rw [e1, ok_bind, hi3]
      have hex2 : extractCandprefs (writePieces ps ds ++ '[' :: r) = .ok (l.map rawOf) := by
        unfold extractCandprefs
        rw [hext, e2, ok_bind, e3]
        simp only [hi3]
      have hll : l.length ≤ ds.length + 1 := by
        have := named_length hn
        simp at this; omega
      have hdig := named_digits h (by simp) hn
      unfold parsePrefstr
      rw [hdet, hex1, hex2, determine_pieces h hd hlen]
      simp only [ok_bind]
      have hcore : (prefLoop (modeOf (ds ++ ds')) (ds ++ ds') (l.map rawOf).length 0 1 (l.map rawOf) [] >>= addRanksByRating) =
          (prefLoop (modeOf ds) ds (l.map rawOf).length 0 1 (l.map rawOf) [] >>= addRanksByRating) := by
        cases ds with
        | nil =>
          match l, hll, hdig with
          | [], _, _ => rfl
          | [x], _, hdig =>
            have hx : ∀ d, x.2 = some d → Digits d := fun d hd => hdig x (by simp) d hd
            show (prefLoop _ _ 1 0 1 [rawOf x] [] >>= _) = (prefLoop _ _ 1 0 1 [rawOf x] [] >>= _)
            rw [single_rank _ _ x hx, single_rank _ _ x hx]
          | _ :: _ :: _, hll, _ => simp at hll
        | cons d ds =>
          have hm : modeOf (d :: ds ++ ds') = modeOf (d :: ds) := rfl
          rw [hm, prefLoop_fold (ds := d :: ds ++ ds') (by simp at hll ⊢; omega) (by simp) (by intro _; simp),
            prefLoop_fold (ds := d :: ds) (by simpa using hll) (by simp) (by intro _; simp)]
          congr 2
          apply foldl_same
          intro acc x hx
          have hxi : x.2 < l.length := by
            have := List.snd_lt_of_mem_zipIdx hx
            simpa using this
          have : pieceEntry (modeOf (d :: ds)) (d :: ds ++ ds') (l.map rawOf).length x.2 x.1.2 =
              pieceEntry (modeOf (d :: ds)) (d :: ds) (l.map rawOf).length x.2 x.1.2 := by
            unfold pieceEntry
            rw [List.take_append_of_le_length (by simp at hll ⊢; omega)]
            congr 1
            split
            · rename_i hlt
              rw [List.getElem?_append_left (by simp at hll hlt ⊢; omega)]
            · rfl
          rw [this]
      cases hp1 : prefLoop (modeOf (ds ++ ds')) (ds ++ ds') (l.map rawOf).length 0 1 (l.map rawOf) [] with
      | error e1 =>
        cases hp2 : prefLoop (modeOf ds) ds (l.map rawOf).length 0 1 (l.map rawOf) [] with
        | error e2 => rw [hp1, hp2] at hcore; cases hcore; rfl
        | ok q => rw [hp1, hp2] at hcore; rw [ok_bind, ← show _ = addRanksByRating q from hcore]; rfl
      | ok q1 =>
        cases hp2 : prefLoop (modeOf ds) ds (l.map rawOf).length 0 1 (l.map rawOf) [] with
        | error e2 => rw [hp1, hp2] at hcore; rw [ok_bind, show addRanksByRating q1 = _ from hcore]; rfl
        | ok q2 =>
          rw [hp1, hp2] at hcore
          have : addRanksByRating q1 = addRanksByRating q2 := hcore
          rw [ok_bind, ok_bind, this]

/-- C112 for whole texts.  In every text that is read, a voteline with an unclosed bracket counts as the ballot written before the bracket. -/
theorem C112_text (cw : Bool) (text : Str) (m : Jabmod) (h : convertAbif cw false false text = .ok m) :
    ∃ vls, StableSortedDesc vls m.votelines ∧
      List.Forall₂ (fun (v : Str × Str × Option Str) (vl : Voteline) => vl.qty = digitsVal v.1 ∧
        ∀ s r, v.2.1 = s ++ '[' :: r → (∀ c ∈ s, c ≠ '[' ∧ c ≠ ']' ∧ c ≠ '"') → (∀ c ∈ r, c ≠ ']' ∧ c ≠ '"') →
          ∃ cands, parsePrefstr s = .ok (vl.prefs, cands)) (votesOf cw text) vls := by
  obtain ⟨vls, h1, h3⟩ := C02_votelines cw false text m h
  refine ⟨vls, h3, h1.imp ?_⟩
  rintro v vl ⟨e1, ⟨cands, e2⟩, _⟩
  refine ⟨e1, ?_⟩
  intro s r e hs hr
  rw [e] at e2
  obtain ⟨g1, g2⟩ := C112_exact s r hs hr
  by_cases hg : Gap r
  · exfalso
    cases hp : parsePrefstr s with
    | ok x => rw [(g2 hg).1 x hp] at e2; cases e2
    | error e => rw [(g2 hg).2 e hp] at e2; cases e2
  · rw [g1 hg] at e2
    exact ⟨cands, e2⟩

end

section Examples

attribute [local instance] Uni.ascii
set_option maxRecDepth 20000

/-- C112 is false: a forgotten closing bracket is not noticed, and the candidates written after it are lost — here all but the first. -/
theorem C112_refuted :
    (match convertAbif false false false c!"3:A>[Bob Hill>C=D\n" with
      | .ok m => decide (m.votelines.map (fun vl => (vl.qty, vl.prefs)) = [(3, [(c!"A", { rank := some 1 })])] ∧ Dict.keys m.candidates = [c!"A"])
      | .error _ => false) = true ∧
    (match convertAbif false false false c!"3:[Ann Lee>B\n" with
      | .ok m => decide (m.votelines.map (fun vl => (vl.qty, vl.prefs)) = [(3, [])] ∧ Dict.keys m.candidates = [])
      | .error _ => false) = true := by
  refine ⟨?_, ?_⟩ <;> decide +kernel

/-- the hypotheses of `C112_exact`, and a gap -/
example : parsePrefstr c!"A/5=B>[Carol X>D" = parsePrefstr c!"A/5=B>" := by decide +kernel
example : Gap c!"Carol> " := ⟨c!"Carol>", c!" ", [], by decide, by unfold OnlyBlanks; decide +kernel, .inr ⟨c!"Carol", '>', by decide, by decide⟩, .inl rfl⟩
example : parsePrefstr c!"A>[Carol> " = .error .typeError := by decide +kernel
example : ¬ Gap c!"Carol X>D" := by
  rw [← gap_iff]
  decide +kernel

end Examples

end Verif.Props
