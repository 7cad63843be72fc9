/-
Helper lemmas: the model's regex-based line readers agree with the direct specification.
-/
import Verif.Model.Parse
import Verif.Lib.Regex
import Verif.Spec.Abif

set_option linter.unusedSimpArgs false
set_option linter.unusedSectionVars false

namespace Verif
open Spec

/-! ### comments -/

theorem dropWhile_eq_nil_of {p : Char → Bool} {s : Str} (h : s.dropWhile p = []) : ∀ c ∈ s, p c = true := by
  induction s with
  | nil => simp
  | cons d t ih =>
    cases hd : p d with
    | false => simp [hd] at h
    | true =>
      simp [hd] at h
      intro c hc
      rcases List.mem_cons.1 hc with rfl | hc
      · exact hd
      · exact ih h c hc

theorem splitComment_eq (line : Str) (h : ∀ c ∈ line, c ≠ '\n') :
    splitComment line = (beforeHash line, hashComment line) := by
  have h1 : ∀ c t, (c != '#') = true →
      rmatch List.isEmpty [.plus (fun c => c == '#'), .star isSpace, .star isDot] (c :: t) = none := by
    intro c t hc
    have : (c == '#') = false := by simpa using hc
    simp [rmatch_plus_cons, this]
  unfold splitComment fullMatch commentAtoms
  rw [rmatch_star_det _ _ _ _ h1]
  cases hd : line.dropWhile (fun c => c != '#') with
  | nil =>
    have hno : '#' ∉ line := fun hm => by
      have := dropWhile_eq_nil_of hd _ hm
      simp at this
    simp [rmatch_plus_nil, beforeHash, hashComment, hno]
    symm
    apply takeWhile_all
    intro c hc
    simp
    rintro rfl
    exact hno hc
  | cons c t =>
    have hc : c = '#' := by simpa using head_dropWhile_not hd
    subst hc
    have hm : '#' ∈ line := dropWhile_mem (hd ▸ List.mem_cons_self)
    have hall : ∀ d ∈ ('#' :: t), isDot d = true := by
      intro d hdm
      have : d ∈ line := dropWhile_mem (hd ▸ hdm)
      simpa [isDot] using h d this
    have hrest : rmatch List.isEmpty [.star isSpace, .star isDot] (('#' :: t).dropWhile (fun c => c == '#')) =
        some ([(('#' :: t).dropWhile (fun c => c == '#')).takeWhile isSpace,
               (('#' :: t).dropWhile (fun c => c == '#')).dropWhile isSpace], []) := by
      apply rmatch_star_greedy (r := ([_], []))
      apply rmatch_last_star
      intro d hdm
      exact hall d (dropWhile_mem (dropWhile_mem hdm))
    rw [rmatch_plus_greedy _ _ _ _ _ (by simp) hrest]
    simp only [Option.map_some, beforeHash, hashComment, hm, if_true, hd]
    simp [List.takeWhile_append_dropWhile]

/-! ### votelines -/

variable [U : Uni]

theorem isDigit_colon : isDigit ':' = false := by
  simp [isDigit, decVal, isAscii, isAsciiDigit]

theorem isDigit_eq : isDigit '=' = false := by
  simp [isDigit, decVal, isAscii, isAsciiDigit]

theorem isDigit_brace : isDigit '{' = false := by
  simp [isDigit, decVal, isAscii, isAsciiDigit]

theorem matchVote_eq (s : Str) (h : ∀ c ∈ s, c ≠ '\n') : matchVote s = readVote s := by
  have h1 : ∀ c t, isDigit c = true →
      rmatch List.isEmpty [.one (fun c => c == ':'), .star isDot] (c :: t) = none := by
    intro c t hc
    have : (c == ':') = false := by
      cases hcc : c == ':' with
      | false => rfl
      | true =>
        have : c = ':' := by simpa using hcc
        rw [this, isDigit_colon] at hc; cases hc
    simp [rmatch_one, this]
  unfold matchVote fullMatch voteAtoms readVote
  rw [rmatch_plus_det _ _ _ _ h1]
  cases hd : s.dropWhile isDigit with
  | nil =>
    by_cases ht : s.takeWhile isDigit = [] <;> simp [ht, rmatch_one_nil]
  | cons c t =>
    by_cases hc : c = ':'
    · subst hc
      have hall : ∀ d ∈ t, isDot d = true := by
        intro d hdm
        have : d ∈ s := dropWhile_mem (p := isDigit) (hd ▸ List.mem_cons_of_mem _ hdm)
        simpa [isDot] using h d this
      by_cases ht : s.takeWhile isDigit = []
      · simp [ht]
      · simp [ht, rmatch_one, rmatch_last_star _ _ hall]
    · have hc' : (c == ':') = false := by simpa using hc
      by_cases ht : s.takeWhile isDigit = []
      · simp [ht, hc]
      · simp only [ht, if_false, rmatch_one, hc', Bool.false_eq_true]
        simp only [Option.map_none]
        split
        · simp_all
        · rfl

/-! ### candidate lines -/

def candTokCh (c : Char) : Bool := !(c == ':' || c == '"' || c == ']')

theorem readCand_cons_eq (t : Str) : readCand ('=' :: t) =
    (let u := dropOne (fun c => c == '"' || c == '[') (t.dropWhile isSpace)
     match dropOne (fun c => c == '"') (u.dropWhile candTokCh) with
     | ':' :: d =>
       let d := dropOne (fun c => c == '[') d
       if d.dropWhile (fun c => c != ']') = [] ∨ d.dropWhile (fun c => c != ']') = [']'] then
         some (u.takeWhile candTokCh, d.takeWhile (fun c => c != ']'))
       else none
     | _ => none) := rfl

theorem readCand_head {s : Str} {r : Str × Str} (h : readCand s = some r) : ∃ t, s = '=' :: t := by
  unfold readCand at h
  split at h
  · exact ⟨_, rfl⟩
  · cases h

/-- the first character if it satisfies `p` -/
def takeOne (p : Char → Bool) : Str → Str
  | [] => []
  | c :: _ => if p c then [c] else []

theorem rmatch_opt_greedy (fin : Str → Bool) (p : Char → Bool) (as : List Atom) (s : Str)
    (r : List Str × Str) (h : rmatch fin as (dropOne p s) = some r) :
    rmatch fin (.opt p :: as) s = some (takeOne p s :: r.1, r.2) := by
  cases s with
  | nil => simp [dropOne] at h; simp [rmatch_opt_nil, h, takeOne]
  | cons c t =>
    rw [rmatch_opt_cons]
    cases hc : p c with
    | true => simp [dropOne, hc] at h; simp [h, takeOne, hc]
    | false => simp [dropOne, hc] at h; simp [h, takeOne, hc]

theorem rmatch_one_ok (fin : Str → Bool) (p : Char → Bool) (as : List Atom) (c : Char) (t : Str)
    (r : List Str × Str) (hc : p c = true) (h : rmatch fin as t = some r) :
    rmatch fin (.one p :: as) (c :: t) = some ([c] :: r.1, r.2) := by
  simp [rmatch_one, hc, h]

theorem rmatch_candTail (d : Str)
    (h : d.dropWhile (fun c => c != ']') = [] ∨ d.dropWhile (fun c => c != ']') = [']']) :
    ∃ x, rmatch List.isEmpty [.star (fun c => c != ']'), .opt (fun c => c == ']')] d =
      some ([d.takeWhile (fun c => c != ']'), x], []) := by
  rcases h with h | h
  · exact ⟨[], rmatch_star_greedy _ _ _ _ ([[]], []) (by simp [h, rmatch])⟩
  · exact ⟨[']'], rmatch_star_greedy _ _ _ _ ([[']']], []) (by simp [h, rmatch])⟩

theorem matchCand_of_readCand {s : Str} {r : Str × Str} (h : readCand s = some r) : matchCand s = some r := by
  obtain ⟨t, rfl⟩ := readCand_head h
  rw [readCand_cons_eq] at h
  simp only at h
  generalize hu : dropOne (fun c => c == '"' || c == '[') (t.dropWhile isSpace) = u at h
  generalize hx : dropOne (fun c => c == '"') (u.dropWhile candTokCh) = x at h
  split at h
  case h_2 => cases h
  rename_i d
  split at h
  case isFalse => cases h
  rename_i hd
  cases h
  obtain ⟨x, hx1⟩ := rmatch_candTail _ hd
  have e1 := rmatch_opt_greedy _ (fun c => c == '[') _ _ _ hx1
  have e2 := rmatch_one_ok _ (fun c => c == ':') _ ':' _ _ rfl e1
  have hx' : dropOne isOpenCh (u.dropWhile candTokCh) = ':' :: d := by
    cases hc : u.dropWhile candTokCh with
    | nil => rw [hc] at hx; simp [dropOne] at hx
    | cons a b =>
      rw [hc] at hx
      have := head_dropWhile_not hc
      simp only [dropOne] at hx ⊢
      split at hx
      · rename_i ha
        simp only [isOpenCh, ha, Bool.true_or, if_true]; exact hx
      · cases hx
        simp [isOpenCh]
  have e3 := rmatch_opt_greedy _ isOpenCh _ _ _ (hx' ▸ e2)
  have e4 := rmatch_star_greedy _ candTokCh _ _ _ e3
  have e5 := rmatch_opt_greedy _ isOpenCh _ (t.dropWhile isSpace) _ (show rmatch _ _ (dropOne isOpenCh (t.dropWhile isSpace)) = _ from hu ▸ e4)
  have e6 := rmatch_star_greedy _ isSpace _ _ _ e5
  have e7 := rmatch_one_ok _ (fun c => c == '=') _ '=' _ _ rfl e6
  have e8 : fullMatch candAtoms ('=' :: t) = _ := congrArg (Option.map Prod.fst) e7
  unfold matchCand
  rw [e8]
  subst hu
  rfl

theorem isSpace_dquote : isSpace '"' = false := by decide
theorem isSpace_lbrack : isSpace '[' = false := by decide
theorem isSpace_colon : isSpace ':' = false := by decide

theorem dropWhile_append_stop {p : Char → Bool} {s t : Str} (h : ∀ c t', t = c :: t' → p c = false) :
    (s ++ t).dropWhile p = s.dropWhile p ++ t := by
  induction s with
  | nil =>
    cases t with
    | nil => rfl
    | cons c t => simp [h c t rfl]
  | cons d s ih =>
    cases hd : p d with
    | true => simp [hd, ih]
    | false => simp [hd]

theorem readCand_isSome_of_reads {s : Str} {ps : List Str} (h : Reads candAtoms ps) (hs : ps.flatten = s) :
    (readCand s).isSome = true := by
  unfold candAtoms at h
  cases h with | cons h1 h => cases h with | cons h2 h => cases h with | cons h3 h => cases h with
  | cons h4 h => cases h with | cons h5 h => cases h with | cons h6 h => cases h with | cons h7 h =>
  cases h with | cons h8 h => cases h with | cons h9 h =>
  cases h
  rename_i p1 p2 p3 p4 p5 p6 p7 p8 p9
  obtain ⟨c1, rfl, hc1⟩ := h1
  have : c1 = '=' := by simpa using hc1
  subst this
  obtain ⟨c6, rfl, hc6⟩ := h6
  have : c6 = ':' := by simpa using hc6
  subst this
  -- normalise: merge a '[' taken after the token into the token
  obtain ⟨tok, q, hq, htok, hmerge⟩ : ∃ tok q : Str, (q = [] ∨ q = ['"']) ∧ (∀ c ∈ tok, candTokCh c = true) ∧
      p4 ++ p5 = tok ++ q := by
    rcases h5 with rfl | ⟨c, rfl, hc⟩
    · exact ⟨p4, [], .inl rfl, h4, rfl⟩
    · have : c = '"' ∨ c = '[' := by simpa [isOpenCh] using hc
      rcases this with rfl | rfl
      · exact ⟨p4, ['"'], .inr rfl, h4, rfl⟩
      · refine ⟨p4 ++ ['['], [], .inl rfl, ?_, by simp⟩
        intro c hc
        rcases List.mem_append.1 hc with hc | hc
        · exact h4 c hc
        · simp at hc; subst hc; decide
  generalize hD : p7 ++ (p8 ++ p9) = D
  have hs' : s = '=' :: (p2 ++ (p3 ++ (tok ++ (q ++ ':' :: D)))) := by
    rw [← hs, ← hD]
    simp only [List.flatten_cons, List.flatten_nil, List.append_nil, List.cons_append, List.nil_append]
    congr 2
    rw [← List.append_assoc tok q, ← hmerge]
    simp
  have hstop : ∀ c t', q ++ ':' :: D = c :: t' → isSpace c = false ∧ candTokCh c = false := by
    intro c t' he
    rcases hq with rfl | rfl
    · simp at he; rw [← he.1]; decide
    · simp at he; rw [← he.1]; decide
  -- the text after blanks and the opening character
  obtain ⟨tok', q', hq', htok', hu⟩ : ∃ tok' q' : Str, (q' = [] ∨ q' = ['"']) ∧ (∀ c ∈ tok', candTokCh c = true) ∧
      dropOne (fun c => c == '"' || c == '[') ((p2 ++ (p3 ++ (tok ++ (q ++ ':' :: D)))).dropWhile isSpace) =
        tok' ++ (q' ++ ':' :: D) := by
    rw [dropWhile_append_of_all h2]
    rcases h3 with rfl | ⟨c, rfl, hc⟩
    · simp only [List.nil_append]
      rw [dropWhile_append_stop (fun c t' he => (hstop c t' he).1)]
      cases htd : tok.dropWhile isSpace with
      | nil =>
        rcases hq with rfl | rfl
        · exact ⟨[], [], .inl rfl, by simp, by simp [dropOne]⟩
        · exact ⟨[], [], .inl rfl, by simp, by simp [dropOne]⟩
      | cons a b =>
        have hab : ∀ c ∈ a :: b, candTokCh c = true := fun c hc => htok c (dropWhile_mem (htd ▸ hc))
        by_cases ha : (a == '"' || a == '[') = true
        · exact ⟨b, q, hq, fun c hc => hab c (by simp [hc]), by simp [dropOne, ha]⟩
        · exact ⟨a :: b, q, hq, hab, by simp [dropOne, ha]⟩
    · have hc' : c = '"' ∨ c = '[' := by simpa [isOpenCh] using hc
      have hsp : isSpace c = false := by rcases hc' with rfl | rfl <;> decide
      have hcc : (c == '"' || c == '[') = true := by simpa using hc'
      refine ⟨tok, q, hq, htok, ?_⟩
      simp only [List.cons_append, List.nil_append, List.dropWhile_cons, hsp]
      simp [dropOne, hcc]
  have hstop' : ∀ c t', q' ++ ':' :: D = c :: t' → candTokCh c = false := by
    intro c t' he
    rcases hq' with rfl | rfl
    · simp at he; rw [← he.1]; decide
    · simp at he; rw [← he.1]; decide
  have hdw : (tok' ++ (q' ++ ':' :: D)).dropWhile candTokCh = q' ++ ':' :: D := by
    rw [dropWhile_append_stop hstop', dropWhile_all htok']; rfl
  have hq1 : dropOne (fun c => c == '"') (q' ++ ':' :: D) = ':' :: D := by
    rcases hq' with rfl | rfl <;> simp [dropOne]
  have hend : ∀ e : Str, (∃ a b : Str, (∀ c ∈ a, (c != ']') = true) ∧ (b = [] ∨ b = [']']) ∧ e = a ++ b) →
      e.dropWhile (fun c => c != ']') = [] ∨ e.dropWhile (fun c => c != ']') = [']'] := by
    rintro e ⟨a, b, ha, hb, rfl⟩
    rw [dropWhile_append_of_all ha]
    rcases hb with rfl | rfl <;> simp
  have hb9 : p9 = [] ∨ p9 = [']'] := by
    rcases h9 with rfl | ⟨c, rfl, hc⟩
    · exact .inl rfl
    · right; simpa using hc
  have hfin : (dropOne (fun c => c == '[') D).dropWhile (fun c => c != ']') = [] ∨
      (dropOne (fun c => c == '[') D).dropWhile (fun c => c != ']') = [']'] := by
    apply hend
    rw [← hD]
    rcases h7 with rfl | ⟨c, rfl, hc⟩
    · cases p8 with
      | nil =>
        rcases hb9 with rfl | rfl
        · exact ⟨[], [], by simp, .inl rfl, by simp [dropOne]⟩
        · exact ⟨[], [']'], by simp, .inr rfl, by simp [dropOne]⟩
      | cons a b =>
        by_cases ha : (a == '[') = true
        · exact ⟨b, p9, fun c hc => h8 c (by simp [hc]), hb9, by simp [dropOne, ha]⟩
        · exact ⟨a :: b, p9, h8, hb9, by simp [dropOne, ha]⟩
    · exact ⟨p8, p9, h8, hb9, by simp [dropOne, hc]⟩
  rw [hs', readCand_cons_eq]
  simp only [hu, hdw, hq1, hfin, if_true, Option.isSome_some]

theorem matchCand_eq (s : Str) : matchCand s = readCand s := by
  cases h : readCand s with
  | some r => exact matchCand_of_readCand h
  | none =>
    cases h2 : matchCand s with
    | none => rfl
    | some r =>
      exfalso
      unfold matchCand at h2
      split at h2
      · rename_i hf
        have := fullMatch_sound hf
        have := readCand_isSome_of_reads this.1 this.2
        rw [h] at this; cases this
      · cases h2

/-! ### metadata lines -/

theorem matchMeta_sound {s k v : Str} (h : matchMeta s = some (k, v)) : MetaForm s k v := by
  unfold matchMeta at h
  split at h
  case h_2 => cases h
  rename_i hf
  cases h
  obtain ⟨h, hs⟩ := fullMatch_sound hf
  unfold metaAtoms at h
  cases h with | cons h1 h => cases h with | cons h2 h => cases h with | cons h3 h => cases h with
  | cons h4 h => cases h with | cons h5 h => cases h with | cons h6 h => cases h with | cons h7 h =>
  cases h with | cons h8 h => cases h with | cons h9 h => cases h with | cons h10 h => cases h with
  | cons h11 h => cases h with | cons h12 h => cases h with | cons h13 h => cases h with
  | cons h14 h => cases h with | cons h15 h =>
  obtain ⟨c1, rfl, hc1⟩ := h1
  obtain ⟨c8, rfl, hc8⟩ := h8
  obtain ⟨c15, rfl, hc15⟩ := h15
  have e1 : c1 = '{' := by simpa using hc1
  have e8 : c8 = ':' := by simpa using hc8
  have e15 : c15 = '}' := by simpa using hc15
  subst e1 e8 e15
  have hq : ∀ q, Atom.Accepts (.opt isQuoteCh) q → q = [] ∨ q = ['\''] ∨ q = ['"'] := by
    rintro q (rfl | ⟨c, rfl, hc⟩)
    · simp
    · simp [isQuoteCh] at hc
      rcases hc with rfl | rfl <;> simp
  rename_i w1 q1 w2 q2 w3 w4 q3 w5 q4 w6
  refine ⟨w1, q1, w2, q2, w3, w4, q3, w5, q4, w6, ?_, ?_, ?_, h4.1, ?_, h11.1, ?_⟩
  · rw [← hs]; simp
  · intro w hw
    simp only [List.mem_cons, List.not_mem_nil, or_false] at hw
    rcases hw with rfl | rfl | rfl | rfl | rfl | rfl
    · exact h2
    · exact h5
    · exact h7
    · exact h9
    · exact h12
    · exact h14
  · intro q hw
    simp only [List.mem_cons, List.not_mem_nil, or_false] at hw
    rcases hw with rfl | rfl | rfl | rfl
    · exact hq _ h3
    · exact hq _ h6
    · exact hq _ h10
    · exact hq _ h13
  · intro c hc
    exact h4.2 c hc
  · intro c hc
    have := h11.2 c hc
    simp only [isMetaVal, Bool.or_eq_true, beq_iff_eq] at this
    simp only [Bool.or_eq_true, List.contains_eq_mem, decide_eq_true_eq, List.mem_cons, List.not_mem_nil, or_false]
    simp only [or_assoc] at this ⊢
    exact this

theorem matchMeta_isSome_of_form {s k v : Str} (h : MetaForm s k v) : (matchMeta s).isSome = true := by
  obtain ⟨w1, q1, w2, q2, w3, w4, q3, w5, q4, w6, hs, hw, hq, hk0, hk, hv0, hv⟩ := h
  have hqq : ∀ q, (q = [] ∨ q = ['\''] ∨ q = ['"']) → Atom.Accepts (.opt isQuoteCh) q := by
    rintro q (rfl | rfl | rfl)
    · exact .inl rfl
    · exact .inr ⟨_, rfl, by decide⟩
    · exact .inr ⟨_, rfl, by decide⟩
  have hr : Reads metaAtoms [['{'], w1, q1, k, w2, q2, w3, [':'], w4, q3, v, w5, q4, w6, ['}']] := by
    unfold metaAtoms
    refine .cons ⟨_, rfl, rfl⟩ (.cons (hw w1 (by simp)) (.cons (hqq _ (hq q1 (by simp))) (.cons ⟨hk0, hk⟩
      (.cons (hw w2 (by simp)) (.cons (hqq _ (hq q2 (by simp))) (.cons (hw w3 (by simp))
      (.cons ⟨_, rfl, rfl⟩ (.cons (hw w4 (by simp)) (.cons (hqq _ (hq q3 (by simp))) (.cons ⟨hv0, ?_⟩
      (.cons (hw w5 (by simp)) (.cons (hqq _ (hq q4 (by simp))) (.cons (hw w6 (by simp))
      (.cons ⟨_, rfl, rfl⟩ .nil))))))))))))))
    intro c hc
    have := hv c hc
    simp only [Bool.or_eq_true, List.contains_eq_mem, decide_eq_true_eq, List.mem_cons, List.not_mem_nil, or_false] at this
    simp only [isMetaVal, Bool.or_eq_true, beq_iff_eq]
    simp only [or_assoc] at this ⊢
    exact this
  have := (fullMatch_isSome metaAtoms s).2 ⟨_, hr, by rw [hs]; simp⟩
  obtain ⟨ps, hps⟩ := Option.isSome_iff_exists.1 this
  obtain ⟨h, _⟩ := fullMatch_sound hps
  unfold metaAtoms at h
  cases h with | cons h1 h => cases h with | cons h2 h => cases h with | cons h3 h => cases h with
  | cons h4 h => cases h with | cons h5 h => cases h with | cons h6 h => cases h with | cons h7 h =>
  cases h with | cons h8 h => cases h with | cons h9 h => cases h with | cons h10 h => cases h with
  | cons h11 h => cases h with | cons h12 h => cases h with | cons h13 h => cases h with
  | cons h14 h => cases h with | cons h15 h =>
  cases h
  unfold matchMeta
  rw [hps]
  rfl

theorem matchMeta_isSome_iff (s : Str) : (matchMeta s).isSome = true ↔ ∃ k v, MetaForm s k v := by
  constructor
  · intro h
    obtain ⟨⟨k, v⟩, h⟩ := Option.isSome_iff_exists.1 h
    exact ⟨k, v, matchMeta_sound h⟩
  · rintro ⟨k, v, h⟩
    exact matchMeta_isSome_of_form h

theorem matchMeta_head {s : Str} {r : Str × Str} (h : matchMeta s = some r) : ∃ t, s = '{' :: t := by
  obtain ⟨w1, q1, w2, q2, w3, w4, q3, w5, q4, w6, hs, _⟩ := matchMeta_sound (k := r.1) (v := r.2) h
  rw [hs]
  simp only [List.append_assoc, List.cons_append, List.nil_append]
  exact ⟨_, rfl⟩

theorem readVote_head {s : Str} {r : Str × Str} (h : readVote s = some r) : ∃ c t, s = c :: t ∧ isDigit c = true := by
  unfold readVote at h
  split at h
  · split at h
    · cases h
    · rename_i hne
      cases s with
      | nil => simp at hne
      | cons c t =>
        cases hc : isDigit c with
        | false => simp [hc] at hne
        | true => exact ⟨c, t, rfl, hc⟩
  · cases h

/-- no line is of two kinds -/
theorem readCand_none_of_vote {s : Str} {r : Str × Str} (h : readVote s = some r) : readCand s = none := by
  obtain ⟨c, t, rfl, hc⟩ := readVote_head h
  cases h2 : readCand (c :: t) with
  | none => rfl
  | some r =>
    obtain ⟨t', he⟩ := readCand_head h2
    cases he
    rw [isDigit_eq] at hc; cases hc

theorem matchMeta_none_of_vote {s : Str} {r : Str × Str} (h : readVote s = some r) : matchMeta s = none := by
  obtain ⟨c, t, rfl, hc⟩ := readVote_head h
  cases h2 : matchMeta (c :: t) with
  | none => rfl
  | some r =>
    obtain ⟨t', he⟩ := matchMeta_head h2
    cases he
    rw [isDigit_brace] at hc; cases hc

theorem readCand_none_of_meta {s : Str} {r : Str × Str} (h : matchMeta s = some r) : readCand s = none := by
  obtain ⟨t, rfl⟩ := matchMeta_head h
  cases h2 : readCand ('{' :: t) with
  | none => rfl
  | some r => obtain ⟨t', he⟩ := readCand_head h2; cases he

/-! ### voter ids -/

theorem rmatch_lits (fin : Str → Bool) (l : Str) (as : List Atom) (s : Str) :
    rmatch fin (litAtoms l ++ as) s =
      if l.isPrefixOf s then (rmatch fin as (s.drop l.length)).map (fun r => (l.map (fun c => [c]) ++ r.1, r.2))
      else none := by
  induction l generalizing s with
  | nil => simp [litAtoms]
  | cons c l ih =>
    have : litAtoms (c :: l) ++ as = .one (fun x => x == c) :: (litAtoms l ++ as) := rfl
    rw [this]
    cases s with
    | nil => simp [rmatch_one_nil]
    | cons d s =>
      rw [rmatch_one, ih]
      by_cases hd : d = c
      · subst hd
        by_cases hp : l.isPrefixOf s = true
        · simp only [beq_self_eq_true, if_true, hp, List.isPrefixOf_cons_cons_self, List.length_cons,
            List.drop_succ_cons, List.map_cons, List.cons_append, Option.map_map]
          rfl
        · simp [hp]
      · have hd' : (d == c) = false := by simpa using hd
        have hd'' : (c == d) = false := by simpa using fun e => hd e.symm
        simp [hd', List.isPrefixOf, hd'']

theorem matchVid_eq (com : Str) : matchVid com = readVid com := by
  unfold matchVid readVid prefixMatch vidAtoms
  rw [rmatch_lits]
  by_cases hp : List.isPrefixOf c!"##VID:" com = true
  · simp only [hp, if_true]
    have hl : List.length c!"##VID:" = 6 := rfl
    rw [hl]
    by_cases ht : (com.drop 6).takeWhile (fun c => !isSpace c) = []
    · rw [ht]
      have : rmatch (fun _ => true) [.plus (fun c => !isSpace c)] (com.drop 6) = none := by
        cases hc : com.drop 6 with
        | nil => rfl
        | cons c t =>
          rw [hc] at ht
          rw [rmatch_plus_cons]
          cases hs : isSpace c with
          | true => simp
          | false => simp [hs] at ht
      rw [this]; rfl
    · rw [rmatch_plus_greedy _ _ _ _ ([], _) ht rfl]
      simp only [Option.map_some, List.map_cons, List.map_nil, List.cons_append, List.nil_append]
  · simp [hp]

end Verif
