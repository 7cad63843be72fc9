/-
C102: the words on the command line of abiftool.
-/
import Verif.Model.Argv
import Verif.Spec.Argv
import Verif.Props.Cli
import Mathlib.Data.List.Infix
import Mathlib.Data.List.Induction
import Verif.Lib.Prefstr
import Verif.Lib.JsonSound

set_option linter.unusedSimpArgs false
set_option linter.unusedSectionVars false
set_option linter.unusedVariables false

namespace Verif.Props
open Verif Spec

section
variable [U : Uni]

/-- an option of the specification as the parser sees it -/
def useOpt : Use → Opt × Str
  | .debug => (.debug, [])
  | .cleanws => (.cleanws, [])
  | .addScores => (.addScores, [])
  | .from v => (.fromfmt, v)
  | .out v => (.to, v)
  | .mod v => (.modifier, v)
  | .width v => (.width, v)

/-! ### words -/

theorem negNumber_iff (w : Str) : negNumber w = true ↔ NegNumber w := by
  unfold negNumber NegNumber
  cases w with
  | nil => simp
  | cons c t =>
    by_cases hc : c = '-'
    · subst hc
      simp only [Bool.or_eq_true, Bool.and_eq_true, bne_iff_ne, ne_eq, List.all_eq_true]
      apply or_congr
      · constructor
        · rintro ⟨h1, h2⟩
          exact ⟨t, rfl, h1, h2⟩
        · rintro ⟨ds, h1, h2, h3⟩
          obtain rfl := (List.cons.inj h1).2
          exact ⟨h2, h3⟩
      · have hdot : isDigit '.' = false := digit_ascii (by decide) (by decide)
        constructor
        · intro h
          cases hd : t.dropWhile isDigit with
          | nil => rw [hd] at h; simp at h
          | cons d r =>
            rw [hd] at h
            by_cases hdd : d = '.'
            · subst hdd
              simp only [Bool.and_eq_true, bne_iff_ne, ne_eq, List.all_eq_true] at h
              refine ⟨t.takeWhile isDigit, r, ?_, ?_, h.1, h.2⟩
              · rw [← hd, List.takeWhile_append_dropWhile]
              · intro c hc
                exact of_mem_takeWhile hc
            · split at h
              · rename_i heq
                exact absurd (List.cons.inj heq).1 hdd
              · cases h
        · rintro ⟨ds, es, h1, h2, h3, h4⟩
          obtain rfl := (List.cons.inj h1).2
          have : (ds ++ '.' :: es).dropWhile isDigit = '.' :: es := by
            rw [List.dropWhile_append_of_pos h2, List.dropWhile_cons_of_neg (by simp [hdot])]
          rw [this]
          simp only [Bool.and_eq_true, bne_iff_ne, ne_eq, List.all_eq_true]
          exact ⟨h3, h4⟩
    · constructor
      · intro h
        split at h
        · rename_i heq
          exact absurd (List.cons.inj heq).1 hc
        · cases h
      · rintro (⟨ds, h1, _⟩ | ⟨ds, es, h1, _⟩)
        · exact absurd (List.cons.inj h1).1 hc
        · exact absurd (List.cons.inj h1).1 hc

theorem notOption_plain (w : Str) : notOption w = .plain ↔ NegNumber w ∨ ' ' ∈ w := by
  unfold notOption
  rw [← negNumber_iff]
  split
  · rename_i h; exact ⟨fun _ => h, fun _ => rfl⟩
  · rename_i h; exact ⟨fun hx => (by cases hx), fun hx => absurd hx h⟩

omit U in
theorem longMatches_nil (n : Str) : longMatches n = [] ↔ ∀ p ∈ longOpts, ¬ n <+: p.1 := by
  unfold longMatches
  cases h : longOpts.lookup n with
  | some o =>
    simp only [List.cons_ne_nil, false_iff, not_forall, not_not]
    have : ∀ (l : List (Str × Opt)), l.lookup n = some o → (n, o) ∈ l := by
      intro l
      induction l with
      | nil => intro h; cases h
      | cons p l ih =>
        intro h
        obtain ⟨k, v⟩ := p
        rw [List.lookup_cons] at h
        by_cases hk : n = k
        · subst hk
          simp at h
          subst h
          exact List.mem_cons_self
        · have : (n == k) = false := by simpa using hk
          rw [this] at h
          exact List.mem_cons_of_mem _ (ih h)
    exact ⟨(n, o), this _ h, List.prefix_refl _⟩
  | none =>
    simp only
    rw [List.map_eq_nil_iff, List.filter_eq_nil_iff]
    simp only [List.isPrefixOf_iff_prefix]

omit U in
theorem lookup_mem {α β : Type} [BEq α] [LawfulBEq α] {k : α} {v : β} {l : List (α × β)} (h : l.lookup k = some v) : (k, v) ∈ l := by
  induction l with
  | nil => cases h
  | cons p l ih =>
    obtain ⟨a, b⟩ := p
    rw [List.lookup_cons] at h
    cases hk : (k == a) with
    | true =>
      rw [hk] at h
      have : k = a := by simpa using hk
      subst this
      cases h
      exact List.mem_cons_self
    | false =>
      rw [hk] at h
      exact List.mem_cons_of_mem _ (ih h)

omit U in
theorem longMatches_one {n : Str} {o : Opt} (h : longMatches n = [o]) : n ≠ [] ∧ '=' ∉ n ∧ ∃ full, (full, o) ∈ longOpts ∧ n <+: full := by
  have hp : ∃ full, (full, o) ∈ longOpts ∧ n <+: full := by
    unfold longMatches at h
    cases hl : longOpts.lookup n with
    | some o' =>
      rw [hl] at h
      simp only [List.cons.injEq, and_true] at h
      subst h
      exact ⟨n, lookup_mem hl, List.prefix_refl _⟩
    | none =>
      rw [hl] at h
      simp only at h
      have ho : o ∈ (longOpts.filter (fun p => n.isPrefixOf p.1)).map Prod.snd := by rw [h]; simp
      obtain ⟨p, hp, rfl⟩ := List.mem_map.1 ho
      rw [List.mem_filter] at hp
      exact ⟨p.1, hp.1, List.isPrefixOf_iff_prefix.1 hp.2⟩
  refine ⟨?_, ?_, hp⟩
  · rintro rfl
    revert h
    cases o <;> decide
  · obtain ⟨full, hf, hpre⟩ := hp
    intro hx
    have hx := hpre.subset hx
    revert hx
    have : ∀ p ∈ longOpts, '=' ∉ p.1 := by decide
    exact this _ hf

omit U in
theorem longMatches_use {u : Use} {n : Str} (h1 : n ≠ []) (h2 : n <+: u.longName) : longMatches n = [(useOpt u).1] ∧ '=' ∉ n := by
  have h := (List.mem_inits n u.longName).2 h2
  have key : ∀ (name : Str) (o : Opt), (∀ n ∈ name.inits, n ≠ [] → longMatches n = [o] ∧ '=' ∉ n) → n ∈ name.inits → longMatches n = [o] ∧ '=' ∉ n :=
    fun name o hall hn => hall n hn h1
  cases u with
  | debug => exact key c!"debug" .debug (by decide) h
  | cleanws => exact key c!"cleanws" .cleanws (by decide) h
  | addScores => exact key c!"add-scores" .addScores (by decide) h
  | «from» v => exact key c!"fromfmt" .fromfmt (by decide) h
  | out v => exact key c!"to" .to (by decide) h
  | mod v => exact key c!"modifier" .modifier (by decide) h
  | width v => exact key c!"width" .width (by decide) h

/-- the parser takes exactly the plain words for files or values -/
theorem argWord_plain (w : Str) : argWord w = .plain ↔ PlainWord w := by
  match w with
  | [] => exact ⟨fun _ => .inl (by simp), fun _ => rfl⟩
  | [c] =>
    refine ⟨fun _ => ?_, fun _ => by unfold argWord; split <;> simp_all⟩
    by_cases hc : c = '-'
    · subst hc; exact .inr (.inl rfl)
    · exact .inl (by simpa using hc)
  | a :: c :: t =>
    by_cases ha : a = '-'
    · subst ha
      by_cases hc : c = '-'
      · subst hc
        have e : argWord ('-' :: '-' :: t) = (match longMatches (t.takeWhile (fun c => c != '=')) with
            | [] => notOption ('-' :: '-' :: t)
            | [o] => .long o (if '=' ∈ t then some ((t.dropWhile (fun c => c != '=')).drop 1) else none)
            | _ => .ambiguous) := rfl
        rw [e]
        constructor
        · intro h
          right; right
          split at h
          · rename_i hl
            refine ⟨(notOption_plain _).1 h, .inr ⟨t, rfl, ?_⟩⟩
            have := (longMatches_nil _).1 hl
            intro name hn
            have hall : ∀ name ∈ [c!"help", c!"debug", c!"fromfmt", c!"to", c!"modifier", c!"width", c!"cleanws", c!"add-scores"],
                ∃ p ∈ longOpts, p.1 = name := by decide
            obtain ⟨p, hp, rfl⟩ := hall name hn
            exact this p hp
          · cases h
          · cases h
        · rintro (h | h | ⟨h1, h2 | ⟨t', ht, h2⟩⟩)
          · simp at h
          · cases h
          · obtain ⟨c, t', heq, hne, _⟩ := h2
            exact absurd (List.cons.inj (List.cons.inj heq).2).1.symm hne
          · obtain rfl := (List.cons.inj (List.cons.inj ht).2).2
            have : longMatches (t.takeWhile (fun c => c != '=')) = [] := by
              rw [longMatches_nil]
              have hall : ∀ p ∈ longOpts, p.1 ∈ [c!"help", c!"debug", c!"fromfmt", c!"to", c!"modifier", c!"width", c!"cleanws", c!"add-scores"] := by decide
              intro p hp
              exact h2 p.1 (hall p hp)
            rw [this]
            exact (notOption_plain _).2 h1
      · have e : argWord ('-' :: c :: t) = (if c = '=' then .ambiguous else match shortOpts.lookup c with
            | some o => .short o t
            | none => notOption ('-' :: c :: t)) := by
          unfold argWord
          split
          · rename_i heq
            exact absurd (List.cons.inj (List.cons.inj heq).2).1 hc
          · rename_i heq
            obtain ⟨h1, h2⟩ := List.cons.inj (List.cons.inj heq).2
            subst h1 h2
            rfl
          · rename_i h1 h2
            exact absurd rfl (h2 c t)
        rw [e]
        have hlook : shortOpts.lookup c = none ↔ c ∉ c!"hdftmw" := by
          constructor
          · intro h hm
            have : ∀ c ∈ c!"hdftmw", shortOpts.lookup c ≠ none := by decide
            exact this c hm h
          · intro h
            cases hl : shortOpts.lookup c with
            | none => rfl
            | some o =>
              exfalso
              have : ∀ p ∈ shortOpts, p.1 ∈ c!"hdftmw" := by decide
              exact h (this _ (lookup_mem hl))
        constructor
        · intro h
          right; right
          by_cases he : c = '='
          · rw [if_pos he] at h; cases h
          rw [if_neg he] at h
          split at h
          · cases h
          · rename_i hl
            exact ⟨(notOption_plain _).1 h, .inl ⟨c, t, rfl, hc, he, hlook.1 hl⟩⟩
        · rintro (h | h | ⟨h1, h2 | ⟨t', ht, h2⟩⟩)
          · simp at h
          · cases h
          · obtain ⟨c', t', heq, hne, he, hm⟩ := h2
            obtain ⟨e1, e2⟩ := List.cons.inj (List.cons.inj heq).2
            subst e1 e2
            rw [if_neg he, hlook.2 hm]
            exact (notOption_plain _).2 h1
          · exact absurd (List.cons.inj (List.cons.inj ht).2).1 hc
    · refine ⟨fun _ => .inl (by simpa using ha), fun _ => ?_⟩
      unfold argWord
      split
      · rename_i heq; exact absurd (List.cons.inj heq).1 ha
      · rename_i heq; exact absurd (List.cons.inj heq).1 ha
      · rfl

/-- short options as the parser sees them -/
theorem argWord_short {c : Char} {t : Str} (hc : c ≠ '-') {o : Opt} (h : shortOpts.lookup c = some o) : argWord ('-' :: c :: t) = .short o t := by
  have he : c ≠ '=' := by
    rintro rfl
    revert h
    cases o <;> decide
  unfold argWord
  split
  · rename_i heq
    exact absurd (List.cons.inj (List.cons.inj heq).2).1 hc
  · rename_i heq
    obtain ⟨h1, h2⟩ := List.cons.inj (List.cons.inj heq).2
    subst h1 h2
    rw [if_neg he, h]
  · rename_i h1 h2
    exact absurd rfl (h2 c t)

omit U in
theorem letter_lookup {u : Use} {c : Char} (h : u.letter = some c) : c ≠ '-' ∧ c ≠ '=' ∧ shortOpts.lookup c = some (useOpt u).1 := by
  have key : ∀ (d : Char) (o : Opt), some d = some c → d ≠ '-' ∧ d ≠ '=' ∧ shortOpts.lookup d = some o → c ≠ '-' ∧ c ≠ '=' ∧ shortOpts.lookup c = some o := by
    intro d o h1 h2
    rw [← Option.some.inj h1]
    exact h2
  cases u with
  | debug => exact key 'd' _ h (by decide)
  | cleanws => cases h
  | addScores => cases h
  | «from» v => exact key 'f' .fromfmt h (by decide)
  | out v => exact key 't' .to h (by decide)
  | mod v => exact key 'm' .modifier h (by decide)
  | width v => exact key 'w' .width h (by decide)

omit U in
theorem value_takes {u : Use} {v : Str} (h : u.value = some v) : (useOpt u).1.takesValue = true ∧ (useOpt u).2 = v := by
  cases u <;> first | (cases h; done) | (cases h; exact ⟨rfl, rfl⟩)

omit U in
theorem flag_takes {u : Use} (h : u.value = none) : (useOpt u).1.takesValue = false ∧ (useOpt u).2 = [] := by
  cases u <;> first | (cases h; done) | exact ⟨rfl, rfl⟩

/-- words of letters as the parser sees them -/
theorem writes_short {us : List Use} {ws : List Str} (h : Writes us ws) : ∀ (c : Char) (s : Str) (ws' : List Str),
    ws = ('-' :: c :: s) :: ws' → c ≠ '-' → ∃ o, shortOpts.lookup c = some o ∧ c ≠ '=' ∧
      ((ws' = [] ∧ shortGroup o s = (us.map useOpt, .done)) ∨
       ∃ v o' l, ws' = [v] ∧ PlainWord v ∧ shortGroup o s = (l, .wants o') ∧ us.map useOpt = l ++ [(o', v)]) := by
  induction h with
  | longFlag u n h1 h2 h3 => intro c s ws' e hc; exact absurd (List.cons.inj (List.cons.inj (List.cons.inj e).1).2).1.symm hc
  | longEq u n v h1 h2 h3 => intro c s ws' e hc; exact absurd (List.cons.inj (List.cons.inj (List.cons.inj e).1).2).1.symm hc
  | longNext u n v h1 h2 h3 h4 => intro c s ws' e hc; exact absurd (List.cons.inj (List.cons.inj (List.cons.inj e).1).2).1.symm hc
  | letterFlag u c h1 h2 =>
    intro c' s ws' e hc
    simp only [List.cons.injEq, true_and] at e
    obtain ⟨⟨rfl, rfl⟩, rfl⟩ := e
    obtain ⟨_, hq, hl⟩ := letter_lookup h2
    refine ⟨_, hl, hq, .inl ⟨rfl, ?_⟩⟩
    obtain ⟨f1, f2⟩ := flag_takes h1
    unfold shortGroup
    rw [f1]
    simp only [Bool.false_eq_true, if_false, List.map_cons, List.map_nil]
    rw [← f2]
  | letterEq u c v h1 h2 =>
    intro c' s ws' e hc
    simp only [List.cons.injEq, true_and] at e
    obtain ⟨⟨rfl, rfl⟩, rfl⟩ := e
    obtain ⟨_, hq, hl⟩ := letter_lookup h2
    refine ⟨_, hl, hq, .inl ⟨rfl, ?_⟩⟩
    obtain ⟨f1, f2⟩ := value_takes h1
    unfold shortGroup
    rw [f1]
    simp only [if_true, List.map_cons, List.map_nil]
    rw [← f2]
  | letterWith u c v h1 h2 h3 h4 =>
    intro c' s ws' e hc
    simp only [List.cons.injEq, true_and] at e
    obtain ⟨⟨rfl, rfl⟩, rfl⟩ := e
    obtain ⟨_, hq, hl⟩ := letter_lookup h2
    refine ⟨_, hl, hq, .inl ⟨rfl, ?_⟩⟩
    obtain ⟨f1, f2⟩ := value_takes h1
    cases v with
    | nil => exact absurd rfl h3
    | cons x v =>
      have hx : x ≠ '=' := by simpa using h4
      unfold shortGroup
      rw [f1]
      simp only [if_true, List.map_cons, List.map_nil, hx, if_false]
      rw [← f2]
  | letterNext u c v h1 h2 h3 =>
    intro c' s ws' e hc
    simp only [List.cons.injEq, true_and] at e
    obtain ⟨⟨rfl, rfl⟩, rfl⟩ := e
    obtain ⟨_, hq, hl⟩ := letter_lookup h2
    refine ⟨_, hl, hq, .inr ⟨v, (useOpt u).1, [], rfl, h3, ?_, ?_⟩⟩
    · obtain ⟨f1, f2⟩ := value_takes h1
      unfold shortGroup
      rw [f1]
      rfl
    · obtain ⟨f1, f2⟩ := value_takes h1
      rw [← f2]
      rfl
  | together us c s ws h1 h2 ih =>
    intro c' s' ws' e hc
    simp only [List.cons.injEq, true_and] at e
    obtain ⟨⟨rfl, rfl⟩, rfl⟩ := e
    obtain ⟨o, hl, hq, hcase⟩ := ih c s ws rfl h1
    refine ⟨.debug, rfl, by decide, ?_⟩
    have hg : shortGroup .debug (c :: s) = ((Opt.debug, []) :: (shortGroup o s).1, (shortGroup o s).2) := by
      rw [shortGroup]
      rw [if_neg (by decide), if_neg (by rintro (hx | hx); exact hq hx; exact h1 hx), hl]
    rcases hcase with ⟨e1, e2⟩ | ⟨v, o', l, e1, e2, e3, e4⟩
    · refine .inl ⟨e1, ?_⟩
      rw [hg, e2]
      rfl
    · refine .inr ⟨v, o', (Opt.debug, []) :: l, e1, e2, ?_, ?_⟩
      · rw [hg, e3]
      · rw [List.map_cons, e4]
        rfl

/-! ### from what the user means to what the parser does -/

theorem argWord_long {n : Str} {o : Opt} (h1 : longMatches n = [o]) (h2 : '=' ∉ n) : argWord ('-' :: '-' :: n) = .long o none := by
  have e : n.takeWhile (fun c => c != '=') = n := by
    have hall : ∀ c ∈ n, (c != '=') = true := by
      intro c hc
      simp only [bne_iff_ne, ne_eq]
      rintro rfl
      exact h2 hc
    have := List.takeWhile_append_of_pos (l₂ := []) hall
    simpa using this
  show (match longMatches (n.takeWhile (fun c => c != '=')) with
            | [] => notOption ('-' :: '-' :: n)
            | [o] => .long o (if '=' ∈ n then some ((n.dropWhile (fun c => c != '=')).drop 1) else none)
            | _ => .ambiguous) = _
  rw [e, h1, if_neg h2]

theorem argWord_longEq {n v : Str} {o : Opt} (h1 : longMatches n = [o]) (h2 : '=' ∉ n) :
    argWord ('-' :: '-' :: (n ++ '=' :: v)) = .long o (some v) := by
  have hall : ∀ c ∈ n, (c != '=') = true := by
    intro c hc
    simp only [bne_iff_ne, ne_eq]
    rintro rfl
    exact h2 hc
  have e : (n ++ '=' :: v).takeWhile (fun c => c != '=') = n := by
    rw [List.takeWhile_append_of_pos hall, List.takeWhile_cons_of_neg (by decide), List.append_nil]
  have e2 : (n ++ '=' :: v).dropWhile (fun c => c != '=') = '=' :: v := by
    rw [List.dropWhile_append_of_pos hall, List.dropWhile_cons_of_neg (by decide)]
  show (match longMatches ((n ++ '=' :: v).takeWhile (fun c => c != '=')) with
            | [] => notOption ('-' :: '-' :: (n ++ '=' :: v))
            | [o] => .long o (if '=' ∈ n ++ '=' :: v then some (((n ++ '=' :: v).dropWhile (fun c => c != '=')).drop 1) else none)
            | _ => .ambiguous) = _
  rw [e, h1, if_pos (by simp), e2]
  rfl

theorem applyOpts_one (a : CliArgs) (x : Opt × Str) : applyOpts a [x] = applyOpt a x.1 x.2 := by
  unfold applyOpts
  cases applyOpt a x.1 x.2 <;> rfl

/-- go on with the rest, if the options took effect -/
def goOn (st : ArgState) (t : List Str) (r : Except ArgStop CliArgs) : Except ArgStop ArgState :=
  match r with
  | .error e => .error e
  | .ok a => parseWords t { st with isOpen := false, args := a }

/-- words that write options are read as those options -/
theorem parse_group {us : List Use} {ws : List Str} (h : Writes us ws) (t : List Str) (st : ArgState) :
    parseWords (ws ++ t) st = goOn st t (applyOpts st.args (us.map useOpt)) := by
  have short : ∀ (c : Char) (s : Str) (ws' : List Str), ws = ('-' :: c :: s) :: ws' → c ≠ '-' →
      parseWords (ws ++ t) st = goOn st t (applyOpts st.args (us.map useOpt)) := by
    intro c s ws' e hc
    obtain ⟨o, hl, hq, hcase⟩ := writes_short h c s ws' e hc
    subst e
    rcases hcase with ⟨rfl, e2⟩ | ⟨v, o', l, rfl, e2, e3, e4⟩
    · rw [List.cons_append, List.nil_append, parseWords.eq_def]
      simp only [argWord_short hc hl, e2]
      cases applyOpts st.args (us.map useOpt) <;> rfl
    · rw [List.cons_append, List.cons_append, List.nil_append, parseWords.eq_def]
      simp only [argWord_short hc hl, e3]
      rw [if_pos ((argWord_plain v).2 e2), e4]
      cases applyOpts st.args (l ++ [(o', v)]) <;> rfl
  cases h with
  | longFlag u n h1 h2 h3 =>
    obtain ⟨f1, f2⟩ := flag_takes h1
    obtain ⟨g1, g2⟩ := longMatches_use (u := u) h2 h3
    rw [List.map_cons, List.map_nil, applyOpts_one, f2, List.cons_append, List.nil_append, parseWords.eq_def]
    simp only [argWord_long g1 g2, f1]
    rw [if_neg (by simp)]
    cases applyOpt st.args (useOpt u).1 [] <;> rfl
  | longEq u n v h1 h2 h3 =>
    obtain ⟨f1, f2⟩ := value_takes h1
    obtain ⟨g1, g2⟩ := longMatches_use (u := u) h2 h3
    rw [List.map_cons, List.map_nil, applyOpts_one, f2, List.cons_append, List.nil_append, parseWords.eq_def]
    simp only [argWord_longEq g1 g2, f1]
    rw [if_pos trivial]
    cases applyOpt st.args (useOpt u).1 v <;> rfl
  | longNext u n v h1 h2 h3 h4 =>
    obtain ⟨f1, f2⟩ := value_takes h1
    obtain ⟨g1, g2⟩ := longMatches_use (u := u) h2 h3
    rw [List.map_cons, List.map_nil, applyOpts_one, f2, List.cons_append, List.cons_append, List.nil_append, parseWords.eq_def]
    simp only [argWord_long g1 g2, f1]
    rw [if_pos trivial, if_pos ((argWord_plain v).2 h4)]
    cases applyOpt st.args (useOpt u).1 v <;> rfl
  | letterFlag u c h1 h2 => exact short _ _ _ rfl (letter_lookup h2).1
  | letterEq u c v h1 h2 => exact short _ _ _ rfl (letter_lookup h2).1
  | letterWith u c v h1 h2 h3 h4 => exact short _ _ _ rfl (letter_lookup h2).1
  | letterNext u c v h1 h2 h3 => exact short _ _ _ rfl (letter_lookup h2).1
  | together us c s ws h1 h2 => exact short _ _ _ rfl (by decide)

/-- the effect of an option -/
def addUse (a : CliArgs) : Use → CliArgs
  | .debug => a
  | .cleanws => { a with cleanws := true }
  | .addScores => { a with addScores := true }
  | .from v => { a with fromfmt := some v }
  | .out v => { a with «to» := v }
  | .mod v => { a with modifier := some (a.modifier.getD [] ++ [v]) }
  | .width v => match pyIntOfStr v with
    | .ok i => { a with width := i }
    | .error _ => a

theorem applyOpt_use (a : CliArgs) (u : Use) :
    (u.Valid ∧ applyOpt a (useOpt u).1 (useOpt u).2 = .ok (addUse a u)) ∨ (¬ u.Valid ∧ applyOpt a (useOpt u).1 (useOpt u).2 = .error .usage) := by
  cases u with
  | debug => exact .inl ⟨trivial, rfl⟩
  | cleanws => exact .inl ⟨trivial, rfl⟩
  | addScores => exact .inl ⟨trivial, rfl⟩
  | «from» v =>
    by_cases h : v ∈ validInFmts
    · exact .inl ⟨h, by simp only [useOpt, applyOpt, h, if_true, addUse]⟩
    · exact .inr ⟨h, by simp only [useOpt, applyOpt, h, if_false]⟩
  | out v =>
    by_cases h : v ∈ validOutFmts
    · exact .inl ⟨h, by simp only [useOpt, applyOpt, h, if_true, addUse]⟩
    · exact .inr ⟨h, by simp only [useOpt, applyOpt, h, if_false]⟩
  | mod v =>
    by_cases h : v ∈ validMods
    · exact .inl ⟨h, by simp only [useOpt, applyOpt, h, if_true, addUse]⟩
    · exact .inr ⟨h, by simp only [useOpt, applyOpt, h, if_false]⟩
  | width v =>
    cases h : pyIntOfStr v with
    | ok i => exact .inl ⟨⟨i, h⟩, by simp only [useOpt, applyOpt, h, addUse]⟩
    | error e =>
      refine .inr ⟨?_, by simp only [useOpt, applyOpt, h]⟩
      rintro ⟨i, hi⟩
      rw [h] at hi
      cases hi

theorem applyOpts_uses (us : List Use) : ∀ (a : CliArgs),
    ((∀ u ∈ us, u.Valid) ∧ applyOpts a (us.map useOpt) = .ok (us.foldl addUse a)) ∨
    ((∃ u ∈ us, ¬ u.Valid) ∧ applyOpts a (us.map useOpt) = .error .usage) := by
  induction us with
  | nil => intro a; exact .inl ⟨by simp, rfl⟩
  | cons u us ih =>
    intro a
    rcases applyOpt_use a u with ⟨h1, h2⟩ | ⟨h1, h2⟩
    · have e : applyOpts a ((u :: us).map useOpt) = applyOpts (addUse a u) (us.map useOpt) := by
        rw [List.map_cons, applyOpts, h2]
      rw [e, List.foldl_cons]
      rcases ih (addUse a u) with ⟨h3, h4⟩ | ⟨⟨x, hx, h3⟩, h4⟩
      · exact .inl ⟨by simpa using ⟨h1, h3⟩, h4⟩
      · exact .inr ⟨⟨x, by simp [hx], h3⟩, h4⟩
    · refine .inr ⟨⟨u, by simp, h1⟩, ?_⟩
      rw [List.map_cons, applyOpts, h2]

/-- together the effects are what the options mean -/
theorem fold_meaning (us : List Use) (h : ∀ u ∈ us, u.Valid) : us.foldl addUse { files := [] } = Meaning [] us := by
  induction us using List.reverseRecOn with
  | nil => rfl
  | append_singleton us u ih =>
    have ih := ih (fun x hx => h x (by simp [hx]))
    have hu := h u (by simp)
    rw [List.foldl_append, ih, List.foldl_cons, List.foldl_nil]
    cases u with
    | debug => simp [addUse, Meaning, Use.asFrom, Use.asOut, Use.asMod, Use.asWidth, -List.filterMap_eq_nil_iff, List.filterMap_cons]
    | cleanws => simp [addUse, Meaning, Use.asFrom, Use.asOut, Use.asMod, Use.asWidth, -List.filterMap_eq_nil_iff, List.filterMap_cons]
    | addScores => simp [addUse, Meaning, Use.asFrom, Use.asOut, Use.asMod, Use.asWidth, -List.filterMap_eq_nil_iff, List.filterMap_cons]
    | «from» v => simp [addUse, Meaning, Use.asFrom, Use.asOut, Use.asMod, Use.asWidth, -List.filterMap_eq_nil_iff, List.filterMap_cons]
    | out v => simp [addUse, Meaning, Use.asFrom, Use.asOut, Use.asMod, Use.asWidth, -List.filterMap_eq_nil_iff, List.filterMap_cons]
    | mod v =>
      by_cases hm : us.filterMap Use.asMod = []
      · simp [addUse, Meaning, Use.asFrom, Use.asOut, Use.asMod, Use.asWidth, -List.filterMap_eq_nil_iff, List.filterMap_cons, hm]
      · simp [addUse, Meaning, Use.asFrom, Use.asOut, Use.asMod, Use.asWidth, -List.filterMap_eq_nil_iff, List.filterMap_cons, hm]
    | width v =>
      obtain ⟨i, hi⟩ := hu
      simp [addUse, Meaning, Use.asFrom, Use.asOut, Use.asMod, Use.asWidth, -List.filterMap_eq_nil_iff, List.filterMap_cons, hi, Except.toOption]

/-- a run of files -/
theorem parse_files (fs : List Str) : ∀ (t : List Str) (st : ArgState), (∀ f ∈ fs, PlainWord f) → st.isOpen = true ∨ st.files = [] → fs ≠ [] →
    parseWords (fs ++ t) st = parseWords t { st with files := st.files ++ fs, isOpen := true } := by
  induction fs with
  | nil => intro t st _ _ h; exact absurd rfl h
  | cons f fs ih =>
    intro t st hp ho _
    have e : parseWords (f :: fs ++ t) st = parseWords (fs ++ t) { st with files := st.files ++ [f], isOpen := true } := by
      rw [List.cons_append, parseWords.eq_def]
      simp only [(argWord_plain f).2 (hp f (by simp))]
      rw [if_pos ho]
    rw [e]
    by_cases hf : fs = []
    · subst hf
      rfl
    · rw [ih t _ (fun x hx => hp x (by simp [hx])) (.inl rfl) hf]
      simp only [List.append_assoc, List.cons_append, List.nil_append]

/-- a run of options that are all right -/
theorem parse_groups {us : List Use} {ws : List Str} (h : WritesAll us ws) : ∀ (t : List Str) (st : ArgState), (∀ u ∈ us, u.Valid) →
    ∃ op, (st.isOpen = false → op = false) ∧ parseWords (ws ++ t) st = parseWords t { st with isOpen := op, args := us.foldl addUse st.args } := by
  induction h with
  | nil => intro t st _; exact ⟨st.isOpen, fun h => h, rfl⟩
  | cons us us' ws ws' h1 h2 ih =>
    intro t st hv
    rcases applyOpts_uses us st.args with ⟨_, h4⟩ | ⟨⟨x, hx, h3⟩, _⟩
    · obtain ⟨op, ho, e⟩ := ih t { st with isOpen := false, args := us.foldl addUse st.args } (fun x hx => hv x (by simp [hx]))
      refine ⟨op, fun _ => ho rfl, ?_⟩
      rw [List.append_assoc, parse_group h1, h4]
      show parseWords (ws' ++ t) { st with isOpen := false, args := us.foldl addUse st.args } = _
      rw [e, List.foldl_append]
    · exact absurd (hv x (by simp [hx])) h3

/-! ### and back -/

theorem parse_extra (n : Nat) : ∀ (ws : List Str) (st st' : ArgState), ws.length ≤ n → parseWords ws st = .ok st' → st.extra = true → st'.extra = true := by
  induction n with
  | zero =>
    intro ws st st' hl h he
    cases ws with
    | nil => cases h; exact he
    | cons w t => simp at hl
  | succ n ih =>
    intro ws st st' hl h he
    cases ws with
    | nil => cases h; exact he
    | cons w t =>
      simp only [List.length_cons] at hl
      have hl' : t.length ≤ n := by omega
      rw [parseWords.eq_def] at h
      simp only at h
      repeat' split at h
      all_goals first
        | (cases h; done)
        | exact ih _ _ _ hl' h he
        | exact ih _ _ _ hl' h rfl
        | (simp only [List.length_cons] at hl'; exact ih _ _ _ (by omega) h he)

omit U in
/-- every option but help is one of the specification -/
theorem opt_use (o : Opt) (v : Str) (hh : o ≠ .help) (hv : o.takesValue = false → v = []) : ∃ u : Use, useOpt u = (o, v) ∧
    (o.takesValue = true → u.value = some v) ∧ (o.takesValue = false → u.value = none) ∧
    (∀ full, (full, o) ∈ longOpts → u.longName = full) ∧ (∀ c, shortOpts.lookup c = some o → u.letter = some c) := by
  have hl : ∀ (o : Opt) (name : Str), (∀ p ∈ longOpts, p.2 = o → name = p.1) → ∀ full, (full, o) ∈ longOpts → name = full :=
    fun o name h full hf => h _ hf rfl
  have hs : ∀ (o : Opt) (l : Option Char), (∀ p ∈ shortOpts, p.2 = o → l = some p.1) → ∀ c, shortOpts.lookup c = some o → l = some c :=
    fun o l h c hc => h _ (lookup_mem hc) rfl
  cases o with
  | help => exact absurd rfl hh
  | debug =>
    obtain rfl := hv rfl
    exact ⟨.debug, rfl, (by intro h; cases h), fun _ => rfl, hl _ _ (by decide), hs _ _ (by decide)⟩
  | cleanws =>
    obtain rfl := hv rfl
    exact ⟨.cleanws, rfl, (by intro h; cases h), fun _ => rfl, hl _ _ (by decide), hs _ _ (by decide)⟩
  | addScores =>
    obtain rfl := hv rfl
    exact ⟨.addScores, rfl, (by intro h; cases h), fun _ => rfl, hl _ _ (by decide), hs _ _ (by decide)⟩
  | fromfmt => exact ⟨.from v, rfl, fun _ => rfl, (by intro h; cases h), hl .fromfmt c!"fromfmt" (by decide), hs .fromfmt (some 'f') (by decide)⟩
  | «to» => exact ⟨.out v, rfl, fun _ => rfl, (by intro h; cases h), hl .to c!"to" (by decide), hs .to (some 't') (by decide)⟩
  | modifier => exact ⟨.mod v, rfl, fun _ => rfl, (by intro h; cases h), hl .modifier c!"modifier" (by decide), hs .modifier (some 'm') (by decide)⟩
  | width => exact ⟨.width v, rfl, fun _ => rfl, (by intro h; cases h), hl .width c!"width" (by decide), hs .width (some 'w') (by decide)⟩

theorem applyOpt_help {a b : CliArgs} {o : Opt} {v : Str} (h : applyOpt a o v = .ok b) : o ≠ .help := by
  rintro rfl
  cases h

theorem applyOpts_help {a b : CliArgs} {l : List (Opt × Str)} (h : applyOpts a l = .ok b) : ∀ p ∈ l, p.1 ≠ .help := by
  induction l generalizing a with
  | nil => intro p hp; cases hp
  | cons x l ih =>
    rw [applyOpts] at h
    cases hx : applyOpt a x.1 x.2 with
    | error e => rw [hx] at h; cases h
    | ok a' =>
      rw [hx] at h
      intro p hp
      rcases List.mem_cons.1 hp with rfl | hp
      · exact applyOpt_help hx
      · exact ih h p hp

theorem argWord_long_inv {w : Str} {o : Opt} {value : Option Str} (h : argWord w = .long o value) :
    ∃ n, longMatches n = [o] ∧ ((value = none ∧ w = '-' :: '-' :: n) ∨ ∃ v, value = some v ∧ w = '-' :: '-' :: (n ++ '=' :: v)) := by
  unfold argWord at h
  split at h
  · rename_i t
    simp only at h
    split at h
    · unfold notOption at h
      split at h <;> cases h
    · rename_i o' hm
      injection h with h1 h2
      subst h1
      refine ⟨_, hm, ?_⟩
      by_cases he : '=' ∈ t
      · rw [if_pos he] at h2
        right
        refine ⟨_, h2.symm, ?_⟩
        have hd : (t.dropWhile (fun c => c != '=')) = '=' :: (t.dropWhile (fun c => c != '=')).drop 1 := by
          cases hx : t.dropWhile (fun c => c != '=') with
          | nil =>
            exfalso
            have e := List.takeWhile_append_dropWhile (p := fun c => c != '=') (l := t)
            rw [hx, List.append_nil] at e
            rw [← e] at he
            have := of_mem_takeWhile he
            simp at this
          | cons c r =>
            have := List.head?_dropWhile_not (fun c => c != '=') t
            rw [hx] at this
            simp at this
            rw [this]
            rfl
        rw [← hd, List.takeWhile_append_dropWhile]
      · rw [if_neg he] at h2
        left
        refine ⟨h2.symm, ?_⟩
        have hall : ∀ c ∈ t, (c != '=') = true := by
          intro c hc
          simp only [bne_iff_ne, ne_eq]
          rintro rfl
          exact he hc
        have := List.takeWhile_append_of_pos (l₂ := []) hall
        simp only [List.append_nil, List.takeWhile_nil] at this
        rw [this]
    · cases h
  · split at h
    · cases h
    · split at h
      · cases h
      · unfold notOption at h
        split at h <;> cases h
  · cases h

theorem argWord_short_inv {w : Str} {o : Opt} {rest : Str} (h : argWord w = .short o rest) :
    ∃ c, w = '-' :: c :: rest ∧ c ≠ '-' ∧ shortOpts.lookup c = some o := by
  unfold argWord at h
  split at h
  · simp only at h
    split at h
    · unfold notOption at h
      split at h <;> cases h
    · cases h
    · cases h
  · split at h
    · cases h
    · split at h
      · rename_i h1 o' h3
        injection h with e1 e2
        subst e1 e2
        refine ⟨_, rfl, ?_, h3⟩
        intro hx
        rw [hx] at h3
        have : shortOpts.lookup '-' = none := by decide
        rw [this] at h3
        cases h3
      · unfold notOption at h
        split at h <;> cases h
  · cases h

/-- words of letters are writings of options -/
theorem short_writes (rest : Str) : ∀ (c : Char) (o : Opt), c ≠ '-' → shortOpts.lookup c = some o →
    (∀ l, shortGroup o rest = (l, .done) → (∀ p ∈ l, p.1 ≠ .help) → ∃ us, us.map useOpt = l ∧ Writes us ['-' :: c :: rest]) ∧
    (∀ l o' v, shortGroup o rest = (l, .wants o') → (∀ p ∈ l, p.1 ≠ .help) → o' ≠ .help → PlainWord v →
      ∃ us, us.map useOpt = l ++ [(o', v)] ∧ Writes us ['-' :: c :: rest, v]) := by
  induction rest with
  | nil =>
    intro c o hc hl
    constructor
    · intro l hg hh
      unfold shortGroup at hg
      split at hg
      · cases hg
      · rename_i ht
        have ht : o.takesValue = false := by simpa using ht
        obtain rfl := (Prod.mk.inj hg).1
        obtain ⟨u, e, _, h2, _, h4⟩ := opt_use o [] (hh _ (List.mem_cons_self)) (fun _ => rfl)
        exact ⟨[u], by simp [e], .letterFlag u c (h2 ht) (h4 c hl)⟩
    · intro l o' v hg hh ho hv
      unfold shortGroup at hg
      split at hg
      · rename_i ht
        obtain ⟨rfl, e⟩ := Prod.mk.inj hg
        injection e with e
        subst e
        obtain ⟨u, e, h1, _, _, h4⟩ := opt_use o v ho (fun h => by rw [ht] at h; cases h)
        exact ⟨[u], by simp [e], .letterNext u c v (h1 ht) (h4 c hl) hv⟩
      · cases hg
  | cons d t ih =>
    intro c o hc hl
    by_cases ht : o.takesValue = true
    · have hg : shortGroup o (d :: t) = ([(o, if d = '=' then t else d :: t)], .done) := by
        rw [shortGroup, if_pos ht]
      rw [hg]
      constructor
      · intro l hgl hh
        obtain rfl := (Prod.mk.inj hgl).1
        obtain ⟨u, e, h1, _, _, h4⟩ := opt_use o (if d = '=' then t else d :: t) (hh _ (List.mem_cons_self)) (fun h => by rw [ht] at h; cases h)
        refine ⟨[u], by simp [e], ?_⟩
        by_cases hd : d = '='
        · subst hd
          exact .letterEq u c t (h1 ht) (h4 c hl)
        · have h1 := h1 ht
          rw [if_neg hd] at h1
          exact .letterWith u c (d :: t) h1 (h4 c hl) (by simp) (by simpa using hd)
      · intro l o' v hgl
        cases (Prod.mk.inj hgl).2
    · have htf : o.takesValue = false := by simpa using ht
      by_cases hd : d = '=' ∨ d = '-'
      · have hg : shortGroup o (d :: t) = ([], .bad) := by
          rw [shortGroup, if_neg ht, if_pos hd]
        rw [hg]
        exact ⟨fun l h => (by cases (Prod.mk.inj h).2), fun l o' v h => (by cases (Prod.mk.inj h).2)⟩
      · cases hld : shortOpts.lookup d with
        | none =>
          have hg : shortGroup o (d :: t) = ([(o, [])], .stray) := by
            rw [shortGroup, if_neg ht, if_neg hd, hld]
          rw [hg]
          exact ⟨fun l h => (by cases (Prod.mk.inj h).2), fun l o' v h => (by cases (Prod.mk.inj h).2)⟩
        | some o2 =>
          have hg : shortGroup o (d :: t) = ((o, []) :: (shortGroup o2 t).1, (shortGroup o2 t).2) := by
            rw [shortGroup, if_neg ht, if_neg hd, hld]
          have hd' : d ≠ '-' := fun h => hd (.inr h)
          obtain ⟨ih1, ih2⟩ := ih d o2 hd' hld
          have hdeb : o ≠ .help → o = .debug ∧ c = 'd' := by
            intro hne
            have : ∀ p ∈ shortOpts, p.2 ≠ .help → p.2.takesValue = false → p.2 = .debug ∧ p.1 = 'd' := by decide
            exact this _ (lookup_mem hl) hne htf
          rw [hg]
          constructor
          · intro l h hh
            obtain ⟨e1, e2⟩ := Prod.mk.inj h
            subst e1
            obtain ⟨rfl, rfl⟩ := hdeb (hh _ (List.mem_cons_self))
            obtain ⟨us, e3, hw⟩ := ih1 _ (Prod.ext rfl e2) (fun p hp => hh p (List.mem_cons_of_mem _ hp))
            exact ⟨.debug :: us, by rw [List.map_cons, e3]; rfl, .together us d t [] hd' hw⟩
          · intro l o' v h hh ho hv
            obtain ⟨e1, e2⟩ := Prod.mk.inj h
            subst e1
            obtain ⟨rfl, rfl⟩ := hdeb (hh _ (List.mem_cons_self))
            obtain ⟨us, e3, hw⟩ := ih2 _ o' v (Prod.ext rfl e2) (fun p hp => hh p (List.mem_cons_of_mem _ hp)) ho hv
            exact ⟨.debug :: us, by rw [List.map_cons, e3]; rfl, .together us d t [v] hd' hw⟩

theorem writesAll_append {us us' : List Use} {ws ws' : List Str} (h : WritesAll us ws) (h' : WritesAll us' ws') : WritesAll (us ++ us') (ws ++ ws') := by
  induction h with
  | nil => exact h'
  | cons a b c d x y z =>
    rw [List.append_assoc, List.append_assoc]
    exact .cons _ _ _ _ x z

/-- The shape of a command line that was understood, from a state of the parser. -/
def Shape (ws : List Str) (st st' : ArgState) : Prop :=
  ∃ us₁ ws₁ fs us₂ ws₂, ws = ws₁ ++ fs ++ ws₂ ∧ WritesAll us₁ ws₁ ∧ WritesAll us₂ ws₂ ∧ (∀ f ∈ fs, PlainWord f) ∧
    (∀ u ∈ us₁ ++ us₂, u.Valid) ∧ st'.files = st.files ++ fs ∧ st'.args = (us₁ ++ us₂).foldl addUse st.args ∧
    (st.files ≠ [] → fs = [] ∨ (ws₁ = [] ∧ us₁ = [] ∧ st.isOpen = true))

theorem shape_group {us : List Use} {g ws : List Str} {st st' : ArgState} (hw : Writes us g) {a : CliArgs}
    (ha : applyOpts st.args (us.map useOpt) = .ok a) (h : Shape ws { st with isOpen := false, args := a } st') : Shape (g ++ ws) st st' := by
  obtain ⟨us₁, ws₁, fs, us₂, ws₂, h1, h2, h3, h4, h5, h6, h7, h8⟩ := h
  rcases applyOpts_uses us st.args with ⟨hv, e⟩ | ⟨_, e⟩
  · rw [e] at ha
    obtain rfl := Except.ok.inj ha
    refine ⟨us ++ us₁, g ++ ws₁, fs, us₂, ws₂, by rw [h1]; simp [List.append_assoc], .cons _ _ _ _ hw h2, h3, h4, ?_, h6, ?_, ?_⟩
    · intro u hu
      rw [List.append_assoc] at hu
      rcases List.mem_append.1 hu with hu | hu
      · exact hv u hu
      · exact h5 u hu
    · rw [h7, List.append_assoc, List.foldl_append (l := us)]
    · intro hf
      rcases h8 hf with h | ⟨_, _, h⟩
      · exact .inl h
      · cases h
  · rw [e] at ha
    cases ha

theorem parse_shape (n : Nat) : ∀ (ws : List Str) (st st' : ArgState), ws.length ≤ n → parseWords ws st = .ok st' → st'.extra = false → Shape ws st st' := by
  have base : ∀ (st : ArgState), Shape [] st st := fun st =>
    ⟨[], [], [], [], [], rfl, .nil, .nil, (by intro f hf; cases hf), (by intro u hu; cases hu), (List.append_nil _).symm, rfl, fun _ => .inl rfl⟩
  induction n with
  | zero =>
    intro ws st st' hl h he
    cases ws with
    | nil => cases h; exact base st
    | cons w t => simp at hl
  | succ n ih =>
    intro ws st st' hl h he
    cases ws with
    | nil => cases h; exact base st
    | cons w t =>
      simp only [List.length_cons] at hl
      have hl' : t.length ≤ n := by omega
      rw [parseWords.eq_def] at h
      simp only at h
      cases hw : argWord w with
      | plain =>
        rw [hw] at h
        simp only at h
        split at h
        · rename_i hopen
          obtain ⟨us₁, ws₁, fs, us₂, ws₂, h1, h2, h3, h4, h5, h6, h7, h8⟩ := ih _ _ _ hl' h he
          have hp := (argWord_plain w).1 hw
          have h8 := h8 (by simp)
          by_cases hf : fs = []
          · subst hf
            refine ⟨[], [], [w], us₁ ++ us₂, ws₁ ++ ws₂, by rw [h1]; simp, .nil, ?_, by simpa using hp, by simpa using h5, by simpa using h6, by simpa using h7, ?_⟩
            · exact writesAll_append h2 h3
            · intro hx
              rcases hopen with hopen | hopen
              · exact .inr ⟨rfl, rfl, hopen⟩
              · exact absurd hopen hx
          · rcases h8 with h8 | ⟨rfl, rfl, _⟩
            · exact absurd h8 hf
            · refine ⟨[], [], w :: fs, us₂, ws₂, by rw [h1]; simp, .nil, h3, ?_, h5, by simpa using h6, h7, ?_⟩
              · intro f hf
                rcases List.mem_cons.1 hf with rfl | hf
                · exact hp
                · exact h4 f hf
              · intro hx
                rcases hopen with hopen | hopen
                · exact .inr ⟨rfl, rfl, hopen⟩
                · exact absurd hopen hx
        · have := parse_extra n _ _ _ hl' h rfl
          rw [he] at this
          cases this
      | unknown =>
        rw [hw] at h
        simp only at h
        have := parse_extra n _ _ _ hl' h rfl
        rw [he] at this
        cases this
      | ambiguous => rw [hw] at h; cases h
      | long o value =>
        rw [hw] at h
        simp only at h
        obtain ⟨nm, hm, hcase⟩ := argWord_long_inv hw
        obtain ⟨hn1, hn2, full, hf1, hf2⟩ := longMatches_one hm
        by_cases ht : o.takesValue = true
        · rw [if_pos ht] at h
          cases value with
          | some v =>
            simp only at h
            cases ha : applyOpt st.args o v with
            | error e => rw [ha] at h; cases h
            | ok a =>
              rw [ha] at h
              obtain ⟨u, e, h1, _, h3, _⟩ := opt_use o v (applyOpt_help ha) (fun h => by rw [ht] at h; cases h)
              rcases hcase with ⟨hx, _⟩ | ⟨v', hx, rfl⟩
              · cases hx
              · cases hx
                have hW : Writes [u] ['-' :: '-' :: (nm ++ '=' :: v)] := .longEq u nm v (h1 ht) hn1 (by rw [h3 full hf1]; exact hf2)
                exact shape_group hW (a := a) (by rw [List.map_cons, List.map_nil, applyOpts_one, e]; exact ha) (ih _ _ _ hl' h he)
          | none =>
            simp only at h
            cases t with
            | nil => cases h
            | cons v t =>
              simp only at h
              split at h
              · rename_i hp
                cases ha : applyOpt st.args o v with
                | error e => rw [ha] at h; cases h
                | ok a =>
                  rw [ha] at h
                  obtain ⟨u, e, h1, _, h3, _⟩ := opt_use o v (applyOpt_help ha) (fun h => by rw [ht] at h; cases h)
                  rcases hcase with ⟨_, rfl⟩ | ⟨v', hx, _⟩
                  · have hW : Writes [u] ['-' :: '-' :: nm, v] := .longNext u nm v (h1 ht) hn1 (by rw [h3 full hf1]; exact hf2) ((argWord_plain v).1 hp)
                    exact shape_group hW (a := a) (by rw [List.map_cons, List.map_nil, applyOpts_one, e]; exact ha)
                      (ih _ _ _ (by simp only [List.length_cons] at hl'; omega) h he)
                  · cases hx
              · cases h
        · have htf : o.takesValue = false := by simpa using ht
          rw [if_neg ht] at h
          cases value with
          | some v => cases h
          | none =>
            simp only at h
            cases ha : applyOpt st.args o [] with
            | error e => rw [ha] at h; cases h
            | ok a =>
              rw [ha] at h
              obtain ⟨u, e, _, h2, h3, _⟩ := opt_use o [] (applyOpt_help ha) (fun _ => rfl)
              rcases hcase with ⟨_, rfl⟩ | ⟨v', hx, _⟩
              · have hW : Writes [u] ['-' :: '-' :: nm] := .longFlag u nm (h2 htf) hn1 (by rw [h3 full hf1]; exact hf2)
                exact shape_group hW (a := a) (by rw [List.map_cons, List.map_nil, applyOpts_one, e]; exact ha) (ih _ _ _ hl' h he)
              · cases hx
      | short o rest =>
        rw [hw] at h
        simp only at h
        obtain ⟨c, rfl, hc, hlk⟩ := argWord_short_inv hw
        obtain ⟨s1, s2⟩ := short_writes rest c o hc hlk
        cases hg : (shortGroup o rest).2 with
        | bad => rw [hg] at h; cases h
        | done =>
          rw [hg] at h
          simp only at h
          cases ha : applyOpts st.args (shortGroup o rest).1 with
          | error e => rw [ha] at h; cases h
          | ok a =>
            rw [ha] at h
            obtain ⟨us, e, hW⟩ := s1 _ (Prod.ext rfl hg) (applyOpts_help ha)
            exact shape_group hW (a := a) (by rw [e]; exact ha) (ih _ _ _ hl' h he)
        | stray =>
          rw [hg] at h
          simp only at h
          cases ha : applyOpts st.args (shortGroup o rest).1 with
          | error e => rw [ha] at h; cases h
          | ok a =>
            rw [ha] at h
            have := parse_extra n _ _ _ hl' h rfl
            rw [he] at this
            cases this
        | wants o' =>
          rw [hg] at h
          simp only at h
          cases t with
          | nil => cases h
          | cons v t =>
            simp only at h
            split at h
            · rename_i hp
              cases ha : applyOpts st.args ((shortGroup o rest).1 ++ [(o', v)]) with
              | error e => rw [ha] at h; cases h
              | ok a =>
                rw [ha] at h
                have hh := applyOpts_help ha
                obtain ⟨us, e, hW⟩ := s2 _ o' v (Prod.ext rfl hg) (fun p hp => hh p (by simp [hp])) (hh (o', v) (by simp)) ((argWord_plain v).1 hp)
                exact shape_group hW (a := a) (by rw [e]; exact ha) (ih _ _ _ (by simp only [List.length_cons] at hl'; omega) h he)
            · cases h

/-- C102.  The command line is understood exactly if it is files in one place with options before and after them, each written in one of
the ways of `Writes` and with a value the program knows; and then it means what the options say. -/
theorem C102_parse (argv : List Str) (a : CliArgs) : parseArgv argv = .ok a ↔
    ∃ (us₁ : List Use) (ws₁ files : List Str) (us₂ : List Use) (ws₂ : List Str), argv = ws₁ ++ files ++ ws₂ ∧ WritesAll us₁ ws₁ ∧ WritesAll us₂ ws₂ ∧
      files ≠ [] ∧ (∀ f ∈ files, PlainWord f) ∧ (∀ u ∈ us₁ ++ us₂, u.Valid) ∧ a = Meaning files (us₁ ++ us₂) := by
  have hmean : ∀ (fs : List Str) (us : List Use), Meaning fs us = { Meaning [] us with files := fs } := fun _ _ => rfl
  constructor
  · intro h
    unfold parseArgv at h
    cases hp : parseWords argv {} with
    | error e => rw [hp] at h; cases h
    | ok st =>
      rw [hp] at h
      simp only at h
      split at h
      · cases h
      · rename_i hx
        obtain ⟨hx1, hx2⟩ := not_or.1 hx
        obtain ⟨us₁, ws₁, fs, us₂, ws₂, h1, h2, h3, h4, h5, h6, h7, _⟩ := parse_shape _ argv {} st (Nat.le_refl _) hp (by simpa using hx2)
        have h6 : st.files = fs := h6
        refine ⟨us₁, ws₁, fs, us₂, ws₂, h1, h2, h3, by rwa [← h6], h4, h5, ?_⟩
        rw [← Except.ok.inj h, hmean, h7, h6, ← fold_meaning _ h5]
  · rintro ⟨us₁, ws₁, fs, us₂, ws₂, rfl, h2, h3, hne, h4, h5, rfl⟩
    obtain ⟨op, _, e1⟩ := parse_groups h2 (fs ++ ws₂) {} (fun u hu => h5 u (by simp [hu]))
    obtain ⟨op2, _, e2⟩ := parse_groups h3 [] { files := [] ++ fs, isOpen := true, args := us₁.foldl addUse { files := [] } } (fun u hu => h5 u (by simp [hu]))
    unfold parseArgv
    rw [List.append_assoc, e1, parse_files fs ws₂ _ h4 (.inr rfl) hne]
    rw [List.append_nil] at e2
    rw [e2]
    rw [parseWords]
    simp only [List.nil_append, hne, Bool.false_eq_true, or_self, if_false]
    rw [← List.foldl_append, fold_meaning _ h5, hmean fs]

/-- C102.  The program runs on what the command line means, or argparse ends it. -/
theorem C102_run (env : CliEnv) (argv : List Str) :
    (∃ (us₁ : List Use) (ws₁ files : List Str) (us₂ : List Use) (ws₂ : List Str), argv = ws₁ ++ files ++ ws₂ ∧ WritesAll us₁ ws₁ ∧ WritesAll us₂ ws₂ ∧
      files ≠ [] ∧ (∀ f ∈ files, PlainWord f) ∧ (∀ u ∈ us₁ ++ us₂, u.Valid) ∧ argvMain env argv = .ran (cliMain env (Meaning files (us₁ ++ us₂)))) ∨
    ∃ s, argvMain env argv = .stopped s := by
  unfold argvMain
  cases h : parseArgv argv with
  | error e => exact .inr ⟨e, rfl⟩
  | ok a =>
    obtain ⟨us₁, ws₁, fs, us₂, ws₂, h1, h2, h3, h4, h5, h6, rfl⟩ := (C102_parse argv a).1 h
    exact .inl ⟨us₁, ws₁, fs, us₂, ws₂, h1, h2, h3, h4, h5, h6, rfl⟩

/-- C102.  What the program gets is always one of the values it lists: at least one file, known formats and modifiers. -/
theorem C102_known (argv : List Str) (a : CliArgs) (h : parseArgv argv = .ok a) :
    a.files ≠ [] ∧ (∀ f ∈ a.files, f ∈ argv) ∧ (∀ v, a.fromfmt = some v → (Use.from v).Valid) ∧ (Use.out a.to).Valid ∧
    (∀ l, a.modifier = some l → l ≠ [] ∧ ∀ v ∈ l, (Use.mod v).Valid) := by
  obtain ⟨us₁, ws₁, fs, us₂, ws₂, rfl, h2, h3, h4, h5, h6, rfl⟩ := (C102_parse argv a).1 h
  refine ⟨h4, ?_, ?_, ?_, ?_⟩
  · intro f hf
    simp only [List.mem_append]
    exact .inl (.inr hf)
  · intro v hv
    have hm : v ∈ (us₁ ++ us₂).filterMap Use.asFrom := List.mem_of_getLast? hv
    obtain ⟨u, hu, e⟩ := List.mem_filterMap.1 hm
    cases u with
    | «from» x => obtain rfl := Option.some.inj e; exact h6 _ hu
    | _ => cases e
  · show (Use.out (((us₁ ++ us₂).filterMap Use.asOut).getLast?.getD c!"text")).Valid
    cases hg : ((us₁ ++ us₂).filterMap Use.asOut).getLast? with
    | none => show c!"text" ∈ validOutFmts; decide
    | some v =>
      obtain ⟨u, hu, e⟩ := List.mem_filterMap.1 (List.mem_of_getLast? hg)
      cases u with
      | out x => obtain rfl := Option.some.inj e; exact h6 _ hu
      | _ => cases e
  · intro l hl
    have hl : (if (us₁ ++ us₂).filterMap Use.asMod = [] then none else some ((us₁ ++ us₂).filterMap Use.asMod)) = some l := hl
    split at hl
    · cases hl
    · rename_i hne
      obtain rfl := Option.some.inj hl
      refine ⟨hne, ?_⟩
      intro v hv
      obtain ⟨u, hu, e⟩ := List.mem_filterMap.1 hv
      cases u with
      | mod x => obtain rfl := Option.some.inj e; exact h6 _ hu
      | _ => cases e

/-! ### help -/

theorem applyOpt_stop {a : CliArgs} {o : Opt} {v : Str} (h : applyOpt a o v = .error .help) : o = .help := by
  unfold applyOpt at h
  repeat' split at h
  all_goals first | rfl | (cases h; done)

theorem applyOpts_stop {l : List (Opt × Str)} : ∀ {a : CliArgs}, applyOpts a l = .error .help → ∃ p ∈ l, p.1 = .help := by
  induction l with
  | nil => intro a h; cases h
  | cons x l ih =>
    intro a h
    rw [applyOpts] at h
    cases hx : applyOpt a x.1 x.2 with
    | error e =>
      rw [hx] at h
      obtain rfl := Except.error.inj h
      exact ⟨x, List.mem_cons_self, applyOpt_stop hx⟩
    | ok a' =>
      rw [hx] at h
      obtain ⟨p, hp, e⟩ := ih h
      exact ⟨p, List.mem_cons_of_mem _ hp, e⟩

omit U in
theorem shortGroup_help (rest : Str) : ∀ (c : Char) (o : Opt), shortOpts.lookup c = some o →
    ((∃ p ∈ (shortGroup o rest).1, p.1 = .help) ∨ (shortGroup o rest).2 = .wants .help) → ∃ k s, c :: rest = List.replicate k 'd' ++ 'h' :: s := by
  have hh : ∀ (c : Char), shortOpts.lookup c = some .help → c = 'h' := by
    intro c h
    have : ∀ p ∈ shortOpts, p.2 = .help → p.1 = 'h' := by decide
    exact this _ (lookup_mem h) rfl
  induction rest with
  | nil =>
    intro c o hl h
    have : o = .help := by
      unfold shortGroup at h
      split at h
      · rcases h with ⟨p, hp, _⟩ | h
        · cases hp
        · injection h
      · rcases h with ⟨p, hp, e⟩ | h
        · simp only [List.mem_singleton] at hp
          rw [hp] at e
          exact e
        · cases h
    subst this
    exact ⟨0, [], by rw [hh c hl]; rfl⟩
  | cons d t ih =>
    intro c o hl h
    by_cases ho : o = .help
    · subst ho
      exact ⟨0, d :: t, by rw [hh c hl]; rfl⟩
    · rw [shortGroup] at h
      split at h
      · rcases h with ⟨p, hp, e⟩ | h
        · simp only [List.mem_singleton] at hp
          rw [hp] at e
          exact absurd e ho
        · cases h
      · rename_i ht
        split at h
        · rcases h with ⟨p, hp, _⟩ | h
          · cases hp
          · cases h
        · have hd : c = 'd' := by
            have : ∀ p ∈ shortOpts, p.2 ≠ .help → ¬ p.2.takesValue = true → p.1 = 'd' := by decide
            exact this _ (lookup_mem hl) ho ht
          split at h
          · rcases h with ⟨p, hp, e⟩ | h
            · simp only [List.mem_singleton] at hp
              rw [hp] at e
              exact absurd e ho
            · cases h
          · rename_i o' hl'
            have : ∃ k s, d :: t = List.replicate k 'd' ++ 'h' :: s := by
              apply ih d o' hl'
              rcases h with ⟨p, hp, e⟩ | h
              · rcases List.mem_cons.1 hp with hp | hp
                · rw [hp] at e
                  exact absurd e ho
                · exact .inl ⟨p, hp, e⟩
              · exact .inr h
            obtain ⟨k, s, e⟩ := this
            exact ⟨k + 1, s, by rw [hd, e]; rfl⟩

theorem parse_help (n : Nat) : ∀ (ws : List Str) (st : ArgState), ws.length ≤ n → parseWords ws st = .error .help → ∃ w ∈ ws, AsksHelp w := by
  induction n with
  | zero =>
    intro ws st hl h
    cases ws with
    | nil => cases h
    | cons w t => simp at hl
  | succ n ih =>
    intro ws st hl h
    cases ws with
    | nil => cases h
    | cons w t =>
      simp only [List.length_cons] at hl
      have hl' : t.length ≤ n := by omega
      have later : ∀ {t' : List Str} {st : ArgState}, t' <:+ t → parseWords t' st = .error .help → ∃ x ∈ w :: t, AsksHelp x := by
        intro t' st hs h
        obtain ⟨x, hx, e⟩ := ih t' _ (by have := hs.length_le; omega) h
        exact ⟨x, List.mem_cons_of_mem _ (hs.subset hx), e⟩
      rw [parseWords.eq_def] at h
      simp only at h
      cases hw : argWord w with
      | plain =>
        rw [hw] at h
        simp only at h
        split at h
        · exact later (List.suffix_refl _) h
        · exact later (List.suffix_refl _) h
      | unknown => rw [hw] at h; exact later (List.suffix_refl _) h
      | ambiguous => rw [hw] at h; cases h
      | long o value =>
        rw [hw] at h
        simp only at h
        obtain ⟨nm, hm, hcase⟩ := argWord_long_inv hw
        obtain ⟨hn1, hn2, full, hf1, hf2⟩ := longMatches_one hm
        have hno : o.takesValue = true → o ≠ .help := by
          rintro h1 rfl
          cases h1
        split at h
        · rename_i ht
          split at h
          · split at h
            · rename_i e he
              rw [Except.error.inj h] at he
              exact absurd (applyOpt_stop he) (hno ht)
            · exact later (List.suffix_refl _) h
          · split at h
            · cases h
            · split at h
              · split at h
                · rename_i e he
                  rw [Except.error.inj h] at he
                  exact absurd (applyOpt_stop he) (hno ht)
                · exact later (List.suffix_cons _ _) h
              · cases h
        · split at h
          · cases h
          · split at h
            · rename_i e he
              rw [Except.error.inj h] at he
              obtain rfl := applyOpt_stop he
              refine ⟨w, List.mem_cons_self, .inl ⟨nm, hn1, ?_, ?_⟩⟩
              · have : ∀ p ∈ longOpts, p.2 = .help → p.1 = c!"help" := by decide
                have := this _ hf1 rfl
                rw [← this]
                exact hf2
              · rcases hcase with ⟨_, e⟩ | ⟨v, e, _⟩
                · exact e
                · cases e
            · exact later (List.suffix_refl _) h
      | short o rest =>
        rw [hw] at h
        simp only at h
        obtain ⟨c, rfl, hc, hlk⟩ := argWord_short_inv hw
        have fin : ((∃ p ∈ (shortGroup o rest).1, p.1 = .help) ∨ (shortGroup o rest).2 = .wants .help) → ∃ x ∈ ('-' :: c :: rest) :: t, AsksHelp x := by
          intro hx
          obtain ⟨k, s, e⟩ := shortGroup_help rest c o hlk hx
          exact ⟨_, List.mem_cons_self, .inr ⟨k, s, by rw [e]⟩⟩
        split at h
        · cases h
        · split at h
          · rename_i e he
            rw [Except.error.inj h] at he
            exact fin (.inl (applyOpts_stop he))
          · exact later (List.suffix_refl _) h
        · split at h
          · rename_i e he
            rw [Except.error.inj h] at he
            exact fin (.inl (applyOpts_stop he))
          · exact later (List.suffix_refl _) h
        · rename_i o' hg
          split at h
          · cases h
          · split at h
            · split at h
              · rename_i e he
                rw [Except.error.inj h] at he
                obtain ⟨p, hp, e2⟩ := applyOpts_stop he
                rcases List.mem_append.1 hp with hp | hp
                · exact fin (.inl ⟨p, hp, e2⟩)
                · simp only [List.mem_singleton] at hp
                  rw [hp] at e2
                  exact fin (.inr (by rw [hg]; exact congrArg _ e2))
              · exact later (List.suffix_cons _ _) h
            · cases h

/-- C102.  The help text is shown only to those who ask for it … -/
theorem C102_help (argv : List Str) (h : parseArgv argv = .error .help) : ∃ w ∈ argv, AsksHelp w := by
  unfold parseArgv at h
  cases hp : parseWords argv {} with
  | error e =>
    rw [hp] at h
    rw [Except.error.inj h] at hp
    exact parse_help _ argv {} (Nat.le_refl _) hp
  | ok st =>
    rw [hp] at h
    simp only at h
    split at h
    · cases h
    · cases h

/-- … and to everyone whose options in front of `-h` or `--help` are all right, whatever follows. -/
theorem C102_helped (us : List Use) (ws files rest : List Str) (h : WritesAll us ws) (hv : ∀ u ∈ us, u.Valid) (hf : ∀ f ∈ files, PlainWord f)
    (w : Str) (hw : w = c!"-h" ∨ ∃ n, n ≠ [] ∧ n <+: c!"help" ∧ w = '-' :: '-' :: n) : parseArgv (ws ++ files ++ w :: rest) = .error .help := by
  have key : ∀ (st : ArgState), parseWords (w :: rest) st = .error .help := by
    intro st
    rcases hw with rfl | ⟨n, h1, h2, rfl⟩
    · have e : argWord c!"-h" = .short .help [] := rfl
      rw [parseWords.eq_def]
      simp only [e]
      rfl
    · have hn : ∀ n ∈ (c!"help").inits, n ≠ [] → longMatches n = [.help] ∧ '=' ∉ n := by decide
      obtain ⟨g1, g2⟩ := hn n ((List.mem_inits _ _).2 h2) h1
      rw [parseWords.eq_def]
      simp only [argWord_long g1 g2]
      rfl
  obtain ⟨op, _, e1⟩ := parse_groups h (files ++ w :: rest) {} hv
  unfold parseArgv
  rw [List.append_assoc, e1]
  by_cases hne : files = []
  · subst hne
    rw [List.nil_append, key]
  · rw [parse_files files _ _ hf (.inr rfl) hne, key]

/-- C102.  The help text lists exactly the values that are accepted: there is a line `--from v: …`, `--to v: …` or `--modifier v: …` if and
only if the program runs with these two words and a file. -/
theorem C102_listed (o v f : Str) (ho : o ∈ [c!"from", c!"to", c!"modifier"]) (hf : PlainWord f) (hv : ':' ∉ v) :
    (∃ d, c!"--" ++ o ++ c!" " ++ v ++ c!": " ++ d ∈ genEpilog.splitOn '\n') ↔ ∃ a, parseArgv [c!"--" ++ o, v, f] = .ok a := by
  have text : ∀ (o : Str) (fmts : List Str),
      (∀ l ∈ genEpilog.splitOn '\n', (c!"--" ++ o ++ c!" ").isPrefixOf l = true →
        (l.drop (c!"--" ++ o ++ c!" ").length).takeWhile (fun c => c != ':') ∈ fmts) →
      (∀ v ∈ fmts, ∃ l ∈ genEpilog.splitOn '\n', (c!"--" ++ o ++ c!" " ++ v ++ c!": ").isPrefixOf l = true) →
      ((∃ d, c!"--" ++ o ++ c!" " ++ v ++ c!": " ++ d ∈ genEpilog.splitOn '\n') ↔ v ∈ fmts) := by
    intro o fmts h1 h2
    constructor
    · rintro ⟨d, hd⟩
      have := h1 _ hd (List.isPrefixOf_iff_prefix.2 ⟨v ++ c!": " ++ d, by simp only [List.append_assoc]⟩)
      have e : c!"--" ++ o ++ c!" " ++ v ++ c!": " ++ d = (c!"--" ++ o ++ c!" ") ++ (v ++ ':' :: (' ' :: d)) := by
        simp only [List.append_assoc]
        rfl
      rw [e, List.drop_left] at this
      have hall : ∀ c ∈ v, (c != ':') = true := by
        intro c hc
        simp only [bne_iff_ne, ne_eq]
        rintro rfl
        exact hv hc
      rw [List.takeWhile_append_of_pos hall, List.takeWhile_cons_of_neg (by decide), List.append_nil] at this
      exact this
    · intro hm
      obtain ⟨l, hl, hp⟩ := h2 v hm
      obtain ⟨d, hd⟩ := List.isPrefixOf_iff_prefix.1 hp
      exact ⟨d, by rw [hd]; exact hl⟩
  have words : ∀ (u : Use) (o : Str), o ≠ [] → o <+: u.longName → u.value = some v → (u.Valid → v.head? ≠ some '-') →
      (u.Valid ↔ ∃ a, parseArgv [c!"--" ++ o, v, f] = .ok a) := by
    intro u o h1 h2 h3 h4
    have e : ∀ (hp : PlainWord v), parseWords [c!"--" ++ o, v, f] {} = goOn {} [f] (applyOpts ({} : ArgState).args ([u].map useOpt)) := fun hp =>
      parse_group (.longNext u o v h3 h1 h2 hp) [f] {}
    obtain ⟨f1, f2⟩ := value_takes h3
    constructor
    · intro hv'
      have hp : PlainWord v := .inl (h4 hv')
      refine ⟨_, (C102_parse _ _).2 ⟨[u], [c!"--" ++ o, v], [f], [], [], rfl, ?_, .nil, by simp, by simpa using hf, by simpa using hv', rfl⟩⟩
      exact .cons [u] [] _ [] (.longNext u o v h3 h1 h2 hp) .nil
    · rintro ⟨a, ha⟩
      obtain ⟨g1, g2⟩ := longMatches_use (u := u) h1 h2
      unfold parseArgv at ha
      cases hp : parseWords [c!"--" ++ o, v, f] {} with
      | error e => rw [hp] at ha; cases ha
      | ok st =>
        by_cases hpl : argWord v = .plain
        · rw [e ((argWord_plain v).1 hpl)] at hp
          rcases applyOpts_uses [u] ({} : ArgState).args with ⟨h, _⟩ | ⟨_, h⟩
          · exact h u (by simp)
          · rw [h] at hp
            cases hp
        · exfalso
          rw [parseWords.eq_def] at hp
          have ew : argWord (c!"--" ++ o) = .long (useOpt u).1 none := argWord_long g1 g2
          simp only [ew, f1, if_true] at hp
          rw [if_neg hpl] at hp
          cases hp
  simp only [List.mem_cons, List.not_mem_nil, or_false] at ho
  have nodash : ∀ (fmts : List Str), (∀ v ∈ fmts, v.head? ≠ some '-') → v ∈ fmts → v.head? ≠ some '-' := fun fmts h hm => h v hm
  rcases ho with rfl | rfl | rfl
  · rw [text c!"from" validInFmts (by decide +kernel) (by decide +kernel)]
    exact words (.from v) c!"from" (by decide) ⟨c!"fmt", rfl⟩ rfl (nodash validInFmts (by decide))
  · rw [text c!"to" validOutFmts (by decide +kernel) (by decide +kernel)]
    exact words (.out v) c!"to" (by decide) ⟨[], rfl⟩ rfl (nodash validOutFmts (by decide))
  · rw [text c!"modifier" validMods (by decide +kernel) (by decide +kernel)]
    exact words (.mod v) c!"modifier" (by decide) ⟨[], rfl⟩ rfl (nodash validMods (by decide))

end

section
attribute [local instance] Uni.ascii
set_option maxRecDepth 20000

/-- `-f abif -dtjson x.abif -5 --mod=consolidate -mIRV --width 80 --clean` -/
def argvExample : List Str :=
  [c!"-f", c!"abif", c!"-dtjson", c!"x.abif", c!"-5", c!"--mod=consolidate", c!"-mIRV", c!"--width", c!"80", c!"--clean"]

example : (parseArgv argvExample).toOption.map (fun a => (a.files, a.fromfmt)) = some ([c!"x.abif", c!"-5"], some c!"abif") := by decide +kernel
example : (parseArgv argvExample).toOption.map (fun a => (a.to, a.modifier)) = some (c!"json", some [c!"consolidate", c!"IRV"]) := by decide +kernel
example : (parseArgv argvExample).toOption.map (fun a => (a.width, a.cleanws, a.addScores)) = some (80, true, false) := by decide +kernel

/-- the hypotheses of `C102_parse`, `C102_helped` are met -/
example : WritesAll [.from c!"abif", .debug, .out c!"json"] [c!"-f", c!"abif", c!"-dtjson"] :=
  .cons [.from c!"abif"] _ [c!"-f", c!"abif"] _ (.letterNext (.from c!"abif") 'f' c!"abif" rfl rfl (.inl (by decide)))
    (.cons [.debug, .out c!"json"] [] [c!"-dtjson"] [] (.together _ 't' c!"json" [] (by decide) (.letterWith (.out c!"json") 't' c!"json" rfl rfl (by decide) (by decide))) .nil)

example : (parseArgv [c!"--to", c!"pdf", c!"x"]).toOption.isNone = true := by decide +kernel
example : (parseArgv [c!"x", c!"-d", c!"y"]).toOption.isNone = true := by decide +kernel
example : (parseArgv [c!"-t", c!"text"]).toOption.isNone = true := by decide +kernel
example : (parseArgv [c!"x", c!"--un"]).toOption.isNone = true := by decide +kernel
example : (parseArgv [c!"x", c!"--widt"]).toOption.isNone = true := by decide +kernel
example : parseArgv [c!"-f", c!"abif", c!"--he", c!"--nonsense"] = .error .help := rfl

end

end Verif.Props
