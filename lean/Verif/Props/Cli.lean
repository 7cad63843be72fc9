/-
C58, C67-C71: the command line.
-/
import Verif.Model.Cli
import Verif.Model.Util
import Verif.Lib.Prefs

set_option linter.unusedSimpArgs false
set_option linter.unusedVariables false

namespace Verif.Props
open Verif

section
variable [U : Uni]

/-! ### C58 -/

theorem afterLastDot_eq (stem ext : Str) (h : '.' ∉ ext) : afterLastDot (stem ++ '.' :: ext) = ext := by
  unfold afterLastDot
  have : (stem ++ '.' :: ext).reverse = ext.reverse ++ '.' :: stem.reverse := by simp
  rw [this]
  have hall : ∀ (l m : Str), '.' ∉ l → (l ++ '.' :: m).takeWhile (fun c => c != '.') = l := by
    intro l m hl
    induction l with
    | nil => rfl
    | cons c l ih =>
      have hc : c ≠ '.' := fun e => hl (by rw [e]; exact List.mem_cons_self)
      rw [List.cons_append, List.takeWhile_cons, if_pos (by simpa using hc), ih (fun h => hl (List.mem_cons_of_mem _ h))]
  rw [hall _ _ (by simpa using h)]
  simp

/-- the input formats of the program -/
def inputFormats : List Str := [c!"abif", c!"debtally", c!"jabmod", c!"nameq", c!"preflib", c!"sftxt", c!"widj"]

/-- C58, partial: without `-f` a run does exactly what it does with `-f` and the text after the last dot of the first
file name, or with `-f abif` if there is no dot; with `-f` the names of the files do not matter, only their texts; and a
format that is not one of the seven is refused, with a message, before anything is read.
Missing from the full C58: reading standard input without `-f` is not refused (`C58_refuted`). -/
theorem C58_partial (env : CliEnv) (a : CliArgs) :
    (∀ stem ext fs, a.fromfmt = none → a.files = (stem ++ '.' :: ext) :: fs → '.' ∉ ext →
      cliMain env a = cliMain env { a with fromfmt := some ext }) ∧
    (∀ f fs, a.fromfmt = none → a.files = f :: fs → '.' ∉ f →
      cliMain env a = cliMain env { a with fromfmt := some c!"abif" }) ∧
    (∀ x, a.fromfmt = some x → x ∉ inputFormats →
      (cliMain env a).out = c!"Error: Unsupported input format '" ++ x ++ c!"'\n" ∧ (cliMain env a).ending = .ok ()) ∧
    (∀ x f f', a.fromfmt = some x → a.files = [f] → f ≠ c!"-" → f' ≠ c!"-" → env.file f = env.file f' → env.file f ≠ none →
      cliMain env a = cliMain env { a with files := [f'] }) := by
  refine ⟨?_, ?_, ?_, ?_⟩
  · intro stem ext fs h1 h2 h3
    have e : cliFormat a = cliFormat { a with fromfmt := some ext } := by
      unfold cliFormat
      simp only
      rw [h1, h2]
      simp only
      rw [if_pos (by simp), afterLastDot_eq stem ext h3]
    unfold cliMain
    rw [e]
    rfl
  · intro f fs h1 h2 h3
    have e : cliFormat a = cliFormat { a with fromfmt := some c!"abif" } := by
      unfold cliFormat
      simp only
      rw [h1, h2]
      simp only
      rw [if_neg h3]
    unfold cliMain
    rw [e]
    rfl
  · intro x h1 h2
    have e : cliFormat a = .ok x := by unfold cliFormat; rw [h1]
    unfold cliMain
    rw [e]
    simp only
    rw [if_pos (show x ∉ validInFmts from h2)]
    exact ⟨rfl, rfl⟩
  · intro x f f' h1 h2 h3 h4 h5 h6
    have e : cliFormat a = .ok x := by unfold cliFormat; rw [h1]
    have e' : cliFormat { a with files := [f'] } = .ok x := by unfold cliFormat; rw [h1]
    have ei : cliInput env a = cliInput env { a with files := [f'] } := by
      unfold cliInput
      simp only
      rw [h2, if_neg (by simpa using h3), if_neg (by simpa using h4)]
      unfold readFiles
      rw [← h5]
      cases hf : env.file f with
      | none => exact absurd hf h6
      | some t => rfl
    unfold cliMain
    rw [e, e', ei]
    rfl

/-- C58 is false of the program for standard input: without `-f` it is not refused but read as abif. -/
theorem C58_refuted (env : CliEnv) (a : CliArgs) (h : a.files = [c!"-"]) (hf : a.fromfmt = none) :
    cliMain env a = cliMain env { a with fromfmt := some c!"abif" } :=
  (C58_partial env a).2.1 c!"-" [] hf h (by decide)

/-! ### C68: the input files -/

theorem readFiles_ok (env : CliEnv) (fs : List Str) (texts : List Str) (h : fs.map env.file = texts.map some) (s : Str) (bs : List Str) :
    readFiles env fs s bs = .ok ((s :: texts).getLast (List.cons_ne_nil _ _), bs ++ texts) := by
  induction fs generalizing texts s bs with
  | nil =>
    cases texts with
    | nil => simp [readFiles]
    | cons t ts => simp at h
  | cons f fs ih =>
    cases texts with
    | nil => simp at h
    | cons t ts =>
      simp only [List.map_cons, List.cons.injEq] at h
      unfold readFiles
      rw [h.1]
      simp only
      rw [ih ts h.2]
      simp

theorem readFiles_missing (env : CliEnv) (fs : List Str) (h : ∃ f ∈ fs, env.file f = none) (s : Str) (bs : List Str) :
    ∃ f ∈ fs, env.file f = none ∧ readFiles env fs s bs = .error f := by
  induction fs generalizing s bs with
  | nil => obtain ⟨f, hf, _⟩ := h; cases hf
  | cons f fs ih =>
    unfold readFiles
    cases hf : env.file f with
    | none => exact ⟨f, List.mem_cons_self, hf, rfl⟩
    | some t =>
      obtain ⟨g, hg, hn⟩ := h
      rcases List.mem_cons.1 hg with rfl | hg
      · rw [hf] at hn; cases hn
      · obtain ⟨g', h1, h2, h3⟩ := ih ⟨g, hg, hn⟩ t (bs ++ [t])
        exact ⟨g', List.mem_cons_of_mem _ h1, h2, h3⟩

/-- C68, partial.  A run with a file that does not exist prints its name and ends at once.  A run on one existing file
depends on its text only through that file (no other file, nor standard input).  With San Francisco format the first two
files are the two inputs.  Missing from the full C68: several files in another format, where all but the last are
ignored (`C68_refuted`). -/
theorem C68_partial (env : CliEnv) (a : CliArgs) (fmt : Str) (hfmt : a.fromfmt = some fmt) (hv : fmt ∈ inputFormats)
    (hd : a.files ≠ [c!"-"]) :
    ((∃ f ∈ a.files, env.file f = none) → ∃ f ∈ a.files, env.file f = none ∧
      (cliMain env a).out = c!"The file '" ++ f ++ c!"' doesn't exist.\n" ∧ (cliMain env a).ending = .error .systemExit) ∧
    (∀ env' : CliEnv, (∀ f ∈ a.files, env'.file f = env.file f) →
      cliMain env a = cliMain { env with file := env'.file, stdin := env'.stdin } a) ∧
    (∀ f g t u, fmt = c!"sftxt" → a.files = [f, g] → env.file f = some t → env.file g = some u →
      (∀ e, sfConvert false t u = .error e → (cliMain env a).ending = .error e) ∧
      (∀ m, sfConvert false t u = .ok m → a.modifier = none → a.to = c!"abif" →
        ∀ out, convertToAbif m = .ok out → (cliMain env a).out = out ++ c!"\n")) := by
  have e : cliFormat a = .ok fmt := by unfold cliFormat; rw [hfmt]
  refine ⟨?_, ?_, ?_⟩
  · intro h
    obtain ⟨f, h1, h2, h3⟩ := readFiles_missing env a.files h [] []
    refine ⟨f, h1, h2, ?_⟩
    have ei : cliInput env a = .error f := by unfold cliInput; rw [if_neg hd, h3]
    unfold cliMain
    rw [e]
    simp only
    rw [if_neg (show ¬ fmt ∉ validInFmts from fun h => h hv), ei]
    exact ⟨rfl, rfl⟩
  · intro env' h
    have hr : ∀ (fs : List Str), (∀ f ∈ fs, env'.file f = env.file f) → ∀ s bs,
        readFiles { env with file := env'.file, stdin := env'.stdin } fs s bs = readFiles env fs s bs := by
      intro fs
      induction fs with
      | nil => intros; rfl
      | cons f fs ih =>
        intro h s bs
        unfold readFiles
        simp only
        rw [h f List.mem_cons_self]
        cases env.file f with
        | none => rfl
        | some t => exact ih (fun g hg => h g (List.mem_cons_of_mem _ hg)) t _
    have ei : cliInput { env with file := env'.file, stdin := env'.stdin } a = cliInput env a := by
      unfold cliInput
      rw [if_neg hd, if_neg hd, hr a.files h]
    unfold cliMain
    rw [e, ei]
    rfl
  · intro f g t u hf hfs h1 h2
    have ei : cliInput env a = .ok (u, [t, u]) := by
      unfold cliInput
      rw [if_neg hd, hfs, readFiles_ok env [f, g] [t, u] (by simp [h1, h2])]
      rfl
    have em : cliModel env a fmt u [t, u] = sfConvert false t u := by
      subst hf
      unfold cliModel
      rw [if_neg (by decide), if_neg (by decide), if_neg (by decide), if_neg (by decide), if_neg (by decide), if_pos rfl]
    constructor
    · intro err herr
      unfold cliMain
      rw [e]
      simp only
      rw [if_neg (show ¬ fmt ∉ validInFmts from fun h => h hv), ei]
      simp only
      rw [em, herr]
    · intro m hm hmod hto out hout
      unfold cliMain
      rw [e]
      simp only
      rw [if_neg (show ¬ fmt ∉ validInFmts from fun h => h hv), ei]
      simp only
      rw [em, hm]
      simp only
      have hmods : cliModifiers a = [c!"candlist", c!"Copeland", c!"winlosstie"] := by unfold cliModifiers; rw [hmod]
      rw [hmods, if_neg (by decide)]
      have eo : cliOutput env a m = .ok out := by
        unfold cliOutput
        simp only
        rw [if_pos hto, hout]
      rw [eo]

/-- C68 is false of the program: in every format but San Francisco's, of several (existing) files only the last is
used. -/
theorem C68_refuted (env : CliEnv) (a : CliArgs) (fmt : Str) (hfmt : a.fromfmt = some fmt) (hne : fmt ≠ c!"sftxt")
    (fs : List Str) (last : Str) (hfs : a.files = fs ++ [last]) (hl : last ≠ c!"-") (hex : ∀ f ∈ a.files, env.file f ≠ none) :
    cliMain env a = cliMain env { a with files := [last] } := by
  obtain ⟨texts, ht⟩ : ∃ texts : List Str, a.files.map env.file = texts.map some := by
    have : ∀ l : List Str, (∀ f ∈ l, env.file f ≠ none) → ∃ texts : List Str, l.map env.file = texts.map some := by
      intro l
      induction l with
      | nil => intro _; exact ⟨[], rfl⟩
      | cons f l ih =>
        intro h
        obtain ⟨ts, hts⟩ := ih (fun g hg => h g (List.mem_cons_of_mem _ hg))
        cases hf : env.file f with
        | none => exact absurd hf (h f List.mem_cons_self)
        | some t => exact ⟨t :: ts, by simp [hf, hts]⟩
    exact this _ hex
  obtain ⟨t, htl⟩ : ∃ t, env.file last = some t := by
    cases h : env.file last with
    | none => exact absurd h (hex last (by rw [hfs]; simp))
    | some t => exact ⟨t, rfl⟩
  have hlast : ([] :: texts).getLast (List.cons_ne_nil _ _) = t := by
    have h1 : texts.map some = fs.map env.file ++ [some t] := by rw [← ht, hfs]; simp [htl]
    have h3 : ∃ ts, texts = ts ++ [t] := by
      rcases List.eq_nil_or_concat texts with e | ⟨ts, x, e⟩
      · rw [e] at h1; simp at h1
      · rw [e, List.concat_eq_append, List.map_append] at h1
        have := (List.append_inj' h1 rfl).2
        simp at this
        exact ⟨ts, by rw [e, this, List.concat_eq_append]⟩
    obtain ⟨ts, rfl⟩ := h3
    exact List.getLast_append (l := [] :: ts) ..
  have hd : a.files ≠ [c!"-"] := by
    intro h
    rw [hfs] at h
    have := congrArg List.getLast? h
    simp at this
    exact hl this
  have e : cliFormat a = .ok fmt := by unfold cliFormat; rw [hfmt]
  have e' : cliFormat { a with files := [last] } = .ok fmt := by unfold cliFormat; rw [hfmt]
  have ei : cliInput env a = .ok (t, texts) := by
    unfold cliInput
    rw [if_neg hd, readFiles_ok env a.files texts ht, hlast]
    rfl
  have ei' : cliInput env { a with files := [last] } = .ok (t, [t]) := by
    unfold cliInput
    rw [if_neg (by simpa using hl), readFiles_ok env [last] [t] (by simp [htl])]
    rfl
  have em : ∀ b b', cliModel env a fmt t b = cliModel env { a with files := [last] } fmt t b' := by
    intro b b'
    unfold cliModel
    simp only [if_neg hne]
    rfl
  unfold cliMain
  rw [e, e']
  simp only
  rw [ei, ei']
  simp only
  rw [em texts [t]]
  rfl

/-- C68: San Francisco input from standard input, or from a single file, fails. -/
theorem C68_sf_one (env : CliEnv) (a : CliArgs) (hfmt : a.fromfmt = some c!"sftxt") (f : Str) (hfs : a.files = [f])
    (hex : f ≠ c!"-" → env.file f ≠ none) : (cliMain env a).ending = .error .indexError := by
  have e : cliFormat a = .ok c!"sftxt" := by unfold cliFormat; rw [hfmt]
  have ei : ∃ s b, b.length ≤ 1 ∧ cliInput env a = .ok (s, b) := by
    unfold cliInput
    by_cases hd : f = c!"-"
    · rw [if_pos (by rw [hfs, hd])]
      exact ⟨_, _, by simp, rfl⟩
    · rw [if_neg (by rw [hfs]; simpa using hd), hfs]
      unfold readFiles
      cases hf : env.file f with
      | none => exact absurd hf (hex hd)
      | some t => exact ⟨t, [] ++ [t], by simp, rfl⟩
  obtain ⟨s, b, hb, ei⟩ := ei
  unfold cliMain
  rw [e]
  simp only
  rw [if_neg (by decide), ei]
  simp only
  have em : cliModel env a c!"sftxt" s b = .error .indexError := by
    unfold cliModel
    rw [if_neg (by decide), if_neg (by decide), if_neg (by decide), if_neg (by decide), if_neg (by decide), if_pos rfl]
    match b, hb with
    | [], _ => rfl
    | [x], _ => rfl
    | _ :: _ :: _, h => simp at h
  rw [em]

/-! ### C69: modifiers are a set -/

/-- C69: only which modifiers are given matters, not their order or how often. -/
theorem C69_modifiers (env : CliEnv) (a : CliArgs) (ms ms' : List Str) (hne : ms ≠ []) (h : ∀ x, x ∈ ms ↔ x ∈ ms') :
    cliMain env { a with modifier := some ms } = cliMain env { a with modifier := some ms' } := by
  have hne' : ms' ≠ [] := by
    obtain ⟨x, t, rfl⟩ := List.exists_cons_of_ne_nil hne
    intro e
    have := (h x).1 List.mem_cons_self
    rw [e] at this
    cases this
  have e1 : cliModifiers { a with modifier := some ms } = ms := by
    unfold cliModifiers
    obtain ⟨x, t, rfl⟩ := List.exists_cons_of_ne_nil hne
    rfl
  have e2 : cliModifiers { a with modifier := some ms' } = ms' := by
    unfold cliModifiers
    obtain ⟨x, t, rfl⟩ := List.exists_cons_of_ne_nil hne'
    rfl
  have hsec : ∀ n t, section? ms n t = section? ms' n t := by
    intro n t
    unfold section?
    by_cases hn : n ∈ ms
    · rw [if_pos hn, if_pos ((h n).1 hn)]
    · rw [if_neg hn, if_neg (fun hh => hn ((h n).2 hh))]
  have hm : ∀ fmt s b, cliModel env { a with modifier := some ms } fmt s b = cliModel env { a with modifier := some ms' } fmt s b := by
    intro fmt s b
    unfold cliModel
    rw [e1, e2]
    simp only [h c!"jcomments"]
  have ho : ∀ m, cliOutput env { a with modifier := some ms } m = cliOutput env { a with modifier := some ms' } m := by
    intro m
    unfold cliOutput
    rw [e1, e2]
    have ht : cliText env ms a.width m = cliText env ms' a.width m := by
      unfold cliText
      simp only [hsec]
    have hj : cliJson env a.to ms m = cliJson env a.to ms' m := by
      unfold cliJson
      simp only [h c!"IRV", h c!"pairwise", h c!"STAR"]
    simp only [ht, hj, h c!"svg"]
  have hc : ∀ m, (if c!"consolidate" ∈ cliModifiers { a with modifier := some ms } then consolidate m else m) =
      (if c!"consolidate" ∈ cliModifiers { a with modifier := some ms' } then consolidate m else m) := by
    intro m
    rw [e1, e2]
    simp only [h c!"consolidate"]
  unfold cliMain
  have ef : cliFormat { a with modifier := some ms } = cliFormat { a with modifier := some ms' } := rfl
  have ei : cliInput env { a with modifier := some ms } = cliInput env { a with modifier := some ms' } := rfl
  rw [ef, ei]
  simp only [hm, hc, ho]

/-- C69: without modifiers the candidate list, the pairwise table and the Copeland winner are shown. -/
theorem C69_default (env : CliEnv) (a : CliArgs) (h : a.modifier = none) :
    cliMain env a = cliMain env { a with modifier := some [c!"candlist", c!"winlosstie", c!"Copeland"] } := by
  have : cliMain env a = cliMain env { a with modifier := some [c!"candlist", c!"Copeland", c!"winlosstie"] } := by
    have e : cliModifiers a = cliModifiers { a with modifier := some [c!"candlist", c!"Copeland", c!"winlosstie"] } := by
      unfold cliModifiers
      rw [h]
    unfold cliMain cliModel cliOutput
    rw [e]
    rfl
  rw [this]
  apply C69_modifiers env a
  · simp
  · intro x
    simp only [List.mem_cons, List.not_mem_nil, or_false]
    constructor
    · rintro (h | h | h) <;> simp [h]
    · rintro (h | h | h) <;> simp [h]

/-! ### C70: the sections of the text output -/

/-- the modifiers that add a section to the text output, in the order of the sections -/
def textSections : List Str := [c!"candlist", c!"winlosstie", c!"pairwise", c!"IRV", c!"score", c!"STAR", c!"Copeland"]

/-- the result of producing texts one after another and joining them; the first error ends it -/
def produceAll : List (Except PyErr Str) → Except PyErr Str
  | [] => .ok []
  | x :: xs => do let s ← x; let t ← produceAll xs; .ok (s ++ t)

theorem cliText_single (env : CliEnv) (w : Int) (m : Jabmod) :
    cliText env [c!"candlist"] w m = .ok (candlistText m) ∧
    cliText env [c!"winlosstie"] w m = texttablePairwise env.draw m ∧
    cliText env [c!"pairwise"] w m = (env.drawWide w (gridRows (pairwiseCount m))).bind postprocess ∧
    cliText env [c!"IRV"] w m = (irvDict env.sched m).bind irvReport ∧
    cliText env [c!"score"] w m = scoreReport m ∧
    cliText env [c!"STAR"] w m = starSection m ∧
    cliText env [c!"Copeland"] w m = (fullCopecount m).bind (copelandReport m.candidates) := by
  have key : ∀ x : Except PyErr Str, (x >>= fun s => Except.ok s) = x := by
    intro x; cases x <;> rfl
  refine ⟨?_, ?_, ?_, ?_, ?_, ?_, ?_⟩ <;>
  · unfold cliText section?
    simp [ok_bind, key]

/-- C70: the text output is, for every set of modifiers, the outputs of the given ones alone, in the fixed order of the
sections. -/
theorem C70_sections (env : CliEnv) (mods : List Str) (w : Int) (m : Jabmod) :
    cliText env mods w m = produceAll ((textSections.filter (fun x => decide (x ∈ mods))).map (fun x => cliText env [x] w m)) := by
  obtain ⟨h1, h2, h3, h4, h5, h6, h7⟩ := cliText_single env w m
  have step : ∀ (x : Str) (xs : List Str) (t : Except PyErr Str), cliText env [x] w m = t →
      produceAll (((x :: xs).filter (fun x => decide (x ∈ mods))).map (fun x => cliText env [x] w m)) =
      (section? mods x t >>= fun s => produceAll ((xs.filter (fun x => decide (x ∈ mods))).map (fun x => cliText env [x] w m)) >>= fun u => .ok (s ++ u)) := by
    intro x xs t ht
    unfold section?
    by_cases hx : x ∈ mods
    · rw [List.filter_cons_of_pos (by simpa using hx), List.map_cons, ht, if_pos hx]
      rfl
    · rw [List.filter_cons_of_neg (by simpa using hx), if_neg hx, ok_bind]
      have key : ∀ x : Except PyErr Str, (x >>= fun s => Except.ok ([] ++ s)) = x := by
        intro x; cases x <;> rfl
      rw [key]
  have assoc : ∀ {α β γ : Type} (x : Except PyErr α) (f : α → Except PyErr β) (g : β → Except PyErr γ),
      (x >>= f >>= g) = (x >>= fun a => f a >>= g) := by
    intro α β γ x f g; cases x <;> rfl
  unfold textSections
  rw [step _ _ _ h1, step _ _ _ h2, step _ _ _ h3, step _ _ _ h4, step _ _ _ h5, step _ _ _ h6, step _ _ _ h7]
  unfold cliText
  simp only [assoc, ok_bind, List.filter_nil, List.map_nil, produceAll, List.append_nil, List.append_assoc]

/-! ### C67: when the STAR section has results -/

/-- C67, what the program does in every case: only the first candidate of the first ballot of the model counts.
If it has a rating (a nonzero number or a nonempty string) the STAR section is the STAR report; if it has none, the
message that there are no scores; if the ballot names nobody, or there is no ballot, the run ends with an
`IndexError`. -/
theorem C67_exact (m : Jabmod) :
    (m.votelines = [] → starSection m = .error .indexError) ∧
    (∀ (vl : Voteline) (rest : List Voteline), m.votelines = vl :: rest →
      (vl.prefs = [] → starSection m = .error .indexError) ∧
      ∀ (c : Str) (p : Pref) (others : Dict Str Pref), vl.prefs = (c, p) :: others →
        (ratingTruthy p.rating = true → starSection m = starReport m) ∧
        (ratingTruthy p.rating = false →
          starSection m = .ok c!"No stars/scores available.  Please use --add-scores to extrapolate score from ranks.")) := by
  refine ⟨?_, ?_⟩
  · intro h
    unfold starSection hasRatings
    rw [h]; rfl
  · intro vl rest h
    refine ⟨?_, ?_⟩
    · intro hp
      unfold starSection hasRatings
      rw [h]; simp only; rw [hp]; rfl
    · intro c p others hp
      have e : hasRatings m = .ok (ratingTruthy p.rating) := by
        unfold hasRatings
        rw [h]
        simp only
        rw [hp]
      refine ⟨?_, ?_⟩ <;> intro hr <;> unfold starSection <;> rw [e, hr] <;> rfl

/-- C67, partial: if every ballot entry has a rating (a nonzero number or a nonempty string) the STAR section is the
STAR report; if no entry has one it is the message that there are no scores.  Missing from the full C67: models where
only some entries have a rating (`C67_refuted`; `C67_exact` says what happens). -/
theorem C67_partial (m : Jabmod) (hv : m.votelines ≠ []) (hp : ∀ vl ∈ m.votelines, vl.prefs ≠ []) :
    ((∀ vl ∈ m.votelines, ∀ kp ∈ vl.prefs, ratingTruthy kp.2.rating = true) → starSection m = starReport m) ∧
    ((∀ vl ∈ m.votelines, ∀ kp ∈ vl.prefs, ratingTruthy kp.2.rating = false) →
      starSection m = .ok c!"No stars/scores available.  Please use --add-scores to extrapolate score from ranks.") := by
  obtain ⟨vl, rest, hm⟩ := List.exists_cons_of_ne_nil hv
  have hvl : vl ∈ m.votelines := by rw [hm]; exact List.mem_cons_self
  obtain ⟨kp, t, hk⟩ := List.exists_cons_of_ne_nil (hp vl hvl)
  have hkp : kp ∈ vl.prefs := by rw [hk]; exact List.mem_cons_self
  have e : hasRatings m = .ok (ratingTruthy kp.2.rating) := by
    unfold hasRatings
    rw [hm]
    simp only
    rw [hk]
  constructor
  · intro h
    unfold starSection
    rw [e, h vl hvl kp hkp]
    rfl
  · intro h
    unfold starSection
    rw [e, h vl hvl kp hkp]
    rfl

/-! ### C71: convert_text_to_abif -/

/-- C71: the format `abif` of `convert_text_to_abif` is the conversion of C60, on the first text only. -/
theorem C71_abif (loads : Str → Except PyErr Jabmod) (sha : Str → Str) (text : Str) (more : List Str) (cw ar : Bool)
    (md : List (Str × Str)) :
    textToAbif loads sha c!"abif" (text :: more) cw ar md = abifTextToAbif cw ar text := by
  unfold textToAbif textModel abifTextToAbif blobAt
  simp only [List.getElem?_cons_zero, ok_bind, if_pos]
  cases convertAbif cw ar false text with
  | ok m => rfl
  | error e => cases e <;> rfl

/-- C71: a format that is not supported is refused with `ABIFVotelineException` (there is a text, as the interface asks). -/
theorem C71_unsupported (loads : Str → Except PyErr Jabmod) (sha : Str → Str) (fmt text : Str) (more : List Str) (cw ar : Bool)
    (md : List (Str × Str)) (h : fmt ∉ [c!"abif", c!"debtally", c!"jabmod", c!"preflib", c!"sftxt", c!"widj"]) :
    textToAbif loads sha fmt (text :: more) cw ar md = .error .voteline := by
  simp only [List.mem_cons, List.not_mem_nil, or_false, not_or] at h
  obtain ⟨h1, h2, h3, h4, h5, h6⟩ := h
  unfold textToAbif textModel blobAt
  simp only [List.getElem?_cons_zero, ok_bind]
  rw [if_neg h1, if_neg h2, if_neg h3, if_neg h4, if_neg h5, if_neg h6]
  rfl

/-- C71 is false of the program for preflib: the metadata passed in are dropped. -/
theorem C71_refuted (loads : Str → Except PyErr Jabmod) (sha : Str → Str) (blobs : List Str) (cw ar : Bool)
    (md : List (Str × Str)) :
    textToAbif loads sha c!"preflib" blobs cw ar md = textToAbif loads sha c!"preflib" blobs cw ar [] := by
  unfold textToAbif textModel
  rfl

/-- C49, the command line: the widj format never works.  With the input there, the run ends with the `NameError` of the
converter (which is given the text instead of the parsed JSON, but does not get that far). -/
theorem C49_cli (env : CliEnv) (a : CliArgs) (h : a.fromfmt = some c!"widj") :
    (a.files = [c!"-"] ∨ (∀ f ∈ a.files, env.file f ≠ none) → cliMain env a = ⟨[], .error .nameError⟩) ∧
    (∃ e, (cliMain env a).ending = .error e) := by
  have e : cliFormat a = .ok c!"widj" := by unfold cliFormat; rw [h]
  have em : ∀ s b, cliModel env a c!"widj" s b = .error .nameError := by
    intro s b
    unfold cliModel
    rw [if_neg (by decide), if_neg (by decide), if_neg (by decide), if_neg (by decide), if_neg (by decide), if_neg (by decide), if_pos rfl]
    rfl
  unfold cliMain
  rw [e]
  simp only
  rw [if_neg (by decide)]
  constructor
  · intro hf
    have : ∃ q, cliInput env a = .ok q := by
      unfold cliInput
      by_cases h1 : a.files = [c!"-"]
      · rw [if_pos h1]; exact ⟨_, rfl⟩
      · rw [if_neg h1]
        have hf := hf.resolve_left h1
        obtain ⟨texts, ht⟩ : ∃ texts : List Str, a.files.map env.file = texts.map some := by
          generalize a.files = fs at hf
          induction fs with
          | nil => exact ⟨[], rfl⟩
          | cons f fs ih =>
            obtain ⟨texts, ht⟩ := ih (fun g hg => hf g (by simp [hg]))
            obtain ⟨t, ht'⟩ := Option.ne_none_iff_exists'.1 (hf f (by simp))
            exact ⟨t :: texts, by simp [ht, ht']⟩
        exact ⟨_, readFiles_ok env a.files texts ht [] []⟩
    obtain ⟨q, hq⟩ := this
    rw [hq]
    obtain ⟨s, b⟩ := q
    simp only
    rw [em]
  · cases cliInput env a with
    | error f => exact ⟨_, rfl⟩
    | ok q =>
      obtain ⟨s, b⟩ := q
      simp only
      rw [em]
      exact ⟨_, rfl⟩

end

/-! ### examples -/

section
attribute [local instance] Uni.ascii
set_option maxRecDepth 40000

/-- sets are iterated as listed and the first of several is chosen -/
def exSched : Sched :=
  { setOrder := fun _ l => l, choice := fun _ l => l.headD []
    setOrder_perm := fun _ _ => List.Perm.refl _
    choice_mem := fun _ l h => by cases l with
      | nil => exact absurd rfl h
      | cons x t => exact List.mem_cons_self }

/-- an environment with two files -/
def exCli : CliEnv :=
  { stdin := c!"1:A>B\n"
    file := fun f => if f = c!"a.abif" then some c!"1:A>B\n" else if f = c!"b.abif" then some c!"2:C>D\n" else none
    loads := fun _ => .error .valueError, sha := fun s => s
    sched := exSched
    draw := fun _ => .ok [], drawWide := fun _ _ => .ok [], pipe := fun _ _ => .ok []
    html := fun _ _ _ => .ok [], listing := { order := fun _ l => l, perm := fun _ _ => List.Perm.refl _ } }

/-- the abif text a run prints for `-t abif` on these files -/
def exRun (fmt : Option Str) (files : List Str) : Str :=
  (cliMain exCli { files := files, fromfmt := fmt, to := c!"abif", modifier := some [c!"candlist"] }).out

-- C58: the format is guessed from the name; standard input is read as abif
example : exRun none [c!"a.abif"] = exRun (some c!"abif") [c!"a.abif"] := by decide +kernel
example : exRun none [c!"-"] = exRun none [c!"a.abif"] := by decide +kernel
example : exRun none [c!"a.abif"] =
    c!"#------- metadata -------\n{ballotcount: 1}\n#------ candlines ------\n=A:[A]\n=B:[B]\n#------- votelines ------\n1:A>B\n\n" := by
  decide +kernel
-- C68: only the last of two files is used
example : exRun none [c!"a.abif", c!"b.abif"] = exRun none [c!"b.abif"] ∧
    exRun none [c!"a.abif", c!"b.abif"] ≠ exRun none [c!"a.abif"] := by decide +kernel
example : exRun none [c!"a.abif", c!"x.abif"] = c!"The file 'x.abif' doesn't exist.\n" := by decide +kernel

/-- C67 is false of the program: with `2:A>B/5` the model has a rating but the STAR section says there are none. -/
theorem C67_refuted : ∃ m, convertAbif false false false c!"2:A>B/5\n" = .ok m ∧
    (∃ vl ∈ m.votelines, ∃ kp ∈ vl.prefs, ratingTruthy kp.2.rating = true) ∧
    starSection m = .ok c!"No stars/scores available.  Please use --add-scores to extrapolate score from ranks." := by
  have h : (convertAbif false false false c!"2:A>B/5\n").toOption.map (fun m =>
      (m.votelines.any (fun vl => vl.prefs.any (fun kp => ratingTruthy kp.2.rating)), (starSection m).toOption)) =
      some (true, some c!"No stars/scores available.  Please use --add-scores to extrapolate score from ranks.") := by
    decide +kernel
  cases hm : convertAbif false false false c!"2:A>B/5\n" with
  | error e => rw [hm] at h; cases h
  | ok m =>
    rw [hm] at h
    simp only [Except.toOption, Option.map_some, Option.some.injEq, Prod.mk.injEq] at h
    refine ⟨m, rfl, ?_, ?_⟩
    · obtain ⟨vl, h1, h2⟩ := List.any_eq_true.1 h.1
      obtain ⟨kp, h3, h4⟩ := List.any_eq_true.1 h2
      exact ⟨vl, h1, kp, h3, h4⟩
    · cases hs : starSection m with
      | error e => rw [hs] at h; cases h.2
      | ok x => rw [hs] at h; simp only [Option.some.injEq] at h; rw [h.2]

-- C67: all entries rated; none rated
example : (convertAbif false false false c!"2:A/5>B/3\n").toOption.map (fun m =>
    (m.votelines.all (fun vl => vl.prefs.all (fun kp => ratingTruthy kp.2.rating)), (starReport m).toOption.isSome)) =
    some (true, true) := by decide +kernel
example : (convertAbif false false false c!"2:A>B\n").toOption.map (fun m =>
    m.votelines.any (fun vl => vl.prefs.any (fun kp => ratingTruthy kp.2.rating))) = some false := by decide +kernel
-- C69, C70
example : (cliMain exCli { files := [c!"a.abif"], modifier := some [c!"Copeland", c!"candlist", c!"Copeland"] }).out =
    (cliMain exCli { files := [c!"a.abif"], modifier := some [c!"candlist", c!"Copeland"] }).out := by decide +kernel
-- C71
example : (textToAbif (fun _ => .error .valueError) (fun s => s) c!"csv" [c!"1:A"] false false []).toOption = none := by decide +kernel

end
end Verif.Props
