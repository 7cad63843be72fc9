/-
C96: the stand-alone programs of the library modules agree with `abiftool`.
-/
import Verif.Model.Scripts
import Verif.Props.CliTable
import Verif.Props.Cli
import Verif.Props.Parse
import Verif.Props.Json
import Verif.Lib.JsonOut
import Verif.Lib.ExportFile

set_option linter.unusedSimpArgs false
set_option linter.unusedSectionVars false

namespace Verif.Props
open Spec
section
variable [U : Uni]

/-- `abiftool -f FMT -t TO -m MOD ... FILE`, with `--add-scores` if `add` -/
def abiftoolRun (env : CliEnv) (fmt «to» : Str) (mods : List Str) (add : Bool) (file : Str) : CliResult :=
  cliMain env { files := [file], fromfmt := some fmt, «to» := «to», modifier := some mods, addScores := add }

theorem printed_inj {a b : Except PyErr Str} : printed a = printed b ↔ a = b := by
  constructor
  · intro h
    cases a <;> cases b
    · injection h with _ h2
      injection h2 with h2
      rw [h2]
    · injection h with _ h2
      cases h2
    · injection h with _ h2
      cases h2
    · injection h with h1 _
      rw [List.append_cancel_right h1]
  · rintro rfl; rfl

/-- a run on one file that exists -/
theorem abiftoolRun_gen (env : CliEnv) (fmt «to» : Str) (mods : List Str) (add : Bool) (file text : Str) (hf : env.file file = some text)
    (hd : file ≠ c!"-") (hfmt : fmt ∈ validInFmts) (hne : mods ≠ []) :
    abiftoolRun env fmt «to» mods add file =
      printed ((cliModel env { files := [file], fromfmt := some fmt, «to» := «to», modifier := some mods, addScores := add } fmt text [text]).bind
        (fun m => cliOutput env { files := [file], fromfmt := some fmt, «to» := «to», modifier := some mods, addScores := add }
          (if c!"consolidate" ∈ mods then consolidate m else m))) := by
  unfold abiftoolRun cliMain cliFormat
  simp only
  rw [if_neg (fun h => h hfmt)]
  have hi : cliInput env { files := [file], fromfmt := some fmt, «to» := «to», modifier := some mods, addScores := add } = .ok (text, [text]) := by
    unfold cliInput
    rw [if_neg (by simpa using hd)]
    simp only [readFiles, hf]
    rfl
  rw [hi]
  simp only
  have hm : ∀ x : CliArgs, x.modifier = some mods → cliModifiers x = mods := by
    intro x hx
    unfold cliModifiers
    rw [hx]
    cases mods with
    | nil => exact absurd rfl hne
    | cons a l => rfl
  rw [hm _ rfl]
  cases cliModel env { files := [file], fromfmt := some fmt, «to» := «to», modifier := some mods, addScores := add } fmt text [text] with
  | error e => rfl
  | ok m =>
    simp only [Except.bind]
    cases cliOutput env { files := [file], fromfmt := some fmt, «to» := «to», modifier := some mods, addScores := add }
      (if c!"consolidate" ∈ mods then consolidate m else m) <;> rfl

theorem abiftoolRun_eq (env : CliEnv) (fmt «to» : Str) (mods : List Str) (add : Bool) (file text : Str) (hf : env.file file = some text)
    (hd : file ≠ c!"-") (hfmt : fmt ∈ validInFmts) (hne : mods ≠ []) (hc : c!"consolidate" ∉ mods) :
    abiftoolRun env fmt «to» mods add file =
      printed ((cliModel env { files := [file], fromfmt := some fmt, «to» := «to», modifier := some mods, addScores := add } fmt text [text]).bind
        (cliOutput env { files := [file], fromfmt := some fmt, «to» := «to», modifier := some mods, addScores := add })) := by
  rw [abiftoolRun_gen env _ _ _ _ _ _ hf hd hfmt hne]
  simp only [hc, if_false]

theorem abiftoolRun_abif (env : CliEnv) («to» : Str) (mods : List Str) (add : Bool) (file text : Str) (hf : env.file file = some text)
    (hd : file ≠ c!"-") (hne : mods ≠ []) (hc : c!"consolidate" ∉ mods) (hj : c!"jcomments" ∉ mods) :
    abiftoolRun env c!"abif" «to» mods add file =
      printed ((convertAbif false add false text).bind
        (cliOutput env { files := [file], fromfmt := some c!"abif", «to» := «to», modifier := some mods, addScores := add })) := by
  rw [abiftoolRun_eq env _ _ _ _ _ _ hf hd (by decide) hne hc]
  unfold cliModel
  rw [if_pos rfl]
  have hm : cliModifiers { files := [file], fromfmt := some c!"abif", «to» := «to», modifier := some mods, addScores := add } = mods := by
    unfold cliModifiers
    cases mods with
    | nil => exact absurd rfl hne
    | cons a l => rfl
  rw [hm]
  simp only [hj, decide_false]

/-- C96, irvtally: `irvtally FILE` prints (or fails as) `abiftool -f abif -t text -m candlist -m IRV FILE`, and
`irvtally -j FILE` as `abiftool -f abif -t irvjson FILE`, whatever the modifiers other than `consolidate` and `jcomments`. -/
theorem C96_irv (env : CliEnv) (file text : Str) (hf : env.file file = some text) (hd : file ≠ c!"-") :
    irvMain env false file = abiftoolRun env c!"abif" c!"text" [c!"candlist", c!"IRV"] false file ∧
    (∀ mods, mods ≠ [] → c!"consolidate" ∉ mods → c!"jcomments" ∉ mods →
      irvMain env true file = abiftoolRun env c!"abif" c!"irvjson" mods false file) := by
  constructor
  · rw [abiftoolRun_abif env _ _ _ _ _ hf hd (by decide) (by decide) (by decide)]
    unfold irvMain scriptInput
    rw [hf]
    simp only [ok_bind]
    congr 1
    cases convertAbif false false false text with
    | error e => rfl
    | ok m =>
      simp only [ok_bind, Except.bind]
      show _ = cliText env [c!"candlist", c!"IRV"] 160 m
      unfold cliText section?
      cases irvDict env.sched m with
      | error e => rfl
      | ok d =>
        simp only [ok_bind]
        cases h : irvReport d with
        | error e => simp [h, Except.bind, error_bind, ok_bind]
        | ok rep => simp [h, Except.bind, ok_bind]
  · intro mods hne hc hj
    rw [abiftoolRun_abif env _ _ _ _ _ hf hd hne hc hj]
    unfold irvMain scriptInput
    rw [hf]
    simp only [ok_bind]
    congr 1

/-- what a section of the file report looks like -/
def reportHead (file text : Str) : Str :=
  c!"======= ABIF FILE =======\n\n============================\n" ++ file ++ c!"\n-------------------------\n" ++ text ++
    c!"\n======= PAIRWISE RESULTS =======\n\n"

/-- C96, pairwise: `pairwise FILE` prints the name and the text of the file and then what
`abiftool -f abif -t text -m pairwise FILE` prints; it fails exactly when that run fails, the same way. -/
theorem C96_pairwise (env : CliEnv) (file text : Str) (hf : env.file file = some text) (hd : file ≠ c!"-") :
    (∀ out, abiftoolRun env c!"abif" c!"text" [c!"pairwise"] false file = ⟨out, .ok ()⟩ →
      pairwiseMain env file = ⟨reportHead file text ++ out, .ok ()⟩) ∧
    (∀ out e, abiftoolRun env c!"abif" c!"text" [c!"pairwise"] false file = ⟨out, .error e⟩ →
      pairwiseMain env file = ⟨out, .error e⟩) := by
  rw [abiftoolRun_abif env _ _ _ _ _ hf hd (by decide) (by decide) (by decide)]
  unfold pairwiseMain scriptInput
  rw [hf]
  simp only [ok_bind]
  cases convertAbif false false false text with
  | error e => exact ⟨fun out h => (by cases h), fun out e' h => h⟩
  | ok m =>
    rw [ok_bind]
    have ht : cliOutput env { files := [file], fromfmt := some c!"abif", «to» := c!"text", modifier := some [c!"pairwise"] } m =
        (env.drawWide 160 (gridRows (pairwiseCount m))).bind postprocess := (cliText_single env 160 m).2.2.1
    have e : (Except.ok m : Except PyErr Jabmod).bind (cliOutput env { files := [file], fromfmt := some c!"abif", «to» := c!"text", modifier := some [c!"pairwise"], addScores := false }) =
        (env.drawWide 160 (gridRows (pairwiseCount m))).bind postprocess := ht
    rw [e]
    cases (env.drawWide 160 (gridRows (pairwiseCount m))).bind postprocess with
    | error e => exact ⟨fun out h => (by cases h), fun out e' h => h⟩
    | ok g =>
      rw [ok_bind]
      refine ⟨fun out h => ?_, fun out e' h => (by cases h)⟩
      have : out = g ++ c!"\n" := by injection h with h _; exact h.symm
      subst this
      unfold printed reportHead headerfy
      simp

/-- C96, scorestar: `scorestar FILE` prints the text of the file and then, under their headings, what
`abiftool -f abif --add-scores FILE` prints with `-t jabmod`, the score result as JSON, what it prints with
`-t json -m STAR` and with `-t text -m score`, the STAR report, and the scaled scores.  The STAR report is what
`-t text -m STAR` prints if the first entry of the first ballot has a rating other than zero. -/
theorem C96_score (env : CliEnv) (dumpScaled : ScaledResult → Except PyErr Str) (file text out : Str) (hf : env.file file = some text)
    (hd : file ≠ c!"-") (h : scoreMain env dumpScaled file = ⟨out, .ok ()⟩) :
    ∃ (model score star scores stars scaled : Str) (m : Jabmod),
      abiftoolRun env c!"abif" c!"jabmod" [c!"STAR"] true file = ⟨model ++ c!"\n", .ok ()⟩ ∧
      abiftoolRun env c!"abif" c!"json" [c!"STAR"] true file = ⟨star ++ c!"\n", .ok ()⟩ ∧
      abiftoolRun env c!"abif" c!"text" [c!"score"] true file = ⟨scores ++ c!"\n", .ok ()⟩ ∧
      convertAbif false true false text = .ok m ∧
      starReport m = .ok stars ∧
      (hasRatings m = .ok true → abiftoolRun env c!"abif" c!"text" [c!"STAR"] true file = ⟨stars ++ c!"\n", .ok ()⟩) ∧
      (∃ r, enhancedScore m = .ok r ∧ score = (scoreDoc r).dumpsIndent) ∧
      (∃ r, scaledScores m 50 = .ok r ∧ dumpScaled r = .ok scaled) ∧
      out = c!"======= ABIF File =======\n" ++ text ++ c!"======= ABIF Model (jabmod) =======\n" ++ model ++
        c!"\n======= Raw Score JSON =======\n" ++ score ++ c!"\n======= Raw STAR JSON =======\n" ++ star ++
        c!"\n======= Score Results =======\n" ++ scores ++ c!"\n======= STAR Results =======\n" ++ stars ++
        c!"\n======= Scaled Scores ========\n" ++ scaled ++ c!"\n" := by
  have hok : ∀ {x : Except PyErr Str} {o : Str}, printed x = ⟨o, .ok ()⟩ → ∃ t, x = .ok t ∧ o = t ++ c!"\n" := by
    intro x o hx
    cases x with
    | error e => cases hx
    | ok t => exact ⟨t, rfl, by injection hx with hx _; exact hx.symm⟩
  unfold scoreMain at h
  obtain ⟨t, ht, rfl⟩ := hok h
  unfold scriptInput at ht
  rw [hf] at ht
  simp only [ok_bind] at ht
  obtain ⟨m, hm, ht⟩ := bind_ok.1 ht
  obtain ⟨sr, h1, ht⟩ := bind_ok.1 ht
  obtain ⟨st, h2, ht⟩ := bind_ok.1 ht
  obtain ⟨srep, h3, ht⟩ := bind_ok.1 ht
  obtain ⟨strep, h4, ht⟩ := bind_ok.1 ht
  obtain ⟨scaled, h5, ht⟩ := bind_ok.1 ht
  obtain ⟨sc, h6, ht⟩ := bind_ok.1 ht
  have run : ∀ (o : Str) (mods : List Str) (x : Str), mods ≠ [] → c!"consolidate" ∉ mods → c!"jcomments" ∉ mods →
      cliOutput env { files := [file], fromfmt := some c!"abif", «to» := o, modifier := some mods, addScores := true } m = .ok x →
      abiftoolRun env c!"abif" o mods true file = ⟨x ++ c!"\n", .ok ()⟩ := by
    intro o mods x hne hc hj hx
    rw [abiftoolRun_abif env _ _ _ _ _ hf hd hne hc hj, hm]
    show printed (cliOutput env _ m) = _
    rw [hx]
    rfl
  refine ⟨dumpModel m, (scoreDoc sr).dumpsIndent, (starDoc st).dumpsIndent, srep, strep, sc, m,
    run _ _ _ (by decide) (by decide) (by decide) rfl, run _ _ _ (by decide) (by decide) (by decide) ?_,
    run _ _ _ (by decide) (by decide) (by decide) ?_, hm, h4, ?_, ⟨sr, h1, rfl⟩, ⟨scaled, h5, h6⟩, ?_⟩
  · show cliJson env c!"json" [c!"STAR"] m = _
    unfold cliJson
    rw [if_neg (by decide), if_neg (by decide), if_pos (by decide), h2]
    rfl
  · exact ((cliText_single env 160 m).2.2.2.2.1).trans h3
  · intro hr
    refine run _ _ _ (by decide) (by decide) (by decide) (((cliText_single env 160 m).2.2.2.2.2.1).trans ?_)
    unfold starSection
    rw [hr]
    exact h4
  · rw [← Except.ok.inj ht]

/-! ### a printed text is read like the text -/

theorem splitlinesAux_print (s : Str) (cur : Str) :
    splitlinesAux (s ++ ['\n']) cur = splitlinesAux s cur ∨ splitlinesAux (s ++ ['\n']) cur = splitlinesAux s cur ++ [[]] := by
  induction s, cur using splitlinesAux.induct with
  | case1 => exact .inr rfl
  | case2 c cur => exact .inl rfl
  | case3 t cur ih =>
    show splitlinesAux ('\r' :: '\n' :: (t ++ ['\n'])) cur = _ ∨ _
    rcases ih with ih | ih
    · left
      simp only [splitlinesAux, ih]
    · right
      show splitlinesAux ('\r' :: '\n' :: (t ++ ['\n'])) cur = _
      simp only [splitlinesAux, ih, List.cons_append]
  | case4 c t cur hne hb ih =>
    have e : ∀ u : Str, (c = '\r' → ∀ t', u ≠ '\n' :: t') → splitlinesAux (c :: u) cur = cur.reverse :: splitlinesAux u [] := by
      intro u hu
      rw [splitlinesAux.eq_4, if_pos hb]
      exact fun t' e1 e2 => hu e1 t' e2
    by_cases hc : c = '\r' ∧ t = []
    · obtain ⟨rfl, rfl⟩ := hc
      left; rfl
    · rw [List.cons_append, e (t ++ ['\n']) (by
        intro e1 t' e2
        cases t with
        | nil => exact hc ⟨e1, rfl⟩
        | cons a t0 => simp at e2; exact hne t0 e1 (by rw [e2.1])), e t (fun e1 t' e2 => hne t' e1 e2)]
      rcases ih with ih | ih
      · left; rw [ih]
      · right; rw [ih]; rfl
  | case5 c t cur hne hb ih =>
    have e : ∀ u : Str, splitlinesAux (c :: u) cur = splitlinesAux u (c :: cur) := by
      intro u
      rw [splitlinesAux.eq_4, if_neg hb]
      rintro t' rfl
      exact absurd rfl hb
    rw [List.cons_append, e, e]
    exact ih

theorem convertAbif_print (cw ar : Bool) (text : Str) : convertAbif cw ar false (text ++ ['\n']) = convertAbif cw ar false text := by
  rw [convertAbif_eq, convertAbif_eq]
  have : textLines cw (text ++ ['\n']) = textLines cw text ∨ textLines cw (text ++ ['\n']) = textLines cw text ++ [[]] := by
    unfold textLines splitlines
    rcases splitlinesAux_print text [] with h | h
    · left; rw [h]
    · right
      rw [h, List.map_append]
      cases cw <;> rfl
  rcases this with h | h
  · rw [h]
  · rw [h, processPlain_append]
    cases processPlain false 0 (textLines cw text) emptyishJabmod with
    | error e => rfl
    | ok m => rfl

/-- reading a converted file -/
theorem abiftoolRun_converted (env : CliEnv) (fmt «to» : Str) (mods : List Str) (file file' text out : Str) (conv : Except PyErr Str)
    (hf : env.file file = some text) (hd : file ≠ c!"-") (hd' : file' ≠ c!"-") (hfmt : fmt ∈ validInFmts) (hne : mods ≠ [])
    (hj : c!"jcomments" ∉ mods) (hconv : ∀ a : CliArgs, cliModel env a fmt text [text] = conv.bind (convertAbif false false false))
    (h : printed conv = ⟨out, .ok ()⟩) (hf' : env.file file' = some out) :
    abiftoolRun env fmt «to» mods false file = abiftoolRun env c!"abif" «to» mods false file' := by
  rw [abiftoolRun_gen env _ _ _ _ _ _ hf hd hfmt hne, abiftoolRun_gen env _ _ _ _ _ _ hf' hd' (by decide) hne, hconv]
  cases conv with
  | error e => cases h
  | ok t =>
    have e : out = t ++ c!"\n" := by injection h with h _; exact h.symm
    have hm : cliModel env { files := [file'], fromfmt := some c!"abif", «to» := «to», modifier := some mods, addScores := false } c!"abif" out [out] =
        convertAbif false false false t := by
      unfold cliModel
      rw [if_pos rfl]
      have hm : cliModifiers { files := [file'], fromfmt := some c!"abif", «to» := «to», modifier := some mods, addScores := false } = mods := by
        unfold cliModifiers
        cases mods with
        | nil => exact absurd rfl hne
        | cons a l => rfl
      rw [hm]
      simp only [hj, decide_false]
      rw [e]
      exact convertAbif_print _ _ _
    rw [hm]
    rfl

/-- C96, debtally and preflib: reading with `abiftool -f abif` what `debtally FILE` printed gives, for every output format and
all modifiers but `jcomments`, the same run as reading FILE itself with `abiftool -f debtally`; the same for preflib. -/
theorem C96_import (env : CliEnv) («to» : Str) (mods : List Str) (file file' text out : Str)
    (hf : env.file file = some text) (hd : file ≠ c!"-") (hd' : file' ≠ c!"-") (hne : mods ≠ []) (hj : c!"jcomments" ∉ mods)
    (hf' : env.file file' = some out) :
    (debtallyMain env file = ⟨out, .ok ()⟩ →
      abiftoolRun env c!"debtally" «to» mods false file = abiftoolRun env c!"abif" «to» mods false file') ∧
    (preflibMain env file = ⟨out, .ok ()⟩ →
      abiftoolRun env c!"preflib" «to» mods false file = abiftoolRun env c!"abif" «to» mods false file') := by
  constructor
  · intro h
    unfold debtallyMain scriptInput at h
    rw [hf] at h
    exact abiftoolRun_converted env _ _ _ _ _ _ _ _ hf hd hd' (by decide) hne hj (fun a => rfl) h hf'
  · intro h
    unfold preflibMain scriptInput at h
    rw [hf] at h
    exact abiftoolRun_converted env _ _ _ _ _ _ _ _ hf hd hd' (by decide) hne hj (fun a => rfl) h hf'

/-- C96, the error side: when `debtally FILE` or `preflib FILE` fails, reading FILE with `abiftool` fails the same way. -/
theorem C96_import_fails (env : CliEnv) («to» : Str) (mods : List Str) (file text out : Str) (e : PyErr)
    (hf : env.file file = some text) (hd : file ≠ c!"-") (hne : mods ≠ []) :
    (debtallyMain env file = ⟨out, .error e⟩ → abiftoolRun env c!"debtally" «to» mods false file = ⟨[], .error e⟩) ∧
    (preflibMain env file = ⟨out, .error e⟩ → abiftoolRun env c!"preflib" «to» mods false file = ⟨[], .error e⟩) := by
  constructor
  · intro h
    unfold debtallyMain scriptInput at h
    rw [hf] at h
    simp only [ok_bind] at h
    rw [abiftoolRun_gen env _ _ _ _ _ _ hf hd (by decide) hne]
    have : ∀ a : CliArgs, cliModel env a c!"debtally" text [text] = (convertDebtally env.sha [] text).bind (convertAbif false false false) := fun a => rfl
    rw [this]
    cases hc : convertDebtally env.sha [] text with
    | ok t => rw [hc] at h; cases h
    | error e' => rw [hc] at h; cases h; rfl
  · intro h
    unfold preflibMain scriptInput at h
    rw [hf] at h
    simp only [ok_bind] at h
    rw [abiftoolRun_gen env _ _ _ _ _ _ hf hd (by decide) hne]
    have : ∀ a : CliArgs, cliModel env a c!"preflib" text [text] = (convertPreflib text).bind (convertAbif false false false) := fun a => rfl
    rw [this]
    cases hc : convertPreflib text with
    | ok t => rw [hc] at h; cases h
    | error e' => rw [hc] at h; cases h; rfl

/-- The title of the page made by html_output_pairwise: the title given in the metadata, or else the name of the file. -/
def pageTitle (file : Str) (m : Jabmod) : Json :=
  match Dict.get? m.metadata c!"title" with
  | some t => if t.truthy then t else .str file
  | none => .str file

/-- C96, html_output_pairwise: the page `html_output_pairwise FILE` makes of a jabmod file is the page
`abiftool -f jabmod -t html FILE` makes, with the title replaced by the title in the metadata or else the file name. -/
theorem C96_page (env : CliEnv) (file text : Str) (hf : env.file file = some text) (hd : file ≠ c!"-") :
    abiftoolRun env c!"jabmod" c!"html" [c!"svg"] false file =
      printed ((env.loads text).bind fun m => (htmlPage m true false).bind (env.html false none)) ∧
    pairPageMain env file =
      printed ((env.loads text).bind fun m => (htmlPage m true false).bind fun p =>
        env.html false none { p with title := some (pageTitle file m) }) := by
  constructor
  · rw [abiftoolRun_eq env _ _ _ _ _ _ hf hd (by decide) (by decide) (by decide)]
    rfl
  · unfold pairPageMain scriptInput
    rw [hf]
    simp only [ok_bind]
    congr 1
    cases env.loads text with
    | error e => rfl
    | ok m =>
      have htitle : abifTitle (withFilename file m) = pageTitle file m := by
        have hg : Dict.get? (withFilename file m).metadata c!"title" = Dict.get? m.metadata c!"title" := by
          unfold withFilename
          rw [Dict.get?_set, if_neg (by decide)]
        have hn : Dict.get? (withFilename file m).metadata c!"filename" = some (.str file) := by
          unfold withFilename
          rw [Dict.get?_set, if_pos rfl]
        have hne : (withFilename file m).metadata.isEmpty = false := by
          cases h : (withFilename file m).metadata with
          | nil => rw [h] at hn; cases hn
          | cons a l => rfl
        unfold abifTitle pageTitle
        rw [hne, hg, hn]
        simp only [Bool.false_eq_true, if_false, Option.getD_some]
        cases Dict.get? m.metadata c!"title" with
        | none => rfl
        | some t => rfl
      have hdesc : abifDesc (withFilename file m) = abifDesc m := by
        have hg : Dict.get? (withFilename file m).metadata c!"description" = Dict.get? m.metadata c!"description" := by
          unfold withFilename
          rw [Dict.get?_set, if_neg (by decide)]
        unfold abifDesc
        rw [hg]
        rfl
      have hrows : ∀ (pd : PairDict) (w : Dict Str WLT) (ct l : List Str) (n : Int),
          htmlRows (withFilename file m) pd w ct l n = htmlRows m pd w ct l n := by
        intro pd w ct l
        induction l with
        | nil => intro n; rfl
        | cons a l ih =>
          intro n
          unfold htmlRows
          rw [ih]
          rfl
      have hpage : htmlPage (withFilename file m) true false =
          (htmlPage m true false).bind fun p => .ok { p with title := some (pageTitle file m) } := by
        unfold htmlPage
        simp only [if_true, Bool.false_eq_true, if_false]
        rw [hdesc, htitle]
        show (winLossTie m.candidates.keys (pairwiseCount m) >>= _) = _
        cases winLossTie m.candidates.keys (pairwiseCount m) with
        | error e => rfl
        | ok w =>
          simp only [ok_bind]
          show (candsByWins (pairwiseCount m) w >>= _) = _
          cases candsByWins (pairwiseCount m) w with
          | error e => rfl
          | ok ct =>
            simp only [ok_bind]
            cases abifDesc m with
            | error e => rfl
            | ok d =>
              simp only [ok_bind]
              rw [hrows]
              show (htmlRows m (pairwiseCount m) w ct ct (ct.length + 1) >>= _) = _
              cases htmlRows m (pairwiseCount m) w ct ct (ct.length + 1) with
              | error e => rfl
              | ok rows =>
                simp only [ok_bind]
                cases unmarkRows rows <;> rfl
      show (htmlPage (withFilename file m) true false).bind (env.html false none) = _
      rw [hpage]
      show _ = (htmlPage m true false).bind _
      cases htmlPage m true false <;> rfl

/-- C96, html_output_scorestar: the page is the STAR page of the election read; the file name filed in the metadata changes
nothing. -/
theorem C96_starpage (env : CliEnv) (dumpStar : StarResult → Except PyErr Str) (dumpScaled : ScaledResult → Except PyErr Str)
    (file text : Str) (hf : env.file file = some text) :
    starPageMain env dumpStar dumpScaled file = printed ((convertAbif false false false text).bind (htmlStar dumpStar dumpScaled)) := by
  unfold starPageMain scriptInput
  rw [hf]
  simp only [ok_bind]
  congr 1
  cases convertAbif false false false text with
  | error e => rfl
  | ok m =>
    have hg : ∀ k : Str, k ≠ c!"filename" → Dict.get? (withFilename file m).metadata k = Dict.get? m.metadata k := by
      intro k hk
      unfold withFilename
      rw [Dict.get?_set, if_neg (fun h => hk h.symm)]
    have he : enhancedScore (withFilename file m) = enhancedScore m := by
      unfold enhancedScore
      rw [show basicScore (withFilename file m) = basicScore m from rfl]
      unfold Dict.getE
      rw [hg _ (by decide)]
    have hs : starResult (withFilename file m) = starResult m := by
      unfold starResult
      rw [he]
      rfl
    have hr : starReport (withFilename file m) = starReport m := by
      unfold starReport
      rw [hs]
    have hc : scaledScores (withFilename file m) 50 = scaledScores m 50 := by
      unfold scaledScores
      rw [hs, hg c!"max_rating" (by decide)]
      rfl
    show htmlStar dumpStar dumpScaled (withFilename file m) = htmlStar dumpStar dumpScaled m
    unfold htmlStar htmlStarText
    rw [hr, hs, hc]

/-- the election that has one ballot, given by its preference text -/
theorem convertAbif_one (s : Str) (hh : '#' ∉ s) (hb : ∀ c ∈ s, isLineBreak c = false) :
    convertAbif false false false (c!"1:" ++ s) = (parsePrefstr s).bind fun r =>
      .ok { metadata := [(c!"ballotcount", .int 1)], candidates := mergeCands r.2 [],
            votelines := [{ qty := 1, prefs := r.1, prefstr := some (rstrip s) }] } := by
  rw [convertAbif_eq]
  have hlines : textLines false (c!"1:" ++ s) = [c!"1:" ++ s] := by
    unfold textLines
    rw [splitlines_last _ (by
      intro c hc
      rcases List.mem_append.1 hc with hc | hc
      · exact (show ∀ c ∈ c!"1:", isLineBreak c = false by decide) c hc
      · exact hb c hc) (by simp)]
    rfl
  have hbh : beforeHash (c!"1:" ++ s) = c!"1:" ++ s := beforeHash_of_not_mem (by
    intro hc
    rcases List.mem_append.1 hc with hc | hc
    · revert hc; decide
    · exact hh hc)
  have hv : readVote (c!"1:" ++ s) = some (c!"1", s) := by
    have h1 : isDigit '1' = true := by unfold isDigit decVal; simp [isAsciiDigit, isAscii]
    have h2 : isDigit ':' = false := by unfold isDigit decVal; simp [isAsciiDigit, isAscii]
    unfold readVote
    simp [h1, h2, List.dropWhile_cons, List.takeWhile_cons]
  have hcom : hashComment (c!"1:" ++ s) = none := by
    unfold hashComment
    rw [if_neg]
    intro hc
    rcases List.mem_append.1 hc with hc | hc
    · revert hc; decide
    · exact hh hc
  rw [hlines]
  unfold processPlain
  rw [processComment_false, ok_bind]
  unfold lineEffect
  rw [hbh, readCand_none_of_vote hv, matchMeta_none_of_vote hv, hv, hcom]
  simp only
  unfold processPrefline
  have hq : digitsVal c!"1" = 1 := by rfl
  simp only [hq]
  show ((parsePrefstr s >>= _) >>= _) >>= _ = _
  cases parsePrefstr s with
  | error e => rfl
  | ok r => rfl

/-- C96, core: for a preference text without `#` and line breaks, `core -f pref_to_dict TEXT` prints the JSON of exactly the
preferences that reading the one-ballot election `1:TEXT` stores, with the candidates in the order named; `json.loads` reads
the output as that document; and it fails exactly when reading that election fails, the same way. -/
theorem C96_prefs (s : Str) (hh : '#' ∉ s) (hb : ∀ c ∈ s, isLineBreak c = false) :
    (∀ e, convertAbif false false false (c!"1:" ++ s) = .error e → coreMain .prefToDict s = ⟨[], .error e⟩) ∧
    (∀ m, convertAbif false false false (c!"1:" ++ s) = .ok m →
      ∃ (vl : Voteline) (cands : List Str) (out : Str), m.votelines = [vl] ∧ Dict.keys vl.prefs = firsts cands ∧
        coreMain .prefToDict s = ⟨out, .ok ()⟩ ∧
        jsonLoads out = .ok (.obj [(c!"prefs", prefsJson vl.prefs), (c!"cands", .arr (cands.map .str))])) := by
  rw [convertAbif_one s hh hb]
  unfold coreMain
  cases hp : parsePrefstr s with
  | error e => exact ⟨fun e' h => (by cases h; rfl), fun m h => (by cases h)⟩
  | ok r =>
    obtain ⟨prefs, cands⟩ := r
    refine ⟨fun e' h => (by cases h), ?_⟩
    intro m h
    cases h
    obtain ⟨hk, hw, _⟩ := parsePrefstr_ok hp
    refine ⟨_, cands, _, rfl, hk, rfl, ?_⟩
    have hd : DistinctKeys (prefstrDoc prefs cands) := by
      unfold prefstrDoc
      unfold DistinctKeys
      refine ⟨by simp, ?_⟩
      rw [distinctObj_iff]
      intro e he
      simp only [List.mem_cons, List.not_mem_nil, or_false] at he
      rcases he with rfl | rfl
      · exact prefs_distinct hw
      · exact strs_distinct _
    exact (C72_dumps _ hd [] c!"\n" (by intro c hc; cases hc) (by intro c hc; revert c; decide)).2

end
/-! ### the hypotheses are met -/
section
attribute [local instance] Uni.ascii
set_option maxRecDepth 40000

def scriptText : Str := c!"=A:[Ann]\n3:A/5>B/1\n5:C>A\n"
def scriptEnv : CliEnv where
  stdin := []
  file := fun f => if f = c!"vote.abif" then some scriptText else if f = c!"tally" then some c!"# ALTERNATIVE NAME 1: Ann\n3: 1\n" else none
  loads := fun _ => .error .valueError
  sha := fun s => s
  sched := exSched
  draw := fun _ => .ok []
  drawWide := fun _ _ => .ok c!"a\nb\nc\nd\n"
  pipe := fun _ _ => .ok []
  html := fun _ _ _ => .ok []
  listing := ⟨fun _ l => l, fun _ l => .refl l⟩

example : scriptEnv.file c!"vote.abif" = some scriptText := by decide +kernel
example : (irvMain scriptEnv false c!"vote.abif").ending = .ok () ∧ (irvMain scriptEnv false c!"vote.abif").out = c!"Candidates:\n  A: Ann\n  B: B\n  C: C\n\nRound 1:\n  Starting cands: A, B, C\n  Total starting votes: 8\n  Exhausted votes: 0\n  Overvotes: 0\n  Total counted votes: 8\n  Votes by candidate:\n    A: 3\n    B: 0\n    C: 5\n  Eliminated this round: A, B\nThe IRV winner is C\n\n" := by
  decide +kernel
example : (irvMain scriptEnv false c!"missing.abif").ending = .error .fileNotFound := by decide +kernel
example : (pairwiseMain scriptEnv c!"vote.abif").ending = .ok () ∧
    (pairwiseMain scriptEnv c!"vote.abif").out.take 91 = c!"======= ABIF FILE =======\n\n============================\nvote.abif\n-------------------------" := by
  decide +kernel
example : (preflibMain scriptEnv c!"tally").out = c!"=Ann:[Ann]\n# ---------------\n3:Ann\n\n" := by decide +kernel
example : (scoreMain scriptEnv (fun _ => .ok c!"scaled") c!"vote.abif").ending = .ok () ∧
    (scoreMain scriptEnv (fun _ => .ok c!"scaled") c!"vote.abif").out.take 57 =
      c!"======= ABIF File =======\n=A:[Ann]\n3:A/5>B/1\n5:C>A\n======" := by decide +kernel
example : (coreMain .prefToDict c!"A/5>B").ending = .ok () ∧ '#' ∉ c!"A/5>B" := by decide +kernel
end
end Verif.Props
