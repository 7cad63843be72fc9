/-
C80: the command line prints what the library calls for the two formats give.
-/
import Verif.Spec.Cli
import Verif.Props.Cli

set_option linter.unusedSimpArgs false

namespace Verif.Props
open Verif Spec
section
variable [U : Uni]

theorem inForce_eq {a : CliArgs} {mods : List Str} (h : InForce a mods) : cliModifiers a = mods := by
  unfold cliModifiers
  cases h with
  | default h => rw [h]
  | given ms hne h =>
    rw [h]
    cases mods with
    | nil => exact absurd rfl hne
    | cons x t => rfl

theorem readAs_eq {env : CliEnv} {a : CliArgs} {mods : List Str} {text fmt : Str} {r : Except PyErr Jabmod}
    (hm : InForce a mods) (h : ReadAs env a mods text fmt r) (blobs : List Str) :
    fmt ∈ validInFmts ∧ cliModel env a fmt text blobs = r := by
  unfold cliModel
  rw [inForce_eq hm]
  cases h with
  | abifComments h => exact ⟨by decide, by rw [if_pos rfl, decide_eq_true h]⟩
  | abif h => exact ⟨by decide, by rw [if_pos rfl, decide_eq_false h]⟩
  | debtally => exact ⟨by decide, rfl⟩
  | jabmod => exact ⟨by decide, rfl⟩
  | nameq => exact ⟨by decide, rfl⟩
  | preflib => exact ⟨by decide, rfl⟩

theorem writtenAs_eq {env : CliEnv} {a : CliArgs} {mods : List Str} {m : Jabmod} {o : Except PyErr Str}
    (hm : InForce a mods) (h : WrittenAs env a.width mods m a.to o) : cliOutput env a m = o := by
  unfold cliOutput
  rw [inForce_eq hm]
  generalize a.to = to at h
  cases h with
  | abif => rfl
  | csvrank => rfl
  | dot => rfl
  | svg => rfl
  | html => rfl
  | irvjson => rfl
  | paircountjson h1 =>
    have : cliJson env c!"paircountjson" mods m = .ok (pairsDoc (pairwiseCount m)).dumpsIndent := by
      unfold cliJson
      rw [if_neg (by simp [h1]), if_pos (.inl rfl)]
    exact this
  | jsonIrv to h0 h1 =>
    have : ∀ t, cliJson env t mods m = (irvDict env.sched m >>= fun d => .ok (irvDoc env.listing m.candidates d).dumpsIndent) := by
      intro t
      unfold cliJson
      rw [if_pos (.inr h1)]
      rfl
    rcases h0 with rfl | rfl
    · exact this _
    · exact this _
  | jsonPairs h1 h2 =>
    have : cliJson env c!"json" mods m = .ok (pairsDoc (pairwiseCount m)).dumpsIndent := by
      unfold cliJson
      rw [if_neg (by simp [h1]), if_pos (.inr h2)]
    exact this
  | jsonStar h1 h2 h3 =>
    have : cliJson env c!"json" mods m = (starResult m >>= fun r => .ok (starDoc r).dumpsIndent) := by
      unfold cliJson
      rw [if_neg (by simp [h1]), if_neg (by simp [h2]), if_pos h3]
      rfl
    exact this
  | jabmod => rfl
  | nameq => rfl
  | text => rfl
  | winlosstiejson => rfl

/-- the input of a run with one text, from a file or from standard input -/
def InputIs (env : CliEnv) (a : CliArgs) (text : Str) : Prop :=
  (a.files = [c!"-"] ∧ env.stdin = text) ∨ (∃ f, f ≠ c!"-" ∧ a.files = [f] ∧ env.file f = some text)

/-- the run after its input was read as `r` -/
def runOf (env : CliEnv) (a : CliArgs) (r : Except PyErr Jabmod) : CliResult :=
  match r with
  | .error e => ⟨[], .error e⟩
  | .ok m =>
    match cliOutput env a (if c!"consolidate" ∈ cliModifiers a then consolidate m else m) with
    | .error e => ⟨[], .error e⟩
    | .ok out => ⟨out ++ c!"\n", .ok ()⟩

/-- C80.  With one input, `-f` and `-t`, and the modifiers in force, a run reads the text with the library call of its
input format, consolidates the votelines if asked to, and prints what the library call of the output format gives, and a
newline; an exception of either ends the run with nothing printed. -/
theorem C80_run (env : CliEnv) (a : CliArgs) (mods : List Str) (text fmt : Str) (r : Except PyErr Jabmod)
    (hm : InForce a mods) (hf : a.fromfmt = some fmt) (hi : InputIs env a text) (hr : ReadAs env a mods text fmt r) :
    (∀ e, r = .error e → cliMain env a = ⟨[], .error e⟩) ∧
    (∀ m o, r = .ok m → c!"consolidate" ∉ mods → WrittenAs env a.width mods m a.to o → cliMain env a = endsWith o) ∧
    (∀ m o, r = .ok m → c!"consolidate" ∈ mods → WrittenAs env a.width mods (consolidate m) a.to o → cliMain env a = endsWith o) := by
  have ef : cliFormat a = .ok fmt := by unfold cliFormat; rw [hf]
  obtain ⟨blobs, ei⟩ : ∃ blobs, cliInput env a = .ok (text, blobs) := by
    rcases hi with ⟨h1, h2⟩ | ⟨f, h0, h1, h2⟩
    · exact ⟨[], by unfold cliInput; rw [if_pos h1, h2]⟩
    · refine ⟨[text], ?_⟩
      unfold cliInput
      rw [if_neg (by rw [h1]; simpa using h0), h1]
      unfold readFiles
      rw [h2]
      rfl
  obtain ⟨hv, em⟩ := readAs_eq hm hr blobs
  have main : cliMain env a = runOf env a r := by
    unfold cliMain runOf
    rw [ef]
    simp only
    rw [if_neg (fun h => h hv), ei]
    simp only
    rw [em]
    cases r <;> rfl
  refine ⟨?_, ?_, ?_⟩
  · rintro e rfl
    rw [main]
    rfl
  · rintro m o rfl hc hw
    rw [main]
    unfold runOf
    simp only
    rw [inForce_eq hm, if_neg hc, writtenAs_eq hm hw]
    cases o <;> rfl
  · rintro m o rfl hc hw
    rw [main]
    unfold runOf
    simp only
    rw [inForce_eq hm, if_pos hc, writtenAs_eq hm hw]
    cases o <;> rfl

/-- C80: every pair of formats has a meaning except `-f sftxt` (two inputs, C68), `-f widj` (never works, C49),
`-t html_snippet` (`C80_snippet`) and `-t json` without a modifier that chooses (`C80_choose`). -/
theorem C80_total (env : CliEnv) (a : CliArgs) (mods : List Str) (text fmt : Str) (width : Int) (m : Jabmod) (to : Str) :
    (fmt ∈ [c!"abif", c!"debtally", c!"jabmod", c!"nameq", c!"preflib"] → ∃ r, ReadAs env a mods text fmt r) ∧
    (to ∈ [c!"abif", c!"csvrank", c!"dot", c!"html", c!"irvjson", c!"jabmod", c!"nameq", c!"paircountjson", c!"svg", c!"text",
      c!"winlosstiejson"] ∨ (to = c!"json" ∧ (c!"IRV" ∈ mods ∨ c!"pairwise" ∈ mods ∨ c!"STAR" ∈ mods)) →
      ∃ o, WrittenAs env width mods m to o) := by
  constructor
  · intro h
    simp only [List.mem_cons, List.not_mem_nil, or_false] at h
    rcases h with rfl | rfl | rfl | rfl | rfl
    · by_cases hj : c!"jcomments" ∈ mods
      · exact ⟨_, .abifComments hj⟩
      · exact ⟨_, .abif hj⟩
    · exact ⟨_, .debtally⟩
    · exact ⟨_, .jabmod⟩
    · exact ⟨_, .nameq⟩
    · exact ⟨_, .preflib⟩
  · rintro (h | ⟨rfl, h⟩)
    · simp only [List.mem_cons, List.not_mem_nil, or_false] at h
      rcases h with rfl | rfl | rfl | rfl | rfl | rfl | rfl | rfl | rfl | rfl | rfl
      · exact ⟨_, .abif⟩
      · exact ⟨_, .csvrank⟩
      · exact ⟨_, .dot⟩
      · exact ⟨_, .html⟩
      · exact ⟨_, .irvjson⟩
      · exact ⟨_, .jabmod⟩
      · exact ⟨_, .nameq⟩
      · by_cases hi : c!"IRV" ∈ mods
        · exact ⟨_, .jsonIrv _ (.inr rfl) hi⟩
        · exact ⟨_, .paircountjson hi⟩
      · exact ⟨_, .svg⟩
      · exact ⟨_, .text⟩
      · exact ⟨_, .winlosstiejson⟩
    · by_cases hi : c!"IRV" ∈ mods
      · exact ⟨_, .jsonIrv _ (.inl rfl) hi⟩
      · by_cases hp : c!"pairwise" ∈ mods
        · exact ⟨_, .jsonPairs hi hp⟩
        · rcases h with h | h | h
          · exact absurd h hi
          · exact absurd h hp
          · exact ⟨_, .jsonStar hi hp h⟩

/-- C80, `-t json` without a modifier that chooses: a fixed line. -/
theorem C80_choose (env : CliEnv) (a : CliArgs) (mods : List Str) (m : Jabmod) (hm : InForce a mods) (ht : a.to = c!"json")
    (h1 : c!"IRV" ∉ mods) (h2 : c!"pairwise" ∉ mods) (h3 : c!"STAR" ∉ mods) :
    cliOutput env a m = .ok c!"Please specify modifier or choose 'jabmod' output format" := by
  unfold cliOutput
  rw [inForce_eq hm, ht]
  have : cliJson env c!"json" mods m = .ok c!"Please specify modifier or choose 'jabmod' output format" := by
    unfold cliJson
    rw [if_neg (by simp [h1]), if_neg (by simp [h2]), if_neg h3]
  exact this

/-- C80, `-t html_snippet`: the page without its head, with the diagram in front exactly if the `svg` modifier is given;
nothing is printed if the diagram or the page cannot be made. -/
theorem C80_snippet (env : CliEnv) (a : CliArgs) (mods : List Str) (m : Jabmod) (hm : InForce a mods) (ht : a.to = c!"html_snippet") (out : Str) :
    cliOutput env a m = .ok out ↔
      ∃ cc p, fullCopecount m = .ok cc ∧ htmlPage m true true = .ok p ∧
        ((c!"svg" ∉ mods ∧ env.html true none p = .ok out) ∨
         (c!"svg" ∈ mods ∧ ∃ g d, copecountGraph cc = .ok g ∧ env.pipe c!"svg" g = .ok d ∧ env.html true (some (fromSvg d)) p = .ok out)) := by
  have e : cliOutput env a m = (fullCopecount m >>= fun _ => (if c!"svg" ∈ mods then (cliDiagram env c!"svg" m).map some else .ok none) >>=
      fun svg => htmlPage m true true >>= fun p => env.html true svg p) := by
    unfold cliOutput
    rw [inForce_eq hm, ht]
    by_cases hs : c!"svg" ∈ mods
    · simp only [if_pos hs]; rfl
    · simp only [if_neg hs]; rfl
  rw [e]
  constructor
  · intro h
    obtain ⟨cc, h1, h⟩ := bind_ok.1 h
    obtain ⟨svg, h2, h⟩ := bind_ok.1 h
    obtain ⟨p, h3, h⟩ := bind_ok.1 h
    refine ⟨cc, p, h1, h3, ?_⟩
    by_cases hs : c!"svg" ∈ mods
    · rw [if_pos hs] at h2
      unfold cliDiagram at h2
      rw [h1] at h2
      unfold copecountDiagram at h2
      cases hg : copecountGraph cc with
      | error e => simp only [Except.bind, hg] at h2; cases h2
      | ok g =>
        cases hd : env.pipe c!"svg" g with
        | error e => simp only [Except.bind, hg, hd] at h2; cases h2
        | ok d =>
          simp only [Except.bind, hg, hd] at h2
          cases h2
          exact .inr ⟨hs, g, d, rfl, hd, h⟩
    · rw [if_neg hs] at h2
      cases h2
      exact .inl ⟨hs, h⟩
  · rintro ⟨cc, p, h1, h3, (⟨hs, h⟩ | ⟨hs, g, d, hg, hd, h⟩)⟩
    · rw [h1, ok_bind, if_neg hs, ok_bind, h3, ok_bind, h]
    · have : cliDiagram env c!"svg" m = .ok (fromSvg d) := by
        unfold cliDiagram copecountDiagram
        rw [h1]
        simp only [Except.bind, hg, hd]
      rw [h1, ok_bind, if_pos hs, this]
      show (Except.ok (some (fromSvg d)) >>= _) = _
      rw [ok_bind, h3, ok_bind, h]

end

section
attribute [local instance] Uni.ascii
set_option maxRecDepth 40000

/-- one table line of a run, put together from the two relations -/
def exArgs : CliArgs := { files := [c!"a.abif"], fromfmt := some c!"abif", to := c!"nameq", modifier := some [c!"consolidate"] }

-- the hypotheses of `C80_run` are met, and the run prints what `nameq` gives for the model of the text
example : InForce exArgs [c!"consolidate"] := .given _ (by decide) rfl
example : InputIs exCli exArgs c!"1:A>B\n" := .inr ⟨c!"a.abif", by decide, rfl, rfl⟩
example : ReadAs exCli exArgs [c!"consolidate"] c!"1:A>B\n" c!"abif" (convertAbif false false false c!"1:A>B\n") := .abif (by decide)
example (m : Jabmod) : WrittenAs exCli exArgs.width [c!"consolidate"] (consolidate m) exArgs.to (jabmodToNameq (consolidate m)) := .nameq
example : (cliMain exCli exArgs).out = c!"A=1&B=2\n\n" := by decide +kernel
-- an exception of the reader: nothing printed
example : (cliMain { exCli with stdin := c!"x:A\n" } { exArgs with files := [c!"-"], fromfmt := some c!"jabmod" }).out = [] := by decide +kernel
-- `-t json` without a modifier that chooses
example : (cliMain exCli { exArgs with to := c!"json" }).out = c!"Please specify modifier or choose 'jabmod' output format\n" := by decide +kernel

end
end Verif.Props
