/-
C92: the diagrams that are printed, and `copedot.py`.
-/
import Verif.Model.Copedot
import Verif.Props.Output
import Verif.Props.ParsedTally
import Verif.Props.Cli

set_option linter.unusedSimpArgs false
set_option linter.unusedSectionVars false

namespace Verif.Props
open Verif Spec

/-- `r` is `s` from its first `<svg` on; the whole of `s` when there is none -/
def SvgPart (s r : Str) : Prop :=
  (∃ a b : Str, s = a ++ r ∧ r = c!"<svg" ++ b ∧ ∀ x y : Str, a ≠ x → s = x ++ c!"<svg" ++ y → a.length < x.length) ∨
  ((∀ x y : Str, s ≠ x ++ c!"<svg" ++ y) ∧ r = s)

theorem dropTo_some (s r : Str) (h : fromSvg.dropTo s = some r) :
    ∃ a b : Str, s = a ++ r ∧ r = c!"<svg" ++ b ∧ ∀ x y : Str, s = x ++ c!"<svg" ++ y → a.length ≤ x.length := by
  induction s with
  | nil => cases h
  | cons c t ih =>
    unfold fromSvg.dropTo at h
    by_cases hp : c!"<svg".isPrefixOf (c :: t) = true
    · rw [if_pos hp] at h
      cases h
      obtain ⟨b, hb⟩ := List.isPrefixOf_iff_prefix.1 hp
      exact ⟨[], b, rfl, hb.symm, fun x y _ => Nat.zero_le _⟩
    · rw [if_neg hp] at h
      obtain ⟨a, b, e, hr, hmin⟩ := ih h
      refine ⟨c :: a, b, by rw [e]; rfl, hr, ?_⟩
      intro x y hxy
      cases x with
      | nil =>
        exfalso
        apply hp
        rw [List.isPrefixOf_iff_prefix]
        exact ⟨y, hxy.symm⟩
      | cons x0 x =>
        simp only [List.cons_append, List.cons.injEq] at hxy
        have := hmin x y hxy.2
        simpa using this

theorem dropTo_none (s : Str) (h : fromSvg.dropTo s = none) : ∀ x y : Str, s ≠ x ++ c!"<svg" ++ y := by
  induction s with
  | nil =>
    intro x y e
    have := congrArg List.length e
    simp at this
  | cons c t ih =>
    unfold fromSvg.dropTo at h
    by_cases hp : c!"<svg".isPrefixOf (c :: t) = true
    · rw [if_pos hp] at h; cases h
    · rw [if_neg hp] at h
      intro x y e
      cases x with
      | nil =>
        apply hp
        rw [List.isPrefixOf_iff_prefix]
        exact ⟨y, e.symm⟩
      | cons x0 x =>
        simp only [List.cons_append, List.cons.injEq] at e
        exact ih h x y e.2

theorem append_same_length {a b x y : Str} (h : a ++ b = x ++ y) (hl : a.length = x.length) : a = x :=
  (List.append_inj h hl).1

/-- C92: what is left of graphviz's output is the part from the first `<svg`, or all of it. -/
theorem C92_svg (s : Str) (r : Str) : fromSvg s = r ↔ SvgPart s r := by
  have fwd : SvgPart s (fromSvg s) := by
    unfold fromSvg
    cases h : fromSvg.dropTo s with
    | none => exact .inr ⟨dropTo_none s h, rfl⟩
    | some q =>
      obtain ⟨a, b, h1, h2, h3⟩ := dropTo_some s q h
      refine .inl ⟨a, b, h1, h2, ?_⟩
      intro x y hne e
      have := h3 x y e
      rcases Nat.lt_or_eq_of_le this with g | g
      · exact g
      · exfalso
        apply hne
        refine append_same_length (b := q) (y := c!"<svg" ++ y) ?_ g
        rw [← h1, e]; simp
  refine ⟨fun h => h ▸ fwd, ?_⟩
  intro hr
  rcases fwd with ⟨a, b, h1, h2, h3⟩ | ⟨h1, h2⟩
  · rcases hr with ⟨a', b', g1, g2, g3⟩ | ⟨g1, _⟩
    · have : a = a' := by
        by_contra hne
        have l1 := h3 a' b' hne (by rw [g1, g2]; simp)
        have l2 := g3 a b (Ne.symm hne) (by rw [h1, h2]; simp)
        omega
      subst this
      have := h1.symm.trans g1
      exact List.append_cancel_left this
    · exact absurd (by rw [h1, h2]; simp) (g1 a b)
  · rcases hr with ⟨a', b', g1, g2, _⟩ | ⟨_, g2⟩
    · exact absurd (by rw [g1, g2]; simp) (h1 a' b')
    · rw [h2, g2]

section
variable [U : Uni]

/-- C92.  `copedot` on a text that is an abif file with candidates: graphviz is given the graph whose nodes are the candidates and
whose edges go from the preferred candidate of each pair (both ways when they tie), in the format asked for, and what it makes of
it is printed, from `<svg` on, followed by a newline; if graphviz fails nothing is printed. -/
theorem C92_copedot (env : CliEnv) (outfmt file text : Str) (m : Jabmod)
    (hin : (file = c!"-" ∧ env.stdin = text) ∨ (file ≠ c!"-" ∧ env.file file = some text))
    (hm : convertAbif false false false text = .ok m) (hlen : text.length < 2 ^ 61) (hne : m.candidates ≠ []) :
    ∃ g : Graph, (g.nodes.map Prod.fst).Perm m.candidates.keys ∧
      (∀ a ∈ m.candidates.keys, ∀ b ∈ m.candidates.keys, a ≠ b →
        ((a, b) ∈ g.edges.map Prod.fst ↔ support m b a ≤ support m a b)) ∧
      (∀ d r, env.pipe outfmt g = .ok d → SvgPart d r → copedotMain env outfmt file = ⟨r ++ c!"\n", .ok ()⟩) ∧
      (∀ e, env.pipe outfmt g = .error e → copedotMain env outfmt file = ⟨[], .error e⟩) := by
  obtain ⟨cc, g, h1, h2, h3, h4⟩ := C54_election m (parsed_allRanked _ _ _ _ _ hm hlen) (parsed_cands_nodup _ _ _ _ _ hm) hne
  have hi : copedotInput env file = some text := by
    unfold copedotInput
    rcases hin with ⟨h, e⟩ | ⟨h, e⟩
    · rw [if_pos h, e]
    · rw [if_neg h, e]
  have hrun : copedotMain env outfmt file = (match (env.pipe outfmt g).bind fun d => .ok (fromSvg d) with
      | .error e => ⟨[], .error e⟩
      | .ok out => ⟨out ++ c!"\n", .ok ()⟩) := by
    unfold copedotMain
    rw [hi]
    simp only
    rw [hm]
    simp only [ok_bind]
    rw [h1]
    simp only [ok_bind]
    unfold copecountDiagram
    rw [h2]
    rfl
  refine ⟨g, h3, ?_, ?_, ?_⟩
  · intro a ha b hb hab
    obtain ⟨p1, p2⟩ := h4 a ha b hb hab
    obtain ⟨q1, _⟩ := h4 b hb a ha (Ne.symm hab)
    constructor
    · intro he
      by_contra hlt
      exact (q1 (by omega)).2 he
    · intro hle
      rcases Int.lt_or_eq_of_le hle with hlt | heq
      · exact (p1 hlt).1
      · exact (p2 heq.symm).1
  · intro d r hd hr
    rw [hrun, hd]
    have := (C92_svg d r).2 hr
    rw [← this]
    rfl
  · intro e he
    rw [hrun, he]
    rfl

/-- C92, the failures: a file that is not there is reported (and the exit status is that of `sys.exit()`); a text that is not an abif
file, or has no candidates, ends with an exception and prints nothing. -/
theorem C92_failures (env : CliEnv) (outfmt file : Str) :
    (file ≠ c!"-" → env.file file = none →
      copedotMain env outfmt file = ⟨c!"The file '" ++ file ++ c!"' doesn't exist.\n", .error .systemExit⟩) ∧
    (∀ text e, (file = c!"-" ∧ env.stdin = text) ∨ (file ≠ c!"-" ∧ env.file file = some text) →
      convertAbif false false false text = .error e → copedotMain env outfmt file = ⟨[], .error e⟩) := by
  constructor
  · intro h1 h2
    unfold copedotMain copedotInput
    rw [if_neg h1, h2]
  · intro text e hin hm
    have hi : copedotInput env file = some text := by
      unfold copedotInput
      rcases hin with ⟨h, e⟩ | ⟨h, e⟩
      · rw [if_pos h, e]
      · rw [if_neg h, e]
    unfold copedotMain
    rw [hi]
    simp only
    rw [hm]
    rfl

end

section
attribute [local instance] Uni.ascii
set_option maxRecDepth 40000

/-- graphviz, as far as the example needs it -/
def vizCli : CliEnv := { exCli with pipe := fun fmt g => .ok (c!"<?xml?>" ++ fmt ++ c!"<svg>" ++ natStr g.nodes.length ++ c!"," ++ natStr g.edges.length) }

example : ((copedotMain vizCli c!"svg" c!"a.abif").out = c!"<svg>2,1\n") ∧
    ((copedotMain vizCli c!"svg" c!"none.abif").out = c!"The file 'none.abif' doesn't exist.\n") := by decide +kernel

/-- C92 does not hold of `--outfmt json`: the help offers JSON, but whatever the election, the format is handed to graphviz (the test
`args.outfmt == 'svg' or 'dot'` is always true), and so its output, here not a JSON document, is printed. -/
theorem C92_json_refuted : (copedotMain { exCli with pipe := fun fmt _ => .ok fmt } c!"json" c!"a.abif").out = c!"json\n" ∧
    (jsonLoads c!"json\n").toOption.isNone = true := by
  decide +kernel

end

end Verif.Props
