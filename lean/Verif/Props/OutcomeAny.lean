/-
C99 for the other input formats.
-/
import Verif.Props.Outcome
import Verif.Props.NameqImport
import Verif.Props.SfMain

set_option linter.unusedSimpArgs false
set_option linter.unusedSectionVars false

namespace Verif.Props
open Verif Spec

section
variable [U : Uni]

/-- C99 for every input format: when the input can be read and the election is as the readers of ballots make it, the run ends without
an exception, or with exactly the one `outputFailure` says, having printed nothing. -/
theorem C99_any (env : CliEnv) (a : CliArgs) (fmt s : Str) (blobs : List Str) (m : Jabmod) (hf : cliFormat a = .ok fmt)
    (hv : fmt ∈ inputFormats) (hi : cliInput env a = .ok (s, blobs)) (hm : cliModel env a fmt s blobs = .ok m) (hs : Tallyable m)
    (hnm : NeedsNames a.to (cliModifiers a) → ∀ c, Dict.get? m.candidates c ≠ some none)
    (he : LibrariesWork env a.width (outputModel a m)) :
    match outputFailure a.to (cliModifiers a) (outputModel a m) with
    | none => (cliMain env a).ending = .ok ()
    | some e => cliMain env a = ⟨[], .error e⟩ := by
  have hs : Tallyable (outputModel a m) := by
    unfold outputModel
    split
    · exact consolidated_tallyable m hs
    · exact hs
  have key := C99_output env a (outputModel a m) hs (fun hx => by
    have := hnm hx
    unfold outputModel
    split
    · exact this
    · exact this) he
  have hin : ¬ fmt ∉ validInFmts := by
    have : ∀ x ∈ inputFormats, x ∈ validInFmts := by decide
    simpa using this fmt hv
  have hrun : cliMain env a = (match cliOutput env a (outputModel a m) with
      | .error e => (⟨[], .error e⟩ : CliResult)
      | .ok out => ⟨out ++ c!"\n", .ok ()⟩) := by
    unfold cliMain
    rw [hf]
    simp only
    rw [if_neg hin, hi]
    simp only
    rw [hm]
    rfl
  rw [hrun]
  unfold EndsAs at key
  split at key
  · rename_i e heq
    rw [heq]
    simp only
    rw [key]
  · rename_i heq
    rw [heq]
    obtain ⟨x, hx⟩ := key
    simp only
    rw [hx]

/-- C99, preflib and Debian tally sheets: these are read through ABIF text, so their elections are as needed (as long as that text is
shorter than 2^61 characters). -/
theorem C99_converted (env : CliEnv) (a : CliArgs) (fmt s : Str) (blobs : List Str) (m : Jabmod)
    (hf : fmt = c!"preflib" ∨ fmt = c!"debtally") (hm : cliModel env a fmt s blobs = .ok m)
    (hlen : ∀ t : Str, (convertPreflib s = .ok t ∨ convertDebtally env.sha [] s = .ok t) → t.length < 2 ^ 61) : Sound m := by
  rcases hf with rfl | rfl
  · have e : cliModel env a c!"preflib" s blobs = (convertPreflib s).bind (convertAbif false false false) := rfl
    rw [e] at hm
    cases ht : convertPreflib s with
    | error e => rw [ht] at hm; cases hm
    | ok t =>
      rw [ht] at hm
      exact C99_parsed _ _ _ t m hm (hlen t (.inl ht))
  · have e : cliModel env a c!"debtally" s blobs = (convertDebtally env.sha [] s).bind (convertAbif false false false) := rfl
    rw [e] at hm
    cases ht : convertDebtally env.sha [] s with
    | error e => rw [ht] at hm; cases hm
    | ok t =>
      rw [ht] at hm
      exact C99_parsed _ _ _ t m hm (hlen t (.inr ht))

omit U in
theorem firstValue_exists {fs : List (Str × Str)} {k : Str} (h : k ∈ fs.map Prod.fst) : ∃ v, FirstValue fs k v := by
  induction fs with
  | nil => cases h
  | cons x fs ih =>
    obtain ⟨k', v⟩ := x
    by_cases hk : k' = k
    · subst hk; exact ⟨v, [], fs, rfl, by simp⟩
    · obtain ⟨w, a, b, rfl, hb⟩ := ih (by
        simp only [List.map_cons, List.mem_cons] at h
        exact h.resolve_left (fun e => hk e.symm))
      refine ⟨w, (k', v) :: a, b, rfl, ?_⟩
      intro x hx
      rcases List.mem_cons.1 hx with rfl | hx
      · exact hk
      · exact hb x hx

/-- C99, nameq: every election read from a nameq text whose ranks are below `sys.maxsize` is as needed. -/
theorem C99_nameq (text : Str) (m : Jabmod) (h : nameqToJabmod text = .ok m)
    (hr : ∀ vl ∈ m.votelines, ∀ c p r, Dict.get? vl.prefs c = some p → p.rank = some r → r < 9223372036854775807) : Sound m := by
  obtain ⟨fss, hf⟩ := lineFields_exist text
  obtain ⟨h1, h2, h3, h4⟩ := (C93_import text fss hf).2 m h
  have hball : ∀ vl ∈ m.votelines, ∃ fs ∈ fss, BallotOf fs vl := fun vl hvl => forall₂_mem_right h1 hvl
  have hent : ∀ vl ∈ m.votelines, ∀ c p, Dict.get? vl.prefs c = some p → ∃ r : Int, p = { rank := some r } := by
    intro vl hvl c p hp
    obtain ⟨fs, _, _, hk, hb⟩ := hball vl hvl
    have hc : c ∈ fs.map Prod.fst := by
      have := Dict.mem_keys_of_get? hp
      rw [hk, mem_firsts] at this
      exact this
    obtain ⟨v, hv⟩ := firstValue_exists hc
    obtain ⟨r, _, hg⟩ := hb c v hv
    rw [hp] at hg
    cases hg
    exact ⟨r, rfl⟩
  refine ⟨⟨⟨?_, ?_, ?_, ?_⟩, ?_, ?_⟩, ?_⟩
  · rw [h2]; exact nodup_firsts _
  · intro vl hvl
    obtain ⟨fs, _, _, hk, _⟩ := hball vl hvl
    rw [hk]; exact nodup_firsts _
  · intro vl hvl c hc
    obtain ⟨fs, hfs, _, hk, _⟩ := hball vl hvl
    rw [hk, mem_firsts] at hc
    rw [h2, mem_firsts]
    exact List.mem_flatMap.2 ⟨fs, hfs, hc⟩
  · intro vl hvl c p hp
    obtain ⟨r, rfl⟩ := hent vl hvl c p hp
    exact ⟨_, rfl⟩
  · intro vl hvl c p hp
    obtain ⟨r, rfl⟩ := hent vl hvl c p hp
    exact ⟨r, rfl, hr vl hvl c _ r hp rfl⟩
  · rw [h4]
    have hq : (m.votelines.map Voteline.qty).sum = fss.length := by
      rw [h1.length_eq]
      have hone : ∀ l : List Voteline, (∀ vl ∈ l, vl.qty = 1) → (l.map Voteline.qty).sum = l.length := by
        intro l
        induction l with
        | nil => intro _; rfl
        | cons v l ih =>
          intro hl
          rw [List.map_cons, List.sum_cons, ih (fun w hw => hl w (by simp [hw])), hl v (by simp), List.length_cons]
          omega
      exact hone _ (fun vl hvl => by obtain ⟨fs, _, hq, _⟩ := hball vl hvl; exact hq)
    rw [hq]
    rfl
  · intro c hc
    have := h3 c (Dict.mem_keys_of_get? hc)
    rw [this] at hc
    cases hc

end

section
attribute [local instance] Uni.ascii
set_option maxRecDepth 20000

/-- non-vacuity: a nameq text with two ballots, ranks 1 and 2 -/
example : ∃ m, nameqToJabmod c!"A=1&B=2\nB=1\n" = .ok m ∧ Sound m ∧ outputFailure c!"text" [c!"IRV", c!"score", c!"Copeland"] m = none := by
  refine ⟨_, rfl, C99_nameq c!"A=1&B=2\nB=1\n" _ rfl ?_, rfl⟩
  intro vl hvl c p r hp hr
  have hall : ∀ vl ∈ (nameqToJabmod c!"A=1&B=2\nB=1\n").toOption.toList.flatMap Jabmod.votelines, ∀ e ∈ vl.prefs,
      e.2.rank = some 1 ∨ e.2.rank = some 2 := by decide +kernel
  rcases hall vl (by exact List.mem_flatMap.2 ⟨_, List.mem_singleton.2 rfl, hvl⟩) (c, p) (Dict.mem_of_get? hp) with h | h <;>
    (simp only at h; rw [hr] at h; cases h; decide)

end

end Verif.Props
