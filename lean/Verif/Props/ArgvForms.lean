/-
C110: core.py, and the options of the programs as they are usually written.
-/
import Verif.Model.CoreRun
import Verif.Props.ScriptArgv

set_option linter.unusedSimpArgs false

namespace Verif.Props
open Verif Spec

section
variable [U : Uni]

/-- C110, core: it runs exactly on command lines with a run of one or more strings, and ways to write `--func` with one of its four choices in front
of or behind them; it does what the last choice says, `pref_to_dict` without one, and works on the first string. -/
theorem C110_core (reprList : List Str → Str) (argv : List Str) (r : CliResult) :
    coreRun reprList argv = .ran r ↔ ∃ ws₁ us₁ s ss ws₂ us₂, argv = ws₁ ++ (s :: ss) ++ ws₂ ∧ Line coreProgram ws₁ us₁ [] ∧ Line coreProgram ws₂ us₂ [] ∧
      (∀ u ∈ us₁ ++ us₂, u.1 = funcOpt ∧ (u.2 = c!"pref_to_dict" ∨ u.2 = c!"process_abif_prefline" ∨ u.2 = c!"emptyish" ∨ u.2 = c!"modify_jabmod")) ∧
      (∀ f ∈ s :: ss, PlainFor coreProgram f) ∧
      (us₁ ++ us₂ = [] → r = coreMain .prefToDict s) ∧
      (∀ us u, us₁ ++ us₂ = us ++ [u] → (u.2 = c!"pref_to_dict" → r = coreMain .prefToDict s) ∧
        (u.2 = c!"process_abif_prefline" → r = coreMain .processPrefline s) ∧
        (u.2 = c!"emptyish" → r = coreMain .emptyish s) ∧
        (u.2 = c!"modify_jabmod" → r = ⟨c!"FIXME: need to load jabmod file " ++ reprList (s :: ss) ++ c!"\n", .ok ()⟩)) := by
  have key := C110_parse_list C110_sound.2.2.2.1 (P := coreProgram) (.inl rfl) argv
  have hval : ∀ us : List (OptDef × Str), (∀ u ∈ us, u.1 = funcOpt) → optValue us funcOpt = (us.map Prod.snd).getLast? := by
    intro us hu
    unfold optValue
    rw [List.filter_eq_self.2]
    intro u h
    simp [hu u h]
  have hlast : ∀ (us : List (OptDef × Str)) (u : OptDef × Str), ((us ++ [u]).map Prod.snd).getLast? = some u.2 := by
    intro us u
    simp
  have run : ∀ s ss us, coreProgram.parse argv = .ok (s :: ss, us) → (∀ u ∈ us, u.1 = funcOpt ∧
      (u.2 = c!"pref_to_dict" ∨ u.2 = c!"process_abif_prefline" ∨ u.2 = c!"emptyish" ∨ u.2 = c!"modify_jabmod")) →
      (coreRun reprList argv = .ran r ↔ (us = [] → r = coreMain .prefToDict s) ∧
      (∀ us' u, us = us' ++ [u] → (u.2 = c!"pref_to_dict" → r = coreMain .prefToDict s) ∧
        (u.2 = c!"process_abif_prefline" → r = coreMain .processPrefline s) ∧
        (u.2 = c!"emptyish" → r = coreMain .emptyish s) ∧
        (u.2 = c!"modify_jabmod" → r = ⟨c!"FIXME: need to load jabmod file " ++ reprList (s :: ss) ++ c!"\n", .ok ()⟩))) := by
    intro s ss us hp hu
    unfold coreRun
    rw [hp]
    simp only
    rw [hval us (fun u h => (hu u h).1)]
    rcases List.eq_nil_or_concat us with rfl | ⟨us', u, rfl⟩
    · simp only [List.map_nil, List.getLast?_nil, Option.getD_none, if_true]
      constructor
      · intro h
        refine ⟨fun _ => (ArgvResult.ran.inj h).symm, ?_⟩
        intro us' u he
        simp at he
      · intro h
        rw [h.1 trivial]
    · have ha := (hu u (by simp)).2
      have hne : ¬ (us' ++ [u] = []) := by simp
      have hinj : ∀ us'' u', us' ++ [u] = us'' ++ [u'] → u' = u := by
        intro us'' u' he
        have := congrArg List.getLast? he
        rw [List.getLast?_concat, List.getLast?_concat] at this
        exact (Option.some.inj this).symm
      rw [List.concat_eq_append, hlast, Option.getD_some]
      constructor
      · intro h
        refine ⟨fun hn => absurd hn hne, ?_⟩
        intro us'' u' he
        have := hinj us'' u' he
        subst this
        rcases ha with ha | ha | ha | ha <;> rw [ha] at h ⊢ <;> simp at h ⊢ <;> exact h.symm
      · rintro ⟨-, h⟩
        obtain ⟨h1, h2, h3, h4⟩ := h us' u rfl
        rcases ha with ha | ha | ha | ha
        · rw [h1 ha, ha]; simp
        · rw [h2 ha, ha]; simp
        · rw [h3 ha, ha]; simp
        · rw [h4 ha, ha]; simp [printed]
  constructor
  · intro h
    cases hp : coreProgram.parse argv with
    | error e => unfold coreRun at h; rw [hp] at h; cases h
    | ok x =>
      obtain ⟨fs, us⟩ := x
      cases fs with
      | nil => unfold coreRun at h; rw [hp] at h; cases h
      | cons s ss =>
        obtain ⟨ws₁, us₁, ws₂, us₂, h1, h2, h3, rfl, h5, h6, _⟩ := (key _ _).1 hp
        have hu : ∀ u ∈ us₁ ++ us₂, u.1 = funcOpt ∧ (u.2 = c!"pref_to_dict" ∨ u.2 = c!"process_abif_prefline" ∨ u.2 = c!"emptyish" ∨ u.2 = c!"modify_jabmod") := by
          intro u hu
          have hin : u.1 ∈ coreProgram.all := by
            rcases List.mem_append.1 hu with h | h
            · exact (line_opts h2).1 u h
            · exact (line_opts h3).1 u h
          have hf : u.1 = funcOpt := by
            rcases List.mem_cons.1 hin with h | h
            · exact absurd h (h6 u hu).1
            · exact List.mem_singleton.1 h
          refine ⟨hf, ?_⟩
          have := (h6 u hu).2 _ (by rw [hf]; rfl)
          simpa using this
        exact ⟨ws₁, us₁, s, ss, ws₂, us₂, h1, h2, h3, hu, h5, (run s ss _ hp hu).1 h⟩
  · rintro ⟨ws₁, us₁, s, ss, ws₂, us₂, h1, h2, h3, h4, h5, h6⟩
    have hp : coreProgram.parse argv = .ok (s :: ss, us₁ ++ us₂) := by
      refine (key _ _).2 ⟨ws₁, us₁, ws₂, us₂, h1, h2, h3, rfl, h5, ?_, fun _ => by simp⟩
      intro u hu
      obtain ⟨g1, g2⟩ := h4 u hu
      rw [g1]
      refine ⟨by decide, fun l hl => ?_⟩
      cases hl
      simpa using g2
    exact (run s ss _ hp h4).2 h6

/-- C110, how the choice is written: `core.py -f V S` and `core.py --func V S` run the function `V` on the string `S`, `core.py S` runs
`pref_to_dict`, and `core.py` without a string ends with the usage message. -/
theorem C110_core_forms (reprList : List Str → Str) (s : Str) (hs : PlainFor coreProgram s) (w : Str) (hw : w = c!"-f" ∨ w = c!"--func") :
    coreRun reprList [s] = .ran (coreMain .prefToDict s) ∧
    coreRun reprList [w, c!"pref_to_dict", s] = .ran (coreMain .prefToDict s) ∧
    coreRun reprList [w, c!"process_abif_prefline", s] = .ran (coreMain .processPrefline s) ∧
    coreRun reprList [w, c!"emptyish", s] = .ran (coreMain .emptyish s) ∧
    coreRun reprList [w, c!"modify_jabmod", s] = .ran ⟨c!"FIXME: need to load jabmod file " ++ reprList [s] ++ c!"\n", .ok ()⟩ ∧
    coreRun reprList [] = .stopped .usage := by
  have form : ∀ (v : Str) (r : CliResult), v.head? ≠ some '-' →
      (v = c!"pref_to_dict" ∨ v = c!"process_abif_prefline" ∨ v = c!"emptyish" ∨ v = c!"modify_jabmod") →
      ((v = c!"pref_to_dict" → r = coreMain .prefToDict s) ∧ (v = c!"process_abif_prefline" → r = coreMain .processPrefline s) ∧
        (v = c!"emptyish" → r = coreMain .emptyish s) ∧
        (v = c!"modify_jabmod" → r = ⟨c!"FIXME: need to load jabmod file " ++ reprList [s] ++ c!"\n", .ok ()⟩)) →
      coreRun reprList [w, v, s] = .ran r := by
    intro v r hv hc hr
    have hwr : Wrote coreProgram [(funcOpt, v)] [w, v] := by
      rcases hw with rfl | rfl
      · exact .letterNext funcOpt 'f' v (by decide) rfl rfl (.inl hv)
      · exact .longNext funcOpt c!"func" v ⟨by decide, by decide, by decide, by decide⟩ rfl (.inl hv)
    refine (C110_core reprList _ r).2 ⟨[w, v], [(funcOpt, v)], s, [], [], [], rfl, ?_, .nil, ?_, by simpa using hs, by simp, ?_⟩
    · exact .opts [(funcOpt, v)] [] [w, v] [] [] hwr .nil
    · intro u hu
      simp only [List.append_nil, List.mem_singleton] at hu
      subst hu
      exact ⟨rfl, hc⟩
    · intro us u he
      have := congrArg List.getLast? he
      rw [List.append_nil, List.getLast?_concat] at this
      cases this
      exact hr
  refine ⟨?_, form _ _ (by decide) (.inl rfl) ⟨fun _ => rfl, ?_, ?_, ?_⟩, form _ _ (by decide) (.inr (.inl rfl)) ⟨?_, fun _ => rfl, ?_, ?_⟩,
    form _ _ (by decide) (.inr (.inr (.inl rfl))) ⟨?_, ?_, fun _ => rfl, ?_⟩, form _ _ (by decide) (.inr (.inr (.inr rfl))) ⟨?_, ?_, ?_, fun _ => rfl⟩, ?_⟩
  · refine (C110_core reprList _ _).2 ⟨[], [], s, [], [], [], rfl, .nil, .nil, by simp, by simpa using hs, fun _ => rfl, ?_⟩
    intro us u he
    simp at he
  all_goals first
    | (intro h; exact absurd h (by decide))
    | skip
  cases h : coreRun reprList [] with
  | ran r =>
    obtain ⟨ws₁, us₁, s', ss, ws₂, us₂, h1, _⟩ := (C110_core reprList [] r).1 h
    simp at h1
  | stopped e =>
    unfold coreRun at h
    have : coreProgram.parse [] = .error .usage := rfl
    rw [this] at h
    exact h.symm

/-- C110, how the options of the other programs are written: `-j` and `--json` of irvtally, `--outfmt V` of copedot, and the options of sftxt, where
`V` is any value that cannot be taken for an option. -/
theorem C110_forms (f a b v : Str) (hv : ∀ P : Program, PlainFor P v) (hf : ∀ P : Program, PlainFor P f) (ha : PlainFor sfProgram a) (hb : PlainFor sfProgram b)
    (env : CliEnv) :
    irvRun env [f] = .ran (irvMain env false f) ∧
    irvRun env [c!"-j", f] = .ran (irvMain env true f) ∧
    irvRun env [c!"--json", f] = .ran (irvMain env true f) ∧
    copedotRun env [f] = .ran (copedotMain env c!"svg" f) ∧
    (∀ fmt, fmt = c!"dot" ∨ fmt = c!"json" ∨ fmt = c!"svg" → copedotRun env [c!"--outfmt", fmt, f] = .ran (copedotMain env fmt f)) ∧
    sfProgram.parse [a, b] = .ok ([a, b], []) ∧
    sfProgram.parse [c!"-o", v, a, b] = .ok ([a, b], [(outfileOpt, v)]) ∧
    sfProgram.parse [c!"--outfile", v, a, b] = .ok ([a, b], [(outfileOpt, v)]) ∧
    sfProgram.parse [c!"--contestid", v, a, b] = .ok ([a, b], [(contestidOpt, v)]) ∧
    sfProgram.parse [c!"--outputformat", v, a, b] = .ok ([a, b], [(outputformatOpt, v)]) ∧
    sfProgram.parse [c!"--imagelines", a, b] = .ok ([a, b], [(imagelinesOpt, [])]) ∧
    sfProgram.parse [c!"--consolidate", a, b] = .ok ([a, b], [(consolidateOpt, [])]) := by
  have irv := fun ws us (h : Line irvProgram (ws ++ [f]) us [f]) (hu : ∀ u ∈ us, u.1 = jsonOpt) => (C110_irv env (ws ++ [f]) _).2 ⟨f, us, h, hu, rfl⟩
  have hfi : Line irvProgram [f] [] [f] := .file f [] [] [] (hf _) .nil
  have hfc : Line copedotProgram [f] [] [f] := .file f [] [] [] (hf _) .nil
  have hab : Line sfProgram [a, b] [] [a, b] := .file a _ _ _ ha (.file b _ _ _ hb .nil)
  have sf : ∀ us ws, Wrote sfProgram us ws → (∀ u ∈ us, u.1 ≠ helpOpt ∧ u.1.choices = none) → sfProgram.parse (ws ++ [a, b]) = .ok ([a, b], us) := by
    intro us ws hw hu
    refine (C110_parse C110_sound.2.2.2.2.1 (P := sfProgram) (n := 2) rfl _ _ _).2 ⟨?_, rfl, ?_⟩
    · have := Line.opts us [] ws _ _ hw hab
      rwa [List.append_nil] at this
    · intro u h
      refine ⟨(hu u h).1, fun l hl => ?_⟩
      rw [(hu u h).2] at hl
      cases hl
  have one : ∀ (o : OptDef) (x : Str), o ≠ helpOpt → o.choices = none → ∀ u ∈ [(o, x)], u.1 ≠ helpOpt ∧ u.1.choices = none := by
    intro o x h1 h2 u hu
    rw [List.mem_singleton] at hu
    subst hu
    exact ⟨h1, h2⟩
  refine ⟨irv [] [] hfi (by simp), ?_, ?_, ?_, ?_, ?_, ?_, ?_, ?_, ?_, ?_, ?_⟩
  · exact irv [c!"-j"] [(jsonOpt, [])] (.opts _ _ _ _ _ (.letterFlag jsonOpt 'j' (by decide) rfl rfl) hfi) (by simp)
  · exact irv [c!"--json"] [(jsonOpt, [])] (.opts _ _ _ _ _ (.longFlag jsonOpt c!"json" ⟨by decide, by decide, by decide, by decide⟩ rfl) hfi) (by simp)
  · exact (C110_copedot env _ _).2 ⟨f, [], hfc, by simp, rfl⟩
  · intro fmt hfmt
    have hd : fmt.head? ≠ some '-' := by rcases hfmt with rfl | rfl | rfl <;> decide
    refine (C110_copedot env _ _).2 ⟨f, [(outfmtOpt, fmt)], ?_, by simpa using hfmt, rfl⟩
    exact .opts [(outfmtOpt, fmt)] [] [c!"--outfmt", fmt] _ _ (.longNext outfmtOpt c!"outfmt" fmt ⟨by decide, by decide, by decide, by decide⟩ rfl (.inl hd)) hfc
  · refine (C110_parse C110_sound.2.2.2.2.1 (P := sfProgram) (n := 2) rfl _ _ _).2 ⟨hab, rfl, fun u hu => by cases hu⟩
  · exact sf _ [c!"-o", v] (.letterNext outfileOpt 'o' v (by decide) rfl rfl (hv _)) (one _ _ (by decide) rfl)
  · exact sf _ [c!"--outfile", v] (.longNext outfileOpt c!"outfile" v ⟨by decide, by decide, by decide, by decide⟩ rfl (hv _)) (one _ _ (by decide) rfl)
  · exact sf _ [c!"--contestid", v] (.longNext contestidOpt c!"contestid" v ⟨by decide, by decide, by decide, by decide⟩ rfl (hv _)) (one _ _ (by decide) rfl)
  · exact sf _ [c!"--outputformat", v] (.longNext outputformatOpt c!"outputformat" v ⟨by decide, by decide, by decide, by decide⟩ rfl (hv _)) (one _ _ (by decide) rfl)
  · exact sf _ [c!"--imagelines"] (.longFlag imagelinesOpt c!"imagelines" ⟨by decide, by decide, by decide, by decide⟩ rfl) (one _ _ (by decide) rfl)
  · exact sf _ [c!"--consolidate"] (.longFlag consolidateOpt c!"consolidate" ⟨by decide, by decide, by decide, by decide⟩ rfl) (one _ _ (by decide) rfl)

end

section
attribute [local instance] Uni.ascii
set_option maxRecDepth 20000

/-- the hypotheses are met -/
example : ∀ P : Program, PlainFor P c!"vote.abif" := fun _ => .inl (by decide)
example : PlainFor coreProgram c!"A/5 > B" := .inl (by decide)
example : (match coreRun (fun _ => []) [c!"-f", c!"emptyish", c!"x"] with | .ran r => r.ending == .ok () | .stopped _ => false) = true := by decide +kernel
end

end Verif.Props
