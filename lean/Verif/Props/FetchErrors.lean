/-
C56: when a download run fails, and with what.
-/
import Verif.Props.FetchEdge

set_option linter.unusedSimpArgs false
set_option linter.unusedSectionVars false

namespace Verif.Props
open Verif Spec

section
variable {L : Type} [DecidableEq L]

/-- an entry with everything that is used when something has to be downloaded -/
def Complete (u : UrlDict) : Prop := WellFormed u ∧ (∃ x xs, u.metaurls = some (x :: xs)) ∧ ∃ t, u.desc = some t

/-- every request is answered (with whatever status), directories can be made, files opened and written completely -/
structure Calm (W : World L) : Prop where
  answers : ∀ k url, W.server k url ≠ none
  makes : ∀ fs p, W.canMake fs p = true
  opens : ∀ fs p, W.canOpen fs p = true
  writes : ∀ fs p, W.cut fs p = none

/-- Paths that can be written to: making the directory a path is in makes that directory, and not the path itself. -/
def Storable (P : PathSem L) (path : Str) : Prop :=
  pyDirname path ≠ [] ∧ P.loc (pyDirname path) ∈ P.up (pyDirname path) ∧ P.loc path ∉ P.up (pyDirname path)

theorem makedirs_error {P : PathSem L} {W : World L} {s s' : FetchState L} {p : Str} {e : PyErr} (h : makedirs P W s p = (.error e, s')) : e = .other := by
  unfold makedirs at h
  split at h
  · simp only [Prod.mk.injEq, Except.error.injEq] at h; exact h.1.symm
  · simp at h

theorem makedirs_calm {P : PathSem L} {W : World L} (hW : Calm W) (s : FetchState L) {p : Str} (hp : p ≠ []) (hup : P.loc p ∈ P.up p) :
    ∃ s', makedirs P W s p = (.ok (), s') ∧ s'.has P p = true ∧ ∀ l, l ∉ P.up p → s'.fs l = s.fs l := by
  unfold makedirs
  rw [if_neg (by rw [hW.makes]; simp [hp])]
  refine ⟨_, rfl, ?_, ?_⟩
  · unfold FetchState.has
    simp only [hup, true_and]
    split
    · rfl
    · cases h : s.fs (P.loc p) with
      | none => rename_i hn; exact absurd h hn
      | some _ => rfl
  · intro l hl
    simp [hl]

theorem writeFile_error {P : PathSem L} {W : World L} {s s' : FetchState L} {p c : Str} {e : PyErr} (h : writeFile P W s p c = (.error e, s')) : e = .other := by
  unfold writeFile at h
  split at h
  · simp only [Prod.mk.injEq, Except.error.injEq] at h; exact h.1.symm
  · split at h
    · simp at h
    · simp only [Prod.mk.injEq, Except.error.injEq] at h; exact h.1.symm

theorem fetchUrl_error {P : PathSem L} {W : World L} {s s' : FetchState L} {url subdir p : Str} {e : PyErr}
    (h : fetchUrl P W s url subdir p = (.error e, s')) : e = .other := by
  unfold fetchUrl at h
  split at h
  · simp only [Prod.mk.injEq, Except.error.injEq] at h; exact h.1.symm
  · simp only at h
    split at h
    · simp only [Prod.mk.injEq, Except.error.injEq] at h; exact h.1.symm
    · split at h
      · split at h
        · rename_i hm
          simp only [Prod.mk.injEq, Except.error.injEq] at h
          rw [← h.1]
          split at hm
          · simp at hm
          · exact makedirs_error hm
        · split at h
          · exact writeFile_error h
          · simp only [Prod.mk.injEq, Except.error.injEq] at h; exact h.1.symm
      · simp at h

theorem fetchUrl_calm {P : PathSem L} {W : World L} (hW : Calm W) (s : FetchState L) {url subdir p : Str} (h1 : url ≠ []) (h2 : subdir ≠ []) (h3 : p ≠ [])
    (hp : Storable P p) (hn : s.has P p = false) : ∃ s', fetchUrl P W s url subdir p = (.ok (), s') := by
  unfold fetchUrl
  rw [if_neg (by simp [h1, h2, h3])]
  simp only
  have hnone : s.fs (P.loc p) = none := by
    unfold FetchState.has at hn
    cases h : s.fs (P.loc p) with
    | none => rfl
    | some _ => rw [h] at hn; cases hn
  cases hs : W.server s.reqs.length url with
  | none => exact absurd hs (hW.answers _ _)
  | some a =>
    obtain ⟨status, content⟩ := a
    simp only
    by_cases h200 : status = 200
    · rw [if_pos h200]
      have key : ∀ s'' : FetchState L, s''.fs (P.loc p) = none → s''.has P (pyDirname p) = true →
          ∃ s', (if s''.has P (pyDirname p) then writeFile P W s'' p content else (.error .other, s'')) = ((.ok () : Except PyErr Unit), s') := by
        intro s'' hf hd
        rw [if_pos hd]
        unfold writeFile
        rw [if_neg (by rw [hf, hW.opens]; simp), hW.writes]
        exact ⟨_, rfl⟩
      by_cases hd : (⟨s.fs, s.reqs ++ [url]⟩ : FetchState L).has P (pyDirname p) = true
      · rw [if_pos hd]
        exact key _ hnone hd
      · rw [if_neg hd]
        obtain ⟨s'', e1, e2, e3⟩ := makedirs_calm hW (⟨s.fs, s.reqs ++ [url]⟩ : FetchState L) hp.1 hp.2.1
        rw [e1]
        exact key s'' (by rw [e3 _ hp.2.2]; exact hnone) e2
    · rw [if_neg h200]
      exact ⟨_, rfl⟩

theorem fetchArgs_complete {u : UrlDict} (h : Complete u) : fetchArgs u = .ok () := by
  obtain ⟨_, ⟨x, xs, e1⟩, t, e2⟩ := h
  unfold fetchArgs
  rw [e1, e2]

theorem fetchOne_error {P : PathSem L} {W : World L} {s s' : FetchState L} {u : UrlDict} {url subdir p : Str} {e : PyErr} (hu : Complete u)
    (h : fetchOne P W subdir u s (some url) p = (.error e, s')) : e = .other := by
  unfold fetchOne at h
  split at h
  · simp at h
  · simp only [fetchArgs_complete hu] at h
    exact fetchUrl_error h

theorem fetchOne_calm {P : PathSem L} {W : World L} (hW : Calm W) (s : FetchState L) {u : UrlDict} {url subdir p : Str} (hu : Complete u) (h1 : url ≠ [])
    (h2 : subdir ≠ []) (h3 : p ≠ []) (hp : Storable P p) : ∃ s', fetchOne P W subdir u s (some url) p = (.ok (), s') := by
  unfold fetchOne
  by_cases hh : s.has P p = true
  · rw [if_pos hh]; exact ⟨_, rfl⟩
  · rw [if_neg hh]
    simp only [fetchArgs_complete hu]
    exact fetchUrl_calm hW s h1 h2 h3 hp (by simpa using hh)

theorem fetchMany_error {P : PathSem L} {W : World L} {u : UrlDict} {subdir : Str} {e : PyErr} (hu : Complete u) (lps : List Str) :
    ∀ (urls : List Str) (i : Nat) (s s' : FetchState L), i + urls.length ≤ lps.length → fetchMany P W subdir u lps urls i s = (.error e, s') → e = .other
  | [], _, _, _, _, h => by simp [fetchMany] at h
  | url :: urls, i, s, s', hl, h => by
    unfold fetchMany at h
    simp only [List.length_cons] at hl
    rw [List.getElem?_eq_getElem (by omega : i < lps.length)] at h
    simp only at h
    split at h
    · rename_i ho
      simp only [Prod.mk.injEq, Except.error.injEq] at h
      rw [← h.1]
      exact fetchOne_error hu ho
    · exact fetchMany_error hu lps urls (i + 1) _ s' (by omega) h

theorem fetchMany_calm {P : PathSem L} {W : World L} (hW : Calm W) {u : UrlDict} {subdir : Str} (hu : Complete u) (h2 : subdir ≠ []) (lps : List Str) :
    ∀ (urls : List Str) (i : Nat) (s : FetchState L), i + urls.length ≤ lps.length →
      (∀ d ∈ urls.zip (lps.drop i), d.1 ≠ [] ∧ d.2 ≠ [] ∧ Storable P d.2) → ∃ s', fetchMany P W subdir u lps urls i s = (.ok (), s')
  | [], _, s, _, _ => ⟨s, rfl⟩
  | url :: urls, i, s, hl, hd => by
    unfold fetchMany
    simp only [List.length_cons] at hl
    have hi : i < lps.length := by omega
    rw [List.getElem?_eq_getElem hi]
    rw [List.drop_eq_getElem_cons hi, List.zip_cons_cons] at hd
    obtain ⟨a1, a2, a3⟩ := hd (url, lps[i]) (by simp)
    obtain ⟨s1, e⟩ := fetchOne_calm (subdir := subdir) hW s hu a1 h2 a2 a3
    simp only [e]
    exact fetchMany_calm hW hu h2 lps urls (i + 1) s1 (by omega) (fun d hdm => hd d (by simp [hdm]))

theorem fetchLoop_error {P : PathSem L} {W : World L} {subdir : Str} {e : PyErr} : ∀ (us : List UrlDict) (lps : List Str) (lp : Option Str) (s s' : FetchState L),
    (∀ u ∈ us, Complete u) → fetchLoop P W subdir us lps lp s = (.error e, s') → e = .other
  | [], _, _, _, _, _, h => by simp [fetchLoop] at h
  | u :: us, lps, lp, s, s', hu, h => by
    have hu0 := hu u (by simp)
    have ih := fun lps lp s => fetchLoop_error (P := P) (W := W) (subdir := subdir) (e := e) us lps lp s s' (fun v hv => hu v (by simp [hv]))
    unfold fetchLoop at h
    rcases hu0.1 with ⟨cs, urls, h1, h2, h3⟩ | ⟨c, url, h1, h2, h3, h4⟩
    · have e1 : itemPaths subdir u lps lp = .ok (setCopies subdir cs 0 lps, lp) := by unfold itemPaths; rw [h1]
      rw [e1] at h
      simp only at h
      unfold fetchItem at h
      rw [h2] at h
      simp only at h
      split at h
      · rename_i ho
        simp only [Prod.mk.injEq, Except.error.injEq] at h
        rw [← h.1]
        have := (setCopies_take subdir cs 0 lps (Nat.zero_le _)).2
        exact fetchMany_error hu0 _ _ _ _ _ (by omega) ho
      · exact ih _ _ _ h
    · have e1 : itemPaths subdir u lps lp = .ok (lps, some (pyJoin subdir c)) := by unfold itemPaths; rw [h1, h3]
      rw [e1] at h
      simp only at h
      unfold fetchItem at h
      rw [h2] at h
      simp only [h4] at h
      split at h
      · rename_i ho
        simp only [Prod.mk.injEq, Except.error.injEq] at h
        rw [← h.1]
        exact fetchOne_error hu0 ho
      · exact ih _ _ _ h

theorem fetchLoop_calm {P : PathSem L} {W : World L} (hW : Calm W) {subdir : Str} (h2 : subdir ≠ []) : ∀ (us : List UrlDict) (lps : List Str) (lp : Option Str)
    (s : FetchState L), (∀ u ∈ us, Complete u) → (∀ d ∈ us.flatMap (wanted subdir), d.1 ≠ [] ∧ d.2 ≠ [] ∧ Storable P d.2) →
      ∃ s', fetchLoop P W subdir us lps lp s = (.ok (), s')
  | [], _, _, s, _, _ => ⟨s, rfl⟩
  | u :: us, lps, lp, s, hu, hd => by
    have hu0 := hu u (by simp)
    have ih := fun lps lp s => fetchLoop_calm (P := P) hW h2 us lps lp s (fun v hv => hu v (by simp [hv]))
      (fun d hdm => hd d (by rw [List.flatMap_cons]; exact List.mem_append_right _ hdm))
    have hd0 : ∀ d ∈ wanted subdir u, d.1 ≠ [] ∧ d.2 ≠ [] ∧ Storable P d.2 := fun d hdm => hd d (by rw [List.flatMap_cons]; exact List.mem_append_left _ hdm)
    unfold fetchLoop
    rcases hu0.1 with ⟨cs, urls, h1, h2', h3⟩ | ⟨c, url, h1, h2', h3, h4⟩
    · have e1 : itemPaths subdir u lps lp = .ok (setCopies subdir cs 0 lps, lp) := by unfold itemPaths; rw [h1]
      rw [e1]
      simp only
      unfold fetchItem
      rw [h2']
      have hsc := setCopies_take subdir cs 0 lps (Nat.zero_le _)
      simp only [Nat.zero_add, List.take_zero, List.nil_append] at hsc
      obtain ⟨s1, e2⟩ := fetchMany_calm (P := P) (u := u) hW hu0 h2 (setCopies subdir cs 0 lps) urls 0 s (by omega) (by
        rw [List.drop_zero, ← zip_take_right _ _ cs.length h3, hsc.1]
        unfold wanted at hd0
        rw [h1, h2'] at hd0
        exact hd0)
      simp only [e2]
      exact ih _ _ _
    · have e1 : itemPaths subdir u lps lp = .ok (lps, some (pyJoin subdir c)) := by unfold itemPaths; rw [h1, h3]
      rw [e1]
      simp only
      unfold fetchItem
      rw [h2', h4]
      obtain ⟨a1, a2, a3⟩ := hd0 (url, pyJoin subdir c) (by unfold wanted; rw [h1, h2', h3, h4]; simp)
      obtain ⟨s1, e2⟩ := fetchOne_calm (subdir := subdir) hW s hu0 a1 h2 a2 a3
      simp only [e2]
      exact ih _ _ _

/-- C56, failures.  A run with complete entries fails only with an error of the network or the operating system (`other`: neither KeyError nor
IndexError nor NameError). -/
theorem C56_errors (P : PathSem L) (W : World L) (subdir : Str) (us : List UrlDict) (h : ∀ u ∈ us, Complete u) (s s' : FetchState L) (e : PyErr)
    (hrun : fetchWebItems P W subdir us s = (.error e, s')) : e = .other := by
  unfold fetchWebItems at hrun
  split at hrun
  · rename_i hm
    simp only [Prod.mk.injEq, Except.error.injEq] at hrun
    rw [← hrun.1]
    split at hm
    · simp at hm
    · exact makedirs_error hm
  · exact fetchLoop_error us _ _ _ _ h hrun

/-- C56, success.  When all requests are answered (with whatever status) and the operating system makes no trouble, a run with complete entries
and no empty urls or paths ends normally. -/
theorem C56_succeeds (P : PathSem L) (W : World L) (hW : Calm W) (subdir : Str) (us : List UrlDict) (h : ∀ u ∈ us, Complete u) (h2 : subdir ≠ [])
    (hup : P.loc subdir ∈ P.up subdir) (hd : ∀ d ∈ us.flatMap (wanted subdir), d.1 ≠ [] ∧ d.2 ≠ [] ∧ Storable P d.2) (s : FetchState L) :
    ∃ s', fetchWebItems P W subdir us s = (.ok (), s') := by
  unfold fetchWebItems
  by_cases hh : s.has P subdir = true
  · rw [if_pos hh]
    exact fetchLoop_calm hW h2 us _ _ _ h hd
  · rw [if_neg hh]
    obtain ⟨s1, e1, _⟩ := makedirs_calm hW s h2 hup
    rw [e1]
    exact fetchLoop_calm hW h2 us _ _ _ h hd

/-- C56, an entry without local copies.  A first entry with neither `localcopies` nor `localcopy` ends the run with a KeyError. -/
theorem C56_unnamed (P : PathSem L) (W : World L) (subdir : Str) (u : UrlDict) (us : List UrlDict) (s : FetchState L)
    (hs : s.has P subdir = true) (h1 : u.localcopies = none) (h2 : u.localcopy = none) :
    fetchWebItems P W subdir (u :: us) s = (.error .keyError, s) := by
  unfold fetchWebItems
  rw [if_pos hs]
  have e1 : itemPaths subdir u [] none = .error .keyError := by unfold itemPaths; rw [h1, h2]
  unfold fetchLoop
  rw [e1]

/-- C56, malformed entries.  A first entry with a list of local copies but one `url` ends the run with a NameError (UnboundLocalError), one with
more urls than local copies whose files are all there with an IndexError. -/
theorem C56_malformed (P : PathSem L) (W : World L) (subdir : Str) (u : UrlDict) (us : List UrlDict) (s : FetchState L) (cs : List Str)
    (hs : s.has P subdir = true) (h1 : u.localcopies = some cs) :
    (u.urls = none → fetchWebItems P W subdir (u :: us) s = (.error .nameError, s)) ∧
    ∀ urls, u.urls = some urls → cs.length < urls.length → (∀ c ∈ cs, s.has P (pyJoin subdir c) = true) →
      fetchWebItems P W subdir (u :: us) s = (.error .indexError, s) := by
  have hstart : fetchWebItems P W subdir (u :: us) s = fetchLoop P W subdir (u :: us) [] none s := by
    unfold fetchWebItems
    rw [if_pos hs]
  have e1 : itemPaths subdir u [] none = .ok (setCopies subdir cs 0 [], none) := by unfold itemPaths; rw [h1]
  have hcopies : setCopies subdir cs 0 [] = cs.map (pyJoin subdir) := by
    have key : ∀ (cs : List Str) (i : Nat) (lp : List Str), lp.length = i → setCopies subdir cs i lp = lp ++ cs.map (pyJoin subdir) := by
      intro cs
      induction cs with
      | nil => intro i lp _; simp [setCopies]
      | cons c cs ih =>
        intro i lp hl
        unfold setCopies
        have : (lp ++ [c!"REPLACETHIS"]).set i (pyJoin subdir c) = lp ++ [pyJoin subdir c] := by
          subst hl
          rw [List.set_append_right _ _ (Nat.le_refl _)]
          simp
        rw [this, ih (i + 1) _ (by simp [hl])]
        simp
    simpa using key cs 0 [] rfl
  refine ⟨fun hu => ?_, ?_⟩
  · rw [hstart]
    unfold fetchLoop
    rw [e1]
    simp only
    unfold fetchItem
    rw [hu]
  · intro urls hu hlt hall
    rw [hstart]
    unfold fetchLoop
    rw [e1, hcopies]
    simp only
    unfold fetchItem
    rw [hu]
    have key : ∀ (urls : List Str) (i : Nat), i ≤ cs.length → cs.length < i + urls.length →
        fetchMany P W subdir u (cs.map (pyJoin subdir)) urls i s = (.error .indexError, s) := by
      intro urls
      induction urls with
      | nil => intro i h1 h2; simp at h2; omega
      | cons x urls ih =>
        intro i h1 h2
        unfold fetchMany
        by_cases hi : i < cs.length
        · rw [List.getElem?_map, List.getElem?_eq_getElem hi]
          have : fetchOne P W subdir u s (some x) (pyJoin subdir cs[i]) = (.ok (), s) := by
            unfold fetchOne
            rw [if_pos (hall _ (List.getElem_mem hi))]
          simp only [Option.map_some, this]
          exact ih (i + 1) (by omega) (by simp only [List.length_cons] at h2; omega)
        · rw [List.getElem?_eq_none (by simp; omega)]
    simp only [key urls 0 (Nat.zero_le _) (by omega)]

end

/-- the example run of C56 meets the hypotheses -/
example : (∀ u ∈ exSpecs, Complete u) ∧ Calm (exWorld none) ∧ c!"dl" ≠ [] ∧ flatFs.loc c!"dl" ∈ flatFs.up c!"dl" ∧
    ∀ d ∈ exSpecs.flatMap (wanted c!"dl"), d.1 ≠ [] ∧ d.2 ≠ [] ∧ Storable flatFs d.2 := by
  refine ⟨?_, ⟨?_, fun _ _ => rfl, fun _ _ => rfl, fun _ _ => rfl⟩, by decide, by simp [flatFs], ?_⟩
  · intro u hu
    simp only [exSpecs, List.mem_cons, List.not_mem_nil, or_false] at hu
    rcases hu with rfl | rfl
    · exact ⟨.inl ⟨_, _, rfl, rfl, by decide⟩, ⟨_, _, rfl⟩, _, rfl⟩
    · exact ⟨.inr ⟨_, _, rfl, rfl, rfl, rfl⟩, ⟨_, _, rfl⟩, _, rfl⟩
  · intro k url
    show (if k = 0 then _ else _) ≠ none
    split <;> simp
  · unfold Storable flatFs
    decide +kernel
/-- an entry with two urls and one local copy, which is there -/
example : exStart.has flatFs c!"dl/a" = true ∧ pyJoin c!"dl" c!"a" = c!"dl/a" ∧ [c!"a"].length < [c!"u1", c!"u2"].length := by decide +kernel
end Verif.Props
