/-
C56, C73: incomplete entries, fetchspecs with a git repository, several fetchspecs, descriptions.
-/
import Verif.Props.FetchRun
import Verif.Props.ImportText

set_option linter.unusedSimpArgs false
set_option linter.unusedSectionVars false

namespace Verif.Props
open Verif Spec

section
variable [U : Uni] {L : Type} [DecidableEq L]

/-- C56.  An entry that lacks its url, its metaurls or its description, when its file is not there yet: the run ends with a KeyError
(IndexError for an empty list of metaurls); nothing is requested and nothing is changed.  If the file is there, the entry is
passed over all the same. -/
theorem C56_incomplete (P : PathSem L) (W : World L) (subdir c : Str) (u : UrlDict) (s : FetchState L) (hd : s.has P subdir = true)
    (h1 : u.localcopies = none) (h2 : u.localcopy = some c) (h3 : u.urls = none) :
    (s.has P (pyJoin subdir c) = true → fetchWebItems P W subdir [u] s = (.ok (), s)) ∧
    (s.has P (pyJoin subdir c) = false → ∀ us,
      (u.url = none → fetchWebItems P W subdir (u :: us) s = (.error .keyError, s)) ∧
      (∀ x, u.url = some x → u.metaurls = none → fetchWebItems P W subdir (u :: us) s = (.error .keyError, s)) ∧
      (∀ x, u.url = some x → u.metaurls = some [] → fetchWebItems P W subdir (u :: us) s = (.error .indexError, s)) ∧
      (∀ x y ys, u.url = some x → u.metaurls = some (y :: ys) → u.desc = none → fetchWebItems P W subdir (u :: us) s = (.error .keyError, s))) := by
  have hstart : ∀ us, fetchWebItems P W subdir us s = fetchLoop P W subdir us [] none s := by
    intro us
    unfold fetchWebItems
    rw [if_pos hd]
  have hitem : ∀ us, fetchLoop P W subdir (u :: us) [] none s =
      (match fetchOne P W subdir u s u.url (pyJoin subdir c) with
      | (.error e, s) => (.error e, s)
      | (.ok (), s) => fetchLoop P W subdir us [] (some (pyJoin subdir c)) s) := by
    intro us
    unfold fetchLoop
    have : itemPaths subdir u [] none = .ok ([], some (pyJoin subdir c)) := by
      unfold itemPaths
      rw [h1, h2]
    rw [this]
    simp only
    unfold fetchItem
    rw [h3]
    cases us <;> rfl
  constructor
  · intro hf
    rw [hstart, hitem]
    unfold fetchOne
    rw [if_pos hf]
    rfl
  · intro hf us
    have hone : ∀ r, fetchOne P W subdir u s u.url (pyJoin subdir c) = (.error r, s) → fetchWebItems P W subdir (u :: us) s = (.error r, s) := by
      intro r hr
      rw [hstart, hitem, hr]
    have hn : ¬ s.has P (pyJoin subdir c) = true := by rw [hf]; simp
    refine ⟨?_, ?_, ?_, ?_⟩
    · intro e; apply hone; unfold fetchOne; rw [if_neg hn, e]
    · intro x e e2; apply hone; unfold fetchOne fetchArgs; rw [if_neg hn, e, e2]
    · intro x e e2; apply hone; unfold fetchOne fetchArgs; rw [if_neg hn, e, e2]
    · intro x y ys e e2 e3; apply hone; unfold fetchOne fetchArgs; rw [if_neg hn, e, e2]; simp only; rw [e3]

/-- the entries whose files are converted: the `web_urls`, or if there are none the `extfiles` -/
inductive EntriesOf (f : FetchSpec) : List SpecEntry → Prop
  | web (e : SpecEntry) (es : List SpecEntry) : f.webUrls = some (e :: es) → EntriesOf f (e :: es)
  | ext (es : List SpecEntry) : f.webUrls = none ∨ f.webUrls = some [] → f.extfiles = some es → EntriesOf f es
  | none : f.webUrls = none ∨ f.webUrls = some [] → f.extfiles = none → EntriesOf f []

/-- how the files of a fetchspec are got: from its git repository if it has one (the `web_urls` are not downloaded then), else by
downloading its `web_urls`; a fetchspec without both is an error -/
inductive Got (P : PathSem L) (W : World L) (E : ConvEnv L) (f : FetchSpec) (s : FetchState L) : Except PyErr Unit → FetchState L → Prop
  | git (g : Str) : f.gitrepo = some g → Got P W E f s (E.git s.fs g f.downloadSubdir).1 ⟨(E.git s.fs g f.downloadSubdir).2, s.reqs⟩
  | web (us : List SpecEntry) (r : Except PyErr Unit) (s1 : FetchState L) : f.gitrepo = none → f.webUrls = some us →
      fetchWebItems P W f.downloadSubdir (us.map SpecEntry.toUrlDict) s = (r, s1) → Got P W E f s r s1
  | neither : f.gitrepo = none → f.webUrls = none → Got P W E f s (.error .other) s

/-- C73.  Processing a fetchspec: get the files; if that fails, stop with its error; if there is a directory for abif files and
there are entries, convert them; otherwise that is all. -/
theorem C73_process (P : PathSem L) (W : World L) (E : ConvEnv L) (f : FetchSpec) (s s1 : FetchState L) (r : Except PyErr Unit)
    (es : List SpecEntry) (hg : Got P W E f s r s1) (he : EntriesOf f es) :
    (∀ e, r = .error e → processSpec P W E f s = (.error e, s1)) ∧
    (r = .ok () → (f.abifSubdir = none ∨ f.abifSubdir = some [] ∨ es = []) → processSpec P W E f s = (.ok (), s1)) ∧
    (r = .ok () → ∀ c cs, f.abifSubdir = some (c :: cs) → es ≠ [] →
      processSpec P W E f s = processExtRun P W E f.downloadSubdir (c :: cs)
        (es.map fun (e : SpecEntry) => ⟨e.localcopies, e.localcopy, e.srcfmt, e.desc, e.abifloc⟩) f.srcfmt f.subs s1) := by
  have main : processSpec P W E f s = (match (r, s1) with
      | (.error e, s) => (.error e, s)
      | (.ok (), s) =>
        match orStr f.abifSubdir none, orList f.webUrls f.extfiles with
        | some ab, some (x :: l) => processExtRun P W E f.downloadSubdir ab ((x :: l).map SpecEntry.ext) f.srcfmt f.subs s
        | _, _ => (.ok (), s)) := by
    unfold processSpec
    cases hg with
    | git g h => rw [h]; rfl
    | web us _ _ h1 h2 h3 => rw [h1, h2]; simp only; rw [h3]; cases r <;> rfl
    | neither h1 h2 => rw [h1, h2]
  have hor : (es = [] ∧ (orList f.webUrls f.extfiles = none ∨ orList f.webUrls f.extfiles = some [])) ∨ orList f.webUrls f.extfiles = some es := by
    cases he with
    | web e es h => right; rw [h]; rfl
    | ext es h1 h2 =>
      right
      rcases h1 with h1 | h1 <;> (rw [h1, h2]; rfl)
    | none h1 h2 =>
      left
      refine ⟨rfl, .inl ?_⟩
      rcases h1 with h1 | h1 <;> (rw [h1, h2]; rfl)
  refine ⟨?_, ?_, ?_⟩
  · rintro e rfl
    rw [main]
  · rintro rfl h
    rw [main]
    simp only
    rcases h with h | h | h
    · rw [h]; rfl
    · rw [h]; rfl
    · subst h
      have : orList f.webUrls f.extfiles = none ∨ orList f.webUrls f.extfiles = some [] := by
        rcases hor with ⟨_, h⟩ | h
        · exact h
        · exact .inr h
      cases hq : orStr f.abifSubdir none with
      | none => rfl
      | some ab => rcases this with h | h <;> rw [h]
  · rintro rfl c cs hab hne
    rw [main]
    simp only
    rcases hor with ⟨h, _⟩ | h
    · exact absurd h hne
    · rw [h, hab]
      cases es with
      | nil => exact absurd rfl hne
      | cons x l => rfl

/-- the fetchspecs one after the other, until one fails -/
inductive RunAll (P : PathSem L) (W : World L) (E : ConvEnv L) (load : Str → Except PyErr FetchSpec) :
    List Str → FetchState L → Except PyErr Unit → FetchState L → Prop
  | done (s : FetchState L) : RunAll P W E load [] s (.ok ()) s
  | fails (fn : Str) (rest : List Str) (e : PyErr) (s s' : FetchState L) : processFetchspec P W E load fn s = (.error e, s') →
      RunAll P W E load (fn :: rest) s (.error e) s'
  | step (fn : Str) (rest : List Str) (r : Except PyErr Unit) (s s' s'' : FetchState L) : processFetchspec P W E load fn s = (.ok (), s') →
      RunAll P W E load rest s' r s'' → RunAll P W E load (fn :: rest) s r s''

/-- C73, the program: without arguments it exits with status 1; else it processes the fetchspecs in order until one fails. -/
theorem C73_main (P : PathSem L) (W : World L) (E : ConvEnv L) (load : Str → Except PyErr FetchSpec) (fns : List Str) (s s' : FetchState L)
    (r : Except PyErr Unit) :
    fetchMain P W E load [] s = (.error .systemExit, s) ∧
    (fns ≠ [] → (fetchMain P W E load fns s = (r, s') ↔ RunAll P W E load fns s r s')) := by
  refine ⟨rfl, ?_⟩
  have go : ∀ fns s, fetchMain.go P W E load fns s = (r, s') ↔ RunAll P W E load fns s r s' := by
    intro fns
    induction fns with
    | nil =>
      intro s
      constructor
      · intro h
        cases h
        exact .done _
      · intro h
        cases h
        rfl
    | cons fn rest ih =>
      intro s
      unfold fetchMain.go
      cases hp : processFetchspec P W E load fn s with
      | mk q s1 =>
        cases q with
        | error e =>
          constructor
          · intro h; cases h; exact .fails _ _ _ _ _ hp
          · intro h
            cases h with
            | fails _ _ _ _ _ h => rw [hp] at h; cases h; rfl
            | step _ _ _ _ _ _ h _ => rw [hp] at h; cases h
        | ok u =>
          simp only
          rw [ih s1]
          constructor
          · intro h; exact .step _ _ _ _ _ _ hp h
          · intro h
            cases h with
            | fails _ _ _ _ _ h => rw [hp] at h; cases h
            | step _ _ _ _ _ _ h h' => rw [hp] at h; cases h; exact h'
  intro hne
  cases fns with
  | nil => exact absurd rfl hne
  | cons fn rest => exact go (fn :: rest) s

/-- C73, a fetchspec that is not there: the run fails and nothing is changed. -/
theorem C73_nospec (P : PathSem L) (W : World L) (E : ConvEnv L) (load : Str → Except PyErr FetchSpec) (fn : Str) (s : FetchState L)
    (h : s.fs (P.loc fn) = none) : processFetchspec P W E load fn s = (.error .other, s) := by
  unfold processFetchspec
  rw [h]

/-- C73, a fetchspec that is there: a directory, or a file that is not a fetchspec, fails and nothing is changed; a fetchspec is
processed. -/
theorem C73_specfile (P : PathSem L) (W : World L) (E : ConvEnv L) (load : Str → Except PyErr FetchSpec) (fn : Str) (s : FetchState L) :
    (s.fs (P.loc fn) = some .dir → processFetchspec P W E load fn s = (.error .other, s)) ∧
    (∀ c e, s.fs (P.loc fn) = some (.file c) → load c = .error e → processFetchspec P W E load fn s = (.error e, s)) ∧
    (∀ c f, s.fs (P.loc fn) = some (.file c) → load c = .ok f → processFetchspec P W E load fn s = processSpec P W E f s) := by
  unfold processFetchspec
  refine ⟨?_, ?_, ?_⟩
  · intro h
    rw [h]
  · intro c e h1 h2
    rw [h1]; simp only; rw [h2]
  · intro c f h1 h2
    rw [h1]; simp only; rw [h2]

/-- C73, descriptions.  Converting a downloaded Debian sheet with the description of its entry (printable ASCII characters allowed in
metadata values): the file written reads back as the sheet's votes, with the description in its metadata; without a
description, or with an empty one, there is none. -/
theorem C73_description (P : PathSem L) (W : World L) (E : ConvEnv L) (s s' : FetchState L) (inp out : Str) (desc : Option Str) (cw : Bool)
    (doc : List DLine) (hin : s.fs (P.loc inp) = some (.file (sheetText doc)))
    (hrun : convertFiles P W E s c!"debtally" [inp] out desc = (.ok (), s'))
    (h : ∀ l ∈ doc, l.Ok) (hlen : ∀ v ∈ sheetVotes doc, NoExtra (sheetNames doc).length v.1) (hne : sheetVotes doc ≠ [])
    (hnd : (debTokens E.sha (sheetNames doc)).Nodup)
    (hc : ∀ cn ∈ (debTokens E.sha (sheetNames doc)).zip (sheetNames doc), CandOk cn ∧ ∀ c ∈ cn.1, isUrlSafe c = true)
    (hdesc : ∀ d, desc = some d → ∀ c ∈ d, plainValChar c = true) :
    ∃ text m vls, s'.fs (P.loc out) = some (.file text) ∧ convertAbif cw false false text = .ok m ∧
      List.Forall₂ (fun (v : Str × Str) (vl : Voteline) => vl.qty = 1 ∧ HoldsTiers (sheetTiers (debTokens E.sha (sheetNames doc)) v.1) vl.prefs)
        (sheetVotes doc) vls ∧ StableSortedDesc vls m.votelines ∧
      (∀ d, desc = some d → d ≠ [] → Dict.get? m.metadata c!"description" = some (.str d)) := by
  have hpc : ∀ c : Char, plainValChar c = true → isLineBreak c = false ∧ c ≠ '#' := by
    intro c hcc
    simp only [plainValChar, Bool.and_eq_true, decide_eq_true_eq] at hcc
    constructor
    · simp only [isLineBreak, Bool.or_eq_false_iff, Bool.and_eq_false_iff, decide_eq_false_iff_not, beq_eq_false_iff_ne]
      omega
    · rintro rfl
      have hx := hcc.2
      simp [valChar, isWord, isAscii, isAsciiAlnum, isAsciiDigit, isAsciiUpper, isAsciiLower, isSpace] at hx
  have hmd : ∀ kv ∈ descMeta desc, kv.1 = c!"description" ∧ desc = some kv.2 := by
    intro kv hkv
    unfold descMeta at hkv
    split at hkv
    · simp only [List.mem_singleton] at hkv
      subst hkv
      exact ⟨rfl, rfl⟩
    · cases hkv
  have hkeyd : PlainKey c!"description" := by
    refine ⟨⟨_, _, rfl, ?_⟩, ?_⟩
    · simp [isWord, isAscii, isAsciiAlnum, isAsciiLower]
    · intro c hcc
      simp only [List.mem_cons, List.not_mem_nil, or_false] at hcc
      rcases hcc with rfl | rfl | rfl | rfl | rfl | rfl | rfl | rfl | rfl | rfl | rfl <;>
        exact ⟨.inl (by simp [isWord, isAscii, isAsciiAlnum, isAsciiLower]), by decide⟩
  obtain ⟨text, m, vls, g1, g2, g3, g4, _, g6⟩ := C82_debtally_partial E.loads E.sha false false cw (descMeta desc) [] doc h
    (by
      intro kv hkv c hcc
      obtain ⟨e1, e2⟩ := hmd kv hkv
      rcases List.mem_append.1 hcc with hcc | hcc
      · rw [e1] at hcc
        exact (hkeyd.2 c hcc).2
      · exact (hpc c (hdesc _ e2 c hcc)).1)
    hlen hne hnd (fun cn hcn => (hc cn hcn).1) (fun cn hcn => .inl (hc cn hcn).2)
  have hw := (C73_convert P W E s c!"debtally" [inp] [sheetText doc] out desc text (.cons hin .nil) g1 _ _ hrun).1 rfl
  refine ⟨text, m, vls, hw, g2, g3, g4, ?_⟩
  rintro d rfl hd
  cases d with
  | nil => exact absurd rfl hd
  | cons c t =>
    refine g6 ?_ ?_ ?_ c!"description" (c :: t) rfl (by simp) (hdesc _ rfl)
    · intro k hk
      have : k = c!"description" := by simpa [descMeta, Dict.keys] using hk
      subst this
      exact ⟨hkeyd, by decide⟩
    · simp [descMeta, Dict.keys]
    · intro kv hkv hm
      obtain ⟨_, e2⟩ := hmd kv hkv
      exact (hpc _ (hdesc _ e2 _ hm)).2 rfl

end

section
attribute [local instance] Uni.ascii
set_option maxRecDepth 40000

-- an entry without a url, and an entry whose file is there
example : (fetchWebItems flatFs (exWorld none) c!"dl" [{ localcopy := some c!"x" }] { exStart with fs := fun p => if p = c!"dl" then some .dir else none }).1 =
    .error .keyError := by decide +kernel
-- a sheet with a description, converted
example : (convertFiles flatFs (exWorld none) { exConv with sha := fun _ => c!"ABCDEF" }
    { exFetched with fs := fun p => if p = c!"dl/s" then some (.file (sheetText exSheet)) else none } c!"debtally" [c!"dl/s"] c!"ab/s.abif" (some c!"Vote 1")).1 =
    .ok () := by decide +kernel
example : ∀ cn ∈ (debTokens (fun _ => c!"ABCDEF") (sheetNames exSheet)).zip (sheetNames exSheet), ∀ c ∈ cn.1, isUrlSafe c = true := by
  decide +kernel
example : RunAll flatFs (exWorld none) exConv (fun _ => .ok exSpec) [c!"none.json"] exFetched (.error .other) exFetched :=
  .fails _ _ _ _ _ rfl

end
end Verif.Props
