/-
C89: checking out the repository of a fetchspec.
-/
import Verif.Model.Git
import Verif.Props.FetchRun

set_option linter.unusedSectionVars false

namespace Verif.Props
open Verif
variable {F : Type}

/-- The command for a repository: in the directory that is there, `git pull`; otherwise `git clone` from here. -/
def wantedCmd (there : Bool) (cwd dir url subdir : Str) : Str × List Str :=
  if there then (dir, [c!"git", c!"pull"]) else (cwd, [c!"git", c!"clone", url, subdir])

/-- C89: exactly one command is run: `git pull` inside the directory if it is there, `git clone` otherwise. -/
theorem C89_command (E : GitEnv F) (url subdir dir : Str) (s : GitState F)
    (hdir : E.isThere s.fs s.cwd subdir = true → E.chdir s.fs s.cwd subdir = some dir) :
    (checkoutRepo E url subdir s).2.cmds = s.cmds ++ [wantedCmd (E.isThere s.fs s.cwd subdir) s.cwd dir url subdir] := by
  unfold checkoutRepo wantedCmd
  cases ht : E.isThere s.fs s.cwd subdir with
  | false =>
    simp only [Bool.false_eq_true, if_false, GitState.call]
    cases (E.run s.fs s.cwd [c!"git", c!"clone", url, subdir]).1 <;> rfl
  | true =>
    simp only [if_true, updateRepo, GitState.say, ht, Bool.not_true, Bool.false_eq_true, if_false, GitState.chdir, hdir ht, GitState.call]
    cases (E.run s.fs dir [c!"git", c!"pull"]).1 with
    | missing => rfl
    | exited n =>
      simp only
      cases E.chdir (E.run s.fs dir [c!"git", c!"pull"]).2 dir s.cwd <;> rfl

/-- C89 (partial: git must be installed, see `C89_missing_refuted`; its failures are not reported, see
`C89_status_ignored_refuted`): when git ran, whatever its exit status, the call succeeds and the working directory is the one before the call,
provided the way back still exists.  The file system is the one git left. -/
theorem C89_restored_partial (E : GitEnv F) (url subdir dir : Str) (s : GitState F)
    (hdir : E.isThere s.fs s.cwd subdir = true → E.chdir s.fs s.cwd subdir = some dir)
    (hback : ∀ fs d, E.chdir fs d s.cwd = some s.cwd) (status : Int)
    (hrun : (E.run s.fs (wantedCmd (E.isThere s.fs s.cwd subdir) s.cwd dir url subdir).1
      (wantedCmd (E.isThere s.fs s.cwd subdir) s.cwd dir url subdir).2).1 = .exited status) :
    (checkoutRepo E url subdir s).1 = .ok () ∧ (checkoutRepo E url subdir s).2.cwd = s.cwd ∧
    (checkoutRepo E url subdir s).2.fs = (E.run s.fs (wantedCmd (E.isThere s.fs s.cwd subdir) s.cwd dir url subdir).1
      (wantedCmd (E.isThere s.fs s.cwd subdir) s.cwd dir url subdir).2).2 := by
  unfold checkoutRepo
  unfold wantedCmd at hrun ⊢
  cases ht : E.isThere s.fs s.cwd subdir with
  | false =>
    rw [ht] at hrun
    simp only [Bool.false_eq_true, if_false] at hrun ⊢
    simp only [GitState.call, hrun, GitState.say, and_self]
  | true =>
    rw [ht] at hrun
    simp only [if_true] at hrun ⊢
    simp only [updateRepo, GitState.say, ht, Bool.not_true, Bool.false_eq_true, if_false, GitState.chdir, hdir ht, GitState.call, hrun, hback,
      and_self]

/-- the same environment, but git ends with another exit status -/
def withStatus (E : GitEnv F) (n : Int) : GitEnv F :=
  { E with run := fun fs cwd args => (match (E.run fs cwd args).1 with | .exited _ => .exited n | .missing => .missing, (E.run fs cwd args).2) }

/-- C89 is refuted as far as failures are concerned: the exit status of git is never noticed.  Whatever it is, the call ends in the same way, prints
the same text and leaves the same state. -/
theorem C89_status_ignored_refuted (E : GitEnv F) (n : Int) (url subdir : Str) (s : GitState F) :
    checkoutRepo (withStatus E n) url subdir s = checkoutRepo E url subdir s := by
  have hcall : ∀ (s : GitState F) args, s.call (withStatus E n) args = s.call E args := by
    intro s args
    unfold GitState.call withStatus
    cases h : (E.run s.fs s.cwd args).1 <;> simp [h]
  have hcd : ∀ (s : GitState F) p, s.chdir (withStatus E n) p = s.chdir E p := fun s p => rfl
  unfold checkoutRepo updateRepo
  simp only [hcall, hcd]
  rfl

/-- C89: the text printed when git ran. -/
theorem C89_text (E : GitEnv F) (url subdir dir : Str) (s : GitState F)
    (hdir : E.isThere s.fs s.cwd subdir = true → E.chdir s.fs s.cwd subdir = some dir)
    (hback : ∀ fs d, E.chdir fs d s.cwd = some s.cwd) (status : Int)
    (hrun : (E.run s.fs (wantedCmd (E.isThere s.fs s.cwd subdir) s.cwd dir url subdir).1
      (wantedCmd (E.isThere s.fs s.cwd subdir) s.cwd dir url subdir).2).1 = .exited status) :
    (checkoutRepo E url subdir s).2.out = s.out ++
      (if E.isThere s.fs s.cwd subdir then
        c!"Directory '" ++ subdir ++ c!"' exists.\nUpdating repository " ++ subdir ++ c!" from " ++ url ++ c!" (git pull)\n"
       else c!"Repository cloned from " ++ url ++ c!" to " ++ subdir ++ c!"\n") := by
  unfold checkoutRepo
  unfold wantedCmd at hrun
  cases ht : E.isThere s.fs s.cwd subdir with
  | false =>
    rw [ht] at hrun
    simp only [Bool.false_eq_true, if_false] at hrun ⊢
    simp only [GitState.call, hrun, GitState.say]
    simp
  | true =>
    rw [ht] at hrun
    simp only [if_true] at hrun ⊢
    simp only [updateRepo, GitState.say, ht, Bool.not_true, Bool.false_eq_true, if_false, GitState.chdir, hdir ht, GitState.call, hrun, hback]
    simp

/-- C89 is refuted when git is not installed: the exception escapes, and after a failed `git pull` the working directory stays the repository's. -/
theorem C89_missing_refuted (E : GitEnv F) (url subdir dir : Str) (s : GitState F)
    (ht : E.isThere s.fs s.cwd subdir = true) (hdir : E.chdir s.fs s.cwd subdir = some dir)
    (hrun : (E.run s.fs dir [c!"git", c!"pull"]).1 = .missing) :
    (checkoutRepo E url subdir s).1 = .error .fileNotFound ∧ (checkoutRepo E url subdir s).2.cwd = dir := by
  unfold checkoutRepo
  simp only [if_true, updateRepo, GitState.say, ht, Bool.not_true, Bool.false_eq_true, if_false, GitState.chdir, hdir, GitState.call, hrun, and_self]

/-- C89: without git a clone fails too, and the working directory is kept. -/
theorem C89_missing_clone (E : GitEnv F) (url subdir : Str) (s : GitState F)
    (ht : E.isThere s.fs s.cwd subdir = false) (hrun : (E.run s.fs s.cwd [c!"git", c!"clone", url, subdir]).1 = .missing) :
    (checkoutRepo E url subdir s).1 = .error .fileNotFound ∧ (checkoutRepo E url subdir s).2.cwd = s.cwd := by
  unfold checkoutRepo
  simp only [ht, Bool.false_eq_true, if_false, GitState.call, hrun, and_self]

/-- C89: a path that exists but is not a directory is an error before any command is run. -/
theorem C89_not_a_directory (E : GitEnv F) (url subdir : Str) (s : GitState F)
    (ht : E.isThere s.fs s.cwd subdir = true) (hdir : E.chdir s.fs s.cwd subdir = none) :
    (checkoutRepo E url subdir s).1 = .error .other ∧ (checkoutRepo E url subdir s).2.cwd = s.cwd ∧
    (checkoutRepo E url subdir s).2.cmds = s.cmds := by
  unfold checkoutRepo
  simp only [if_true, updateRepo, GitState.say, ht, Bool.not_true, Bool.false_eq_true, if_false, GitState.chdir, hdir, and_self]

section
variable {L : Type} [DecidableEq L] [Uni]

/-- C89, in a fetchspec run: whatever the exit status of git, the run goes on with the conversions, on the files git left. -/
theorem C89_run_goes_on (P : PathSem L) (W : World L) (C : ConvEnv L) (E : GitEnv (L → Option FNode)) (cwd : Str)
    (hC : C.git = gitStep E cwd) (f : FetchSpec) (url : Str) (hg : f.gitrepo = some url) (s : FetchState L) (dir : Str)
    (hdir : E.isThere s.fs cwd f.downloadSubdir = true → E.chdir s.fs cwd f.downloadSubdir = some dir)
    (hback : ∀ fs d, E.chdir fs d cwd = some cwd) (status : Int) (fs' : L → Option FNode)
    (hrun : E.run s.fs (wantedCmd (E.isThere s.fs cwd f.downloadSubdir) cwd dir url f.downloadSubdir).1
      (wantedCmd (E.isThere s.fs cwd f.downloadSubdir) cwd dir url f.downloadSubdir).2 = (.exited status, fs'))
    (ab : Str) (hab : f.abifSubdir = some ab) (hne : ab ≠ []) (x : SpecEntry) (l : List SpecEntry)
    (hl : f.webUrls = none ∧ f.extfiles = some (x :: l)) :
    processSpec P W C f s =
      processExtRun P W C f.downloadSubdir ab ((x :: l).map SpecEntry.ext) f.srcfmt f.subs { s with fs := fs' } := by
  have h := C89_restored_partial E url f.downloadSubdir dir { cwd := cwd, fs := s.fs, out := [], cmds := [] } hdir hback status
    (by rw [hrun])
  rw [hrun] at h
  have hab' : orStr f.abifSubdir none = some ab := by
    rw [hab]
    cases ab with
    | nil => exact absurd rfl hne
    | cons c t => rfl
  have hlist : orList f.webUrls f.extfiles = some (x :: l) := by rw [hl.1, hl.2]; rfl
  unfold processSpec
  simp only [hg, hC, gitStep, h.1, h.2.2, hab', hlist]

/-- C89, in a fetchspec run: without git the run ends there with the exception, whatever else the fetchspec asks for; no page is
requested and nothing is converted — the files are as the attempt left them. -/
theorem C89_run_stops (P : PathSem L) (W : World L) (C : ConvEnv L) (E : GitEnv (L → Option FNode)) (cwd : Str)
    (hC : C.git = gitStep E cwd) (f : FetchSpec) (url : Str) (hg : f.gitrepo = some url) (s : FetchState L) (dir : Str)
    (hdir : E.isThere s.fs cwd f.downloadSubdir = true → E.chdir s.fs cwd f.downloadSubdir = some dir)
    (fs' : L → Option FNode)
    (hrun : E.run s.fs (wantedCmd (E.isThere s.fs cwd f.downloadSubdir) cwd dir url f.downloadSubdir).1
      (wantedCmd (E.isThere s.fs cwd f.downloadSubdir) cwd dir url f.downloadSubdir).2 = (.missing, fs')) :
    processSpec P W C f s = (.error .fileNotFound, { s with fs := fs' }) := by
  have h : (checkoutRepo E url f.downloadSubdir { cwd := cwd, fs := s.fs, out := [], cmds := [] }).1 = .error .fileNotFound := by
    unfold checkoutRepo
    unfold wantedCmd at hrun
    cases ht : E.isThere s.fs cwd f.downloadSubdir with
    | false =>
      rw [ht] at hrun
      simp only [Bool.false_eq_true, if_false] at hrun ⊢
      simp only [GitState.call, hrun]
    | true =>
      rw [ht] at hrun
      simp only [if_true] at hrun ⊢
      simp only [updateRepo, GitState.say, ht, Bool.not_true, Bool.false_eq_true, if_false, GitState.chdir, hdir ht, GitState.call, hrun]
  have h2 : (checkoutRepo E url f.downloadSubdir { cwd := cwd, fs := s.fs, out := [], cmds := [] }).2.fs = fs' := by
    unfold checkoutRepo
    unfold wantedCmd at hrun
    cases ht : E.isThere s.fs cwd f.downloadSubdir with
    | false =>
      rw [ht] at hrun
      simp only [Bool.false_eq_true, if_false] at hrun ⊢
      simp only [GitState.call, hrun]
    | true =>
      rw [ht] at hrun
      simp only [if_true] at hrun ⊢
      simp only [updateRepo, GitState.say, ht, Bool.not_true, Bool.false_eq_true, if_false, GitState.chdir, hdir ht, GitState.call, hrun]
  unfold processSpec
  simp only [hg, hC, gitStep, h, h2]
end

/-! ### non-vacuity -/

/-- a toy world: the file system says whether the repository is there; git fails with status 128 -/
def exGit : GitEnv Bool :=
  { isThere := fun fs _ p => fs && decide (p = c!"repo")
    chdir := fun _ _ p => if p = c!"repo" then some c!"/home/repo" else some p
    run := fun fs _ _ => (.exited 128, fs) }

def exGitState (there : Bool) : GitState Bool := { cwd := c!"/home", fs := there, out := [], cmds := [] }

example : ((checkoutRepo exGit c!"u" c!"repo" (exGitState true)).1, (checkoutRepo exGit c!"u" c!"repo" (exGitState true)).2.cwd,
    (checkoutRepo exGit c!"u" c!"repo" (exGitState true)).2.cmds) = (.ok (), c!"/home", [(c!"/home/repo", [c!"git", c!"pull"])]) := by decide
example : ((checkoutRepo exGit c!"u" c!"repo" (exGitState false)).1, (checkoutRepo exGit c!"u" c!"repo" (exGitState false)).2.cwd,
    (checkoutRepo exGit c!"u" c!"repo" (exGitState false)).2.out) = (.ok (), c!"/home", c!"Repository cloned from u to repo\n") := by decide
-- the hypotheses of C89_restored_partial
example : (∀ fs d, exGit.chdir fs d (exGitState true).cwd = some (exGitState true).cwd) ∧
    (exGit.isThere (exGitState true).fs (exGitState true).cwd c!"repo" = true →
      exGit.chdir (exGitState true).fs (exGitState true).cwd c!"repo" = some c!"/home/repo") := by
  refine ⟨fun fs d => rfl, fun _ => by decide⟩
-- without git
example : (checkoutRepo { exGit with run := fun fs _ _ => (.missing, fs) } c!"u" c!"repo" (exGitState true)).2.cwd = c!"/home/repo" := by decide

end Verif.Props
