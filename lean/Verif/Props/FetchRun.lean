/-
Converting downloaded files (C73, C74): fetchmgr.py.
-/
import Verif.Model.FetchRun
import Verif.Props.Fetch
import Mathlib.Data.List.Forall2

set_option linter.unusedSimpArgs false
set_option linter.unusedSectionVars false

namespace Verif.Props
open Verif

section
variable [U : Uni] {L : Type} [DecidableEq L]

/-! ### vocabulary -/

/-- the files an action reads -/
def actionIns : ExtAction → List Str
  | .link src _ => [src]
  | .convert _ ins _ _ => ins
  | .tarball tar => [tar]

/-- the files an action makes -/
def actionOuts (subs : List ArchSub) : ExtAction → List Str
  | .link _ out => [out]
  | .convert _ _ out _ => [out]
  | .tarball _ => subs.map ArchSub.abifloc

/-- the texts of the files `ins` -/
def TextsOf (P : PathSem L) (fs : L → Option FNode) (ins blobs : List Str) : Prop :=
  List.Forall₂ (fun p c => fs (P.loc p) = some (.file c)) ins blobs

/-- `fs'` holds at the outputs of the action what the action makes of the inputs in `fs` -/
def Made (P : PathSem L) (E : ConvEnv L) (subs : List ArchSub) (fs fs' : L → Option FNode) : ExtAction → Prop
  | .link src out => ∀ c, fs (P.loc src) = some (.file c) → fs' (P.loc out) = some (.file c)
  | .convert fmt ins out desc => ∃ blobs text, TextsOf P fs ins blobs ∧
      textToAbif E.loads E.sha fmt blobs false false (descMeta desc) = .ok text ∧ fs' (P.loc out) = some (.file text)
  | .tarball tar => ∀ sub ∈ subs, ∃ c txt m text, fs (P.loc tar) = some (.file c) ∧ E.untar c sub.member = some txt ∧
      nameqToJabmod txt = .ok m ∧ convertToAbif (consolidate m) = .ok text ∧ fs' (P.loc sub.abifloc) = some (.file text)

/-- nothing changes but at `outs` (and directories may be made where there was nothing) -/
def OnlyAt (P : PathSem L) (outs : List Str) (fs fs' : L → Option FNode) : Prop :=
  ∀ l, l ∉ outs.map P.loc → (∀ n, fs l = some n → fs' l = some n) ∧ (fs l = none → fs' l = none ∨ fs' l = some .dir)

/-- the outputs are different files, and none of them is an input -/
def Independent (P : PathSem L) (subs : List ArchSub) (as : List ExtAction) : Prop :=
  ((as.flatMap (actionOuts subs)).map P.loc).Nodup ∧
  ∀ i ∈ as.flatMap actionIns, ∀ o ∈ as.flatMap (actionOuts subs), P.loc i ≠ P.loc o

/-! ### proofs -/

theorem OnlyAt.refl (P : PathSem L) (outs : List Str) (fs : L → Option FNode) : OnlyAt P outs fs fs :=
  fun _ _ => ⟨fun _ h => h, fun h => .inl h⟩

theorem OnlyAt.trans {P : PathSem L} {o1 o2 : List Str} {a b c : L → Option FNode} (h1 : OnlyAt P o1 a b) (h2 : OnlyAt P o2 b c) :
    OnlyAt P (o1 ++ o2) a c := by
  intro l hl
  rw [List.map_append, List.mem_append, not_or] at hl
  obtain ⟨p1, p2⟩ := h1 l hl.1
  obtain ⟨q1, q2⟩ := h2 l hl.2
  refine ⟨fun n h => q1 n (p1 n h), fun h => ?_⟩
  rcases p2 h with h | h
  · exact q2 h
  · exact .inr (q1 _ h)

theorem OnlyAt.mono {P : PathSem L} {o1 o2 : List Str} {a b : L → Option FNode} (h1 : OnlyAt P o1 a b) (h : ∀ o ∈ o1, o ∈ o2) :
    OnlyAt P o2 a b := by
  intro l hl
  apply h1 l
  intro hm
  obtain ⟨o, ho, rfl⟩ := List.mem_map.1 hm
  exact hl (List.mem_map.2 ⟨o, h o ho, rfl⟩)

/-- a file at an untouched place was there before -/
theorem OnlyAt.back {P : PathSem L} {outs : List Str} {a b : L → Option FNode} (h : OnlyAt P outs a b) {l : L} (hl : l ∉ outs.map P.loc)
    {c : Str} (hb : b l = some (.file c)) : a l = some (.file c) := by
  obtain ⟨p1, p2⟩ := h l hl
  cases ha : a l with
  | none =>
    rcases p2 ha with h | h
    · rw [hb] at h; cases h
    · rw [hb] at h; cases h
  | some n =>
    have := p1 n ha
    rw [hb] at this
    exact this.symm

theorem readInput_ok {P : PathSem L} {s : FetchState L} {p c : Str} : readInput P s p = .ok c ↔ s.fs (P.loc p) = some (.file c) := by
  unfold readInput
  cases s.fs (P.loc p) with
  | none => simp
  | some n => cases n <;> simp

theorem readInputs_ok {P : PathSem L} {s : FetchState L} {ins blobs : List Str} :
    ins.mapM (readInput P s) = .ok blobs ↔ TextsOf P s.fs ins blobs := by
  unfold TextsOf
  induction ins generalizing blobs with
  | nil =>
    constructor
    · intro h; cases h; exact .nil
    · intro h; cases h; rfl
  | cons p ins ih =>
    rw [List.mapM_cons]
    constructor
    · intro h
      obtain ⟨c, hc, h⟩ := bind_ok.1 h
      obtain ⟨cs, hcs, h⟩ := bind_ok.1 h
      cases h
      exact .cons (readInput_ok.1 hc) (ih.1 hcs)
    · intro h
      cases h with
      | cons h1 h2 =>
        rw [readInput_ok.2 h1, ok_bind, ih.2 h2, ok_bind]
        rfl

theorem mkParents_spec (P : PathSem L) (W : World L) (s : FetchState L) (p : Str) :
    OnlyAt P [] s.fs (mkParents P W s p).2.fs ∧ (mkParents P W s p).2.reqs = s.reqs := by
  unfold mkParents
  split
  · exact ⟨OnlyAt.refl _ _ _, rfl⟩
  · refine ⟨?_, rfl⟩
    intro l _
    refine ⟨fun n h => ?_, fun h => ?_⟩
    · simp only [h]; rw [if_neg (by simp)]
    · by_cases h2 : l ∈ P.up (pyDirname p) ∧ s.fs l = none
      · right; simp only; rw [if_pos h2]
      · left; simp only; rw [if_neg h2]; exact h

theorem writeFile_spec (P : PathSem L) (W : World L) (s : FetchState L) (p text : Str) :
    OnlyAt P [p] s.fs (writeFile P W s p text).2.fs ∧ (writeFile P W s p text).2.reqs = s.reqs ∧
    ((writeFile P W s p text).1 = .ok () → (writeFile P W s p text).2.fs (P.loc p) = some (.file text)) ∧
    ((writeFile P W s p text).2 = s ∨ ∃ c, c <+: text ∧ (writeFile P W s p text).2.fs (P.loc p) = some (.file c)) := by
  have only : ∀ n, OnlyAt P [p] s.fs (fun l => if l = P.loc p then n else s.fs l) := by
    intro n l hl
    have : l ≠ P.loc p := by simpa using hl
    simp only [if_neg this]
    exact ⟨fun _ h => h, fun h => .inl h⟩
  unfold writeFile
  split
  · exact ⟨OnlyAt.refl _ _ _, rfl, (by intro h; cases h), .inl rfl⟩
  · split
    · refine ⟨only _, rfl, fun _ => ?_, .inr ⟨text, List.prefix_refl _, ?_⟩⟩
      · simp
      · simp
    · rename_i k _
      exact ⟨only _, rfl, (by intro h; cases h), .inr ⟨text.take k, List.take_prefix _ _, by simp⟩⟩

theorem writeOut_spec (P : PathSem L) (W : World L) (s : FetchState L) (p text : Str) :
    OnlyAt P [p] s.fs (writeOut P W s p text).2.fs ∧ (writeOut P W s p text).2.reqs = s.reqs ∧
    ((writeOut P W s p text).1 = .ok () → (writeOut P W s p text).2.fs (P.loc p) = some (.file text)) ∧
    ((writeOut P W s p text).2.fs (P.loc p) = s.fs (P.loc p) ∨
      (s.fs (P.loc p) = none ∧ (writeOut P W s p text).2.fs (P.loc p) = some .dir) ∨
      ∃ c, c <+: text ∧ (writeOut P W s p text).2.fs (P.loc p) = some (.file c)) := by
  unfold writeOut
  obtain ⟨m1, m2⟩ := mkParents_spec P W s p
  cases hm : mkParents P W s p with
  | mk r s1 =>
    rw [hm] at m1 m2
    simp only at m1 m2
    have place : s1.fs (P.loc p) = s.fs (P.loc p) ∨ (s.fs (P.loc p) = none ∧ s1.fs (P.loc p) = some .dir) := by
      obtain ⟨q1, q2⟩ := m1 (P.loc p) (by simp)
      cases hs : s.fs (P.loc p) with
      | none => rcases q2 hs with h | h
                · exact .inl h
                · exact .inr ⟨rfl, h⟩
      | some n => exact .inl (q1 n hs)
    cases r with
    | error e =>
      refine ⟨m1.mono (by intro o ho; cases ho), m2, (by intro h; cases h), ?_⟩
      rcases place with h | h
      · exact .inl h
      · exact .inr (.inl h)
    | ok u =>
      simp only
      obtain ⟨w1, w2, w3, w4⟩ := writeFile_spec P W s1 p text
      refine ⟨(m1.trans w1), by rw [w2, m2], w3, ?_⟩
      rcases w4 with h | h
      · rw [h]
        rcases place with h | h
        · exact .inl h
        · exact .inr (.inl h)
      · exact .inr (.inr h)

/-- everything about one conversion -/
theorem convertFiles_spec (P : PathSem L) (W : World L) (E : ConvEnv L) (s : FetchState L) (fmt : Str) (ins : List Str) (out : Str) (desc : Option Str) :
    OnlyAt P [out] s.fs (convertFiles P W E s fmt ins out desc).2.fs ∧ (convertFiles P W E s fmt ins out desc).2.reqs = s.reqs ∧
    ((convertFiles P W E s fmt ins out desc).1 = .ok () → ∃ blobs text, TextsOf P s.fs ins blobs ∧
      textToAbif E.loads E.sha fmt blobs false false (descMeta desc) = .ok text ∧
      (convertFiles P W E s fmt ins out desc).2.fs (P.loc out) = some (.file text)) := by
  unfold convertFiles
  cases hr : ins.mapM (readInput P s) with
  | error e => exact ⟨OnlyAt.refl _ _ _, rfl, (by intro h; cases h)⟩
  | ok blobs =>
    simp only
    cases ht : textToAbif E.loads E.sha fmt blobs false false (descMeta desc) with
    | error e => exact ⟨OnlyAt.refl _ _ _, rfl, (by intro h; cases h)⟩
    | ok text =>
      simp only
      obtain ⟨w1, w2, w3, _⟩ := writeOut_spec P W s out text
      exact ⟨w1, w2, fun h => ⟨blobs, text, readInputs_ok.1 hr, ht, w3 h⟩⟩

theorem memberText_ok {P : PathSem L} {E : ConvEnv L} {s : FetchState L} {tar member t : Str} (h : memberText P E s tar member = .ok t) :
    ∃ c, s.fs (P.loc tar) = some (.file c) ∧ E.untar c member = some t := by
  unfold memberText at h
  split at h
  · cases h
  · cases h
  · rename_i c hc
    split at h
    · cases h
    · rename_i ht
      cases h
      exact ⟨c, hc, ht⟩

theorem nameqToAbif_ok {t text : Str} (h : nameqToAbif t = .ok text) : ∃ m, nameqToJabmod t = .ok m ∧ convertToAbif (consolidate m) = .ok text := by
  unfold nameqToAbif at h
  split at h
  · cases h
  · rename_i m hm; exact ⟨m, hm, h⟩

/-- the conversion of an archive -/
theorem convertTarball_spec (P : PathSem L) (W : World L) (E : ConvEnv L) (tar : Str) (subs : List ArchSub) (s : FetchState L) :
    OnlyAt P (subs.map ArchSub.abifloc) s.fs (convertTarball P W E tar subs s).2.fs ∧ (convertTarball P W E tar subs s).2.reqs = s.reqs ∧
    ((convertTarball P W E tar subs s).1 = .ok () → ((subs.map ArchSub.abifloc).map P.loc).Nodup →
      (∀ sub ∈ subs, P.loc tar ≠ P.loc sub.abifloc) →
      Made P E subs s.fs (convertTarball P W E tar subs s).2.fs (.tarball tar)) := by
  induction subs generalizing s with
  | nil => exact ⟨OnlyAt.refl _ _ _, rfl, fun _ _ _ sub hsub => by cases hsub⟩
  | cons f fs ih =>
    unfold convertTarball
    cases hm : memberText P E s tar f.member with
    | error e => exact ⟨OnlyAt.refl _ _ _, rfl, (by intro h; cases h)⟩
    | ok t =>
      simp only
      cases hn : nameqToAbif t with
      | error e => exact ⟨OnlyAt.refl _ _ _, rfl, (by intro h; cases h)⟩
      | ok text =>
        simp only
        obtain ⟨w1, w2, w3, _⟩ := writeOut_spec P W s f.abifloc text
        cases hw : writeOut P W s f.abifloc text with
        | mk r s1 =>
          rw [hw] at w1 w2 w3
          simp only at w1 w2 w3
          cases r with
          | error e =>
            exact ⟨w1.mono (by intro o ho; rw [List.mem_singleton.1 ho]; simp), w2, (by intro h; cases h)⟩
          | ok u =>
            simp only
            obtain ⟨i1, i2, i3⟩ := ih s1
            refine ⟨w1.trans i1, by rw [i2, w2], ?_⟩
            intro hok hnd htar
            rw [List.map_cons, List.map_cons, List.nodup_cons] at hnd
            have hrest := i3 hok hnd.2 (fun sub hsub => htar sub (List.mem_cons_of_mem _ hsub))
            intro sub hsub
            rcases List.mem_cons.1 hsub with rfl | hsub
            · obtain ⟨c, hc, ht⟩ := memberText_ok hm
              obtain ⟨m, h1, h2⟩ := nameqToAbif_ok hn
              exact ⟨c, t, m, text, hc, ht, h1, h2, (i1 _ hnd.1).1 _ (w3 rfl)⟩
            · obtain ⟨c, txt, m, text', h1, h2, h3, h4, h5⟩ := hrest sub hsub
              refine ⟨c, txt, m, text', ?_, h2, h3, h4, h5⟩
              apply w1.back _ h1
              simpa using htar f List.mem_cons_self

theorem linkFile_spec (P : PathSem L) (W : World L) (s : FetchState L) (src out : Str) :
    OnlyAt P [out] s.fs (linkFile P W s src out).2.fs ∧ (linkFile P W s src out).2.reqs = s.reqs ∧
    ((linkFile P W s src out).1 = .ok () → (linkFile P W s src out).2.fs (P.loc out) = s.fs (P.loc src)) := by
  unfold linkFile
  split
  · exact ⟨OnlyAt.refl _ _ _, rfl, (by intro h; cases h)⟩
  · refine ⟨?_, rfl, fun _ => by simp⟩
    intro l hl
    have : l ≠ P.loc out := by simpa using hl
    simp only [if_neg this]
    exact ⟨fun _ h => h, fun h => .inl h⟩

theorem runAction_spec (P : PathSem L) (W : World L) (E : ConvEnv L) (subs : Option (List ArchSub)) (a : ExtAction) (s : FetchState L) :
    OnlyAt P (actionOuts (subs.getD []) a) s.fs (runAction P W E subs a s).2.fs ∧ (runAction P W E subs a s).2.reqs = s.reqs ∧
    ((runAction P W E subs a s).1 = .ok () → ((actionOuts (subs.getD []) a).map P.loc).Nodup →
      (∀ i ∈ actionIns a, ∀ o ∈ actionOuts (subs.getD []) a, P.loc i ≠ P.loc o) →
      Made P E (subs.getD []) s.fs (runAction P W E subs a s).2.fs a) := by
  cases a with
  | link src out =>
    obtain ⟨h1, h2, h3⟩ := linkFile_spec P W s src out
    exact ⟨h1, h2, fun h _ _ c hc => by rw [show (runAction P W E subs (.link src out) s) = linkFile P W s src out from rfl, h3 h]; exact hc⟩
  | convert fmt ins out desc =>
    obtain ⟨h1, h2, h3⟩ := convertFiles_spec P W E s fmt ins out desc
    exact ⟨h1, h2, fun h _ _ => h3 h⟩
  | tarball tar =>
    cases subs with
    | none => exact ⟨OnlyAt.refl _ _ _, rfl, (by intro h; cases h)⟩
    | some subs =>
      obtain ⟨h1, h2, h3⟩ := convertTarball_spec P W E tar subs s
      refine ⟨h1, h2, fun h hn hi => h3 h hn ?_⟩
      intro sub hsub
      exact hi tar (by simp [actionIns]) _ (by simp only [actionOuts, Option.getD_some]; exact List.mem_map.2 ⟨sub, hsub, rfl⟩)

/-- what was made stays when other places change -/
theorem Made.later {P : PathSem L} {E : ConvEnv L} {subs : List ArchSub} {fs fs' fs'' : L → Option FNode} {a : ExtAction} (h : Made P E subs fs fs' a)
    (hk : ∀ o ∈ actionOuts subs a, ∀ c, fs' (P.loc o) = some (.file c) → fs'' (P.loc o) = some (.file c)) : Made P E subs fs fs'' a := by
  cases a with
  | link src out => exact fun c hc => hk out (by simp [actionOuts]) c (h c hc)
  | convert fmt ins out desc =>
    obtain ⟨blobs, text, h1, h2, h3⟩ := h
    exact ⟨blobs, text, h1, h2, hk out (by simp [actionOuts]) _ h3⟩
  | tarball tar =>
    intro sub hsub
    obtain ⟨c, txt, m, text, h1, h2, h3, h4, h5⟩ := h sub hsub
    exact ⟨c, txt, m, text, h1, h2, h3, h4, hk _ (by simp only [actionOuts]; exact List.mem_map.2 ⟨sub, hsub, rfl⟩) _ h5⟩

/-- … and it is what is made of the earlier inputs when these did not change -/
theorem Made.earlier {P : PathSem L} {E : ConvEnv L} {subs : List ArchSub} {fs0 fs fs' : L → Option FNode} {a : ExtAction} (h : Made P E subs fs fs' a)
    (hb : ∀ i ∈ actionIns a, ∀ c, fs (P.loc i) = some (.file c) → fs0 (P.loc i) = some (.file c))
    (hf : ∀ i ∈ actionIns a, ∀ c, fs0 (P.loc i) = some (.file c) → fs (P.loc i) = some (.file c)) : Made P E subs fs0 fs' a := by
  cases a with
  | link src out => exact fun c hc => h c (hf src (by simp [actionIns]) c hc)
  | convert fmt ins out desc =>
    obtain ⟨blobs, text, h1, h2, h3⟩ := h
    refine ⟨blobs, text, ?_, h2, h3⟩
    have key : ∀ (l : List Str) (bl : List Str), (∀ i ∈ l, i ∈ ins) → List.Forall₂ (fun p c => fs (P.loc p) = some (.file c)) l bl →
        List.Forall₂ (fun p c => fs0 (P.loc p) = some (.file c)) l bl := by
      intro l bl hsub hf2
      induction hf2 with
      | nil => exact .nil
      | cons h1 _ ih => exact .cons (hb _ (hsub _ List.mem_cons_self) _ h1) (ih (fun i hi => hsub i (List.mem_cons_of_mem _ hi)))
    exact key ins blobs (fun i hi => hi) h1
  | tarball tar =>
    intro sub hsub
    obtain ⟨c, txt, m, text, h1, h2, h3, h4, h5⟩ := h sub hsub
    exact ⟨c, txt, m, text, hb tar (by simp [actionIns]) _ h1, h2, h3, h4, h5⟩

theorem runActions_only (P : PathSem L) (W : World L) (E : ConvEnv L) (subs : Option (List ArchSub)) (as : List ExtAction) (s : FetchState L) :
    OnlyAt P (as.flatMap (actionOuts (subs.getD []))) s.fs (runActions P W E subs as s).2.fs ∧ (runActions P W E subs as s).2.reqs = s.reqs := by
  induction as generalizing s with
  | nil => exact ⟨OnlyAt.refl _ _ _, rfl⟩
  | cons a as ih =>
    obtain ⟨a1, a2, _⟩ := runAction_spec P W E subs a s
    unfold runActions
    cases hr : runAction P W E subs a s with
    | mk r s1 =>
      rw [hr] at a1 a2
      simp only at a1 a2
      cases r with
      | error e => exact ⟨a1.mono (by intro o ho; simp only [List.flatMap_cons, List.mem_append]; exact .inl ho), a2⟩
      | ok u =>
        obtain ⟨i1, i2⟩ := ih s1
        simp only
        refine ⟨?_, by rw [i2, a2]⟩
        rw [List.flatMap_cons]
        exact a1.trans i1

/-! ## C73 -/

/-- C73.  Whatever happens, a run changes nothing but the output files of its actions (it may make directories where
there was nothing), and downloads nothing. -/
theorem C73_only (P : PathSem L) (W : World L) (E : ConvEnv L) (subs : Option (List ArchSub)) (as : List ExtAction) (s : FetchState L) :
    OnlyAt P (as.flatMap (actionOuts (subs.getD []))) s.fs (runActions P W E subs as s).2.fs ∧
    (runActions P W E subs as s).2.reqs = s.reqs := runActions_only P W E subs as s

/-- C73.  After a successful run every output file holds the conversion of its own input files, as they were before the
run. -/
theorem C73_run (P : PathSem L) (W : World L) (E : ConvEnv L) (subs : Option (List ArchSub)) (as : List ExtAction) (s s' : FetchState L)
    (h : runActions P W E subs as s = (.ok (), s')) (hi : Independent P (subs.getD []) as) :
    ∀ a ∈ as, Made P E (subs.getD []) s.fs s'.fs a := by
  induction as generalizing s with
  | nil => intro a ha; cases ha
  | cons a as ih =>
    obtain ⟨a1, a2, a3⟩ := runAction_spec P W E subs a s
    unfold runActions at h
    cases hr : runAction P W E subs a s with
    | mk r s1 =>
      rw [hr] at a1 a2 a3 h
      simp only at a1 a2 a3
      cases r with
      | error e => simp only at h; cases h
      | ok u =>
        simp only at h
        obtain ⟨hnd, hio⟩ := hi
        rw [List.flatMap_cons, List.map_append] at hnd
        obtain ⟨nd1, nd2, nd3⟩ := List.nodup_append.1 hnd
        have hrest := ih s1 h ⟨nd2, fun i hi o ho => hio i (by rw [List.flatMap_cons]; exact List.mem_append_right _ hi) o
          (by rw [List.flatMap_cons]; exact List.mem_append_right _ ho)⟩
        have hfirst := a3 rfl nd1 (fun i hi o ho => hio i (by rw [List.flatMap_cons]; exact List.mem_append_left _ hi) o
          (by rw [List.flatMap_cons]; exact List.mem_append_left _ ho))
        have honly := (runActions_only P W E subs as s1).1
        rw [h] at honly
        intro x hx
        rcases List.mem_cons.1 hx with rfl | hx
        · apply hfirst.later
          intro o ho c hc
          refine (honly _ ?_).1 _ hc
          intro hm
          exact nd3 _ (List.mem_map.2 ⟨o, ho, rfl⟩) _ hm rfl
        · have hin : ∀ i ∈ actionIns x, P.loc i ∉ (actionOuts (subs.getD []) a).map P.loc := by
            intro i hi hm
            obtain ⟨o, ho, he⟩ := List.mem_map.1 hm
            exact hio i (by rw [List.flatMap_cons]; exact List.mem_append_right _ (List.mem_flatMap.2 ⟨x, hx, hi⟩)) o
              (by rw [List.flatMap_cons]; exact List.mem_append_left _ ho) he.symm
          apply (hrest x hx).earlier
          · intro i hi c hc
            exact a1.back (hin i hi) hc
          · intro i hi c hc
            exact (a1 _ (hin i hi)).1 _ hc

/-- the contents two runs make of the same inputs are the same -/
theorem made_unique {P : PathSem L} {E : ConvEnv L} {subs : List ArchSub} {fs fs1 fs2 : L → Option FNode} {a : ExtAction}
    (h1 : Made P E subs fs fs1 a) (h2 : Made P E subs fs fs2 a) (ha : ∀ src out, a ≠ .link src out) :
    ∀ o ∈ actionOuts subs a, fs1 (P.loc o) = fs2 (P.loc o) := by
  cases a with
  | link src out => exact absurd rfl (ha src out)
  | convert fmt ins out desc =>
    obtain ⟨b1, t1, x1, y1, z1⟩ := h1
    obtain ⟨b2, t2, x2, y2, z2⟩ := h2
    have hb : b1 = b2 := by
      have key : ∀ (l b1 b2 : List Str), List.Forall₂ (fun p c => fs (P.loc p) = some (.file c)) l b1 →
          List.Forall₂ (fun p c => fs (P.loc p) = some (.file c)) l b2 → b1 = b2 := by
        intro l b1 b2 g1
        induction g1 generalizing b2 with
        | nil => intro g2; cases g2; rfl
        | cons g _ ih =>
          intro g2
          cases g2 with
          | cons k1 k2 =>
            rw [g] at k1
            cases k1
            rw [ih _ k2]
      exact key ins b1 b2 x1 x2
    subst hb
    rw [y1] at y2
    cases y2
    intro o ho
    have : o = out := by simpa [actionOuts] using ho
    subst this
    rw [z1, z2]
  | tarball tar =>
    intro o ho
    simp only [actionOuts] at ho
    obtain ⟨sub, hsub, rfl⟩ := List.mem_map.1 ho
    obtain ⟨c, t, m, x, e1, e2, e3, e4, e5⟩ := h1 sub hsub
    obtain ⟨c', t', m', x', f1, f2, f3, f4, f5⟩ := h2 sub hsub
    rw [e1] at f1; cases f1
    rw [e2] at f2; cases f2
    rw [e3] at f3; cases f3
    rw [e4] at f4; cases f4
    rw [e5, f5]

/-- C73.  Converting again (in whatever circumstances, as long as it succeeds) leaves every converted file as it is. -/
theorem C73_again (P : PathSem L) (W W2 : World L) (E : ConvEnv L) (subs : Option (List ArchSub)) (as : List ExtAction) (s s' s'' : FetchState L)
    (h : runActions P W E subs as s = (.ok (), s')) (h' : runActions P W2 E subs as s' = (.ok (), s''))
    (hi : Independent P (subs.getD []) as) (a : ExtAction) (ha : a ∈ as) (hl : ∀ src out, a ≠ .link src out) :
    ∀ o ∈ actionOuts (subs.getD []) a, s''.fs (P.loc o) = s'.fs (P.loc o) := by
  have m1 := C73_run P W E subs as s s' h hi a ha
  have m2 := C73_run P W2 E subs as s' s'' h' hi a ha
  have honly := (runActions_only P W E subs as s).1
  rw [h] at honly
  have hin : ∀ i ∈ actionIns a, P.loc i ∉ (as.flatMap (actionOuts (subs.getD []))).map P.loc := by
    intro i hia hm
    obtain ⟨o, ho, he⟩ := List.mem_map.1 hm
    exact hi.2 i (List.mem_flatMap.2 ⟨a, ha, hia⟩) o ho he.symm
  refine fun o ho => made_unique (m2.earlier ?_ ?_) m1 hl o ho
  · intro i hi c hc; exact honly.back (hin i hi) hc
  · intro i hi c hc; exact (honly _ (hin i hi)).1 _ hc

/-- C73.  A missing input file: the run ends with exit status 1 and nothing is changed. -/
theorem C73_missing (P : PathSem L) (W : World L) (E : ConvEnv L) (s : FetchState L) (fmt : Str) (pre post : List Str) (p : Str) (out : Str)
    (desc : Option Str) (blobs : List Str) (hpre : TextsOf P s.fs pre blobs) (hp : s.fs (P.loc p) = none) :
    convertFiles P W E s fmt (pre ++ p :: post) out desc = (.error .systemExit, s) := by
  unfold convertFiles
  have : (pre ++ p :: post).mapM (readInput P s) = .error .systemExit := by
    rw [List.mapM_append, readInputs_ok.2 hpre, ok_bind, List.mapM_cons]
    have : readInput P s p = .error .systemExit := by unfold readInput; rw [hp]
    rw [this]
    rfl
  rw [this]

/-- C73.  An input that cannot be converted: the conversion's error ends the run and nothing is changed; in particular an
output file from an earlier run stays. -/
theorem C73_unconvertible (P : PathSem L) (W : World L) (E : ConvEnv L) (s : FetchState L) (fmt : Str) (ins blobs : List Str) (out : Str)
    (desc : Option Str) (e : PyErr) (hin : TextsOf P s.fs ins blobs) (he : textToAbif E.loads E.sha fmt blobs false false (descMeta desc) = .error e) :
    convertFiles P W E s fmt ins out desc = (.error e, s) := by
  unfold convertFiles
  rw [readInputs_ok.2 hin]
  simp only
  rw [he]

/-- C73, archives.  An archive that does not exist, lacks the member, or has a member that cannot be read as nameq text, ends
the conversion with FileNotFoundError, KeyError or the reader's error, before anything is changed; so does an archive that is a
directory (an OSError: `other` in the model). -/
theorem C73_archive (P : PathSem L) (W : World L) (E : ConvEnv L) (s : FetchState L) (tar : Str) (f : ArchSub) (subs : List ArchSub) :
    (s.fs (P.loc tar) = none → convertTarball P W E tar (f :: subs) s = (.error .fileNotFound, s)) ∧
    (∀ c, s.fs (P.loc tar) = some (.file c) → E.untar c f.member = none → convertTarball P W E tar (f :: subs) s = (.error .keyError, s)) ∧
    (∀ c t e, s.fs (P.loc tar) = some (.file c) → E.untar c f.member = some t → nameqToJabmod t = .error e →
      convertTarball P W E tar (f :: subs) s = (.error e, s)) ∧
    (s.fs (P.loc tar) = some .dir → convertTarball P W E tar (f :: subs) s = (.error .other, s)) := by
  refine ⟨fun h => ?_, fun c h hn => ?_, fun c t e h hn he => ?_, fun h => ?_⟩
  · unfold convertTarball memberText
    rw [h]
  · unfold convertTarball memberText
    rw [h]
    simp only
    rw [hn]
  · unfold convertTarball memberText nameqToAbif
    rw [h]
    simp only
    rw [hn]
    simp only
    rw [he]
  · unfold convertTarball memberText
    rw [h]

theorem writeFile_other {P : PathSem L} {W : World L} {s s' : FetchState L} {p c : Str} {e : PyErr} (h : writeFile P W s p c = (.error e, s')) : e = .other := by
  unfold writeFile at h
  split at h
  · simp only [Prod.mk.injEq, Except.error.injEq] at h; exact h.1.symm
  · split at h
    · simp at h
    · simp only [Prod.mk.injEq, Except.error.injEq] at h; exact h.1.symm

theorem writeOut_other {P : PathSem L} {W : World L} {s s' : FetchState L} {p c : Str} {e : PyErr} (h : writeOut P W s p c = (.error e, s')) : e = .other := by
  unfold writeOut at h
  split at h
  · rename_i hm
    unfold mkParents at hm
    split at hm
    · simp only [Prod.mk.injEq, Except.error.injEq] at hm h
      rw [← h.1, ← hm.1]
    · simp at hm
  · exact writeFile_other h

theorem readInputs_error {P : PathSem L} {s : FetchState L} : ∀ {ins : List Str} {e : PyErr}, ins.mapM (readInput P s) = .error e →
    (e = .systemExit ∧ ∃ i ∈ ins, s.fs (P.loc i) = none) ∨ (e = .other ∧ ∃ i ∈ ins, s.fs (P.loc i) = some .dir)
  | [], e, h => by cases h
  | i :: ins, e, h => by
    rw [List.mapM_cons] at h
    unfold readInput at h
    cases hi : s.fs (P.loc i) with
    | none =>
      simp only [hi] at h
      exact .inl ⟨(Except.error.inj h).symm, i, by simp, hi⟩
    | some n =>
      cases n with
      | dir =>
        simp only [hi] at h
        exact .inr ⟨(Except.error.inj h).symm, i, by simp, hi⟩
      | file c =>
        simp only [hi] at h
        rw [ok_bind] at h
        cases hm : ins.mapM (readInput P s) with
        | ok x =>
          change (ins.mapM (readInput P s) >>= _) = _ at h
          rw [hm] at h
          cases h
        | error x =>
          change (ins.mapM (readInput P s) >>= _) = _ at h
          rw [hm] at h
          have hx : x = e := Except.error.inj h
          subst hx
          rcases readInputs_error hm with ⟨h1, j, hj, h2⟩ | ⟨h1, j, hj, h2⟩
          · exact .inl ⟨h1, j, by simp [hj], h2⟩
          · exact .inr ⟨h1, j, by simp [hj], h2⟩

/-- C73, the exceptions.  A conversion that fails ends with exit status 1 and a missing input, an OSError (`other` in the model) because an
input is a directory or the output could not be written, or the error of the conversion itself; a link that fails, with an OSError. -/
theorem C73_errors (P : PathSem L) (W : World L) (E : ConvEnv L) (subs : Option (List ArchSub)) (s s' : FetchState L) (e : PyErr) :
    (∀ fmt ins out desc, runAction P W E subs (.convert fmt ins out desc) s = (.error e, s') →
      (e = .systemExit ∧ s' = s ∧ ∃ i ∈ ins, s.fs (P.loc i) = none) ∨ (e = .other ∧ s' = s ∧ ∃ i ∈ ins, s.fs (P.loc i) = some .dir) ∨
      ∃ blobs, TextsOf P s.fs ins blobs ∧ (textToAbif E.loads E.sha fmt blobs false false (descMeta desc) = .error e ∧ s' = s ∨
        e = .other ∧ ∃ text, textToAbif E.loads E.sha fmt blobs false false (descMeta desc) = .ok text)) ∧
    (∀ src out, runAction P W E subs (.link src out) s = (.error e, s') → e = .other ∧ s' = s) := by
  constructor
  · intro fmt ins out desc h
    change convertFiles P W E s fmt ins out desc = _ at h
    unfold convertFiles at h
    split at h
    · rename_i x hx
      simp only [Prod.mk.injEq, Except.error.injEq] at h
      obtain ⟨rfl, rfl⟩ := h
      rcases readInputs_error hx with ⟨h1, h2⟩ | ⟨h1, h2⟩
      · exact .inl ⟨h1, rfl, h2⟩
      · exact .inr (.inl ⟨h1, rfl, h2⟩)
    · rename_i blobs hb
      refine .inr (.inr ⟨blobs, readInputs_ok.1 hb, ?_⟩)
      split at h
      · rename_i x hx
        simp only [Prod.mk.injEq, Except.error.injEq] at h
        obtain ⟨rfl, rfl⟩ := h
        exact .inl ⟨hx, rfl⟩
      · rename_i text hx
        exact .inr ⟨writeOut_other h, text, hx⟩
  · intro src out h
    change linkFile P W s src out = _ at h
    unfold linkFile at h
    split at h
    · simp only [Prod.mk.injEq, Except.error.injEq] at h
      exact ⟨h.1.symm, h.2.symm⟩
    · simp at h

/-- C73.  Converting: the output file holds the converted text; if writing fails, it is as before or (when cut short)
holds a beginning of the text. -/
theorem C73_convert (P : PathSem L) (W : World L) (E : ConvEnv L) (s : FetchState L) (fmt : Str) (ins blobs : List Str) (out : Str)
    (desc : Option Str) (text : Str) (hin : TextsOf P s.fs ins blobs) (ht : textToAbif E.loads E.sha fmt blobs false false (descMeta desc) = .ok text)
    (r : Except PyErr Unit) (s' : FetchState L) (h : convertFiles P W E s fmt ins out desc = (r, s')) :
    (r = .ok () → s'.fs (P.loc out) = some (.file text)) ∧
    (s'.fs (P.loc out) = s.fs (P.loc out) ∨ (s.fs (P.loc out) = none ∧ s'.fs (P.loc out) = some .dir) ∨
      ∃ c, c <+: text ∧ s'.fs (P.loc out) = some (.file c)) := by
  unfold convertFiles at h
  rw [readInputs_ok.2 hin] at h
  simp only at h
  rw [ht] at h
  simp only at h
  obtain ⟨_, _, w3, w4⟩ := writeOut_spec P W s out text
  rw [h] at w3 w4
  exact ⟨w3, w4⟩

/-- C73, for a whole fetchspec with `web_urls`: when it is processed successfully, the downloads succeeded (see C56), and
if a directory for abif files is given, every output holds the conversion of the files as they were after the downloads. -/
theorem C73_spec (P : PathSem L) (W : World L) (E : ConvEnv L) (f : FetchSpec) (us : List SpecEntry) (hg : f.gitrepo = none) (hu : f.webUrls = some us)
    (s s' : FetchState L) (h : processSpec P W E f s = (.ok (), s')) :
    ∃ s1, fetchWebItems P W f.downloadSubdir (us.map SpecEntry.toUrlDict) s = (.ok (), s1) ∧
      ((f.abifSubdir = none ∨ f.abifSubdir = some [] ∨ (us = [] ∧ (f.extfiles = none ∨ f.extfiles = some []))) → s' = s1) ∧
      (∀ c cs e es, f.abifSubdir = some (c :: cs) → us = e :: es →
        (processExtfiles f.downloadSubdir (c :: cs) ((e :: es).map SpecEntry.ext) f.srcfmt).2 = .ok () ∧
        ∀ as, as = (processExtfiles f.downloadSubdir (c :: cs) ((e :: es).map SpecEntry.ext) f.srcfmt).1 →
          Independent P (f.subs.getD []) as → (∀ a ∈ as, ∀ i ∈ actionIns a, ∃ t, s1.fs (P.loc i) = some (.file t)) →
          ∀ a ∈ as, Made P E (f.subs.getD []) s1.fs s'.fs a) := by
  unfold processSpec at h
  rw [hg, hu] at h
  simp only at h
  cases hf : fetchWebItems P W f.downloadSubdir (us.map SpecEntry.toUrlDict) s with
  | mk r s1 =>
    rw [hf] at h
    cases r with
    | error e => simp only at h; cases h
    | ok u =>
      refine ⟨s1, rfl, ?_, ?_⟩
      · intro hc
        simp only at h
        have hx : ((.ok () : Except PyErr Unit), s1) = (.ok (), s') := by
          rcases hc with hc | hc | ⟨hc, hd | hd⟩
          · rw [hc] at h; exact h
          · rw [hc] at h; exact h
          · rw [hc, hd] at h
            cases hq : orStr f.abifSubdir none <;> rw [hq] at h <;> exact h
          · rw [hc, hd] at h
            cases hq : orStr f.abifSubdir none <;> rw [hq] at h <;> exact h
        cases hx
        rfl
      · intro c cs e es hab hes
        subst hes
        simp only at h
        rw [hab] at h
        have h : processExtRun P W E f.downloadSubdir (c :: cs) ((e :: es).map SpecEntry.ext) f.srcfmt f.subs s1 = (.ok (), s') := h
        unfold processExtRun at h
        generalize hmk : (if s1.has P (c :: cs) then ((.ok () : Except PyErr Unit), s1) else makedirs P W s1 (c :: cs)) = q at h
        obtain ⟨r, s2⟩ := q
        cases r with
        | error e => simp only at h; cases h
        | ok u2 =>
          simp only at h
          cases hrun : runActions P W E f.subs (processExtfiles f.downloadSubdir (c :: cs) ((e :: es).map SpecEntry.ext) f.srcfmt).1 s2 with
          | mk r3 s3 =>
            rw [hrun] at h
            cases r3 with
            | error e => simp only at h; cases h
            | ok u3 =>
              simp only at h
              injection h with h1 h2
              subst h2
              refine ⟨h1, ?_⟩
              rintro as rfl hi hfiles a ha
              have hm := C73_run P W E f.subs _ s2 s3 hrun hi a ha
              have hkeep : ∀ l n, s1.fs l = some n → s2.fs l = some n := by
                split at hmk
                · cases hmk; exact fun _ _ h => h
                · have := (makedirs_spec P W s1 (c :: cs)).1
                  rw [hmk] at this
                  exact this
              apply hm.earlier
              · intro i hia t ht
                obtain ⟨t', ht'⟩ := hfiles a ha i hia
                have := hkeep _ _ ht'
                rw [ht] at this
                rw [ht', this]
              · intro i hia t ht
                exact hkeep _ _ ht

/-- A download that fails ends the processing: nothing is converted, the state is the one the downloads left. -/
theorem C73_download_fails (P : PathSem L) (W : World L) (E : ConvEnv L) (f : FetchSpec) (us : List SpecEntry) (hg : f.gitrepo = none)
    (hu : f.webUrls = some us) (s s1 : FetchState L) (e : PyErr)
    (h : fetchWebItems P W f.downloadSubdir (us.map SpecEntry.toUrlDict) s = (.error e, s1)) : processSpec P W E f s = (.error e, s1) := by
  unfold processSpec
  rw [hg, hu]
  simp only
  rw [h]

end

/-! ## C74 -/

theorem follow_ups (dir : Parts) (k : Nat) (ps : Parts) :
    follow dir (List.replicate k c!".." ++ ps) = follow (dir.take (dir.length - k)) ps := by
  induction k generalizing dir with
  | zero => simp
  | succ k ih =>
    rw [List.replicate_succ, List.cons_append]
    conv => lhs; unfold follow
    rw [if_pos rfl, ih, List.dropLast_eq_take, List.take_take, List.length_take]
    have : min (dir.length - 1) dir.length - k = dir.length - (k + 1) := by omega
    rw [this, show min (dir.length - (k + 1)) (dir.length - 1) = dir.length - (k + 1) by omega]

theorem follow_downs (dir ps : Parts) (h : c!".." ∉ ps) : follow dir ps = dir ++ ps := by
  induction ps generalizing dir with
  | nil => simp [follow]
  | cons p ps ih =>
    rw [List.mem_cons, not_or] at h
    unfold follow
    rw [if_neg (fun e => h.1 e.symm), ih _ h.2]
    simp

theorem commonLen_le (a b : Parts) : commonLen a b ≤ a.length ∧ commonLen a b ≤ b.length := by
  induction a generalizing b with
  | nil => simp [commonLen]
  | cons x a ih =>
    cases b with
    | nil => simp [commonLen]
    | cons y b =>
      unfold commonLen
      split
      · have := ih b; simp only [List.length_cons]; omega
      · simp

theorem commonLen_take (a b : Parts) : a.take (commonLen a b) = b.take (commonLen a b) := by
  induction a generalizing b with
  | nil => simp [commonLen]
  | cons x a ih =>
    cases b with
    | nil => simp [commonLen]
    | cons y b =>
      unfold commonLen
      split
      · rename_i h; subst h; simp [ih b]
      · simp

/-- where the link of `process_extfilelist` leads when it is put into the directory `dir` -/
theorem follow_rel (path start dir : Parts) (h : c!".." ∉ path) :
    follow dir (relPath path start) = dir.take (dir.length - (start.length - commonLen start path)) ++ path.drop (commonLen start path) := by
  unfold relPath
  rw [follow_ups, follow_downs _ _ (fun hm => h (List.mem_of_mem_drop hm))]

/-- C74.  The link for an abif file put directly into the abif directory leads to the downloaded file, wherever the two
directories are. -/
theorem C74_link_partial (path start : Parts) (h : c!".." ∉ path) : follow start (relPath path start) = path := by
  rw [follow_rel path start start h]
  obtain ⟨h1, h2⟩ := commonLen_le start path
  rw [show start.length - (start.length - commonLen start path) = commonLen start path by omega, commonLen_take, List.take_append_drop]

/-- C74 is false of the program when `abifloc` names a file in a subdirectory: the link, computed relative to the abif
directory, then never leads to the downloaded file. -/
theorem C74_refuted (path start sub : Parts) (h : c!".." ∉ path) (hs : sub ≠ []) : follow (start ++ sub) (relPath path start) ≠ path := by
  rw [follow_rel path start (start ++ sub) h]
  obtain ⟨h1, h2⟩ := commonLen_le start path
  intro he
  have := congrArg List.length he
  have hsub : 0 < sub.length := List.length_pos_iff.2 hs
  simp only [List.length_append, List.length_take, List.length_drop] at this
  omega

/-- C74, exactly: the link put at `sub` below the abif directory leads to the downloaded file just when `sub` is that
directory itself; in every case it leads to the file's path below the common part, taken from as many levels up as the
abif directory is below the common part. -/
theorem C74_iff (path start sub : Parts) (h : c!".." ∉ path) :
    (follow (start ++ sub) (relPath path start) = path ↔ sub = []) ∧
    ∀ (common p s : Parts), path = common ++ p → start = common ++ s → (∀ x y, p.head? = some x → s.head? = some y → x ≠ y) →
      follow (start ++ sub) (relPath path start) = (start ++ sub).take ((start ++ sub).length - s.length) ++ p := by
  refine ⟨⟨fun he => ?_, ?_⟩, ?_⟩
  · by_cases hs : sub = []
    · exact hs
    · exact absurd he (C74_refuted path start sub h hs)
  · rintro rfl
    rw [List.append_nil]
    exact C74_link_partial path start h
  · rintro common p s rfl rfl hd
    have hc : commonLen (common ++ s) (common ++ p) = common.length := by
      clear h
      induction common with
      | nil =>
        cases s with
        | nil => simp [commonLen]
        | cons y s =>
          cases p with
          | nil => simp [commonLen]
          | cons x p =>
            have := hd x y rfl rfl
            simp only [List.nil_append]
            unfold commonLen
            rw [if_neg (fun e => this e.symm)]
            rfl
      | cons z common ih =>
        simp only [List.cons_append]
        unfold commonLen
        rw [if_pos rfl, ih]
        simp
    rw [follow_rel _ _ _ h, hc]
    simp

-- downloads/x/y.abif seen from localabif/x
example : relPath [c!"downloads", c!"x", c!"y.abif"] [c!"localabif", c!"x"] = [c!"..", c!"..", c!"downloads", c!"x", c!"y.abif"] := by decide
example : relPath [c!"data", c!"dl", c!"y.abif"] [c!"data", c!"abif"] = [c!"..", c!"dl", c!"y.abif"] := by decide

/-! ### examples -/

section
attribute [local instance] Uni.ascii
set_option maxRecDepth 40000

/-- files "dl/a.toc" (preflib) and "dl/t.tar" -/
def exFetched : FetchState Str :=
  { fs := fun p => if p = c!"dl/a.toc" then some (.file c!"# ALTERNATIVE NAME 1: Ann\n# ALTERNATIVE NAME 2: Bob\n3: 1,2\n")
      else if p = c!"dl/t.tar" then some (.file c!"tar") else if p = c!"ab/old.abif" then some (.file c!"old") else none
    reqs := [] }
/-- an archive with one member -/
def exConv : ConvEnv Str :=
  { loads := fun _ => .error .valueError, sha := fun s => s
    untar := fun c m => if c = c!"tar" ∧ m = c!"m" then some c!"Ann=1&Bob=2\nAnn=1&Bob=2\n" else none
    git := fun fs _ _ => (.ok (), fs) }
/-- a preflib entry and an archive -/
def exActs : List ExtAction := [.convert c!"preflib" [c!"dl/a.toc"] c!"ab/a.abif" (some c!"d"), .tarball c!"dl/t.tar"]
def exSubs : List ArchSub := [⟨c!"m", c!"ab/m.abif"⟩]

example : Independent flatFs exSubs exActs := by
  refine ⟨by decide, ?_⟩
  decide
example : (runActions flatFs (exWorld none) exConv (some exSubs) exActs exFetched).1.toOption = some () ∧
    (runActions flatFs (exWorld none) exConv (some exSubs) exActs exFetched).2.fs c!"ab/m.abif" = some (.file
      c!"#------- metadata -------\n{version: \"0.1\"}\n{ballotcount: 2}\n#------ candlines ------\n=Ann:[Ann]\n=Bob:[Bob]\n#------- votelines ------\n2:Ann>Bob\n") ∧
    (runActions flatFs (exWorld none) exConv (some exSubs) exActs exFetched).2.fs c!"ab/old.abif" = some (.file c!"old") := by
  decide +kernel
-- a missing input
example : (convertFiles flatFs (exWorld none) exConv exFetched c!"preflib" [c!"dl/a.toc", c!"dl/none"] c!"ab/a.abif" none).1.toOption = none := by
  decide +kernel

/-- a fetchspec whose file is there already -/
def exSpec : FetchSpec :=
  { downloadSubdir := c!"dl", abifSubdir := some c!"ab", srcfmt := some c!"preflib"
    webUrls := some [{ localcopy := some c!"a.toc", url := some c!"u", metaurls := some [c!"m"], desc := some c!"d", abifloc := some c!"a.abif" }] }
example : (processSpec flatFs (exWorld none) exConv exSpec exFetched).1.toOption = some () ∧
    (processSpec flatFs (exWorld none) exConv exSpec exFetched).2.reqs = [] ∧
    ((processSpec flatFs (exWorld none) exConv exSpec exFetched).2.fs c!"ab/a.abif").isSome = true := by decide +kernel
end

end Verif.Props
