/-
Fetchspec files (C100).
-/
import Verif.Model.FetchSpec
import Verif.Spec.FetchSpec
import Verif.Lib.JsonIo
import Verif.Lib.JsonSound
import Verif.Props.FetchRun

set_option linter.unusedSectionVars false

namespace Verif.Props
open Spec

theorem member_get (k : Str) (l : List (Str × Json)) : member k (.obj l) = Dict.get? l k := by
  induction l with
  | nil => rfl
  | cons e l ih =>
    obtain ⟨a, v⟩ := e
    unfold member at ih ⊢
    simp only [List.find?_cons, Dict.get?]
    by_cases h : a = k
    · simp [h]
    · have h' : ¬ k = a := fun e => h e.symm
      simp [h, h'] at ih ⊢
      exact ih

theorem strMember_iff (l : List (Str × Json)) (k : Str) (x : Option Str) :
    strMember l k = .ok x ↔ SaysText (.obj l) k x := by
  unfold strMember
  cases x with
  | none =>
    simp only [SaysText, member_get]
    cases Dict.get? l k with
    | none => simp
    | some v => cases v <;> simp
  | some x =>
    simp only [SaysText, member_get]
    cases Dict.get? l k with
    | none => simp
    | some v => cases v <;> simp

theorem getStrMember_iff (l : List (Str × Json)) (k : Str) (x : Option Str) :
    getStrMember l k = .ok x ↔ MaySayText (.obj l) k x := by
  unfold getStrMember strMember
  cases x with
  | none =>
    simp only [MaySayText, member_get]
    cases Dict.get? l k with
    | none => simp
    | some v => cases v <;> simp
  | some x =>
    simp only [MaySayText, member_get]
    cases Dict.get? l k with
    | none => simp
    | some v => cases v <;> simp

theorem strs_iff (vs : List Json) (xs : List Str) : vs.mapM strOf = .ok xs ↔ vs = xs.map .str := by
  induction vs generalizing xs with
  | nil =>
    rw [List.mapM_nil]
    constructor
    · intro h; cases h; rfl
    · intro h; cases xs with
      | nil => rfl
      | cons x xs => cases h
  | cons v vs ih =>
    rw [List.mapM_cons]
    constructor
    · intro h
      obtain ⟨x, hx, h⟩ := bind_ok.1 h
      obtain ⟨ys, hy, h⟩ := bind_ok.1 h
      cases h
      have := (ih ys).1 hy
      subst this
      cases v <;> simp [strOf] at hx
      subst hx
      rfl
    · intro h
      cases xs with
      | nil => cases h
      | cons x xs =>
        simp only [List.map_cons, List.cons.injEq] at h
        obtain ⟨rfl, rfl⟩ := h
        rw [(ih xs).2 rfl]
        rfl

theorem map_ok_some {α : Type} {r : Except PyErr α} {x : α} : r.map some = .ok (some x) ↔ r = .ok x := by
  cases r <;> simp [Except.map]

theorem map_ne_none {α : Type} {r : Except PyErr α} : r.map some ≠ .ok (none : Option α) := by
  cases r <;> simp [Except.map]

theorem strsMember_iff (l : List (Str × Json)) (k : Str) (x : Option (List Str)) :
    strsMember l k = .ok x ↔ SaysTexts (.obj l) k x := by
  unfold strsMember
  cases x with
  | none =>
    simp only [SaysTexts, member_get]
    cases Dict.get? l k with
    | none => simp
    | some v => cases v <;> simp [map_ne_none]
  | some xs =>
    simp only [SaysTexts, member_get]
    cases Dict.get? l k with
    | none => simp
    | some v => cases v <;> simp [texts, map_ok_some, strs_iff]

theorem each_iff {β : Type} {f : Json → Except PyErr β} {R : Json → β → Prop} (h : ∀ v y, f v = .ok y ↔ R v y) (vs : List Json) (ys : List β) :
    vs.mapM f = .ok ys ↔ Each R vs ys := by
  induction vs generalizing ys with
  | nil =>
    rw [List.mapM_nil]
    constructor
    · intro e; cases e; exact .nil
    · intro e; cases e; rfl
  | cons v vs ih =>
    rw [List.mapM_cons]
    constructor
    · intro e
      obtain ⟨y, hy, e⟩ := bind_ok.1 e
      obtain ⟨zs, hz, e⟩ := bind_ok.1 e
      cases e
      exact .cons ((h v y).1 hy) ((ih zs).1 hz)
    · intro e
      cases e with
      | cons h1 h2 =>
        rw [(h _ _).2 h1, (ih _).2 h2]
        rfl

theorem entryOf_iff (d : Json) (e : SpecEntry) : entryOf d = .ok e ↔ DescribesEntry d e := by
  constructor
  · intro h
    cases d with
    | obj l =>
      unfold entryOf at h
      obtain ⟨x1, h1, h⟩ := bind_ok.1 h
      obtain ⟨x2, h2, h⟩ := bind_ok.1 h
      obtain ⟨x3, h3, h⟩ := bind_ok.1 h
      obtain ⟨x4, h4, h⟩ := bind_ok.1 h
      obtain ⟨x5, h5, h⟩ := bind_ok.1 h
      obtain ⟨x6, h6, h⟩ := bind_ok.1 h
      obtain ⟨x7, h7, h⟩ := bind_ok.1 h
      obtain ⟨x8, h8, h⟩ := bind_ok.1 h
      cases h
      exact ⟨⟨l, rfl⟩, (strsMember_iff ..).1 h1, (strMember_iff ..).1 h2, (strsMember_iff ..).1 h3, (strMember_iff ..).1 h4,
        (strsMember_iff ..).1 h5, (strMember_iff ..).1 h6, (getStrMember_iff ..).1 h7, (strMember_iff ..).1 h8⟩
    | _ => cases h
  · rintro ⟨⟨l, rfl⟩, h1, h2, h3, h4, h5, h6, h7, h8⟩
    unfold entryOf
    simp only
    rw [(strsMember_iff ..).2 h1, ok_bind, (strMember_iff ..).2 h2, ok_bind, (strsMember_iff ..).2 h3, ok_bind,
      (strMember_iff ..).2 h4, ok_bind, (strsMember_iff ..).2 h5, ok_bind, (strMember_iff ..).2 h6, ok_bind,
      (getStrMember_iff ..).2 h7, ok_bind, (strMember_iff ..).2 h8, ok_bind]

theorem subOf_iff (d : Json) (a : ArchSub) : subOf d = .ok a ↔ DescribesMember d a := by
  cases d with
  | obj l =>
    unfold subOf DescribesMember
    simp only [member_get]
    constructor
    · intro h
      split at h
      · rename_i m x h1 h2
        cases h
        exact ⟨h1, h2⟩
      · cases h
    · rintro ⟨h1, h2⟩
      rw [h1, h2]
  | _ => simp [subOf, DescribesMember, member]

theorem entriesMember_iff (l : List (Str × Json)) (k : Str) (x : Option (List SpecEntry)) :
    entriesMember l k = .ok x ↔ SaysEntries (.obj l) k x := by
  unfold entriesMember
  cases x with
  | none =>
    simp only [SaysEntries, member_get]
    cases Dict.get? l k with
    | none => simp
    | some v => cases v <;> simp [map_ne_none]
  | some xs =>
    simp only [SaysEntries, member_get]
    cases Dict.get? l k with
    | none => simp
    | some v => cases v <;> simp [map_ok_some, each_iff entryOf_iff]

theorem subsMember_iff (l : List (Str × Json)) (x : Option (List ArchSub)) : subsMember l = .ok x ↔ SaysMembers (.obj l) x := by
  unfold subsMember
  cases x with
  | none =>
    simp only [SaysMembers, member_get]
    cases Dict.get? l c!"archive_subfiles" with
    | none => simp
    | some v => cases v <;> simp [map_ne_none]
  | some xs =>
    simp only [SaysMembers, member_get]
    cases Dict.get? l c!"archive_subfiles" with
    | none => simp
    | some v => cases v <;> simp [map_ok_some, each_iff subOf_iff]

/-- a JSON value is read as a fetchspec exactly if it describes it -/
theorem specOf_iff (d : Json) (f : FetchSpec) : specOf d = .ok f ↔ DescribesSpec d f := by
  constructor
  · intro h
    cases d with
    | obj l =>
      unfold specOf at h
      simp only at h
      split at h
      · cases h
      · rename_i hs
        split at h
        · cases h
        · rename_i dl hdl
          obtain ⟨x1, h1, h⟩ := bind_ok.1 h
          obtain ⟨x2, h2, h⟩ := bind_ok.1 h
          obtain ⟨x3, h3, h⟩ := bind_ok.1 h
          obtain ⟨x4, h4, h⟩ := bind_ok.1 h
          obtain ⟨x5, h5, h⟩ := bind_ok.1 h
          obtain ⟨x6, h6, h⟩ := bind_ok.1 h
          cases h
          refine ⟨⟨l, rfl⟩, ?_, ?_, (strMember_iff ..).1 h1, (getStrMember_iff ..).1 h2, (entriesMember_iff ..).1 h3,
            (entriesMember_iff ..).1 h4, (getStrMember_iff ..).1 h5, (subsMember_iff ..).1 h6⟩
          · by_contra hn
            simp only [ne_eq, not_or, Decidable.not_not] at hn
            obtain ⟨rfl, rfl⟩ := hn
            have g1 := (strMember_iff ..).1 h1
            have g2 := (entriesMember_iff ..).1 h3
            simp only [SaysText, SaysEntries, member_get] at g1 g2
            exact hs (by unfold namesSource; rw [g1, g2]; rfl)
          · rw [member_get, hdl]
        · cases h
    | _ => cases h
  · rintro ⟨⟨l, rfl⟩, hsrc, hdl, h1, h2, h3, h4, h5, h6⟩
    unfold specOf
    have hn : namesSource l ≠ false := by
      unfold namesSource
      rcases hsrc with hs | hs
      · cases hg : f.gitrepo with
        | none => exact absurd hg hs
        | some g =>
          rw [hg] at h1
          simp only [SaysText, member_get] at h1
          rw [h1]; simp
      · cases hw : f.webUrls with
        | none => exact absurd hw hs
        | some es =>
          rw [hw] at h3
          obtain ⟨vs, h3, _⟩ := h3
          rw [member_get] at h3
          rw [h3]; simp
    simp only
    rw [if_neg hn]
    rw [member_get] at hdl
    rw [hdl]
    simp only
    rw [(strMember_iff ..).2 h1, ok_bind, (getStrMember_iff ..).2 h2, ok_bind, (entriesMember_iff ..).2 h3, ok_bind,
      (entriesMember_iff ..).2 h4, ok_bind, (getStrMember_iff ..).2 h5, ok_bind, (subsMember_iff ..).2 h6, ok_bind]

section
variable [Uni] {L : Type} [DecidableEq L]

/-- C100.  A fetchspec file that holds JSON text, laid out in any way and with its members in any order, of a document that
describes a fetchspec is processed as that fetchspec. -/
theorem C100_read (P : PathSem L) (W : World L) (E : ConvEnv L) (fn : Str) (s : FetchState L) (d : Json) (f : FetchSpec) (a t b : Str)
    (hd : DistinctKeys d) (ht : TextOf d t) (ha : Blank a) (hb : Blank b) (hf : DescribesSpec d f)
    (h : s.fs (P.loc fn) = some (.file (a ++ t ++ b))) :
    processFetchspec P W E loadSpec fn s = processSpec P W E f s := by
  unfold processFetchspec
  rw [h]
  have e : loadSpec (a ++ t ++ b) = .ok f := by
    unfold loadSpec
    rw [jsonLoads_text ha hb ht hd]
    exact (specOf_iff d f).2 hf
  simp only [e]

/-- C100.  Conversely, a file that is read as a fetchspec is JSON text of a document that describes it (a repeated key counting
as its last value). -/
theorem C100_exact (text : Str) (f : FetchSpec) : loadSpec text = .ok f ↔
    ∃ raw a t b, Blank a ∧ TextOf raw t ∧ Blank b ∧ text = a ++ t ++ b ∧ DescribesSpec (asDicts raw) f := by
  unfold loadSpec
  constructor
  · intro h
    cases hj : jsonLoads text with
    | error e => rw [hj] at h; cases h
    | ok v =>
      rw [hj] at h
      obtain ⟨raw, a, t, b, ha, ht, hb, e, rfl⟩ := (jsonLoads_iff text v).1 hj
      exact ⟨raw, a, t, b, ha, ht, hb, e, (specOf_iff _ f).1 h⟩
  · rintro ⟨raw, a, t, b, ha, ht, hb, e, hf⟩
    rw [(jsonLoads_iff text (asDicts raw)).2 ⟨raw, a, t, b, ha, ht, hb, e, rfl⟩]
    exact (specOf_iff _ f).2 hf

/-- C100.  A file that describes no fetchspec — missing, not JSON, no object, with neither `gitrepo_url` nor `web_urls`, or without
`download_subdir` — ends with an exception, before anything is requested or changed. -/
theorem C100_refused (P : PathSem L) (W : World L) (E : ConvEnv L) (fn : Str) (s : FetchState L)
    (h : ∀ f text, s.fs (P.loc fn) = some (.file text) → loadSpec text ≠ .ok f) :
    ∃ e, processFetchspec P W E loadSpec fn s = (.error e, s) := by
  unfold processFetchspec
  cases hs : s.fs (P.loc fn) with
  | none => exact ⟨_, rfl⟩
  | some n =>
    cases n with
    | dir => exact ⟨_, rfl⟩
    | file c =>
      cases hl : loadSpec c with
      | error e => exact ⟨e, by simp only [hl]⟩
      | ok f => exact absurd hl (h f c hs)

/-- C100.  Which exception: a text that is not JSON, a `ValueError` (or, with floats, outside the model: never a fetchspec); no
object, `AttributeError`; neither source, a plain exception; no `download_subdir`, a `KeyError`. -/
theorem C100_errors (d : Json) (hd : DistinctKeys d) (a t b : Str) (ht : TextOf d t) (ha : Blank a) (hb : Blank b) :
    ((∀ l, d ≠ .obj l) → loadSpec (a ++ t ++ b) = .error .attributeError) ∧
    ((∃ l, d = .obj l) → member c!"gitrepo_url" d = none → member c!"web_urls" d = none → loadSpec (a ++ t ++ b) = .error .other) ∧
    ((∃ l, d = .obj l) → (member c!"gitrepo_url" d ≠ none ∨ member c!"web_urls" d ≠ none) → member c!"download_subdir" d = none →
      loadSpec (a ++ t ++ b) = .error .keyError) := by
  have e : loadSpec (a ++ t ++ b) = specOf d := by
    unfold loadSpec
    rw [jsonLoads_text ha hb ht hd]
    rfl
  rw [e]
  refine ⟨fun h => ?_, ?_, ?_⟩
  · cases d with
    | obj l => exact absurd rfl (h l)
    | _ => rfl
  · rintro ⟨l, rfl⟩ h1 h2
    rw [member_get] at h1 h2
    unfold specOf namesSource
    simp only
    rw [h1, h2]
    rfl
  · rintro ⟨l, rfl⟩ h1 h2
    simp only [member_get] at h1 h2
    unfold specOf
    have hn : namesSource l ≠ false := by
      unfold namesSource
      rcases h1 with h | h
      · cases hg : Dict.get? l c!"gitrepo_url" with
        | none => exact absurd hg h
        | some g => simp
      · cases hg : Dict.get? l c!"web_urls" with
        | none => exact absurd hg h
        | some g => simp
    simp only
    rw [if_neg hn, h2]

/-- a reading that, when it fails, fails with `other` -/
def OnlyOther {α : Type} (x : Except PyErr α) : Prop := ∀ e, x = .error e → e = .other

theorem onlyOther_ok {α : Type} (a : α) : OnlyOther (.ok a : Except PyErr α) := fun e h => by cases h
theorem onlyOther_other {α : Type} : OnlyOther (.error .other : Except PyErr α) := fun e h => by cases h; rfl
theorem onlyOther_bind {α β : Type} {x : Except PyErr α} {f : α → Except PyErr β} (h : OnlyOther x) (hf : ∀ a, OnlyOther (f a)) :
    OnlyOther (x >>= f) := by
  cases x with
  | error e => have := h e rfl; subst this; exact onlyOther_other
  | ok a => exact hf a
theorem onlyOther_map {α β : Type} {x : Except PyErr α} {f : α → β} (h : OnlyOther x) : OnlyOther (x.map f) := by
  cases x with
  | error e => have := h e rfl; subst this; exact onlyOther_other
  | ok a => exact onlyOther_ok _
theorem onlyOther_mapM {α β : Type} {f : α → Except PyErr β} (hf : ∀ a, OnlyOther (f a)) (l : List α) : OnlyOther (l.mapM f) := by
  induction l with
  | nil => exact onlyOther_ok _
  | cons a l ih =>
    rw [List.mapM_cons]
    exact onlyOther_bind (hf a) (fun _ => onlyOther_bind ih (fun _ => onlyOther_ok _))

theorem strMember_other (l : List (Str × Json)) (k : Str) : OnlyOther (strMember l k) := by
  unfold strMember
  split <;> first | exact onlyOther_ok _ | exact onlyOther_other
theorem getStrMember_other (l : List (Str × Json)) (k : Str) : OnlyOther (getStrMember l k) := by
  unfold getStrMember
  split <;> first | exact onlyOther_ok _ | exact strMember_other _ _
theorem strOf_other (j : Json) : OnlyOther (strOf j) := by
  unfold strOf
  split <;> first | exact onlyOther_ok _ | exact onlyOther_other
theorem strsMember_other (l : List (Str × Json)) (k : Str) : OnlyOther (strsMember l k) := by
  unfold strsMember
  split <;> first | exact onlyOther_ok _ | exact onlyOther_other | exact onlyOther_map (onlyOther_mapM strOf_other _)
theorem entryOf_other (j : Json) : OnlyOther (entryOf j) := by
  unfold entryOf
  split
  · exact onlyOther_bind (strsMember_other _ _) fun _ => onlyOther_bind (strMember_other _ _) fun _ => onlyOther_bind (strsMember_other _ _) fun _ =>
      onlyOther_bind (strMember_other _ _) fun _ => onlyOther_bind (strsMember_other _ _) fun _ => onlyOther_bind (strMember_other _ _) fun _ =>
      onlyOther_bind (getStrMember_other _ _) fun _ => onlyOther_bind (strMember_other _ _) fun _ => onlyOther_ok _
  · exact onlyOther_other
theorem entriesMember_other (l : List (Str × Json)) (k : Str) : OnlyOther (entriesMember l k) := by
  unfold entriesMember
  split <;> first | exact onlyOther_ok _ | exact onlyOther_other | exact onlyOther_map (onlyOther_mapM entryOf_other _)
theorem subOf_other (j : Json) : OnlyOther (subOf j) := by
  unfold subOf
  split
  · split <;> first | exact onlyOther_ok _ | exact onlyOther_other
  · exact onlyOther_other
theorem subsMember_other (l : List (Str × Json)) : OnlyOther (subsMember l) := by
  unfold subsMember
  split <;> first | exact onlyOther_ok _ | exact onlyOther_other | exact onlyOther_map (onlyOther_mapM subOf_other _)

/-- C100, members of other types.  A document that names a source and a `download_subdir` is read as a fetchspec or refused with the error
the model uses for members of unexpected types: with no other. -/
theorem C100_types (d : Json) (hd : DistinctKeys d) (a t b : Str) (ht : TextOf d t) (ha : Blank a) (hb : Blank b)
    (h1 : member c!"gitrepo_url" d ≠ none ∨ member c!"web_urls" d ≠ none) (h2 : member c!"download_subdir" d ≠ none) :
    loadSpec (a ++ t ++ b) = .error .other ∨ ∃ f, loadSpec (a ++ t ++ b) = .ok f ∧ DescribesSpec d f := by
  have e : loadSpec (a ++ t ++ b) = specOf d := by
    unfold loadSpec
    rw [jsonLoads_text ha hb ht hd]
    rfl
  rw [e]
  have key : OnlyOther (specOf d) := by
    cases d with
    | obj l =>
      rw [member_get] at h2
      unfold specOf
      simp only
      split
      · exact onlyOther_other
      · cases hg : Dict.get? l c!"download_subdir" with
        | none => exact absurd hg h2
        | some j =>
          cases j with
          | str s =>
            exact onlyOther_bind (strMember_other _ _) fun _ => onlyOther_bind (getStrMember_other _ _) fun _ =>
              onlyOther_bind (entriesMember_other _ _) fun _ => onlyOther_bind (entriesMember_other _ _) fun _ =>
              onlyOther_bind (getStrMember_other _ _) fun _ => onlyOther_bind (subsMember_other _) fun _ => onlyOther_ok _
          | _ => exact onlyOther_other
    | _ => exact absurd rfl h2
  cases hs : specOf d with
  | error x => rw [key x hs]; exact .inl rfl
  | ok f => exact .inr ⟨f, rfl, (specOf_iff d f).1 hs⟩

/-- C100, archives: an archive entry in a fetchspec without `archive_subfiles` is a `TypeError`, and nothing is changed by it. -/
theorem C100_no_members (P : PathSem L) (W : World L) (E : ConvEnv L) (tar : Str) (as : List ExtAction) (s : FetchState L) :
    runActions P W E none (.tarball tar :: as) s = (.error .typeError, s) := rfl

end

section
attribute [local instance] Uni.ascii
set_option maxRecDepth 40000

/-- a fetchspec as JSON text -/
def exSpecText : Str :=
  c!"{\"srcfmt\": \"preflib\",\n \"abifloc_subdir\": \"ab\", \"note\": [1, null],\n \"web_urls\": [ {\"desc\":\"d\", \"url\":\"u\", \"metaurls\": [\"m\"], \"localcopy\":\"a.toc\", \"abifloc\":\"a.abif\"} ],\n \"download_subdir\":\"dl\"}\n"

/-- the same as a value -/
def exSpecDoc : Json :=
  .obj [(c!"srcfmt", .str c!"preflib"), (c!"abifloc_subdir", .str c!"ab"), (c!"note", .arr [.int 1, .null]),
    (c!"web_urls", .arr [.obj [(c!"desc", .str c!"d"), (c!"url", .str c!"u"), (c!"metaurls", .arr [.str c!"m"]), (c!"localcopy", .str c!"a.toc"),
      (c!"abifloc", .str c!"a.abif")]]), (c!"download_subdir", .str c!"dl")]

example : (jsonLoads exSpecText).toOption.map Json.dumps = some exSpecDoc.dumps := by decide +kernel
example : DistinctKeys exSpecDoc := by simp [exSpecDoc, DistinctKeys, DistinctKeysArr, DistinctKeysObj]
example : DescribesSpec exSpecDoc exSpec := by
  refine ⟨⟨_, rfl⟩, .inr (by simp [exSpec]), rfl, rfl, rfl, ⟨_, rfl, .cons ?_ .nil⟩, rfl, rfl, .inl rfl⟩
  exact ⟨⟨_, rfl⟩, rfl, rfl, rfl, rfl, rfl, rfl, .inl rfl, rfl⟩
-- not a fetchspec
example : (loadSpec c!"[]").toOption.isSome = false ∧ (loadSpec c!"{\"download_subdir\": \"x\"}").toOption.isSome = false ∧
    (loadSpec c!"{\"web_urls\": []}").toOption.isSome = false ∧ (loadSpec c!"{").toOption.isSome = false ∧ (loadSpec exSpecText).toOption.isSome = true := by
  decide +kernel
end

end Verif.Props
