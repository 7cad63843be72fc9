/-
C114: numbers written as text.
-/
import Verif.Lib.WholeNumber
import Verif.Props.NameqImport
import Verif.Props.Argv
import Verif.Model.Export
import Verif.Model.Sftxt
import Verif.Lib.Score

set_option linter.unusedSimpArgs false
set_option linter.unusedSectionVars false

namespace Verif.Props
open Verif Spec

section
variable [U : Uni]

/-- the number a rating stands for: 0 when there is none, and what a text says -/
inductive NumberOf : Option RVal → Int → Prop
  | absent : NumberOf none 0
  | number (i : Int) : NumberOf (some (.int i)) i
  | text (s : Str) (i : Int) : WholeNumber s i → NumberOf (some (.str s)) i

/-- what is wrong with an entry of a ballot, for a count over these candidates, and the exception it causes -/
inductive Uncountable (cands : List Str) : Str × Pref → PyErr → Prop
  | null (c : Str) (p : Pref) : p.rating = some .null → Uncountable cands (c, p) .typeError
  | text (c : Str) (p : Pref) (s : Str) : p.rating = some (.str s) → (¬ ∃ i, WholeNumber s i) → Uncountable cands (c, p) .valueError
  | stranger (c : Str) (p : Pref) (i : Int) : NumberOf p.rating i → c ∉ cands → Uncountable cands (c, p) .keyError

theorem ratingInt_reads (r : Option RVal) (i : Int) : ratingInt r = .ok i ↔ NumberOf r i := by
  constructor
  · intro h
    match r, h with
    | none, h => cases h; exact .absent
    | some (.int j), h => cases h; exact .number _
    | some (.str s), h => exact .text s i ((pyInt_iff s i).1 h)
  · intro h
    cases h with
    | absent => rfl
    | number => rfl
    | text s i h => exact (pyInt_iff s i).2 h

theorem uncountable_cases (cands : List Str) (e : Str × Pref) :
    (∃ err, Uncountable cands e err) ∨ ∃ i, ratingInt e.2.rating = .ok i ∧ e.1 ∈ cands := by
  obtain ⟨c, p⟩ := e
  rcases hr : ratingInt p.rating with err | i
  · left
    match hp : p.rating with
    | none => rw [hp] at hr; cases hr
    | some (.int j) => rw [hp] at hr; cases hr
    | some .null => exact ⟨_, .null c p hp⟩
    | some (.str s) =>
      rw [hp] at hr
      exact ⟨_, .text c p s hp ((pyInt_error s err).1 hr).2⟩
  · by_cases hc : c ∈ cands
    · exact .inr ⟨i, rfl, hc⟩
    · exact .inl ⟨_, .stranger c p i ((ratingInt_reads _ _).1 hr) hc⟩

theorem scorePrefs_step {qty : Int} {e : Str × Pref} {l : List (Str × Pref)} {d : Dict Str ScoreEntry} {err : PyErr}
    (h : Uncountable (Dict.keys d) e err) : scorePrefs qty (e :: l) d = .error err := by
  cases h with
  | null c p hp =>
    unfold scorePrefs
    simp only [hp]
    rfl
  | text c p s hp hn =>
    unfold scorePrefs
    simp only [hp]
    have : ratingInt (some (.str s)) = .error .valueError := (pyInt_error s _).2 ⟨rfl, hn⟩
    rw [this]
    rfl
  | stranger c p i hr hc =>
    unfold scorePrefs
    simp only
    rw [(ratingInt_reads _ _).2 hr, ok_bind]
    have : Dict.getE d c = .error .keyError := by
      unfold Dict.getE
      rw [Dict.get?_eq_none.2 hc]
    rw [this]
    rfl

theorem scorePrefs_good {qty : Int} {e : Str × Pref} {l : List (Str × Pref)} {d : Dict Str ScoreEntry} {i : Int}
    (h : ratingInt e.2.rating = .ok i) (hc : e.1 ∈ Dict.keys d) : ∃ d', Dict.keys d' = Dict.keys d ∧ scorePrefs qty (e :: l) d = scorePrefs qty l d' := by
  obtain ⟨c, p⟩ := e
  obtain ⟨x, hx⟩ := Dict.exists_get?_of_mem hc
  refine ⟨Dict.set d c { x with score := x.score + i * qty, votercount := if i > 0 then x.votercount + qty else x.votercount },
    Dict.keys_set_of_mem hc, ?_⟩
  rw [scorePrefs]
  simp only at h
  rw [h, ok_bind, Dict.getE_of_get? hx, ok_bind]

/-- the entries of a list up to the first that cannot be counted -/
def FirstBad (cands : List Str) (l : List (Str × Pref)) (err : PyErr) : Prop :=
  ∃ pre x post, l = pre ++ x :: post ∧ (∀ y ∈ pre, ¬ ∃ e, Uncountable cands y e) ∧ Uncountable cands x err

theorem firstBad_cons {cands : List Str} {e : Str × Pref} {l : List (Str × Pref)} {err : PyErr} :
    FirstBad cands (e :: l) err ↔ Uncountable cands e err ∨ ((¬ ∃ x, Uncountable cands e x) ∧ FirstBad cands l err) := by
  constructor
  · rintro ⟨pre, x, post, h1, h2, h3⟩
    cases pre with
    | nil => cases h1; exact .inl h3
    | cons y pre =>
      cases h1
      exact .inr ⟨h2 _ (by simp), pre, x, post, rfl, fun z hz => h2 z (by simp [hz]), h3⟩
  · rintro (h | ⟨h1, pre, x, post, rfl, h2, h3⟩)
    · exact ⟨[], e, l, rfl, by simp, h⟩
    · refine ⟨e :: pre, x, post, rfl, ?_, h3⟩
      intro y hy
      rcases List.mem_cons.1 hy with rfl | hy
      · exact h1
      · exact h2 y hy

theorem uncountable_det {cands : List Str} {e : Str × Pref} {a b : PyErr} (h1 : Uncountable cands e a) (h2 : Uncountable cands e b) : a = b := by
  have := scorePrefs_step (qty := 0) (l := []) (d := cands.map (fun c => (c, ⟨none, 0, 0⟩))) (e := e) (err := a) (by
    have : Dict.keys (cands.map (fun c => (c, (⟨none, 0, 0⟩ : ScoreEntry)))) = cands := by simp [Dict.keys, Function.comp_def]
    rwa [this])
  have h := scorePrefs_step (qty := 0) (l := []) (d := cands.map (fun c => (c, ⟨none, 0, 0⟩))) (e := e) (err := b) (by
    have : Dict.keys (cands.map (fun c => (c, (⟨none, 0, 0⟩ : ScoreEntry)))) = cands := by simp [Dict.keys, Function.comp_def]
    rwa [this])
  rw [this] at h
  exact Except.error.inj h

theorem scorePrefs_error (qty : Int) (l : List (Str × Pref)) : ∀ (d : Dict Str ScoreEntry),
    (∀ err, scorePrefs qty l d = .error err ↔ FirstBad (Dict.keys d) l err) ∧ ∀ d', scorePrefs qty l d = .ok d' → Dict.keys d' = Dict.keys d := by
  induction l with
  | nil =>
    intro d
    refine ⟨fun err => ⟨fun h => (by cases h), ?_⟩, fun d' h => by cases h; rfl⟩
    rintro ⟨pre, x, post, h, _⟩
    simp at h
  | cons e l ih =>
    intro d
    rcases uncountable_cases (Dict.keys d) e with ⟨x, hx⟩ | ⟨i, hi, hc⟩
    · have hs := scorePrefs_step (qty := qty) (l := l) hx
      refine ⟨fun err => ?_, fun d' h => by rw [hs] at h; cases h⟩
      rw [hs, firstBad_cons]
      constructor
      · intro h; cases h; exact .inl hx
      · rintro (h | ⟨h, _⟩)
        · rw [uncountable_det h hx]
        · exact absurd ⟨x, hx⟩ h
    · obtain ⟨d1, hk, hs⟩ := scorePrefs_good (qty := qty) (l := l) hi hc
      have hno : ¬ ∃ x, Uncountable (Dict.keys d) e x := by
        rintro ⟨x, hx⟩
        cases hx with
        | null c p hp => simp only [hp] at hi; cases hi
        | text c p s hp hn =>
          simp only [hp] at hi
          exact hn ⟨i, (pyInt_iff s i).1 hi⟩
        | stranger c p j hr hn => exact hn hc
      obtain ⟨h1, h2⟩ := ih d1
      rw [hs]
      refine ⟨fun err => ?_, fun d' h => by rw [h2 d' h, hk]⟩
      rw [h1 err, hk, firstBad_cons]
      constructor
      · intro h; exact .inr ⟨hno, h⟩
      · rintro (h | ⟨_, h⟩)
        · exact absurd ⟨err, h⟩ hno
        · exact h

theorem firstBad_append {cands : List Str} {a b : List (Str × Pref)} {err : PyErr} :
    FirstBad cands (a ++ b) err ↔ FirstBad cands a err ∨ ((∀ x, ¬ FirstBad cands a x) ∧ FirstBad cands b err) := by
  induction a with
  | nil =>
    constructor
    · intro h
      refine .inr ⟨?_, h⟩
      rintro x ⟨pre, y, post, h, _⟩
      simp at h
    · rintro (⟨pre, y, post, h, _⟩ | ⟨_, h⟩)
      · simp at h
      · exact h
  | cons e a ih =>
    rw [List.cons_append, firstBad_cons, ih, firstBad_cons]
    constructor
    · rintro (h | ⟨h1, h | ⟨h2, h3⟩⟩)
      · exact .inl (.inl h)
      · exact .inl (.inr ⟨h1, h⟩)
      · refine .inr ⟨?_, h3⟩
        intro x hx
        rcases firstBad_cons.1 hx with h | ⟨_, h⟩
        · exact h1 ⟨x, h⟩
        · exact h2 x h
    · rintro ((h | ⟨h1, h⟩) | ⟨h1, h2⟩)
      · exact .inl h
      · exact .inr ⟨h1, .inl h⟩
      · refine .inr ⟨?_, .inr ⟨?_, h2⟩⟩
        · rintro ⟨x, hx⟩; exact h1 x (firstBad_cons.2 (.inl hx))
        · intro x hx
          by_cases hu : ∃ y, Uncountable cands e y
          · obtain ⟨y, hy⟩ := hu; exact h1 y (firstBad_cons.2 (.inl hy))
          · exact h1 x (firstBad_cons.2 (.inr ⟨hu, hx⟩))

theorem scoreLines_error (vls : List Voteline) : ∀ (d : Dict Str ScoreEntry) (err : PyErr),
    scoreLines vls d = .error err ↔ FirstBad (Dict.keys d) (vls.flatMap (fun vl => vl.prefs)) err := by
  induction vls with
  | nil =>
    intro d err
    refine ⟨fun h => (by cases h), ?_⟩
    rintro ⟨pre, x, post, h, _⟩
    simp at h
  | cons vl vls ih =>
    intro d err
    obtain ⟨h1, h2⟩ := scorePrefs_error vl.qty vl.prefs d
    rw [List.flatMap_cons, firstBad_append]
    unfold scoreLines
    cases hs : scorePrefs vl.qty vl.prefs d with
    | error x =>
      rw [error_bind]
      constructor
      · intro h; cases h; exact .inl ((h1 _).1 hs)
      · rintro (h | ⟨h, _⟩)
        · rw [(h1 _).2 h] at hs
          rw [Except.error.inj hs]
        · exact absurd ((h1 _).1 hs) (h x)
    | ok d' =>
      rw [ok_bind, ih d' err, h2 d' hs]
      constructor
      · intro h
        refine .inr ⟨?_, h⟩
        intro x hx
        rw [(h1 x).2 hx] at hs
        cases hs
      · rintro (h | ⟨_, h⟩)
        · rw [(h1 _).2 h] at hs; cases hs
        · exact h

/-- C114, scores.  For every model, whatever its ratings are: the scores are refused exactly if some entry of a ballot cannot be counted, and then with the
exception of the first such entry: a ValueError for a text that stands for no whole number, a TypeError for a null, a KeyError for a candidate that is not
declared. -/
theorem C114_score (m : Jabmod) (err : PyErr) : basicScore m = .error err ↔
    ∃ pre x post, m.votelines.flatMap (fun vl => vl.prefs) = pre ++ x :: post ∧ (∀ y ∈ pre, ¬ ∃ e, Uncountable (Dict.keys m.candidates) y e) ∧
      Uncountable (Dict.keys m.candidates) x err := by
  unfold basicScore
  rw [scoreLines_error]
  have : Dict.keys (m.candidates.map fun kv => (kv.1, ({ candname := kv.2, score := 0, votercount := 0 } : ScoreEntry))) = Dict.keys m.candidates := by
    simp [Dict.keys, Function.comp_def]
  rw [this]
  rfl

/-! ### export -/

/-- the first entry without a number has a text that stands for none -/
def FirstText (prefs : Dict Str Pref) : Prop :=
  ∃ pre c p post s, prefs = pre ++ (c, p) :: post ∧ p.rating = some (.str s) ∧ (¬ ∃ i, WholeNumber s i) ∧
    ∀ e ∈ pre, ∃ i, NumberOf e.2.rating i ∧ e.2.rating ≠ none

/-- C114, export.  A ballot whose ratings are all numbers or texts that stand for numbers is written with them; when the first entry without a number has a text that
stands for none, the export is refused with a ValueError. -/
theorem C114_export (vl : Voteline) :
    ((∀ e ∈ vl.prefs, ∃ i, NumberOf e.2.rating i ∧ e.2.rating ≠ none) → ∃ t, votelineStr vl = .ok t) ∧
    (FirstText vl.prefs → votelineStr vl = .error .valueError) := by
  have good : ∀ r : Option RVal, (∃ i, NumberOf r i ∧ r ≠ none) → ∃ x, ratingIntStrict r = .ok x := by
    rintro r ⟨i, h, hn⟩
    cases h with
    | absent => exact absurd rfl hn
    | number => exact ⟨_, rfl⟩
    | text s i h =>
      refine ⟨(.str s, i), ?_⟩
      unfold ratingIntStrict
      simp only
      rw [(pyInt_iff s i).2 h]
      rfl
  constructor
  · intro h
    have : ∃ items, ratedItems vl.prefs = .ok items := by
      unfold ratedItems
      revert h
      generalize vl.prefs = l
      intro h
      induction l with
      | nil => exact ⟨[], rfl⟩
      | cons e l ih =>
        obtain ⟨x, hx⟩ := good _ (h e (by simp))
        obtain ⟨items, hi⟩ := ih (fun y hy => h y (by simp [hy]))
        rw [List.mapM_cons, hx, ok_bind, ok_bind, hi]
        exact ⟨_, rfl⟩
    obtain ⟨items, hi⟩ := this
    unfold votelineStr prefstrOfPrefs
    rw [hi]
    exact ⟨_, rfl⟩
  · rintro ⟨pre, c, p, post, s, hp, hr, hn, hpre⟩
    have : ratedItems vl.prefs = .error .valueError := by
      unfold ratedItems
      rw [hp]
      clear hp
      induction pre with
      | nil =>
        rw [List.nil_append, List.mapM_cons]
        simp only [hr]
        have : ratingIntStrict (some (.str s)) = .error .valueError := by
          unfold ratingIntStrict
          simp only
          rw [(pyInt_error s .valueError).2 ⟨rfl, hn⟩]
          rfl
        rw [this]
        rfl
      | cons e pre ih =>
        obtain ⟨x, hx⟩ := good _ (hpre e (by simp))
        rw [List.cons_append, List.mapM_cons, hx, ok_bind, ok_bind, ih (fun y hy => hpre y (by simp [hy]))]
        rfl
    unfold votelineStr prefstrOfPrefs
    rw [this]
    rfl

/-! ### nameq -/

/-- C114, nameq.  The import of a `.nameq` text is refused exactly if in some line the first value of some name is no whole number, and always with a ValueError;
otherwise the ranks are the numbers the texts stand for. -/
theorem C114_nameq (text : Str) (fss : List (List (Str × Str))) (h : LineFields text fss) :
    (∀ e, nameqToJabmod text = .error e ↔ e = .valueError ∧ ∃ fs ∈ fss, ∃ k v, FirstValue fs k v ∧ ¬ ∃ i, WholeNumber v i) ∧
    (∀ m, nameqToJabmod text = .ok m → List.Forall₂ (fun fs (vl : Voteline) => ∀ k v i, FirstValue fs k v → WholeNumber v i →
      Dict.get? vl.prefs k = some { rank := some i }) fss m.votelines) := by
  obtain ⟨h1, h2⟩ := C93_import text fss h
  have herr : ∀ e, nameqToJabmod text = .error e → e = .valueError := by
    intro e he
    have entry : ∀ kv : Str × List Str, kv.2 ≠ [] → ∀ e, nameqEntry kv = .error e → e = .valueError := by
      intro kv hne e he
      unfold nameqEntry at he
      split at he
      · rename_i v l hv
        cases hp : pyIntOfStr v with
        | ok r => rw [hp] at he; cases he
        | error x =>
          rw [hp] at he
          cases he
          exact ((pyInt_error v _).1 hp).1
      · rename_i hv; exact absurd hv hne
    have many : ∀ (l : List (Str × List Str)), (∀ kv ∈ l, kv.2 ≠ []) → ∀ e, l.mapM nameqEntry = .error e → e = .valueError := by
      intro l
      induction l with
      | nil => intro _ e he; cases he
      | cons kv l ih =>
        intro hne e he
        rw [List.mapM_cons] at he
        cases hk : nameqEntry kv with
        | error x =>
          rw [hk] at he
          cases he
          exact entry kv (hne kv (by simp)) _ hk
        | ok y =>
          rw [hk, ok_bind] at he
          cases hl : l.mapM nameqEntry with
          | error x =>
            rw [hl] at he
            cases he
            exact ih (fun z hz => hne z (by simp [hz])) _ hl
          | ok ys => rw [hl] at he; cases he
    have line : ∀ (line : Str) e, nameqLine line = .error e → e = .valueError := by
      intro line e he
      unfold nameqLine at he
      split at he
      · cases he
      · rename_i x hx
        cases he
        obtain ⟨_, q2, _, q4⟩ := qs_facts (strip line) _ rfl
        refine many _ ?_ _ hx
        intro kv hkv hn
        have := Dict.get?_of_mem q2 (k := kv.1) (v := kv.2) hkv
        rw [hn] at this
        exact q4 _ this
    unfold nameqToJabmod at he
    split at he
    · rename_i x hx
      cases he
      revert hx
      generalize splitlines text = ls
      intro hx
      induction ls with
      | nil => cases hx
      | cons l ls ih =>
        rw [List.mapM_cons] at hx
        cases hk : nameqLine l with
        | error y =>
          rw [hk] at hx
          cases hx
          exact line l _ hk
        | ok y =>
          rw [hk, ok_bind] at hx
          cases hl : ls.mapM nameqLine with
          | error z =>
            rw [hl] at hx
            cases hx
            exact ih hl
          | ok ys => rw [hl] at hx; cases hx
    · cases he
  constructor
  · intro e
    constructor
    · intro he
      refine ⟨herr e he, ?_⟩
      by_contra hc
      have : ∃ m, nameqToJabmod text = .ok m := by
        apply h1.2
        intro fs hfs k v hv
        by_contra hn
        refine hc ⟨fs, hfs, k, v, hv, ?_⟩
        rintro ⟨i, hi⟩
        exact hn ⟨i, (pyInt_iff v i).2 hi⟩
      obtain ⟨m, hm⟩ := this
      rw [hm] at he
      cases he
    · rintro ⟨rfl, fs, hfs, k, v, hv, hn⟩
      cases hr : nameqToJabmod text with
      | error e => rw [herr e hr]
      | ok m =>
        obtain ⟨r, hr⟩ := h1.1 ⟨m, hr⟩ fs hfs k v hv
        exact absurd ⟨r, (pyInt_iff v r).1 hr⟩ hn
  · intro m hm
    refine (h2 m hm).1.imp ?_
    intro fs vl hb k v i hv hi
    obtain ⟨r, hr, hg⟩ := hb.2.2 k v hv
    rw [(pyInt_iff v i).2 hi] at hr
    cases hr
    exact hg

/-! ### the command line -/

/-- C114, `-w`.  abiftool's `-w V` and `--width V` are accepted exactly if `V` is a whole number, which is then the width. -/
theorem C114_width (w v f : Str) (hw : w = c!"-w" ∨ w = c!"--width") (hv : PlainWord v) (hf : PlainWord f) :
    (∀ i, WholeNumber v i → ∃ a, parseArgv [w, v, f] = .ok a ∧ a.width = i ∧ a.files = [f]) ∧
    ((¬ ∃ i, WholeNumber v i) → parseArgv [w, v, f] = .error .usage) := by
  have pv := (argWord_plain v).2 hv
  have pf := (argWord_plain f).2 hf
  have hstep : parseWords [w, v, f] {} = (match applyOpt { files := [] } .width v with
      | .error e => .error e
      | .ok a => .ok { files := [f], isOpen := true, args := a }) := by
    have hfile : ∀ a : CliArgs, parseWords [f] { args := a } = .ok { files := [f], isOpen := true, args := a } := by
      intro a
      rw [parseWords.eq_def]
      simp only [pf]
      rfl
    rcases hw with rfl | rfl
    · have e : argWord c!"-w" = .short .width [] := rfl
      rw [parseWords.eq_def]
      simp only [e, pv]
      simp only [shortGroup, Opt.takesValue, if_true, applyOpts, List.nil_append]
      cases applyOpt { files := [] } .width v with
      | error e => rfl
      | ok a => exact hfile a
    · have e : argWord c!"--width" = .long .width none := rfl
      rw [parseWords.eq_def]
      simp only [e, pv]
      simp only [Opt.takesValue, if_true]
      cases applyOpt { files := [] } .width v with
      | error e => rfl
      | ok a => exact hfile a
  unfold parseArgv
  rw [hstep]
  unfold applyOpt
  simp only
  constructor
  · intro i hi
    rw [(pyInt_iff v i).2 hi]
    exact ⟨_, rfl, rfl, rfl⟩
  · intro hn
    rw [(pyInt_error v .valueError).2 ⟨rfl, hn⟩]

end

section
attribute [local instance] Uni.ascii
set_option maxRecDepth 20000

/-- texts that stand for numbers … -/
example : WholeNumber c!" +1_024 " 1024 :=
  ⟨c!" ", c!"1_024", c!" ", 1024, by decide, by decide,
    .next c!"1_02" 102 '4' 4 (.next c!"1_0" 10 '2' 2 (.under c!"1" 1 '0' 0 (.one '1' 1 rfl) rfl) rfl) rfl, .inr (.inl ⟨rfl, rfl⟩)⟩
/-- … and texts that do not -/
example : pyIntOfStr c!"1__0" = .error .valueError ∧ pyIntOfStr c!"- 5" = .error .valueError ∧ pyIntOfStr c!"5.0" = .error .valueError ∧
    pyIntOfStr c!"" = .error .valueError ∧ pyIntOfStr c!"_1" = .error .valueError := by decide +kernel
example : ¬ ∃ i, WholeNumber c!"5.0" i := ((pyInt_error c!"5.0" .valueError).1 (by decide +kernel)).2

/-- a model as JSON may give it: the second ballot has a text that is no number -/
def textRatings : Jabmod :=
  { metadata := [], candidates := [(c!"A", some c!"A"), (c!"B", some c!"B")]
    votelines := [{ qty := 2, prefs := [(c!"A", { rating := some (.str c!" 5") }), (c!"B", { })] },
      { qty := 1, prefs := [(c!"A", { rating := some (.str c!"five") }), (c!"C", { rating := some .null })] }] }

/-- C114_score's right side is met, with the first of the two that cannot be counted -/
example : basicScore textRatings = .error .valueError :=
  (C114_score textRatings .valueError).2 ⟨[(c!"A", { rating := some (.str c!" 5") }), (c!"B", { })], (c!"A", { rating := some (.str c!"five") }),
    [(c!"C", { rating := some .null })], rfl, by
      intro y hy
      rcases uncountable_cases [c!"A", c!"B"] y with h | ⟨i, hi, hc⟩
      · simp only [List.mem_cons, List.not_mem_nil, or_false] at hy
        exfalso
        obtain ⟨e, he⟩ := h
        rcases hy with rfl | rfl
        · have := scorePrefs_step (qty := 1) (l := []) (d := [(c!"A", ⟨none, 0, 0⟩), (c!"B", ⟨none, 0, 0⟩)]) he
          have h2 : (match scorePrefs 1 [(c!"A", { rating := some (.str c!" 5") })] [(c!"A", ⟨none, 0, 0⟩), (c!"B", ⟨none, 0, 0⟩)] with | .ok _ => true | .error _ => false) = true := by
            decide +kernel
          rw [this] at h2
          cases h2
        · have := scorePrefs_step (qty := 1) (l := []) (d := [(c!"A", ⟨none, 0, 0⟩), (c!"B", ⟨none, 0, 0⟩)]) he
          have h2 : (match scorePrefs 1 [(c!"B", {})] [(c!"A", ⟨none, 0, 0⟩), (c!"B", ⟨none, 0, 0⟩)] with | .ok _ => true | .error _ => false) = true := by
            decide +kernel
          rw [this] at h2
          cases h2
      · rintro ⟨e, he⟩
        cases he with
        | null c p hp => simp only [hp] at hi; cases hi
        | text c p s hp hn => simp only [hp] at hi; exact hn ⟨i, (pyInt_iff s i).1 hi⟩
        | stranger c p j hr hn => exact hn hc,
    .text _ _ c!"five" rfl ((pyInt_error c!"five" .valueError).1 (by decide +kernel)).2⟩
example : (match parseArgv [c!"-w", c!"1_00", c!"x"] with | .ok a => a.width | .error _ => 0) = 100 := by decide +kernel
end

end Verif.Props
