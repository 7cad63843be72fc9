/-
C55: the log file.
-/
import Verif.Model.Log
import Verif.Lib.Dict
import Verif.Lib.Prefs

set_option linter.unusedSimpArgs false

namespace Verif.Props
open Verif

/-- the text a call adds to the log -/
def opText : LogOp → Str
  | .log frame text nl sf => (if sf then frame else []) ++ text ++ (if nl then c!"\n" else [])
  | .blob text none => text ++ c!"\n"
  | .blob text (some []) => text ++ c!"\n"
  | .blob text (some mark) => c!"--" ++ mark ++ c!"START--\n" ++ text ++ c!"\n--" ++ mark ++ c!"END--\n"
  | .close => []

/-- the calls made before the file is closed for the first time, after the first message -/
def untilClose : List LogOp → List LogOp
  | [] => []
  | .close :: _ => []
  | op :: ops => op :: untilClose ops

/-- is it a message? -/
def isMsg : LogOp → Bool
  | .close => false
  | _ => true

/-- A usable setting: an absolute path in an existing directory, that can be opened. -/
def Valid (env : LogEnv) (p : Str) : Prop :=
  env.setting = some p ∧ p.head? = some '/' ∧ env.dirExists (pyDirname p) = true ∧ env.openOk p = true

/-- A setting that is there but cannot be used. -/
def Invalid (env : LogEnv) : Prop :=
  ∃ p, env.setting = some p ∧ p ≠ [] ∧ ¬ Valid env p

theorem opText_eq (op : LogOp) (h : isMsg op = true) :
    (∃ f t n s, op = .log f t n s ∧ opText op = logText f t n s) ∨ (∃ t m, op = .blob t m ∧ opText op = blobText t m) := by
  cases op with
  | log f t n s => exact .inl ⟨f, t, n, s, rfl, rfl⟩
  | blob t m =>
    refine .inr ⟨t, m, rfl, ?_⟩
    match m with
    | none => rfl
    | some [] => rfl
    | some (c :: cs) => simp [opText, blobText]
  | close => cases h

theorem logStep_open {env : LogEnv} {s : LogState} (hc : s.created = true) {p : Str} (hh : s.handle = some p) {op : LogOp}
    (hm : isMsg op = true) : logStep env s op = (.ok (), { s with files := appendFile s.files p (opText op) }) := by
  have hnew : logNew env s = (.ok (), s) := by unfold logNew; rw [hc]; rfl
  rcases opText_eq op hm with ⟨f, t, n, sf, rfl, e⟩ | ⟨t, m, rfl, e⟩
  · unfold logStep; rw [hnew, e]; simp only [logWrite, hh]
  · unfold logStep; rw [hnew, e]; simp only [logWrite, hh]

theorem logStep_shut {env : LogEnv} {s : LogState} (hc : s.created = true) (hh : s.handle = none) (op : LogOp) :
    logStep env s op = (.ok (), s) := by
  have hnew : logNew env s = (.ok (), s) := by unfold logNew; rw [hc]; rfl
  cases op with
  | log f t n sf => unfold logStep; rw [hnew]; simp only [logWrite, hh]
  | blob t m => unfold logStep; rw [hnew]; simp only [logWrite, hh]
  | close =>
    cases s
    simp only at hh
    subst hh
    rfl

theorem logRun_shut {env : LogEnv} {s : LogState} (hc : s.created = true) (hh : s.handle = none) (ops : List LogOp) :
    (logRun env s ops).2 = s ∧ ∀ r ∈ (logRun env s ops).1, r = .ok () := by
  induction ops with
  | nil => exact ⟨rfl, by intro r hr; cases hr⟩
  | cons op ops ih =>
    unfold logRun
    rw [logStep_shut hc hh]
    refine ⟨ih.1, ?_⟩
    intro r hr
    rcases List.mem_cons.1 hr with rfl | hr
    · rfl
    · exact ih.2 r hr

theorem get?_appendFile (files : Dict Str Str) (p q text : Str) :
    Dict.get? (appendFile files p text) q = if q = p then some ((Dict.get? files p).getD [] ++ text) else Dict.get? files q := by
  unfold appendFile
  rw [Dict.get?_set]
  by_cases h : p = q
  · subst h; simp
  · rw [if_neg h, if_neg (fun e => h e.symm)]

theorem logRun_open {env : LogEnv} {s : LogState} (hc : s.created = true) {p : Str} (hh : s.handle = some p)
    {old : Str} (hf : Dict.get? s.files p = some old) (ops : List LogOp) :
    (∀ r ∈ (logRun env s ops).1, r = .ok ()) ∧
    Dict.get? (logRun env s ops).2.files p = some (old ++ (untilClose ops).flatMap opText) ∧
    ∀ q, q ≠ p → Dict.get? (logRun env s ops).2.files q = Dict.get? s.files q := by
  induction ops generalizing s old with
  | nil => exact ⟨(by intro r hr; cases hr), by simpa [logRun, untilClose] using hf, fun q _ => rfl⟩
  | cons op ops ih =>
    by_cases hm : isMsg op = true
    · have hu : untilClose (op :: ops) = op :: untilClose ops := by
        cases op <;> first | rfl | cases hm
      have hs := logStep_open (env := env) hc hh hm
      have := ih (s := { s with files := appendFile s.files p (opText op) }) (old := old ++ opText op) hc hh
        (by simp only; rw [get?_appendFile, if_pos rfl, hf]; rfl)
      unfold logRun
      rw [hs, hu]
      refine ⟨?_, ?_, ?_⟩
      · intro r hr
        rcases List.mem_cons.1 hr with rfl | hr
        · rfl
        · exact this.1 r hr
      · rw [List.flatMap_cons, ← List.append_assoc]; exact this.2.1
      · intro q hq
        rw [this.2.2 q hq]
        simp only
        rw [get?_appendFile, if_neg hq]
    · cases op with
      | log f t n sf => exact absurd rfl hm
      | blob t m => exact absurd rfl hm
      | close =>
        have hs : logStep env s .close = (.ok (), { s with handle := none }) := rfl
        have := logRun_shut (env := env) (s := { s with handle := none }) hc rfl ops
        unfold logRun
        rw [hs]
        refine ⟨?_, ?_, ?_⟩
        · intro r hr
          rcases List.mem_cons.1 hr with rfl | hr
          · rfl
          · exact this.2 r hr
        · simp only; rw [this.1]; simpa [untilClose] using hf
        · intro q _; simp only; rw [this.1]

theorem log_valid (env : LogEnv) (p : Str) (hv : Valid env p) (files : Dict Str Str) (op : LogOp) (ops : List LogOp)
    (hop : isMsg op = true) :
    (∀ r ∈ (logRun env (logInit files) (op :: ops)).1, r = .ok ()) ∧
    (logRun env (logInit files) (op :: ops)).2.files.get? p =
      some ((files.get? p).getD [] ++ (untilClose (op :: ops)).flatMap opText) ∧
    ∀ q, q ≠ p → (logRun env (logInit files) (op :: ops)).2.files.get? q = files.get? q := by
  obtain ⟨h1, h2, h3, h4⟩ := hv
  obtain ⟨c, cs, rfl⟩ : ∃ c cs, p = c :: cs := by
    cases p with
    | nil => cases h2
    | cons c cs => exact ⟨c, cs, rfl⟩
  have hnew : logNew env (logInit files) = (.ok (), { created := true, handle := some (c :: cs), files := appendFile files (c :: cs) [] }) := by
    unfold logNew
    simp [logInit, h1, pyIsAbs, h2, h3, h4] at h2 ⊢
  obtain ⟨s0, hs0⟩ : ∃ s0 : LogState, s0 = { created := true, handle := some (c :: cs), files := appendFile files (c :: cs) [] } := ⟨_, rfl⟩
  have hstep : logStep env (logInit files) op = logStep env s0 op := by
    have h0 : logNew env s0 = (.ok (), s0) := by unfold logNew; rw [hs0]; rfl
    cases op with
    | log f t n sf => unfold logStep; rw [hnew, h0, hs0]
    | blob t m => unfold logStep; rw [hnew, h0, hs0]
    | close => cases hop
  have hrun : logRun env (logInit files) (op :: ops) = logRun env s0 (op :: ops) := by
    unfold logRun; rw [hstep]
  rw [hrun]
  have := logRun_open (env := env) (s := s0) (p := c :: cs) (old := (Dict.get? files (c :: cs)).getD []) (by rw [hs0]) (by rw [hs0])
    (by rw [hs0]; simp only; rw [get?_appendFile, if_pos rfl, List.append_nil]) (op :: ops)
  refine ⟨this.1, this.2.1, ?_⟩
  intro q hq
  rw [this.2.2 q hq, hs0]
  simp only
  rw [get?_appendFile, if_neg hq]

/-- the calls from the first message on -/
def fromFirstMsg : List LogOp → List LogOp
  | [] => []
  | .close :: ops => fromFirstMsg ops
  | op :: ops => op :: ops

/-- C55, valid setting.  In every history every call succeeds; if there is a message, the log file gets, after what it
held before, the texts of the messages in call order from the first one up to the first close after it (if there is
none, no file changes); no other file changes.
Missing from the full C55: messages logged after that close (see `C55_closed`). -/
theorem C55_partial (env : LogEnv) (p : Str) (hv : Valid env p) (files : Dict Str Str) (ops : List LogOp) :
    (∀ r ∈ (logRun env (logInit files) ops).1, r = .ok ()) ∧
    (fromFirstMsg ops ≠ [] → (logRun env (logInit files) ops).2.files.get? p =
      some ((files.get? p).getD [] ++ (untilClose (fromFirstMsg ops)).flatMap opText)) ∧
    (fromFirstMsg ops = [] → (logRun env (logInit files) ops).2.files = files) ∧
    ∀ q, q ≠ p → (logRun env (logInit files) ops).2.files.get? q = files.get? q := by
  induction ops with
  | nil => exact ⟨(by intro r hr; cases hr), fun h => absurd rfl h, fun _ => rfl, fun _ _ => rfl⟩
  | cons op ops ih =>
    by_cases hm : isMsg op = true
    · have hf : fromFirstMsg (op :: ops) = op :: ops := by cases op <;> first | rfl | cases hm
      have := log_valid env p hv files op ops hm
      rw [hf]
      exact ⟨this.1, fun _ => this.2.1, fun h => absurd h (by simp), this.2.2⟩
    · cases op with
      | log f t n sf => exact absurd rfl hm
      | blob t m => exact absurd rfl hm
      | close =>
        have hs : logRun env (logInit files) (.close :: ops) = (.ok () :: (logRun env (logInit files) ops).1, (logRun env (logInit files) ops).2) := rfl
        rw [hs]
        refine ⟨?_, ih.2.1, ih.2.2.1, ih.2.2.2⟩
        intro r hr
        rcases List.mem_cons.1 hr with rfl | hr
        · rfl
        · exact ih.1 r hr

/-- C55, no setting (or an empty one): every call of every history succeeds and no file changes. -/
theorem C55_unset (env : LogEnv) (h : env.setting = none ∨ env.setting = some []) (files : Dict Str Str) (ops : List LogOp) :
    (∀ r ∈ (logRun env (logInit files) ops).1, r = .ok ()) ∧ (logRun env (logInit files) ops).2.files = files := by
  have key : ∀ (s : LogState), s.handle = none → ∀ ops, (∀ r ∈ (logRun env s ops).1, r = .ok ()) ∧ (logRun env s ops).2.files = s.files := by
    intro s hs ops
    induction ops generalizing s with
    | nil => exact ⟨(by intro r hr; cases hr), rfl⟩
    | cons op ops ih =>
      obtain ⟨s', e1, e2, e3⟩ : ∃ s' : LogState, logStep env s op = (.ok (), s') ∧ s'.handle = none ∧ s'.files = s.files := by
        have hnew : ∃ s' : LogState, logNew env s = (.ok (), s') ∧ s'.handle = none ∧ s'.files = s.files := by
          unfold logNew
          by_cases hc : s.created = true
          · rw [if_pos hc]; exact ⟨s, rfl, hs, rfl⟩
          · rw [if_neg hc]
            rcases h with h | h <;> rw [h] <;> exact ⟨_, rfl, hs, rfl⟩
        obtain ⟨s', e1, e2, e3⟩ := hnew
        cases op with
        | log f t n sf => refine ⟨s', ?_, e2, e3⟩; unfold logStep; rw [e1]; simp only [logWrite, e2]
        | blob t m => refine ⟨s', ?_, e2, e3⟩; unfold logStep; rw [e1]; simp only [logWrite, e2]
        | close => exact ⟨_, rfl, rfl, rfl⟩
      unfold logRun
      rw [e1]
      have := ih s' e2
      refine ⟨?_, by rw [this.2, e3]⟩
      intro r hr
      rcases List.mem_cons.1 hr with rfl | hr
      · rfl
      · exact this.1 r hr
  exact key _ rfl ops

/-- C55 is false of the program for an unusable setting: only the first message is answered with an exception, all
later ones are silently dropped. -/
theorem C55_refuted (env : LogEnv) (h : Invalid env) (files : Dict Str Str) (op : LogOp) (ops : List LogOp)
    (hop : isMsg op = true) :
    ∃ e, (logRun env (logInit files) (op :: ops)).1 = .error e :: ops.map (fun _ => .ok ()) ∧
      (logRun env (logInit files) (op :: ops)).2.files = files ∧
      (e = .valueError ∨ e = .fileNotFound) ∧
      (e = .valueError ↔ ∀ p, env.setting = some p → p.head? ≠ some '/') := by
  obtain ⟨p, h1, h2, h3⟩ := h
  obtain ⟨c, cs, rfl⟩ : ∃ c cs, p = c :: cs := by
    cases p with
    | nil => exact absurd rfl h2
    | cons c cs => exact ⟨c, cs, rfl⟩
  have hab : pyIsAbs (c :: cs) = true ↔ (c :: cs).head? = some '/' := by simp [pyIsAbs]
  have hnew : ∃ e, logNew env (logInit files) = (.error e, { created := true, handle := none, files := files }) ∧
      (e = .valueError ∨ e = .fileNotFound) ∧ (e = .valueError ↔ ∀ p, env.setting = some p → p.head? ≠ some '/') := by
    have hset : (∀ p, env.setting = some p → p.head? ≠ some '/') ↔ ¬ pyIsAbs (c :: cs) = true := by
      rw [hab]
      exact ⟨fun k => k _ h1, fun k p hp => by rw [h1] at hp; cases hp; exact k⟩
    rw [hset]
    unfold logNew
    simp only [logInit, Bool.false_eq_true, if_false, h1]
    by_cases a1 : pyIsAbs (c :: cs) = true
    · by_cases a2 : env.dirExists (pyDirname (c :: cs)) = true
      · by_cases a3 : env.openOk (c :: cs) = true
        · exact absurd ⟨h1, by simpa [pyIsAbs] using a1, a2, a3⟩ h3
        · exact ⟨.fileNotFound, by simp [a1, a2, a3], by simp, by simp [a1]⟩
      · exact ⟨.fileNotFound, by simp [a1, a2], by simp, by simp [a1]⟩
    · exact ⟨.valueError, by simp [a1], by simp, by simp [a1]⟩
  obtain ⟨e, hnew, hkind⟩ := hnew
  have hstep : logStep env (logInit files) op = (.error e, { created := true, handle := none, files := files }) := by
    cases op with
    | log f t n sf => unfold logStep; rw [hnew]
    | blob t m => unfold logStep; rw [hnew]
    | close => cases hop
  refine ⟨e, ?_, ?_, hkind⟩
  · unfold logRun
    rw [hstep]
    simp only
    have hr := logRun_shut (env := env) (s := { created := true, handle := none, files := files }) rfl rfl ops
    have hlen : ∀ (s : LogState) (ops : List LogOp), (logRun env s ops).1.length = ops.length := by
      intro s ops
      induction ops generalizing s with
      | nil => rfl
      | cons op ops ih => simp [logRun, ih]
    congr 1
    apply List.ext_getElem
    · rw [hlen, List.length_map]
    · intro i h1 h2
      rw [List.getElem_map]
      exact hr.2 _ (List.getElem_mem h1)
  · unfold logRun
    rw [hstep]
    simp only
    rw [(logRun_shut (env := env) (s := { created := true, handle := none, files := files }) rfl rfl ops).1]

/-- C55 is also false after a close: whatever is logged after it succeeds without writing anything. -/
theorem C55_closed (env : LogEnv) (p : Str) (hv : Valid env p) (files : Dict Str Str) (op : LogOp) (hop : isMsg op = true)
    (before after : List LogOp) :
    (logRun env (logInit files) (op :: before ++ .close :: after)).2.files.get? p =
      (logRun env (logInit files) (op :: before)).2.files.get? p := by
  rw [List.cons_append, (log_valid env p hv files op _ hop).2.1, (log_valid env p hv files op _ hop).2.1]
  have : ∀ l : List LogOp, untilClose (l ++ .close :: after) = untilClose l := by
    intro l
    induction l with
    | nil => rfl
    | cons x l ih => cases x <;> simp [untilClose, ih]
  have e := this (op :: before)
  rw [List.cons_append] at e
  rw [e]

/-- Witnesses: a valid and an invalid setting. -/
example : Valid ⟨some c!"/tmp/log", fun d => d = c!"/tmp", fun _ => true⟩ c!"/tmp/log" := by
  refine ⟨rfl, rfl, by decide +kernel, rfl⟩
example : Invalid ⟨some c!"log", fun _ => true, fun _ => true⟩ := ⟨c!"log", rfl, by simp, by rintro ⟨_, h, _⟩; exact absurd h (by decide)⟩
example : (logRun ⟨some c!"/tmp/log", fun d => d = c!"/tmp", fun _ => true⟩ (logInit [(c!"/tmp/log", c!"old\n")])
    [.log c!"f (x:1): " c!"hi" true true, .blob c!"{}" (some c!"B"), .close, .log c!"g" c!"lost" true false]).2.files =
    [(c!"/tmp/log", c!"old\nf (x:1): hi\n--BSTART--\n{}\n--BEND--\n")] := by decide +kernel

end Verif.Props
