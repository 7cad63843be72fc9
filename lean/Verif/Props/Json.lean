/-
Jabmods written as JSON and read back (C72).
-/
import Verif.Lib.JsonIo
import Verif.Lib.JsonSound

set_option linter.unusedSectionVars false

namespace Verif.Props
open Spec

/-! ## C72 -/

/-- C72.  Reading: any JSON text of a value (blanks anywhere JSON allows them, string characters escaped or not) is read as
that value. -/
theorem C72_text (v : Json) (s a b : Str) (h : DistinctKeys v) (hs : TextOf v s) (ha : Blank a) (hb : Blank b) :
    jsonLoads (a ++ s ++ b) = .ok v := jsonLoads_text ha hb hs h

/-- C72.  Exactly: `json.loads` accepts a text as a value if and only if the text is JSON text (without floats), blanks around it
allowed, and the value is the one it denotes, an object with a key repeated being read as a Python dict. -/
theorem C72_exact (s : Str) (v : Json) : jsonLoads s = .ok v ↔
    ∃ raw a t b, Blank a ∧ TextOf raw t ∧ Blank b ∧ s = a ++ t ++ b ∧ v = asDicts raw := jsonLoads_iff s v

/-- The bounds on the recursion in the model are never reached: reading ends with a value, with a `ValueError`, or outside the model. -/
theorem C72_bounds (s : Str) : jsonLoads s ≠ .error .fuel := jsonLoads_nofuel s

/-- a fraction or an exponent -/
def FracOrExp (r : Str) : Prop :=
  (∃ d t, r = '.' :: d :: t ∧ isAsciiDigit d = true) ∨
  (∃ e sg d t, (e = 'e' ∨ e = 'E') ∧ (sg = [] ∨ sg = ['-'] ∨ sg = ['+']) ∧ isAsciiDigit d = true ∧ r = e :: (sg ++ d :: t))

/-- Numbers with a fraction or an exponent are outside the model: they are never read as anything else. -/
theorem C72_floats (i : Int) (a s r : Str) (ha : Blank a) (hs : IntText i s) (hr : FracOrExp r) : jsonLoads (a ++ s ++ r) = .error .other := by
  refine jsonLoads_float ha hs ?_
  rcases hr with ⟨d, t, rfl, hd⟩ | ⟨e, sg, d, t, he, hsg, hd, rfl⟩
  · unfold floatTail
    simp [hd]
  · have hdm : ¬ (d = '-' ∨ d = '+') := by rintro (rfl | rfl) <;> exact absurd hd (by decide)
    rcases hsg with rfl | rfl | rfl
    · rcases he with rfl | rfl <;> (unfold floatTail; simp [hd, hdm])
    · rcases he with rfl | rfl <;> (unfold floatTail; simp [hd])
    · rcases he with rfl | rfl <;> (unfold floatTail; simp [hd])

/-- C72.  What `json.dumps` writes, with or without indentation, `json.loads` reads back as the same value, also with
blanks or line ends around it. -/
theorem C72_dumps (v : Json) (h : DistinctKeys v) (a b : Str) (ha : Blank a) (hb : Blank b) :
    jsonLoads (a ++ v.dumps ++ b) = .ok v ∧ jsonLoads (a ++ v.dumpsIndent ++ b) = .ok v :=
  ⟨jsonLoads_text ha hb (dumps_textOf v) h, jsonLoads_text ha hb (pretty_textOf v 0) h⟩

/-- What is read never has a key twice, so reading, writing and reading again changes nothing. -/
theorem C72_reread (s : Str) (v : Json) (h : jsonLoads s = .ok v) : jsonLoads v.dumps = .ok v ∧ jsonLoads v.dumpsIndent = .ok v := by
  have hd := jsonLoads_distinct h
  have := C72_dumps v hd [] [] blank_nil blank_nil
  simpa using this

/-- C72.  A model written as jabmod is read back as the same model. -/
theorem C72_model (m : Jabmod) (h : KeysOk m) : loadModel (dumpModel m) = .ok m := by
  have := load_dump h blank_nil blank_nil
  simpa using this

section
variable [U : Uni]

/-- … in particular every model read from ABIF text. -/
theorem C72_abif (cw ar sc : Bool) (text : Str) (m : Jabmod) (h : convertAbif cw ar sc text = .ok m) :
    loadModel (dumpModel m) = .ok m ∧ loadModel (dumpModel (consolidate m)) = .ok (consolidate m) :=
  ⟨C72_model m (convertAbif_keys h), C72_model _ (consolidate_keys (convertAbif_keys h))⟩

/-- what a run prints depends on the arguments only through the model and the output options -/
theorem cliMain_ok {env : CliEnv} {a : CliArgs} {fmt s : Str} {blobs : List Str} {m : Jabmod} (h1 : cliFormat a = .ok fmt)
    (h2 : fmt ∈ validInFmts) (h3 : cliInput env a = .ok (s, blobs)) (h4 : cliModel env a fmt s blobs = .ok m) :
    cliMain env a = match cliOutput env a (if c!"consolidate" ∈ cliModifiers a then consolidate m else m) with
      | .error e => ⟨[], .error e⟩
      | .ok out => ⟨out ++ c!"\n", .ok ()⟩ := by
  unfold cliMain
  simp only [h1]
  rw [if_neg (by simpa using h2)]
  simp only [h3, h4]
  rfl

/-- a run that printed something useful read a model -/
theorem cliMain_model {env : CliEnv} {a : CliArgs} {fmt : Str} (h1 : cliFormat a = .ok fmt) (h2 : fmt ∈ validInFmts)
    (h : (cliMain env a).ending = .ok ()) : ∃ s blobs m, cliInput env a = .ok (s, blobs) ∧ cliModel env a fmt s blobs = .ok m := by
  unfold cliMain at h
  simp only [h1] at h
  rw [if_neg (by simpa using h2)] at h
  cases h3 : cliInput env a with
  | error f => simp only [h3] at h; cases h
  | ok p =>
    obtain ⟨s, blobs⟩ := p
    simp only [h3] at h
    cases h4 : cliModel env a fmt s blobs with
    | error e => simp only [h4] at h; cases h
    | ok m => exact ⟨s, blobs, m, rfl, h4⟩

/-- C72, on the command line.  Let an input be read as the model `m`, and let `out` be any JSON text that stands for `m` (for
the consolidated model, if `-m consolidate` is given): its members in any order, with any layout, with or without further members.
Feeding `out` back with `-f jabmod` (standard input, or a file) gives, for every output format and the same options, exactly
what converting the original input directly gives. -/
theorem C72_any (env : CliEnv) (hl : env.loads = loadModel) (a : CliArgs)
    (fmt : Str) (hf : cliFormat a = .ok fmt) (hv : fmt ∈ validInFmts) (s : Str) (blobs : List Str) (m m' : Jabmod)
    (h3 : cliInput env a = .ok (s, blobs)) (h4 : cliModel env a fmt s blobs = .ok m)
    (hm' : m' = if c!"consolidate" ∈ cliModifiers a then consolidate m else m) (out : Str) (hback : loadModel out = .ok m') (tofmt : Str) :
    cliMain { env with stdin := out } { a with files := [c!"-"], fromfmt := some c!"jabmod", «to» := tofmt } =
      cliMain env { a with «to» := tofmt } ∧
    ∀ name, name ≠ c!"-" →
      cliMain { env with file := fun f => if f = name then some out else env.file f }
        { a with files := [name], fromfmt := some c!"jabmod", «to» := tofmt } = cliMain env { a with «to» := tofmt } := by
  subst hm'
  have hm : KeysOk m := cliModel_keys hl h4
  have hidem : (if c!"consolidate" ∈ cliModifiers a then consolidate (if c!"consolidate" ∈ cliModifiers a then consolidate m else m)
      else (if c!"consolidate" ∈ cliModifiers a then consolidate m else m)) = (if c!"consolidate" ∈ cliModifiers a then consolidate m else m) := by
    split
    · rw [C39_idempotent m hm.prefs]
    · rfl
  have hdirect : cliMain env { a with «to» := tofmt } = _ := cliMain_ok (a := { a with «to» := tofmt }) hf hv h3 h4
  rw [hdirect]
  refine ⟨?_, ?_⟩
  · rw [cliMain_ok (env := { env with stdin := out }) (a := { a with files := [c!"-"], fromfmt := some c!"jabmod", «to» := tofmt })
      (fmt := c!"jabmod") (s := out) (blobs := []) (m := if c!"consolidate" ∈ cliModifiers a then consolidate m else m) rfl (by decide) rfl
      (by
        unfold cliModel
        rw [if_neg (by decide), if_neg (by decide), if_pos rfl]
        show env.loads out = _
        rw [hl]; exact hback)]
    show (match cliOutput env { a with «to» := tofmt } (if c!"consolidate" ∈ cliModifiers a then consolidate (if c!"consolidate" ∈ cliModifiers a then consolidate m else m)
      else (if c!"consolidate" ∈ cliModifiers a then consolidate m else m)) with
      | .error e => (⟨[], .error e⟩ : CliResult)
      | .ok out => ⟨out ++ c!"\n", .ok ()⟩) = _
    rw [hidem]
    rfl
  · intro name hn
    rw [cliMain_ok (env := { env with file := fun f => if f = name then some out else env.file f }) (a := { a with files := [name], fromfmt := some c!"jabmod", «to» := tofmt })
      (fmt := c!"jabmod") (s := out) (blobs := [out]) (m := if c!"consolidate" ∈ cliModifiers a then consolidate m else m) rfl (by decide)
      (by
        unfold cliInput
        rw [if_neg (by simpa using hn)]
        simp [readFiles])
      (by
        unfold cliModel
        rw [if_neg (by decide), if_neg (by decide), if_pos rfl]
        show env.loads out = _
        rw [hl]; exact hback)]
    show (match cliOutput env { a with «to» := tofmt } (if c!"consolidate" ∈ cliModifiers a then consolidate (if c!"consolidate" ∈ cliModifiers a then consolidate m else m)
      else (if c!"consolidate" ∈ cliModifiers a then consolidate m else m)) with
      | .error e => (⟨[], .error e⟩ : CliResult)
      | .ok out => ⟨out ++ c!"\n", .ok ()⟩) = _
    rw [hidem]
    rfl

/-- C72, on the command line.  If converting the input to jabmod succeeds, then feeding the printed text back with
`-f jabmod` (standard input, or a file) gives, for every output format and the same options, exactly what converting the
original input directly gives. -/
theorem C72_cli (env : CliEnv) (hl : env.loads = loadModel) (a : CliArgs)
    (fmt : Str) (hf : cliFormat a = .ok fmt) (hv : fmt ∈ validInFmts) (out : Str)
    (h : cliMain env { a with «to» := c!"jabmod" } = ⟨out, .ok ()⟩) (tofmt : Str) :
    cliMain { env with stdin := out } { a with files := [c!"-"], fromfmt := some c!"jabmod", «to» := tofmt } =
      cliMain env { a with «to» := tofmt } ∧
    ∀ name, name ≠ c!"-" →
      cliMain { env with file := fun f => if f = name then some out else env.file f }
        { a with files := [name], fromfmt := some c!"jabmod", «to» := tofmt } = cliMain env { a with «to» := tofmt } := by
  obtain ⟨s, blobs, m, h3, h4⟩ := cliMain_model (env := env) (a := { a with «to» := c!"jabmod" }) hf hv (by rw [h])
  have hm : KeysOk m := cliModel_keys hl h4
  have hm' : KeysOk (if c!"consolidate" ∈ cliModifiers a then consolidate m else m) := by
    split
    · exact consolidate_keys hm
    · exact hm
  rw [cliMain_ok (a := { a with «to» := c!"jabmod" }) hf hv h3 h4] at h
  have hout : out = dumpModel (if c!"consolidate" ∈ cliModifiers a then consolidate m else m) ++ c!"\n" := by
    have e : cliOutput env { a with «to» := c!"jabmod" } (if c!"consolidate" ∈ cliModifiers a then consolidate m else m) =
        .ok (dumpModel (if c!"consolidate" ∈ cliModifiers a then consolidate m else m)) := by
      rfl
    have h' := h
    rw [show cliModifiers { a with «to» := c!"jabmod" } = cliModifiers a from rfl, e] at h'
    cases h'
    rfl
  have hback : loadModel out = .ok (if c!"consolidate" ∈ cliModifiers a then consolidate m else m) := by
    rw [hout]
    have := load_dump hm' blank_nil (b := c!"\n") (by intro c hc; rw [List.mem_singleton.1 hc]; simp)
    simpa using this
  exact C72_any env hl a fmt hf hv s blobs m _ h3 h4 rfl out hback tofmt

end

/-! ### examples -/

section
attribute [local instance] Uni.ascii
set_option maxRecDepth 40000

/-- a value with every kind of part: text needing escapes, nested lists, an empty object -/
def exJson : Json := .obj [(c!"a\"b", .arr [.int (-12), .null, .bool true, .str c!"x\ny\\é"]), (c!"", .obj []), (c!"z", .arr [])]

example : DistinctKeys exJson := by simp [exJson, DistinctKeys, DistinctKeysArr, DistinctKeysObj]
example : exJson.dumps = c!"{\"a\\\"b\": [-12, null, true, \"x\\ny\\\\\\u00e9\"], \"\": {}, \"z\": []}" := by decide +kernel
example : exJson.dumpsIndent =
    c!"{\n    \"a\\\"b\": [\n        -12,\n        null,\n        true,\n        \"x\\ny\\\\\\u00e9\"\n    ],\n    \"\": {},\n    \"z\": []\n}" := by
  decide +kernel
/-- the text of a value, for comparison -/
def rereads (s : Str) : Option Str := (jsonLoads s).toOption.map Json.dumps

-- blanks, unescaped characters, a key given twice (the last value counts)
example : rereads c!" { \"k\" : 1 , \"é\":[ 1 ,2 ] , \"k\":null }\n" = some c!"{\"k\": null, \"\\u00e9\": [1, 2]}" := by decide +kernel
-- escapes in either case, a surrogate pair, minus zero
example : rereads c!"[\"\\u00E9\\u00e9\\ud83D\\uDE00\\/\", -0]" = some c!"[\"\\u00e9\\u00e9\\ud83d\\ude00/\", 0]" := by decide +kernel
-- floats are outside the model
example : FracOrExp c!"E+5" := .inr ⟨'E', ['+'], '5', [], .inr rfl, .inr (.inr rfl), by decide, rfl⟩
example : rereads c!" -1E+5" = none := by decide +kernel
-- not JSON
example : rereads c!"{\"k\": 01}" = none := by decide +kernel
example : rereads c!"[1,]" = none := by decide +kernel
example : rereads c!"1 2" = none := by decide +kernel
example : rereads c!"\"a\nb\"" = none := by decide +kernel

/-- a model from ABIF text, written and read back -/
def exDumped (text : Str) : Option Str := (convertAbif false false false text).toOption.map dumpModel
example : (exDumped c!"2:A>B #x\n1:B/5\n").bind (fun s => (loadModel s).toOption.map dumpModel) = exDumped c!"2:A>B #x\n1:B/5\n" ∧
    (exDumped c!"2:A>B #x\n1:B/5\n").isSome = true := by decide +kernel
-- `C72_any`: what `-f nameq -t jabmod` prints, members in the order of nameq.py:24-45, stands for the model
example : (loadModel c!"{\"metadata\": {\"version\": \"0.1\", \"ballotcount\": 1}, \"candidates\": {\"A\": \"A\"}, \"votelines\": [{\"qty\": 1, \"prefs\": {\"A\": {\"rank\": 1}}, \"nameq\": \"A=1\"}]}").toOption.map dumpModel =
    (nameqToJabmod c!"A=1\n").toOption.map dumpModel := by decide +kernel
end

end Verif.Props
