/-
Properties of metadata: what the lines of a text say (C78), and what is left after an export/import round trip (C79).
Vocabulary: `Verif.Spec.Abif` (`readMeta`), `Verif.Spec.AbifFile` (`metaValue`), `Verif.Spec.Meta`.
-/
import Verif.Lib.MetaRound
import Verif.Props.Export
import Verif.Props.Parse
import Verif.Lib.JsonIo

set_option linter.unusedSectionVars false
set_option linter.unusedSimpArgs false

namespace Verif.Props
open Spec

section
variable [U : Uni]

/-! ## C78 -/

/-- C78.  Whatever flags are used, the value stored for a metadata key is the text of the last metadata line with
that key, as a string, and keys no line names have no value.  (`ballotcount` is C01, `comments` is C10 and
`is_ranking_to_rating` is C12.) -/
theorem C78_stored (cw ar sc : Bool) (text : Str) (m : Jabmod) (h : convertAbif cw ar sc text = .ok m) (k : Str)
    (hk : k ≠ c!"comments") (hk' : k ≠ c!"ballotcount") (hk'' : k ≠ c!"is_ranking_to_rating") :
    Dict.get? m.metadata k = (metaValue (textLines cw text) k).map Json.str := by
  have base : ∀ m0, convertAbif cw false sc text = .ok m0 →
      Dict.get? m0.metadata k = (metaValue (textLines cw text) k).map Json.str := by
    intro m0 h
    obtain ⟨_, _, _, _, _, _, _, f6⟩ := convertAbif_ok h
    exact f6 k hk hk'
  cases ar with
  | false => exact base m h
  | true =>
    rw [convertAbif_rated] at h
    obtain ⟨m0, h0, h⟩ := bind_ok.1 h
    cases h
    have := base m0 h0
    simp only
    split
    · rw [Dict.get?_set_ne _ _ (Ne.symm hk'')]
      exact this
    · exact this

/-- C78.  The usual ways of writing a metadata line: a key as people write it, then the value bare (not starting with
a blank or a quote) or in double quotes, with any blanks between colon and value. -/
theorem C78_line (key val b : Str) (hk : PlainKey key) (hb : ∀ c ∈ b, isSpace c = true) (hne : val ≠ [])
    (hv : ∀ c ∈ val, valChar c = true) :
    readMeta (c!"{" ++ key ++ c!":" ++ b ++ c!"\"" ++ val ++ c!"\"}") = some (key, val) ∧
    ((∀ c t, val = c :: t → isSpace c = false ∧ c ≠ '\'') →
      readMeta (c!"{" ++ key ++ c!":" ++ b ++ val ++ c!"}") = some (key, val)) := by
  constructor
  · have e : c!"{" ++ key ++ c!":" ++ b ++ c!"\"" ++ val ++ c!"\"}" = '{' :: (key ++ ':' :: (b ++ ('"' :: (val ++ ['"', '}'])))) := by simp
    rw [e, readMeta_key hk, valueOf_some (readVal_quoted b hb (by decide) hne hv ['"', '}']
      (by rintro y u e; cases e; exact dquote_not_val))]
    rfl
  · intro hstart
    obtain ⟨c, t, rfl⟩ : ∃ c t, val = c :: t := by
      cases val with
      | nil => exact absurd rfl hne
      | cons c t => exact ⟨c, t, rfl⟩
    have hq : quoteChar c = false := by
      cases hq : quoteChar c with
      | false => rfl
      | true =>
        simp only [quoteChar, Bool.or_eq_true, beq_iff_eq] at hq
        rcases hq with rfl | rfl
        · exact absurd rfl (hstart _ _ rfl).2
        · have := hv '"' (by simp)
          rw [dquote_not_val] at this
          cases this
    have e : c!"{" ++ key ++ c!":" ++ b ++ (c :: t) ++ c!"}" = '{' :: (key ++ ':' :: (b ++ ((c :: t) ++ ['}']))) := by simp
    rw [e, readMeta_key hk, valueOf_some (readVal_bare b hb rfl (hstart _ _ rfl).1 hq hv), afterQuote_brace]
    rfl

/-- C78, finding: a value in single quotes keeps the closing quote: `{title: 'Big day'}` stores `Big day'`. -/
theorem C78_single_quotes (key val b : Str) (hk : PlainKey key) (hb : ∀ c ∈ b, isSpace c = true) (hv : ∀ c ∈ val, valChar c = true) :
    readMeta (c!"{" ++ key ++ c!":" ++ b ++ c!"'" ++ val ++ c!"'}") = some (key, val ++ c!"'") := by
  have e : c!"{" ++ key ++ c!":" ++ b ++ c!"'" ++ val ++ c!"'}" = '{' :: (key ++ ':' :: (b ++ ('\'' :: ((val ++ ['\'']) ++ ['}'])))) := by simp
  have hv' : ∀ c ∈ val ++ ['\''], valChar c = true := by
    intro c hc
    rcases List.mem_append.1 hc with h | h
    · exact hv c h
    · simp only [List.mem_cons, List.not_mem_nil, or_false] at h
      subst h
      exact squote_val
  rw [e, readMeta_key hk, valueOf_some (readVal_quoted b hb (by decide) (by simp) hv' ['}']
    (by rintro y u e; cases e; exact brace_not_val)), afterQuote_brace]
  rfl

/-- C78, finding: a quoted value with a character outside the accepted ones (word characters, blanks and
`, . ( ) - ? : ' /`) makes the whole line meaningless: it stores nothing, silently. -/
theorem C78_lost (key a t : Str) (c : Char) (hk : PlainKey key) (ha : ∀ c ∈ a, valChar c = true) (hc : valChar c = false) (hq : c ≠ '"') :
    readMeta (c!"{" ++ key ++ c!": \"" ++ a ++ c :: t ++ c!"\"}") = none := by
  have e : c!"{" ++ key ++ c!": \"" ++ a ++ c :: t ++ c!"\"}" = '{' :: (key ++ ':' :: (' ' :: '"' :: (a ++ c :: (t ++ ['"', '}'])))) := by simp
  have hq' : quoteChar c = false := by
    cases h : quoteChar c with
    | false => rfl
    | true =>
      simp only [quoteChar, Bool.or_eq_true, beq_iff_eq] at h
      rcases h with rfl | rfl
      · rw [squote_val] at hc; cases hc
      · exact absurd rfl hq
  rw [e, readMeta_key hk, readVal_lost ha hc hq' (by simp)]
  rfl

/-! ## C79 -/

theorem reread_metadata {cw : Bool} {m m' : Jabmod} {text : Str} (h1 : ∀ vl ∈ m.votelines, Exportable vl)
    (h2 : OneLine m.metadata m.candidates) (hwf : Dict.WF m.metadata) (hkeys : ∀ k ∈ Dict.keys m.metadata, PlainKey k)
    (ht : convertToAbif m = .ok text) (hm : convertAbif cw false false text = .ok m')
    (k k0 : Str) (hk : k ≠ c!"comments") (hk' : k ≠ c!"ballotcount") (hf : filedAs k0 = k)
    (huniq : ∀ kv ∈ m.metadata, filedAs kv.1 = k → kv.1 = k0)
    (hhash : ∀ (s : Str), Dict.get? m.metadata k0 = some (.str s) → '#' ∉ s) :
    Dict.get? m'.metadata k = ((Dict.get? m.metadata k0).bind rereadValue).map Json.str := by
  obtain ⟨vlines, ht2, hv⟩ := convertToAbif_printed h1
  rw [ht] at ht2
  cases ht2
  have htl := textLines_file cw h2 hv
  obtain ⟨_, _, _, _, _, _, _, f6⟩ := convertAbif_ok hm
  rw [f6 k hk hk', htl]
  congr 1
  unfold metaValue
  rw [metas_file hv (fun kv hkv => hkeys kv.1 (List.mem_map_of_mem (f := Prod.fst) hkv))]
  have := metas_last hwf hf huniq
  unfold filedAs at this
  rw [this]
  cases hg : Dict.get? m.metadata k0 with
  | none => rfl
  | some j => exact rereadText_eq (fun s e => hhash s (by rw [hg, e]))

/-- C79.  Re-reading an exported model gives, for every metadata key, exactly what `rereadValue` leaves of the value the
model had (nothing for a key the model did not have). -/
theorem C79_roundtrip (cw : Bool) (m m' : Jabmod) (text : Str) (h : ExportableModel m) (hwf : Dict.WF m.metadata)
    (hkeys : ∀ k ∈ Dict.keys m.metadata, PlainKey k) (ht : convertToAbif m = .ok text) (hm : convertAbif cw false false text = .ok m')
    (k : Str) (hk : k ≠ c!"comments") (hk' : k ≠ c!"ballotcount") (hk'' : k ≠ c!"ballotcount_abif_metadata")
    (hhash : ∀ (s : Str), Dict.get? m.metadata k = some (.str s) → '#' ∉ s) :
    Dict.get? m'.metadata k = ((Dict.get? m.metadata k).bind rereadValue).map Json.str := by
  refine reread_metadata (fun vl hvl => (h.ballots vl hvl).1) (exportable_oneLine h) hwf hkeys ht hm k k hk hk' ?_ ?_ hhash
  · unfold filedAs; rw [if_neg hk']
  · intro kv _ e
    unfold filedAs at e
    split at e
    · exact absurd e.symm hk''
    · exact e

/-- C79.  The written ballot count comes back as the string value of an extra key, unless the model already had one. -/
theorem C79_ballotcount (cw : Bool) (m m' : Jabmod) (text : Str) (h : ExportableModel m) (hwf : Dict.WF m.metadata)
    (hkeys : ∀ k ∈ Dict.keys m.metadata, PlainKey k) (ht : convertToAbif m = .ok text) (hm : convertAbif cw false false text = .ok m')
    (hno : c!"ballotcount_abif_metadata" ∉ Dict.keys m.metadata) (n : Int) (hn : Dict.get? m.metadata c!"ballotcount" = some (.int n)) :
    Dict.get? m'.metadata c!"ballotcount_abif_metadata" = some (.str (intStr n)) := by
  have := reread_metadata (fun vl hvl => (h.ballots vl hvl).1) (exportable_oneLine h) hwf hkeys ht hm
    c!"ballotcount_abif_metadata" c!"ballotcount" (by decide) (by decide) (by decide) (by
      intro kv hkv e
      unfold filedAs at e
      split at e
      · assumption
      · exact absurd (List.mem_map_of_mem (f := Prod.fst) hkv) (by rw [e]; exact hno)) (by
      intro s hs
      rw [hn] at hs
      cases hs)
  rw [this, hn]
  rfl

theorem word_of_key {c : Char} (h : keyChar c = true) (hs : isSpace c = false) : isWord c = true := by
  simpa [keyChar, hs] using h

/-- the keys of a parsed model -/
theorem parsed_keys {cw ar : Bool} {text : Str} {m : Jabmod} (h : convertAbif cw ar false text = .ok m) (k : Str)
    (hk : k ∈ Dict.keys m.metadata) (hs : ∀ c t, k = c :: t → isSpace c = false) : PlainKey k := by
  have known : ∀ k : Str, k ∈ [c!"comments", c!"ballotcount", c!"is_ranking_to_rating", c!"ballotcount_abif_metadata"] → PlainKey k := by
    intro k hk
    simp only [List.mem_cons, List.not_mem_nil, or_false] at hk
    have go : ∀ (c : Char) (t : Str), isAsciiLower c = true → (∀ d ∈ c :: t, isAsciiLower d = true ∨ d = '_') → PlainKey (c :: t) := by
      intro c t hc hall
      have hw : ∀ d : Char, isAsciiLower d = true ∨ d = '_' → isWord d = true ∧ isLineBreak d = false := by
        rintro d (hd | rfl)
        · simp only [isAsciiLower, Bool.and_eq_true, decide_eq_true_eq] at hd
          refine ⟨?_, ?_⟩
          · unfold isWord
            rw [if_pos (by simp only [isAscii, decide_eq_true_eq]; omega)]
            simp [isAsciiAlnum, isAsciiLower, hd]
          · unfold isLineBreak
            simp only [Bool.or_eq_false_iff, Bool.and_eq_false_iff, decide_eq_false_iff_not, beq_eq_false_iff_ne]
            omega
        · exact ⟨by simp [isWord, isAscii], by decide⟩
      exact ⟨⟨c, t, rfl, (hw c (.inl hc)).1⟩, fun d hd => ⟨.inl (hw d (hall d hd)).1, (hw d (hall d hd)).2⟩⟩
    rcases hk with rfl | rfl | rfl | rfl <;> exact go _ _ (by decide) (by decide)
  by_cases h1 : k = c!"comments"
  · exact known k (by simp [h1])
  by_cases h2 : k = c!"ballotcount"
  · exact known k (by simp [h2])
  by_cases h3 : k = c!"is_ranking_to_rating"
  · exact known k (by simp [h3])
  obtain ⟨v, hv⟩ := Dict.exists_get?_of_mem hk
  rw [C78_stored cw ar false text m h k h1 h2 h3] at hv
  obtain ⟨v', hv', _⟩ := Option.map_eq_some_iff.1 hv
  rcases metaValue_key hv' with rfl | ⟨l, hl, hm⟩
  · exact known _ (by simp)
  · have hf := matchMeta_sound hm
    have hmem := metaForm_key hf
    obtain ⟨w1, q1, w2, q2, w3, w4, q3, w5, q4, w6, _, _, _, hk0, hkc, _⟩ := hf
    obtain ⟨c, t, rfl⟩ : ∃ c t, k = c :: t := by
      cases k with
      | nil => exact absurd rfl hk0
      | cons c t => exact ⟨c, t, rfl⟩
    refine ⟨⟨c, t, rfl, word_of_key (hkc c (by simp)) (hs c t rfl)⟩, ?_⟩
    intro d hd
    exact ⟨by simpa using hkc d hd, textLines_noBreak cw text l hl d (hmem d hd)⟩

/-- C79, for texts.  Reading an .abif text, writing it (`convert_text_to_abif`) and reading the result again: a metadata
value of printable ASCII characters is the same as in the first text, one with any other character is gone. -/
theorem C79_text (cw ar cw' : Bool) (text out : Str) (m m' : Jabmod) (h : convertAbif cw ar false text = .ok m)
    (htok : ∀ (vl : Voteline), vl ∈ m.votelines → ∀ (k : Str), k ∈ Dict.keys vl.prefs → Printable k)
    (hrate : ar = true → ∀ (vl : Voteline), vl ∈ m.votelines → ∀ (e : Str × Pref), e ∈ vl.prefs → PlainRating e.2.rating)
    (hkeys : ∀ k ∈ Dict.keys m.metadata, ∀ c t, k = c :: t → isSpace c = false)
    (ho : abifTextToAbif cw ar text = .ok out) (hm : convertAbif cw' false false out = .ok m')
    (k v : Str) (hk : k ≠ c!"comments") (hk' : k ≠ c!"ballotcount") (hk'' : k ≠ c!"ballotcount_abif_metadata")
    (hk3 : k ≠ c!"is_ranking_to_rating") (hv : metaValue (textLines cw text) k = some v) :
    Dict.get? m'.metadata k = if v.all (fun c => decide (32 ≤ c.toNat ∧ c.toNat ≤ 126)) then some (.str v) else none := by
  obtain ⟨h1, h2, _, _⟩ := parsed_exportable h htok hrate
  have hst := C78_stored cw ar false text m h k hk hk' hk3
  rw [hv] at hst
  have ht : convertToAbif m = .ok out := by
    unfold abifTextToAbif at ho
    rw [h] at ho
    exact ho
  rcases metaValue_key hv with hb | ⟨l, hl, hmm⟩
  · exact absurd hb hk''
  obtain ⟨w1, q1, w2, q2, w3, w4, q3, w5, q4, w6, _, _, _, _, _, hv0, hvc⟩ := matchMeta_sound hmm
  have hvv : ∀ c ∈ v, valChar c = true := hvc
  rw [reread_metadata h1 h2 (convertAbif_keys h).mdata (fun k hk => parsed_keys h k hk (hkeys k hk)) ht hm k k hk hk' ?_ ?_ ?_, hst]
  · show Option.map Json.str (if v ≠ [] ∧ v.all plainValChar = true then some v else none) = _
    have : (v.all plainValChar = true) ↔ (v.all (fun c => decide (32 ≤ c.toNat ∧ c.toNat ≤ 126)) = true) := by
      rw [List.all_eq_true, List.all_eq_true]
      constructor
      · intro h c hc
        have := h c hc
        simp only [plainValChar, Bool.and_eq_true, decide_eq_true_eq] at this ⊢
        exact this.1
      · intro h c hc
        have := h c hc
        simp only [plainValChar, Bool.and_eq_true, decide_eq_true_eq] at this ⊢
        exact ⟨this, hvv c hc⟩
    by_cases hp : v.all plainValChar = true
    · rw [if_pos ⟨hv0, hp⟩, if_pos (this.1 hp)]; rfl
    · rw [if_neg (fun h => hp h.2), if_neg (fun h => hp (this.2 h))]; rfl
  · unfold filedAs; rw [if_neg hk']
  · intro kv _ e
    unfold filedAs at e
    split at e
    · exact absurd e.symm hk''
    · exact e
  · intro s hs hm
    rw [hst] at hs
    cases hs
    have := hvv _ hm
    simp [valChar, isWord, isAscii, isAsciiAlnum, isAsciiDigit, isAsciiUpper, isAsciiLower, isSpace] at this

end

section Examples
attribute [local instance] Uni.ascii
set_option maxRecDepth 20000

/-- the text of a JSON string -/
def textOf? : Json → Option Str
  | .str s => some s
  | _ => none

/-- a metadata value in a text, if there is a text -/
def metaIn (text key : Str) : Except PyErr (Option Str) := do
  let m ← convertAbif false false false text
  .ok ((Dict.get? m.metadata key).bind textOf?)

/-- metadata is not kept in general: a title with a character outside ASCII (here a
no-break space; `C79_text` says the same of accented letters) is lost when the text is rewritten -/
theorem C79_refuted :
    metaIn c!"{title: Big day}\n1:A\n" c!"title" = .ok (some c!"Big day") ∧
    (abifTextToAbif false false c!"{title: Big day}\n1:A\n" >>= fun out => metaIn out c!"title") = .ok (some c!"Big day") ∧
    metaIn c!"{title: Big\u00a0day}\n1:A\n" c!"title" = .ok (some c!"Big\u00a0day") ∧
    (abifTextToAbif false false c!"{title: Big\u00a0day}\n1:A\n" >>= fun out => metaIn out c!"title") = .ok none := by
  refine ⟨?_, ?_, ?_, ?_⟩ <;> decide +kernel

/-- keys, blanks and values meeting the hypotheses of C78 -/
example : PlainKey c!"max rating" ∧ (∀ c ∈ c!" \t", isSpace c = true) ∧ (∀ c ∈ c!"5 (of 9), say: it's", valChar c = true) ∧
    valChar '&' = false := by
  refine ⟨⟨⟨_, _, rfl, by decide⟩, ?_⟩, by decide, by decide +kernel, by decide +kernel⟩
  decide +kernel

/-- the lines of C78 in one text: the last `a` wins, `b` keeps its quote, `c` is lost -/
example : metaIn c!"{a: 1}\n{a:  \"2, 3\"}\n{b: 'x'}\n{c: \"R&D\"}\n1:A\n" c!"a" = .ok (some c!"2, 3") ∧
    metaIn c!"{a: 1}\n{a:  \"2, 3\"}\n{b: 'x'}\n{c: \"R&D\"}\n1:A\n" c!"b" = .ok (some c!"x'") ∧
    metaIn c!"{a: 1}\n{a:  \"2, 3\"}\n{b: 'x'}\n{c: \"R&D\"}\n1:A\n" c!"c" = .ok none := by
  refine ⟨?_, ?_, ?_⟩ <;> decide +kernel

/-- the model of C15 meets the hypotheses of C79 (its title is lost, its ballot count gets a second key) -/
example : ExportableModel exportModel ∧ Dict.WF exportModel.metadata ∧ (∀ k ∈ Dict.keys exportModel.metadata, PlainKey k) ∧
    c!"ballotcount_abif_metadata" ∉ Dict.keys exportModel.metadata ∧
    (Dict.get? exportModel.metadata c!"title").bind rereadValue = none ∧ rereadValue (.str c!"Ou?") = some c!"Ou?" := by
  refine ⟨exportModel_ok, by unfold Dict.WF; decide, ?_, by decide, by decide +kernel, by decide +kernel⟩
  intro k hk
  have : k = c!"ballotcount" ∨ k = c!"title" := by simpa [exportModel, Dict.keys] using hk
  rcases this with rfl | rfl
  · exact ⟨⟨_, _, rfl, by decide⟩, by decide +kernel⟩
  · exact ⟨⟨_, _, rfl, by decide⟩, by decide +kernel⟩

end Examples
end Verif.Props
