/-
C82: converted files hold the election they were converted from.  C71: the formats of convert_text_to_abif.
-/
import Verif.Lib.ImpExport
import Verif.Props.DebtallyMeta
import Verif.Props.Preflib
import Verif.Props.Cli

set_option linter.unusedSimpArgs false
set_option linter.unusedSectionVars false

namespace Verif.Props
open Verif Spec

section
variable [U : Uni]

/-- C71.  What `convert_text_to_abif` does for each format it reads: the reader of the format on the first text (for sftxt on the
first two), then the exporter; only Debian sheets get the metadata passed in; a missing second text is an `IndexError`, and so
is a missing first one. -/
theorem C71_formats (loads : Str → Except PyErr Jabmod) (sha : Str → Str) (cw ar : Bool) (md : List (Str × Str)) (text t2 : Str) (more : List Str) :
    textToAbif loads sha c!"debtally" (text :: more) cw ar md = (convertDebtally sha md text >>= convertAbif false false false >>= convertToAbif) ∧
    textToAbif loads sha c!"preflib" (text :: more) cw ar md = (convertPreflib text >>= convertAbif false false false >>= convertToAbif) ∧
    textToAbif loads sha c!"jabmod" (text :: more) cw ar md = (loads text >>= convertToAbif) ∧
    textToAbif loads sha c!"sftxt" (text :: t2 :: more) cw ar md = (sfConvert false text t2 >>= convertToAbif) ∧
    textToAbif loads sha c!"sftxt" [text] cw ar md = .error .indexError ∧
    textToAbif loads sha c!"widj" (text :: more) cw ar md = .error .nameError ∧
    ∀ fmt, textToAbif loads sha fmt [] cw ar md = .error .indexError := by
  refine ⟨?_, ?_, rfl, rfl, rfl, rfl, fun _ => rfl⟩
  · unfold textToAbif textModel
    show ((convertDebtally sha md text).bind (convertAbif false false false)).bind convertToAbif = _
    rfl
  · unfold textToAbif textModel
    show ((convertPreflib text).bind (convertAbif false false false)).bind convertToAbif = _
    rfl

/-- C82, PrefLib (partial: the numbering condition of C43, and a name is kept only if its token is url-safe or the name itself).
The .abif text `convert_text_to_abif` makes of a PrefLib file reads back as the file's election: one voteline per vote, with
its quantity, exactly its alternatives, in its order, sorted by quantity; and every alternative's name. -/
theorem C82_preflib_partial (loads : Str → Except PyErr Jabmod) (sha : Str → Str) (cw ar cw' : Bool) (md : List (Str × Str)) (more : List Str)
    (doc : List PLine) (h : ∀ l ∈ doc, l.Ok) (hnum : Numbered doc) (hr : InRange doc) (hvotes : prefVotes doc ≠ [])
    (hnames : ∀ a ∈ prefAlts doc, CandOk (noSpaces a.2, a.2)) (hdist : ((prefAlts doc).map (fun a => noSpaces a.2)).Nodup)
    (hdup : ∀ v ∈ prefVotes doc, v.2.flatten.Nodup)
    (hsafe : ∀ a ∈ prefAlts doc, (∀ c ∈ noSpaces a.2, isUrlSafe c = true) ∨ (a.2 = noSpaces a.2 ∧ ∃ v ∈ prefVotes doc, ∃ n ∈ v.2.flatten, altTok (prefAlts doc) n = noSpaces a.2)) :
    ∃ out m vls, textToAbif loads sha c!"preflib" (prefText doc :: more) cw ar md = .ok out ∧ convertAbif cw' false false out = .ok m ∧
      List.Forall₂ (fun (v : Nat × List (List Nat)) (vl : Voteline) => vl.qty = v.1 ∧
        HoldsTiers (v.2.map (fun t => t.map (altTok (prefAlts doc)))) vl.prefs) (prefVotes doc) vls ∧
      StableSortedDesc vls m.votelines ∧
      ∀ tok, Dict.get? m.candidates tok = Dict.get? ((prefAlts doc).map (fun a => (noSpaces a.2, some a.2))) tok := by
  have hbal := pref_ballots_ok doc h hr hnames hdist hdup
  obtain ⟨m, out, m', vls, g1, _, g2, g3, g4, g5, g6⟩ := impFile_converted cw' (metas := []) (cands := (prefAlts doc).map (fun a => (noSpaces a.2, a.2)))
    (votes := (prefVotes doc).map (prefBallot (prefAlts doc))) (by simp)
    (by
      intro cn hcn
      obtain ⟨a, ha, rfl⟩ := List.mem_map.1 hcn
      exact hnames a ha)
    (by rw [List.map_map]; exact hdist) (fun v hv => (hbal v hv).1) (fun v hv => (hbal v hv).2) (by simpa using hvotes)
    (by
      intro cn hcn
      obtain ⟨a, ha, rfl⟩ := List.mem_map.1 hcn
      rcases hsafe a ha with h | ⟨h1, v, hv, n, hn, e⟩
      · exact .inl h
      · refine .inr ⟨h1, _, List.mem_map_of_mem (f := prefBallot (prefAlts doc)) hv, ?_⟩
        show noSpaces a.2 ∈ (v.2.map (fun t => t.map (altTok (prefAlts doc)))).flatten
        rw [← List.map_flatten, ← e]
        exact List.mem_map_of_mem hn)
  refine ⟨out, m', vls, ?_, g3, ?_, g5, ?_⟩
  · rw [(C71_formats loads sha cw ar md (prefText doc) [] more).2.1, C43_text_partial doc h hnum hr]
    rw [ok_bind, g1, ok_bind, g2]
  · rw [List.forall₂_map_left_iff] at g4
    refine g4.imp ?_
    rintro v vl ⟨s1, s2⟩
    refine ⟨?_, s2⟩
    rw [s1]
    simp only [prefBallot]
    rw [(natStr_spec v.1).2.2]
  · intro tok
    rw [g6 tok, List.map_map]
    rfl

/-- C82, Debian sheets (partial: the conditions of C44, and a name is kept only if its token is url-safe or the name itself).  The
.abif text `convert_text_to_abif` makes of a tally sheet reads back as the sheet's election: one voteline per vote, in order, with
quantity 1, exactly the options the vote ranks, in the order of their digits; every option's name; and every metadata
value passed in that consists of printable ASCII characters allowed in metadata values.  (Voter ids are not kept by the exporter.) -/
theorem C82_debtally_partial (loads : Str → Except PyErr Jabmod) (sha : Str → Str) (cw ar cw' : Bool) (md : Dict Str Str) (more : List Str)
    (doc : List DLine) (h : ∀ l ∈ doc, l.Ok)
    (hmd : ∀ kv ∈ md, ∀ c ∈ kv.1 ++ kv.2, isLineBreak c = false)
    (hlen : ∀ v ∈ sheetVotes doc, NoExtra (sheetNames doc).length v.1) (hne : sheetVotes doc ≠ [])
    (hnd : (debTokens sha (sheetNames doc)).Nodup)
    (hc : ∀ cn ∈ (debTokens sha (sheetNames doc)).zip (sheetNames doc), CandOk cn)
    (hsafe : ∀ cn ∈ (debTokens sha (sheetNames doc)).zip (sheetNames doc), (∀ c ∈ cn.1, isUrlSafe c = true) ∨
      (cn.2 = cn.1 ∧ ∃ v ∈ sheetVotes doc, cn.1 ∈ (sheetTiers (debTokens sha (sheetNames doc)) v.1).flatten)) :
    ∃ out m vls, textToAbif loads sha c!"debtally" (sheetText doc :: more) cw ar md = .ok out ∧ convertAbif cw' false false out = .ok m ∧
      List.Forall₂ (fun (v : Str × Str) (vl : Voteline) => vl.qty = 1 ∧ HoldsTiers (sheetTiers (debTokens sha (sheetNames doc)) v.1) vl.prefs)
        (sheetVotes doc) vls ∧
      StableSortedDesc vls m.votelines ∧
      (∀ tok, Dict.get? m.candidates tok = Dict.get? (((debTokens sha (sheetNames doc)).zip (sheetNames doc)).map (fun cn => (cn.1, some cn.2))) tok) ∧
      ((∀ k ∈ Dict.keys md, PlainKey k ∧ k ∉ [c!"comments", c!"ballotcount", c!"is_ranking_to_rating", c!"ballotcount_abif_metadata"]) →
        (Dict.keys md).Nodup → (∀ kv ∈ md, '#' ∉ kv.2) →
        ∀ k v, Dict.get? md k = some v → v ≠ [] → (∀ c ∈ v, plainValChar c = true) → Dict.get? m.metadata k = some (.str v)) := by
  have hl := debTokens_length sha (sheetNames doc)
  have hfst : ((debTokens sha (sheetNames doc)).zip (sheetNames doc)).map Prod.fst = debTokens sha (sheetNames doc) := by
    rw [List.map_fst_zip]; omega
  have hbal := sheet_ballots_ok sha doc h hnd hc
  have htext := C44_text sha md doc h hlen
  obtain ⟨m, out, m', vls, g1, gE, g2, g3, g4, g5, g6⟩ := impFile_converted cw' (metas := md.map debMetaLine)
    (cands := (debTokens sha (sheetNames doc)).zip (sheetNames doc))
    (votes := (sheetVotes doc).map (sheetBallot (debTokens sha (sheetNames doc))))
    (by
      intro l hl
      obtain ⟨kv, hkv, rfl⟩ := List.mem_map.1 hl
      exact debMetaLine_facts (hmd kv hkv))
    hc (by rw [hfst]; exact hnd) (fun v hv => (hbal v hv).1) (fun v hv => by rw [hfst]; exact (hbal v hv).2) (by simpa using hne)
    (by
      intro cn hcn
      rcases hsafe cn hcn with h | ⟨h1, v, hv, hm⟩
      · exact .inl h
      · exact .inr ⟨h1, _, List.mem_map_of_mem (f := sheetBallot (debTokens sha (sheetNames doc))) hv, hm⟩)
  refine ⟨out, m', vls, ?_, g3, ?_, g5, g6, ?_⟩
  · rw [(C71_formats loads sha cw ar md (sheetText doc) [] more).1, htext]
    rw [ok_bind, g1, ok_bind, g2]
  · rw [List.forall₂_map_left_iff] at g4
    refine g4.imp ?_
    rintro v vl ⟨s1, s2⟩
    refine ⟨?_, s2⟩
    rw [s1]
    have : digitsVal c!"1" = 1 := by simp [digitsVal, decVal, isAscii, isAsciiDigit]
    show ((digitsVal c!"1" : Nat) : Int) = 1
    rw [this]; rfl
  · intro hkeys hnk hhash k v hkv hvne hv
    have hkm : k ∈ Dict.keys md := List.mem_map_of_mem (f := Prod.fst) (Dict.mem_of_get? hkv)
    obtain ⟨hkp, hkr⟩ := hkeys k hkm
    simp only [List.mem_cons, List.not_mem_nil, or_false, not_or] at hkr
    obtain ⟨k1, k2, k3, k4⟩ := hkr
    have hst := C44_metadata sha md doc h hmd (fun k hk => (hkeys k hk).1) hnk
      (fun hb => (hkeys _ hb).2 (by simp)) hhash hlen hnd hc _ m htext g1 k k1 k2 k3
    rw [hkv] at hst
    have hq : quotedValue v = some v := by
      unfold quotedValue
      rw [if_pos ⟨hvne, List.all_eq_true.2 (fun c hc => plain_val (hv c hc))⟩]
    simp only [Option.bind_some, hq, Option.map_some] at hst
    have hstr : ∀ (s : Str), Dict.get? m.metadata k = some (.str s) → s = v := by
      intro s hs
      rw [hst] at hs
      cases hs
      rfl
    have hall : ∀ k' ∈ Dict.keys m.metadata, PlainKey k' := by
      intro k' hk'
      by_cases hsp : ∀ c t, k' = c :: t → isSpace c = false
      · exact parsed_keys g1 k' hk' hsp
      · have ne : ∀ r : Str, (∀ c t, r = c :: t → isSpace c = false) → k' ≠ r := by
          rintro r hr rfl
          exact hsp hr
        have hg := C44_metadata sha md doc h hmd (fun k hk => (hkeys k hk).1) hnk
          (fun hb => (hkeys _ hb).2 (by simp)) hhash hlen hnd hc _ m htext g1 k'
          (ne _ (by intro c t e; cases e; decide)) (ne _ (by intro c t e; cases e; decide)) (ne _ (by intro c t e; cases e; decide))
        obtain ⟨j, hj⟩ := Dict.exists_get?_of_mem hk'
        rw [hj] at hg
        cases hmk : Dict.get? md k' with
        | none => rw [hmk] at hg; cases hg
        | some w => exact (hkeys k' (List.mem_map_of_mem (f := Prod.fst) (Dict.mem_of_get? hmk))).1
    have := C79_roundtrip cw' m m' out gE (convertAbif_keys g1).mdata hall g2 g3 k k1 k2 k4 (by
      intro s hs
      rw [hstr s hs]
      exact hhash _ (Dict.mem_of_get? hkv))
    rw [this, hst]
    simp only [Option.bind_some]
    have : rereadValue (.str v) = some v := by
      show (if v ≠ [] ∧ v.all plainValChar = true then some v else none) = some v
      rw [if_pos ⟨hvne, List.all_eq_true.2 hv⟩]
    rw [this]
    rfl

/-- C82, PrefLib, what becomes of the names (the numbering condition is that of C43).  Whatever the names are, the converted text
reads back with all votes; an alternative keeps its name exactly if its token is url-safe or the name is the token and some vote
lists it; otherwise it is called by its token if some vote lists it, and is lost if none does.  No other candidates appear. -/
theorem C82_preflib_names (loads : Str → Except PyErr Jabmod) (sha : Str → Str) (cw ar cw' : Bool) (md : List (Str × Str)) (more : List Str)
    (doc : List PLine) (h : ∀ l ∈ doc, l.Ok) (hnum : Numbered doc) (hr : InRange doc) (hvotes : prefVotes doc ≠ [])
    (hnames : ∀ a ∈ prefAlts doc, CandOk (noSpaces a.2, a.2)) (hdist : ((prefAlts doc).map (fun a => noSpaces a.2)).Nodup)
    (hdup : ∀ v ∈ prefVotes doc, v.2.flatten.Nodup) :
    ∃ out m vls, textToAbif loads sha c!"preflib" (prefText doc :: more) cw ar md = .ok out ∧ convertAbif cw' false false out = .ok m ∧
      List.Forall₂ (fun (v : Nat × List (List Nat)) (vl : Voteline) => vl.qty = v.1 ∧
        HoldsTiers (v.2.map (fun t => t.map (altTok (prefAlts doc)))) vl.prefs) (prefVotes doc) vls ∧
      StableSortedDesc vls m.votelines ∧
      (∀ tok ∈ Dict.keys m.candidates, ∃ a ∈ prefAlts doc, tok = noSpaces a.2) ∧
      ∀ a ∈ prefAlts doc,
        ((∀ c ∈ noSpaces a.2, isUrlSafe c = true) → Dict.get? m.candidates (noSpaces a.2) = some (some a.2)) ∧
        ((∃ c ∈ noSpaces a.2, isUrlSafe c = false) →
          ((∃ v ∈ prefVotes doc, ∃ n ∈ v.2.flatten, altTok (prefAlts doc) n = noSpaces a.2) →
            Dict.get? m.candidates (noSpaces a.2) = some (some (noSpaces a.2))) ∧
          ((∀ v ∈ prefVotes doc, ∀ n ∈ v.2.flatten, altTok (prefAlts doc) n ≠ noSpaces a.2) →
            noSpaces a.2 ∉ Dict.keys m.candidates)) := by
  have hbal := pref_ballots_ok doc h hr hnames hdist hdup
  have hkeys : ((prefAlts doc).map (fun a => (noSpaces a.2, a.2))).map Prod.fst = (prefAlts doc).map (fun a => noSpaces a.2) := by
    rw [List.map_map]; rfl
  obtain ⟨m, out, m', vls, g1, g2, g3, g4, g5, g6⟩ := impFile_converted_exact cw' (metas := []) (cands := (prefAlts doc).map (fun a => (noSpaces a.2, a.2)))
    (votes := (prefVotes doc).map (prefBallot (prefAlts doc))) (by simp)
    (by
      intro cn hcn
      obtain ⟨a, ha, rfl⟩ := List.mem_map.1 hcn
      exact hnames a ha)
    (by rw [hkeys]; exact hdist) (fun v hv => (hbal v hv).1) (fun v hv => (hbal v hv).2) (by simpa using hvotes)
  have hon : ∀ tok, (∃ v ∈ (prefVotes doc).map (prefBallot (prefAlts doc)), tok ∈ v.tiers.flatten) ↔
      ∃ v ∈ prefVotes doc, ∃ n ∈ v.2.flatten, altTok (prefAlts doc) n = tok := by
    intro tok
    have e : ∀ v : Nat × List (List Nat), (prefBallot (prefAlts doc) v).tiers.flatten = v.2.flatten.map (altTok (prefAlts doc)) := by
      intro v
      show (v.2.map (fun t => t.map (altTok (prefAlts doc)))).flatten = _
      rw [← List.map_flatten]
    constructor
    · rintro ⟨w, hw, ht⟩
      obtain ⟨v, hv, rfl⟩ := List.mem_map.1 hw
      rw [e] at ht
      obtain ⟨n, hn, hnt⟩ := List.mem_map.1 ht
      exact ⟨v, hv, n, hn, hnt⟩
    · rintro ⟨v, hv, n, hn, rfl⟩
      exact ⟨_, List.mem_map_of_mem hv, by rw [e]; exact List.mem_map_of_mem hn⟩
  refine ⟨out, m', vls, ?_, g3, ?_, g5, ?_, ?_⟩
  · rw [(C71_formats loads sha cw ar md (prefText doc) [] more).2.1, C43_text_partial doc h hnum hr]
    rw [ok_bind, g1, ok_bind, g2]
  · rw [List.forall₂_map_left_iff] at g4
    refine g4.imp ?_
    rintro v vl ⟨s1, s2⟩
    refine ⟨?_, s2⟩
    rw [s1]
    simp only [prefBallot]
    rw [(natStr_spec v.1).2.2]
  · intro tok ht
    obtain ⟨n, hn⟩ := Dict.exists_get?_of_mem ht
    rw [g6 tok] at hn
    obtain ⟨name, hname, _⟩ := Option.bind_eq_some_iff.1 hn
    obtain ⟨a, ha, e⟩ := List.mem_map.1 (Dict.mem_of_get? hname)
    exact ⟨a, ha, (congrArg Prod.fst e).symm⟩
  · intro a ha
    have hget : Dict.get? ((prefAlts doc).map (fun a => (noSpaces a.2, a.2))) (noSpaces a.2) = some a.2 :=
      Dict.get?_of_mem (by unfold Dict.WF Dict.keys; rw [hkeys]; exact hdist) (List.mem_map_of_mem (f := fun a : Nat × Str => (noSpaces a.2, a.2)) ha)
    have hg := g6 (noSpaces a.2)
    rw [hget, Option.bind_some] at hg
    unfold comesBack at hg
    refine ⟨fun hs => by rw [hg, if_pos hs], fun ⟨c, hc, hs⟩ => ?_⟩
    rw [if_neg (fun hall => by rw [hall c hc] at hs; cases hs)] at hg
    refine ⟨fun hv => by rw [hg, if_pos ((hon _).2 hv)], fun hv => ?_⟩
    rw [if_neg (fun hx => by obtain ⟨v, hv1, n, hn, e⟩ := (hon _).1 hx; exact hv v hv1 n hn e)] at hg
    exact Dict.get?_eq_none.1 hg

/-- C82, Debian sheets, what becomes of the names: as for PrefLib. -/
theorem C82_debtally_names (loads : Str → Except PyErr Jabmod) (sha : Str → Str) (cw ar cw' : Bool) (md : Dict Str Str) (more : List Str)
    (doc : List DLine) (h : ∀ l ∈ doc, l.Ok)
    (hmd : ∀ kv ∈ md, ∀ c ∈ kv.1 ++ kv.2, isLineBreak c = false)
    (hlen : ∀ v ∈ sheetVotes doc, NoExtra (sheetNames doc).length v.1) (hne : sheetVotes doc ≠ [])
    (hnd : (debTokens sha (sheetNames doc)).Nodup)
    (hc : ∀ cn ∈ (debTokens sha (sheetNames doc)).zip (sheetNames doc), CandOk cn) :
    ∃ out m vls, textToAbif loads sha c!"debtally" (sheetText doc :: more) cw ar md = .ok out ∧ convertAbif cw' false false out = .ok m ∧
      List.Forall₂ (fun (v : Str × Str) (vl : Voteline) => vl.qty = 1 ∧ HoldsTiers (sheetTiers (debTokens sha (sheetNames doc)) v.1) vl.prefs)
        (sheetVotes doc) vls ∧
      StableSortedDesc vls m.votelines ∧
      (∀ tok ∈ Dict.keys m.candidates, tok ∈ debTokens sha (sheetNames doc)) ∧
      ∀ cn ∈ (debTokens sha (sheetNames doc)).zip (sheetNames doc),
        ((∀ c ∈ cn.1, isUrlSafe c = true) → Dict.get? m.candidates cn.1 = some (some cn.2)) ∧
        ((∃ c ∈ cn.1, isUrlSafe c = false) →
          ((∃ v ∈ sheetVotes doc, cn.1 ∈ (sheetTiers (debTokens sha (sheetNames doc)) v.1).flatten) →
            Dict.get? m.candidates cn.1 = some (some cn.1)) ∧
          ((∀ v ∈ sheetVotes doc, cn.1 ∉ (sheetTiers (debTokens sha (sheetNames doc)) v.1).flatten) →
            cn.1 ∉ Dict.keys m.candidates)) := by
  have hl := debTokens_length sha (sheetNames doc)
  have hfst : ((debTokens sha (sheetNames doc)).zip (sheetNames doc)).map Prod.fst = debTokens sha (sheetNames doc) := by
    rw [List.map_fst_zip]; omega
  have hbal := sheet_ballots_ok sha doc h hnd hc
  have htext := C44_text sha md doc h hlen
  obtain ⟨m, out, m', vls, g1, g2, g3, g4, g5, g6⟩ := impFile_converted_exact cw' (metas := md.map debMetaLine)
    (cands := (debTokens sha (sheetNames doc)).zip (sheetNames doc))
    (votes := (sheetVotes doc).map (sheetBallot (debTokens sha (sheetNames doc))))
    (by
      intro l hl
      obtain ⟨kv, hkv, rfl⟩ := List.mem_map.1 hl
      exact debMetaLine_facts (hmd kv hkv))
    hc (by rw [hfst]; exact hnd) (fun v hv => (hbal v hv).1) (fun v hv => by rw [hfst]; exact (hbal v hv).2) (by simpa using hne)
  have hon : ∀ tok, (∃ v ∈ (sheetVotes doc).map (sheetBallot (debTokens sha (sheetNames doc))), tok ∈ v.tiers.flatten) ↔
      ∃ v ∈ sheetVotes doc, tok ∈ (sheetTiers (debTokens sha (sheetNames doc)) v.1).flatten := by
    intro tok
    constructor
    · rintro ⟨w, hw, ht⟩
      obtain ⟨v, hv, rfl⟩ := List.mem_map.1 hw
      exact ⟨v, hv, ht⟩
    · rintro ⟨v, hv, ht⟩
      exact ⟨_, List.mem_map_of_mem hv, ht⟩
  refine ⟨out, m', vls, ?_, g3, ?_, g5, ?_, ?_⟩
  · rw [(C71_formats loads sha cw ar md (sheetText doc) [] more).1, htext]
    rw [ok_bind, g1, ok_bind, g2]
  · rw [List.forall₂_map_left_iff] at g4
    refine g4.imp ?_
    rintro v vl ⟨s1, s2⟩
    refine ⟨?_, s2⟩
    rw [s1]
    have : digitsVal c!"1" = 1 := by simp [digitsVal, decVal, isAscii, isAsciiDigit]
    show ((digitsVal c!"1" : Nat) : Int) = 1
    rw [this]; rfl
  · intro tok ht
    obtain ⟨n, hn⟩ := Dict.exists_get?_of_mem ht
    rw [g6 tok] at hn
    obtain ⟨name, hname, _⟩ := Option.bind_eq_some_iff.1 hn
    rw [← hfst]
    exact List.mem_map_of_mem (f := Prod.fst) (Dict.mem_of_get? hname)
  · intro cn hcn
    have hget : Dict.get? ((debTokens sha (sheetNames doc)).zip (sheetNames doc)) cn.1 = some cn.2 :=
      Dict.get?_of_mem (by unfold Dict.WF Dict.keys; rw [hfst]; exact hnd) hcn
    have hg := g6 cn.1
    rw [hget, Option.bind_some] at hg
    unfold comesBack at hg
    refine ⟨fun hs => by rw [hg, if_pos hs], fun ⟨c, hc, hs⟩ => ?_⟩
    rw [if_neg (fun hall => by rw [hall c hc] at hs; cases hs)] at hg
    refine ⟨fun hv => by rw [hg, if_pos ((hon _).2 hv)], fun hv => ?_⟩
    rw [if_neg (fun hx => by obtain ⟨v, hv1, e⟩ := (hon _).1 hx; exact hv v hv1 e)] at hg
    exact Dict.get?_eq_none.1 hg

end

section
attribute [local instance] Uni.ascii
set_option maxRecDepth 40000

/-- the name an .abif text gives to a token after the conversion of a text -/
def convertedName (fmt text tok : Str) : Except PyErr (Option (Option Str)) := do
  let out ← textToAbif (fun _ => .error .valueError) (fun s => s) fmt [text] false false []
  let m ← convertAbif false false false out
  .ok (Dict.get? m.candidates tok)

/-- C82 is false for names whose token has a character that is not url-safe: the alternative `Pat O'Brien` of a PrefLib file is
read as `Pat O'Brien` from the importer's text, but the converted file has it in a line that is not recognized, so that the
name becomes the token. -/
theorem C82_refuted :
    convertedName c!"preflib" c!"# ALTERNATIVE NAME 1: Pat O'Brien\n# ALTERNATIVE NAME 2: Bob\n3: 1,2\n" c!"PatO'Brien" = .ok (some (some c!"PatO'Brien")) ∧
    (convertPreflib c!"# ALTERNATIVE NAME 1: Pat O'Brien\n# ALTERNATIVE NAME 2: Bob\n3: 1,2\n" >>= fun t => nameIn t c!"PatO'Brien") = .ok (some (some c!"Pat O'Brien")) := by
  constructor <;> decide +kernel

/-- C71, finding: a description with a character outside the accepted ones is lost, here the `&` -/
theorem C71_description_refuted :
    (textToAbif (fun _ => .error .valueError) (fun s => s) c!"debtally" [sheetText exSheet] false false [(c!"description", c!"R-D, 2003")] >>=
      fun out => metaIn out c!"description") = .ok (some c!"R-D, 2003") ∧
    (textToAbif (fun _ => .error .valueError) (fun s => s) c!"debtally" [sheetText exSheet] false false [(c!"description", c!"R&D, 2003")] >>=
      fun out => metaIn out c!"description") = .ok none := by
  constructor <;> decide +kernel

-- the extra hypotheses of C82 are met by the documents of C43 and C44
example : ∀ a ∈ prefAlts exPrefDoc, ∀ c ∈ noSpaces a.2, isUrlSafe c = true := by decide +kernel
example : ∀ cn ∈ (debTokens (fun _ => c!"ABCDEF") (sheetNames exSheet)).zip (sheetNames exSheet), ∀ c ∈ cn.1, isUrlSafe c = true := by
  decide +kernel
example : ∀ c ∈ c!"General election, 2003", plainValChar c = true := by decide +kernel
-- and this is what comes out
example : convertedName c!"preflib" (prefText exPrefDoc) c!"BobKiss" = .ok (some (some c!"Bob Kiss")) := by decide +kernel

end
end Verif.Props
