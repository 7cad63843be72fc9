/-
C44 and C71: the metadata passed to the Debian importer.
-/
import Verif.Props.Debtally
import Verif.Props.Meta

set_option linter.unusedSimpArgs false
set_option linter.unusedSectionVars false

namespace Verif.Props
open Verif Spec

section
variable [U : Uni]

/-- a key in double quotes -/
theorem readMeta_quotedKey {k : Str} (h : PlainKey k) (x : Str) :
    readMeta ('{' :: '"' :: (k ++ '"' :: ':' :: x)) = (valueOf x).map (fun v => (k, v)) := by
  have hk : readKey ('"' :: (k ++ '"' :: ':' :: x)) = some (k, '"' :: ':' :: x) := by
    have hs := takeWhile_split (p := keyChar) (X := k) (Y := '"' :: ':' :: x) (plainKey_char h) (by
      rintro y u e; cases e; exact quote_not_key (by decide))
    obtain ⟨⟨c, t, e, hc⟩, hall⟩ := id h
    unfold readKey
    simp only
    rw [List.dropWhile_cons_of_neg (by decide), dropOne_pos (by decide), hs.1, hs.2, if_pos (by rw [e]; simp)]
  have ha : afterQuote ('"' :: ':' :: x) = ':' :: x := by
    rw [afterQuote_dquote, List.dropWhile_cons_of_neg (by decide)]
  unfold readMeta valueOf
  simp only [hk, ha]
  cases readVal x with
  | none => rfl
  | some r =>
    simp only
    split <;> rfl

/-- a double quote inside a value in double quotes -/
theorem readVal_lost_dquote {p t : Str} (hp : ∀ c ∈ p, valChar c = true) (ht : p ≠ [] → t.dropWhile isSpace ≠ ['}']) :
    valueOf (' ' :: '"' :: (p ++ '"' :: t)) = none := by
  have hr : NotStart valChar ('"' :: t) := by rintro y u e; cases e; exact dquote_not_val
  by_cases h0 : p = []
  · subst h0
    have h1 : readVal (' ' :: '"' :: ([] ++ '"' :: t)) = some ([' '], '"' :: '"' :: t) := by
      unfold readVal
      simp only
      have hd : (' ' :: '"' :: ([] ++ '"' :: t)).dropWhile isSpace = '"' :: '"' :: t := by
        rw [List.dropWhile_cons_of_pos (by decide), List.dropWhile_cons_of_neg (by decide)]; rfl
      have htk : (' ' :: '"' :: ([] ++ '"' :: t)).takeWhile isSpace = [' '] := by
        rw [List.takeWhile_cons_of_pos (by decide), List.takeWhile_cons_of_neg (by decide)]
      rw [hd, htk, dropOne_pos (by decide), hr.take, if_neg (by simp), if_neg (by simp)]
      rfl
    rw [valueOf_some h1, afterQuote_dquote, List.dropWhile_cons_of_neg (by decide), if_neg (by simp)]
  · have h1 := readVal_quoted [' '] (by decide) (q := '"') (by decide) h0 hp ('"' :: t) hr
    have e : (' ' :: '"' :: (p ++ '"' :: t)) = [' '] ++ ('"' :: (p ++ '"' :: t)) := rfl
    rw [e, valueOf_some h1, afterQuote_dquote, if_neg (ht h0)]

/-- which values written as `"value"` can be read -/
def quotedValue (v : Str) : Option Str := if v ≠ [] ∧ v.all valChar = true then some v else none

theorem valueOf_dquoted (v : Str) : valueOf (' ' :: '"' :: (v ++ ['"', '}'])) = quotedValue v := by
  unfold quotedValue
  by_cases h : v.all valChar = true
  · by_cases h0 : v = []
    · subst h0
      rw [if_neg (by simp)]
      exact readVal_lost_dquote (p := []) (t := ['}']) (by simp) (fun h => absurd rfl h)
    · rw [if_pos ⟨h0, h⟩]
      have h1 := readVal_quoted [' '] (by decide) (q := '"') (by decide) h0 (fun c hc => List.all_eq_true.1 h c hc) ['"', '}']
        (by rintro y u e; cases e; exact dquote_not_val)
      have e : (' ' :: '"' :: (v ++ ['"', '}'])) = [' '] ++ ('"' :: (v ++ ['"', '}'])) := rfl
      rw [e, valueOf_some h1]
      rfl
  · rw [if_neg (by simp [h])]
    obtain ⟨a, c, t, rfl, ha, hc⟩ := split_first h
    have hc : valChar c = false := by simpa using hc
    have e : (a ++ c :: t) ++ ['"', '}'] = a ++ c :: (t ++ ['"', '}']) := by simp
    rw [e]
    by_cases hq : quoteChar c = true
    · have : c = '"' := by
        simp only [quoteChar, Bool.or_eq_true, beq_iff_eq] at hq
        rcases hq with rfl | rfl
        · rw [squote_val] at hc; cases hc
        · rfl
      subst this
      apply readVal_lost_dquote ha
      intro _ hd
      have := List.takeWhile_append_dropWhile (p := isSpace) (l := t ++ ['"', '}'])
      rw [hd] at this
      have hm : '"' ∈ (t ++ ['"', '}']).takeWhile isSpace ++ ['}'] := by rw [this]; simp
      rcases List.mem_append.1 hm with hm | hm
      · have := takeWhile_mem hm
        exact absurd this.1 (by decide)
      · simp at hm
    · exact readVal_lost ha hc (by simpa using hq) (by simp)

theorem readMeta_debMetaLine {k v : Str} (hk : PlainKey k) (hv : '#' ∉ v) :
    readMeta (beforeHash (debMetaLine (k, v))) = (quotedValue v).map (fun v => (k, v)) := by
  have hh : '#' ∉ debMetaLine (k, v) := by
    unfold debMetaLine
    simp only [List.mem_append, not_or]
    refine ⟨⟨⟨⟨by decide, plainKey_noHash hk⟩, by decide⟩, hv⟩, by decide⟩
  rw [beforeHash_of_not_mem hh, ← valueOf_dquoted v, ← readMeta_quotedKey hk]
  congr 1
  unfold debMetaLine
  simp

/-- among entries with different keys, the last one that counts for `k` is the one of `k` -/
theorem last_of_key (f : Str → Option Str) (md : Dict Str Str) (hwf : (Dict.keys md).Nodup) (k : Str) (hb : c!"ballotcount" ∉ Dict.keys md) :
    (((md.filterMap (fun kv => (f kv.2).map (fun v => (kv.1, v)))).filter
      (fun kv => decide ((if kv.1 = c!"ballotcount" then c!"ballotcount_abif_metadata" else kv.1) = k))).getLast?).map Prod.snd =
      (Dict.get? md k).bind f := by
  have none' : ∀ md : Dict Str Str, k ∉ Dict.keys md → c!"ballotcount" ∉ Dict.keys md →
      (md.filterMap (fun kv => (f kv.2).map (fun v => (kv.1, v)))).filter
        (fun kv => decide ((if kv.1 = c!"ballotcount" then c!"ballotcount_abif_metadata" else kv.1) = k)) = [] := by
    intro md h hb
    rw [List.filter_eq_nil_iff]
    rintro ⟨a, v⟩ hm
    obtain ⟨kv, hkv, e⟩ := List.mem_filterMap.1 hm
    obtain ⟨v', _, e⟩ := Option.map_eq_some_iff.1 e
    cases e
    have hmem : kv.1 ∈ Dict.keys md := List.mem_map_of_mem (f := Prod.fst) hkv
    simp only [decide_eq_true_eq]
    rw [if_neg (fun (e : kv.1 = c!"ballotcount") => hb (e ▸ hmem))]
    exact fun (e : kv.1 = k) => h (e ▸ hmem)
  induction md with
  | nil => rfl
  | cons e md ih =>
    obtain ⟨a, v⟩ := e
    have hwf' : (Dict.keys md).Nodup ∧ a ∉ Dict.keys md := by
      have : (a :: Dict.keys md).Nodup := hwf
      rw [List.nodup_cons] at this
      exact ⟨this.2, this.1⟩
    have hab : a ≠ c!"ballotcount" := fun e => hb (by rw [e]; exact List.mem_cons_self)
    have hb' : c!"ballotcount" ∉ Dict.keys md := fun h => hb (List.mem_cons_of_mem _ h)
    have ih := ih hwf'.1 hb'
    by_cases hak : a = k
    · subst hak
      have hg : Dict.get? ((a, v) :: md) a = some v := by simp [Dict.get?]
      rw [hg]
      simp only [List.filterMap_cons, Option.bind_some]
      cases hf : f v with
      | none =>
        simp only [Option.map_none]
        rw [none' md hwf'.2 hb']
        rfl
      | some w =>
        simp only [Option.map_some, List.filter_cons]
        rw [if_pos (by simp [hab]), none' md hwf'.2 hb']
        rfl
    · have hg : Dict.get? ((a, v) :: md) k = Dict.get? md k := by simp [Dict.get?, hak]
      rw [hg, ← ih]
      simp only [List.filterMap_cons]
      cases hf : f v with
      | none => simp only [Option.map_none]
      | some w =>
        simp only [Option.map_some, List.filter_cons]
        rw [if_neg (by simp [hab, hak])]

/-- C44/C71.  A metadata entry passed to the Debian importer is in the model afterwards if its value is made of the
characters metadata values may have (word characters, blanks and `, . ( ) - ? : ' /`); an empty value or one with any other
character (a double quote, `&`, `+`, ...) is lost. -/
theorem C44_metadata (sha : Str → Str) (metadata : Dict Str Str) (doc : List DLine) (h : ∀ l ∈ doc, l.Ok)
    (hmd : ∀ kv ∈ metadata, ∀ c ∈ kv.1 ++ kv.2, isLineBreak c = false)
    (hkeys : ∀ k ∈ Dict.keys metadata, PlainKey k) (hnk : (Dict.keys metadata).Nodup) (hbc : c!"ballotcount" ∉ Dict.keys metadata)
    (hhash : ∀ kv ∈ metadata, '#' ∉ kv.2)
    (hlen : ∀ v ∈ sheetVotes doc, NoExtra (sheetNames doc).length v.1)
    (hnd : (debTokens sha (sheetNames doc)).Nodup)
    (hc : ∀ cn ∈ (debTokens sha (sheetNames doc)).zip (sheetNames doc), CandOk cn)
    (text : Str) (m : Jabmod) (ht : convertDebtally sha metadata (sheetText doc) = .ok text) (hm : convertAbif false false false text = .ok m)
    (k : Str) (hk : k ≠ c!"comments") (hk' : k ≠ c!"ballotcount") (hk'' : k ≠ c!"is_ranking_to_rating") :
    Dict.get? m.metadata k = ((Dict.get? metadata k).bind quotedValue).map Json.str := by
  have htext := C44_text sha metadata doc h hlen
  rw [ht] at htext
  cases htext
  have hbal := sheet_ballots_ok sha doc h hnd hc
  generalize hcd : (debTokens sha (sheetNames doc)).zip (sheetNames doc) = cands at hc hm ht
  generalize hvt : (sheetVotes doc).map (sheetBallot (debTokens sha (sheetNames doc))) = votes at hbal hm ht
  rw [C78_stored false false false _ m hm k hk hk' hk'']
  congr 1
  rw [textLines_impFile (by
      intro l hl
      obtain ⟨kv, hkv, rfl⟩ := List.mem_map.1 hl
      exact (debMetaLine_facts (hmd kv hkv)).2) hc (fun v hv => (hbal v hv).1)]
  unfold metaValue
  have hlines : (impFile (metadata.map debMetaLine) cands votes).filterMap (fun l => readMeta (beforeHash l)) =
      metadata.filterMap (fun kv => (quotedValue kv.2).map (fun v => (kv.1, v))) := by
    unfold impFile
    have z : ∀ ls : List Str, (∀ l ∈ ls, readMeta (beforeHash l) = none) → ls.filterMap (fun l => readMeta (beforeHash l)) = [] := by
      intro ls h
      rw [List.filterMap_eq_nil_iff]
      exact h
    rw [List.filterMap_append, List.filterMap_append, List.filterMap_append, z (cands.map declLine), z [_], z (votes.map ImpVote.line),
      List.append_nil, List.append_nil, List.append_nil, List.filterMap_map]
    · apply List.filterMap_congr
      intro kv hkv
      exact readMeta_debMetaLine (hkeys _ (List.mem_map_of_mem (f := Prod.fst) hkv)) (hhash kv hkv)
    · intro l hl
      obtain ⟨v, hv, rfl⟩ := List.mem_map.1 hl
      obtain ⟨hq, hd, _⟩ := (hbal v hv).1
      unfold ImpVote.line
      cases hqq : v.qty with
      | nil => exact absurd hqq hq
      | cons c t =>
        have hcd : isDigit c = true := hd c (by rw [hqq]; simp)
        rw [List.cons_append]
        by_cases hch : c = '#'
        · subst hch
          rw [show beforeHash ('#' :: (t ++ ':' :: (tierText v.tiers ++ vidText v.vid))) = [] from by simp [beforeHash]]
          rfl
        · rw [beforeHash_cons hch]
          apply readMeta_head_none
          rintro rfl
          simp [isDigit, decVal, isAscii, isAsciiDigit] at hcd
    · intro l hl
      simp only [List.mem_singleton] at hl
      subst hl
      rw [show beforeHash c!"# ---------------" = [] from by simp [beforeHash]]
      rfl
    · intro l hl
      obtain ⟨cn, hcn, rfl⟩ := List.mem_map.1 hl
      unfold declLine
      rw [beforeHash_cons (by decide)]
      exact readMeta_head_none (by decide)
  rw [hlines]
  exact last_of_key quotedValue metadata hnk k hbc

end
end Verif.Props
