/-
Texts without double quotes in their preference lists: what converting them does (C60, C79, C95), stated on the text.
-/
import Verif.Lib.TokenShape
import Verif.Props.Export
import Verif.Props.Settle
import Verif.Props.Meta

set_option linter.unusedSectionVars false

namespace Verif.Props
open Spec

section
variable [U : Uni]

/-- No preference list of the text has a double quote, and none a blank right before a slash. -/
def PlainLists (cw : Bool) (text : Str) : Prop :=
  ∀ v ∈ votesOf cw text, '"' ∉ v.2.1 ∧ ¬ ∃ a w b, v.2.1 = a ++ w :: '/' :: b ∧ isSpace w = true

theorem votes_chars {cw : Bool} {text : Str} {v : Str × Str × Option Str} (hv : v ∈ votesOf cw text) :
    '#' ∉ v.2.1 ∧ ∀ c ∈ v.2.1, isLineBreak c = false := by
  obtain ⟨l, hl, hlv⟩ := List.mem_filterMap.1 hv
  unfold Spec.lineVote at hlv
  obtain ⟨⟨q, p⟩, hr, rfl⟩ := Option.map_eq_some_iff.1 hlv
  have hsub : ∀ c ∈ p, c ∈ beforeHash l := by
    unfold readVote at hr
    split at hr
    · rename_i heq
      split at hr
      · cases hr
      · cases hr
        intro c hc
        have : c ∈ ':' :: p := by simp [hc]
        rw [← heq] at this
        exact (List.dropWhile_sublist _).subset this
    · cases hr
  refine ⟨fun hh => ?_, fun c hc => textLines_noBreak cw text l hl c (hsub c hc)⟩
  have := hsub _ hh
  unfold beforeHash at this
  have := mem_takeWhile_p this
  simp at this

/-- the tokens of such a text can all be printed -/
theorem plain_tokens {cw ar : Bool} {text : Str} {m : Jabmod} (h : convertAbif cw ar false text = .ok m) (hp : PlainLists cw text) :
    ∀ (vl : Voteline), vl ∈ m.votelines → ∀ (k : Str), k ∈ Dict.keys vl.prefs → Printable k := by
  have base : ∀ {m : Jabmod}, convertAbif cw false false text = .ok m →
      ∀ (vl : Voteline), vl ∈ m.votelines → ∀ (k : Str), k ∈ Dict.keys vl.prefs → Printable k := by
    intro m h vl hvl k hk
    obtain ⟨vls, f1, _, f2, _⟩ := convertAbif_ok h
    rw [f2, (sortByKeyDesc_perm Voteline.qty vls).mem_iff] at hvl
    obtain ⟨v, hv, hs⟩ := forall₂_mem_right f1 hvl
    obtain ⟨_, ⟨cands, hpar⟩, _⟩ := hs
    obtain ⟨g1, g2⟩ := hp v hv
    obtain ⟨g3, g4⟩ := votes_chars hv
    exact tokens_printable hpar g1 g2 g3 g4 k hk
  cases ar with
  | false => exact base h
  | true =>
    rw [convertAbif_rated] at h
    obtain ⟨m0, h0, h⟩ := bind_ok.1 h
    cases h
    intro vl hvl k hk
    obtain ⟨vl0, hvl0, rfl⟩ := List.mem_map.1 hvl
    refine base h0 vl0 hvl0 k ?_
    rw [ratedLine_keys] at hk
    exact hk

/-- C60 on the text.  Every accepted .abif text whose preference lists have no double quotes and no blanks before slashes is converted, and the result
is accepted with the same ballot count.
MISSING from C60: the other texts (`C60_refuted`, `C95_quote_refuted`). -/
theorem C60_text_partial (cw cw' : Bool) (text : Str) (m : Jabmod) (h : convertAbif cw false false text = .ok m) (hp : PlainLists cw text) :
    ∃ (out : Str) (m' : Jabmod), abifTextToAbif cw false text = .ok out ∧ convertAbif cw' false false out = .ok m' ∧
      Dict.get? m'.metadata c!"ballotcount" = Dict.get? m.metadata c!"ballotcount" :=
  C60_partial cw false cw' text m h (plain_tokens h hp) (by intro e; cases e)

/-- C95 on the text. -/
theorem C95_text (cw cw1 cw2 : Bool) (text : Str) (m : Jabmod) (h : convertAbif cw false false text = .ok m) (hp : PlainLists cw text)
    (hkeys : ∀ k ∈ Dict.keys m.metadata, ∀ c t, k = c :: t → isSpace c = false) :
    ∃ (once twice : Str), abifTextToAbif cw false text = .ok once ∧ abifTextToAbif cw1 false once = .ok twice ∧
      abifTextToAbif cw2 false twice = .ok twice :=
  C95_settles cw cw1 cw2 text m h (plain_tokens h hp) hkeys

/-- C79 on the text. -/
theorem C79_plain (cw cw' : Bool) (text out : Str) (m m' : Jabmod) (h : convertAbif cw false false text = .ok m) (hp : PlainLists cw text)
    (hkeys : ∀ k ∈ Dict.keys m.metadata, ∀ c t, k = c :: t → isSpace c = false)
    (ho : abifTextToAbif cw false text = .ok out) (hm : convertAbif cw' false false out = .ok m')
    (k v : Str) (hk : k ≠ c!"comments") (hk' : k ≠ c!"ballotcount") (hk'' : k ≠ c!"ballotcount_abif_metadata")
    (hk3 : k ≠ c!"is_ranking_to_rating") (hv : metaValue (textLines cw text) k = some v) :
    Dict.get? m'.metadata k = if v.all (fun c => decide (32 ≤ c.toNat ∧ c.toNat ≤ 126)) then some (.str v) else none :=
  C79_text cw false cw' text out m m' h (plain_tokens h hp) (by intro e; cases e) hkeys ho hm k v hk hk' hk'' hk3 hv

end

section
attribute [local instance] Uni.ascii

/-- a text with ratings, an equal rank and a bracketed candidate -/
def plainText : Str := c!"{title: x}\n=a:[Ann]\n5:a/5>b/3,[c d]/1\n2:b=a\n"

set_option maxRecDepth 20000 in
theorem plainText_plain : PlainLists false plainText := by
  have hv : votesOf false plainText = [(c!"5", c!"a/5>b/3,[c d]/1", none), (c!"2", c!"b=a", none)] := by decide +kernel
  intro v hmem
  rw [hv] at hmem
  have key : ∀ (p : Str), (p.zip p.tail).all (fun x => !(isSpace x.1 && x.2 == '/')) = true →
      ¬ ∃ a w b, p = a ++ w :: '/' :: b ∧ isSpace w = true := by
    rintro p hp ⟨a, w, b, rfl, hw⟩
    rw [List.all_eq_true] at hp
    have : (w, '/') ∈ ((a ++ w :: '/' :: b).zip (a ++ w :: '/' :: b).tail) := by
      clear hp
      induction a with
      | nil => simp
      | cons x a ih =>
        have : ((x :: a) ++ w :: '/' :: b).tail = a ++ w :: '/' :: b := rfl
        cases a with
        | nil => simp
        | cons y a =>
          simp only [List.cons_append, List.tail_cons, List.zip_cons_cons] at ih ⊢
          exact List.mem_cons_of_mem _ ih
    have := hp _ this
    simp [hw] at this
  simp only [List.mem_cons, List.not_mem_nil, or_false] at hmem
  rcases hmem with rfl | rfl
  · exact ⟨by decide, key _ (by decide +kernel)⟩
  · exact ⟨by decide, key _ (by decide +kernel)⟩

set_option maxRecDepth 20000 in
example : (match convertAbif false false false plainText with | .ok m => m.votelines.length == 2 | _ => false) = true := by decide +kernel

end

end Verif.Props
