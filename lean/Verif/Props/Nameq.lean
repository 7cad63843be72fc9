/-
Properties of the nameq format (C42).
-/
import Verif.Lib.Nameq

set_option linter.unusedSectionVars false

namespace Verif.Props
open Spec

section
variable [U : Uni]

/-- C42.  Round trip: whatever `convert_jabmod_to_nameq` writes is read back by `convert_nameq_to_jabmod` as a
model with one voteline of quantity 1 per single ballot, in order, each listing the same candidates in the same
order with the same ranks; the ballot count is the number of single ballots; the candidates are exactly the
tokens that occur on some ballot, each named by itself. -/
theorem C42_round_trip (m : Jabmod) (text : Str) (h : jabmodToNameq m = .ok text)
    (hw : ∀ (vl : Voteline), vl ∈ m.votelines → Dict.WF vl.prefs) :
    ∃ m', nameqToJabmod text = .ok m' ∧
      m'.votelines.map ranksOf = (singleBallots m.votelines).map ranksOf ∧
      (∀ (vl : Voteline), vl ∈ m'.votelines → vl.qty = 1 ∧ ∀ (kp : Str × Pref), kp ∈ vl.prefs → kp.2.rating = none ∧ kp.2.nextdelim = none) ∧
      Dict.get? m'.metadata c!"ballotcount" = some (.int (singleBallots m.votelines).length) ∧
      (∀ (c : Str), Dict.get? m'.candidates c =
        open Classical in if ∃ vl ∈ singleBallots m.votelines, c ∈ Dict.keys vl.prefs then some (some c) else none) := by
  obtain ⟨hr, rfl⟩ := (nameqVotelines_iff m.votelines text).1 h
  have hbw : ∀ (vl : Voteline), vl ∈ singleBallots m.votelines → Dict.WF vl.prefs ∧ AllRanked vl := by
    intro vl hvl
    obtain ⟨v, hv, hvl⟩ := List.mem_flatMap.1 hvl
    obtain ⟨hn, rfl⟩ := List.mem_replicate.1 hvl
    exact ⟨hw vl hv, hr vl hv (by omega)⟩
  have hlines : splitlines ((singleBallots m.votelines).flatMap (fun v => nqLine v ++ ['\n'])) =
      (singleBallots m.votelines).map nqLine := by
    have := splitlines_lines ((singleBallots m.votelines).map nqLine) (by
      intro l hl
      obtain ⟨vl, _, rfl⟩ := List.mem_map.1 hl
      exact fun c hc => (nqLine_clean vl c hc).2)
    rw [← this, List.flatMap_map]
  generalize hbs : singleBallots m.votelines = bs at *
  let conv (vl : Voteline) : Voteline :=
    { qty := 1, prefs := vl.prefs.map (fun kp => (kp.1, { rank := some (kp.2.rank.getD 0) })), nameq := some (nqLine vl) }
  have hm : (bs.map nqLine).mapM nameqLine = .ok (bs.map conv) := by
    clear hbs hlines h
    induction bs with
    | nil => rfl
    | cons b bs ih =>
      rw [List.map_cons, List.mapM_cons, nameqLine_line (hbw b (by simp)).1, ih (fun v hv => hbw v (by simp [hv]))]
      rfl
  have hkeys : ∀ vl : Voteline, Dict.keys (conv vl).prefs = Dict.keys vl.prefs := by
    intro vl; unfold Dict.keys; simp [conv]
  refine ⟨_, by unfold nameqToJabmod; rw [hlines, hm], ?_, ?_, ?_, ?_⟩
  · rw [List.map_map]
    apply List.map_congr_left
    intro vl hvl
    simp only [Function.comp_apply, ranksOf, conv, List.map_map]
    apply List.map_congr_left
    intro kp hkp
    have := (hbw vl hvl).2 kp hkp
    cases hk : kp.2.rank with
    | none => exact absurd hk this
    | some r => simp [hk]
  · intro vl hvl
    obtain ⟨v, _, rfl⟩ := List.mem_map.1 hvl
    refine ⟨rfl, ?_⟩
    intro kp hkp
    obtain ⟨e, _, rfl⟩ := List.mem_map.1 hkp
    exact ⟨rfl, rfl⟩
  · simp [Dict.get?]
  · intro c
    simp only
    rw [nameqCands_get]
    congr 1
    rw [eq_iff_iff]
    constructor
    · rintro ⟨vl, hvl, hc⟩
      obtain ⟨v, hv, rfl⟩ := List.mem_map.1 hvl
      exact ⟨v, hv, by rw [← hkeys]; exact hc⟩
    · rintro ⟨v, hv, hc⟩
      exact ⟨conv v, List.mem_map.2 ⟨v, hv, rfl⟩, by rw [hkeys]; exact hc⟩

end

/-- C42.  Writing succeeds exactly when every entry of every voteline that stands for at least one ballot has a rank. -/
theorem C42_success (m : Jabmod) : (∃ text, jabmodToNameq m = .ok text) ↔
    ∀ (vl : Voteline), vl ∈ m.votelines → 0 < vl.qty → ∀ (kp : Str × Pref), kp ∈ vl.prefs → kp.2.rank ≠ none := by
  let := Uni.ascii
  constructor
  · rintro ⟨text, h⟩; exact ((nameqVotelines_iff m.votelines text).1 h).1
  · intro h; exact ⟨_, (nameqVotelines_iff m.votelines _).2 ⟨h, rfl⟩⟩

/-- C42.  Percent-encoding loses nothing: decoding the encoded token gives the token back, for every token. -/
theorem C42_token (s : Str) : unquotePlus (quotePlus s) = s := unquotePlus_quotePlus s

/-- C42.  Exactly the names made of letters, digits and `_.-~` are written unchanged. -/
theorem C42_unchanged (s : Str) : quotePlus s = s ↔
    ∀ c ∈ s, c ∈ c!"0123456789ABCDEFGHIJKLMNOPQRSTUVWXYZabcdefghijklmnopqrstuvwxyz_.-~" := by
  have hclass : ∀ c, isUrlSafe c = true ↔ c ∈ c!"0123456789ABCDEFGHIJKLMNOPQRSTUVWXYZabcdefghijklmnopqrstuvwxyz_.-~" := by
    intro c
    have h : ∀ n < 128, isUrlSafe (Char.ofNat n) = (c!"0123456789ABCDEFGHIJKLMNOPQRSTUVWXYZabcdefghijklmnopqrstuvwxyz_.-~").contains (Char.ofNat n) := by
      decide +kernel
    have hL : ∀ c ∈ c!"0123456789ABCDEFGHIJKLMNOPQRSTUVWXYZabcdefghijklmnopqrstuvwxyz_.-~", c.toNat < 128 := by decide +kernel
    have key : c.toNat < 128 → (isUrlSafe c = true ↔ c ∈ c!"0123456789ABCDEFGHIJKLMNOPQRSTUVWXYZabcdefghijklmnopqrstuvwxyz_.-~") := by
      intro hc
      have := h _ hc
      rw [Char.ofNat_toNat] at this
      rw [this]
      simp only [List.contains_iff_mem]
    let := Uni.ascii
    exact ⟨fun hc => (key (urlSafe_ascii hc).1).1 hc, fun hc => (key (hL c hc)).2 hc⟩
  have hlen : ∀ c, isUrlSafe c = false → c ≠ ' ' → 3 ≤ (quotePlusChar c).length := by
    intro c h1 h2
    unfold quotePlusChar
    rw [h1, if_neg (by simp), if_neg h2]
    unfold utf8Bytes pctByte
    simp only
    split
    · simp
    · split
      · simp
      · split <;> simp
  have hge : ∀ c, 1 ≤ (quotePlusChar c).length := by
    intro c
    cases h1 : isUrlSafe c with
    | true => unfold quotePlusChar; rw [if_pos h1]; simp
    | false =>
      by_cases h2 : c = ' '
      · subst h2; decide
      · have := hlen c h1 h2; omega
  have hge' : ∀ s : Str, s.length ≤ (quotePlus s).length := by
    intro s
    induction s with
    | nil => simp [quotePlus]
    | cons c s ih =>
      have := hge c
      unfold quotePlus at ih ⊢
      rw [List.flatMap_cons, List.length_append, List.length_cons]
      omega
  induction s with
  | nil => simp [quotePlus]
  | cons c s ih =>
    have e : quotePlus (c :: s) = quotePlusChar c ++ quotePlus s := rfl
    rw [e]
    constructor
    · intro h
      have hl := congrArg List.length h
      rw [List.length_append, List.length_cons] at hl
      have g1 := hge c
      have g2 := hge' s
      have h1 : isUrlSafe c = true := by
        cases h1 : isUrlSafe c with
        | true => rfl
        | false =>
          by_cases h2 : c = ' '
          · subst h2
            have : quotePlusChar ' ' = ['+'] := by decide
            rw [this] at h
            exact absurd (List.cons.inj h).1 (by decide)
          · have := hlen c h1 h2; omega
      have h2 : quotePlusChar c = [c] := by unfold quotePlusChar; rw [if_pos h1]
      rw [h2] at h
      intro d hd
      rcases List.mem_cons.1 hd with rfl | hd
      · exact (hclass _).1 h1
      · exact ih.1 (List.cons.inj h).2 d hd
    · intro h
      have h1 := (hclass c).2 (h c (by simp))
      have h2 : quotePlusChar c = [c] := by unfold quotePlusChar; rw [if_pos h1]
      rw [h2, ih.2 (fun d hd => h d (by simp [hd]))]
      rfl

section
attribute [local instance] Uni.ascii
set_option maxRecDepth 20000

/-- tokens with a blank, an ampersand, an equals sign and a non-ASCII letter; a quantity of two -/
def exNameq : Jabmod := { emptyishJabmod with
  votelines := [
    { qty := 2, prefs := [(c!"a b&=", { rank := some 1, rating := some (.int 5) }), (c!"é", { rank := some 2 })] },
    { qty := 1, prefs := [] },
    { qty := 0, prefs := [(c!"x", {})] }] }
def exNameqText : Str := c!"a+b%26%3D=1&%C3%A9=2\na+b%26%3D=1&%C3%A9=2\n\n"
example : jabmodToNameq exNameq = .ok exNameqText := by decide +kernel
example : ∀ (vl : Voteline), vl ∈ exNameq.votelines → Dict.WF vl.prefs := by
  intro vl hvl
  simp only [exNameq, List.mem_cons, List.not_mem_nil, or_false] at hvl
  rcases hvl with rfl | rfl | rfl <;> unfold Dict.WF <;> decide
example : (match nameqToJabmod exNameqText with
    | .ok m => some (m.votelines.map ranksOf, Dict.keys m.candidates)
    | .error _ => none) = some ([[(c!"a b&=", some 1), (c!"é", some 2)], [(c!"a b&=", some 1), (c!"é", some 2)], []],
      [c!"a b&=", c!"é"]) := by decide +kernel
end

end Verif.Props
