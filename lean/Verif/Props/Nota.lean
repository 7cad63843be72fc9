/-
C46: "none of the above" in the option names of a Debian tally sheet.
-/
import Verif.Props.Token

set_option linter.unusedSectionVars false
set_option linter.unusedSimpArgs false

namespace Verif.Props
open Verif

/-- the phrase, in any mixture of upper and lower case -/
def IsPhrase (w : Str) : Prop := w.map Char.toLower = c!"none of the above"

theorem asciiLower_eq (c : Char) : asciiLower c = c.toLower := by
  unfold asciiLower isAsciiUpper
  have hv : c.toNat = c.val.toNat := rfl
  have h65 : 'A'.val.toNat = 65 := rfl
  have h90 : 'Z'.val.toNat = 90 := rfl
  have h32 : ('a'.val - 'A'.val).toNat = 32 := rfl
  rw [Char.toLower]
  by_cases h : c.val ≥ 'A'.val ∧ c.val ≤ 'Z'.val
  · have h1 : 65 ≤ c.val.toNat := by have := UInt32.le_iff_toNat_le.1 h.1; rwa [h65] at this
    have h2 : c.val.toNat ≤ 90 := by have := UInt32.le_iff_toNat_le.1 h.2; rwa [h90] at this
    rw [dif_pos h, if_pos (by rw [Bool.and_eq_true, decide_eq_true_eq, decide_eq_true_eq, hv]; exact ⟨h1, h2⟩)]
    apply Char.toNat_inj.1
    have hof : (Char.ofNat (c.toNat + 32)).toNat = c.toNat + 32 := by
      unfold Char.ofNat
      rw [dif_pos (by left; omega)]
      show (Char.ofNatAux _ _).toNat = _
      unfold Char.ofNatAux Char.toNat
      show (BitVec.ofNatLT _ _).toNat = _
      rw [BitVec.toNat_ofNatLT]
    rw [hof]
    show c.toNat + 32 = (c.val + ('a'.val - 'A'.val)).toNat
    rw [UInt32.toNat_add, hv, h32, Nat.mod_eq_of_lt (by omega)]
  · have h1 : ¬ (65 ≤ c.val.toNat ∧ c.val.toNat ≤ 90) := by
      intro hh
      exact h ⟨UInt32.le_iff_toNat_le.2 hh.1, UInt32.le_iff_toNat_le.2 hh.2⟩
    rw [dif_neg h, if_neg (by rw [Bool.and_eq_true, decide_eq_true_eq, decide_eq_true_eq, hv]; exact h1)]

theorem nocase_match (p s : Str) :
    matchLen (p.map nocaseAtom) s = if (s.take p.length).map Char.toLower = p then some p.length else none := by
  unfold matchLen prefixMatch
  induction p generalizing s with
  | nil => simp [rmatch, piecesLen]
  | cons x p ih =>
    cases s with
    | nil => simp [nocaseAtom, rmatch]
    | cons c s =>
      have ihs := ih s
      rw [List.map_cons, nocaseAtom, rmatch, asciiLower_eq]
      simp only [List.length_cons, List.take_succ_cons, List.map_cons, List.cons.injEq]
      by_cases hc : c.toLower = x
      · simp only [hc, beq_self_eq_true, if_true, true_and]
        cases hm : rmatch (fun _ => true) (List.map nocaseAtom p) s with
        | none =>
          rw [hm] at ihs
          by_cases ht : List.map Char.toLower (List.take p.length s) = p
          · rw [if_pos ht] at ihs; cases ihs
          · rw [if_neg ht]; rfl
        | some r =>
          rw [hm] at ihs
          by_cases ht : List.map Char.toLower (List.take p.length s) = p
          · rw [if_pos ht] at ihs
            rw [if_pos ht]
            simp only [Option.map_some, Option.some.injEq] at ihs ⊢
            rw [← ihs]
            simp [piecesLen]; omega
          · rw [if_neg ht] at ihs; cases ihs
      · simp [hc]

theorem isPhrase_length {w : Str} (h : IsPhrase w) : w.length = 17 := by
  have := congrArg List.length h
  simpa using this

theorem notaSub_cons (c : Char) (t : Str) (h : ¬ IsPhrase ((c :: t).take 17)) : notaSub (c :: t) = c :: notaSub t := by
  unfold notaSub reSub
  rw [reSubAux, nocase_match]
  have : c!"none of the above".length = 17 := rfl
  rw [this, if_neg (by exact h)]

theorem reSub_skip (m : Str → Option Nat) (r a t : Str) : reSubAux m r a.length (a ++ t) = reSubAux m r 0 t := by
  induction a with
  | nil => rfl
  | cons c a ih => exact ih

theorem notaSub_phrase {w b : Str} (h : IsPhrase w) : notaSub (w ++ b) = c!"NOTA" ++ notaSub b := by
  have hl := isPhrase_length h
  cases w with
  | nil => simp at hl
  | cons c w =>
    unfold notaSub reSub
    rw [List.cons_append, reSubAux, nocase_match]
    have h17 : c!"none of the above".length = 17 := rfl
    have e : (c :: (w ++ b)).take 17 = c :: w := by
      rw [← List.cons_append, ← hl, List.take_left']
      rfl
    have hw : w.length = 16 := by simpa using hl
    rw [h17, e, if_pos (by exact h)]
    simp only
    rw [← hw, reSub_skip]

/-- C46, Debian sheets: an option name in which the phrase occurs nowhere, in no mixture of cases, is not changed. -/
theorem C46_nota_absent (s : Str) (h : ∀ a w b : Str, s = a ++ w ++ b → ¬ IsPhrase w) : notaSub s = s := by
  induction s with
  | nil => rfl
  | cons c t ih =>
    rw [notaSub_cons c t (fun hp => h [] _ ((c :: t).drop 17) (by simp) hp)]
    rw [ih]
    intro a w b e
    exact h (c :: a) w b (by simp [e])

/-- C46, Debian sheets: the first occurrence of the phrase, whatever its case, becomes `NOTA`; the text before it is unchanged
and the text after it is treated in the same way. -/
theorem C46_nota_first (a w b : Str) (hw : IsPhrase w)
    (h : ∀ a' w' b' : Str, a ++ w ++ b = a' ++ w' ++ b' → IsPhrase w' → a.length ≤ a'.length) :
    notaSub (a ++ w ++ b) = a ++ c!"NOTA" ++ notaSub b := by
  induction a with
  | nil => rw [List.nil_append, List.nil_append, notaSub_phrase hw]
  | cons c a ih =>
    rw [List.cons_append, List.cons_append, notaSub_cons]
    · rw [ih, List.cons_append, List.cons_append]
      intro a' w' b' e hp
      have := h (c :: a') w' b' (by rw [List.cons_append, List.cons_append, e]; simp) hp
      simpa using this
    · intro hp
      have := h [] _ ((c :: (a ++ w ++ b)).drop 17) (by rw [List.nil_append, List.take_append_drop]; simp) hp
      simp at this

/-- C46, Debian sheets: an option named by the phrase alone, in any case, has the token `NOTA` (unless an earlier option has it). -/
theorem C46_nota_token (sha : Str → Str) (names : List Str) (i : Nat) (o t : Str) (ho : names[i]? = some o) (hp : IsPhrase o)
    (ht : (debTokens sha names)[i]? = some t) (hfree : c!"NOTA" ∉ (debTokens sha names).take i) : t = c!"NOTA" := by
  have e : notaSub o = c!"NOTA" := by
    have := notaSub_phrase (b := []) hp
    rw [List.append_nil] at this
    rw [this]; rfl
  have h := ((C45_debian_rule sha names).2 i o t ho ht).1
  rw [e] at h
  have h2 : debToken sha 20 false c!"NOTA" = c!"NOTA" := by
    unfold debToken
    rw [if_pos (by decide)]
  rw [h2] at h
  exact h hfree

example : IsPhrase c!"None of the Above" := by unfold IsPhrase; decide +kernel
example : notaSub c!"X: NONE OF THE ABOVE, none of the above" = c!"X: NOTA, NOTA" := by decide +kernel
example : notaSub c!"none of  the above" = c!"none of  the above" := by decide +kernel
example : debTokens (fun _ => c!"ABCD") [c!"Ann", c!"None Of The Above"] = [c!"Ann", c!"NOTA"] := by decide +kernel

end Verif.Props
