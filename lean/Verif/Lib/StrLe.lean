/-
Helper lemmas: Python's order on `str` is a total order; sorting strings forgets their order.
-/
import Verif.Lib.Sort
import Mathlib.Data.List.Perm.Basic
import Mathlib.Data.Char

set_option linter.unusedSimpArgs false

namespace Verif

theorem strLe_total : ∀ a b : Str, strLe a b = true ∨ strLe b a = true
  | [], _ => .inl (by simp [strLe])
  | _ :: _, [] => .inr (by simp [strLe])
  | a :: s, b :: t => by
    unfold strLe
    by_cases h1 : a.toNat < b.toNat
    · simp [h1]
    · by_cases h2 : b.toNat < a.toNat
      · simp [h2]
      · simpa [h1, h2] using strLe_total s t

theorem strLe_trans : ∀ a b c : Str, strLe a b = true → strLe b c = true → strLe a c = true
  | [], _, _, _, _ => by simp [strLe]
  | _ :: _, [], _, h, _ => by simp [strLe] at h
  | _ :: _, _ :: _, [], _, h => by simp [strLe] at h
  | a :: s, b :: t, c :: u, h1, h2 => by
    unfold strLe at h1 h2 ⊢
    by_cases x1 : a.toNat < b.toNat
    · by_cases x2 : b.toNat < c.toNat
      · rw [if_pos (by omega)]
      · rw [if_neg x2] at h2
        split at h2
        · cases h2
        · rw [if_pos (by omega)]
    · rw [if_neg x1] at h1
      split at h1
      · cases h1
      · rename_i x1'
        by_cases x2 : b.toNat < c.toNat
        · rw [if_pos (by omega)]
        · rw [if_neg x2] at h2
          split at h2
          · cases h2
          · rw [if_neg (by omega), if_neg (by omega)]
            exact strLe_trans s t u h1 h2

theorem strLe_antisymm : ∀ a b : Str, strLe a b = true → strLe b a = true → a = b
  | [], [], _, _ => rfl
  | [], _ :: _, _, h => by simp [strLe] at h
  | _ :: _, [], h, _ => by simp [strLe] at h
  | a :: s, b :: t, h1, h2 => by
    unfold strLe at h1 h2
    by_cases x1 : a.toNat < b.toNat
    · rw [if_neg (by omega), if_pos x1] at h2; cases h2
    · rw [if_neg x1] at h1
      split at h1
      · cases h1
      · rename_i x2
        rw [if_neg x2, if_neg x1] at h2
        have : a = b := Char.toNat_inj.1 (by omega)
        rw [this, strLe_antisymm s t h1 h2]

theorem strLe_totalPre : TotalPre strLe := ⟨strLe_total, strLe_trans⟩

theorem sorted_perm {l l' : List Str} (h : l.Perm l') : pySort strLe l = pySort strLe l' :=
  List.Perm.eq_of_pairwise (fun a b _ _ => strLe_antisymm a b) (pySort_sorted strLe_totalPre l) (pySort_sorted strLe_totalPre l')
    ((pySort_perm _ l).trans (h.trans (pySort_perm _ l').symm))

end Verif
