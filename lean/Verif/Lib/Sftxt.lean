/-
Helper lemmas about the San Francisco importer.
-/
import Verif.Spec.Sftxt
import Verif.Model.Sftxt
import Verif.Lib.Dict
import Verif.Lib.Preflib
import Verif.Lib.Nameq

set_option linter.unusedSimpArgs false
set_option linter.unusedSectionVars false

namespace Verif
open Spec
variable [U : Uni]

theorem splitAtChar_line {sep : Char} {l : Str} (h : ∀ c ∈ l, c ≠ sep) (r cur : Str) :
    splitAtChar sep (l ++ sep :: r) cur = (cur.reverse ++ l) :: splitAtChar sep r [] := by
  induction l generalizing cur with
  | nil => simp [splitAtChar]
  | cons c l ih =>
    rw [List.cons_append, splitAtChar, if_neg (h c (by simp)), ih (fun x hx => h x (by simp [hx]))]
    simp

theorem splitAtChar_last {sep : Char} {l : Str} (h : ∀ c ∈ l, c ≠ sep) (cur : Str) :
    splitAtChar sep l cur = [cur.reverse ++ l] := by
  induction l generalizing cur with
  | nil => simp [splitAtChar]
  | cons c l ih =>
    rw [splitAtChar, if_neg (h c (by simp)), ih (fun x hx => h x (by simp [hx]))]
    simp

theorem splitAtChar_lines {ls : List Str} (h : ∀ l ∈ ls, ∀ c ∈ l, c ≠ '\n') :
    splitAtChar '\n' (ls.flatMap (fun l => l ++ ['\n'])) [] = ls ++ [[]] := by
  induction ls with
  | nil => rfl
  | cons l ls ih =>
    have : (l :: ls).flatMap (fun l => l ++ ['\n']) = l ++ '\n' :: ls.flatMap (fun l => l ++ ['\n']) := by simp
    rw [this, splitAtChar_line (h l (by simp)), ih (fun x hx => h x (by simp [hx]))]
    simp

theorem natStr_sep (n : Nat) : ∀ c ∈ natStr n, c ≠ ',' ∧ c ≠ '\n' := by
  intro c hc
  have h := natStr_noBreak n c hc
  have h2 := natStr_plain n c hc
  exact ⟨h2.2.1, fun e => by subst e; exact absurd h (by decide)⟩

/-- the line of a field -/
def fieldLine (f : SfField) : Str := f.name ++ c!"," ++ natStr f.last ++ c!"," ++ natStr f.len

/-- the row dict of a field -/
def fieldRow (f : SfField) : Dict Str (Option Str) :=
  [(c!"fieldname", some f.name), (c!"lastchar", some (natStr f.last)), (c!"length", some (natStr f.len))]

theorem fieldLine_row {f : SfField} (h : ∀ c ∈ f.name, c ≠ ',' ∧ c ≠ '\n') :
    csvPlainRow (fieldLine f) = [f.name, natStr f.last, natStr f.len] := by
  unfold csvPlainRow fieldLine
  rw [if_neg (by simp)]
  simp only [List.append_assoc]
  rw [List.singleton_append, splitAtChar_line (fun c hc => (h c hc).1), List.singleton_append,
    splitAtChar_line (fun c hc => (natStr_sep _ c hc).1), splitAtChar_last (fun c hc => (natStr_sep _ c hc).1)]
  simp

theorem fieldspec_header : csvPlainRow c!"fieldname,lastchar,length" = [c!"fieldname", c!"lastchar", c!"length"] := by decide

theorem csvDicts_spec {fs : List SfField} (h : ∀ f ∈ fs, ∀ c ∈ f.name, c ≠ ',' ∧ c ≠ '\n') :
    csvDicts (fieldspecText fs) = fs.map fieldRow := by
  have e : fieldspecText fs = (c!"fieldname,lastchar,length" :: fs.map fieldLine).flatMap (fun l => l ++ ['\n']) := by
    unfold fieldspecText fieldLine
    rw [List.flatMap_cons, List.flatMap_map]
    simp
  unfold csvDicts
  rw [e, splitAtChar_lines, List.map_append, List.map_cons, List.cons_append, fieldspec_header]
  · simp only [List.map_map, List.map_cons, List.map_nil, List.filter_append]
    have e2 : (fs.map (csvPlainRow ∘ fieldLine)).filter (fun r => decide (r ≠ [])) = fs.map (csvPlainRow ∘ fieldLine) := by
      apply List.filter_eq_self.2
      intro r hr
      obtain ⟨f, hf, rfl⟩ := List.mem_map.1 hr
      simp [fieldLine_row (h f hf)]
    rw [e2]
    have e3 : [csvPlainRow []].filter (fun r => decide (r ≠ [])) = [] := by decide
    rw [e3, List.append_nil, List.map_map]
    apply List.map_congr_left
    intro f hf
    simp only [Function.comp_apply, fieldLine_row (h f hf)]
    rfl
  · intro l hl c hc
    rcases List.mem_cons.1 hl with rfl | hl
    · have : ∀ c ∈ c!"fieldname,lastchar,length", c ≠ '\n' := by decide
      exact this c hc
    · obtain ⟨f, hf, rfl⟩ := List.mem_map.1 hl
      unfold fieldLine at hc
      simp only [List.mem_append, List.mem_singleton] at hc
      rcases hc with (((hc | rfl) | hc) | rfl) | hc
      · exact (h f hf c hc).2
      · decide
      · exact (natStr_sep _ c hc).2
      · decide
      · exact (natStr_sep _ c hc).2

theorem pyInt_natStr (n : Nat) : pyIntOfStr (natStr n) = .ok (n : Int) := by
  have := pyInt_intStr (n : Int)
  rwa [intStr_nonneg (by omega)] at this

theorem rowInt_last (f : SfField) : rowInt (fieldRow f) c!"lastchar" = .ok (f.last : Int) := by
  have : Dict.getE (fieldRow f) c!"lastchar" = .ok (some (natStr f.last)) := rfl
  unfold rowInt; rw [this]; exact pyInt_natStr _

theorem rowInt_len (f : SfField) : rowInt (fieldRow f) c!"length" = .ok (f.len : Int) := by
  have : Dict.getE (fieldRow f) c!"length" = .ok (some (natStr f.len)) := rfl
  unfold rowInt; rw [this]; exact pyInt_natStr _

/-- the name and width of a field -/
def fieldWidth (pf : Nat × SfField) : Option Str × Int := (some pf.2.name, (pf.2.last : Int) - pf.1)

theorem fieldspecLoop_spec {fs : List SfField} (h : ∀ f ∈ fs, 0 < f.len) (pos : Nat) :
    fieldspecLoop (fs.map fieldRow) pos = .ok ((withStart pos fs).map fieldWidth) := by
  induction fs generalizing pos with
  | nil => rfl
  | cons f fs ih =>
    have hl := h f (by simp)
    have hn : Dict.getE (fieldRow f) c!"fieldname" = .ok (some f.name) := rfl
    rw [List.map_cons, fieldspecLoop, rowInt_last]
    simp only [hn, rowInt_len]
    rw [if_neg (by omega), ih (fun g hg => h g (by simp [hg]))]
    rfl

theorem readFieldspec_spec {fs : List SfField} (h : SpecOk fs) :
    readFieldspec (fieldspecText fs) = .ok ((withStart 0 fs).map fieldWidth) := by
  unfold readFieldspec
  rw [csvDicts_spec (fun f hf => (h.1 f hf).1)]
  exact fieldspecLoop_spec (fun f hf => (h.1 f hf).2) 0

/-! ### splitting a line -/

theorem fieldMatch_nat (n : Nat) (s : Str) (hs : ∀ c ∈ s, isDot c = true) :
    fieldMatch (n : Int) s = if n ≤ s.length then some (s.take n, s.drop n) else none := by
  show fieldMatch (Int.ofNat n) s = _
  unfold fieldMatch
  have : (s.take n).all isDot = true := List.all_eq_true.2 (fun c hc => hs c (List.mem_of_mem_take hc))
  simp [this]

/-- the last column of a spec that starts at `pos` -/
def columnsFrom (pos : Nat) (fs : List SfField) : Nat := (fs.getLast?.map SfField.last).getD pos

theorem columnsFrom_cons (pos : Nat) (f : SfField) (fs : List SfField) : columnsFrom pos (f :: fs) = columnsFrom f.last fs := by
  unfold columnsFrom
  cases fs with
  | nil => rfl
  | cons g fs => rw [List.getLast?_cons_cons]; cases h : (g :: fs).getLast? with
    | none => simp at h
    | some x => rfl

theorem columnsFrom_ge {pos : Nat} {fs : List SfField} (h : (pos :: fs.map SfField.last).Pairwise (· ≤ ·)) : pos ≤ columnsFrom pos fs := by
  induction fs generalizing pos with
  | nil => simp [columnsFrom]
  | cons f fs ih =>
    rw [columnsFrom_cons]
    rw [List.map_cons, List.pairwise_cons] at h
    exact Nat.le_trans (h.1 f.last (by simp)) (ih h.2)

theorem sfFields_spec {fs : List SfField} {pos : Nat} {line : Str} (hl : ∀ c ∈ line, isDot c = true)
    (hp : pos ≤ line.length) (ho : (pos :: fs.map SfField.last).Pairwise (· ≤ ·))
    (hn : (fs.map SfField.name).Nodup) (d : Dict (Option Str) Str) (hd : ∀ f ∈ fs, some f.name ∉ Dict.keys d) :
    sfFields ((withStart pos fs).map fieldWidth) (line.drop pos) d =
      if columnsFrom pos fs ≤ line.length then
        .ok (d ++ (withStart pos fs).map (fun pf => (some pf.2.name, slice line pf.1 pf.2.last)))
      else .error .valueError := by
  induction fs generalizing pos d with
  | nil => simp [withStart, sfFields, columnsFrom, hp]
  | cons f fs ih =>
    have hpf : pos ≤ f.last := by
      rw [List.map_cons, List.pairwise_cons] at ho; exact ho.1 f.last (by simp)
    have ho' : (f.last :: fs.map SfField.last).Pairwise (· ≤ ·) := by
      rw [List.map_cons, List.pairwise_cons] at ho; exact ho.2
    rw [withStart, List.map_cons, fieldWidth, sfFields]
    have hw : ((f.last : Int) - (pos : Nat)) = ((f.last - pos : Nat) : Int) := by omega
    simp only
    rw [hw, fieldMatch_nat _ _ (fun c hc => hl c (List.mem_of_mem_drop hc)), columnsFrom_cons]
    by_cases hlen : f.last ≤ line.length
    · rw [if_pos (by rw [List.length_drop]; omega)]
      simp only
      rw [List.drop_drop, Nat.add_sub_cancel' hpf]
      rw [List.map_cons, List.nodup_cons] at hn
      rw [ih hlen ho' hn.2]
      · rw [Dict.set_of_not_mem _ (hd f (by simp))]
        simp [slice]
      · intro g hg
        rw [Dict.keys_set]
        have h1 := hd g (by simp [hg])
        have h2 : (some g.name : Option Str) ≠ some f.name := by
          intro e
          exact hn.1 (List.mem_map.2 ⟨g, hg, (Option.some.inj e)⟩)
        split
        · exact h1
        · simp [h1, h2]
    · rw [if_neg (by rw [List.length_drop]; omega), if_neg]
      have := columnsFrom_ge ho'
      omega

theorem slices_flatten {fs : List SfField} {pos : Nat} {line : Str} (ho : (pos :: fs.map SfField.last).Pairwise (· ≤ ·)) :
    line.take pos ++ ((withStart pos fs).map (fun pf => slice line pf.1 pf.2.last)).flatten = line.take (columnsFrom pos fs) := by
  induction fs generalizing pos with
  | nil => simp [withStart, columnsFrom]
  | cons f fs ih =>
    rw [List.map_cons, List.pairwise_cons] at ho
    have hpf : pos ≤ f.last := ho.1 f.last (by simp)
    rw [columnsFrom_cons, ← ih ho.2, withStart, List.map_cons, List.flatten_cons, ← List.append_assoc]
    congr 1
    unfold slice
    conv_rhs => rw [show f.last = pos + (f.last - pos) from by omega, List.take_add]

theorem mapM_all_or_error {α β ε : Type} {f : α → Except ε β} {g : α → β} {P : α → Prop} {e : ε} [DecidablePred P] (l : List α)
    (h : ∀ a ∈ l, f a = if P a then .ok (g a) else .error e) :
    l.mapM f = if ∀ a ∈ l, P a then .ok (l.map g) else .error e := by
  induction l with
  | nil => rw [if_pos (by simp)]; rfl
  | cons a l ih =>
    rw [List.mapM_cons, h a (by simp), ih (fun x hx => h x (by simp [hx]))]
    by_cases ha : P a
    · rw [if_pos ha]
      by_cases hl : ∀ x ∈ l, P x
      · rw [if_pos hl, if_pos (by intro x hx; rcases List.mem_cons.1 hx with rfl | hx; exact ha; exact hl x hx)]
        rfl
      · have hn : ¬ ∀ x ∈ a :: l, P x := fun h => hl (fun x hx => h x (by simp [hx]))
        rw [if_neg hl, if_neg hn]
        rfl
    · have hn : ¬ ∀ x ∈ a :: l, P x := fun h => ha (h a (by simp))
      rw [if_neg ha, if_neg hn]
      rfl

end Verif
