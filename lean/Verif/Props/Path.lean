/-
C81: how paths are put together and taken apart.
-/
import Verif.Spec.Path

namespace Verif.Props
open Verif Spec

theorem endsSlash {a : Str} (h : a.getLast? = some '/') : a.dropLast ++ ['/'] = a := by
  obtain ⟨ys, rfl⟩ := List.getLast?_eq_some_iff.1 h
  rw [List.dropLast_concat]

theorem partsFrom_slash (cur a b : Str) : partsFrom cur (a ++ '/' :: b) = partsFrom cur a ++ partsFrom [] b := by
  induction a generalizing cur with
  | nil => rfl
  | cons c t ih =>
    by_cases hc : c = '/'
    · subst hc
      simp only [List.cons_append, partsFrom, if_true, ih, List.append_assoc]
    · simp only [List.cons_append, partsFrom, if_neg hc, ih]

/-- a slash separates -/
theorem parts_slash (a b : Str) : parts (a ++ '/' :: b) = parts a ++ parts b := partsFrom_slash [] a b

theorem partsFrom_plain (cur s : Str) (h : '/' ∉ s) : partsFrom cur s = if cur.reverse ++ s = [] then [] else [cur.reverse ++ s] := by
  induction s generalizing cur with
  | nil => simp [partsFrom]
  | cons c t ih =>
    have hc : c ≠ '/' := fun e => h (e ▸ List.mem_cons_self)
    simp only [partsFrom, if_neg hc]
    rw [ih (c :: cur) (fun hm => h (List.mem_cons_of_mem _ hm))]
    simp

/-- a name is its only part -/
theorem parts_name (s : Str) (h : '/' ∉ s) (hs : s ≠ []) : parts s = [s] := by
  unfold parts
  rw [partsFrom_plain [] s h]
  simp [hs]

theorem parts_nil : parts [] = [] := rfl

theorem parts_slashes (s : Str) (h : ∀ c ∈ s, c = '/') : parts s = [] := by
  induction s with
  | nil => rfl
  | cons c t ih =>
    have := h c List.mem_cons_self
    subst this
    have e := parts_slash [] t
    simp only [List.nil_append] at e
    rw [e, ih (fun c hc => h c (List.mem_cons_of_mem _ hc))]
    rfl

theorem head_slash {b : Str} : b.head? = some '/' ↔ Absolute b := by
  unfold Absolute
  cases b with
  | nil => simp
  | cons c t => simp

/-- C81, joining paths: a relative path is looked up below the first one, an absolute one stands for itself. -/
theorem C81_join (a b : Str) :
    (Absolute b → pyJoin a b = b) ∧
    (¬ Absolute b → parts (pyJoin a b) = parts a ++ parts b ∧ (a ≠ [] → (Absolute (pyJoin a b) ↔ Absolute a))) := by
  constructor
  · intro h
    unfold pyJoin
    rw [if_pos (head_slash.2 h)]
  · intro h
    have hh : ¬ b.head? = some '/' := fun e => h (head_slash.1 e)
    unfold pyJoin
    rw [if_neg hh]
    by_cases ha : a = []
    · subst ha
      simp [parts_nil]
    · by_cases hl : a.getLast? = some '/'
      · obtain ⟨a', rfl⟩ : ∃ a', a = a' ++ ['/'] := by
          refine ⟨a.dropLast, ?_⟩
          have := endsSlash hl
          exact this.symm
        rw [if_pos (by simp)]
        constructor
        · rw [List.append_assoc, List.singleton_append, parts_slash]
          have := parts_slash a' []
          rw [parts_nil, List.append_nil] at this
          rw [this]
        · intro _
          unfold Absolute
          cases a' with
          | nil => simp
          | cons c t => simp
      · rw [if_neg (by simp [ha, hl])]
        refine ⟨parts_slash a b, fun _ => ?_⟩
        unfold Absolute
        cases a with
        | nil => exact absurd rfl ha
        | cons c t => simp

/-- `p` is split at its last slash -/
theorem pyDirname_split (d f : Str) (hf : '/' ∉ f) :
    pyDirname (d ++ '/' :: f) = (if (∀ c ∈ d, c = '/') then d ++ ['/'] else (d.reverse.dropWhile (fun c => decide (c = '/'))).reverse) := by
  have e : (d ++ '/' :: f).reverse.dropWhile (fun c => decide (c ≠ '/')) = '/' :: d.reverse := by
    rw [List.reverse_append, List.reverse_cons, List.append_assoc]
    rw [List.dropWhile_append_of_pos (by
      intro c hc
      rw [List.mem_reverse] at hc
      exact decide_eq_true (fun e => hf (e ▸ hc)))]
    rw [List.singleton_append, List.dropWhile_cons_of_neg (by simp)]
  unfold pyDirname
  simp only
  rw [e]
  have e2 : ('/' :: d.reverse).reverse = d ++ ['/'] := by simp
  rw [e2]
  by_cases h : ∀ c ∈ d, c = '/'
  · rw [if_pos h, if_pos]
    rw [List.all_eq_true]
    intro c hc
    rcases List.mem_append.1 hc with hc | hc
    · exact decide_eq_true (h c hc)
    · rw [List.mem_singleton] at hc; exact decide_eq_true hc
  · rw [if_neg h, if_neg]
    · rw [List.reverse_append, List.reverse_singleton, List.singleton_append, List.dropWhile_cons_of_pos (by simp)]
    · intro ha
      apply h
      intro c hc
      rw [List.all_eq_true] at ha
      simpa using ha c (List.mem_append_left _ hc)

/-- dropping slashes at the end does not change the parts, nor whether a path that has parts is absolute -/
theorem trim_slashes (d : Str) :
    ∃ z, (∀ c ∈ z, c = '/') ∧ d = (d.reverse.dropWhile (fun c => decide (c = '/'))).reverse ++ z := by
  refine ⟨(d.reverse.takeWhile (fun c => decide (c = '/'))).reverse, ?_, ?_⟩
  · intro c hc
    rw [List.mem_reverse] at hc
    have hall : ∀ (l : Str) c, c ∈ l.takeWhile (fun c => decide (c = '/')) → c = '/' := by
      intro l
      induction l with
      | nil => intro c hc; cases hc
      | cons x t ih =>
        intro c hc
        by_cases hx : x = '/'
        · rw [List.takeWhile_cons_of_pos (by simp [hx])] at hc
          rcases List.mem_cons.1 hc with rfl | hc
          · exact hx
          · exact ih c hc
        · rw [List.takeWhile_cons_of_neg (by simp [hx])] at hc
          cases hc
    exact hall _ c hc
  · rw [← List.reverse_append, List.takeWhile_append_dropWhile, List.reverse_reverse]

theorem parts_trim (a z : Str) (hz : ∀ c ∈ z, c = '/') : parts (a ++ z) = parts a := by
  cases z with
  | nil => rw [List.append_nil]
  | cons c t =>
    have := hz c List.mem_cons_self
    subst this
    rw [parts_slash, parts_slashes t (fun c hc => hz c (List.mem_cons_of_mem _ hc)), List.append_nil]

/-- C81, the directory of a path: everything before the last slash, as a path with the same parts, absolute exactly if the
path is, and not ending in a slash unless it is all slashes; a path without a slash has the empty directory. -/
theorem C81_dirname (p : Str) :
    ('/' ∉ p → pyDirname p = []) ∧
    (∀ d f, '/' ∉ f → p = d ++ '/' :: f →
      parts (pyDirname p) = parts d ∧ (Absolute (pyDirname p) ↔ Absolute p) ∧
      ((pyDirname p).getLast? = some '/' → ∀ c ∈ d, c = '/')) := by
  constructor
  · intro h
    have e : p.reverse.dropWhile (fun c => decide (c ≠ '/')) = [] := by
      have := List.dropWhile_append_of_pos (l₁ := p.reverse) (l₂ := []) (p := fun c => decide (c ≠ '/')) (by
        intro c hc
        rw [List.mem_reverse] at hc
        exact decide_eq_true (fun e => h (e ▸ hc)))
      rw [List.append_nil] at this
      rw [this]
      rfl
    unfold pyDirname
    simp only
    rw [e]
    rfl
  · rintro d f hf rfl
    rw [pyDirname_split d f hf]
    by_cases h : ∀ c ∈ d, c = '/'
    · rw [if_pos h]
      refine ⟨parts_trim d ['/'] (by simp), ?_, fun _ => h⟩
      unfold Absolute
      cases d with
      | nil => simp
      | cons c t => simp
    · rw [if_neg h]
      obtain ⟨z, hz, ed⟩ := trim_slashes d
      generalize et : (d.reverse.dropWhile (fun c => decide (c = '/'))).reverse = a at ed ⊢
      have hane : a ≠ [] := by
        rintro rfl
        rw [List.nil_append] at ed
        exact h (ed ▸ hz)
      refine ⟨?_, ?_, ?_⟩
      · rw [ed, parts_trim a z hz]
      · rw [ed]
        unfold Absolute
        cases a with
        | nil => exact absurd rfl hane
        | cons c t => simp
      · intro hl
        exfalso
        rw [← et, List.getLast?_reverse] at hl
        have : ∀ l : Str, (l.dropWhile (fun c => decide (c = '/'))).head? ≠ some '/' := by
          intro l
          induction l with
          | nil => simp
          | cons x t ih =>
            by_cases hx : x = '/'
            · rw [List.dropWhile_cons_of_pos (by simp [hx])]; exact ih
            · rw [List.dropWhile_cons_of_neg (by simp [hx])]
              simpa using hx
        exact this _ hl

/-- C81: a directory written without a slash at its end is what `dirname` gives back -/
theorem C81_dirname_plain (d f : Str) (hf : '/' ∉ f) (hd : d ≠ []) (hl : d.getLast? ≠ some '/') :
    pyDirname (d ++ '/' :: f) = d := by
  rw [pyDirname_split d f hf]
  rw [if_neg]
  · cases hr : d.reverse with
    | nil => exact absurd (List.reverse_eq_nil_iff.1 hr) hd
    | cons x t =>
      have : x ≠ '/' := by
        rintro rfl
        apply hl
        rw [List.getLast?_eq_head?_reverse, hr]
        rfl
      rw [List.dropWhile_cons_of_neg (by simpa using this), ← hr, List.reverse_reverse]
  · intro h
    apply hl
    cases hr : d.getLast? with
    | none => rw [List.getLast?_eq_none_iff] at hr; exact absurd hr hd
    | some x => rw [h x (List.mem_of_getLast? hr)]

/-- C81: a file named by a relative path that does not end in a slash is stored in the directory whose parts are those of
the base directory and then those of the path but the last. -/
theorem C81_place (subdir c : Str) (hc : ¬ Absolute c) (hne : c ≠ []) (hl : c.getLast? ≠ some '/') :
    parts (pyDirname (pyJoin subdir c)) = parts subdir ++ (parts c).dropLast ∧
    ∃ name, name ≠ [] ∧ '/' ∉ name ∧ parts (pyJoin subdir c) = parts subdir ++ (parts c).dropLast ++ [name] := by
  have hf : ∃ f, f ≠ [] ∧ '/' ∉ f ∧ (c = f ∨ ∃ d, c = d ++ '/' :: f) := by
    refine ⟨(c.reverse.takeWhile (fun x => decide (x ≠ '/'))).reverse, ?_, ?_, ?_⟩
    · cases hr : c.reverse with
      | nil => exact absurd (List.reverse_eq_nil_iff.1 hr) hne
      | cons x t =>
        have : x ≠ '/' := by
          rintro rfl
          apply hl
          rw [List.getLast?_eq_head?_reverse, hr]
          rfl
        rw [List.takeWhile_cons_of_pos (by simpa using this)]
        simp
    · rw [List.mem_reverse]
      have hall : ∀ (l : Str), '/' ∉ l.takeWhile (fun x => decide (x ≠ '/')) := by
        intro l
        induction l with
        | nil => simp
        | cons x t ih =>
          by_cases hx : x = '/'
          · rw [List.takeWhile_cons_of_neg (by simp [hx])]; simp
          · rw [List.takeWhile_cons_of_pos (by simp [hx])]
            intro hm
            rcases List.mem_cons.1 hm with e | hm
            · exact hx e.symm
            · exact ih hm
      exact hall _
    · cases hr : c.reverse.dropWhile (fun x => decide (x ≠ '/')) with
      | nil =>
        left
        have := List.takeWhile_append_dropWhile (p := fun x : Char => decide (x ≠ '/')) (l := c.reverse)
        rw [hr, List.append_nil] at this
        rw [this, List.reverse_reverse]
      | cons x t =>
        right
        have hx : x = '/' := by
          have : ∀ l : Str, (l.dropWhile (fun x => decide (x ≠ '/'))).head? = none ∨ (l.dropWhile (fun x => decide (x ≠ '/'))).head? = some '/' := by
            intro l
            induction l with
            | nil => left; rfl
            | cons y u ih =>
              by_cases hy : y = '/'
              · right
                rw [List.dropWhile_cons_of_neg (by simp [hy])]
                simp [hy]
              · rw [List.dropWhile_cons_of_pos (by simp [hy])]
                exact ih
          rcases this c.reverse with h | h
          · rw [hr] at h; cases h
          · rw [hr] at h; simpa using h
        subst hx
        refine ⟨t.reverse, ?_⟩
        have := List.takeWhile_append_dropWhile (p := fun x : Char => decide (x ≠ '/')) (l := c.reverse)
        rw [hr] at this
        have := congrArg List.reverse this
        simpa using this.symm
  obtain ⟨f, hfne, hfs, hcf⟩ := hf
  -- the whole path is `d / f` for some `d`, or `f` alone
  have key : parts c = (parts c).dropLast ++ [f] := by
    rcases hcf with rfl | ⟨d, rfl⟩
    · rw [parts_name c hfs hfne]; rfl
    · rw [parts_slash, parts_name f hfs hfne, List.dropLast_concat]
  have hj := ((C81_join subdir c).2 hc).1
  have hpath : ∃ d, parts d = parts subdir ++ (parts c).dropLast ∧ (pyJoin subdir c = d ++ '/' :: f ∨ (pyJoin subdir c = f ∧ d = [])) := by
    have hh : ¬ c.head? = some '/' := fun e => hc (head_slash.1 e)
    have ec : parts c = parts c := rfl
    unfold pyJoin
    rw [if_neg hh]
    rcases hcf with rfl | ⟨d, rfl⟩
    · rw [parts_name c hfs hfne]
      by_cases ha : subdir = []
      · subst ha
        exact ⟨[], rfl, .inr ⟨by simp, rfl⟩⟩
      · by_cases hs : subdir.getLast? = some '/'
        · have e : subdir = subdir.dropLast ++ ['/'] := (endsSlash hs).symm
          refine ⟨subdir.dropLast, ?_, .inl ?_⟩
          · have := parts_trim subdir.dropLast ['/'] (by simp)
            rw [← e] at this
            rw [this]; simp
          · rw [if_pos (by simp [hs])]
            calc subdir ++ c = (subdir.dropLast ++ ['/']) ++ c := by rw [← e]
              _ = _ := by simp
        · exact ⟨subdir, by simp, .inl (by rw [if_neg (by simp [ha, hs])])⟩
    · have hk : (parts (d ++ '/' :: f)).dropLast = parts d := by
        rw [parts_slash, parts_name f hfs hfne, List.dropLast_concat]
      rw [hk]
      by_cases ha : (subdir = [] || subdir.getLast? = some '/') = true
      · rw [if_pos ha]
        refine ⟨subdir ++ d, ?_, .inl (by simp)⟩
        by_cases h0 : subdir = []
        · subst h0; simp [parts_nil]
        · have hs : subdir.getLast? = some '/' := by simpa [h0] using ha
          have e : subdir = subdir.dropLast ++ ['/'] := (endsSlash hs).symm
          have e1 := parts_trim subdir.dropLast ['/'] (by simp)
          rw [← e] at e1
          rw [e1]
          calc parts (subdir ++ d) = parts ((subdir.dropLast ++ ['/']) ++ d) := by rw [← e]
            _ = parts (subdir.dropLast ++ '/' :: d) := by simp
            _ = _ := parts_slash _ _
      · rw [if_neg ha]
        exact ⟨subdir ++ '/' :: d, parts_slash _ _, .inl (by simp)⟩
  obtain ⟨d, hd, hp⟩ := hpath
  refine ⟨?_, f, hfne, hfs, ?_⟩
  · rcases hp with hp | ⟨hp, rfl⟩
    · rw [((C81_dirname _).2 d f hfs hp).1, hd]
    · rw [hp, (C81_dirname f).1 hfs, ← hd]
  · rw [hj, List.append_assoc, ← key]

section
set_option maxRecDepth 20000
example : parts c!"dl//sub/a.abif" = [c!"dl", c!"sub", c!"a.abif"] := by decide +kernel
example : pyJoin c!"dl/" c!"x/a.abif" = c!"dl/x/a.abif" ∧ pyDirname c!"dl/x/a.abif" = c!"dl/x" := by decide +kernel
example : pyJoin c!"dl" c!"/tmp/a" = c!"/tmp/a" ∧ pyDirname c!"//a" = c!"//" ∧ pyDirname c!"dl//a" = c!"dl" := by decide +kernel
example : ¬ Absolute c!"x/a.abif" ∧ (c!"x/a.abif").getLast? ≠ some '/' := ⟨by rintro ⟨t, h⟩; simp at h, by decide⟩
end

end Verif.Props
