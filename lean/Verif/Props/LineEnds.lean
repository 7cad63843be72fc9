/-
C115: line endings and stray first characters.
-/
import Verif.Spec.LineEnds
import Verif.Lib.ParseTop
import Verif.Lib.Splitlines
import Verif.Model.Cli

set_option linter.unusedSimpArgs false
set_option linter.unusedSectionVars false

namespace Verif.Props
open Verif Verif.Spec

section lines

theorem splitlines_written {ls : List Str} {t : Str} (h : WritesLines ls t) : splitlines t = ls := by
  induction h with
  | none => simp [splitlines, splitlinesAux_nil_nil]
  | last l hne hb => exact splitlines_last l hb hne
  | line l e ls t hb he hr _ ih =>
    have key : ∀ cur : Str, splitlinesAux (l ++ e ++ t) cur = (cur.reverse ++ l) :: splitlinesAux t [] := by
      clear ih
      induction l with
      | nil =>
        intro cur
        cases he with
        | unix =>
          simp only [List.nil_append, List.cons_append]
          rw [splitlinesAux_cons _ _ _ (by simp)]
          simp [show isLineBreak '\n' = true from rfl]
        | windows =>
          simp only [List.nil_append, List.cons_append]
          rw [splitlinesAux_crlf]; simp
        | mac =>
          simp only [List.nil_append, List.cons_append]
          rw [splitlinesAux_cons _ _ _ (by simpa using hr)]
          simp [show isLineBreak '\r' = true from rfl]
      | cons c l ih =>
        intro cur
        have hc := hb c (by simp)
        have hr' : c ≠ '\r' := by rintro rfl; simp [isLineBreak] at hc
        simp only [List.cons_append]
        rw [splitlinesAux_cons _ _ _ (by simp [hr']), hc]
        simp only [Bool.false_eq_true, if_false]
        rw [ih (fun c hc => hb c (by simp [hc]))]
        simp
    show splitlinesAux _ [] = _
    rw [key []]
    show l :: splitlines t = _
    rw [ih]

theorem sameLines_split {s t : Str} (h : SameLines s t) : splitlines s = splitlines t := by
  obtain ⟨ls, h1, h2⟩ := h
  rw [splitlines_written h1, splitlines_written h2]

theorem written_nil {ls : List Str} {t : Str} (h : WritesLines ls t) : t = [] ↔ ls = [] := by
  cases h with
  | none => simp
  | last l hne hb => simp [hne]
  | line l e ls t hb he hr _ =>
    cases he <;> simp

theorem sameLines_nil {s t : Str} (h : SameLines s t) : s = [] ↔ t = [] := by
  obtain ⟨ls, h1, h2⟩ := h
  rw [written_nil h1, written_nil h2]

theorem break_cases {c : Char} (h : isLineBreak c = true) : c = '\n' ∨ c = '\r' ∨ RareBreak c := by
  simp only [isLineBreak, Bool.or_eq_true, Bool.and_eq_true, decide_eq_true_eq, beq_iff_eq] at h
  by_cases h1 : c.toNat = 10
  · exact .inl (Char.toNat_inj.1 h1)
  by_cases h2 : c.toNat = 13
  · exact .inr (.inl (Char.toNat_inj.1 h2))
  right; right
  unfold RareBreak
  omega

theorem rare_break {c : Char} (h : RareBreak c) : isLineBreak c = true := by
  unfold RareBreak at h
  simp only [isLineBreak, Bool.or_eq_true, Bool.and_eq_true, decide_eq_true_eq, beq_iff_eq]
  omega

/-- prepending a character to a first line -/
theorem writes_cons {c : Char} {t : Str} {ls : List Str} (hc : isLineBreak c = false) (h : WritesLines ls t) :
    ∃ ls' : List Str, WritesLines ls' (c :: t) := by
  cases h with
  | none => exact ⟨[[c]], .last [c] (by simp) (by simpa using hc)⟩
  | last _ hne hb => exact ⟨[c :: t], .last (c :: t) (by simp) (by simpa [hc] using hb)⟩
  | line l e ls t hb he hr h =>
    exact ⟨(c :: l) :: ls, .line (c :: l) e ls t (by simpa [hc] using hb) he hr h⟩

/-- Every text without the rare line breaks consists of lines in this sense, and of only one list of lines. -/
theorem C115_lines (t : Str) :
    ((∀ c ∈ t, ¬ RareBreak c) → ∃ ls : List Str, WritesLines ls t) ∧
    (∀ ls ls' : List Str, WritesLines ls t → WritesLines ls' t → ls = ls') := by
  constructor
  · intro hr
    match t with
    | [] => exact ⟨[], .none⟩
    | [c] =>
      by_cases hb : isLineBreak c = true
      · rcases break_cases hb with rfl | rfl | h
        · exact ⟨[[]], .line [] ['\n'] [] [] (by simp) .unix (by simp) .none⟩
        · exact ⟨[[]], .line [] ['\r'] [] [] (by simp) .mac (by simp) .none⟩
        · exact absurd h (hr c (by simp))
      · exact ⟨[[c]], .last [c] (by simp) (by simpa using hb)⟩
    | c :: d :: t =>
      obtain ⟨ls, hls⟩ := (C115_lines (d :: t)).1 (fun x hx => hr x (by simp at hx ⊢; tauto))
      by_cases hb : isLineBreak c = true
      · rcases break_cases hb with rfl | rfl | h
        · exact ⟨[] :: ls, .line [] ['\n'] ls (d :: t) (by simp) .unix (by simp) hls⟩
        · by_cases hd : d = '\n'
          · subst hd
            obtain ⟨ls2, hls2⟩ := (C115_lines t).1 (fun x hx => hr x (by simp; tauto))
            exact ⟨[] :: ls2, .line [] ['\r', '\n'] ls2 t (by simp) .windows (by simp) hls2⟩
          · exact ⟨[] :: ls, .line [] ['\r'] ls (d :: t) (by simp) .mac (by simpa using hd) hls⟩
        · exact absurd h (hr c (by simp))
      · exact writes_cons (by simpa using hb) hls
  · intro ls ls' h h'
    rw [← splitlines_written h, ← splitlines_written h']
termination_by t.length

end lines

section
variable [U : Uni]

/-- The line endings of an .abif text do not matter. -/
theorem C115_abif (cw ar sc : Bool) (s t : Str) (h : SameLines s t) :
    convertAbif cw ar sc s = convertAbif cw ar sc t := by
  rw [convertAbif_eq, convertAbif_eq]
  unfold textLines
  rw [sameLines_split h]

/-- Nor do those of the other line-based formats. -/
theorem C115_formats (s t : Str) (h : SameLines s t) :
    nameqToJabmod s = nameqToJabmod t ∧ convertPreflib s = convertPreflib t ∧
    (∀ (sha : Str → Str) (md : List (Str × Str)), convertDebtally sha md s = convertDebtally sha md t) ∧
    (∀ (verbose : Bool) (s' t' : Str), SameLines s' t' → sfConvert verbose s s' = sfConvert verbose t t') := by
  have e := sameLines_split h
  refine ⟨?_, ?_, ?_, ?_⟩
  · unfold nameqToJabmod; rw [e]
  · unfold convertPreflib altNames prefRankings; rw [e]
  · intro sha md
    unfold convertDebtally debOptions; rw [e]
  · intro verbose s' t' h'
    unfold sfConvert readBlob
    simp only [e, sameLines_split h', sameLines_nil h']

theorem readFiles_same {env : CliEnv} {file : Str → Option Str}
    (hf : ∀ name : Str, Option.Rel SameLines (env.file name) (file name)) {stdin : Str} (fs : List Str) (x x' : Str)
    (bs bs' : List Str) (hx : SameLines x x') (hb : List.Forall₂ SameLines bs bs') :
    (∃ f : Str, readFiles env fs x bs = .error f ∧ readFiles { env with stdin := stdin, file := file } fs x' bs' = .error f) ∨
    (∃ (y y' : Str) (cs cs' : List Str), readFiles env fs x bs = .ok (y, cs) ∧
      readFiles { env with stdin := stdin, file := file } fs x' bs' = .ok (y', cs') ∧ SameLines y y' ∧
      List.Forall₂ SameLines cs cs') := by
  induction fs generalizing x x' bs bs' with
  | nil => exact .inr ⟨x, x', bs, bs', rfl, rfl, hx, hb⟩
  | cons f fs ih =>
    have hff := hf f
    unfold readFiles
    simp only
    generalize env.file f = o at hff
    generalize file f = o' at hff
    cases hff with
    | none => exact .inl ⟨f, rfl, rfl⟩
    | some h => exact ih _ _ _ _ h (List.rel_append hb (.cons h .nil))

/-- The command line tool does not depend on line endings either: standard input and the files may be rewritten with
other line endings, for every input format that is not JSON, and whatever the other arguments. -/
theorem C115_cli (env : CliEnv) (a : CliArgs) (stdin : Str) (file : Str → Option Str)
    (hs : SameLines env.stdin stdin) (hf : ∀ name : Str, Option.Rel SameLines (env.file name) (file name))
    (hj : cliFormat a ≠ .ok c!"jabmod" ∧ cliFormat a ≠ .ok c!"widj") :
    cliMain env a = cliMain { env with stdin := stdin, file := file } a := by
  have hout : ∀ m : Jabmod, cliOutput { env with stdin := stdin, file := file } a m = cliOutput env a m := fun m => rfl
  unfold cliMain
  cases hfmt : cliFormat a with
  | error e => rfl
  | ok fmt =>
    simp only
    split
    · rfl
    rw [hfmt] at hj
    have hmodel : ∀ (y y' : Str) (cs cs' : List Str), SameLines y y' → List.Forall₂ SameLines cs cs' →
        cliModel { env with stdin := stdin, file := file } a fmt y' cs' = cliModel env a fmt y cs := by
      intro y y' cs cs' h hc
      unfold cliModel
      have e := C115_formats y y' h
      rw [C115_abif _ _ _ _ _ h, e.1, e.2.1, e.2.2.1]
      have h1 : ¬ fmt = c!"jabmod" := fun hx => hj.1 (by rw [hx])
      have h2 : ¬ fmt = c!"widj" := fun hx => hj.2 (by rw [hx])
      simp only [h1, h2, if_false]
      cases hc with
      | nil => rfl
      | cons g1 hc =>
        cases hc with
        | nil => rfl
        | cons g2 _ => simp only [(C115_formats _ _ g1).2.2.2 false _ _ g2]
    have hin : (∃ f : Str, cliInput env a = .error f ∧ cliInput { env with stdin := stdin, file := file } a = .error f) ∨
        (∃ (y y' : Str) (cs cs' : List Str), cliInput env a = .ok (y, cs) ∧
          cliInput { env with stdin := stdin, file := file } a = .ok (y', cs') ∧ SameLines y y' ∧
          List.Forall₂ SameLines cs cs') := by
      unfold cliInput
      split
      · exact .inr ⟨_, _, _, _, rfl, rfl, hs, .nil⟩
      · exact readFiles_same hf _ _ _ _ _ ⟨[], .none, .none⟩ .nil
    rcases hin with ⟨f, h1, h2⟩ | ⟨y, y', cs, cs', h1, h2, h3, h4⟩
    · rw [h1, h2]
    · rw [h1, h2]
      simp only
      rw [hmodel y y' cs cs' h3 h4]
      simp only [hout]

theorem processPlain_congr {sc : Bool} {ls ls' : List Str}
    (h : List.Forall₂ (fun l l' => hashComment l = hashComment l' ∧ ∀ m : Jabmod, lineEffect l m = lineEffect l' m) ls ls')
    (i : Nat) (m : Jabmod) : processPlain sc i ls m = processPlain sc i ls' m := by
  induction h generalizing i m with
  | nil => rfl
  | cons h _ ih =>
    unfold processPlain
    rw [h.1]
    congr 1
    funext m
    rw [h.2]
    congr 1
    funext m
    exact ih _ _

theorem lineEffect_comment (l : Str) (h : l = [] ∨ l.head? = some '#') (m : Jabmod) : lineEffect l m = .ok m := by
  have hb : beforeHash l = [] := by
    unfold beforeHash
    rcases h with rfl | h
    · rfl
    · cases l with
      | nil => rfl
      | cons c t => simp at h; subst h; rfl
  have hm : matchMeta [] = none := by
    cases h : matchMeta [] with
    | none => rfl
    | some r => obtain ⟨t, ht⟩ := matchMeta_head h; simp at ht
  unfold lineEffect
  rw [hb, hm]
  rfl

theorem lineEffect_stray {c : Char} {l : Str} (hd : isDigit c = false) (he : c ≠ '=') (hm : c ≠ '{') (hh : c ≠ '#')
    (m : Jabmod) : lineEffect (c :: l) m = .ok m := by
  have hb : beforeHash (c :: l) = c :: beforeHash l := by
    unfold beforeHash; rw [List.takeWhile_cons_of_pos (by simpa using hh)]
  have h1 : readCand (c :: beforeHash l) = none := by
    unfold readCand
    split
    · rename_i t heq
      injection heq with h1 _
      exact absurd h1 he
    · rfl
  have h2 : matchMeta (c :: beforeHash l) = none := by
    cases h : matchMeta (c :: beforeHash l) with
    | none => rfl
    | some r =>
      obtain ⟨t, ht⟩ := matchMeta_head h
      injection ht with h1 _
      exact absurd h1 hm
  have h3 : readVote (c :: beforeHash l) = none := by
    unfold readVote
    rw [List.dropWhile_cons_of_neg (by simp [hd]), List.takeWhile_cons_of_neg (by simp [hd])]
    split <;> rfl
  unfold lineEffect
  rw [hb, h1, h2, h3]

/-- A line that begins with a character that is not a digit, `=`, `{`, `#` or a blank counts for its comment only: what
stands before its first `#` might as well be left out.  This is so for the byte order mark some editors put at the
beginning of a file (`C115_bom`): the first line is lost. -/
theorem C115_stray (cw ar sc : Bool) (before after : List Str) (c : Char) (l text text' : Str)
    (hd : isDigit c = false) (he : c ≠ '=') (hm : c ≠ '{') (hh : c ≠ '#') (hsp : isSpace c = false)
    (ht : WritesLines (before ++ (c :: l) :: after) text)
    (ht' : WritesLines (before ++ l.dropWhile (fun d => d != '#') :: after) text') :
    convertAbif cw ar sc text = convertAbif cw ar sc text' := by
  rw [convertAbif_eq, convertAbif_eq]
  unfold textLines
  rw [splitlines_written ht, splitlines_written ht']
  simp only [List.map_append, List.map_cons]
  congr 1
  apply processPlain_congr
  have hrefl : ∀ ls : List Str, List.Forall₂ (fun l l' => hashComment l = hashComment l' ∧
      ∀ m : Jabmod, lineEffect l m = lineEffect l' m) ls ls := by
    intro ls
    exact List.forall₂_same.2 (fun _ _ => ⟨rfl, fun _ => rfl⟩)
  refine List.rel_append (hrefl _) (.cons ?_ (hrefl _))
  have e1 : (if cw then lstrip (c :: l) else c :: l) = c :: l := by
    split
    · unfold lstrip; rw [List.dropWhile_cons_of_neg (by simp [hsp])]
    · rfl
  have hhead : l.dropWhile (fun d => d != '#') = [] ∨ (l.dropWhile (fun d => d != '#')).head? = some '#' := by
    cases hx : l.dropWhile (fun d => d != '#') with
    | nil => exact .inl rfl
    | cons d t =>
      right
      have := List.head?_dropWhile_not (fun d => d != '#') l
      rw [hx] at this
      simp only [List.head?_cons] at this
      simpa using this
  have e2 : (if cw then lstrip (l.dropWhile (fun d => d != '#')) else l.dropWhile (fun d => d != '#')) =
      l.dropWhile (fun d => d != '#') := by
    split
    · rcases hhead with h | h
      · rw [h]; rfl
      · cases hx : l.dropWhile (fun d => d != '#') with
        | nil => rfl
        | cons d t =>
          rw [hx] at h
          simp at h; subst h
          rfl
    · rfl
  rw [e1, e2]
  refine ⟨?_, fun m => ?_⟩
  · unfold hashComment
    have hd2 : ∀ s : Str, '#' ∈ s ↔ '#' ∈ s.dropWhile (fun d => d != '#') := by
      intro s
      constructor
      · intro h
        induction s with
        | nil => simp at h
        | cons d s ih =>
          by_cases hx : d = '#'
          · subst hx; simp
          · rw [List.dropWhile_cons_of_pos (by simpa using hx)]
            exact ih (by simpa [Ne.symm hx, eq_comm, hx] using h)
      · intro h; exact (List.dropWhile_sublist _).mem h
    have h1 : ('#' ∈ c :: l) ↔ '#' ∈ l.dropWhile (fun d => d != '#') := by
      rw [List.mem_cons, ← hd2 l]
      constructor
      · rintro (h | h)
        · exact absurd h.symm hh
        · exact h
      · exact .inr
    by_cases hx : '#' ∈ l.dropWhile (fun d => d != '#')
    · rw [if_pos (h1.2 hx), if_pos hx, List.dropWhile_cons_of_pos (by simpa using hh)]
      congr 1
      rcases hhead with h | h
      · rw [h] at hx; simp at hx
      · cases hy : l.dropWhile (fun d => d != '#') with
        | nil => rfl
        | cons d t =>
          rw [hy] at h
          simp at h; subst h
          rfl
    · rw [if_neg (fun h => hx (h1.1 h)), if_neg hx]
  · rw [lineEffect_stray hd he hm hh, lineEffect_comment _ hhead]

/-- A byte order mark before the text: the first line is read without what stands before its first `#`. -/
theorem C115_bom (cw ar sc : Bool) (first : Str) (rest : List Str) (text text' : Str) (hd : isDigit '\uFEFF' = false)
    (ht : WritesLines (first :: rest) text) (ht' : WritesLines (first.dropWhile (fun d => d != '#') :: rest) text') :
    convertAbif cw ar sc ('\uFEFF' :: text) = convertAbif cw ar sc text' := by
  have hb : isLineBreak '\uFEFF' = false := by decide
  have h : WritesLines (('\uFEFF' :: first) :: rest) ('\uFEFF' :: text) := by
    cases ht with
    | last _ hne hnb => exact .last _ (by simp) (by simpa [hb] using hnb)
    | line l e ls t hnb he hr h => exact .line ('\uFEFF' :: first) e rest t (by simpa [hb] using hnb) he hr h
  exact C115_stray cw ar sc [] rest '\uFEFF' first _ _ hd (by decide) (by decide) (by decide) (by decide) h ht'

end

section examples
attribute [local instance] Uni.ascii
set_option maxRecDepth 20000

/-- three votelines, written in Windows style and in Unix style without the last line end -/
example : SameLines c!"3:A>B\r\n\r\n2:B\r\n" c!"3:A>B\n\n2:B" :=
  ⟨[c!"3:A>B", [], c!"2:B"],
    .line c!"3:A>B" _ _ c!"\r\n2:B\r\n" (by decide) .windows (by decide)
      (.line [] _ _ c!"2:B\r\n" (by decide) .windows (by decide) (.line c!"2:B" _ _ [] (by decide) .windows (by decide) .none)),
    .line c!"3:A>B" _ _ c!"\n2:B" (by decide) .unix (by decide)
      (.line [] _ _ c!"2:B" (by decide) .unix (by decide) (.last c!"2:B" (by decide) (by decide)))⟩

/-- The number of ballots read from a text and from the same text with a byte order mark before it. -/
theorem C115_bom_refuted : ∃ text : Str,
    (∃ m : Jabmod, convertAbif false false false text = .ok m ∧ (m.votelines.map Voteline.qty).sum = 5) ∧
    (∃ m : Jabmod, convertAbif false false false ('\uFEFF' :: text) = .ok m ∧ (m.votelines.map Voteline.qty).sum = 2) := by
  refine ⟨c!"3:A>B\n2:B>A\n", ?_, ?_⟩
  · have h : (match convertAbif false false false c!"3:A>B\n2:B>A\n" with
      | .ok m => decide ((m.votelines.map Voteline.qty).sum = 5) | .error _ => false) = true := by decide +kernel
    revert h
    cases convertAbif false false false c!"3:A>B\n2:B>A\n" with
    | error e => intro h; cases h
    | ok m => intro h; exact ⟨m, rfl, by simpa using h⟩
  · have h : (match convertAbif false false false ('\uFEFF' :: c!"3:A>B\n2:B>A\n") with
      | .ok m => decide ((m.votelines.map Voteline.qty).sum = 2) | .error _ => false) = true := by decide +kernel
    revert h
    cases convertAbif false false false ('\uFEFF' :: c!"3:A>B\n2:B>A\n") with
    | error e => intro h; cases h
    | ok m => intro h; exact ⟨m, rfl, by simpa using h⟩

end examples
end Verif.Props
