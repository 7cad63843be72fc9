/-
C125 on the command line: the papers of two precincts, one after the other.
-/
import Verif.Props.PaperText
import Mathlib.Tactic.Linarith

set_option linter.unusedSimpArgs false
set_option linter.unusedSectionVars false

namespace Verif.Props
open Spec

section
variable [U : Uni]

/-- two papers one after the other are written as the one text after the other -/
theorem paperText_append (p q : List PaperLine) : paperText (p ++ q) = paperText p ++ paperText q := by
  unfold paperText; rw [List.flatMap_append]

theorem paperOk_append {p q : List PaperLine} (hp : PaperOk p) (hq : PaperOk q) : PaperOk (p ++ q) := by
  refine ⟨fun l hl => (List.mem_append.1 hl).elim (hp.1 l) (hq.1 l), ?_⟩
  obtain ⟨n, b, com, h⟩ := hp.2
  exact ⟨n, b, com, List.mem_append.2 (.inl h)⟩

theorem paperVotes_append (p q : List PaperLine) : paperVotes (p ++ q) = paperVotes p ++ paperVotes q := by
  unfold paperVotes; rw [List.filterMap_append]

theorem paperSum_append (p q : List PaperLine) (f : Ballot → Bool) : paperSum (p ++ q) f = paperSum p f + paperSum q f := by
  unfold paperSum; rw [paperVotes_append, List.filter_append, List.map_append, List.sum_append]

theorem paperCount_append (p q : List PaperLine) : paperCount (p ++ q) = paperCount p + paperCount q := by
  unfold paperCount; rw [paperVotes_append, List.map_append, List.sum_append]

theorem paperPoints_append (p q : List PaperLine) (x : Str) : paperPoints (p ++ q) x = paperPoints p x + paperPoints q x := by
  unfold paperPoints; rw [paperVotes_append, List.map_append, List.sum_append]

theorem mem_paperCands_append (p q : List PaperLine) (x : Str) : x ∈ paperCands (p ++ q) ↔ x ∈ paperCands p ∨ x ∈ paperCands q := by
  unfold paperCands; rw [mem_firsts, mem_firsts, mem_firsts, List.flatMap_append, List.mem_append]

theorem nodup_paperCands (p : List PaperLine) : (paperCands p).Nodup := nodup_firsts _

theorem paperCands_append_length (p q : List PaperLine) : (paperCands p).length ≤ (paperCands (p ++ q)).length := by
  exact (List.subperm_of_subset (nodup_paperCands p) (fun x hx => (mem_paperCands_append p q x).2 (.inl hx))).length_le

theorem paperStrict_append {p q : List PaperLine} (hp : PaperStrict p) (hq : PaperStrict q) : PaperStrict (p ++ q) := by
  intro v hv
  rw [paperVotes_append, List.mem_append] at hv
  exact hv.elim (hp v) (hq v)

/-- C125, head-to-head counts.  The cells that `-t paircountjson` prints for two files, read one after the other, are the sums of
the cells it prints for each of them. -/
theorem C125_cli_pairs (env1 env2 env : CliEnv) (p q : List PaperLine) (file1 file2 file : Str) (hp : PaperOk p) (hq : PaperOk q)
    (hl : (paperText p ++ paperText q).length < 2 ^ 61) (hf1 : PlainWord file1) (hf2 : PlainWord file2) (hf : PlainWord file)
    (hh1 : Holds env1 file1 (paperText p)) (hh2 : Holds env2 file2 (paperText q)) (hh : Holds env file (paperText p ++ paperText q)) :
    ∃ doc1 doc2 doc, CommandPrints env1 (command c!"paircountjson" [] file1) doc1 ∧ CommandPrints env2 (command c!"paircountjson" [] file2) doc2 ∧
      CommandPrints env (command c!"paircountjson" [] file) doc ∧ (∀ x, x ∈ keysOf doc ↔ x ∈ keysOf doc1 ∨ x ∈ keysOf doc2) ∧
      ∀ x y, x ∈ keysOf doc1 → x ∈ keysOf doc2 → y ∈ keysOf doc1 → y ∈ keysOf doc2 → x ≠ y →
        ∃ a b : Nat, valueAt doc1 [.key x, .key y] = some (.int a) ∧ valueAt doc2 [.key x, .key y] = some (.int b) ∧
          valueAt doc [.key x, .key y] = some (.int (a + b)) := by
  have hlp : (paperText p).length < 2 ^ 61 := by rw [List.length_append] at hl; omega
  have hlq : (paperText q).length < 2 ^ 61 := by rw [List.length_append] at hl; omega
  rw [← paperText_append] at hl hh
  obtain ⟨d1, a1, a2, a3⟩ := C103_pairs env1 p file1 hp hlp hf1 hh1
  obtain ⟨d2, b1, b2, b3⟩ := C103_pairs env2 q file2 hq hlq hf2 hh2
  obtain ⟨d, c1, c2, c3⟩ := C103_pairs env (p ++ q) file (paperOk_append hp hq) hl hf hh
  refine ⟨d1, d2, d, a1, b1, c1, fun x => by rw [c2, a2, b2]; exact mem_paperCands_append p q x, ?_⟩
  rw [a2, b2]
  intro x y hx1 hx2 hy1 hy2 hne
  refine ⟨paperPrefers p x y, paperPrefers q x y, ?_, ?_, ?_⟩
  · rw [a3 x hx1 y hy1, if_neg hne]
  · rw [b3 x hx2 y hy2, if_neg hne]
  · rw [c3 x ((mem_paperCands_append p q x).2 (.inl hx1)) y ((mem_paperCands_append p q y).2 (.inl hy1)), if_neg hne]
    unfold paperPrefers
    rw [paperSum_append]
    norm_cast

/-- C125, scores.  The points and the number of voters that `-t json -m STAR` prints for two files, read one after the other, are
the sums of those it prints for each of them. -/
theorem C125_cli_scores (env1 env2 env : CliEnv) (p q : List PaperLine) (file1 file2 file : Str) (hp : PaperOk p) (hq : PaperOk q)
    (hl : (paperText p ++ paperText q).length < 2 ^ 61) (hf1 : PlainWord file1) (hf2 : PlainWord file2) (hf : PlainWord file)
    (hh1 : Holds env1 file1 (paperText p)) (hh2 : Holds env2 file2 (paperText q)) (hh : Holds env file (paperText p ++ paperText q))
    (hn1 : 2 ≤ (paperCands p).length) (hn2 : 2 ≤ (paperCands q).length) :
    ∃ doc1 doc2 doc, CommandPrints env1 (command c!"json" [c!"STAR"] file1) doc1 ∧ CommandPrints env2 (command c!"json" [c!"STAR"] file2) doc2 ∧
      CommandPrints env (command c!"json" [c!"STAR"] file) doc ∧
      (∃ v w : Nat, member c!"totalvoters" doc1 = some (.int v) ∧ member c!"totalvoters" doc2 = some (.int w) ∧
        member c!"totalvoters" doc = some (.int (v + w))) ∧
      ∀ x, x ∈ paperCands p → x ∈ paperCands q → ∃ a b : Int, valueAt doc1 [.key c!"scores", .key x, .key c!"score"] = some (.int a) ∧
        valueAt doc2 [.key c!"scores", .key x, .key c!"score"] = some (.int b) ∧
        valueAt doc [.key c!"scores", .key x, .key c!"score"] = some (.int (a + b)) := by
  have hlp : (paperText p).length < 2 ^ 61 := by rw [List.length_append] at hl; omega
  have hlq : (paperText q).length < 2 ^ 61 := by rw [List.length_append] at hl; omega
  rw [← paperText_append] at hl hh
  obtain ⟨d1, _, _, _, a1, _, _, a2, a3, _⟩ := C103_star env1 p file1 hp hlp hf1 hh1 hn1
  obtain ⟨d2, _, _, _, b1, _, _, b2, b3, _⟩ := C103_star env2 q file2 hq hlq hf2 hh2 hn2
  obtain ⟨d, _, _, _, c1, _, _, c2, c3, _⟩ := C103_star env (p ++ q) file (paperOk_append hp hq) hl hf hh
    (Nat.le_trans hn1 (paperCands_append_length p q))
  refine ⟨d1, d2, d, a1, b1, c1, ⟨paperCount p, paperCount q, a3, b3, by rw [c3, paperCount_append]; norm_cast⟩, ?_⟩
  intro x hx1 hx2
  refine ⟨paperPoints p x, paperPoints q x, a2 x hx1, b2 x hx2, ?_⟩
  rw [c2 x ((mem_paperCands_append p q x).2 (.inl hx1)), paperPoints_append]

theorem favours_same {C D : List Str} (h : ∀ x, x ∈ C ↔ x ∈ D) (b : Ballot) (x : Str) : b.favours C x = b.favours D x := by
  unfold Ballot.favours
  have e : C.all (fun y => decide (y = x) || b.above x y) = D.all (fun y => decide (y = x) || b.above x y) := by
    rw [Bool.eq_iff_iff, List.all_eq_true, List.all_eq_true]
    exact ⟨fun g y hy => g y ((h y).2 hy), fun g y hy => g y ((h y).1 hy)⟩
  rw [e, decide_eq_decide.2 (h x)]

theorem paperTop_same {C D : List Str} (h : ∀ x, x ∈ C ↔ x ∈ D) (p : List PaperLine) (x : Str) : paperTop p C x = paperTop p D x := by
  unfold paperTop
  rw [show (fun b : Ballot => b.favours C x) = fun b => b.favours D x from funext (fun b => favours_same h b x)]

theorem tops_same {C D : List Str} (hc : C.Nodup) (hd : D.Nodup) (h : ∀ x, x ∈ C ↔ x ∈ D) (p : List PaperLine) :
    (C.map (paperTop p C)).sum = (D.map (paperTop p D)).sum := by
  rw [show paperTop p C = paperTop p D from funext (paperTop_same h p)]
  exact (((List.perm_ext_iff_of_nodup hc hd).2 h).map _).sum_nat

/-- C125, majorities.  When no ballot has two candidates on a par and in each of two files with the same candidates more than half of
the ballots that name anybody have `w` first, then `-t irvjson` prints one round and `w` as the only winner for the two files
read one after the other. -/
theorem C125_cli_majority (env : CliEnv) (p q : List PaperLine) (file : Str) (hp : PaperOk p) (hq : PaperOk q)
    (hl : (paperText p ++ paperText q).length < 4999999998) (hf : PlainWord file) (hh : Holds env file (paperText p ++ paperText q))
    (hsp : PaperStrict p) (hsq : PaperStrict q) (hnil : [] ∉ paperCands p) (hc : ∀ x, x ∈ paperCands p ↔ x ∈ paperCands q)
    (w : Str) (hw : w ∈ paperCands p)
    (hmp : ((paperCands p).map (paperTop p (paperCands p))).sum < 2 * paperTop p (paperCands p) w)
    (hmq : ((paperCands q).map (paperTop q (paperCands q))).sum < 2 * paperTop q (paperCands q) w) :
    ∃ doc, CommandPrints env (command c!"irvjson" [] file) doc ∧ member c!"winner" doc = some (texts [w]) ∧
      valueAt doc [.key c!"rounds", .idx 1] = none := by
  rw [← paperText_append] at hl hh
  have hcp : ∀ x, x ∈ paperCands (p ++ q) ↔ x ∈ paperCands p := fun x => by rw [mem_paperCands_append, ← hc, or_self]
  have hcq : ∀ x, x ∈ paperCands (p ++ q) ↔ x ∈ paperCands q := fun x => (hcp x).trans (hc x)
  have hadd : ∀ x, paperTop (p ++ q) (paperCands (p ++ q)) x = paperTop p (paperCands (p ++ q)) x + paperTop q (paperCands (p ++ q)) x :=
    fun x => paperSum_append p q _
  refine C103_majority env (p ++ q) file (paperOk_append hp hq) hl hf hh (paperStrict_append hsp hsq) (fun h => hnil ((hcp _).1 h)) w
    ((hcp w).2 hw) ?_
  rw [← tops_same (nodup_paperCands _) (nodup_paperCands _) hcp p, ← paperTop_same hcp p] at hmp
  rw [← tops_same (nodup_paperCands _) (nodup_paperCands _) hcq q, ← paperTop_same hcq q] at hmq
  rw [hadd w]
  have hsum : ∀ l : List Str, (l.map (paperTop (p ++ q) (paperCands (p ++ q)))).sum =
      (l.map (paperTop p (paperCands (p ++ q)))).sum + (l.map (paperTop q (paperCands (p ++ q)))).sum := by
    intro l
    induction l with
    | nil => rfl
    | cons a l ih => simp only [List.map_cons, List.sum_cons, ih, hadd]; omega
  rw [hsum]
  omega

/-- C125, Condorcet winners.  A candidate who beats every other in each of two files with the same candidates is the one that
`-t text -m Copeland` prints for the two files read one after the other. -/
theorem C125_cli_condorcet (env : CliEnv) (p q : List PaperLine) (file : Str) (hp : PaperOk p) (hq : PaperOk q)
    (hl : (paperText p ++ paperText q).length < 2 ^ 61) (hf : PlainWord file) (hh : Holds env file (paperText p ++ paperText q))
    (hc : ∀ x, x ∈ paperCands p ↔ x ∈ paperCands q) (w : Str) (hw : w ∈ paperCands p)
    (hwp : ∀ y ∈ paperCands p, y ≠ w → paperPrefers p y w < paperPrefers p w y)
    (hwq : ∀ y ∈ paperCands q, y ≠ w → paperPrefers q y w < paperPrefers q w y) :
    CommandWrites env (textCommand c!"Copeland" file)
      (c!"Copeland Winner: " ++ paperName (p ++ q) w ++ c!" (score: " ++ natStr ((paperCands p).length - 1) ++ c!".0)\n") := by
  rw [← paperText_append] at hl hh
  have hcp : ∀ x, x ∈ paperCands (p ++ q) ↔ x ∈ paperCands p := fun x => by rw [mem_paperCands_append, ← hc, or_self]
  have := C103_condorcet env (p ++ q) file (paperOk_append hp hq) hl hf hh w ((hcp w).2 hw) (fun y hy hne => by
    unfold paperPrefers
    rw [paperSum_append, paperSum_append]
    have h1 := hwp y ((hcp y).1 hy) hne
    have h2 := hwq y ((hc y).1 ((hcp y).1 hy)) hne
    unfold paperPrefers at h1 h2
    omega)
  rwa [((List.perm_ext_iff_of_nodup (nodup_paperCands _) (nodup_paperCands _)).2 hcp).length_eq] at this

end

section
attribute [local instance] Uni.ascii
set_option maxRecDepth 40000

/-- a second precinct for the paper of Props/Paper -/
def secondPaper : List PaperLine := [.ballots 4 (.ranked [[{ tok := c!"A" }], [{ tok := c!"B" }]]) none, .cand c!"A" c!"Anna"]

theorem secondPaper_ok : PaperOk secondPaper := by
  have clean : CleanToken c!"A" ∧ CleanToken c!"B" := by unfold CleanToken; decide +kernel
  have noslash : ∀ x : Char, x ≠ '/' → ¬ ∃ t ds, [x] = t ++ '/' :: ds ∧ ds ≠ [] ∧ ∀ c ∈ ds, isDigit c = true := by
    rintro x hx ⟨t, ds, e, hne, _⟩
    cases t with
    | nil => exact hx (List.cons.inj e).1
    | cons a t => have := congrArg List.length e; simp at this
  refine ⟨?_, 4, .ranked [[{ tok := c!"A" }], [{ tok := c!"B" }]], none, by simp [secondPaper]⟩
  intro l hl
  simp only [secondPaper, List.mem_cons, List.not_mem_nil, or_false] at hl
  rcases hl with rfl | rfl
  · refine ⟨⟨?_, by decide +kernel, fun ts h => (by cases h; decide), fun its h => (by cases h)⟩, fun t h => (by cases h)⟩
    intro it hit
    simp only [Ballot.items, List.flatten_cons, List.flatten_nil, List.cons_append, List.nil_append, List.mem_cons, List.not_mem_nil, or_false] at hit
    rcases hit with rfl | rfl
    · exact ⟨⟨by decide +kernel, by decide +kernel, fun ds h => (by cases h), clean.1, by decide +kernel, fun _ => noslash 'A' (by decide)⟩, by decide +kernel⟩
    · exact ⟨⟨by decide +kernel, by decide +kernel, fun ds h => (by cases h), clean.2, by decide +kernel, fun _ => noslash 'B' (by decide)⟩, by decide +kernel⟩
  · exact ⟨⟨by decide, by decide +kernel, by decide +kernel, noslash 'A' (by decide)⟩, by decide +kernel⟩

/-- the theorems above apply to the paper of Props/Paper and this one -/
example : (∀ x, x ∈ paperCands exPaper ↔ x ∈ paperCands secondPaper) ∧
    (∀ y ∈ paperCands exPaper, y ≠ c!"A" → paperPrefers exPaper y c!"A" < paperPrefers exPaper c!"A" y) ∧
    (∀ y ∈ paperCands secondPaper, y ≠ c!"A" → paperPrefers secondPaper y c!"A" < paperPrefers secondPaper c!"A" y) ∧
    paperCount (exPaper ++ secondPaper) = 9 ∧ paperName (exPaper ++ secondPaper) c!"A" = c!"Anna" := by
  refine ⟨?_, by decide +kernel⟩
  intro x
  rw [show paperCands exPaper = [c!"B", c!"A"] by decide +kernel, show paperCands secondPaper = [c!"A", c!"B"] by decide +kernel]
  simp only [List.mem_cons, List.not_mem_nil, or_false]
  exact or_comm

end

end Verif.Props
