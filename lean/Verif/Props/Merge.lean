/-
C83: several texts read as one.
-/
import Verif.Props.ParsedTally
import Verif.Props.IrvPairwise

set_option linter.unusedSimpArgs false
set_option linter.unusedSectionVars false

namespace Verif.Props
open Verif Spec

section
variable [U : Uni]

omit U in
theorem forall₂_mem_left {α β : Type} {R : α → β → Prop} {l : List α} {r : List β} (h : List.Forall₂ R l r) :
    ∀ a ∈ l, ∃ b ∈ r, R a b := by
  induction h with
  | nil => simp
  | cons hr _ ih =>
    intro a ha
    rcases List.mem_cons.1 ha with rfl | ha
    · exact ⟨_, by simp, hr⟩
    · obtain ⟨b, hb, hr⟩ := ih a ha
      exact ⟨b, by simp [hb], hr⟩

/-- reading lines succeeds if the preferences of every voteline can be read -/
theorem processPlain_total (i : Nat) (ls : List Str) (m : Jabmod) (n : Int) (hn : m.metadata.get? c!"ballotcount" = some (.int n))
    (h : ∀ v ∈ ls.filterMap Spec.lineVote, ∃ r, parsePrefstr v.2.1 = .ok r) :
    ∃ m', processPlain false i ls m = .ok m' := by
  induction ls generalizing i m n with
  | nil => exact ⟨m, rfl⟩
  | cons l ls ih =>
    have htail : ∀ v ∈ ls.filterMap Spec.lineVote, ∃ r, parsePrefstr v.2.1 = .ok r := by
      intro v hv
      refine h v ?_
      rw [List.filterMap_cons]
      split
      · exact hv
      · exact List.mem_cons_of_mem _ hv
    have step : ∃ m1 n1, lineEffect l m = .ok m1 ∧ Dict.get? m1.metadata c!"ballotcount" = some (.int n1) := by
      unfold lineEffect
      cases hc : readCand (beforeHash l) with
      | some td => exact ⟨_, n, rfl, hn⟩
      | none =>
        cases hm : matchMeta (beforeHash l) with
        | some kv =>
          refine ⟨_, n, rfl, ?_⟩
          simp only [processMeta]
          rw [Dict.get?_set_ne _ _ (by split <;> simp_all), hn]
        | none =>
          cases hv : readVote (beforeHash l) with
          | none => exact ⟨_, n, rfl, hn⟩
          | some qp =>
            obtain ⟨q, p⟩ := qp
            obtain ⟨⟨prefs, cands⟩, hp⟩ := h (q, p, hashComment l) (by
              rw [List.filterMap_cons]
              have : Spec.lineVote l = some (q, p, hashComment l) := by simp [Spec.lineVote, hv]
              rw [this]; simp)
            refine ⟨{ metadata := Dict.set m.metadata c!"ballotcount" (.int (n + digitsVal q)), candidates := mergeCands cands m.candidates,
                      votelines := m.votelines ++ [{ qty := digitsVal q, prefs := prefs, comment := hashComment l, prefstr := some (rstrip p), voterid := (hashComment l).bind matchVid }] },
              n + digitsVal q, ?_, ?_⟩
            · simp only [processPrefline, bumpBallotcount, hn, ok_bind, hp]
            · exact Dict.get?_set_self _ _ _
    obtain ⟨m1, n1, e1, e2⟩ := step
    obtain ⟨m2, e3⟩ := ih (i + 1) m1 n1 e2 htail
    refine ⟨m2, ?_⟩
    simp only [processPlain, processComment_false, ok_bind, e1, e3]

/-- C09.  A text is accepted exactly if it has votelines and the preferences of all of them can be read. -/
theorem C09_accepted (cw ar : Bool) (text : Str) :
    (∃ m, convertAbif cw ar false text = .ok m) ↔
      votesOf cw text ≠ [] ∧ ∀ v ∈ votesOf cw text, ∃ r, parsePrefstr v.2.1 = .ok r := by
  have base : (∃ m, convertAbif cw false false text = .ok m) ↔
      votesOf cw text ≠ [] ∧ ∀ v ∈ votesOf cw text, ∃ r, parsePrefstr v.2.1 = .ok r := by
    constructor
    · rintro ⟨m, h⟩
      obtain ⟨vls, f1, f2, _⟩ := convertAbif_ok h
      constructor
      · intro h0
        rw [h0] at f1
        cases f1
        exact f2 rfl
      · intro v hv
        obtain ⟨vl, _, hs⟩ := forall₂_mem_left f1 v hv
        obtain ⟨c, hc⟩ := hs.2.1
        exact ⟨_, hc⟩
    · rintro ⟨h1, h2⟩
      obtain ⟨m, hm⟩ := processPlain_total 0 (textLines cw text) emptyishJabmod 0 rfl h2
      obtain ⟨vls, f1, f2, _⟩ := processPlain_ok hm 0 rfl
      rw [convertAbif_eq, hm, ok_bind]
      unfold finish
      have : m.votelines ≠ [] := by
        rw [f2]
        intro h0
        have h0 : vls = [] := (List.append_eq_nil_iff.1 h0).2
        subst h0
        cases hf : List.filterMap Spec.lineVote (textLines cw text) with
        | nil => exact h1 hf
        | cons a b => rw [hf] at f1; cases f1
      rw [if_neg this]
      exact ⟨_, rfl⟩
  cases ar with
  | false => exact base
  | true =>
    rw [← base]
    simp only [convertAbif_rated]
    constructor
    · rintro ⟨m, h⟩
      obtain ⟨m0, h0, _⟩ := bind_ok.1 h
      exact ⟨m0, h0⟩
    · rintro ⟨m, h⟩
      rw [h]
      exact ⟨_, rfl⟩

omit U in
theorem textLines_merge (cw : Bool) (t1 t2 : Str) : textLines cw (t1 ++ '\n' :: t2) = textLines cw (t1 ++ ['\n']) ++ textLines cw t2 := by
  unfold textLines
  rw [splitlines_append_newline, List.map_append]

omit U in
theorem declared_append (a b : List Str) (tok : Str) : declared (a ++ b) tok = (declared b tok).or (declared a tok) := by
  unfold declared
  rw [List.filterMap_append, List.filter_append, List.getLast?_append]
  cases (List.filter (fun td : Str × Str => decide (td.1 = tok)) (List.filterMap (fun l => readCand (beforeHash l)) b)).getLast? <;> rfl

omit U in
theorem sort_append_filter {α : Type} (key : α → Int) (a b : List α) (q : Int) :
    (sortByKeyDesc key (a ++ b)).filter (fun v => decide (key v = q)) =
      (sortByKeyDesc key a ++ sortByKeyDesc key b).filter (fun v => decide (key v = q)) := by
  rw [sortByKeyDesc_stable, List.filter_append, List.filter_append, sortByKeyDesc_stable, sortByKeyDesc_stable]

/-- what a line says is one voteline -/
theorem says_unique {l : List (Str × Str × Option Str)} {r r' : List Voteline} (h : List.Forall₂ SaysBallot l r)
    (h' : List.Forall₂ SaysBallot l r') : r = r' := by
  induction h generalizing r' with
  | nil => cases h'; rfl
  | @cons a b l r hab _ ih =>
    cases h' with
    | @cons _ b' _ r'' hab' ht =>
      rw [ih ht]
      congr 1
      obtain ⟨a1, ⟨c, a2⟩, a3, a4, a5, a6⟩ := hab
      obtain ⟨b1, ⟨c', b2⟩, b3, b4, b5, b6⟩ := hab'
      rw [a2] at b2
      cases b
      cases b'
      simp_all

theorem declared_mentioned {ls : List Str} {tok d : Str} (h : declared ls tok = some d) : tok ∈ ls.flatMap lineMentions := by
  unfold declared at h
  obtain ⟨td, hl, rfl⟩ := Option.map_eq_some_iff.1 h
  have := List.mem_of_getLast? hl
  rw [List.mem_filter, List.mem_filterMap] at this
  obtain ⟨⟨l, hl, hc⟩, ht⟩ := this
  refine List.mem_flatMap.2 ⟨l, hl, ?_⟩
  unfold lineMentions
  rw [hc]
  obtain ⟨t, d⟩ := td
  simpa using (of_decide_eq_true ht).symm

/-- C83.  Two texts, each of which is accepted, are accepted as one text (the first one ending in a newline).  The votelines are
those of the first and then those of the second, sorted by quantity; the candidates are those of the first and then the new
ones of the second; a name is the one declared in the second text if there is one, else the one in the first; the
ballot counts add up. -/
theorem C83_merge (cw : Bool) (t1 t2 : Str) (m1 m2 : Jabmod) (h1 : convertAbif cw false false (t1 ++ ['\n']) = .ok m1)
    (h2 : convertAbif cw false false t2 = .ok m2) :
    ∃ m, convertAbif cw false false (t1 ++ '\n' :: t2) = .ok m ∧
      StableSortedDesc (m1.votelines ++ m2.votelines) m.votelines ∧
      Dict.keys m.candidates = firsts (Dict.keys m1.candidates ++ Dict.keys m2.candidates) ∧
      (∀ tok, Dict.get? m.candidates tok = match declared (textLines cw t2) tok with
        | some d => some (some d)
        | none => (Dict.get? m1.candidates tok).or (Dict.get? m2.candidates tok)) ∧
      ∃ n1 n2 : Int, Dict.get? m1.metadata c!"ballotcount" = some (.int n1) ∧ Dict.get? m2.metadata c!"ballotcount" = some (.int n2) ∧
        Dict.get? m.metadata c!"ballotcount" = some (.int (n1 + n2)) := by
  have ok : ∃ m, convertAbif cw false false (t1 ++ '\n' :: t2) = .ok m := by
    have e1 := (C09_accepted cw false (t1 ++ ['\n'])).1 ⟨_, h1⟩
    have e2 := (C09_accepted cw false t2).1 ⟨_, h2⟩
    rw [C09_accepted]
    unfold votesOf
    rw [textLines_merge, List.filterMap_append]
    refine ⟨fun h => e1.1 (List.append_eq_nil_iff.1 h).1, fun v hv => ?_⟩
    rcases List.mem_append.1 hv with hv | hv
    · exact e1.2 v hv
    · exact e2.2 v hv
  obtain ⟨m, hm⟩ := ok
  obtain ⟨v1, f1, _, f2, f3, f4, f5, _⟩ := convertAbif_ok h1
  obtain ⟨v2, g1, _, g2, g3, g4, g5, _⟩ := convertAbif_ok h2
  obtain ⟨v, k1, _, k2, k3, k4, k5, _⟩ := convertAbif_ok hm
  have hv : v = v1 ++ v2 := by
    unfold votesOf at k1
    rw [textLines_merge, List.filterMap_append] at k1
    exact says_unique k1 (List.rel_append f1 g1)
  subst hv
  have hkeys : Dict.keys m.candidates = firsts (Dict.keys m1.candidates ++ Dict.keys m2.candidates) := by
    rw [k3, f3, g3, textLines_merge, List.flatMap_append, ← addKeys_nil, addKeys_append, addKeys_nil, ← addKeys_firsts _ (List.flatMap _ _),
      ← addKeys_nil (firsts _ ++ firsts _), addKeys_append, addKeys_nil, firsts_idem]
  refine ⟨m, hm, ⟨?_, ?_, ?_⟩, hkeys, ?_, _, _, f5, g5, ?_⟩
  · rw [k2, f2, g2]
    exact (sortByKeyDesc_perm _ _).trans ((sortByKeyDesc_perm _ _).symm.append (sortByKeyDesc_perm _ _).symm)
  · rw [k2]; exact sortByKeyDesc_sorted _ _
  · intro q
    rw [k2, f2, g2]
    exact sort_append_filter Voteline.qty v1 v2 q
  · intro tok
    by_cases ht : tok ∈ Dict.keys m.candidates
    · rw [k4 tok ht, textLines_merge, declared_append]
      cases hd : declared (textLines cw t2) tok with
      | some d => rfl
      | none =>
        simp only [Option.none_or]
        rw [hkeys, mem_firsts, List.mem_append] at ht
        by_cases h1 : tok ∈ Dict.keys m1.candidates
        · rw [f4 tok h1]; rfl
        · have h2 : tok ∈ Dict.keys m2.candidates := ht.resolve_left h1
          rw [Dict.get?_eq_none.2 h1, g4 tok h2, hd]
          have : declared (textLines cw (t1 ++ ['\n'])) tok = none := by
            cases hd1 : declared (textLines cw (t1 ++ ['\n'])) tok with
            | none => rfl
            | some d => exact absurd (f3 ▸ mem_firsts.2 (declared_mentioned hd1)) h1
          rw [this]; rfl
    · rw [Dict.get?_eq_none.2 ht]
      rw [hkeys, mem_firsts, List.mem_append, not_or] at ht
      rw [Dict.get?_eq_none.2 ht.1, Dict.get?_eq_none.2 ht.2]
      cases hd : declared (textLines cw t2) tok with
      | none => rfl
      | some d => exact absurd (g3 ▸ mem_firsts.2 (declared_mentioned hd)) ht.2
  · rw [k5, List.map_append, List.sum_append]

theorem qtySum_perm' (p : Voteline → Bool) {a b : List Voteline} (h : a.Perm b) : qtySum p a = qtySum p b :=
  perm_sum ((h.filter _).map _)

/-- C83, the counts: what is counted on the whole is the sum of what is counted on the parts: voters preferring one candidate to
another, voters who do neither, scores, and voters rating a candidate. -/
theorem C83_counts (m m1 m2 : Jabmod) (h : m.votelines.Perm (m1.votelines ++ m2.votelines)) (a b : Str) :
    support m a b = support m1 a b + support m2 a b ∧
    qtySum (fun vl => indifferent vl a b) m.votelines =
      qtySum (fun vl => indifferent vl a b) m1.votelines + qtySum (fun vl => indifferent vl a b) m2.votelines ∧
    scoreOf m a = scoreOf m1 a + scoreOf m2 a ∧ ratersOf m a = ratersOf m1 a + ratersOf m2 a := by
  refine ⟨?_, ?_, ?_, ?_⟩
  · unfold support; rw [qtySum_perm' _ h, qtySum_append]
  · rw [qtySum_perm' _ h, qtySum_append]
  · unfold scoreOf
    rw [perm_sum (h.map _), List.map_append, List.sum_append]
  · unfold ratersOf; rw [qtySum_perm' _ h, qtySum_append]

/-- C83, the pairwise matrix of the merged text: every cell is the sum of the parts' cells; a part whose text mentions only the
row's candidate contributes the voters ranking it, a part that does not mention it contributes nothing. -/
theorem C83_pairwise (cw : Bool) (t1 t2 : Str) (m1 m2 m : Jabmod) (h1 : convertAbif cw false false (t1 ++ ['\n']) = .ok m1)
    (h2 : convertAbif cw false false t2 = .ok m2) (h : convertAbif cw false false (t1 ++ '\n' :: t2) = .ok m)
    (hlen : (t1 ++ '\n' :: t2).length < 2 ^ 61) (a b : Str) (ha : a ∈ Dict.keys m.candidates) (hb : b ∈ Dict.keys m.candidates) (hab : a ≠ b) :
    ∃ x1 x2 : Int, pairGet (pairwiseCount m) a b = .ok (some (x1 + x2)) ∧
      (∀ i ∈ [(m1, x1), (m2, x2)],
        (a ∈ Dict.keys i.1.candidates → b ∈ Dict.keys i.1.candidates → pairGet (pairwiseCount i.1) a b = .ok (some i.2)) ∧
        (b ∉ Dict.keys i.1.candidates → i.2 = qtySum (fun vl => (rankOf vl a).isSome) i.1.votelines) ∧
        (a ∉ Dict.keys i.1.candidates → i.2 = 0)) := by
  obtain ⟨m', hm', hs, _⟩ := C83_merge cw t1 t2 m1 m2 h1 h2
  rw [h] at hm'
  cases hm'
  have cell : ∀ (t : Str) (m : Jabmod), convertAbif cw false false t = .ok m → t.length < 2 ^ 61 → a ∈ Dict.keys m.candidates → b ∈ Dict.keys m.candidates →
      pairGet (pairwiseCount m) a b = .ok (some (support m a b)) := by
    intro t m h hl ha hb
    obtain ⟨_, hrow⟩ := C17_parsed cw false false t m h hl
    obtain ⟨row, e1, _, _, e2⟩ := hrow a ha
    unfold pairGet
    rw [Dict.getE_of_get? e1, ok_bind, Dict.getE_of_get? (e2 b hb (Ne.symm hab))]
  refine ⟨support m1 a b, support m2 a b, ?_, ?_⟩
  · rw [cell _ _ h hlen ha hb, (C83_counts m m1 m2 hs.1 a b).1]
  · have hl1 : (t1 ++ ['\n']).length < 2 ^ 61 := by simp at hlen ⊢; omega
    have hl2 : t2.length < 2 ^ 61 := by simp at hlen; omega
    have part : ∀ (t : Str) (m : Jabmod), convertAbif cw false false t = .ok m → t.length < 2 ^ 61 →
        (a ∈ Dict.keys m.candidates → b ∈ Dict.keys m.candidates → pairGet (pairwiseCount m) a b = .ok (some (support m a b))) ∧
        (b ∉ Dict.keys m.candidates → support m a b = qtySum (fun vl => (rankOf vl a).isSome) m.votelines) ∧
        (a ∉ Dict.keys m.candidates → support m a b = 0) := by
      intro t m h hl
      have unk : ∀ c, c ∉ Dict.keys m.candidates → ∀ vl ∈ m.votelines, rankOf vl c = none := by
        intro c hc vl hvl
        unfold rankOf
        rw [Dict.get?_eq_none.2 (fun hk => hc ((C03_candidates cw false false t m h).2.2 vl hvl c hk))]
        rfl
      refine ⟨cell t m h hl, fun hb => ?_, fun ha => ?_⟩
      · unfold support qtySum
        congr 2
        apply List.filter_congr
        intro vl hvl
        unfold prefers
        rw [unk b hb vl hvl]
        cases rankOf vl a <;> rfl
      · unfold support qtySum
        rw [List.filter_eq_nil_iff.2 ?_]
        · rfl
        · intro vl hvl
          unfold prefers
          rw [unk a ha vl hvl]
          simp
    intro i hi
    simp only [List.mem_cons, List.not_mem_nil, or_false] at hi
    rcases hi with rfl | rfl
    · exact part _ _ h1 hl1
    · exact part _ _ h2 hl2

/-- C83, consistency: who beats another head to head in both parts beats it in the whole, so a Condorcet winner of both parts
(over the same candidates) is the only Copeland winner of the whole. -/
theorem C83_condorcet (cw : Bool) (t1 t2 : Str) (m1 m2 m : Jabmod) (h1 : convertAbif cw false false (t1 ++ ['\n']) = .ok m1)
    (h2 : convertAbif cw false false t2 = .ok m2) (h : convertAbif cw false false (t1 ++ '\n' :: t2) = .ok m)
    (hlen : (t1 ++ '\n' :: t2).length < 2 ^ 61) (a : Str) (ha : a ∈ Dict.keys m1.candidates)
    (hcands : ∀ c, c ∈ Dict.keys m1.candidates ↔ c ∈ Dict.keys m2.candidates)
    (hw : ∀ b ∈ Dict.keys m1.candidates, b ≠ a → support m1 b a < support m1 a b ∧ support m2 b a < support m2 a b) :
    ∃ cc, fullCopecount m = .ok cc ∧ copelandWinners cc.winlosstie = .ok [a] := by
  obtain ⟨m', hm', hs, hk, _⟩ := C83_merge cw t1 t2 m1 m2 h1 h2
  rw [h] at hm'
  cases hm'
  have hmem : ∀ c, c ∈ Dict.keys m.candidates ↔ c ∈ Dict.keys m1.candidates := by
    intro c
    rw [hk, mem_firsts, List.mem_append, ← hcands, or_self]
  have ha' := (hmem a).2 ha
  obtain ⟨cc, ws, rep, e1, e2, _, _, _, _, _, e3⟩ := C23_copeland m (parsed_cands_nodup _ _ _ _ _ h) (List.ne_nil_of_mem ha')
  refine ⟨cc, e1, ?_⟩
  rw [e2, e3 a ha' ?_]
  intro b hb hba
  rw [fullCopecount_eq m (parsed_cands_nodup _ _ _ _ _ h)] at e1
  cases e1
  have cell : ∀ x y, x ∈ Dict.keys m.candidates → y ∈ Dict.keys m.candidates → y ≠ x → cellNum (pairwiseCount m) x y = support m x y := by
    intro x y hx hy hxy
    obtain ⟨_, hrow⟩ := C17_parsed cw false false _ m h hlen
    obtain ⟨row, e1, _, _, e2⟩ := hrow x hx
    unfold cellNum pairGet
    rw [Dict.getE_of_get? e1, ok_bind, Dict.getE_of_get? (e2 y hy hxy)]
  rw [cell a b ha' hb hba, cell b a hb ha' (Ne.symm hba), (C83_counts m m1 m2 hs.1 a b).1, (C83_counts m m1 m2 hs.1 b a).1]
  have := hw b ((hmem b).1 hb) hba
  omega

end

/-! ### a concrete instance -/

section Example
attribute [local instance] Uni.ascii
set_option maxRecDepth 20000

def mergeA : Str := c!"=A:[Alice]\n3:A>B\n1:B>A=C"
def mergeB : Str := c!"=B:[Bob]\n2:A>B>C\n1:C>D\n"

/-- keys, quantities and one cell of a parsed text -/
def mergeView (t : Str) : Option (List Str × List Int × Option Int) :=
  (convertAbif true false false t).toOption.map (fun m => (Dict.keys m.candidates, m.votelines.map Voteline.qty,
    ((pairGet (pairwiseCount m) c!"A" c!"B").toOption.getD none)))

example : mergeView (mergeA ++ ['\n']) = some ([c!"A", c!"B", c!"C"], [3, 1], some 3) := by decide +kernel
example : mergeView mergeB = some ([c!"B", c!"A", c!"C", c!"D"], [2, 1], some 2) := by decide +kernel
example : mergeView (mergeA ++ '\n' :: mergeB) = some ([c!"A", c!"B", c!"C", c!"D"], [3, 2, 1, 1], some 5) := by decide +kernel

end Example

end Verif.Props
