/-
C106: the number of rounds and the stack.  A round of the count is a nested call; an election with more rounds than calls can be
nested has no result.
-/
import Verif.Model.IrvDeep
import Verif.Props.Paper

set_option linter.unusedSimpArgs false
set_option linter.unusedSectionVars false

namespace Verif.Props
open Spec

theorem countDeep_eq {S : Sched} {prev : Option RoundMeta} {rn : Nat} {cands : List Str} {vls : List Voteline} {run : IrvRun}
    (h : Steps S prev rn cands vls run) (depth : Nat) :
    irvCountDeep S depth prev rn cands vls = if run.rounds.length ≤ depth then .ok run else .error .other := by
  induction h generalizing depth with
  | last h hn =>
    cases depth with
    | zero => rfl
    | succ n =>
      unfold irvCountDeep
      rw [h, ok_bind]
      simp only [hn]
      rw [if_pos (by simp)]
  | more h hn ht ih =>
    cases depth with
    | zero => rfl
    | succ n =>
      unfold irvCountDeep
      rw [h, ok_bind]
      simp only [hn, ih n, List.length_cons, Nat.add_le_add_iff_right]
      split <;> rfl

/-- C106, what happens.  A count that needs `k` rounds on paper has its result when `k` calls can be nested, and ends with a
`RecursionError` when they cannot. -/
theorem C106_exact (S : Sched) (m : Jabmod) (d : IrvDict) (hd : irvDict S m = .ok d) (depth : Nat) :
    irvDictDeep S depth m = if d.run.rounds.length ≤ depth then .ok d else .error .other := by
  unfold irvDictDeep
  rw [countDeep_eq (irvDict_steps hd)]
  unfold irvDict at hd
  rw [irvDict_run hd] at hd
  by_cases hk : d.run.rounds.length ≤ depth
  · rw [if_pos hk, if_pos hk]; exact hd
  · rw [if_neg hk, if_neg hk]; rfl

/-- C106, the true part: an election with no more candidates than calls can be nested has the result of the other theorems (C28). -/
theorem C106_partial (S : Sched) (m : Jabmod) (hc : Countable m) (hne : m.candidates ≠ []) (hnames : ∀ c, Dict.get? m.candidates c ≠ some none)
    (depth : Nat) (h : m.candidates.length ≤ depth) : ∃ d, irvDict S m = .ok d ∧ irvDictDeep S depth m = .ok d := by
  obtain ⟨d, hd, _, _, _, hl, _⟩ := C28_total S m hc hne hnames
  exact ⟨d, hd, by rw [C106_exact S m d hd, if_pos (by omega)]⟩

/-! ### an election with many rounds -/

/-- the `i`-th candidate: `A`, `AA`, `AAA`, ... -/
def tallTok (i : Nat) : Str := List.replicate (i + 1) 'A'

/-- `n` candidates with 2n, 2n+1, ... ballots, nobody with a second choice -/
def tallPaper (n : Nat) : List PaperLine :=
  (List.range n).map (fun i => .ballots (2 * n + i) (.ranked [[{ tok := tallTok i }]]) none)

theorem tallTok_inj {i j : Nat} : tallTok i = tallTok j ↔ i = j := by
  constructor
  · intro h
    have := congrArg List.length h
    simpa [tallTok] using this
  · rintro rfl; rfl

section
variable [U : Uni]

theorem tall_votes (n : Nat) : paperVotes (tallPaper n) = (List.range n).map (fun i => (2 * n + i, Ballot.ranked [[{ tok := tallTok i }]])) := by
  unfold paperVotes tallPaper
  rw [List.filterMap_map]
  generalize List.range n = l
  induction l with
  | nil => rfl
  | cons a l ih => rw [List.filterMap_cons, List.map_cons, ih]; rfl

theorem tall_mentions (n : Nat) : (tallPaper n).flatMap PaperLine.mentions = (List.range n).map tallTok := by
  unfold tallPaper
  rw [List.flatMap_map]
  generalize List.range n = l
  induction l with
  | nil => rfl
  | cons a l ih => rw [List.flatMap_cons, List.map_cons, ih]; rfl

theorem tall_cands (n : Nat) : paperCands (tallPaper n) = (List.range n).map tallTok := by
  unfold paperCands
  rw [tall_mentions, firsts_of_nodup]
  exact List.Nodup.map (fun i j h => tallTok_inj.1 h) List.nodup_range

theorem tall_favours (j i : Nat) (C : List Str) (hi : tallTok i ∈ C) :
    (Ballot.ranked [[{ tok := tallTok j }]]).favours C (tallTok i) = decide (j = i) := by
  unfold Ballot.favours Ballot.items
  by_cases h : j = i
  · subst h
    simp only [hi, List.flatten_cons, List.flatten_nil, List.append_nil, List.map_cons, List.map_nil, List.mem_singleton, decide_true, Bool.true_and]
    rw [List.all_eq_true]
    intro y _
    by_cases hy : y = tallTok j
    · simp [hy]
    · simp [Ballot.above, tierAbove, onTier, hy]
      exact fun e => hy e.symm
  · have : ¬ tallTok i = tallTok j := fun e => h (tallTok_inj.1 e).symm
    simp [h, this]

theorem tall_top {n : Nat} (i : Nat) (hn : i < n) (C : List Str) (hi : tallTok i ∈ C) : paperTop (tallPaper n) C (tallTok i) = 2 * n + i := by
  unfold paperTop paperSum
  rw [tall_votes, List.filter_map, List.map_map]
  have e : (List.range n).filter ((fun v : Nat × Ballot => v.2.favours C (tallTok i)) ∘ fun i => (2 * n + i, Ballot.ranked [[{ tok := tallTok i }]])) = [i] := by
    have : ((fun v : Nat × Ballot => v.2.favours C (tallTok i)) ∘ fun i => (2 * n + i, Ballot.ranked [[{ tok := tallTok i }]])) = fun j => decide (j = i) := by
      funext j
      exact tall_favours j i C hi
    rw [this]
    have h1 := (List.nodup_range (n := n)).filter (fun j => decide (j = i))
    have h2 : ∀ j ∈ (List.range n).filter (fun j => decide (j = i)), j = i := fun j hj => by simpa using (List.mem_filter.1 hj).2
    have h3 : i ∈ (List.range n).filter (fun j => decide (j = i)) := List.mem_filter.2 ⟨List.mem_range.2 hn, by simp⟩
    match hl : (List.range n).filter (fun j => decide (j = i)) with
    | [] => rw [hl] at h3; cases h3
    | [a] => rw [hl] at h2; rw [h2 a (by simp)]
    | a :: b :: l =>
      rw [hl] at h1 h2
      have ha := h2 a (by simp)
      have hb := h2 b (by simp)
      rw [ha, hb] at h1
      exact absurd h1 (by simp)
  rw [e]
  simp

/-- such a count takes one round less than there are candidates -/
theorem tall_rounds {n : Nat} {rounds : List (List Str)} {winners : List Str} (h : InstantRunoff (tallPaper n) rounds winners) :
    n ≤ rounds.length + 1 := by
  have key : ∀ (k : Nat) (C : List Str), rounds[k]? = some C → (∀ x ∈ C, ∃ i < n, x = tallTok i) ∧ C.Nodup ∧ n ≤ C.length + k := by
    intro k
    induction k with
    | zero =>
      intro C hC
      rw [h.first] at hC
      obtain rfl := Option.some.inj hC
      refine ⟨?_, nodup_firsts _, by rw [tall_cands]; simp⟩
      rw [tall_cands]
      intro x hx
      obtain ⟨i, hi, rfl⟩ := List.mem_map.1 hx
      exact ⟨i, List.mem_range.1 hi, rfl⟩
    | succ k ih =>
      intro D hD
      obtain ⟨C, hC⟩ : ∃ C, rounds[k]? = some C := by
        have := (List.getElem?_eq_some_iff.1 hD).1
        exact ⟨_, List.getElem?_eq_getElem (by omega)⟩
      obtain ⟨i1, hnd, i2⟩ := ih C hC
      obtain ⟨out, o1, o2, o3, o4, o5, o6⟩ := h.step k C D hC hD
      have hone : ∀ e ∈ out, ∀ e' ∈ out, e = e' := by
        intro e he e' he'
        obtain ⟨i, hi, rfl⟩ := i1 e (o3 e he)
        obtain ⟨j, hj, rfl⟩ := i1 e' (o3 e' he')
        have a := o5 _ he _ (o3 _ he')
        have b := o5 _ he' _ (o3 _ he)
        rw [tall_top i hi C (o3 _ he), tall_top j hj C (o3 _ he')] at a b
        rw [tallTok_inj]; omega
      refine ⟨?_, o4.nodup_iff.2 (hnd.filter _), ?_⟩
      · intro x hx
        exact i1 x (List.mem_filter.1 (o4.mem_iff.1 hx)).1
      · have hout : ∃ e, out = [e] := by
          match hl : out with
          | [] => exact absurd rfl o1
          | [e] => exact ⟨e, rfl⟩
          | a :: b :: l =>
            have := hone a (by simp) b (by simp)
            rw [this] at o2
            exact absurd o2 (by simp)
        obtain ⟨e, rfl⟩ := hout
        have hlen : ∀ (l : List Str), l.Nodup → l.length ≤ (l.filter (fun c => decide (c ∉ [e]))).length + 1 := by
          intro l hl
          have : l.filter (fun c => decide (c ∉ [e])) = l.erase e := by
            rw [hl.erase_eq_filter]
            apply List.filter_congr
            intro y _
            by_cases h : y = e <;> simp [h]
          rw [this]
          have := @List.length_erase _ _ _ e l
          split at this <;> omega
        have := hlen C hnd
        rw [o4.length_eq]
        omega
  obtain ⟨C, hC, hlast⟩ := h.last
  rw [List.getLast?_eq_getElem?] at hC
  obtain ⟨i1, hnd, i2⟩ := key _ C hC
  have hpos := (List.getElem?_eq_some_iff.1 hC).1
  suffices C.length ≤ 2 by omega
  rcases hlast with ⟨_, v, hv⟩ | ⟨w, hw, _, hm⟩
  · match hl : C with
    | [] => simp
    | [a] => simp
    | a :: b :: l =>
      obtain ⟨i, hi, ea⟩ := i1 a (by simp)
      obtain ⟨j, hj, eb⟩ := i1 b (by simp)
      have h1 := hv a (by simp)
      have h2 := hv b (by simp)
      rw [ea, tall_top i hi _ (by simp [ea])] at h1
      rw [eb, tall_top j hj _ (by simp [eb])] at h2
      have : a = b := by rw [ea, eb, tallTok_inj]; omega
      rw [this] at hnd
      exact absurd hnd (by simp)
  · by_contra hgt
    obtain ⟨i, hi, rfl⟩ := i1 w hw
    rw [tall_top i hi C hw] at hm
    have hsum : ∀ l : List Str, (∀ x ∈ l, x ∈ C) → l.length * (2 * n) ≤ (l.map (paperTop (tallPaper n) C)).sum := by
      intro l hl
      induction l with
      | nil => simp
      | cons x l ih =>
        obtain ⟨j, hj, rfl⟩ := i1 x (hl x (by simp))
        rw [List.map_cons, List.sum_cons, List.length_cons, tall_top j hj C (hl _ (by simp)), Nat.add_mul]
        have := ih (fun x hx => hl x (by simp [hx]))
        omega
    have h1 := hsum C (fun x hx => hx)
    have h2 : 3 * (2 * n) ≤ C.length * (2 * n) := Nat.mul_le_mul_right _ (by omega)
    omega

theorem tall_ok (n : Nat) (hn : 0 < n) : PaperOk (tallPaper n) := by
  have hA : ∀ i, ∀ c ∈ tallTok i, c = 'A' := fun i c hc => List.eq_of_mem_replicate hc
  refine ⟨?_, ⟨2 * n + 0, _, none, List.mem_map.2 ⟨0, List.mem_range.2 hn, rfl⟩⟩⟩
  intro l hl
  obtain ⟨i, hi, rfl⟩ := List.mem_map.1 hl
  refine ⟨⟨?_, by simp [Ballot.items], ?_, by intro its e; cases e⟩, by intro t e; cases e⟩
  · intro it hit
    simp only [Ballot.items, List.flatten_cons, List.flatten_nil, List.append_nil, List.mem_singleton] at hit
    subst hit
    refine ⟨⟨by simp, by simp, by simp, ⟨by simp [tallTok], ?_, by simp [tallTok, List.replicate_succ]⟩, ?_, ?_⟩, ?_⟩
    · exact strip_noSpace (fun c hc => by rw [hA i c hc]; decide)
    · intro c hc
      rw [hA i c hc]; decide
    · rintro _ ⟨t, ds, e, _⟩
      have := hA i '/' (by show _ ∈ tallTok i; rw [show tallTok i = _ from e]; simp)
      exact absurd this (by decide)
    · intro c hc
      have : c = 'A' := by
        simp [Item.text, Item.tokText, Item.ratingText] at hc
        exact hA i c hc
      subst this
      decide
  · intro ts e t ht
    cases e
    simp at ht
    subst ht
    simp

theorem tall_strict (n : Nat) : PaperStrict (tallPaper n) := by
  intro v hv x hx y hy hne
  rw [tall_votes] at hv
  obtain ⟨i, _, rfl⟩ := List.mem_map.1 hv
  simp [Ballot.items] at hx hy
  exact absurd (hx.trans hy.symm) hne

theorem tall_length (n : Nat) (hn : n ≤ 10002) : (paperText (tallPaper n)).length < 4999999998 := by
  have hnat : ∀ k : Nat, (natStr k).length ≤ k + 1 := by
    intro k
    induction k using Nat.strong_induction_on with
    | _ k ih =>
      unfold natStr at ih ⊢
      rw [Nat.toDigits_eq_if (by decide)]
      split
      · simp
      · have := ih (k / 10) (by omega)
        rw [List.length_append, List.length_singleton]
        omega
  have : ∀ l : List Nat, (∀ i ∈ l, i < n) →
      (paperText (l.map (fun i => PaperLine.ballots (2 * n + i) (.ranked [[{ tok := tallTok i }]]) none))).length ≤ l.length * (4 * n + 5) := by
    intro l hl
    induction l with
    | nil => simp [paperText]
    | cons i l ih =>
      have h1 := ih (fun j hj => hl j (by simp [hj]))
      have h2 := hl i (by simp)
      have h3 := hnat (2 * n + i)
      unfold paperText at h1 ⊢
      rw [List.map_cons, List.flatMap_cons, List.length_append, List.length_cons, Nat.add_mul]
      have h4 : (PaperLine.text (.ballots (2 * n + i) (.ranked [[{ tok := tallTok i }]]) none) ++ ['\n']).length = (natStr (2 * n + i)).length + (i + 3) := by
        simp [PaperLine.text, Ballot.text, joinStr, Item.text, Item.tokText, Item.ratingText, tallTok]
        try omega
      rw [h4]
      omega
  have h := this (List.range n) (fun i hi => List.mem_range.1 hi)
  rw [List.length_range] at h
  have h' : n * (4 * n + 5) ≤ 10002 * (4 * 10002 + 5) := Nat.mul_le_mul hn (by omega)
  unfold tallPaper
  omega

theorem tall_overflow {S : Sched} {depth n : Nat} {p : List PaperLine} (hp : p = tallPaper n) (hn : depth + 2 = n)
    (hl : (paperText p).length < 4999999998) : ∃ text m d, convertAbif false false false text = .ok m ∧
    irvDict S m = .ok d ∧ irvDictDeep S depth m = .error .other := by
  have hok : PaperOk p := by rw [hp]; exact tall_ok n (by omega)
  obtain ⟨m, vls, h1, h2, h3, h4, h5, _⟩ := convertAbif_paper hok false
  have hnil : [] ∉ paperCands p := by
    rw [hp, tall_cands]
    intro h
    obtain ⟨i, _, e⟩ := List.mem_map.1 h
    simp [tallTok] at e
  have he := paper_strictElection hl (by rw [hp]; exact tall_strict _) hnil h1 h2 h3.1 h4
  have hcne : m.candidates ≠ [] := by
    intro hz
    rw [hz, hp, tall_cands] at h4
    have := congrArg List.length h4
    simp [Dict.keys] at this
    omega
  obtain ⟨d, hd, _⟩ := C28_parsed S _ _ _ _ _ h1 hcne
  refine ⟨_, m, d, h1, hd, ?_⟩
  obtain ⟨hrun, hlen, _⟩ := paper_runoff hok h2 h3.1 h4 he hd
  rw [hp] at hrun
  have := tall_rounds hrun
  rw [List.length_map, hlen] at this
  rw [C106_exact S m d hd, if_neg (by omega)]

/-- C106 is false of the program: whatever the limit (up to ten thousand nested calls; CPython's is one thousand by default), there
is a text with ordinary votelines, and not a tie in it, whose count has a winner and ends with a `RecursionError`. -/
theorem C106_refuted (S : Sched) (depth : Nat) (hdep : depth ≤ 10000) : ∃ text m d, convertAbif false false false text = .ok m ∧
    irvDict S m = .ok d ∧ irvDictDeep S depth m = .error .other := by
  exact tall_overflow rfl rfl (tall_length (depth + 2) (by omega))

end
section
attribute [local instance] Uni.ascii
set_option maxRecDepth 40000

example : paperText (tallPaper 4) = c!"8:A\n9:AA\n10:AAA\n11:AAAA\n" := by decide +kernel

-- three rounds: with room for three calls there is a result, with room for two there is none
example : ((convertAbif false false false (paperText (tallPaper 4))).bind (irvDictDeep Sched.std 3)).toOption.map (fun d => (d.run.winner, d.run.rounds.length)) =
    some ([c!"AAAA"], 3) := by decide +kernel
example : ((convertAbif false false false (paperText (tallPaper 4))).bind (irvDictDeep Sched.std 2)).toOption.isNone = true := by decide +kernel

end
end Verif.Props
