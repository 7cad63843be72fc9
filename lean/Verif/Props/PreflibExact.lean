/-
C43 for every PrefLib file: what the program makes of numbers that are not 1, 2, 3, ….
-/
import Verif.Props.Preflib

set_option linter.unusedSimpArgs false
set_option linter.unusedSectionVars false

namespace Verif.Props
open Verif Spec

section
variable [U : Uni]

/-- the line of a vote, by numbers -/
def voteText (names : List Str) (v : Nat × List (List Nat)) : Except PyErr Str :=
  (v.2.mapM (fun ns : List Nat => (ns.mapM (shortAt names)).map (joinStr ['=']))).map
    (fun tiers => natStr v.1 ++ ':' :: (joinStr ['>'] tiers ++ ['\n']))

theorem prefVoteline_text (names : List Str) (v : Nat × List PItem) :
    prefVoteline names (natStr v.1, joinStr [','] (v.2.map PItem.text)) = voteText names (v.1, v.2.map PItem.nums) := by
  unfold prefVoteline voteText
  rw [splitBrace_items, List.mapM_map, List.mapM_map]
  have : (prefTier names ∘ PItem.text) = ((fun ns : List Nat => (ns.mapM (shortAt names)).map (joinStr ['='])) ∘ PItem.nums) := by
    funext p
    simp only [Function.comp_apply]
    unfold prefTier
    rw [digitRuns_item, List.mapM_map]
    have : ((fun n => shortAt names (digitsVal n)) ∘ natStr) = shortAt names := by
      funext n
      simp only [Function.comp_apply]
      rw [(natStr_spec n).2.2]
    rw [this]
    cases List.mapM (shortAt names) p.nums <;> rfl
  rw [this]
  cases List.mapM ((fun ns : List Nat => (ns.mapM (shortAt names)).map (joinStr ['='])) ∘ PItem.nums) v.2 <;> rfl

/-- the import of a file, by its alternatives and votes -/
theorem convertPreflib_doc {doc : List PLine} (h : ∀ l ∈ doc, l.Ok) :
    convertPreflib (prefText doc) =
      ((prefVotes doc).mapM (voteText (((prefAlts doc).map Prod.snd).map preflibToken))).map (fun ls =>
        ((((prefAlts doc).map Prod.snd).map preflibToken).zip ((prefAlts doc).map Prod.snd)).flatMap
          (fun sn => '=' :: (sn.1 ++ ':' :: '[' :: (sn.2 ++ [']', '\n']))) ++ c!"# ---------------\n" ++ ls.flatten) := by
  unfold convertPreflib prefRankings
  rw [altNames_doc h]
  obtain ⟨vs, h1, h2, h3⟩ := prefLines_doc h
  rw [h3, ← h1]
  simp only [List.mapM_map]
  have : (prefVoteline (((prefAlts doc).map Prod.snd).map preflibToken) ∘
      (fun v : Nat × List PItem => (natStr v.1, joinStr [','] (v.2.map PItem.text)))) =
      (voteText (((prefAlts doc).map Prod.snd).map preflibToken) ∘ (fun v : Nat × List PItem => (v.1, v.2.map PItem.nums))) := by
    funext v
    exact prefVoteline_text _ v
  rw [this]
  cases List.mapM (voteText (((prefAlts doc).map Prod.snd).map preflibToken) ∘ (fun v : Nat × List PItem => (v.1, v.2.map PItem.nums))) vs <;> rfl

omit U in
theorem renumbered_alts (doc : List PLine) : ∀ k : Nat, (prefAlts (renumbered k doc)).map Prod.snd = (prefAlts doc).map Prod.snd ∧
    (prefAlts (renumbered k doc)).map Prod.fst = List.range' k (prefAlts doc).length ∧ prefVotes (renumbered k doc) = prefVotes doc := by
  induction doc with
  | nil => intro k; exact ⟨rfl, rfl, rfl⟩
  | cons l doc ih =>
    intro k
    cases l with
    | alt n name =>
      obtain ⟨i1, i2, i3⟩ := ih (k + 1)
      simp only [prefAlts, prefVotes] at i1 i2 i3
      simp only [renumbered, prefAlts, prefVotes, List.filterMap_cons, List.map_cons, List.length_cons, i1, i2, i3]
      simp [List.range'_succ]
    | vote q places =>
      obtain ⟨i1, i2, i3⟩ := ih k
      simp only [prefAlts, prefVotes] at i1 i2 i3
      simp only [renumbered, prefAlts, prefVotes, List.filterMap_cons, i1, i2, i3]
      simp [List.range'_succ]
    | comment t =>
      obtain ⟨i1, i2, i3⟩ := ih k
      simp only [prefAlts, prefVotes] at i1 i2 i3
      simp only [renumbered, prefAlts, prefVotes, List.filterMap_cons, i1, i2, i3]
      simp [List.range'_succ]

omit U in
theorem PItem.nums_zeroAs (n : Nat) (p : PItem) : (p.zeroAs n).nums = p.nums.map (Spec.zeroAs n) := by
  cases p <;> rfl

omit U in
theorem zeroAs_doc (n : Nat) (doc : List PLine) : prefAlts (doc.map (PLine.zeroAs n)) = prefAlts doc ∧
    prefVotes (doc.map (PLine.zeroAs n)) = (prefVotes doc).map (fun v => (v.1, v.2.map (fun t => t.map (Spec.zeroAs n)))) := by
  induction doc with
  | nil => exact ⟨rfl, rfl⟩
  | cons l doc ih =>
    obtain ⟨i1, i2⟩ := ih
    simp only [prefAlts, prefVotes] at i1 i2
    cases l with
    | alt k name =>
      simp only [List.map_cons, PLine.zeroAs, prefAlts, prefVotes, List.filterMap_cons, i1, i2]
      simp
    | vote q places =>
      simp only [List.map_cons, PLine.zeroAs, prefAlts, prefVotes, List.filterMap_cons, i1, i2]
      refine ⟨trivial, ?_⟩
      simp only [List.map_cons, List.map_map, List.cons.injEq, Prod.mk.injEq, true_and, and_true]
      apply List.map_congr_left
      intro p _
      exact PItem.nums_zeroAs n p
    | comment t =>
      simp only [List.map_cons, PLine.zeroAs, prefAlts, prefVotes, List.filterMap_cons, i1, i2]
      simp

theorem zeroAs_ok {n : Nat} {l : PLine} (h : l.Ok) : (l.zeroAs n).Ok := by
  cases l with
  | alt k name => exact h
  | comment t => exact h
  | vote q places =>
    intro p hp
    obtain ⟨p', hp', rfl⟩ := List.mem_map.1 hp
    rw [PItem.nums_zeroAs]
    have := h p' hp'
    simpa using this

theorem renumbered_ok {doc : List PLine} (h : ∀ l ∈ doc, l.Ok) : ∀ k : Nat, ∀ l ∈ renumbered k doc, l.Ok := by
  induction doc with
  | nil => intro k l hl; cases hl
  | cons x doc ih =>
    intro k l hl
    have hx := h x (by simp)
    have ih := ih (fun y hy => h y (by simp [hy]))
    cases x with
    | alt n name =>
      rcases List.mem_cons.1 hl with rfl | hl
      · exact hx
      · exact ih _ l hl
    | vote q places =>
      rcases List.mem_cons.1 hl with rfl | hl
      · exact hx
      · exact ih _ l hl
    | comment t =>
      rcases List.mem_cons.1 hl with rfl | hl
      · exact hx
      · exact ih _ l hl

theorem asRead_ok {doc : List PLine} (h : ∀ l ∈ doc, l.Ok) : ∀ l ∈ asRead doc, l.Ok :=
  renumbered_ok (fun l hl => by obtain ⟨x, hx, rfl⟩ := List.mem_map.1 hl; exact zeroAs_ok (h x hx)) 1

omit U in
theorem asRead_parts (doc : List PLine) : (prefAlts (asRead doc)).map Prod.snd = (prefAlts doc).map Prod.snd ∧ Numbered (asRead doc) ∧
    prefVotes (asRead doc) = (prefVotes doc).map (fun v => (v.1, v.2.map (fun t => t.map (Spec.zeroAs (prefAlts doc).length)))) := by
  obtain ⟨z1, z2⟩ := zeroAs_doc (prefAlts doc).length doc
  obtain ⟨r1, r2, r3⟩ := renumbered_alts (doc.map (PLine.zeroAs (prefAlts doc).length)) 1
  rw [z1] at r1 r2
  rw [z2] at r3
  refine ⟨r1, ?_, r3⟩
  have hl : (prefAlts (asRead doc)).length = (prefAlts doc).length := by
    have := congrArg List.length r1
    unfold asRead
    simpa using this
  unfold Numbered
  rw [hl]
  exact r2

theorem shortAt_zeroAs (names : List Str) (k : Nat) : shortAt names (Spec.zeroAs names.length k) = shortAt names k := by
  unfold Spec.zeroAs
  split
  · rename_i hk
    subst hk
    cases names with
    | nil => rfl
    | cons x t =>
      show shortAt (x :: t) (t.length + 1) = _
      unfold shortAt
      simp only
      rw [List.getLast?_eq_getElem?]
      simp only [List.length_cons, Nat.add_sub_cancel]
  · rfl

/-- C43 in full, for every file: the program reads the file as if the alternatives were numbered in the order of the file and 0
were the last of them (`asRead`); a file so numbered is read as it stands. -/
theorem C43_exact (doc : List PLine) (h : ∀ l ∈ doc, l.Ok) :
    convertPreflib (prefText doc) = convertPreflib (prefText (asRead doc)) ∧ Numbered (asRead doc) ∧
    (Numbered doc → (∀ v ∈ prefVotes doc, ∀ t ∈ v.2, 0 ∉ t) → asRead doc = doc) := by
  obtain ⟨a1, a2, a3⟩ := asRead_parts doc
  refine ⟨?_, a2, ?_⟩
  · rw [convertPreflib_doc h, convertPreflib_doc (asRead_ok h), a1, a3, List.mapM_map]
    have : voteText (((prefAlts doc).map Prod.snd).map preflibToken) =
        (voteText (((prefAlts doc).map Prod.snd).map preflibToken) ∘
          fun v => (v.1, v.2.map (fun t => t.map (Spec.zeroAs (prefAlts doc).length)))) := by
      funext v
      simp only [Function.comp_apply]
      unfold voteText
      simp only
      rw [List.mapM_map]
      have hf : (fun ns : List Nat => (ns.mapM (shortAt (((prefAlts doc).map Prod.snd).map preflibToken))).map (joinStr ['='])) =
          ((fun ns : List Nat => (ns.mapM (shortAt (((prefAlts doc).map Prod.snd).map preflibToken))).map (joinStr ['='])) ∘
            (fun t => t.map (Spec.zeroAs (prefAlts doc).length))) := by
        funext ns
        simp only [Function.comp_apply]
        rw [List.mapM_map]
        have hl : (prefAlts doc).length = (((prefAlts doc).map Prod.snd).map preflibToken).length := by simp
        have hg : (shortAt (((prefAlts doc).map Prod.snd).map preflibToken) ∘ Spec.zeroAs (prefAlts doc).length) =
            shortAt (((prefAlts doc).map Prod.snd).map preflibToken) := by
          funext k
          rw [Function.comp_apply, hl, shortAt_zeroAs]
        rw [hg]
      rw [← hf]
    rw [← this]
  · intro hn hz
    have hzero : ∀ l ∈ doc, l.zeroAs (prefAlts doc).length = l := by
      intro l hl
      cases l with
      | alt k name => rfl
      | comment t => rfl
      | vote q places =>
        have hv : (q, places.map PItem.nums) ∈ prefVotes doc := List.mem_filterMap.2 ⟨_, hl, rfl⟩
        show PLine.vote q (places.map (PItem.zeroAs (prefAlts doc).length)) = _
        congr 1
        refine (List.map_congr_left ?_).trans (List.map_id places)
        intro p hp
        have h0 : 0 ∉ p.nums := hz _ hv _ (List.mem_map.2 ⟨p, hp, rfl⟩)
        have hs : ∀ k ∈ p.nums, Spec.zeroAs (prefAlts doc).length k = k := by
          intro k hk
          unfold Spec.zeroAs
          rw [if_neg]
          rintro rfl
          exact h0 hk
        cases p with
        | bare k =>
          show PItem.bare (Spec.zeroAs (prefAlts doc).length k) = PItem.bare k
          rw [hs k (by simp [PItem.nums])]
        | group ks =>
          show PItem.group (ks.map (Spec.zeroAs (prefAlts doc).length)) = PItem.group ks
          rw [show ks.map (Spec.zeroAs (prefAlts doc).length) = ks from
            (List.map_congr_left (g := id) (fun k hk => hs k hk)).trans (List.map_id ks)]
    unfold asRead
    rw [(List.map_congr_left (g := id) (fun l hl => hzero l hl)).trans (List.map_id doc)]
    have key : ∀ (d : List PLine) (k : Nat), (prefAlts d).map Prod.fst = List.range' k (prefAlts d).length → renumbered k d = d := by
      intro d
      induction d with
      | nil => intro k _; rfl
      | cons l d ih =>
        intro k hk
        cases l with
        | alt n name =>
          simp only [prefAlts, List.filterMap_cons, List.map_cons, List.length_cons, List.range'_succ, List.cons.injEq] at hk
          unfold renumbered
          rw [ih (k + 1) hk.2, hk.1]
        | vote q places => unfold renumbered; rw [ih k hk]
        | comment t => unfold renumbered; rw [ih k hk]
    exact key doc 1 hn

/-- C43: a file can be imported exactly when no vote has a number above the number of alternatives, nor 0 where there are none;
otherwise there is an `IndexError`. -/
theorem C43_range (doc : List PLine) (h : ∀ l ∈ doc, l.Ok) :
    ((∀ v ∈ prefVotes doc, ∀ t ∈ v.2, ∀ n ∈ t, n ≤ (prefAlts doc).length ∧ prefAlts doc ≠ []) → ∃ text, convertPreflib (prefText doc) = .ok text) ∧
    ((∃ v ∈ prefVotes doc, ∃ t ∈ v.2, ∃ n ∈ t, (prefAlts doc).length < n ∨ prefAlts doc = []) →
      convertPreflib (prefText doc) = .error .indexError) := by
  constructor
  · intro hb
    obtain ⟨a1, a2, a3⟩ := asRead_parts doc
    have hl : (prefAlts (asRead doc)).length = (prefAlts doc).length := by
      have := congrArg List.length a1
      simpa using this
    have hr : InRange (asRead doc) := by
      intro v hv t ht n hn
      rw [a3] at hv
      obtain ⟨v', hv', rfl⟩ := List.mem_map.1 hv
      obtain ⟨t', ht', rfl⟩ := List.mem_map.1 ht
      obtain ⟨n', hn', rfl⟩ := List.mem_map.1 hn
      obtain ⟨b1, b2⟩ := hb v' hv' t' ht' n' hn'
      have hpos : 0 < (prefAlts doc).length := List.length_pos_iff.2 b2
      have h1 : 1 ≤ Spec.zeroAs (prefAlts doc).length n' ∧ Spec.zeroAs (prefAlts doc).length n' ≤ (prefAlts doc).length := by
        unfold Spec.zeroAs
        split <;> omega
      generalize Spec.zeroAs (prefAlts doc).length n' = k at h1
      unfold altNameOf
      rw [Option.isSome_map, List.find?_isSome]
      have hk : k ∈ (prefAlts (asRead doc)).map Prod.fst := by
        rw [a2, hl, List.mem_range'_1]
        omega
      obtain ⟨a, ha, hak⟩ := List.mem_map.1 hk
      exact ⟨a, ha, by simpa using hak⟩
    rw [(C43_exact doc h).1, C43_text_partial (asRead doc) (asRead_ok h) a2 hr]
    exact ⟨_, rfl⟩
  · rintro ⟨v, hv, t, ht, n, hn, hbad⟩
    rcases hbad with hbad | hbad
    · exact C43_range_partial doc h ⟨v, hv, t, ht, n, hn, hbad⟩
    · by_cases h0 : n = 0
      · subst h0
        rw [convertPreflib_doc h, hbad]
        have hshort : ∀ k, shortAt [] k = .error .indexError := by
          intro k
          unfold shortAt
          cases k <;> rfl
        have hcases : ∀ w : Nat × List (List Nat), (∃ x, voteText [] w = .ok x) ∨ voteText [] w = .error .indexError := by
          intro w
          have hm : ∀ ns : List Nat, (∃ x, ((ns.mapM (shortAt [])).map (joinStr ['='])) = .ok x) ∨
              ((ns.mapM (shortAt [])).map (joinStr ['='])) = .error .indexError := by
            intro ns
            cases ns with
            | nil => exact .inl ⟨_, rfl⟩
            | cons k ns =>
              right
              rw [List.mapM_cons, hshort]
              rfl
          have hmm : ∀ l : List (List Nat), (∃ x, l.mapM (fun ns : List Nat => (ns.mapM (shortAt [])).map (joinStr ['='])) = .ok x) ∨
              l.mapM (fun ns : List Nat => (ns.mapM (shortAt [])).map (joinStr ['='])) = .error .indexError := by
            intro l
            induction l with
            | nil => exact .inl ⟨_, rfl⟩
            | cons a l ih =>
              rw [List.mapM_cons]
              rcases hm a with ⟨x, hx⟩ | hx
              · rcases ih with ⟨y, hy⟩ | hy
                · rw [hx, hy]; exact .inl ⟨_, rfl⟩
                · rw [hx, hy]; exact .inr rfl
              · rw [hx]; exact .inr rfl
          unfold voteText
          rcases hmm w.2 with ⟨x, hx⟩ | hx
          · rw [hx]; exact .inl ⟨_, rfl⟩
          · rw [hx]; exact .inr rfl
        have hone : voteText [] v = .error .indexError := by
          unfold voteText
          have : v.2.mapM (fun ns : List Nat => (ns.mapM (shortAt [])).map (joinStr ['='])) = .error .indexError := by
            apply mapM_error
            · intro ns _
              cases ns with
              | nil => exact .inl ⟨_, rfl⟩
              | cons k ns =>
                right
                rw [List.mapM_cons, hshort]
                rfl
            · refine ⟨t, ht, ?_⟩
              cases t with
              | nil => cases hn
              | cons k ns =>
                rw [List.mapM_cons, hshort]
                rfl
          rw [this]
          rfl
        have : (prefVotes doc).mapM (voteText []) = .error .indexError := mapM_error (fun w _ => hcases w) ⟨v, hv, hone⟩
        show Except.map _ ((prefVotes doc).mapM (voteText [])) = _
        rw [this]
        rfl
      · exact C43_range_partial doc h ⟨v, hv, t, ht, n, hn, by rw [hbad]; simp; omega⟩

end

section
attribute [local instance] Uni.ascii
set_option maxRecDepth 20000

/-- non-vacuity: a file with numbers out of order and a 0, and how it is read -/
example : (∀ l ∈ [PLine.alt 2 c!"Bob", .alt 1 c!"Ann", .vote 3 [.bare 1, .bare 0]], l.Ok) ∧
    prefText (asRead [.alt 2 c!"Bob", .alt 1 c!"Ann", .vote 3 [.bare 1, .bare 0]]) =
      c!"# ALTERNATIVE NAME 1: Bob\n# ALTERNATIVE NAME 2: Ann\n3: 1,2\n" := by
  refine ⟨?_, by decide +kernel⟩
  intro l hl
  simp only [List.mem_cons, List.not_mem_nil, or_false] at hl
  rcases hl with rfl | rfl | rfl
  · show ∀ c ∈ _, _; decide
  · show ∀ c ∈ _, _; decide
  · show ∀ p ∈ _, _; decide

end

end Verif.Props
