/-
C36 beyond strict ballots: ballots with equally ranked candidates, as long as no two of them are neighbours.
-/
import Verif.Props.Irv

set_option linter.unusedSimpArgs false
set_option linter.unusedSectionVars false

namespace Verif.Spec
open Verif

/-- the line ranks any two candidates it lists one above the other -/
def Untied (vl : Voteline) : Prop :=
  ∀ a ∈ Dict.keys vl.prefs, ∀ b ∈ Dict.keys vl.prefs, a ≠ b → prefers vl a b = true ∨ prefers vl b a = true

/-- of any two lines that follow one another, at least one ranks no two candidates equally -/
def TiesApart (vls : List Voteline) : Prop :=
  ∀ (pre post : List Voteline) (u v : Voteline), vls = pre ++ u :: v :: post → Untied u ∨ Untied v

end Verif.Spec

namespace Verif.Props
open Verif Spec

theorem tiesApart_tail {v : Voteline} {l : List Voteline} (h : TiesApart (v :: l)) : TiesApart l := by
  intro pre post a b e
  exact h (v :: pre) post a b (by rw [e]; rfl)

theorem tiesApart_cons {v w : Voteline} {l : List Voteline} :
    TiesApart (v :: w :: l) ↔ (Untied v ∨ Untied w) ∧ TiesApart (w :: l) := by
  constructor
  · intro h
    exact ⟨h [] l v w rfl, tiesApart_tail h⟩
  · rintro ⟨h1, h2⟩ pre post a b e
    cases pre with
    | nil => cases e; exact h1
    | cons p pre =>
      simp only [List.cons_append, List.cons.injEq] at e
      exact h2 pre post a b e.2

theorem tiesApart_untied {v : Voteline} {l : List Voteline} (hv : Untied v) (h : TiesApart l) : TiesApart (v :: l) := by
  cases l with
  | nil =>
    intro pre post a b e
    have := congrArg List.length e
    simp at this
    omega
  | cons w l => exact tiesApart_cons.2 ⟨.inl hv, h⟩

theorem tiesApart_map {l : List Voteline} (f : Voteline → Voteline) (hf : ∀ v ∈ l, Untied v → Untied (f v)) (h : TiesApart l) :
    TiesApart (l.map f) := by
  induction l with
  | nil => exact h
  | cons v l ih =>
    have ih := ih (fun w hw => hf w (by simp [hw])) (tiesApart_tail h)
    cases l with
    | nil =>
      intro pre post a b e
      have := congrArg List.length e
      simp at this
      omega
    | cons w l =>
      rw [List.map_cons, List.map_cons]
      refine tiesApart_cons.2 ⟨?_, ih⟩
      rcases (tiesApart_cons.1 h).1 with h | h
      · exact .inl (hf v (by simp) h)
      · exact .inr (hf w (by simp) h)

/-- dropping only lines with ties keeps them apart -/
theorem tiesApart_filter (p : Voteline → Bool) (l : List Voteline) (hp : ∀ v ∈ l, p v = false → ¬ Untied v) (h : TiesApart l) :
    TiesApart (l.filter p) := by
  have key : ∀ (l : List Voteline), (∀ v ∈ l, p v = false → ¬ Untied v) → TiesApart l →
      TiesApart (l.filter p) ∧ ∀ v, ¬ Untied v → TiesApart (v :: l) → TiesApart (v :: l.filter p) := by
    intro l
    induction l with
    | nil => intro _ h; exact ⟨h, fun v _ hv => hv⟩
    | cons w l ih =>
      intro hp h
      obtain ⟨i1, i2⟩ := ih (fun v hv => hp v (by simp [hv])) (tiesApart_tail h)
      cases hw : p w with
      | false =>
        rw [List.filter_cons_of_neg (by simp [hw])]
        have hnw := hp w (by simp) hw
        refine ⟨i1, fun v hv hvl => ?_⟩
        exfalso
        rcases (tiesApart_cons.1 hvl).1 with h | h
        · exact hv h
        · exact hnw h
      | true =>
        rw [List.filter_cons_of_pos hw]
        have hwl : TiesApart (w :: l.filter p) := by
          by_cases hu : Untied w
          · exact tiesApart_untied hu i1
          · exact i2 w hu h
        refine ⟨hwl, fun v hv hvl => tiesApart_cons.2 ⟨(tiesApart_cons.1 hvl).1, hwl⟩⟩
  exact (key l hp h).1

theorem tiesApart_adjacent {l : List Voteline} (hg : ∀ vl ∈ l, CountLine vl) (h : TiesApart l) : adjacentOvervotes l = false := by
  induction l with
  | nil => rfl
  | cons v l ih =>
    cases l with
    | nil => rfl
    | cons w l =>
      unfold adjacentOvervotes
      rw [ih (fun x hx => hg x (by simp [List.mem_cons.1 hx])) (tiesApart_tail h)]
      rcases (tiesApart_cons.1 h).1 with hu | hu
      · rw [strict_not_overvoted (hg v (by simp)).wf hu]; rfl
      · rw [strict_not_overvoted (hg w (by simp)).wf hu]; simp

theorem overvoted_tied {l : List Voteline} (hg : ∀ vl ∈ l, CountLine vl) :
    ∀ v ∈ l, (fun vl => !overvoted vl) v = false → ¬ Untied v := by
  intro v hv ho hu
  have := strict_not_overvoted (hg v hv).wf hu
  simp [this] at ho

/-- the count does not depend on the order of the votelines, as long as lines with ties are not neighbours -/
theorem irvCount_spaced (S : Sched) : ∀ (n : Nat) (prev : Option RoundMeta) (rn : Nat) (cands : List Str)
    (vls vls' : List Voteline), IrvState cands vls → cands ≠ [] → (∀ vl ∈ vls, CountLine vl) → TiesApart vls → TiesApart vls' →
    vls'.Perm vls → irvCount S n prev rn cands vls' = irvCount S n prev rn cands vls
  | 0, _, _, _, _, _, _, _, _, _, _, _ => rfl
  | n + 1, prev, rn, cands, vls, vls', hs, hne, hg, hst, hst', hp => by
    have hs' := hs.perm hp
    have hg' : ∀ vl ∈ vls', CountLine vl := fun v hv => hg v (hp.mem_iff.1 hv)
    obtain ⟨q, kept, mn, mx, k1, k2, k3, a1, a2, b1, b2, h⟩ := irvRound_eq S prev rn hs hne
    obtain ⟨q', kept', mn', mx', k1', k2', k3', a1', a2', b1', b2', h'⟩ := irvRound_eq S prev rn hs' hne
    rw [discard_eq vls hg (tiesApart_adjacent hg hst)] at k1
    rw [discard_eq vls' hg' (tiesApart_adjacent hg' hst')] at k1'
    have hk : vls.filter (fun vl => !overvoted vl) = kept := congrArg Prod.snd (Except.ok.inj k1)
    have hk' : vls'.filter (fun vl => !overvoted vl) = kept' := congrArg Prod.snd (Except.ok.inj k1')
    have hv : qtySum overvoted vls = q := congrArg Prod.fst (Except.ok.inj k1)
    have hv' : qtySum overvoted vls' = q' := congrArg Prod.fst (Except.ok.inj k1')
    have hpf : kept'.Perm kept := by
      rw [← hk, ← hk']
      exact hp.filter _
    have hqq : q' = q := by
      rw [← hv, ← hv']
      exact qtySum_perm _ hp
    have hkg : ∀ vl ∈ kept, CountLine vl := fun v hv => hg v (by
      rw [← hk] at hv
      exact (List.mem_filter.1 hv).1)
    have hsp : TiesApart kept := by
      rw [← hk]
      exact tiesApart_filter _ _ (overvoted_tied hg) hst
    have hsp' : TiesApart kept' := by
      rw [← hk']
      exact tiesApart_filter _ _ (overvoted_tied hg') hst'
    have hwk : ∀ vl ∈ kept, Dict.WF vl.prefs := fun v hv => (hkg v hv).wf
    have hwk' : ∀ vl ∈ kept', Dict.WF vl.prefs := fun v hv => hwk v (hpf.mem_iff.1 hv)
    subst hqq
    clear k1 k1' hv hv'
    have ht : tally kept' = tally kept := by
      funext c; exact qtySum_perm _ hpf
    have hex : exhaustedQty kept' = exhaustedQty kept := qtySum_perm _ hpf
    have hq : qtot kept' = qtot kept := qtot_perm hpf
    have hqv : qtot vls' = qtot vls := qtot_perm hp
    have hmn : mn' = mn := by
      obtain ⟨x, hx, rfl⟩ := a1; obtain ⟨y, hy, rfl⟩ := a1'
      have h1 := a2 y hy; have h2 := a2' x hx
      rw [ht] at h2 ⊢; omega
    have hmx : mx' = mx := by
      obtain ⟨x, hx, rfl⟩ := b1; obtain ⟨y, hy, rfl⟩ := b1'
      have h1 := b2 y hy; have h2 := b2' x hx
      rw [ht] at h2 ⊢; omega
    subst hmn; subst hmx
    have hc : countsOf cands kept' = countsOf cands kept := by unfold countsOf; rw [ht]
    have htot : totalOf cands kept' = totalOf cands kept := by unfold totalOf; rw [ht]
    have hel : elimOf S rn cands kept' mn' mx' = elimOf S rn cands kept mn' mx' := by unfold elimOf; rw [hc, ht]
    have hinfo : infoOf S prev rn cands vls' q' kept' mn' mx' = infoOf S prev rn cands vls q' kept mn' mx' := by
      unfold infoOf; rw [hq, hqv, hex, htot, ht, hel]
    have hld : leaders cands kept' mx' = leaders cands kept mx' := by unfold leaders; rw [ht]
    unfold irvCount
    rcases h with ⟨x, h⟩ | ⟨x, h⟩ <;> rcases h' with ⟨x', h'⟩ | ⟨x', h'⟩
    · rw [h, h', hc, hinfo, hld]
    · rw [htot] at x'; omega
    · rw [htot] at x'; omega
    · rw [h, h', hc, hinfo, hel, ok_bind, ok_bind]
      simp only
      have hnn := (next_nonempty (S := S) (rn := rn) a1 a2 b1 x.1).1
      rw [irvCount_spaced S n _ _ _ _ _ (next_state (S := S) (rn := rn) hs k2 _) hnn]
      · intro vl hv
        rw [eliminate_eq _ _ hwk] at hv
        obtain ⟨v, hv', rfl⟩ := List.mem_map.1 hv
        exact countLine_filter (hkg v hv') _
      · rw [eliminate_eq _ _ hwk]
        exact tiesApart_map _ (fun v _ hu => strict_filter hu (fun c => decide (c ∉ _))) hsp
      · rw [eliminate_eq _ _ hwk']
        exact tiesApart_map _ (fun v _ hu => strict_filter hu (fun c => decide (c ∉ _))) hsp'
      · exact eliminate_perm hwk hpf

/-- C36, also for ballots that rank candidates equally, as long as in neither order two such lines follow one another: the order of
the votelines changes nothing at all in the count.  MISSING from C36: neighbouring lines with ties, where the code skips every
second overvote (see `C36_refuted`). -/
theorem C36_spaced_partial (S : Sched) (m : Jabmod) (hc : Countable m) (hb : RanksBelowInfinity m) (hne : m.candidates ≠ [])
    (vls : List Voteline) (hp : vls.Perm m.votelines) (h1 : TiesApart m.votelines) (h2 : TiesApart vls) :
    irvDict S { m with votelines := vls } = irvDict S m := by
  have hne' : Dict.keys m.candidates ≠ [] := by
    intro h; apply hne; simpa [Dict.keys] using h
  have := irvCount_spaced S (m.candidates.length + 1) none 1 _ m.votelines vls hc.state hne' (good_of hc hb) h1 h2 hp
  unfold irvDict
  simp only
  rw [this]

/-- in particular a single line with ties among untied ones may stand anywhere -/
theorem C36_one_tied_partial (S : Sched) (m : Jabmod) (hc : Countable m) (hb : RanksBelowInfinity m) (hne : m.candidates ≠ [])
    (vls : List Voteline) (hp : vls.Perm m.votelines) (a b : List Voteline) (t : Voteline) (hm : m.votelines = a ++ t :: b)
    (hu : ∀ v ∈ a ++ b, Untied v) : irvDict S { m with votelines := vls } = irvDict S m := by
  have single : ∀ (l a b : List Voteline), l = a ++ t :: b → (∀ v ∈ a ++ b, Untied v) → TiesApart l := by
    rintro l a b rfl hu pre post x y e
    induction a generalizing pre with
    | nil =>
      cases pre with
      | nil => cases e; exact .inr (hu y (by simp))
      | cons p pre =>
        simp only [List.nil_append, List.cons_append, List.cons.injEq] at e
        exact .inl (hu x (by rw [e.2]; simp))
    | cons c a ih =>
      cases pre with
      | nil =>
        simp only [List.nil_append, List.cons_append, List.cons.injEq] at e
        exact .inl (hu x (by rw [← e.1]; simp))
      | cons p pre =>
        simp only [List.cons_append, List.cons.injEq] at e
        exact ih (fun v hv => hu v (by simp at hv ⊢; tauto)) pre e.2
  have hmem : t ∈ vls := hp.mem_iff.2 (by rw [hm]; simp)
  obtain ⟨a', b', hv⟩ := List.append_of_mem hmem
  have hperm : (a' ++ b').Perm (a ++ b) := by
    have h1 : (t :: (a' ++ b')).Perm (t :: (a ++ b)) := by
      have := hp
      rw [hv, hm] at this
      exact (List.perm_middle.symm.trans this).trans List.perm_middle
    exact List.Perm.cons_inv h1
  exact C36_spaced_partial S m hc hb hne vls hp (single _ a b hm hu)
    (single _ a' b' hv (fun v hv => hu v (hperm.mem_iff.1 hv)))

section
attribute [local instance] Uni.ascii
set_option maxRecDepth 20000

/-- whether the line ranks no two candidates equally -/
def untiedLine (vl : Voteline) : Bool :=
  (Dict.keys vl.prefs).all fun a => (Dict.keys vl.prefs).all fun b => a == b || prefers vl a b || prefers vl b a

theorem untied_of (vl : Voteline) (h : untiedLine vl = true) : Untied vl := by
  intro a ha b hb hab
  unfold untiedLine at h
  have := List.all_eq_true.1 (List.all_eq_true.1 h a ha) b hb
  simp [hab] at this
  exact this

/-- two overvoted lines with an untied one between them, and a later tie -/
def spacedText : Str := c!"5:A=B>C\n4:C>A>B\n3:A=B>C\n2:B>C\n1:A>B=C\n"

/-- non-vacuity: these lines, read from a file, have their ties apart, and there are ties -/
example : ∃ m d, convertAbif true false false spacedText = .ok m ∧ irvDict Sched.std m = .ok d ∧
    TiesApart m.votelines ∧ (∃ v ∈ m.votelines, ¬ Untied v) ∧
    irvDict Sched.std { m with votelines := m.votelines.reverse } = irvDict Sched.std m := by
  obtain ⟨m, d, h1, h2, h3⟩ := counts_exists (S := Sched.std) (text := spacedText) (P := fun m d =>
    match m.votelines with
    | [v1, v2, v3, v4, v5] => untiedLine v2 && untiedLine v4 && overvoted v1
    | _ => false) (by decide +kernel)
  have hsp : TiesApart m.votelines ∧ TiesApart m.votelines.reverse ∧ ∃ v ∈ m.votelines, ¬ Untied v := by
    split at h3
    · rename_i v1 v2 v3 v4 v5 he
      simp only [Bool.and_eq_true] at h3
      obtain ⟨⟨g2, g4⟩, g1⟩ := h3
      have u2 := untied_of _ g2
      have u4 := untied_of _ g4
      have hnil : TiesApart [] := by intro pre post a b e; cases pre <;> cases e
      have one : ∀ v : Voteline, TiesApart [v] := by
        intro v pre post a b e
        have := congrArg List.length e
        simp at this
        omega
      rw [he]
      refine ⟨tiesApart_cons.2 ⟨.inr u2, tiesApart_cons.2 ⟨.inl u2, tiesApart_cons.2 ⟨.inr u4, tiesApart_cons.2 ⟨.inl u4, one _⟩⟩⟩⟩, ?_, v1, by simp, ?_⟩
      · show TiesApart [v5, v4, v3, v2, v1]
        exact tiesApart_cons.2 ⟨.inr u4, tiesApart_cons.2 ⟨.inl u4, tiesApart_cons.2 ⟨.inr u2, tiesApart_cons.2 ⟨.inl u2, one _⟩⟩⟩⟩
      · intro hu
        have hw := (parsed_countable _ _ _ _ _ h1).dicts v1 (by rw [he]; simp)
        rw [strict_not_overvoted hw hu] at g1
        cases g1
    · cases h3
  refine ⟨m, d, h1, h2, hsp.1, hsp.2.2, ?_⟩
  refine C36_spaced_partial _ m (parsed_countable _ _ _ _ _ h1) (parsed_below _ _ _ _ _ h1 (by decide)) ?_ _ (List.reverse_perm _) hsp.1 hsp.2.1
  intro he
  have := irvDict_nonempty (parsed_countable _ _ _ _ _ h1) h2
  apply this
  rw [he]
  rfl

end

end Verif.Props
