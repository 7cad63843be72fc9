/-
C98: instant runoff and the lower part of ballots; what it does not guarantee.
-/
import Verif.Lib.IrvSim
import Verif.Props.Irv
import Verif.Props.Order
import Verif.Props.CopelandTheory
import Verif.Props.ScoreTheory

set_option linter.unusedSimpArgs false
set_option linter.unusedSectionVars false

namespace Verif.Props
open Spec

/-- The candidates a voteline lists at or above the place of `c`: the listed ones to which `c` is not preferred.  All the listed
ones if `c` is not listed. -/
def upTo (c : Str) (v : Voteline) : List Str := (Dict.keys v.prefs).filter (fun d => !prefers v c d)

/-- The two lines say the same down to `c`: they list the same candidates at or above `c`, in the same order. -/
def SameDownTo (c : Str) (v w : Voteline) : Prop := (∀ d, d ∈ upTo c v ↔ d ∈ upTo c w) ∧ AgreeOn (upTo c v) v w

/-- `c` shares its place on the line with nobody. -/
def AloneOn (c : Str) (v : Voteline) : Prop :=
  c ∈ Dict.keys v.prefs → ∀ d ∈ Dict.keys v.prefs, d ≠ c → prefers v c d = true ∨ prefers v d c = true

theorem mem_upTo {c d : Str} {v : Voteline} : d ∈ upTo c v ↔ d ∈ Dict.keys v.prefs ∧ prefers v c d = false := by
  unfold upTo
  rw [List.mem_filter]
  simp

theorem prefers_self (v : Voteline) (c : Str) : prefers v c c = false := by
  unfold prefers
  cases rankOf v c <;> simp

theorem self_upTo {c : Str} {v : Voteline} : c ∈ upTo c v ↔ c ∈ Dict.keys v.prefs := by
  rw [mem_upTo]
  simp [prefers_self]

theorem listed_of_prefers {v : Voteline} {a b : Str} (h : prefers v a b = true) : a ∈ Dict.keys v.prefs := by
  by_contra hn
  unfold prefers rankOf at h
  rw [Dict.get?_eq_none.2 hn] at h
  simp at h

theorem SameDownTo.symm {c : Str} {v w : Voteline} (h : SameDownTo c v w) : SameDownTo c w v :=
  ⟨fun d => (h.1 d).symm, fun a ha b hb => (h.2 a ((h.1 a).2 ha) b ((h.1 b).2 hb)).symm⟩

theorem sameDownTo_listed {c : Str} {v w : Voteline} (h : SameDownTo c v w) : c ∈ Dict.keys v.prefs ↔ c ∈ Dict.keys w.prefs := by
  rw [← self_upTo, ← self_upTo, h.1]

/-- whoever is not listed down to `c` is below `c` and below everybody who is -/
theorem above_rest {c a e : Str} {v : Voteline} (hal : AloneOn c v) (ha : a ∈ upTo c v) (he : e ∈ Dict.keys v.prefs) (hn : e ∉ upTo c v) :
    prefers v a e = true ∧ prefers v c e = true := by
  have hce : prefers v c e = true := by
    cases h : prefers v c e with
    | true => rfl
    | false => exact absurd (mem_upTo.2 ⟨he, h⟩) hn
  refine ⟨?_, hce⟩
  obtain ⟨ha1, ha2⟩ := mem_upTo.1 ha
  by_cases hac : a = c
  · rw [hac]; exact hce
  · rcases hal (listed_of_prefers hce) a ha1 hac with h | h
    · rw [ha2] at h; cases h
    · exact prefers_trans_left h hce

theorem not_prefers_of_prefers {v : Voteline} {a b : Str} (h : prefers v a b = true) : prefers v b a = false := by
  cases h' : prefers v b a with
  | false => rfl
  | true =>
    have := prefers_trans_left h h'
    rw [prefers_self] at this
    cases this

theorem firstAlone_upTo {c d : Str} {v : Voteline} (hal : AloneOn c v) (h : firstAlone d v = true) : d ∈ upTo c v := by
  unfold firstAlone at h
  simp only [Bool.and_eq_true, decide_eq_true_eq, List.all_eq_true, Bool.or_eq_true, Bool.not_eq_true', List.any_eq_true] at h
  obtain ⟨⟨h1, h2⟩, h3⟩ := h
  by_contra hn
  have hcd : prefers v c d = true := by
    cases h : prefers v c d with
    | true => rfl
    | false => exact absurd (mem_upTo.2 ⟨h1, h⟩) hn
  have hc := listed_of_prefers hcd
  rcases h3 c hc with h | ⟨e, he, hec, hi⟩
  · rw [hcd] at h; cases h
  · unfold indifferent at hi
    simp only [Bool.and_eq_true, Bool.not_eq_true'] at hi
    rcases hal hc e he hec with h | h
    · rw [hi.1] at h; cases h
    · rw [hi.2] at h; cases h

theorem firstAlone_sameDownTo {c : Str} {v w : Voteline} (h : SameDownTo c v w) (hv : AloneOn c v) (hw : AloneOn c w) (d : Str) :
    firstAlone d v = firstAlone d w := by
  have key : ∀ v w : Voteline, SameDownTo c v w → AloneOn c v → AloneOn c w → firstAlone d v = true → firstAlone d w = true := by
    intro v w h hv hw hf
    have hd := firstAlone_upTo hv hf
    have hd' := (h.1 d).1 hd
    have hind : ∀ a ∈ upTo c v, ∀ b ∈ upTo c v, indifferent v a b = indifferent w a b := by
      intro a ha b hb
      unfold indifferent
      rw [h.2 a ha b hb, h.2 b hb a ha]
    unfold firstAlone at hf ⊢
    simp only [Bool.and_eq_true, decide_eq_true_eq, List.all_eq_true, Bool.or_eq_true, Bool.not_eq_true', List.any_eq_true] at hf ⊢
    obtain ⟨⟨h1, h2⟩, h3⟩ := hf
    refine ⟨⟨(mem_upTo.1 hd').1, fun e he => ?_⟩, fun e he => ?_⟩
    · by_cases heu : e ∈ upTo c w
      · have hev := (h.1 e).2 heu
        rw [← hind d hd e hev]
        exact h2 e (mem_upTo.1 hev).1
      · right
        unfold indifferent
        rw [(above_rest hw hd' he heu).1]
        rfl
    · by_cases heu : e ∈ upTo c w
      · have hev := (h.1 e).2 heu
        rw [← h.2 e hev d hd]
        rcases h3 e (mem_upTo.1 hev).1 with k | ⟨f, hf, k1, k2⟩
        · exact .inl k
        · right
          have hfu : f ∈ upTo c v := by
            by_contra hfn
            have := (above_rest hv hev hf hfn).1
            unfold indifferent at k2
            rw [this] at k2
            simp at k2
          exact ⟨f, (mem_upTo.1 ((h.1 f).1 hfu)).1, k1, by rw [← hind e hev f hfu]; exact k2⟩
      · left
        exact not_prefers_of_prefers (above_rest hw hd' he heu).1
  rw [Bool.eq_iff_iff]
  exact ⟨key v w h hv hw, key w v h.symm hw hv⟩

theorem tops_sameDownTo {c : Str} {v w : Voteline} (h : SameDownTo c v w) (hv : AloneOn c v) (hw : AloneOn c w) (d : Str) :
    d ∈ tops v ↔ d ∈ tops w := by
  have key : ∀ v w : Voteline, SameDownTo c v w → AloneOn c v → AloneOn c w → d ∈ tops v → d ∈ tops w := by
    intro v w h hv hw hd
    rw [mem_tops] at hd ⊢
    have hdu : d ∈ upTo c v := by
      refine mem_upTo.2 ⟨hd.1, ?_⟩
      by_cases hc : c ∈ Dict.keys v.prefs
      · exact hd.2 c hc
      · cases hp : prefers v c d with
        | false => rfl
        | true => exact absurd (listed_of_prefers hp) hc
    have hdw := (h.1 d).1 hdu
    refine ⟨(mem_upTo.1 hdw).1, fun e he => ?_⟩
    by_cases heu : e ∈ upTo c w
    · have hev := (h.1 e).2 heu
      rw [← h.2 e hev d hdu]
      exact hd.2 e (mem_upTo.1 hev).1
    · exact not_prefers_of_prefers (above_rest hw hdw he heu).1
  exact ⟨key v w h hv hw, key w v h.symm hw hv⟩

theorem overvoted_sameDownTo {c : Str} {v w : Voteline} (h : SameDownTo c v w) (hv : AloneOn c v) (hw : AloneOn c w)
    (wv : Dict.WF v.prefs) (ww : Dict.WF w.prefs) : overvoted v = overvoted w := by
  have n1 : (tops v).Nodup := List.Nodup.sublist List.filter_sublist wv
  have n2 : (tops w).Nodup := List.Nodup.sublist List.filter_sublist ww
  have hp : (tops v).Perm (tops w) := (List.perm_ext_iff_of_nodup n1 n2).2 (tops_sameDownTo h hv hw)
  unfold overvoted
  rw [hp.length_eq]

theorem topOf_sameDownTo {c : Str} {v w : Voteline} (h : SameDownTo c v w) (hv : AloneOn c v) (hw : AloneOn c w) (cv : CountLine v)
    (cw : CountLine w) : topOf v = topOf w := by
  apply Option.ext
  intro d
  have h1 := topOf_exact cv d
  have h2 := topOf_exact cw d
  rw [firstAlone_sameDownTo h hv hw, ← h2] at h1
  have := Bool.eq_iff_iff.1 h1
  simpa using this

theorem mem_upTo_filter {c d : Str} {v : Voteline} {p : Str → Bool} (hc : p c = true) :
    d ∈ upTo c { v with prefs := v.prefs.filter (fun e => p e.1) } ↔ d ∈ upTo c v ∧ p d = true := by
  rw [mem_upTo, mem_upTo]
  show d ∈ Dict.keys (v.prefs.filter (fun e => p e.1)) ∧ _ ↔ _
  rw [mem_keys_filterKey]
  constructor
  · rintro ⟨⟨h1, h2⟩, h3⟩
    rw [prefers_filter hc h2] at h3
    exact ⟨⟨h1, h3⟩, h2⟩
  · rintro ⟨⟨h1, h3⟩, h2⟩
    refine ⟨⟨h1, h2⟩, ?_⟩
    rw [prefers_filter hc h2]; exact h3

theorem sameDownTo_filter {c : Str} {v w : Voteline} (h : SameDownTo c v w) {p : Str → Bool} (hc : p c = true) :
    SameDownTo c { v with prefs := v.prefs.filter (fun e => p e.1) } { w with prefs := w.prefs.filter (fun e => p e.1) } := by
  refine ⟨fun d => ?_, ?_⟩
  · rw [mem_upTo_filter hc, mem_upTo_filter hc, h.1]
  · intro a ha b hb
    obtain ⟨ha1, ha2⟩ := (mem_upTo_filter hc).1 ha
    obtain ⟨hb1, hb2⟩ := (mem_upTo_filter hc).1 hb
    rw [prefers_filter ha2 hb2, prefers_filter ha2 hb2]
    exact h.2 a ha1 b hb1

theorem aloneOn_filter {c : Str} {v : Voteline} (h : AloneOn c v) {p : Str → Bool} (hc : p c = true) :
    AloneOn c { v with prefs := v.prefs.filter (fun e => p e.1) } := by
  intro h1 d hd hne
  obtain ⟨h1, _⟩ := mem_keys_filterKey.1 h1
  obtain ⟨hd1, hd2⟩ := mem_keys_filterKey.1 hd
  rw [prefers_filter hc hd2, prefers_filter hd2 hc]
  exact h h1 d hd1 hne

/-- two counts whose votelines stay, as long as `c` continues, in a relation that fixes every number of the round, are equal if `c`
wins one of them -/
theorem irvCount_sim_until (S : Sched) (c : Str) (R : List Voteline → List Voteline → Prop)
    (hR : ∀ vls vls', R vls vls' → ∃ q kept kept', discardOvervotes vls = .ok (q, kept) ∧ discardOvervotes vls' = .ok (q, kept') ∧
      (∀ d, tally kept' d = tally kept d) ∧ exhaustedQty kept' = exhaustedQty kept ∧ qtot vls' = qtot vls ∧ qtot kept' = qtot kept ∧
      ∀ el, c ∉ el → R (eliminateCands el kept) (eliminateCands el kept')) :
    ∀ (n : Nat) (prev : Option RoundMeta) (rn : Nat) (cands : List Str) (vls vls' : List Voteline), IrvState cands vls →
      IrvState cands vls' → cands ≠ [] → R vls vls' → ∀ run run', irvCount S n prev rn cands vls = .ok run →
      irvCount S n prev rn cands vls' = .ok run' → c ∈ run.winner ∨ c ∈ run'.winner → run' = run
  | 0, _, _, _, _, _, _, _, _, _, _, _, h, _, _ => by cases h
  | n + 1, prev, rn, cands, vls, vls', hs, hs', hne, hrel, run, run', hrun, hrun', hwin => by
    obtain ⟨q, kept, mn, mx, k1, k2, k3, a1, a2, b1, b2, h⟩ := irvRound_eq S prev rn hs hne
    obtain ⟨q', kept', mn', mx', k1', k2', k3', a1', a2', b1', b2', h'⟩ := irvRound_eq S prev rn hs' hne
    obtain ⟨q0, kept0, kept0', e1, e2, ht0, hex, hq, hqk, hnext⟩ := hR _ _ hrel
    have i1 := k1.symm.trans e1
    have i2 := k1'.symm.trans e2
    injection i1 with i1; injection i2 with i2
    injection i1 with i1 j1; injection i2 with i2 j2
    subst i1; subst i2; subst j1; subst j2
    have ht : tally kept' = tally kept := funext ht0
    have hmn : mn' = mn := by
      obtain ⟨x, hx, rfl⟩ := a1; obtain ⟨y, hy, rfl⟩ := a1'
      have h1 := a2 y hy; have h2 := a2' x hx
      rw [ht] at h2 ⊢; omega
    have hmx : mx' = mx := by
      obtain ⟨x, hx, rfl⟩ := b1; obtain ⟨y, hy, rfl⟩ := b1'
      have h1 := b2 y hy; have h2 := b2' x hx
      rw [ht] at h2 ⊢; omega
    subst hmn; subst hmx
    have hc : countsOf cands kept' = countsOf cands kept := by unfold countsOf; rw [ht]
    have htot : totalOf cands kept' = totalOf cands kept := by unfold totalOf; rw [ht]
    have hel : elimOf S rn cands kept' mn' mx' = elimOf S rn cands kept mn' mx' := by unfold elimOf; rw [hc, ht]
    have hinfo : infoOf S prev rn cands vls' q' kept' mn' mx' = infoOf S prev rn cands vls q' kept mn' mx' := by
      unfold infoOf; rw [hq, hqk, hex, htot, ht, hel]
    have hld : leaders cands kept' mx' = leaders cands kept mx' := by unfold leaders; rw [ht]
    unfold irvCount at hrun hrun'
    rcases h with ⟨x, h⟩ | ⟨x, h⟩ <;> rcases h' with ⟨x', h'⟩ | ⟨x', h'⟩
    · rw [h, ok_bind] at hrun
      rw [h', ok_bind, hc, hinfo, hld] at hrun'
      simp only at hrun hrun'
      rw [← Except.ok.inj hrun, ← Except.ok.inj hrun']
    · rw [htot] at x'; omega
    · rw [htot] at x'; omega
    · rw [h, ok_bind] at hrun
      rw [h', ok_bind, hc, hinfo, hel] at hrun'
      simp only at hrun hrun'
      obtain ⟨t, ht1, ht2⟩ := bind_ok.1 hrun
      obtain ⟨t', ht1', ht2'⟩ := bind_ok.1 hrun'
      have hnn := (next_nonempty (S := S) (rn := rn) a1 a2 b1 x.1).1
      have st := next_state (S := S) (rn := rn) hs k2 (elimOf S rn cands kept mn' mx').eliminated
      have st' := next_state (S := S) (rn := rn) hs' k2' (elimOf S rn cands kept mn' mx').eliminated
      have hw : c ∈ t.winner ∨ c ∈ t'.winner := by
        rw [← Except.ok.inj ht2, ← Except.ok.inj ht2'] at hwin
        exact hwin
      have hcin : c ∉ (elimOf S rn cands kept mn' mx').eliminated := by
        have : c ∈ S.setOrder rn (cands.filter (fun c => c ∉ (elimOf S rn cands kept mn' mx').eliminated)) := by
          rcases hw with hw | hw
          · exact (run_lengths (irvCount_steps ht1) st hnn).2.2.2.2.2 c hw
          · exact (run_lengths (irvCount_steps ht1') st' hnn).2.2.2.2.2 c hw
        rw [(S.setOrder_perm rn _).mem_iff, List.mem_filter] at this
        simpa using this.2
      have := irvCount_sim_until S c R hR n _ _ _ _ _ st st' hnn (hnext _ hcin) t t' ht1 ht1' hw
      rw [← Except.ok.inj ht2, ← Except.ok.inj ht2', this]

/-- C98.  What voters say below `c` does not matter for `c` (later-no-harm, later-no-help): if two elections differ only in what
the lines say below `c`, and no line ranks `c` equal to another candidate, then `c` is among the winners of both instant-runoff
counts or of neither, whatever happens by chance; and if it is, the two counts are the same, round by round. -/
theorem C98_later (S : Sched) (m m' : Jabmod) (hcd : m'.candidates = m.candidates) (hm : Spec.Countable m) (hm' : Spec.Countable m')
    (hb : RanksBelowInfinity m) (hb' : RanksBelowInfinity m') (c : Str)
    (h : List.Forall₂ (fun v w => v.qty = w.qty ∧ SameDownTo c v w ∧ AloneOn c v ∧ AloneOn c w) m.votelines m'.votelines)
    (d d' : IrvDict) (hd : irvDict S m = .ok d) (hd' : irvDict S m' = .ok d') :
    (c ∈ d.run.winner ↔ c ∈ d'.run.winner) ∧ (c ∈ d.run.winner → d' = d) := by
  suffices hsame : c ∈ d.run.winner ∨ c ∈ d'.run.winner → d' = d by
    refine ⟨⟨fun hc => ?_, fun hc => ?_⟩, fun hc => hsame (.inl hc)⟩
    · rw [hsame (.inl hc)]; exact hc
    · rw [← hsame (.inr hc)]; exact hc
  intro hwin
  unfold irvDict at hd hd'
  rw [hcd] at hd'
  obtain ⟨run, hrun, hd⟩ := bind_ok.1 hd
  obtain ⟨run', hrun', hd'⟩ := bind_ok.1 hd'
  obtain ⟨ws, hws, hd⟩ := bind_ok.1 hd
  obtain ⟨ws', hws', hd'⟩ := bind_ok.1 hd'
  cases hd
  cases hd'
  have hne : Dict.keys m.candidates ≠ [] := by
    intro h0
    have := irvCount_nocands S m hm h0
    rw [hrun] at this
    cases this
  have hs' := hm'.state
  rw [hcd] at hs'
  have key := irvCount_sim_until S c
    (fun l l' => List.Forall₂ (fun v w => v.qty = w.qty ∧ (SameDownTo c v w ∧ AloneOn c v ∧ AloneOn c w) ∧ CountLine v ∧ CountLine w) l l')
    ?_ _ none 1 _ m.votelines m'.votelines hm.state hs' hne ?_ run run' hrun hrun' hwin
  · subst key
    rw [hws] at hws'
    cases hws'
    rfl
  · intro l l' hl
    have g1 : ∀ v ∈ l, CountLine v := by
      clear h hd hd' hrun hrun' hs' hwin
      induction hl with
      | nil => simp
      | cons h _ ih => intro v hv; rcases List.mem_cons.1 hv with rfl | hv; exacts [h.2.2.1, ih v hv]
    have g2 : ∀ v ∈ l', CountLine v := by
      clear h hd hd' hrun hrun' hs' hwin g1
      induction hl with
      | nil => simp
      | cons h _ ih => intro v hv; rcases List.mem_cons.1 hv with rfl | hv; exacts [h.2.2.2, ih v hv]
    have hk : ∀ b, List.Forall₂ (fun v w => v.qty = w.qty ∧ (SameDownTo c v w ∧ AloneOn c v ∧ AloneOn c w) ∧ CountLine v ∧ CountLine w)
        (keptFrom b l) (keptFrom b l') ∧ qtot (thrownFrom b l) = qtot (thrownFrom b l') := by
      clear h hd hd' hrun hrun' hs' hwin g1 g2
      induction hl with
      | nil => intro b; exact ⟨.nil, rfl⟩
      | @cons v w l l' h _ ih =>
        intro b
        have ho := overvoted_sameDownTo h.2.1.1 h.2.1.2.1 h.2.1.2.2 h.2.2.1.wf h.2.2.2.wf
        unfold keptFrom thrownFrom
        rw [ho]
        cases overvoted w <;> cases b <;> simp only [if_true, Bool.false_eq_true, if_false]
        · exact ⟨.cons h (ih _).1, (ih _).2⟩
        · exact ⟨.cons h (ih _).1, (ih _).2⟩
        · exact ⟨(ih _).1, by rw [qtot_cons, qtot_cons, (ih _).2, h.1]⟩
        · exact ⟨.cons h (ih _).1, (ih _).2⟩
    have hq : ∀ (l l' : List Voteline), List.Forall₂ (fun v w => v.qty = w.qty ∧ (SameDownTo c v w ∧ AloneOn c v ∧ AloneOn c w) ∧
        CountLine v ∧ CountLine w) l l' →
        qtot l' = qtot l ∧ (∀ t, qtySum (fun vl => topOf vl == t) l' = qtySum (fun vl => topOf vl == t) l) := by
      intro l l' h
      induction h with
      | nil => exact ⟨rfl, fun _ => rfl⟩
      | @cons v w l l' h _ ih =>
        refine ⟨by rw [qtot_cons, qtot_cons, ih.1, h.1], fun t => ?_⟩
        rw [qtySum_cons, qtySum_cons, ih.2 t, h.1, topOf_sameDownTo h.2.1.1 h.2.1.2.1 h.2.1.2.2 h.2.2.1 h.2.2.2]
    have kk := hq _ _ (hk false).1
    refine ⟨qtot (thrownFrom false l), keptFrom false l, keptFrom false l', discard_from _ g1, ?_, fun c => kk.2 _, kk.2 _, (hq _ _ hl).1, kk.1, ?_⟩
    · rw [discard_from _ g2, (hk false).2]
    · intro el hel
      rw [eliminate_eq el _ (fun v hv => (g1 v ((keptFrom_sub _ _).subset hv)).wf),
        eliminate_eq el _ (fun v hv => (g2 v ((keptFrom_sub _ _).subset hv)).wf)]
      rw [List.forall₂_map_left_iff, List.forall₂_map_right_iff]
      have hp : (fun x => decide (x ∉ el)) c = true := by simpa using hel
      exact (hk false).1.imp (fun v w h => ⟨h.1, ⟨sameDownTo_filter (p := fun x => decide (x ∉ el)) h.2.1.1 hp,
          aloneOn_filter (p := fun x => decide (x ∉ el)) h.2.1.2.1 hp, aloneOn_filter (p := fun x => decide (x ∉ el)) h.2.1.2.2 hp⟩,
        countLine_filter h.2.2.1 _, countLine_filter h.2.2.2 _⟩)
  · have c1 := good_of hm hb
    have c2 := good_of hm' hb'
    generalize m.votelines = l, m'.votelines = l' at h c1 c2
    clear hd hd' hrun hrun' hs' hwin
    induction h with
    | nil => exact .nil
    | cons h _ ih =>
      exact .cons ⟨h.1, h.2, c1 _ (by simp), c2 _ (by simp)⟩ (ih (fun v hv => c1 v (by simp [hv])) (fun v hv => c2 v (by simp [hv])))

/-! ### what instant runoff does not guarantee -/
section
attribute [local instance] Uni.ascii
set_option maxRecDepth 40000

/-- winners and chance eliminations, for the examples -/
def irvOf (m : Jabmod) : Option (List Str) := (irvDict Sched.std m).toOption.map (fun d => d.run.winner)

theorem irvOf_some {m : Jabmod} {ws : List Str} (h : irvOf m = some ws) : ∃ d, irvDict Sched.std m = .ok d ∧ d.run.winner = ws := by
  unfold irvOf at h
  cases hd : irvDict Sched.std m with
  | error e => rw [hd] at h; cases h
  | ok d => rw [hd] at h; exact ⟨d, rfl, Option.some.inj h⟩

theorem sameDownTo_of {c : Str} {v w : Voteline} (h1 : ∀ d ∈ upTo c v, d ∈ upTo c w) (h2 : ∀ d ∈ upTo c w, d ∈ upTo c v)
    (h3 : ∀ a ∈ upTo c v, ∀ b ∈ upTo c v, prefers w a b = prefers v a b) : SameDownTo c v w :=
  ⟨fun d => ⟨h1 d, h2 d⟩, fun a ha b hb => (h3 a ha b hb).symm⟩

def monoText : Str := c!"39:A>B>C\n25:B>C>A\n26:C>A>B\n10:B>C>A\n"
/-- the last ten voters move A to the top -/
def monoText2 : Str := c!"39:A>B>C\n25:B>C>A\n26:C>A>B\n10:A>B>C\n"
def stayText : Str := c!"7:A>C>B\n6:B>A>C\n8:C>A>B\n"
/-- two voters more, who like A better than C -/
def goText : Str := c!"7:A>C>B\n6:B>A>C\n8:C>A>B\n2:B>A>C\n"
def tieLater : Str := c!"4:C>A>D\n3:C=A>B\n3:C=A>B\n2:B>A\n"
/-- the second of the two equal ballots names D instead of B in its last place -/
def tieLater2 : Str := c!"4:C>A>D\n3:C=A>B\n3:C=A>D\n2:B>A\n"
def laterText : Str := c!"5:A>C>B\n4:B>C>A\n3:C>B\n3:C>A\n"
def laterText2 : Str := c!"5:A>C\n4:B>C\n3:C>A>B\n3:C>A\n"

/-- Being ranked higher can cost the instant-runoff win: ten voters who move the winner A to the top, changing nothing else, make C win. -/
theorem C98_monotone_refuted : ∃ (m m' : Jabmod) (d d' : IrvDict),
    convertAbif true false false monoText = .ok m ∧ convertAbif true false false monoText2 = .ok m' ∧
    List.Forall₂ (fun v v' => v.qty = v'.qty ∧ Raises c!"A" v v') m.votelines m'.votelines ∧
    irvDict Sched.std m = .ok d ∧ d.run.winner = [c!"A"] ∧ irvDict Sched.std m' = .ok d' ∧ d'.run.winner = [c!"C"] := by
  obtain ⟨d, hd, hw⟩ := irvOf_some (m := readText monoText) (ws := [c!"A"]) (by decide +kernel)
  obtain ⟨d', hd', hw'⟩ := irvOf_some (m := readText monoText2) (ws := [c!"C"]) (by decide +kernel)
  refine ⟨_, _, d, d', readText_eq (by decide +kernel), readText_eq (by decide +kernel), ?_, hd, hw, hd', hw'⟩
  refine forall₂_of_zip (by decide +kernel) ?_
  have h : ∀ x ∈ (readText monoText).votelines.zip (readText monoText2).votelines,
      x.1.qty = x.2.qty ∧
      (∀ b ∈ [c!"A", c!"B", c!"C"], prefers x.1 c!"A" b = true → prefers x.2 c!"A" b = true) ∧
      (∀ b ∈ [c!"A", c!"B", c!"C"], prefers x.2 b c!"A" = true → prefers x.1 b c!"A" = true) ∧
      (∀ b ∈ [c!"A", c!"B", c!"C"], ∀ c ∈ [c!"A", c!"B", c!"C"], b ≠ c!"A" → c ≠ c!"A" → prefers x.2 b c = prefers x.1 b c) ∧
      (∀ b ∈ c!"A" :: [c!"A", c!"B", c!"C"], (rankOf x.1 b).isSome = (rankOf x.2 b).isSome) ∧
      (∀ c ∈ Dict.keys x.1.prefs ++ Dict.keys x.2.prefs, c ∈ [c!"A", c!"B", c!"C"]) := by decide +kernel
  intro x hx
  obtain ⟨g1, g3, g4, g5, g6, g7⟩ := h x hx
  exact ⟨g1, raises_of_listed [c!"A", c!"B", c!"C"] (fun c hc => g7 c (List.mem_append.2 hc)) g3 g4 g5 g6⟩

/-- Coming to vote can hurt: two voters who like A better than C join, and the win goes from A to C. -/
theorem C98_participation_refuted : ∃ (m m' : Jabmod) (v : Voteline) (d d' : IrvDict),
    convertAbif true false false stayText = .ok m ∧ convertAbif true false false goText = .ok m' ∧
    m'.votelines = m.votelines ++ [v] ∧ prefers v c!"A" c!"C" = true ∧
    irvDict Sched.std m = .ok d ∧ d.run.winner = [c!"A"] ∧ irvDict Sched.std m' = .ok d' ∧ d'.run.winner = [c!"C"] := by
  obtain ⟨d, hd, hw⟩ := irvOf_some (m := readText stayText) (ws := [c!"A"]) (by decide +kernel)
  obtain ⟨d', hd', hw'⟩ := irvOf_some (m := readText goText) (ws := [c!"C"]) (by decide +kernel)
  have hlast : ∃ v, (readText goText).votelines.getLast? = some v ∧ (readText goText).votelines = (readText stayText).votelines ++ [v] ∧
      prefers v c!"A" c!"C" = true := by
    cases hv : (readText goText).votelines.getLast? with
    | none =>
      have : (readText goText).votelines.getLast?.isSome = true := by decide +kernel
      rw [hv] at this
      cases this
    | some v =>
      have h : ∀ w ∈ (readText goText).votelines.getLast?.toList, (readText goText).votelines = (readText stayText).votelines ++ [w] ∧
          prefers w c!"A" c!"C" = true := by decide +kernel
      rw [hv] at h
      exact ⟨v, rfl, (h v (by simp)).1, (h v (by simp)).2⟩
  obtain ⟨v, _, h1, h2⟩ := hlast
  exact ⟨_, _, v, d, d', readText_eq (by decide +kernel), readText_eq (by decide +kernel), h1, h2, hd, hw, hd', hw'⟩

/-- That `c` shares its place with nobody is needed in `C98_later`: of two adjacent ballots with a tie on top the count keeps the second
(C34) and credits it to the next place, so that naming B or D below the tied C and A decides whether C wins. -/
theorem C98_tied_refuted : ∃ (m m' : Jabmod) (d d' : IrvDict),
    convertAbif true false false tieLater = .ok m ∧ convertAbif true false false tieLater2 = .ok m' ∧
    Dict.keys m'.candidates = Dict.keys m.candidates ∧ List.Forall₂ (fun v w => v.qty = w.qty ∧ SameDownTo c!"C" v w) m.votelines m'.votelines ∧
    irvDict Sched.std m = .ok d ∧ d.run.winner = [c!"B"] ∧ irvDict Sched.std m' = .ok d' ∧ d'.run.winner = [c!"C"] := by
  obtain ⟨d, hd, hw⟩ := irvOf_some (m := readText tieLater) (ws := [c!"B"]) (by decide +kernel)
  obtain ⟨d', hd', hw'⟩ := irvOf_some (m := readText tieLater2) (ws := [c!"C"]) (by decide +kernel)
  refine ⟨_, _, d, d', readText_eq (by decide +kernel), readText_eq (by decide +kernel), by decide +kernel, ?_, hd, hw, hd', hw'⟩
  refine forall₂_of_zip (by decide +kernel) ?_
  have h : ∀ x ∈ (readText tieLater).votelines.zip (readText tieLater2).votelines, x.1.qty = x.2.qty ∧
      (∀ d ∈ upTo c!"C" x.1, d ∈ upTo c!"C" x.2) ∧ (∀ d ∈ upTo c!"C" x.2, d ∈ upTo c!"C" x.1) ∧
      (∀ a ∈ upTo c!"C" x.1, ∀ b ∈ upTo c!"C" x.1, prefers x.2 a b = prefers x.1 a b) := by decide +kernel
  intro x hx
  obtain ⟨g1, g2, g3, g4⟩ := h x hx
  exact ⟨g1, sameDownTo_of g2 g3 g4⟩

/-- `C98_later` applies to C in two elections that differ below C, and C wins both -/
example : ∃ m m', convertAbif true false false laterText = .ok m ∧ convertAbif true false false laterText2 = .ok m' ∧
    m'.candidates = m.candidates ∧ m'.votelines ≠ m.votelines ∧
    List.Forall₂ (fun v w => v.qty = w.qty ∧ SameDownTo c!"C" v w ∧ AloneOn c!"C" v ∧ AloneOn c!"C" w) m.votelines m'.votelines ∧
    irvOf m = some [c!"C"] ∧ irvOf m' = some [c!"C"] := by
  refine ⟨_, _, readText_eq (by decide +kernel), readText_eq (by decide +kernel), by decide +kernel, by decide +kernel, ?_, by decide +kernel,
    by decide +kernel⟩
  refine forall₂_of_zip (by decide +kernel) ?_
  have h : ∀ x ∈ (readText laterText).votelines.zip (readText laterText2).votelines, x.1.qty = x.2.qty ∧
      (∀ d ∈ upTo c!"C" x.1, d ∈ upTo c!"C" x.2) ∧ (∀ d ∈ upTo c!"C" x.2, d ∈ upTo c!"C" x.1) ∧
      (∀ a ∈ upTo c!"C" x.1, ∀ b ∈ upTo c!"C" x.1, prefers x.2 a b = prefers x.1 a b) ∧
      (∀ d ∈ Dict.keys x.1.prefs, d ≠ c!"C" → prefers x.1 c!"C" d = true ∨ prefers x.1 d c!"C" = true) ∧
      (∀ d ∈ Dict.keys x.2.prefs, d ≠ c!"C" → prefers x.2 c!"C" d = true ∨ prefers x.2 d c!"C" = true) := by decide +kernel
  intro x hx
  obtain ⟨g1, g2, g3, g4, g5, g6⟩ := h x hx
  exact ⟨g1, sameDownTo_of g2 g3 g4, fun _ => g5, fun _ => g6⟩
end
end Verif.Props
