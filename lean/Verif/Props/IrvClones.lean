/-
C108: when the candidates of a party stand together on every ballot, the instant-runoff count elects the same party as with one candidate
per party.
-/
import Verif.Props.IrvSupport
import Verif.Lib.Runoff

set_option linter.unusedSimpArgs false
set_option linter.unusedSectionVars false

namespace Verif.Spec

/-- In every round that is followed by another, those who are eliminated had together fewer votes than each of those who stay. -/
def ClearCut (d : IrvDict) : Prop :=
  ∀ (k : Nat) (rm rm' : RoundMeta) (cnt : Dict Str Int), d.run.roundmeta[k]? = some rm → d.run.roundmeta[k + 1]? = some rm' →
    d.run.rounds[k]? = some cnt → ∀ c ∈ rm'.startingCands, ∀ v : Int, Dict.get? cnt c = some v →
      (rm.eliminated.map (fun e => (Dict.get? cnt e).getD 0)).sum < v

/-- `v'` is the ballot `v` after every candidate `x` among `A` has been replaced by the party `φ x`: it names the parties of the named candidates
and has the same order between candidates of different parties. -/
def PartyBallot (φ : Str → Str) (A : List Str) (v v' : Voteline) : Prop :=
  v'.qty = v.qty ∧ (∀ x ∈ A, φ x ∈ Dict.keys v'.prefs ↔ x ∈ Dict.keys v.prefs) ∧
  ∀ x ∈ A, ∀ y ∈ A, φ x ≠ φ y → prefers v' (φ x) (φ y) = prefers v x y

/-- `m'` is the election `m` with one candidate per party; ballots may come in another order. -/
structure PartyElection (φ : Str → Str) (m m' : Jabmod) : Prop where
  cands : ∀ z, z ∈ Dict.keys m'.candidates ↔ ∃ x ∈ Dict.keys m.candidates, φ x = z
  ballots : ∃ l, l.Perm m'.votelines ∧ List.Forall₂ (PartyBallot φ (Dict.keys m.candidates)) m.votelines l

end Verif.Spec

namespace Verif.Runoff
open Classical
variable {α β : Type} {q : α → Int} {q2 : β → Int} {t : α → Finset Str → Option Str} {t2 : β → Finset Str → Option Str} {vs : List α} {ws : List β}

theorem canWin_congr (hv : ∀ C x, votes q t vs C x = votes q2 t2 ws C x) (hc : ∀ C, counted q t vs C = counted q2 t2 ws C) {C : Finset Str} {w : Str}
    (h : CanWin q t vs C w) : CanWin q2 t2 ws C w := by
  induction h with
  | won C w h => exact .won _ _ ⟨h.1, by rw [← hc, ← hv]; exact h.2⟩
  | drop C w x hx hmin h ih => exact .drop _ _ x hx (fun y hy => by rw [← hv, ← hv]; exact hmin y hy) ih

/-- somebody can win -/
theorem canWin_exists : ∀ (n : Nat) (C : Finset Str), C.card = n + 1 → ∃ w, CanWin q t vs C w := by
  intro n
  induction n with
  | zero =>
    intro C hn
    obtain ⟨w, hw⟩ := Finset.card_eq_one.1 hn
    exact ⟨w, .won _ _ ⟨by rw [hw]; simp, .inr (fun y hy => by rw [hw] at hy; simpa using hy)⟩⟩
  | succ n ih =>
    intro C hn
    obtain ⟨x, hx, hmin⟩ := Finset.exists_min_image C (fun c => votes q t vs C c) (Finset.card_pos.1 (by omega))
    obtain ⟨w, hw⟩ := ih (C.erase x) (by rw [Finset.card_erase_of_mem hx, hn]; rfl)
    exact ⟨w, .drop _ _ x hx hmin hw⟩

/-- if all are tied, at least two of them, no one is the only one who can win -/
theorem canWin_tie {C : Finset Str} (h2 : 2 ≤ C.card) {n : Int} (ht : ∀ x ∈ C, votes q t vs C x = n) (w : Str) : ∃ w', w' ≠ w ∧ CanWin q t vs C w' := by
  obtain ⟨a, ha, b, hb, hab⟩ := Finset.one_lt_card.1 h2
  have key : ∀ x ∈ C, ∃ w', w' ≠ x ∧ CanWin q t vs C w' := by
    intro x hx
    obtain ⟨w', hw'⟩ := canWin_exists (q := q) (t := t) (vs := vs) (C.card - 2) (C.erase x) (by rw [Finset.card_erase_of_mem hx]; omega)
    exact ⟨w', (Finset.mem_erase.1 (CanWin.mem hw')).1, .drop _ _ x hx (fun y hy => by rw [ht x hx, ht y hy]) hw'⟩
  by_cases hw : w ∈ C
  · exact key w hw
  · obtain ⟨w', _, h⟩ := key a ha
    exact ⟨w', fun e => hw (e ▸ CanWin.mem h), h⟩

theorem wsum_map (f : α → β) (p : β → Prop) : wsum q2 (vs.map f) p = wsum (fun v => q2 (f v)) vs (fun v => p (f v)) := by
  induction vs with
  | nil => rfl
  | cons v vs ih => rw [List.map_cons, wsum_cons, wsum_cons, ih]

theorem wsum_perm {vs' : List α} (h : vs.Perm vs') (p : α → Prop) : wsum q vs p = wsum q vs' p :=
  by
  induction h with
  | nil => rfl
  | cons x _ ih => rw [wsum_cons, wsum_cons, ih]
  | swap x y l => simp only [wsum_cons]; omega
  | trans _ _ ih1 ih2 => exact ih1.trans ih2

end Verif.Runoff

namespace Verif.Props
open Verif Spec Runoff
open Classical

/-- the candidate among `C` whom the ballot lists and prefers to all the others -/
noncomputable def favourite (v : Voteline) (C : Finset Str) : Option Str :=
  if h : ∃ x ∈ C, x ∈ Dict.keys v.prefs ∧ ∀ y ∈ C, y ≠ x → prefers v x y = true then some h.choose else none

theorem favourite_some {v : Voteline} {C : Finset Str} {x : Str} :
    favourite v C = some x ↔ x ∈ C ∧ x ∈ Dict.keys v.prefs ∧ ∀ y ∈ C, y ≠ x → prefers v x y = true := by
  unfold favourite
  constructor
  · intro h
    split at h
    · rename_i hx
      rw [← Option.some.inj h]
      exact ⟨hx.choose_spec.1, hx.choose_spec.2⟩
    · cases h
  · rintro ⟨h1, h2⟩
    have hx : ∃ x ∈ C, x ∈ Dict.keys v.prefs ∧ ∀ y ∈ C, y ≠ x → prefers v x y = true := ⟨x, h1, h2⟩
    rw [dif_pos hx]
    congr 1
    by_contra hne
    have a := hx.choose_spec.2.2 x h1 (fun e => hne e.symm)
    have b := h2.2 hx.choose hx.choose_spec.1 hne
    rw [strictLT a] at b
    cases b

theorem favourite_sole {m : Jabmod} (he : StrictElection m) {v : Voteline} (hv : v ∈ m.votelines) (C : List Str) (c : Str) :
    favourite v C.toFinset = some c ↔ soleTop c (restrictLine C v) = true := by
  have main : ∀ c, soleTop c (restrictLine C v) = true → favourite v C.toFinset = some c := by
    intro c h
    obtain ⟨t1, t2, _⟩ := mem_tops_restrict.1 ((soleTop_mem (notOver he C v hv)).1 h)
    exact favourite_some.2 ⟨List.mem_toFinset.2 t2, t1, fun y hy hne => sole_prefers he hv (List.mem_toFinset.1 hy) hne h⟩
  refine ⟨fun h => ?_, main c⟩
  obtain ⟨h1, h2, _⟩ := favourite_some.1 h
  obtain ⟨b, _, hb⟩ := has_sole he hv (List.mem_toFinset.1 h1) h2
  have := main b hb
  rw [h] at this
  rwa [Option.some.inj this]

theorem favourite_none {m : Jabmod} (he : StrictElection m) {v : Voteline} (hv : v ∈ m.votelines) {C : Finset Str} :
    favourite v C = none ↔ ∀ c ∈ C, c ∉ Dict.keys v.prefs := by
  constructor
  · intro h c hc hl
    obtain ⟨b, _, hb⟩ := has_sole he hv (C := C.toList) (Finset.mem_toList.2 hc) hl
    have := (favourite_sole he hv C.toList b).2 hb
    rw [Finset.toList_toFinset, h] at this
    cases this
  · intro h
    cases hf : favourite v C with
    | none => rfl
    | some x => exact absurd (favourite_some.1 hf).2.1 (h x (favourite_some.1 hf).1)

theorem favourite_choice {m : Jabmod} (he : StrictElection m) : Choice Voteline.qty favourite m.votelines where
  nonneg := he.nonneg
  mem := fun v _ C x h => (favourite_some.1 h).1
  keep := by
    intro v _ C D x hs h hx
    obtain ⟨_, h2, h3⟩ := favourite_some.1 h
    exact favourite_some.2 ⟨hx, h2, fun y hy => h3 y (hs hy)⟩
  gone := by
    intro v hv C D hs h
    rw [favourite_none he hv] at h ⊢
    exact fun c hc => h c (hs hc)

theorem votes_favourite {m : Jabmod} (he : StrictElection m) (C : List Str) (c : Str) :
    votes Voteline.qty favourite m.votelines C.toFinset c = votesAmong m.votelines C c := by
  rw [votesAmong_eq]
  unfold votes wsum qtySum
  congr 2
  apply List.filter_congr
  intro v hv
  simp only [favourite_sole he hv, Bool.decide_eq_true]

theorem mass_favourite {m : Jabmod} (he : StrictElection m) (C E : List Str) (hE : E.Nodup) :
    mass Voteline.qty favourite m.votelines C.toFinset (fun x => x ∈ E) = (E.map (votesAmong m.votelines C)).sum := by
  rw [votes_sum (notOver he C) E hE]
  unfold mass wsum qtySum
  congr 2
  apply List.filter_congr
  intro v hv
  rw [Bool.eq_iff_iff]
  simp [favourite_sole he hv, List.any_eq_true, and_comm]

theorem counted_favourite {m : Jabmod} (he : StrictElection m) {C : List Str} (hC : C.Nodup) :
    counted Voteline.qty favourite m.votelines C.toFinset = (C.map (votesAmong m.votelines C)).sum := by
  rw [← mass_favourite he C C hC]
  refine wsum_congr (fun v hv => ?_)
  cases hf : favourite v C.toFinset with
  | none => simp
  | some x => simpa using List.mem_toFinset.1 (favourite_some.1 hf).1

/-! ### the reported run -/

section
variable {S : Sched} {m : Jabmod} {d : IrvDict} (he : StrictElection m) (hd : irvDict S m = .ok d)
include he hd

theorem run_count {k : Nat} {rm : RoundMeta} (h : d.run.roundmeta[k]? = some rm) : ∃ cnt, d.run.rounds[k]? = some cnt ∧ Dict.keys cnt = rm.startingCands ∧
    rm.startingCands.Nodup ∧ (∀ c ∈ rm.startingCands, Dict.get? cnt c = some (votes Voteline.qty favourite m.votelines rm.startingCands.toFinset c)) ∧
    (cnt.map Prod.snd).sum = counted Voteline.qty favourite m.votelines rm.startingCands.toFinset := by
  have hlen : d.run.roundmeta.length = d.run.rounds.length :=
    (run_lengths (irvDict_steps hd) he.countable.state (irvDict_nonempty he.countable hd)).1
  have hlt : k < d.run.rounds.length := by rw [← hlen]; exact (List.getElem?_eq_some_iff.1 h).1
  obtain ⟨r1, r2, _, r4, r5⟩ := strict_round he hd h (List.getElem?_eq_getElem hlt)
  exact ⟨_, List.getElem?_eq_getElem hlt, r1, r2, fun c hc => by rw [r4 c hc, votes_favourite he], by rw [r5, counted_favourite he r2]⟩

/-- from one round to the next -/
theorem run_drop {k : Nat} {rm rm' : RoundMeta} {cnt : Dict Str Int} (h : d.run.roundmeta[k]? = some rm) (h' : d.run.roundmeta[k + 1]? = some rm')
    (hcnt : d.run.rounds[k]? = some cnt) : rm.eliminated ≠ [] ∧ (∀ e ∈ rm.eliminated, e ∈ rm.startingCands) ∧
    rm'.startingCands.toFinset = rm.startingCands.toFinset.filter (fun c => ¬ c ∈ rm.eliminated) ∧
    (rm.eliminated.map (fun e => (Dict.get? cnt e).getD 0)).sum =
      mass Voteline.qty favourite m.votelines rm.startingCands.toFinset (fun x => x ∈ rm.eliminated) ∧
    ∀ y ∈ rm.startingCands.toFinset, ¬ y ∈ rm.eliminated →
      mass Voteline.qty favourite m.votelines rm.startingCands.toFinset (fun x => x ∈ rm.eliminated) ≤
        votes Voteline.qty favourite m.votelines rm.startingCands.toFinset y := by
  obtain ⟨cnt', c1, c2, c3, c4, c5⟩ := run_count he hd h
  rw [hcnt] at c1
  obtain rfl := Option.some.inj c1
  obtain ⟨q1, q2, q3, q4, q5, q6⟩ := (C33_eliminations _ m d he.countable hd).1 k rm rm' cnt h h' hcnt
  have hsum : (rm.eliminated.map (fun e => (Dict.get? cnt e).getD 0)).sum =
      mass Voteline.qty favourite m.votelines rm.startingCands.toFinset (fun x => x ∈ rm.eliminated) := by
    rw [mass_favourite he _ _ q2]
    congr 1
    apply List.map_congr_left
    intro e hE
    rw [c4 e (q3 e hE), votes_favourite he]
    rfl
  refine ⟨q1, q3, ?_, hsum, ?_⟩
  · ext c
    rw [List.mem_toFinset, q6.mem_iff, List.mem_filter, Finset.mem_filter, List.mem_toFinset]
    simp
  · intro y hy hE
    rw [List.mem_toFinset] at hy
    rcases q5 with q5 | ⟨_, _, q5⟩
    · obtain ⟨e, heq⟩ := List.length_eq_one_iff.1 q5
      have hmem : e ∈ rm.eliminated := by rw [heq]; simp
      have := q4 e hmem _ (c4 e (q3 e hmem)) y _ (c4 y hy)
      rw [← hsum, heq]
      simp only [List.map_cons, List.map_nil, List.sum_cons, List.sum_nil, Int.add_zero]
      rw [c4 e (q3 e hmem)]
      exact this
    · rw [← hsum]
      exact (q5 y hy hE _ (c4 y hy)).2

/-- the last round -/
theorem run_last : ∃ rm : RoundMeta, d.run.roundmeta[d.run.roundmeta.length - 1]? = some rm ∧
    ((∃ n, d.run.winner = rm.startingCands ∧ ∀ c ∈ rm.startingCands.toFinset, votes Voteline.qty favourite m.votelines rm.startingCands.toFinset c = n) ∨
      ∃ w, d.run.winner = [w] ∧ Won Voteline.qty favourite m.votelines rm.startingCands.toFinset w) := by
  obtain ⟨cnt, rm, e1, e2, _, e4⟩ := C31_end _ m d he.countable he.nonneg hd
  have hlen : d.run.roundmeta.length = d.run.rounds.length :=
    (run_lengths (irvDict_steps hd) he.countable.state (irvDict_nonempty he.countable hd)).1
  have hk : d.run.roundmeta[d.run.roundmeta.length - 1]? = some rm := by rw [← List.getLast?_eq_getElem?]; exact e2
  obtain ⟨cnt', c1, c2, c3, c4, c5⟩ := run_count he hd hk
  have hcc : cnt' = cnt := by
    rw [hlen, ← List.getLast?_eq_getElem?, e1] at c1
    exact (Option.some.inj c1).symm
  subst hcc
  refine ⟨rm, hk, ?_⟩
  rcases e4 with ⟨v, e4, e5⟩ | ⟨w, v, e4, e5, e6⟩
  · refine .inl ⟨v, e5, fun c hc => ?_⟩
    rw [List.mem_toFinset] at hc
    have := c4 c hc
    rw [e4 c hc] at this
    exact (Option.some.inj this).symm
  · have hw : w ∈ rm.startingCands := by rw [← c2]; exact Dict.mem_keys_of_get? e5
    refine .inr ⟨w, e4, List.mem_toFinset.2 hw, .inl ?_⟩
    have := c4 w hw
    rw [e5] at this
    rw [Option.some.inj this, c5] at e6
    exact e6

/-- whoever can win in the last round, can win in the first -/
theorem run_back {w : Str} {rl : RoundMeta} (hl : d.run.roundmeta[d.run.roundmeta.length - 1]? = some rl)
    (hw : CanWin Voteline.qty favourite m.votelines rl.startingCands.toFinset w) :
    ∀ (n k : Nat) (rm : RoundMeta), d.run.roundmeta[k]? = some rm → d.run.roundmeta.length - 1 - k = n →
      CanWin Voteline.qty favourite m.votelines rm.startingCands.toFinset w := by
  intro n
  induction n with
  | zero =>
    intro k rm hk hn
    have := (List.getElem?_eq_some_iff.1 hk).1
    have hk' : k = d.run.roundmeta.length - 1 := by omega
    rw [hk', hl] at hk
    rwa [← Option.some.inj hk]
  | succ n ih =>
    intro k rm hk hn
    have hk1 : k + 1 < d.run.roundmeta.length := by omega
    have h := ih (k + 1) _ (List.getElem?_eq_getElem hk1) (by omega)
    obtain ⟨cnt, hcnt, _⟩ := run_count he hd hk
    obtain ⟨_, _, e3, _, e5⟩ := run_drop he hd hk (List.getElem?_eq_getElem hk1) hcnt
    rw [e3] at h
    exact canWin_of_group (favourite_choice he) (fun x => x ∈ rm.eliminated) _ _ rfl e5 (by convert h)

/-- in a clear-cut count, whoever can win in a round can win in the next -/
theorem run_step (hcut : ClearCut d) {w : Str} {k : Nat} {rm' : RoundMeta} (hk' : d.run.roundmeta[k + 1]? = some rm')
    (h : ∀ rm, d.run.roundmeta[k]? = some rm → CanWin Voteline.qty favourite m.votelines rm.startingCands.toFinset w) :
    CanWin Voteline.qty favourite m.votelines rm'.startingCands.toFinset w := by
  have hlt : k < d.run.roundmeta.length := by have := (List.getElem?_eq_some_iff.1 hk').1; omega
  have hk : d.run.roundmeta[k]? = some d.run.roundmeta[k] := List.getElem?_eq_getElem hlt
  have h := h _ hk
  obtain ⟨cnt, hcnt, c2, c3, c4, c5⟩ := run_count he hd hk
  obtain ⟨e1, e2, e3, e4, _⟩ := run_drop he hd hk hk' hcnt
  obtain ⟨cnt', _, _, _, c4', _⟩ := run_count he hd hk'
  have hP : ∃ e ∈ d.run.roundmeta[k].startingCands.toFinset, e ∈ d.run.roundmeta[k].eliminated := by
    obtain ⟨e, hE⟩ := List.exists_mem_of_ne_nil _ e1
    exact ⟨e, List.mem_toFinset.2 (e2 e hE), hE⟩
  have hN : ∃ y ∈ d.run.roundmeta[k].startingCands.toFinset, ¬ y ∈ d.run.roundmeta[k].eliminated := by
    have hlen : d.run.roundmeta.length = d.run.rounds.length :=
      (run_lengths (irvDict_steps hd) he.countable.state (irvDict_nonempty he.countable hd)).1
    obtain ⟨_, a, b, va, vb, ga, gb, hab⟩ := C31_goes_on _ m d he.countable hd k cnt hcnt
      (by rw [← hlen]; exact (List.getElem?_eq_some_iff.1 hk').1)
    have hmin := ((C33_eliminations _ m d he.countable hd).1 k _ rm' cnt hk hk' hcnt).2.2.2.1
    refine ⟨b, List.mem_toFinset.2 (by rw [← c2]; exact Dict.mem_keys_of_get? gb), fun hb => ?_⟩
    have := hmin b hb vb gb a va ga
    omega
  have hs : ∀ y ∈ d.run.roundmeta[k].startingCands.toFinset, ¬ y ∈ d.run.roundmeta[k].eliminated →
      mass Voteline.qty favourite m.votelines d.run.roundmeta[k].startingCands.toFinset (fun x => x ∈ d.run.roundmeta[k].eliminated) <
        votes Voteline.qty favourite m.votelines d.run.roundmeta[k].startingCands.toFinset y := by
    intro y hy hPy
    have hy' : y ∈ rm'.startingCands := by
      rw [← List.mem_toFinset, e3, Finset.mem_filter]
      exact ⟨hy, hPy⟩
    have := hcut k _ rm' cnt hk hk' hcnt y hy' _ (c4 y (List.mem_toFinset.1 hy))
    rw [e4] at this
    exact this
  have goal := canWin_group (favourite_choice he) h (fun x => x ∈ d.run.roundmeta[k].eliminated) hP hN hs
  rw [e3]
  convert goal

/-- in a clear-cut count, whoever can win in a round can win in every later one -/
theorem run_onward (hcut : ClearCut d) {w : Str} {j : Nat} {rf : RoundMeta} (hf : d.run.roundmeta[j]? = some rf)
    (hw : CanWin Voteline.qty favourite m.votelines rf.startingCands.toFinset w) :
    ∀ (n : Nat) (rm : RoundMeta), d.run.roundmeta[j + n]? = some rm → CanWin Voteline.qty favourite m.votelines rm.startingCands.toFinset w := by
  intro n
  induction n with
  | zero =>
    intro rm hk
    rw [Nat.add_zero, hf] at hk
    rwa [← Option.some.inj hk]
  | succ n ih =>
    intro rm' hk'
    exact run_step he hd hcut (k := j + n) hk' ih

/-- in a clear-cut count, whoever can win in the first round can win in the last -/
theorem run_forward (hcut : ClearCut d) {w : Str} {rf : RoundMeta} (hf : d.run.roundmeta[0]? = some rf)
    (hw : CanWin Voteline.qty favourite m.votelines rf.startingCands.toFinset w) (k : Nat) (rm : RoundMeta) (hk : d.run.roundmeta[k]? = some rm) :
    CanWin Voteline.qty favourite m.votelines rm.startingCands.toFinset w :=
  run_onward he hd hcut hf hw k rm (by rwa [Nat.zero_add])

/-- who is reported can win -/
theorem run_canWin {w : Str} (hw : d.run.winner = [w]) : CanWin Voteline.qty favourite m.votelines (Dict.keys m.candidates).toFinset w := by
  obtain ⟨rl, hl, h⟩ := run_last he hd
  obtain ⟨rf, hf, _, hfc⟩ := (C29_partial _ m d he.countable hd).1
  rw [← hfc]
  refine run_back he hd hl (.won _ _ ?_) _ 0 rf hf rfl
  rcases h with ⟨_, h1, _⟩ | ⟨w', h1, h2⟩
  · rw [← h1, hw]
    exact ⟨by simp, .inr (fun y hy => by simpa using hy)⟩
  · rw [hw] at h1
    have : w = w' := by simpa using h1
    rwa [this]

/-- in a clear-cut count with one winner nobody else can win, in any round -/
theorem run_only_at {w : Str} (hcut : ClearCut d) (hw : d.run.winner = [w]) {k : Nat} {rm : RoundMeta} (hk : d.run.roundmeta[k]? = some rm) {w' : Str}
    (h : CanWin Voteline.qty favourite m.votelines rm.startingCands.toFinset w') : w' = w := by
  obtain ⟨rl, hl, hlast⟩ := run_last he hd
  have hlt := (List.getElem?_eq_some_iff.1 hk).1
  refine won_unique (favourite_choice he) (run_onward he hd hcut hk h (d.run.roundmeta.length - 1 - k) rl
    (by rw [← hl]; congr 1; omega)) ?_
  rcases hlast with ⟨_, h1, _⟩ | ⟨w2, h1, h2⟩
  · rw [← h1, hw]
    exact ⟨by simp, .inr (fun y hy => by simpa using hy)⟩
  · rw [hw] at h1
    have : w = w2 := by simpa using h1
    rwa [this]

/-- in a clear-cut count with one winner nobody else can win -/
theorem run_only {w : Str} (hcut : ClearCut d) (hw : d.run.winner = [w]) {w' : Str}
    (h : CanWin Voteline.qty favourite m.votelines (Dict.keys m.candidates).toFinset w') : w' = w := by
  obtain ⟨rf, hf, _, hfc⟩ := (C29_partial _ m d he.countable hd).1
  rw [← hfc] at h
  exact run_only_at he hd hcut hw hf h

/-- if only `w` can win, `w` is reported -/
theorem run_unique {w : Str} (h : ∀ w', CanWin Voteline.qty favourite m.votelines (Dict.keys m.candidates).toFinset w' → w' = w) : d.run.winner = [w] := by
  obtain ⟨rl, hl, hlast⟩ := run_last he hd
  obtain ⟨rf, hf, _, hfc⟩ := (C29_partial _ m d he.countable hd).1
  rw [← hfc] at h
  rcases hlast with ⟨n, h1, h2⟩ | ⟨w2, h1, h2⟩
  · obtain ⟨_, _, hn⟩ := run_count he hd hl
    have hnd : rl.startingCands.Nodup := hn.2.1
    by_cases h2c : 2 ≤ rl.startingCands.toFinset.card
    · obtain ⟨w', hne, hw'⟩ := canWin_tie (q := Voteline.qty) (t := favourite) (vs := m.votelines) h2c h2 w
      exact absurd (h w' (run_back he hd hl hw' _ 0 rf hf rfl)) hne
    · have hsz : rl.startingCands.toFinset.card = rl.startingCands.length := List.toFinset_card_of_nodup hnd
      cases hc : rl.startingCands with
      | nil =>
        exfalso
        exact (run_lengths (irvDict_steps hd) he.countable.state (irvDict_nonempty he.countable hd)).2.2.2.1 (h1.trans hc)
      | cons x rest =>
        cases rest with
        | cons _ _ => rw [hc] at hsz h2c; simp only [List.length_cons] at hsz; omega
        | nil =>
          have hx : CanWin Voteline.qty favourite m.votelines rl.startingCands.toFinset x := by
            rw [hc]
            exact .won _ _ ⟨by simp, .inr (fun y hy => by simpa using hy)⟩
          rw [h1, hc, h x (run_back he hd hl hx _ 0 rf hf rfl)]
  · rw [h1, h w2 (run_back he hd hl (.won _ _ h2) _ 0 rf hf rfl)]
/-- one of those who are reported can win -/
theorem run_somebody : ∃ w ∈ d.run.winner, CanWin Voteline.qty favourite m.votelines (Dict.keys m.candidates).toFinset w := by
  obtain ⟨rl, hl, hlast⟩ := run_last he hd
  obtain ⟨rf, hf, _, hfc⟩ := (C29_partial _ m d he.countable hd).1
  rw [← hfc]
  rcases hlast with ⟨n, h1, h2⟩ | ⟨w, h1, h2⟩
  · have hne := (run_lengths (irvDict_steps hd) he.countable.state (irvDict_nonempty he.countable hd)).2.2.2.1
    rw [h1] at hne ⊢
    obtain ⟨x, hx⟩ := List.exists_mem_of_ne_nil _ hne
    have hpos : 0 < rl.startingCands.toFinset.card := Finset.card_pos.2 ⟨x, List.mem_toFinset.2 hx⟩
    obtain ⟨w, hw⟩ := canWin_exists (q := Voteline.qty) (t := favourite) (vs := m.votelines) (rl.startingCands.toFinset.card - 1) rl.startingCands.toFinset (by omega)
    exact ⟨w, List.mem_toFinset.1 (CanWin.mem hw), run_back he hd hl hw _ 0 rf hf rfl⟩
  · exact ⟨w, by rw [h1]; simp, run_back he hd hl (.won _ _ h2) _ 0 rf hf rfl⟩
end

/-! ### one candidate per party -/

theorem favourite_party {φ : Str → Str} {m m' : Jabmod} (he : StrictElection m) (he' : StrictElection m') {v v' : Voteline} (hv : v ∈ m.votelines)
    (hv' : v' ∈ m'.votelines) (h : PartyBallot φ (Dict.keys m.candidates) v v') {C : Finset Str} (hC : C ⊆ (Dict.keys m.candidates).toFinset) :
    favourite v' (C.image φ) = (favourite v C).map φ := by
  have hA : ∀ x ∈ C, x ∈ Dict.keys m.candidates := fun x hx => List.mem_toFinset.1 (hC hx)
  obtain ⟨_, h2, h3⟩ := h
  cases hf : favourite v C with
  | none =>
    rw [favourite_none he hv] at hf
    show _ = none
    rw [favourite_none he' hv']
    intro z hz
    obtain ⟨x, hx, rfl⟩ := Finset.mem_image.1 hz
    rw [h2 x (hA x hx)]
    exact hf x hx
  | some x =>
    obtain ⟨f1, f2, f3⟩ := favourite_some.1 hf
    refine favourite_some.2 ⟨Finset.mem_image_of_mem _ f1, (h2 x (hA x f1)).2 f2, ?_⟩
    intro z hz hne
    obtain ⟨y, hy, rfl⟩ := Finset.mem_image.1 hz
    rw [h3 x (hA x f1) y (hA y hy) (fun e => hne e.symm)]
    exact f3 y hy (fun e => hne (by rw [e]))

/-- both elections as one list of pairs of ballots -/
theorem party_pairs {φ : Str → Str} {m m' : Jabmod} (he : StrictElection m) (he' : StrictElection m') (h : PartyElection φ m m') :
    ∃ vs : List (Voteline × Voteline), Choice (fun v => v.1.qty) (fun v => favourite v.1) vs ∧ Choice (fun v => v.1.qty) (fun v => favourite v.2) vs ∧
      (∀ v ∈ vs, ∀ C, C ⊆ (Dict.keys m.candidates).toFinset → favourite v.2 (C.image φ) = (favourite v.1 C).map φ) ∧
      (∀ C w, CanWin Voteline.qty favourite m.votelines C w ↔ CanWin (fun v => v.1.qty) (fun v => favourite v.1) vs C w) ∧
      (∀ C w, CanWin Voteline.qty favourite m'.votelines C w ↔ CanWin (fun v => v.1.qty) (fun v => favourite v.2) vs C w) := by
  obtain ⟨l, hp, hf⟩ := h.ballots
  have hlen := hf.length_eq
  have h1 : (m.votelines.zip l).map Prod.fst = m.votelines := List.map_fst_zip (by omega)
  have h2 : (m.votelines.zip l).map Prod.snd = l := List.map_snd_zip (by omega)
  have hm1 : ∀ v ∈ m.votelines.zip l, v.1 ∈ m.votelines := fun v hv => (List.of_mem_zip hv).1
  have hm2 : ∀ v ∈ m.votelines.zip l, v.2 ∈ m'.votelines := fun v hv => hp.mem_iff.1 (List.of_mem_zip hv).2
  have hb : ∀ v ∈ m.votelines.zip l, PartyBallot φ (Dict.keys m.candidates) v.1 v.2 := fun v hv => List.forall₂_zip hf hv
  have c1 := favourite_choice he
  have c2 := favourite_choice he'
  have w1 : ∀ p : Voteline → Prop, wsum Voteline.qty m.votelines p = wsum (fun v => v.1.qty) (m.votelines.zip l) (fun v => p v.1) := by
    intro p
    conv_lhs => rw [← h1]
    exact wsum_map Prod.fst p
  have w2 : ∀ p : Voteline → Prop, wsum Voteline.qty m'.votelines p = wsum (fun v => v.1.qty) (m.votelines.zip l) (fun v => p v.2) := by
    intro p
    rw [← wsum_perm hp]
    conv_lhs => rw [← h2]
    rw [wsum_map Prod.snd p]
    unfold wsum
    congr 1
    apply List.map_congr_left
    intro v hv
    exact (hb v (List.mem_of_mem_filter hv)).1
  refine ⟨m.votelines.zip l, ⟨?_, ?_, ?_, ?_⟩, ⟨?_, ?_, ?_, ?_⟩, ?_, ?_, ?_⟩
  · exact fun v hv => c1.nonneg _ (hm1 v hv)
  · exact fun v hv => c1.mem _ (hm1 v hv)
  · exact fun v hv => c1.keep _ (hm1 v hv)
  · exact fun v hv => c1.gone _ (hm1 v hv)
  · exact fun v hv => c1.nonneg _ (hm1 v hv)
  · exact fun v hv => c2.mem _ (hm2 v hv)
  · exact fun v hv => c2.keep _ (hm2 v hv)
  · exact fun v hv => c2.gone _ (hm2 v hv)
  · exact fun v hv C hC => favourite_party he he' (hm1 v hv) (hm2 v hv) (hb v hv) hC
  · exact fun C w => ⟨canWin_congr (fun _ _ => w1 _) (fun _ => w1 _), canWin_congr (fun C x => (w1 (fun v => favourite v C = some x)).symm)
      (fun C => (w1 (fun v => favourite v C ≠ none)).symm)⟩
  · exact fun C w => ⟨canWin_congr (fun _ _ => w2 _) (fun _ => w2 _), canWin_congr (fun C x => (w2 (fun v => favourite v C = some x)).symm)
      (fun C => (w2 (fun v => favourite v C ≠ none)).symm)⟩

/-- C108.  Two elections without ties on the ballots: in the first the candidates belong to parties, and the candidates of a party stand together
on every ballot; the second has one candidate per party.  If the count of one of the two ends with one winner and is clear cut, then the other
elects the same party: with one candidate per party it has that party as its one winner; with the parties' candidates, one of the reported winners
is of that party. -/
theorem C108_clones (S S' : Sched) (φ : Str → Str) (m m' : Jabmod) (d d' : IrvDict) (he : StrictElection m) (he' : StrictElection m')
    (h : PartyElection φ m m') (hd : irvDict S m = .ok d) (hd' : irvDict S' m' = .ok d') :
    (∀ w, ClearCut d → d.run.winner = [w] → d'.run.winner = [φ w]) ∧
    ∀ z, ClearCut d' → d'.run.winner = [z] → ∃ w ∈ d.run.winner, φ w = z := by
  obtain ⟨vs, k1, k2, k3, k4, k5⟩ := party_pairs he he' h
  have hD : (Dict.keys m.candidates).toFinset.image φ = (Dict.keys m'.candidates).toFinset := by
    ext z
    simp only [Finset.mem_image, List.mem_toFinset]
    exact (h.cands z).symm
  refine ⟨fun w hcut hw => run_unique he' hd' ?_, ?_⟩
  · intro w' hw'
    rw [k5] at hw'
    obtain ⟨w2, e, h2⟩ := canWin_split k1 k2 k3 hw' _ _ rfl (Finset.Subset.refl _) hD
    rw [← e, run_only he hd hcut hw ((k4 _ _).2 h2)]
  · intro z hcut hz
    obtain ⟨w, hw, hcan⟩ := run_somebody he hd
    refine ⟨w, hw, ?_⟩
    have := canWin_merge k1 k3 ((k4 _ _).1 hcan) (Finset.Subset.refl _)
    rw [hD] at this
    exact run_only he' hd' hcut hz ((k5 _ _).2 this)

/-- C108, one election.  A clear-cut count with one winner does not depend on how ties are resolved. -/
theorem C108_schedule (S S' : Sched) (m : Jabmod) (d d' : IrvDict) (w : Str) (he : StrictElection m) (hd : irvDict S m = .ok d)
    (hd' : irvDict S' m = .ok d') (hcut : ClearCut d) (hw : d.run.winner = [w]) : d'.run.winner = [w] := by
  refine (C108_clones S S' id m m d d' he he ⟨fun z => by simp, m.votelines, List.Perm.refl _, ?_⟩ hd hd').1 w hcut hw
  exact List.forall₂_same.2 (fun v _ => ⟨rfl, fun _ _ => Iff.rfl, fun _ _ _ _ _ => rfl⟩)

section
attribute [local instance] Uni.ascii
set_option maxRecDepth 40000

/-- candidates `A1`, `A2` stand for the party `A`; the others are on their own -/
def partyOf (x : Str) : Str := if x = c!"A1" ∨ x = c!"A2" then c!"A" else x

theorem partyElection_of {φ : Str → Str} {m m' : Jabmod} (h1 : ∀ z ∈ Dict.keys m'.candidates, ∃ x ∈ Dict.keys m.candidates, φ x = z)
    (h2 : ∀ x ∈ Dict.keys m.candidates, φ x ∈ Dict.keys m'.candidates) (h3 : m.votelines.length = m'.votelines.length)
    (h4 : ∀ v ∈ m.votelines.zip m'.votelines, v.2.qty = v.1.qty ∧ (∀ x ∈ Dict.keys m.candidates, φ x ∈ Dict.keys v.2.prefs ↔ x ∈ Dict.keys v.1.prefs) ∧
      ∀ x ∈ Dict.keys m.candidates, ∀ y ∈ Dict.keys m.candidates, φ x ≠ φ y → prefers v.2 (φ x) (φ y) = prefers v.1 x y) :
    PartyElection φ m m' :=
  ⟨fun z => ⟨h1 z, fun ⟨x, hx, e⟩ => e ▸ h2 x hx⟩, m'.votelines, List.Perm.refl _, forall₂_of_zip h3 h4⟩

def cloneText : Str := c!"5:B>A1>A2\n4:A1>A2>C\n3:A2>A1>B\n2:C>A2>A1\n"
def cloneText2 : Str := c!"5:B>A\n4:A>C\n3:A>B\n2:C>A\n"
def evenText : Str := c!"5:C\n4:B>A1>A2>C\n2:A1>A2>B>C\n2:A2>A1>B>C\n"
def evenText2 : Str := c!"5:C\n4:B>A>C\n2:A>B>C\n2:A>B>C\n"

/-- three candidates with five votes each -/
def spoilText : Str := c!"5:A1>A2\n5:A2>A1\n5:B\n"
def spoilText2 : Str := c!"5:A\n5:A\n5:B\n"

theorem strict_text {text : Str} (h1 : (convertAbif true false false text).toOption.isSome = true) (h2 : text.length < 4999999998)
    (h3 : [] ∉ Dict.keys (readText text).candidates) (h4 : Strict (readText text).votelines) : StrictElection (readText text) :=
  parsed_strictElection _ _ _ _ _ (readText_eq h1) h2 h3 h4

/-- a finite check of `ClearCut` -/
theorem clearCut_of {d : IrvDict} (h : ∀ k < d.run.roundmeta.length, ∀ rm ∈ d.run.roundmeta[k]?.toList, ∀ rm' ∈ d.run.roundmeta[k + 1]?.toList,
    ∀ cnt ∈ d.run.rounds[k]?.toList, ∀ c ∈ rm'.startingCands, ∀ v ∈ (Dict.get? cnt c).toList,
      (rm.eliminated.map (fun e => (Dict.get? cnt e).getD 0)).sum < v) : ClearCut d := by
  intro k rm rm' cnt e1 e2 e3 c hc v hv
  exact h k (List.getElem?_eq_some_iff.1 e1).1 rm (by simp [e1]) rm' (by simp [e2]) cnt (by simp [e3]) c hc v (by simp [hv])

/-- `C108_clones` applies: four candidates and three rounds, or three parties and two rounds -/
example : ∃ d d', irvDict Sched.std (readText cloneText) = .ok d ∧ irvDict Sched.std (readText cloneText2) = .ok d' ∧
    StrictElection (readText cloneText) ∧ StrictElection (readText cloneText2) ∧ PartyElection partyOf (readText cloneText) (readText cloneText2) ∧
    ClearCut d ∧ ClearCut d' ∧ d.run.winner = [c!"A2"] ∧ d'.run.winner = [c!"A"] ∧ d.run.rounds.length = 3 := by
  have hall : ∀ x ∈ (irvDict Sched.std (readText cloneText)).toOption.toList, x.run.rounds.length = 3 ∧
      ∀ k < x.run.roundmeta.length, ∀ rm ∈ x.run.roundmeta[k]?.toList, ∀ rm' ∈ x.run.roundmeta[k + 1]?.toList,
        ∀ cnt ∈ x.run.rounds[k]?.toList, ∀ c ∈ rm'.startingCands, ∀ v ∈ (Dict.get? cnt c).toList,
          (rm.eliminated.map (fun e => (Dict.get? cnt e).getD 0)).sum < v := by decide +kernel
  have hall' : ∀ x ∈ (irvDict Sched.std (readText cloneText2)).toOption.toList,
      ∀ k < x.run.roundmeta.length, ∀ rm ∈ x.run.roundmeta[k]?.toList, ∀ rm' ∈ x.run.roundmeta[k + 1]?.toList,
        ∀ cnt ∈ x.run.rounds[k]?.toList, ∀ c ∈ rm'.startingCands, ∀ v ∈ (Dict.get? cnt c).toList,
          (rm.eliminated.map (fun e => (Dict.get? cnt e).getD 0)).sum < v := by decide +kernel
  obtain ⟨d, hd, hw⟩ := irvOf_some (m := readText cloneText) (ws := [c!"A2"]) (by decide +kernel)
  obtain ⟨d', hd', hw'⟩ := irvOf_some (m := readText cloneText2) (ws := [c!"A"]) (by decide +kernel)
  rw [hd] at hall
  rw [hd'] at hall'
  obtain ⟨h1, h2⟩ := hall d (by simp [Except.toOption])
  exact ⟨d, d', hd, hd', strict_text (by decide +kernel) (by decide +kernel) (by decide +kernel) (by unfold Strict; decide +kernel),
    strict_text (by decide +kernel) (by decide +kernel) (by decide +kernel) (by unfold Strict; decide +kernel),
    partyElection_of (by decide +kernel) (by decide +kernel) (by decide +kernel) (by decide +kernel),
    clearCut_of h2, clearCut_of (hall' d' (by simp [Except.toOption])), hw, hw', h1⟩

/-- That the count is clear cut is needed.  `A1` and `A2`, who have together as many votes as `B`, are eliminated together and `B` wins, with no tie
to resolve; with one candidate `A` instead the tie of `A` and `B` may be resolved in favour of `A`, who then wins. -/
theorem C108_even_refuted : ∃ (m m' : Jabmod) (d d' : IrvDict), convertAbif true false false evenText = .ok m ∧
    convertAbif true false false evenText2 = .ok m' ∧ StrictElection m ∧ StrictElection m' ∧ PartyElection partyOf m m' ∧
    irvDict Sched.std m = .ok d ∧ d.run.winner = [c!"B"] ∧ (∀ rm ∈ d.run.roundmeta, rm.randomElim = false) ∧
    irvDict Sched.std m' = .ok d' ∧ d'.run.winner = [c!"A"] := by
  have hall : ∀ x ∈ (irvDict Sched.std (readText evenText)).toOption.toList, ∀ rm ∈ x.run.roundmeta, rm.randomElim = false := by decide +kernel
  obtain ⟨d, hd, hw⟩ := irvOf_some (m := readText evenText) (ws := [c!"B"]) (by decide +kernel)
  obtain ⟨d', hd', hw'⟩ := irvOf_some (m := readText evenText2) (ws := [c!"A"]) (by decide +kernel)
  rw [hd] at hall
  exact ⟨_, _, d, d', readText_eq (by decide +kernel), readText_eq (by decide +kernel),
    strict_text (by decide +kernel) (by decide +kernel) (by decide +kernel) (by unfold Strict; decide +kernel),
    strict_text (by decide +kernel) (by decide +kernel) (by decide +kernel) (by unfold Strict; decide +kernel),
    partyElection_of (by decide +kernel) (by decide +kernel) (by decide +kernel) (by decide +kernel),
    hd, hw, hall d (by simp [Except.toOption]), hd', hw'⟩

/-- That only one of several reported winners need be of the party: two thirds of the voters want party `A`, which wins at once with one candidate;
with two candidates all three are tied in the first round and `B` is reported as a winner with them. -/
theorem C108_spoiler_refuted : ∃ (m m' : Jabmod) (d d' : IrvDict), convertAbif true false false spoilText = .ok m ∧
    convertAbif true false false spoilText2 = .ok m' ∧ StrictElection m ∧ StrictElection m' ∧ PartyElection partyOf m m' ∧
    irvDict Sched.std m = .ok d ∧ d.run.winner = [c!"A1", c!"A2", c!"B"] ∧
    irvDict Sched.std m' = .ok d' ∧ d'.run.winner = [c!"A"] ∧ ClearCut d' := by
  have hall : ∀ x ∈ (irvDict Sched.std (readText spoilText2)).toOption.toList,
      ∀ k < x.run.roundmeta.length, ∀ rm ∈ x.run.roundmeta[k]?.toList, ∀ rm' ∈ x.run.roundmeta[k + 1]?.toList,
        ∀ cnt ∈ x.run.rounds[k]?.toList, ∀ c ∈ rm'.startingCands, ∀ v ∈ (Dict.get? cnt c).toList,
          (rm.eliminated.map (fun e => (Dict.get? cnt e).getD 0)).sum < v := by decide +kernel
  obtain ⟨d, hd, hw⟩ := irvOf_some (m := readText spoilText) (ws := [c!"A1", c!"A2", c!"B"]) (by decide +kernel)
  obtain ⟨d', hd', hw'⟩ := irvOf_some (m := readText spoilText2) (ws := [c!"A"]) (by decide +kernel)
  rw [hd'] at hall
  exact ⟨_, _, d, d', readText_eq (by decide +kernel), readText_eq (by decide +kernel),
    strict_text (by decide +kernel) (by decide +kernel) (by decide +kernel) (by unfold Strict; decide +kernel),
    strict_text (by decide +kernel) (by decide +kernel) (by decide +kernel) (by unfold Strict; decide +kernel),
    partyElection_of (by decide +kernel) (by decide +kernel) (by decide +kernel) (by decide +kernel),
    hd, hw, hd', hw', clearCut_of (hall d' (by simp [Except.toOption]))⟩
end

end Verif.Props
