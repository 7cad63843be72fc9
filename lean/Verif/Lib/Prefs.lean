/-
Helper lemmas on preference-string parsing: keys and ranks of the result.
-/
import Verif.Model.Parse
import Verif.Lib.Dict
import Verif.Lib.Sort
import Verif.Spec.Abif

set_option linter.unusedSimpArgs false
set_option linter.unusedSectionVars false

namespace Verif
open Spec

/-! ### `Except` plumbing -/

theorem bind_ok {ε α β : Type} {x : Except ε α} {f : α → Except ε β} {b : β} :
    (x >>= f) = .ok b ↔ ∃ a, x = .ok a ∧ f a = .ok b := by
  cases x with
  | error e => simp [bind, Except.bind]
  | ok a => simp [bind, Except.bind]

theorem ok_bind {ε α β : Type} (a : α) (f : α → Except ε β) : ((Except.ok a : Except ε α) >>= f) = f a := rfl
theorem error_bind {ε α β : Type} (e : ε) (f : α → Except ε β) : ((Except.error e : Except ε α) >>= f) = .error e := rfl

theorem mapM_nil_ok {ε α β : Type} (f : α → Except ε β) : ([] : List α).mapM f = .ok [] := rfl

theorem mapM_cons_ok {ε α β : Type} {f : α → Except ε β} {a : α} {l : List α} {r : List β} :
    (a :: l).mapM f = .ok r ↔ ∃ b bs, f a = .ok b ∧ l.mapM f = .ok bs ∧ r = b :: bs := by
  rw [List.mapM_cons, bind_ok]
  constructor
  · rintro ⟨b, hb, h⟩
    obtain ⟨bs, hbs, h⟩ := bind_ok.1 h
    cases h
    exact ⟨b, bs, hb, hbs, rfl⟩
  · rintro ⟨b, bs, hb, hbs, rfl⟩
    exact ⟨b, hb, bind_ok.2 ⟨bs, hbs, rfl⟩⟩

/-- a `mapM` whose function succeeds everywhere is a `map` -/
theorem mapM_eq_map {ε α β : Type} (f : α → Except ε β) (g : α → β) (l : List α)
    (h : ∀ a ∈ l, f a = .ok (g a)) : l.mapM f = .ok (l.map g) := by
  induction l with
  | nil => rfl
  | cons a l ih =>
    rw [mapM_cons_ok]
    exact ⟨g a, l.map g, h a (by simp), ih (fun a ha => h a (by simp [ha])), rfl⟩

theorem mapM_ok_mem {ε α β : Type} {f : α → Except ε β} {l : List α} {r : List β} (h : l.mapM f = .ok r) :
    ∀ a ∈ l, ∃ b ∈ r, f a = .ok b := by
  induction l generalizing r with
  | nil => simp
  | cons x l ih =>
    obtain ⟨b, bs, hb, hbs, rfl⟩ := mapM_cons_ok.1 h
    intro a ha
    rcases List.mem_cons.1 ha with rfl | ha
    · exact ⟨b, by simp, hb⟩
    · obtain ⟨b', hb', hf⟩ := ih hbs a ha
      exact ⟨b', by simp [hb'], hf⟩

/-! ### first occurrences -/

/-- keys after inserting a list of keys into a dict -/
def addKeys {κ : Type} [DecidableEq κ] (ks : List κ) : List κ → List κ
  | [] => ks
  | k :: l => addKeys (if k ∈ ks then ks else ks ++ [k]) l

theorem mem_firsts {κ : Type} [DecidableEq κ] {l : List κ} {x : κ} : x ∈ firsts l ↔ x ∈ l := by
  induction l with
  | nil => simp [firsts]
  | cons a l ih =>
    simp only [firsts, List.mem_cons, List.mem_filter, ih, decide_eq_true_eq]
    constructor
    · rintro (h | h)
      · exact .inl h
      · exact .inr h.1
    · rintro (h | h)
      · exact .inl h
      · by_cases hx : x = a
        · exact .inl hx
        · exact .inr ⟨h, hx⟩

theorem nodup_firsts {κ : Type} [DecidableEq κ] (l : List κ) : (firsts l).Nodup := by
  induction l with
  | nil => simp [firsts]
  | cons a l ih =>
    simp only [firsts, List.nodup_cons]
    exact ⟨by simp, ih.filter _⟩

theorem firsts_of_nodup {κ : Type} [DecidableEq κ] {l : List κ} (h : l.Nodup) : firsts l = l := by
  induction l with
  | nil => rfl
  | cons a l ih =>
    have h := List.nodup_cons.1 h
    simp only [firsts, ih h.2]
    congr 1
    rw [List.filter_eq_self]
    intro b hb
    simp
    rintro rfl
    exact h.1 hb

theorem addKeys_eq {κ : Type} [DecidableEq κ] (ks l : List κ) :
    addKeys ks l = ks ++ (firsts l).filter (fun k => decide (k ∉ ks)) := by
  induction l generalizing ks with
  | nil => simp [addKeys, firsts]
  | cons a l ih =>
    simp only [addKeys, firsts]
    by_cases h : a ∈ ks
    · rw [if_pos h, ih]
      congr 1
      simp only [List.filter_cons, h, not_true_eq_false, decide_false, Bool.false_eq_true, if_false,
        List.filter_filter]
      apply List.filter_congr
      intro x _
      by_cases hx : x ∈ ks
      · simp [hx]
      · have : x ≠ a := fun e => hx (e ▸ h)
        simp [hx, this]
    · rw [if_neg h, ih]
      simp only [List.filter_cons, h, not_false_eq_true, decide_true, if_true, List.filter_filter,
        List.append_assoc, List.cons_append, List.nil_append]
      congr 2
      apply List.filter_congr
      intro x _
      by_cases hx : x ∈ ks <;> by_cases hxa : x = a <;> simp [hx, hxa]

theorem addKeys_nil {κ : Type} [DecidableEq κ] (l : List κ) : addKeys [] l = firsts l := by
  rw [addKeys_eq]; simp

theorem addKeys_append {κ : Type} [DecidableEq κ] (ks l₁ l₂ : List κ) :
    addKeys ks (l₁ ++ l₂) = addKeys (addKeys ks l₁) l₂ := by
  induction l₁ generalizing ks with
  | nil => rfl
  | cons a l ih => simp [addKeys, ih]

theorem firsts_idem {κ : Type} [DecidableEq κ] (l : List κ) : firsts (firsts l) = firsts l :=
  firsts_of_nodup (nodup_firsts l)

theorem addKeys_firsts {κ : Type} [DecidableEq κ] (ks l : List κ) : addKeys ks (firsts l) = addKeys ks l := by
  rw [addKeys_eq, addKeys_eq, firsts_idem]

/-! ### `prefLoop` -/

variable [U : Uni]

/-- absent, or at least one -/
def RankGood (o : Option Int) : Prop := ∀ r, o = some r → 1 ≤ r

theorem prefLoop_ok {mode : RankOrRate} {delims : List Char} {n i : Nat} {rank : Int}
    {cps : List (Str × Option RVal)} {prefs out : Dict Str Pref}
    (h : prefLoop mode delims n i rank cps prefs = .ok out)
    (hr : 1 ≤ rank) (hg : ∀ c p, prefs.get? c = some p → RankGood p.rank) (hw : prefs.WF) :
    out.keys = addKeys prefs.keys (cps.map Prod.fst) ∧ out.WF ∧
      (∀ c p, out.get? c = some p → RankGood p.rank) := by
  induction cps generalizing i rank prefs with
  | nil =>
    unfold prefLoop at h
    cases h
    exact ⟨rfl, hw, hg⟩
  | cons e rest ih =>
    obtain ⟨cand, rating⟩ := e
    have step : ∀ (p : Pref) (rank' : Int), 1 ≤ rank' → RankGood p.rank →
        prefLoop mode delims n (i + 1) rank' rest (prefs.set cand p) = .ok out →
        out.keys = addKeys prefs.keys (((cand, rating) :: rest).map Prod.fst) ∧ out.WF ∧
          (∀ c p, out.get? c = some p → RankGood p.rank) := by
      intro p rank' hr' hp h
      have := ih h hr' (by
        intro c q hq
        rw [Dict.get?_set] at hq
        split at hq
        · cases hq; exact hp
        · exact hg c q hq) (Dict.wf_set _ _ hw)
      refine ⟨?_, this.2⟩
      rw [this.1, Dict.keys_set]
      simp [addKeys]
    have hrank : ∀ m : RankOrRate, RankGood (match m with | .rankone => some (1 : Int) | .rank => some rank | .rate => none) := by
      intro m
      cases m with
      | rank => intro r hr'; cases hr'; exact hr
      | rate => intro r hr'; cases hr'
      | rankone => intro r hr'; cases hr'; exact Int.le_refl _
    unfold prefLoop at h
    simp only at h
    split at h
    · split at h
      · cases h
      · refine step _ _ ?_ (hrank mode) h
        split <;> omega
    · exact step _ _ hr (hrank mode) h

/-! ### `addRanksLoop` -/

theorem addRanksLoop_ok {first : Bool} {prevrate prevrank : Int} {L : List (Str × Int)}
    {prefs out : Dict Str Pref} (h : addRanksLoop first prevrate prevrank L prefs = .ok out)
    (hp : first = true ∨ 1 ≤ prevrank) :
    out.keys = prefs.keys ∧
    ∀ c p', out.get? c = some p' → ∃ p, prefs.get? c = some p ∧ p'.rating = p.rating ∧
      p'.nextdelim = p.nextdelim ∧
      (rankTruthy p.rank = true → p'.rank = p.rank) ∧
      (rankTruthy p.rank = false → c ∈ L.map Prod.fst → ∃ r, p'.rank = some r ∧ 1 ≤ r) ∧
      (c ∉ L.map Prod.fst → p'.rank = p.rank) := by
  induction L generalizing first prevrate prevrank prefs with
  | nil =>
    unfold addRanksLoop at h
    cases h
    exact ⟨rfl, fun c p' hc => ⟨p', hc, rfl, rfl, fun _ => rfl, by simp, fun _ => rfl⟩⟩
  | cons e rest ih =>
    obtain ⟨c₀, rate⟩ := e
    have step : ∀ thisrank : Int, 1 ≤ thisrank →
        addRanksLoop false rate thisrank rest
          (prefs.modify c₀ (fun p => if rankTruthy p.rank then p else { p with rank := some thisrank })) = .ok out →
        out.keys = prefs.keys ∧
        ∀ c p', out.get? c = some p' → ∃ p, prefs.get? c = some p ∧ p'.rating = p.rating ∧
          p'.nextdelim = p.nextdelim ∧
          (rankTruthy p.rank = true → p'.rank = p.rank) ∧
          (rankTruthy p.rank = false → c ∈ ((c₀, rate) :: rest).map Prod.fst → ∃ r, p'.rank = some r ∧ 1 ≤ r) ∧
          (c ∉ ((c₀, rate) :: rest).map Prod.fst → p'.rank = p.rank) := by
      intro thisrank ht h
      obtain ⟨hk, hall⟩ := ih h (.inr ht)
      refine ⟨by rw [hk, Dict.keys_modify], ?_⟩
      intro c p' hc
      obtain ⟨p, hpg, h1, h2, h3, h4, h5⟩ := hall c p' hc
      rw [Dict.get?_modify] at hpg
      by_cases hcc : c₀ = c
      · subst hcc
        rw [if_pos rfl] at hpg
        cases hq : prefs.get? c₀ with
        | none => rw [hq] at hpg; cases hpg
        | some q =>
          rw [hq] at hpg
          simp only [Option.map_some, Option.some.injEq] at hpg
          refine ⟨q, rfl, ?_⟩
          cases hqt : rankTruthy q.rank with
          | true =>
            rw [hqt] at hpg
            simp only [if_true] at hpg
            subst hpg
            exact ⟨h1, h2, fun _ => h3 hqt, by simp, by simp⟩
          | false =>
            rw [hqt] at hpg
            simp only [Bool.false_eq_true, if_false] at hpg
            subst hpg
            have htr : rankTruthy (some thisrank) = true := by
              simp only [rankTruthy, bne_iff_ne]; omega
            refine ⟨h1, h2, by simp, fun _ _ => ⟨thisrank, h3 htr, ht⟩, by simp⟩
      · rw [if_neg hcc] at hpg
        have hne : c ≠ c₀ := fun e => hcc e.symm
        refine ⟨p, hpg, h1, h2, h3, ?_, ?_⟩
        · intro hf hm
          apply h4 hf
          simpa [hne] using hm
        · intro hm
          apply h5
          intro hm'
          exact hm (by simp [hm'])
    unfold addRanksLoop at h
    simp only at h
    split at h
    · exact step 1 (by omega) h
    · rename_i hf
      have hpr : 1 ≤ prevrank := hp.resolve_left (by simpa using hf)
      split at h
      · exact step _ (by omega) h
      · split at h
        · exact step _ hpr h
        · cases h

theorem ratedKeys_fst {prefs : Dict Str Pref} {ks : List (Str × Int)} (h : ratedKeys prefs = .ok ks) :
    ks.map Prod.fst = prefs.keys := by
  unfold ratedKeys at h
  induction prefs generalizing ks with
  | nil => cases h; rfl
  | cons e l ih =>
    obtain ⟨b, bs, hb, hbs, rfl⟩ := mapM_cons_ok.1 h
    obtain ⟨r, _, hr⟩ := bind_ok.1 hb
    cases hr
    simp only [List.map_cons, Dict.keys, List.cons.injEq, true_and]
    exact ih hbs

theorem rankTruthy_good {o : Option Int} (hg : RankGood o) (h : rankTruthy o = true) : ∃ r, o = some r ∧ 1 ≤ r := by
  cases o with
  | none => simp [rankTruthy] at h
  | some r => exact ⟨r, rfl, hg r rfl⟩

theorem addRanksByRating_ok {prefs out : Dict Str Pref} (h : addRanksByRating prefs = .ok out)
    (hg : ∀ c p, prefs.get? c = some p → RankGood p.rank) :
    out.keys = prefs.keys ∧
    ∀ c p', out.get? c = some p' → ∃ p, prefs.get? c = some p ∧ p'.rating = p.rating ∧
      p'.nextdelim = p.nextdelim ∧ (rankTruthy p.rank = true → p'.rank = p.rank) ∧
      ∃ r, p'.rank = some r ∧ 1 ≤ r := by
  unfold addRanksByRating at h
  obtain ⟨ks, hks, h⟩ := bind_ok.1 h
  obtain ⟨hk, hall⟩ := addRanksLoop_ok h (.inl rfl)
  refine ⟨hk, ?_⟩
  intro c p' hc
  obtain ⟨p, h0, h1, h2, h3, h4, _⟩ := hall c p' hc
  refine ⟨p, h0, h1, h2, h3, ?_⟩
  have hm : c ∈ ((sortByKeyDesc Prod.snd ks).map Prod.fst) := by
    rw [((sortByKeyDesc_perm Prod.snd ks).map Prod.fst).mem_iff, ratedKeys_fst hks]
    exact Dict.mem_keys_of_get? h0
  cases ht : rankTruthy p.rank with
  | true =>
    obtain ⟨r, hr, h1r⟩ := rankTruthy_good (hg c p h0) ht
    exact ⟨r, by rw [h3 ht, hr], h1r⟩
  | false => exact h4 ht hm

/-- The result of `_parse_prefstr_to_dict`. -/
theorem parsePrefstr_ok {s : Str} {prefs : Dict Str Pref} {cands : List Str}
    (h : parsePrefstr s = .ok (prefs, cands)) :
    prefs.keys = firsts cands ∧ prefs.WF ∧ ∀ c p, prefs.get? c = some p → ∃ r, p.rank = some r ∧ 1 ≤ r := by
  unfold parsePrefstr at h
  obtain ⟨cps, hcps, h⟩ := bind_ok.1 h
  obtain ⟨p1, hp1, h⟩ := bind_ok.1 h
  obtain ⟨p2, hp2, h⟩ := bind_ok.1 h
  have e1 := prefLoop_ok hp1 (by omega) (by intro c p hc; simp [Dict.get?] at hc) Dict.wf_nil
  have e2 := addRanksByRating_ok hp2 e1.2.2
  have hk2 : p2.keys = firsts (cps.map Prod.fst) := by
    rw [e2.1, e1.1]
    show addKeys [] _ = _
    rw [addKeys_nil]
  have g2 : ∀ c p, p2.get? c = some p → ∃ r, p.rank = some r ∧ 1 ≤ r := by
    intro c p hc
    obtain ⟨_, _, _, _, _, hr⟩ := e2.2 c p hc
    exact hr
  split at h
  · cases h
    exact ⟨rfl, Dict.wf_nil, by intro c p hc; simp [Dict.get?] at hc⟩
  · rename_i c0 r0 rest
    split at h
    · cases h
    · rename_i p0 hp0
      simp only at h
      split at h
      · obtain ⟨p3, hp3, h⟩ := bind_ok.1 h
        cases h
        have e3 := addRanksByRating_ok hp3 (by
          intro c p hc r hr
          obtain ⟨r', h1, h2⟩ := g2 c p hc
          rw [h1] at hr; cases hr; exact h2)
        refine ⟨by rw [e3.1, hk2], ?_, ?_⟩
        · unfold Dict.WF; rw [e3.1, hk2]; exact nodup_firsts _
        · intro c p hc
          obtain ⟨_, _, _, _, _, hr⟩ := e3.2 c p hc
          exact hr
      · cases h
        exact ⟨hk2, by unfold Dict.WF; rw [hk2]; exact nodup_firsts _, g2⟩

end Verif
