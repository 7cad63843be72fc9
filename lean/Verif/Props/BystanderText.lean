/-
C117 for texts: announcing a candidate who is on no ballot.
-/
import Verif.Props.Bystanders
import Verif.Props.Merge
import Verif.Lib.Tiers
import Verif.Props.ScoreTheory

namespace Verif.Props
open Verif Spec Runoff

variable [U : Uni]

theorem readCand_noVote {s z n : Str} (h : readCand s = some (z, n)) : readVote s = none := by
  match s, h with
  | [], h => simp [readCand] at h
  | c :: t, h =>
    by_cases hc : c = '='
    · subst hc; exact readVote_eq t
    · exfalso
      unfold readCand at h
      split at h
      · rename_i t' e
        exact hc (List.cons.inj e).1
      · cases h

/-- C117, texts: a line that announces a candidate nobody mentions, put in at any line start, gives an election in which this candidate is a
bystander (and everything else is as before). -/
theorem C117_text (cw : Bool) (a b line z name : Str) (ha : a = [] ∨ ∃ a', a = a' ++ ['\n']) (hbreak : ∀ c ∈ line, isLineBreak c = false)
    (hline : readCand (beforeHash (if cw then lstrip line else line)) = some (z, name)) (m : Jabmod)
    (h : convertAbif cw false false (a ++ b) = .ok m) (hz : z ∉ Dict.keys m.candidates) :
    ∃ m', convertAbif cw false false (a ++ line ++ '\n' :: b) = .ok m' ∧ WithBystanders [z] m m' ∧
      Dict.get? m'.candidates z = some (some name) ∧ (∀ c, c ≠ z → Dict.get? m'.candidates c = Dict.get? m.candidates c) := by
  obtain ⟨t1, t2⟩ := textLines_insert cw a b line ha hbreak
  have hvote : Spec.lineVote (if cw then lstrip line else line) = none := by
    unfold Spec.lineVote; rw [readCand_noVote hline]; rfl
  have hment : lineMentions (if cw then lstrip line else line) = [z] := by
    unfold lineMentions; rw [hline]
  have hvotes : votesOf cw (a ++ line ++ '\n' :: b) = votesOf cw (a ++ b) := by
    unfold votesOf
    rw [t1, t2, List.filterMap_append, List.filterMap_append, List.filterMap_cons, hvote]
  have ok : ∃ m', convertAbif cw false false (a ++ line ++ '\n' :: b) = .ok m' := by
    rw [C09_accepted, hvotes, ← C09_accepted cw false]
    exact ⟨m, h⟩
  obtain ⟨m', hm'⟩ := ok
  obtain ⟨v, f1, _, f2, f3, f4, _⟩ := convertAbif_ok h
  obtain ⟨v', g1, _, g2, g3, g4, _⟩ := convertAbif_ok hm'
  rw [hvotes] at g1
  have hv := says_unique f1 g1
  have hmem : ∀ c, c ∈ Dict.keys m'.candidates ↔ c ∈ Dict.keys m.candidates ∨ c = z := by
    intro c
    rw [g3, f3, mem_firsts, mem_firsts, t1, t2, List.flatMap_append, List.flatMap_append, List.flatMap_cons, hment]
    simp only [List.mem_append, List.mem_singleton]
    grind
  have hdec : ∀ c, declared (textLines cw (a ++ line ++ '\n' :: b)) c =
      if c = z then (declared (textLines cw b) z).or (some name) else declared (textLines cw (a ++ b)) c := by
    intro c
    rw [t1, t2, declared_append, declared_append, show ∀ l : List Str, (if cw then lstrip line else line) :: l =
      [if cw then lstrip line else line] ++ l from fun _ => rfl, declared_append]
    have hone : declared [if cw then lstrip line else line] c = if c = z then some name else none := by
      unfold declared
      simp only [List.filterMap_cons, List.filterMap_nil, hline]
      by_cases e : c = z
      · subst e; simp
      · simp [e, Ne.symm e]
    rw [hone]
    by_cases e : c = z
    · subst e
      rw [if_pos rfl, if_pos rfl]
      cases declared (textLines cw b) c <;> rfl
    · rw [if_neg e, if_neg e]
      cases declared (textLines cw b) c <;> rfl
  have hzb : declared (textLines cw b) z = none := by
    cases hd : declared (textLines cw b) z with
    | none => rfl
    | some x =>
      exfalso
      apply hz
      rw [f3, mem_firsts, t2, List.flatMap_append, List.mem_append]
      exact .inr (declared_mentioned hd)
  refine ⟨m', hm', ⟨?_, fun c => ?_, ?_⟩, ?_, ?_⟩
  · rw [g2, f2, hv]
  · rw [hmem, List.mem_singleton]
    constructor
    · intro hc; exact ⟨.inl hc, fun e => hz (e ▸ hc)⟩
    · rintro ⟨hc, hne⟩; exact hc.resolve_right hne
  · intro u hu c hc hcu
    rw [List.mem_singleton] at hc
    subst hc
    exact hz ((C03_candidates cw false false (a ++ b) m h).2.2 u hu c hcu)
  · rw [g4 z ((hmem z).2 (.inr rfl)), hdec, if_pos rfl, hzb]
    rfl
  · intro c hcz
    by_cases hc : c ∈ Dict.keys m.candidates
    · rw [g4 c ((hmem c).2 (.inl hc)), f4 c hc, hdec, if_neg hcz]
    · rw [Dict.get?_eq_none.2 hc, Dict.get?_eq_none.2 (fun h => ((hmem c).1 h).elim hc hcz)]

omit U in
theorem firstMax_drop {f : Str → Int} {l : List Str} {c : Str} {p : Str → Bool} (h : FirstMax f l c) (hp : p c = true) : FirstMax f (l.filter p) c := by
  obtain ⟨before, after, rfl, h1, h2⟩ := h
  refine ⟨before.filter p, after.filter p, ?_, fun d hd => h1 d (List.mem_filter.1 hd).1, fun d hd => h2 d (List.mem_filter.1 hd).1⟩
  rw [List.filter_append, List.filter_cons, if_pos hp]

omit U in
theorem firstMax_undrop {f : Str → Int} {l : List Str} {c : Str} {p : Str → Bool} (h : FirstMax f (l.filter p) c)
    (hp : ∀ x ∈ l, p x = false → f x < f c) : FirstMax f l c := by
  obtain ⟨before, after, he, h1, h2⟩ := h
  obtain ⟨a, b, rfl, ha, hb⟩ := List.filter_eq_append_iff.1 he
  obtain ⟨b1, b2, rfl, hb1, hc, hb2⟩ := List.filter_eq_cons_iff.1 hb
  refine ⟨a ++ b1, b2, by simp, fun d hd => ?_, fun d hd => ?_⟩
  · by_cases hd' : p d = true
    · rcases List.mem_append.1 hd with hd | hd
      · exact h1 d (ha ▸ List.mem_filter.2 ⟨hd, hd'⟩)
      · exact absurd hd' (hb1 d hd)
    · refine hp d ?_ (by simpa using hd')
      rcases List.mem_append.1 hd with hd | hd <;> simp [hd]
  · by_cases hd' : p d = true
    · exact h2 d (hb2 ▸ List.mem_filter.2 ⟨hd, hd'⟩)
    · have := hp d (by simp [hd]) (by simpa using hd')
      omega

/-- C117, STAR: if at least two candidates have a score above zero, candidates on no ballot do not change the STAR winner. -/
theorem C117_star (Z : List Str) (m m' : Jabmod) (h : WithBystanders Z m m')
    (hkeys : Dict.keys m.candidates = (Dict.keys m'.candidates).filter (fun c => decide (c ∉ Z))) (hs : StarCounted m) (hs' : StarCounted m')
    (a b : Str) (ha : a ∈ Dict.keys m.candidates) (hb : b ∈ Dict.keys m.candidates) (hab : a ≠ b) (hpa : 0 < scoreOf m a) (hpb : 0 < scoreOf m b)
    (w : Str) : WinsStar m' w ↔ WinsStar m w := by
  have hscore : scoreOf m' = scoreOf m := by
    funext c; unfold scoreOf; rw [h.votes]
  have hby : ∀ z ∈ Z, scoreOf m z = 0 := by
    intro z hz
    have key : ∀ l : List Voteline, (∀ v ∈ l, z ∉ Dict.keys v.prefs) → (l.map (fun v => v.qty * ratingOf v z)).sum = 0 := by
      intro l hl
      induction l with
      | nil => rfl
      | cons v l ih =>
        rw [List.map_cons, List.sum_cons, ih (fun v hv => hl v (by simp [hv]))]
        have : ratingOf v z = 0 := by
          unfold ratingOf
          rw [Dict.get?_eq_none.2 (hl v (by simp))]
        rw [this]; omega
    exact key m.votelines (fun v hv => h.unlisted v hv z hz)
  have hpos : ∀ (l : List Str) (x y : Str), (∀ c ∈ Dict.keys m.candidates, c ∈ l) → FirstMax (scoreOf m) (l.filter (fun c => decide (c ≠ y))) x → 0 < scoreOf m x := by
    intro l x y hl hx
    obtain ⟨p, q, e, h1, h2⟩ := hx
    have hge : ∀ c ∈ l, c ≠ y → scoreOf m c ≤ scoreOf m x := by
      intro c hc hcy
      have : c ∈ l.filter (fun c => decide (c ≠ y)) := List.mem_filter.2 ⟨hc, by simpa using hcy⟩
      rw [e, List.mem_append, List.mem_cons] at this
      rcases this with h3 | h3 | h3
      · have := h1 c h3; omega
      · rw [h3]
      · exact h2 c h3
    by_cases e1 : a = y
    · have := hge b (hl b hb) (fun e2 => hab (e1.trans e2.symm)); omega
    · have := hge a (hl a ha) e1; omega
  have hcomm : ∀ y : Str, ((Dict.keys m'.candidates).filter (fun c => decide (c ≠ y))).filter (fun c => decide (c ∉ Z)) =
      (Dict.keys m.candidates).filter (fun c => decide (c ≠ y)) := by
    intro y
    rw [hkeys, List.filter_filter, List.filter_filter]
    congr 1
    funext c
    rw [Bool.and_comm]
  have hsup : ∀ x y, support m' x y = support m x y := fun x y => support_votes h x y
  have htop : ∀ x y, TopTwo (scoreOf m) (Dict.keys m'.candidates) x y ↔ TopTwo (scoreOf m) (Dict.keys m.candidates) x y := by
    intro x y
    constructor
    · rintro ⟨h1, h2, h3⟩
      have px := hpos _ x y (fun c hc => ((h.cands c).1 hc).1) h2
      have py := hpos _ y x (fun c hc => ((h.cands c).1 hc).1) h3
      refine ⟨h1, ?_, ?_⟩
      · rw [← hcomm y]; exact firstMax_drop h2 (by simp only [decide_eq_true_eq]; intro hz; have := hby x hz; omega)
      · rw [← hcomm x]; exact firstMax_drop h3 (by simp only [decide_eq_true_eq]; intro hz; have := hby y hz; omega)
    · rintro ⟨h1, h2, h3⟩
      have px := hpos _ x y (fun c hc => hc) h2
      have py := hpos _ y x (fun c hc => hc) h3
      refine ⟨h1, ?_, ?_⟩
      · rw [← hcomm y] at h2
        exact firstMax_undrop h2 (fun z _ hz => by have := hby z (by simpa using hz); omega)
      · rw [← hcomm x] at h3
        exact firstMax_undrop h3 (fun z _ hz => by have := hby z (by simpa using hz); omega)
  rw [C97_star m' hs', C97_star m hs, hscore]
  simp only [htop, hsup]

end Verif.Props

namespace Verif.Props
open Verif Spec Runoff
section
attribute [local instance] Uni.ascii
set_option maxRecDepth 40000

/-- `C117_text` applies: a line announcing `Z` between the ballots -/
example : ∃ m, convertAbif true false false (c!"3:A>B\n" ++ c!"2:B>C\n") = .ok m ∧ c!"Z" ∉ Dict.keys m.candidates ∧
    readCand (beforeHash (if true then lstrip c!"  =Z:[Zed]" else c!"  =Z:[Zed]")) = some (c!"Z", c!"Zed") :=
  ⟨_, readText_eq (t := c!"3:A>B\n" ++ c!"2:B>C\n") (by decide +kernel), (by decide +kernel), (by decide +kernel)⟩

def starByText : Str := c!"4:A/5>B/3>C/1\n3:C/4>B/2\n"
def starByText2 : Str := c!"=Z:[Zed]\n4:A/5>B/3>C/1\n3:C/4>B/2\n"

/-- `C117_star` applies -/
example : StarCounted (readText starByText) ∧ StarCounted (readText starByText2) ∧ WithBystanders [c!"Z"] (readText starByText) (readText starByText2) ∧
    Dict.keys (readText starByText).candidates = (Dict.keys (readText starByText2).candidates).filter (fun c => decide (c ∉ [c!"Z"])) ∧
    0 < scoreOf (readText starByText) c!"A" ∧ 0 < scoreOf (readText starByText) c!"B" :=
  ⟨parsed_starCounted true false false _ _ (readText_eq (t := starByText) (by decide +kernel)) (by decide +kernel),
    parsed_starCounted true false false _ _ (readText_eq (t := starByText2) (by decide +kernel)) (by decide +kernel),
    withBystanders_of (by decide +kernel) (by decide +kernel) (by decide +kernel) (by decide +kernel), (by decide +kernel), (by decide +kernel),
    (by decide +kernel)⟩

def oneScoreText : Str := c!"3:A/5>B\n4:B>A\n"
def oneScoreText2 : Str := c!"=Z:[Zed]\n3:A/5>B\n4:B>A\n"

/-- That two candidates have a score above zero is needed: `B`, with no points, is the second finalist and wins; if `Z`, who is on no ballot, is
announced first, `Z` is the second finalist and `A` wins. -/
theorem C117_star_refuted : ∃ m m' : Jabmod, convertAbif true false false oneScoreText = .ok m ∧ convertAbif true false false oneScoreText2 = .ok m' ∧
    WithBystanders [c!"Z"] m m' ∧ Dict.keys m.candidates = (Dict.keys m'.candidates).filter (fun c => decide (c ∉ [c!"Z"])) ∧
    WinsStar m c!"B" ∧ ¬ WinsStar m c!"A" ∧ WinsStar m' c!"A" := by
  have e1 := readText_eq (t := oneScoreText) (by decide +kernel)
  have e2 := readText_eq (t := oneScoreText2) (by decide +kernel)
  have s1 := parsed_starCounted _ _ _ _ _ e1 (by decide +kernel)
  have s2 := parsed_starCounted _ _ _ _ _ e2 (by decide +kernel)
  have o1 : starOf (readText oneScoreText) = some [c!"A", c!"B", c!"B"] := by decide +kernel
  have o2 : starOf (readText oneScoreText2) = some [c!"A", c!"Z", c!"A"] := by decide +kernel
  exact ⟨_, _, e1, e2, withBystanders_of (by decide +kernel) (by decide +kernel) (by decide +kernel) (by decide +kernel), (by decide +kernel),
    winsStar_of (by decide) o1 (by decide +kernel) s1, (fun h => absurd (winsStar_only o1 h) (by decide)),
    winsStar_of (by decide) o2 (by decide +kernel) s2⟩
end
end Verif.Props
