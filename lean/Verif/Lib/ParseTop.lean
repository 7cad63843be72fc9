/-
Helper lemmas: `convert_abif_to_jabmod` as "process the lines, then rate, then sort".
-/
import Verif.Lib.ParseFile

set_option linter.unusedSimpArgs false
set_option linter.unusedSectionVars false

namespace Verif
open Spec
variable [U : Uni]

/-- the end of `convert_abif_to_jabmod` -/
def finish (ar : Bool) (m : Jabmod) : Except PyErr Jabmod :=
  if m.votelines = [] then .error .voteline
  else (if ar then addRatings m else .ok m) >>= fun m => .ok { m with votelines := sortByKeyDesc Voteline.qty m.votelines }

theorem convertAbif_eq (cw ar sc : Bool) (text : Str) :
    convertAbif cw ar sc text = (processPlain sc 0 (textLines cw text) emptyishJabmod >>= finish ar) := by
  unfold convertAbif
  by_cases ht : text = []
  · subst ht
    rw [if_pos rfl]
    have : textLines cw [] = [] := by simp [textLines, splitlines, splitlinesAux_nil_nil]
    rw [this]
    rfl
  · rw [if_neg ht, processLines_text]
    congr 1
    funext m
    unfold finish
    cases ar <;> rfl

/-! ### facts about every parsed voteline -/

theorem prefLoop_rating {mode : RankOrRate} {delims : List Char} {n i : Nat} {rank : Int}
    {cps : List (Str × Option RVal)} {prefs out : Dict Str Pref}
    (h : prefLoop mode delims n i rank cps prefs = .ok out)
    (hg : ∀ c p, prefs.get? c = some p → p.rating = none ∨ ratingTruthy p.rating = true) :
    ∀ c p, out.get? c = some p → p.rating = none ∨ ratingTruthy p.rating = true := by
  induction cps generalizing i rank prefs with
  | nil =>
    unfold prefLoop at h
    cases h
    exact hg
  | cons e rest ih =>
    obtain ⟨cand, rating⟩ := e
    have step : ∀ (p : Pref) (rank' : Int), (p.rating = none ∨ ratingTruthy p.rating = true) →
        prefLoop mode delims n (i + 1) rank' rest (prefs.set cand p) = .ok out →
        ∀ c p, out.get? c = some p → p.rating = none ∨ ratingTruthy p.rating = true := by
      intro p rank' hp h
      apply ih h
      intro c q hq
      rw [Dict.get?_set] at hq
      split at hq
      · cases hq; exact hp
      · exact hg c q hq
    have hr : (if ratingTruthy rating then rating else none) = none ∨
        ratingTruthy (if ratingTruthy rating then rating else none) = true := by
      split
      · right; assumption
      · left; rfl
    unfold prefLoop at h
    simp only at h
    split at h
    · split at h
      · cases h
      · exact step _ _ hr h
    · exact step _ _ hr h

theorem addRanksByRating_rating {prefs out : Dict Str Pref} (h : addRanksByRating prefs = .ok out)
    (hg : ∀ c p, prefs.get? c = some p → p.rating = none ∨ ratingTruthy p.rating = true) :
    ∀ c p, out.get? c = some p → p.rating = none ∨ ratingTruthy p.rating = true := by
  unfold addRanksByRating at h
  obtain ⟨ks, hks, h⟩ := bind_ok.1 h
  obtain ⟨hk, hall⟩ := addRanksLoop_ok h (.inl rfl)
  intro c p hc
  obtain ⟨q, hq, hr, _⟩ := hall c p hc
  rw [hr]
  exact hg c q hq

theorem parsePrefstr_rating {s : Str} {prefs : Dict Str Pref} {cands : List Str}
    (h : parsePrefstr s = .ok (prefs, cands)) :
    ∀ c p, prefs.get? c = some p → p.rating = none ∨ ratingTruthy p.rating = true := by
  unfold parsePrefstr at h
  obtain ⟨cps, hcps, h⟩ := bind_ok.1 h
  obtain ⟨p1, hp1, h⟩ := bind_ok.1 h
  obtain ⟨p2, hp2, h⟩ := bind_ok.1 h
  have e1 := prefLoop_rating hp1 (by intro c p hc; simp [Dict.get?] at hc)
  have e2 := addRanksByRating_rating hp2 e1
  split at h
  · cases h; intro c p hc; simp [Dict.get?] at hc
  · split at h
    · cases h
    · simp only at h
      split at h
      · obtain ⟨p3, hp3, h⟩ := bind_ok.1 h
        cases h
        exact addRanksByRating_rating hp3 e2
      · cases h; exact e2

/-- what holds of every entry of a parsed voteline -/
structure GoodLine (vl : Voteline) : Prop where
  wf : vl.prefs.WF
  entry : ∀ e ∈ vl.prefs, (∃ r, e.2.rank = some r ∧ 1 ≤ r) ∧ (e.2.rating = none ∨ ratingTruthy e.2.rating = true)

theorem goodLine_of_says {src : Str × Str × Option Str} {vl : Voteline} (h : SaysBallot src vl) : GoodLine vl := by
  obtain ⟨_, ⟨cands, hp⟩, _⟩ := h
  obtain ⟨_, hw, hr⟩ := parsePrefstr_ok hp
  refine ⟨hw, ?_⟩
  rintro ⟨c, p⟩ he
  have := Dict.get?_of_mem hw he
  exact ⟨hr c p this, parsePrefstr_rating hp c p this⟩

theorem forall₂_right {α β : Type} {R : α → β → Prop} {P : β → Prop} (hP : ∀ a b, R a b → P b) {l : List α} {r : List β}
    (h : List.Forall₂ R l r) : ∀ b ∈ r, P b := by
  induction h with
  | nil => simp
  | cons hr _ ih =>
    intro b hb
    rcases List.mem_cons.1 hb with rfl | hb
    · exact hP _ _ hr
    · exact ih b hb

theorem says_good {l : List (Str × Str × Option Str)} {r : List Voteline} (h : List.Forall₂ SaysBallot l r) :
    ∀ b ∈ r, GoodLine b :=
  forall₂_right (P := GoodLine) (fun _ _ h => goodLine_of_says h) h

/-! ### ratings -/

/-- the entry after `add_ratings` -/
def ratedEntry (hasRating : Bool) (n : Int) (p : Pref) : Pref :=
  match p.rating with
  | some r => { p with rating := some r }
  | none => if hasRating then { p with rating := some (.int 0) }
            else { p with rating := some (.int (n - p.rank.getD 0)) }

/-- the voteline after `add_ratings` -/
def ratedLine (hasRating : Bool) (n : Int) (vl : Voteline) : Voteline :=
  { vl with prefs := vl.prefs.map (fun kp => (kp.1, ratedEntry hasRating n kp.2)) }

theorem addRatings_eq (m : Jabmod) (hg : ∀ vl ∈ m.votelines, GoodLine vl) :
    addRatings m = .ok { m with
      votelines := m.votelines.map (ratedLine (hasAnyRating m) m.candidates.length),
      metadata := if !hasAnyRating m && m.votelines.any (fun vl => !vl.prefs.isEmpty)
        then m.metadata.set c!"is_ranking_to_rating" (.bool true) else m.metadata } := by
  unfold addRatings
  simp only
  rw [mapM_eq_map _ (ratedLine (hasAnyRating m) m.candidates.length)]
  · rw [ok_bind]
    have : (!hasAnyRating m && m.votelines.any (fun vl => vl.prefs.any (fun kp => !ratingTruthy kp.2.rating))) =
        (!hasAnyRating m && m.votelines.any (fun vl => !vl.prefs.isEmpty)) := by
      cases hh : hasAnyRating m with
      | true => rfl
      | false =>
        simp only [Bool.not_false, Bool.true_and]
        rw [Bool.eq_iff_iff]
        simp only [List.any_eq_true]
        have hno : ∀ vl ∈ m.votelines, ∀ e ∈ vl.prefs, e.2.rating = none := by
          intro vl hvl e he
          unfold hasAnyRating at hh
          cases hr : e.2.rating with
          | none => rfl
          | some r =>
            have : m.votelines.any (fun vl => vl.prefs.any (fun kp => kp.2.rating.isSome)) = true := by
              rw [List.any_eq_true]
              refine ⟨vl, hvl, ?_⟩
              rw [List.any_eq_true]
              exact ⟨e, he, by simp [hr]⟩
            rw [this] at hh; cases hh
        constructor
        · rintro ⟨vl, hvl, x, hx, _⟩
          refine ⟨vl, hvl, ?_⟩
          cases hp : vl.prefs with
          | nil => rw [hp] at hx; simp at hx
          | cons a b => rfl
        · rintro ⟨vl, hvl, h⟩
          refine ⟨vl, hvl, ?_⟩
          cases hp : vl.prefs with
          | nil => rw [hp] at h; simp at h
          | cons a b =>
            refine ⟨a, by simp, ?_⟩
            rw [hno vl hvl a (by simp [hp])]
            rfl
    rw [this]
  · intro vl hvl
    rw [mapM_eq_map _ (fun kp => (kp.1, ratedEntry (hasAnyRating m) m.candidates.length kp.2))]
    · rfl
    · rintro ⟨k, p⟩ hk
      obtain ⟨⟨r, hr, _⟩, hrat⟩ := (hg vl hvl).entry _ hk
      have : addRatingEntry (hasAnyRating m) (m.candidates.length) p = .ok (ratedEntry (hasAnyRating m) m.candidates.length p) := by
        unfold addRatingEntry ratedEntry
        simp only at hr hrat
        rcases hrat with h | h
        · rw [h, hr]
          simp only [ratingTruthy, Bool.false_eq_true, if_false]
          split <;> rfl
        · rw [if_pos h]
          cases hp : p.rating with
          | none => rw [hp] at h; cases h
          | some x => simp [← hp]
      simp only
      rw [this]
      rfl

/-- sorting by quantity commutes with changes that keep the quantity -/
theorem sortQty_map (f : Voteline → Voteline) (hf : ∀ v, (f v).qty = v.qty) (l : List Voteline) :
    sortByKeyDesc Voteline.qty (l.map f) = (sortByKeyDesc Voteline.qty l).map f := by
  unfold sortByKeyDesc
  apply pySort_map
  intro a b
  simp [hf]

theorem stableSorted (l : List Voteline) : StableSortedDesc l (sortByKeyDesc Voteline.qty l) :=
  ⟨sortByKeyDesc_perm _ _, sortByKeyDesc_sorted _ _, fun q => sortByKeyDesc_stable _ _ q⟩

/-- everything about a successful parse -/
theorem convertAbif_ok {cw sc : Bool} {text : Str} {m : Jabmod} (h : convertAbif cw false sc text = .ok m) :
    ∃ vls, List.Forall₂ SaysBallot (votesOf cw text) vls ∧ vls ≠ [] ∧
      m.votelines = sortByKeyDesc Voteline.qty vls ∧
      m.candidates.keys = firsts ((textLines cw text).flatMap lineMentions) ∧
      (∀ tok ∈ m.candidates.keys, m.candidates.get? tok =
        some (some ((declared (textLines cw text) tok).getD tok))) ∧
      m.metadata.get? c!"ballotcount" = some (.int (vls.map Voteline.qty).sum) ∧
      (∀ k, k ≠ c!"comments" → k ≠ c!"ballotcount" → m.metadata.get? k =
        (metaValue (textLines cw text) k).map Json.str) := by
  rw [convertAbif_eq] at h
  obtain ⟨m0, h0, h⟩ := bind_ok.1 h
  unfold finish at h
  split at h
  · cases h
  rename_i hne
  cases h
  obtain ⟨vls, f1, f2, f3, f4, f5, f6⟩ := processPlain_ok h0 0 rfl
  have f2' : m0.votelines = vls := by rw [f2]; rfl
  refine ⟨vls, f1, f2' ▸ hne, by simp only [f2'], ?_, ?_, ?_, ?_⟩
  · simp only
    rw [f3]; exact addKeys_nil _
  · intro tok ht
    simp only at ht ⊢
    rw [f4 tok ht]
    cases declared (textLines cw text) tok <;> simp [emptyishJabmod, Dict.keys]
  · simpa using f5
  · intro k hk hk'
    simp only
    rw [f6 k hk hk']
    cases metaValue (textLines cw text) k with
    | some v => rfl
    | none =>
      have : c!"ballotcount" ≠ k := Ne.symm hk'
      simp only [emptyishJabmod, Dict.get?, Option.map_none]
      rw [if_neg this]

/-- parsing with ratings is parsing without, then rating every voteline -/
theorem convertAbif_rated (cw sc : Bool) (text : Str) :
    convertAbif cw true sc text = (convertAbif cw false sc text >>= fun m =>
      .ok { m with
        votelines := m.votelines.map (ratedLine (hasAnyRating m) m.candidates.length),
        metadata := if !hasAnyRating m && m.votelines.any (fun vl => !vl.prefs.isEmpty)
          then m.metadata.set c!"is_ranking_to_rating" (.bool true) else m.metadata }) := by
  rw [convertAbif_eq, convertAbif_eq, bind_assoc]
  cases h0 : processPlain sc 0 (textLines cw text) emptyishJabmod with
  | error e => rfl
  | ok m0 =>
    rw [ok_bind, ok_bind]
    unfold finish
    by_cases hne : m0.votelines = []
    · simp only [hne, if_true]; rfl
    · simp only [hne, if_false, if_true, Bool.false_eq_true]
      obtain ⟨vls, f1, f2, _⟩ := processPlain_ok h0 0 rfl
      have f2' : m0.votelines = vls := by rw [f2]; rfl
      have hg : ∀ vl ∈ m0.votelines, GoodLine vl := by
        rw [f2']
        exact says_good f1
      rw [addRatings_eq m0 hg]
      simp only [ok_bind]
      have hperm := sortByKeyDesc_perm Voteline.qty m0.votelines
      have hany : ∀ p : Voteline → Bool, (sortByKeyDesc Voteline.qty m0.votelines).any p = m0.votelines.any p := by
        intro p
        rw [Bool.eq_iff_iff]
        simp only [List.any_eq_true, hperm.mem_iff]
      have hh : hasAnyRating { m0 with votelines := sortByKeyDesc Voteline.qty m0.votelines } = hasAnyRating m0 := hany _
      rw [hh, hany]
      rw [sortQty_map (ratedLine _ _) (fun v => rfl)]

theorem convertAbif_good {cw ar sc : Bool} {text : Str} {m : Jabmod} (h : convertAbif cw ar sc text = .ok m) :
    ∀ vl ∈ m.votelines, GoodLine vl ∨ ∃ b n v, GoodLine v ∧ vl = ratedLine b n v := by
  cases ar with
  | false =>
    obtain ⟨vls, f1, _, f2, _⟩ := convertAbif_ok h
    intro vl hvl
    rw [f2, (sortByKeyDesc_perm _ _).mem_iff] at hvl
    exact .inl (says_good f1 vl hvl)
  | true =>
    rw [convertAbif_rated] at h
    obtain ⟨m0, h0, h⟩ := bind_ok.1 h
    cases h
    obtain ⟨vls, f1, _, f2, _⟩ := convertAbif_ok h0
    intro vl hvl
    simp only [List.mem_map] at hvl
    obtain ⟨v, hv, rfl⟩ := hvl
    rw [f2, (sortByKeyDesc_perm _ _).mem_iff] at hv
    exact .inr ⟨_, _, v, says_good f1 v hv, rfl⟩

/-! ### lines that say nothing -/

theorem processPlain_append (sc : Bool) (i : Nat) (a b : List Str) (m : Jabmod) :
    processPlain sc i (a ++ b) m = (processPlain sc i a m >>= processPlain sc (i + a.length) b) := by
  induction a generalizing i m with
  | nil => rfl
  | cons l a ih =>
    simp only [List.cons_append, processPlain, bind_assoc]
    congr 1; funext m; congr 1; funext m
    rw [ih]
    congr 2
    simp only [List.length_cons]; omega

theorem processPlain_false_index (i j : Nat) (ls : List Str) (m : Jabmod) :
    processPlain false i ls m = processPlain false j ls m := by
  induction ls generalizing i j m with
  | nil => rfl
  | cons l ls ih =>
    simp only [processPlain, processComment_false]
    congr 1; funext m; congr 1; funext m
    exact ih _ _ m

/-- a line that is neither a candidate line, a metadata line nor a voteline -/
theorem lineEffect_junk {l : Str} (m : Jabmod) (h1 : readCand (beforeHash l) = none)
    (h2 : matchMeta (beforeHash l) = none) (h3 : readVote (beforeHash l) = none) : lineEffect l m = .ok m := by
  unfold lineEffect
  rw [h1, h2, h3]

/-! ### forgetting comments -/

/-- forget comment and voter id -/
def bareLine (vl : Voteline) : Voteline := { vl with comment := none, voterid := none }
/-- forget all comments and voter ids -/
def bareModel (m : Jabmod) : Jabmod := { m with votelines := m.votelines.map bareLine }

/-- two results equal up to comments and voter ids -/
def BareEq (x y : Except PyErr Jabmod) : Prop :=
  (∃ e, x = .error e ∧ y = .error e) ∨ (∃ m m', x = .ok m ∧ y = .ok m' ∧ bareModel m = bareModel m')

theorem bareModel_eq_iff {m m' : Jabmod} : bareModel m = bareModel m' ↔
    m.metadata = m'.metadata ∧ m.candidates = m'.candidates ∧ m.votelines.map bareLine = m'.votelines.map bareLine := by
  unfold bareModel
  simp

theorem BareEq.bind {x y : Except PyErr Jabmod} {f g : Jabmod → Except PyErr Jabmod} (h : BareEq x y)
    (hf : ∀ m m', bareModel m = bareModel m' → BareEq (f m) (g m')) : BareEq (x >>= f) (y >>= g) := by
  rcases h with ⟨e, rfl, rfl⟩ | ⟨m, m', rfl, rfl, h⟩
  · exact .inl ⟨e, rfl, rfl⟩
  · exact hf m m' h

theorem BareEq.ok {m m' : Jabmod} (h : bareModel m = bareModel m') : BareEq (.ok m) (.ok m') :=
  .inr ⟨m, m', rfl, rfl, h⟩

theorem lineEffect_bare {l l' : Str} {m m' : Jabmod} (hl : beforeHash l = beforeHash l') (h : bareModel m = bareModel m') :
    BareEq (lineEffect l m) (lineEffect l' m') := by
  obtain ⟨h1, h2, h3⟩ := bareModel_eq_iff.1 h
  unfold lineEffect
  rw [hl]
  cases readCand (beforeHash l') with
  | some td => exact .ok (bareModel_eq_iff.2 ⟨h1, by simp [processCand, h2], h3⟩)
  | none =>
    simp only
    cases matchMeta (beforeHash l') with
    | some td => exact .ok (bareModel_eq_iff.2 ⟨by simp [processMeta, h1], h2, h3⟩)
    | none =>
      simp only
      cases readVote (beforeHash l') with
      | none => exact .ok h
      | some qp =>
        simp only
        unfold processPrefline
        simp only [h1, h2]
        cases bumpBallotcount m'.metadata (digitsVal qp.1) with
        | error e => exact .inl ⟨e, rfl, rfl⟩
        | ok md =>
          cases parsePrefstr qp.2 with
          | error e => exact .inl ⟨e, rfl, rfl⟩
          | ok r => exact .ok (bareModel_eq_iff.2 ⟨rfl, rfl, by simp [bareLine, h3]⟩)

theorem processPlain_bare (i : Nat) (ls : List Str) {m m' : Jabmod} (h : bareModel m = bareModel m') :
    BareEq (processPlain false i ls m) (processPlain false i ls m') := by
  induction ls generalizing i m m' with
  | nil => exact .ok h
  | cons l ls ih =>
    simp only [processPlain, processComment_false, ok_bind]
    exact (lineEffect_bare rfl h).bind (fun m m' hm => ih _ hm)

theorem finish_bare (ar : Bool) {m m' : Jabmod} (h : bareModel m = bareModel m')
    (hg : ∀ vl ∈ m.votelines, GoodLine vl) : BareEq (finish ar m) (finish ar m') := by
  obtain ⟨h1, h2, h3⟩ := bareModel_eq_iff.1 h
  have hlen : m.votelines = [] ↔ m'.votelines = [] := by
    rw [← List.map_eq_nil_iff (f := bareLine), h3, List.map_eq_nil_iff]
  have hg' : ∀ vl ∈ m'.votelines, GoodLine vl := by
    intro vl hvl
    have : bareLine vl ∈ m.votelines.map bareLine := h3 ▸ List.mem_map_of_mem hvl
    obtain ⟨v, hv, he⟩ := List.mem_map.1 this
    have := hg v hv
    have hp : v.prefs = vl.prefs := by
      have := congrArg Voteline.prefs he
      exact this
    exact ⟨hp ▸ this.wf, hp ▸ this.entry⟩
  have hsort : ∀ {a b : List Voteline}, a.map bareLine = b.map bareLine →
      (sortByKeyDesc Voteline.qty a).map bareLine = (sortByKeyDesc Voteline.qty b).map bareLine := by
    intro a b hab
    rw [← sortQty_map bareLine (fun _ => rfl), hab, sortQty_map bareLine (fun _ => rfl)]
  unfold finish
  by_cases hne : m.votelines = []
  · rw [if_pos hne, if_pos (hlen.1 hne)]
    exact .inl ⟨_, rfl, rfl⟩
  · rw [if_neg hne, if_neg (fun h => hne (hlen.2 h))]
    cases ar with
    | false => exact .ok (bareModel_eq_iff.2 ⟨h1, h2, hsort h3⟩)
    | true =>
      simp only [if_true]
      rw [addRatings_eq m hg, addRatings_eq m' hg']
      have hany : ∀ p : Voteline → Bool, (∀ v, p (bareLine v) = p v) → m.votelines.any p = m'.votelines.any p := by
        intro p hp
        have e : ∀ l : List Voteline, (l.map bareLine).any p = l.any p := by
          intro l; simp [List.any_map, Function.comp_def, hp]
        rw [← e, h3, e]
      have hh : hasAnyRating m = hasAnyRating m' := hany _ (fun _ => rfl)
      rw [hany _ (fun _ => rfl), hh, h1, h2]
      refine .ok (bareModel_eq_iff.2 ⟨rfl, rfl, hsort ?_⟩)
      have e : ∀ l : List Voteline, (l.map (ratedLine (hasAnyRating m') m'.candidates.length)).map bareLine =
          (l.map bareLine).map (ratedLine (hasAnyRating m') m'.candidates.length) := by
        intro l; simp [List.map_map, Function.comp_def, bareLine, ratedLine]
      rw [e, e, h3]

/-! ### storing comments -/

/-- the comments of numbered lines, as stored -/
def commentEntries (i : Nat) : List Str → List Json
  | [] => []
  | l :: ls => match hashComment l with
    | some c => Json.arr [.int i, .str c] :: commentEntries (i + 1) ls
    | none => commentEntries (i + 1) ls

/-- two models that agree except on the stored comments -/
structure SameButComments (m m' : Jabmod) : Prop where
  cands : m.candidates = m'.candidates
  lines : m.votelines = m'.votelines
  md : ∀ k, k ≠ c!"comments" → m.metadata.get? k = m'.metadata.get? k

theorem hashComment_ne {l c : Str} (h : hashComment l = some c) : c ≠ [] := by
  unfold hashComment at h
  split at h
  · rename_i hm
    cases h
    intro he
    have := dropWhile_eq_nil_of he '#' hm
    simp at this
  · cases h

/-- what the stored comments say -/
def storedAs (entries : List Json) : Option Json := if entries = [] then none else some (.arr entries)

theorem bump_congr {md md' : Dict Str Json} {q : Int} (h : md.get? c!"ballotcount" = md'.get? c!"ballotcount") :
    (∃ e, bumpBallotcount md q = .error e ∧ bumpBallotcount md' q = .error e) ∨
    (∃ v, bumpBallotcount md q = .ok (md.set c!"ballotcount" v) ∧
          bumpBallotcount md' q = .ok (md'.set c!"ballotcount" v)) := by
  unfold bumpBallotcount
  rw [h]
  split
  · exact .inr ⟨_, rfl, rfl⟩
  · exact .inl ⟨_, rfl, rfl⟩
  · exact .inl ⟨_, rfl, rfl⟩

theorem processPlain_stored {ls : List Str} (hno : ∀ l ∈ ls, ∀ v, matchMeta (beforeHash l) ≠ some (c!"comments", v))
    {i j : Nat} {m m' : Jabmod} {es : List Json} (hs : SameButComments m m') (he : m.metadata.get? c!"comments" = storedAs es)
    (he' : m'.metadata.get? c!"comments" = none) :
    (∃ e, processPlain true i ls m = .error e ∧ processPlain false j ls m' = .error e) ∨
    (∃ r r', processPlain true i ls m = .ok r ∧ processPlain false j ls m' = .ok r' ∧ SameButComments r r' ∧
      r.metadata.get? c!"comments" = storedAs (es ++ commentEntries i ls) ∧ r'.metadata.get? c!"comments" = none) := by
  induction ls generalizing i j m m' es with
  | nil => exact .inr ⟨m, m', rfl, rfl, hs, by simpa [commentEntries] using he, he'⟩
  | cons l ls ih =>
    have ih := fun {i j m m' es} => @ih (fun l hl => hno l (List.mem_cons_of_mem _ hl)) i j m m' es
    simp only [processPlain, processComment_false, ok_bind]
    -- the comment
    obtain ⟨m1, es1, hp1, hs1, he1, hes⟩ : ∃ m1 es1, processComment (hashComment l) i true m = .ok m1 ∧
        SameButComments m1 m' ∧ m1.metadata.get? c!"comments" = storedAs es1 ∧
        es ++ commentEntries i (l :: ls) = es1 ++ commentEntries (i + 1) ls := by
      unfold processComment
      rw [commentEntries]
      cases hc : hashComment l with
      | none => exact ⟨m, es, rfl, hs, he, rfl⟩
      | some c =>
        have hne := hashComment_ne hc
        simp only [hne, ne_eq, not_false_eq_true, and_self, if_true]
        refine ⟨{ m with metadata := m.metadata.set c!"comments" (.arr (es ++ [.arr [.int i, .str c]])) },
          es ++ [.arr [.int i, .str c]], ?_, ?_, ?_, by simp⟩
        · rw [he]
          unfold storedAs
          by_cases hes : es = []
          · subst hes; simp
          · simp [hes]
        · refine ⟨hs.cands, hs.lines, ?_⟩
          intro k hk
          rw [← hs.md k hk]
          exact Dict.get?_set_ne _ _ (Ne.symm hk)
        · rw [Dict.get?_set_self]; unfold storedAs; simp
    rw [hp1, ok_bind, hes]
    -- the rest of the line
    have hbc : m1.metadata.get? c!"ballotcount" = m'.metadata.get? c!"ballotcount" := hs1.md _ (by decide)
    have key : (∃ e, lineEffect l m1 = .error e ∧ lineEffect l m' = .error e) ∨
        (∃ r r', lineEffect l m1 = .ok r ∧ lineEffect l m' = .ok r' ∧ SameButComments r r' ∧
          r.metadata.get? c!"comments" = storedAs es1 ∧ r'.metadata.get? c!"comments" = none) := by
      have setk : ∀ (d d' : Dict Str Json) (a : Str) (v : Json), a ≠ c!"comments" →
          (∀ k, k ≠ c!"comments" → d.get? k = d'.get? k) →
          (∀ k, k ≠ c!"comments" → (d.set a v).get? k = (d'.set a v).get? k) := by
        intro d d' a v _ h k hk
        rw [Dict.get?_set, Dict.get?_set, h k hk]
      unfold lineEffect
      cases readCand (beforeHash l) with
      | some td =>
        exact .inr ⟨_, _, rfl, rfl, ⟨by simp [processCand, hs1.cands], hs1.lines, hs1.md⟩, he1, he'⟩
      | none =>
        simp only
        cases hmm : matchMeta (beforeHash l) with
        | some kv =>
          obtain ⟨mk, mv⟩ := kv
          have hk : (if mk = c!"ballotcount" then c!"ballotcount_abif_metadata" else mk) ≠ c!"comments" := by
            split
            · decide
            · intro e
              subst e
              exact hno l (by simp) mv hmm
          refine .inr ⟨_, _, rfl, rfl, ⟨hs1.cands, hs1.lines, setk _ _ _ _ hk hs1.md⟩, ?_, ?_⟩
          · simp only [processMeta]; rw [Dict.get?_set_ne _ _ hk]; exact he1
          · simp only [processMeta]; rw [Dict.get?_set_ne _ _ hk]; exact he'
        | none =>
          simp only
          cases readVote (beforeHash l) with
          | none => exact .inr ⟨_, _, rfl, rfl, hs1, he1, he'⟩
          | some qp =>
            simp only
            unfold processPrefline
            simp only
            rcases bump_congr (q := (digitsVal qp.1 : Int)) hbc with ⟨e, h1, h2⟩ | ⟨v, h1, h2⟩
            · rw [h1, h2]; exact .inl ⟨e, rfl, rfl⟩
            · rw [h1, h2]
              cases parsePrefstr qp.2 with
              | error e => exact .inl ⟨e, rfl, rfl⟩
              | ok r =>
                refine .inr ⟨_, _, rfl, rfl, ⟨by simp [hs1.cands], by simp [hs1.lines], setk _ _ _ _ (by decide) hs1.md⟩, ?_, ?_⟩
                · simp only; rw [Dict.get?_set_ne _ _ (by decide)]; exact he1
                · simp only; rw [Dict.get?_set_ne _ _ (by decide)]; exact he'
    rcases key with ⟨e, h1, h2⟩ | ⟨r, r', h1, h2, h3, h4, h5⟩
    · rw [h1, h2]; exact .inl ⟨e, rfl, rfl⟩
    · rw [h1, h2, ok_bind, ok_bind]
      exact ih h3 h4 h5

/-! ### stripping -/

theorem textLines_clean (text : Str) :
    textLines false ((splitlines text).flatMap (fun l => lstrip l ++ ['\n'])) = textLines true text := by
  unfold textLines
  simp only [Bool.false_eq_true, if_false, if_true, List.map_id']
  have : (splitlines text).flatMap (fun l => lstrip l ++ ['\n']) =
      ((splitlines text).map lstrip).flatMap (fun l => l ++ ['\n']) := by
    rw [List.flatMap_map]
  rw [this, splitlines_lines]
  intro l hl c hc
  obtain ⟨l0, h0, rfl⟩ := List.mem_map.1 hl
  exact splitlines_noBreak text l0 h0 c (dropWhile_mem hc)

/-- a text cut at a line start, with one line put in between -/
theorem textLines_insert (cw : Bool) (a b l : Str) (ha : a = [] ∨ ∃ a', a = a' ++ ['\n'])
    (hl : ∀ c ∈ l, isLineBreak c = false) :
    textLines cw (a ++ l ++ '\n' :: b) = textLines cw a ++ (if cw then lstrip l else l) :: textLines cw b ∧
    textLines cw (a ++ b) = textLines cw a ++ textLines cw b := by
  have key : splitlines (a ++ l ++ '\n' :: b) = splitlines a ++ l :: splitlines b ∧
      splitlines (a ++ b) = splitlines a ++ splitlines b := by
    rcases ha with rfl | ⟨a', rfl⟩
    · simp only [List.nil_append]
      exact ⟨by rw [splitlines_line l b hl]; rfl, rfl⟩
    · constructor
      · have : a' ++ ['\n'] ++ l ++ '\n' :: b = a' ++ '\n' :: (l ++ '\n' :: b) := by simp
        rw [this, splitlines_append_newline, splitlines_line l b hl]
      · have : a' ++ ['\n'] ++ b = a' ++ '\n' :: b := by simp
        rw [this, splitlines_append_newline]
  unfold textLines
  rw [key.1, key.2]
  simp

end Verif
