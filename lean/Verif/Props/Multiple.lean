/-
C124: counting every ballot several times multiplies the numbers and changes nothing else.
-/
import Verif.Spec.Multiple
import Verif.Props.Irv
import Verif.Props.Tally
import Verif.Props.Unclosed
import Verif.Lib.ParseTop
import Verif.Lib.Sort

set_option linter.unusedSimpArgs false
set_option linter.unusedSectionVars false

namespace Verif.Props
open Spec

/-! ### dicts with values changed -/

/-- the values of a dict changed, each according to its key -/
def chV {α β : Type} (F : Str → α → β) (d : Dict Str α) : Dict Str β := d.map (fun kv => (kv.1, F kv.1 kv.2))

theorem chV_get? {α β : Type} (F : Str → α → β) (d : Dict Str α) (c : Str) : Dict.get? (chV F d) c = (Dict.get? d c).map (F c) := Dict.get?_map d F c

theorem chV_getE {α β : Type} (F : Str → α → β) (d : Dict Str α) (c : Str) : Dict.getE (chV F d) c = (Dict.getE d c).map (F c) := by
  unfold Dict.getE
  rw [chV_get?]
  cases Dict.get? d c <;> rfl

theorem chV_set {α β : Type} (F : Str → α → β) (d : Dict Str α) (c : Str) (v : α) : Dict.set (chV F d) c (F c v) = chV F (Dict.set d c v) := by
  induction d with
  | nil => rfl
  | cons e d ih =>
    obtain ⟨x, y⟩ := e
    show (if x = c then (x, F c v) :: chV F d else (x, F x y) :: Dict.set (chV F d) c (F c v)) = chV F (if x = c then (x, v) :: d else (x, y) :: Dict.set d c v)
    by_cases h : x = c
    · subst h; rw [if_pos rfl, if_pos rfl]; rfl
    · rw [if_neg h, if_neg h, ih]; rfl

theorem chV_keys {α β : Type} (F : Str → α → β) (d : Dict Str α) : Dict.keys (chV F d) = Dict.keys d := by
  simp [chV, Dict.keys, List.map_map, Function.comp_def]

section Times
variable {k : Int} (hk : 0 < k)

theorem times_sum (l : List Int) : (l.map (k * ·)).sum = k * l.sum := by
  induction l with
  | nil => simp
  | cons a l ih => rw [List.map_cons, List.sum_cons, List.sum_cons, ih, Int.mul_add]

include hk

theorem times_le (a b : Int) : k * a ≤ k * b ↔ a ≤ b := Int.mul_le_mul_left hk
theorem times_lt (a b : Int) : k * a < k * b ↔ a < b := Int.mul_lt_mul_left hk
theorem times_inj (a b : Int) : k * a = k * b ↔ a = b := Int.mul_eq_mul_left_iff (by omega)

theorem times_min (a b : Int) : min (k * a) (k * b) = k * min a b := by
  rw [Int.min_def, Int.min_def]
  by_cases h : a ≤ b
  · rw [if_pos h, if_pos ((times_le hk a b).2 h)]
  · rw [if_neg h, if_neg (fun hh => h ((times_le hk a b).1 hh))]

theorem times_max (a b : Int) : max (k * a) (k * b) = k * max a b := by
  rw [Int.max_def, Int.max_def]
  by_cases h : a ≤ b
  · rw [if_pos h, if_pos ((times_le hk a b).2 h)]
  · rw [if_neg h, if_neg (fun hh => h ((times_le hk a b).1 hh))]

theorem times_listMin (l : List Int) : listMin (l.map (k * ·)) = (listMin l).map (k * ·) := by
  cases l with
  | nil => rfl
  | cons a l =>
    show some ((l.map (k * ·)).foldl min (k * a)) = some (k * l.foldl min a)
    congr 1
    induction l generalizing a with
    | nil => rfl
    | cons b l ih => rw [List.map_cons, List.foldl_cons, List.foldl_cons, times_min hk, ih]

theorem times_listMax (l : List Int) : listMax (l.map (k * ·)) = (listMax l).map (k * ·) := by
  cases l with
  | nil => rfl
  | cons a l =>
    show some ((l.map (k * ·)).foldl max (k * a)) = some (k * l.foldl max a)
    congr 1
    induction l generalizing a with
    | nil => rfl
    | cons b l ih => rw [List.map_cons, List.foldl_cons, List.foldl_cons, times_max hk, ih]

/-! ### instant runoff -/

omit hk in
theorem times_discard : ∀ vls : List Voteline, discardOvervotes (vls.map (timesLine k)) =
    (discardOvervotes vls).map (fun r => (k * r.1, r.2.map (timesLine k)))
  | [] => by simp [discardOvervotes, Except.map]
  | [v] => by
    show discardOvervotes [timesLine k v] = _
    unfold discardOvervotes
    have : isOvervote (timesLine k v).prefs = isOvervote v.prefs := rfl
    rw [this]
    cases isOvervote v.prefs with
    | error e => rfl
    | ok b => cases b <;> simp [discardOvervotes, Except.map, ok_bind, timesLine]
  | v :: w :: rest => by
    show discardOvervotes (timesLine k v :: timesLine k w :: rest.map (timesLine k)) = _
    have e1 := times_discard rest
    have e2 := times_discard (w :: rest)
    have e2' : discardOvervotes (timesLine k w :: rest.map (timesLine k)) = _ := e2
    unfold discardOvervotes
    have : isOvervote (timesLine k v).prefs = isOvervote v.prefs := rfl
    rw [this]
    cases isOvervote v.prefs with
    | error e => rfl
    | ok b =>
      simp only [ok_bind]
      cases b
      · simp only [Bool.false_eq_true, if_false]
        rw [e2']
        cases discardOvervotes (w :: rest) <;> rfl
      · simp only [if_true]
        rw [e1]
        cases discardOvervotes rest with
        | error e => rfl
        | ok r => simp [Except.map, ok_bind, timesLine, Int.mul_add]

/-- counters multiplied -/
def timesAcc (k : Int) (a : CountAcc) : CountAcc := { counts := timesTable k a.counts, ballotcount := k * a.ballotcount, exhausted := k * a.exhausted }

omit hk in
theorem times_countLoop : ∀ (vls : List Voteline) (a : CountAcc),
    countLoop (vls.map (timesLine k)) (timesAcc k a) = (countLoop vls a).map (timesAcc k)
  | [], _ => rfl
  | vl :: rest, a => by
    show countLoop (timesLine k vl :: rest.map (timesLine k)) (timesAcc k a) = _
    unfold countLoop
    have e : validTop ((timesLine k vl).prefs.length + 1) (timesLine k vl).prefs = validTop (vl.prefs.length + 1) vl.prefs := rfl
    rw [e]
    cases validTop (vl.prefs.length + 1) vl.prefs with
    | error e => rfl
    | ok r =>
      simp only [ok_bind]
      cases hc : credited r with
      | none =>
        have := times_countLoop rest { a with ballotcount := a.ballotcount + vl.qty, exhausted := a.exhausted + vl.qty }
        simp only [timesAcc, Int.mul_add] at this
        exact this
      | some c =>
        have hg : Dict.getE (timesAcc k a).counts c = (Dict.getE a.counts c).map (k * ·) := chV_getE (fun _ n => k * n) a.counts c
        show (Dict.getE (timesAcc k a).counts c >>= _) =
          (Dict.getE a.counts c >>= fun n => countLoop rest { a with ballotcount := a.ballotcount + vl.qty, counts := Dict.set a.counts c (n + vl.qty) }).map (timesAcc k)
        rw [hg]
        cases Dict.getE a.counts c with
        | error e => rfl
        | ok n =>
          simp only [Except.map, ok_bind]
          have := times_countLoop rest { a with ballotcount := a.ballotcount + vl.qty, counts := Dict.set a.counts c (n + vl.qty) }
          have hs : timesTable k (Dict.set a.counts c (n + vl.qty)) = Dict.set (timesTable k a.counts) c (k * n + k * vl.qty) := by
            rw [← Int.mul_add]
            exact (chV_set (fun _ n => k * n) a.counts c (n + vl.qty)).symm
          simp only [timesAcc, hs, Int.mul_add] at this
          exact this

theorem times_penult (votes : List Int) (mn mx : Int) :
    penultVotes (votes.map (k * ·)) (k * mn) (k * mx) = k * penultVotes votes mn mx := by
  unfold penultVotes
  by_cases h : mn = mx
  · rw [if_pos h, if_pos ((times_inj hk mn mx).2 h)]
  · rw [if_neg h, if_neg (fun hh => h ((times_inj hk mn mx).1 hh)), List.filter_map]
    have : ((fun v => decide (v > k * mn)) ∘ (k * ·)) = fun v => decide (v > mn) := by
      funext v
      exact decide_eq_decide.2 (times_lt hk mn v)
    rw [this, times_listMin hk]
    cases listMin (votes.filter fun v => decide (v > mn)) <;> rfl

theorem times_chooseElim (S : Sched) (rn : Nat) (counts : Dict Str Int) (mn pen : Int) :
    chooseElim S rn (timesTable k counts) (k * mn) (k * pen) = chooseElim S rn counts mn pen := by
  have hflt : (timesTable k counts).filter (fun cv => decide (cv.2 ≤ k * mn)) = timesTable k (counts.filter (fun cv => decide (cv.2 ≤ mn))) := by
    unfold timesTable
    rw [List.filter_map]
    congr 1
    apply List.filter_congr
    intro x _
    exact decide_eq_decide.2 (times_le hk x.2 mn)
  have hb : ((timesTable k counts).filter (fun cv => decide (cv.2 ≤ k * mn))).map Prod.fst = (counts.filter (fun cv => decide (cv.2 ≤ mn))).map Prod.fst := by
    rw [hflt]; simp [timesTable, List.map_map, Function.comp_def]
  have hsum : (((timesTable k counts).filter (fun cv => decide (cv.2 ≤ k * mn))).map Prod.snd).sum = k * ((counts.filter (fun cv => decide (cv.2 ≤ mn))).map Prod.snd).sum := by
    rw [hflt, ← times_sum]; simp [timesTable, List.map_map, Function.comp_def]
  unfold chooseElim
  simp only [hb, hsum, times_le hk]

omit hk in
theorem times_eliminate (el : List Str) (vls : List Voteline) :
    eliminateCands el (vls.map (timesLine k)) = (eliminateCands el vls).map (timesLine k) := by
  unfold eliminateCands
  induction el generalizing vls with
  | nil => rfl
  | cons c el ih =>
    rw [List.foldl_cons, List.foldl_cons, ← ih]
    congr 1
    rw [List.map_map, List.map_map]
    rfl

/-- a round multiplied -/
def timesOut (k : Int) (r : RoundOut) : RoundOut :=
  { counts := timesTable k r.counts, info := timesRound k r.info, next := r.next.map (fun n => (n.1, n.2.map (timesLine k))) }

theorem times_roundFinish (S : Sched) (prev : Option RoundMeta) (rn : Nat) (cands : List Str) (vls : List Voteline) (ov : Int)
    (pruned : List Voteline) (a : CountAcc) :
    roundFinish S (prev.map (timesRound k)) rn cands (vls.map (timesLine k)) (k * ov) (pruned.map (timesLine k)) (timesAcc k a) =
      (roundFinish S prev rn cands vls ov pruned a).map (timesOut k) := by
  have hv : (timesAcc k a).counts.map Prod.snd = (a.counts.map Prod.snd).map (k * ·) := by
    simp [timesAcc, timesTable, List.map_map, Function.comp_def]
  have hq : ((vls.map (timesLine k)).map Voteline.qty).sum = k * (vls.map Voteline.qty).sum := by
    rw [← times_sum, List.map_map, List.map_map]; rfl
  have hw : ∀ mx : Int, ((timesAcc k a).counts.filter (fun cv => decide (cv.2 = k * mx))).map Prod.fst =
      (a.counts.filter (fun cv => decide (cv.2 = mx))).map Prod.fst := by
    intro mx
    have : (timesAcc k a).counts.filter (fun cv => decide (cv.2 = k * mx)) = timesTable k (a.counts.filter (fun cv => decide (cv.2 = mx))) := by
      show (timesTable k a.counts).filter _ = _
      unfold timesTable
      rw [List.filter_map]
      congr 1
      apply List.filter_congr
      intro x _
      exact decide_eq_decide.2 (times_inj hk x.2 mx)
    rw [this]; simp [timesTable, List.map_map, Function.comp_def]
  have hae : ∀ el : Elim, allElimOf (prev.map (timesRound k)) el = allElimOf prev el := by
    intro el; cases prev <;> rfl
  unfold roundFinish
  simp only [hv, hq, times_listMin hk, times_listMax hk, times_sum]
  cases listMin (a.counts.map Prod.snd) with
  | none => rfl
  | some mn =>
    cases listMax (a.counts.map Prod.snd) with
    | none => rfl
    | some mx =>
      simp only [Option.map_some]
      have hel : chooseElim S rn (timesAcc k a).counts (k * mn) (k * penultVotes (a.counts.map Prod.snd) mn mx) = _ :=
        times_chooseElim hk S rn a.counts mn _
      rw [times_penult hk, hel, hae, hw, times_eliminate]
      generalize chooseElim S rn a.counts mn (penultVotes (a.counts.map Prod.snd) mn mx) = el
      have hcond : (k * mn = k * mx ∨ 2 * (k * mx) > k * (a.counts.map Prod.snd).sum) ↔ (mn = mx ∨ 2 * mx > (a.counts.map Prod.snd).sum) := by
        rw [times_inj hk, Int.mul_left_comm]
        exact or_congr Iff.rfl (times_lt hk _ _)
      have hc2 : k * (a.counts.map Prod.snd).sum - (timesAcc k a).exhausted = k * ((a.counts.map Prod.snd).sum - a.exhausted) := by
        rw [Int.mul_sub]; rfl
      rw [hc2]
      by_cases hc : mn = mx ∨ 2 * mx > (a.counts.map Prod.snd).sum
      · rw [if_pos hc, if_pos (hcond.2 hc)]; rfl
      · rw [if_neg hc, if_neg (fun hh => hc (hcond.1 hh))]; rfl

theorem times_irvRound (S : Sched) (prev : Option RoundMeta) (rn : Nat) (cands : List Str) (vls : List Voteline) :
    irvRound S (prev.map (timesRound k)) rn cands (vls.map (timesLine k)) = (irvRound S prev rn cands vls).map (timesOut k) := by
  unfold irvRound
  rw [times_discard]
  cases discardOvervotes vls with
  | error e => rfl
  | ok r =>
    simp only [Except.map, ok_bind]
    have e := times_countLoop (k := k) r.2 { counts := cands.map fun c => (c, 0) }
    have hini : timesAcc k { counts := cands.map fun c => (c, (0 : Int)) } = { counts := cands.map fun c => (c, 0) } := by
      simp [timesAcc, timesTable, List.map_map, Function.comp_def]
    rw [hini] at e
    rw [e]
    cases countLoop r.2 { counts := cands.map fun c => (c, 0) } with
    | error e => rfl
    | ok a =>
      simp only [Except.map, ok_bind]
      exact times_roundFinish hk S prev rn cands vls r.1 r.2 a

theorem times_irvCount (S : Sched) : ∀ (n : Nat) (prev : Option RoundMeta) (rn : Nat) (cands : List Str) (vls : List Voteline),
    irvCount S n (prev.map (timesRound k)) rn cands (vls.map (timesLine k)) =
      (irvCount S n prev rn cands vls).map
        (fun r => { winner := r.winner, rounds := r.rounds.map (timesTable k), roundmeta := r.roundmeta.map (timesRound k) })
  | 0, _, _, _, _ => rfl
  | n + 1, prev, rn, cands, vls => by
    unfold irvCount
    rw [times_irvRound hk]
    cases irvRound S prev rn cands vls with
    | error e => rfl
    | ok r =>
      simp only [Except.map, ok_bind]
      obtain ⟨counts, info, next⟩ := r
      cases next with
      | none => rfl
      | some nx =>
        simp only [timesOut, Option.map]
        have := times_irvCount S n (some info) (rn + 1) nx.1 nx.2
        simp only [Option.map] at this
        rw [this]
        cases irvCount S n (some info) (rn + 1) nx.1 nx.2 <;> rfl

/-- C124 for instant runoff, for every election and every way the choices left to chance fall: the count of the election with every ballot there `k`
times is the count of the election, with every number of ballots multiplied by `k` (or it ends with the same error).  In particular it has the same
rounds, eliminates the same candidates in each, reports a tie when the other does, and has the same winners. -/
theorem C124_irv (S : Sched) (m : Jabmod) : irvDict S (timesModel k m) = (irvDict S m).map (timesRun k) := by
  unfold irvDict
  have e := times_irvCount hk S (m.candidates.length + 1) none 1 (Dict.keys m.candidates) m.votelines
  simp only [Option.map] at e
  show (irvCount S (m.candidates.length + 1) none 1 (Dict.keys m.candidates) (m.votelines.map (timesLine k)) >>= _) = _
  rw [e]
  cases irvCount S (m.candidates.length + 1) none 1 (Dict.keys m.candidates) m.votelines with
  | error e => rfl
  | ok run =>
    simp only [Except.map, ok_bind]
    show (winnerStr m.candidates run.winner >>= _) = _
    cases winnerStr m.candidates run.winner with
    | error e => rfl
    | ok w =>
      simp only [ok_bind, timesRun, Except.ok.injEq, IrvDict.mk.injEq, true_and, List.any_map]
      rfl

/-! ### Copeland -/

omit hk in
theorem times_pairs (m : Jabmod) : pairwiseCount (timesModel k m) = timesPairs k (pairwiseCount m) := by
  have hl : ∀ (vl : Voteline) (d : PairDict), pairLine (timesLine k vl) (timesPairs k d) = timesPairs k (pairLine vl d) := by
    intro vl d
    unfold pairLine timesPairs
    simp only [List.map_map]
    apply List.map_congr_left
    intro row _
    simp only [Function.comp_def, List.map_map, Prod.mk.injEq, true_and]
    apply List.map_congr_left
    intro cell _
    simp only [Prod.mk.injEq, true_and]
    unfold pairCell
    by_cases hab : row.1 = cell.1
    · rw [if_pos hab, if_pos hab]; rfl
    · rw [if_neg hab, if_neg hab]
      show (match lineRank vl.prefs row.1, lineRank vl.prefs cell.1 with | some ra, some rb => _ | _, _ => _) = _
      cases lineRank vl.prefs row.1 with
      | none => simp
      | some ra =>
        cases lineRank vl.prefs cell.1 with
        | none => simp
        | some rb =>
          simp only
          by_cases hr : ra < rb
          · rw [if_pos hr, if_pos hr]
            cases cell.2 with
            | none => rfl
            | some n => simp [timesLine, Int.mul_add]
          · rw [if_neg hr, if_neg hr]
  have hf : ∀ (l : List Voteline) (d : PairDict), (l.map (timesLine k)).foldl (fun d vl => pairLine vl d) (timesPairs k d) =
      timesPairs k (l.foldl (fun d vl => pairLine vl d) d) := by
    intro l
    induction l with
    | nil => intro d; rfl
    | cons vl l ih => intro d; rw [List.map_cons, List.foldl_cons, List.foldl_cons, hl, ih]
  unfold pairwiseCount
  have h0 : timesPairs k (pairInit (Dict.keys m.candidates)) = pairInit (Dict.keys m.candidates) := by
    unfold timesPairs pairInit
    rw [List.map_map]
    apply List.map_congr_left
    intro a _
    simp only [Function.comp_def, List.map_map, Prod.mk.injEq, true_and]
    apply List.map_congr_left
    intro b _
    by_cases hab : a = b
    · simp [hab]
    · simp [hab]
  have := hf m.votelines (pairInit (Dict.keys m.candidates))
  rw [h0] at this
  exact this

omit hk in
theorem times_pairGet (d : PairDict) (a b : Str) : pairGet (timesPairs k d) a b = (pairGet d a b).map (fun v => v.map (k * ·)) := by
  unfold pairGet
  have h1 : Dict.getE (timesPairs k d) a = (Dict.getE d a).map (fun row => chV (fun _ v => v.map (k * ·)) row) :=
    chV_getE (fun _ (row : Dict Str (Option Int)) => chV (fun _ (v : Option Int) => v.map (k * ·)) row) d a
  rw [h1]
  cases Dict.getE d a with
  | error e => rfl
  | ok row => exact chV_getE (fun _ v => Option.map (k * ·) v) row b

theorem times_wltStep (d : PairDict) (acc : Dict Str WLT) (a b : Str) : wltStep (timesPairs k d) acc a b = wltStep d acc a b := by
  unfold wltStep
  rw [times_pairGet, times_pairGet]
  cases pairGet d a b with
  | error e => rfl
  | ok x =>
    cases pairGet d b a with
    | error e => rfl
    | ok y =>
      simp only [Except.map, ok_bind]
      split
      · rfl
      · cases x with
        | none => rfl
        | some x =>
          cases y with
          | none => rfl
          | some y =>
            simp only [Option.map_some, gt_iff_lt, times_lt hk, times_inj hk]

theorem times_wltInner (d : PairDict) (a : Str) : ∀ (bs : List Str) (acc : Dict Str WLT), wltInner (timesPairs k d) a bs acc = wltInner d a bs acc
  | [], _ => rfl
  | b :: bs, acc => by
    unfold wltInner
    rw [times_wltStep hk]
    congr 1
    funext acc'
    exact times_wltInner d a bs acc'

theorem times_wltOuter (d : PairDict) (toks : List Str) : ∀ (as : List Str) (acc : Dict Str WLT),
    wltOuter (timesPairs k d) toks as acc = wltOuter d toks as acc
  | [], _ => rfl
  | a :: as, acc => by
    unfold wltOuter
    rw [times_wltInner hk]
    congr 1
    funext acc'
    exact times_wltOuter d toks as acc'

/-- C124 for the pairwise counts: they are multiplied by `k`, and the wins, losses and ties (hence Copeland scores, winners and report) stay what
they are. -/
theorem C124_copeland (m : Jabmod) :
    fullCopecount (timesModel k m) =
      (fullCopecount m).map (fun cc => { winningvotes := timesPairs k cc.winningvotes, winlosstie := cc.winlosstie }) := by
  unfold fullCopecount
  rw [times_pairs]
  unfold winLossTie
  have hkeys : Dict.keys (timesModel k m).candidates = Dict.keys m.candidates := rfl
  simp only
  rw [hkeys, times_wltOuter hk]
  cases wltOuter (pairwiseCount m) (Dict.keys m.candidates) (Dict.keys m.candidates) ((Dict.keys m.candidates).map fun t => (t, {})) with
  | error e => rfl
  | ok acc => rfl

/-! ### scores -/
variable [U : Uni]

/-- a score entry multiplied -/
def timesEntry (k : Int) (e : ScoreEntry) : ScoreEntry := { e with score := k * e.score, votercount := k * e.votercount }

omit hk in
theorem times_scorePrefs (qty : Int) : ∀ (ps : List (Str × Pref)) (d : Dict Str ScoreEntry),
    scorePrefs (k * qty) ps (chV (fun _ => timesEntry k) d) = (scorePrefs qty ps d).map (chV (fun _ => timesEntry k))
  | [], _ => rfl
  | (c, p) :: ps, d => by
    unfold scorePrefs
    cases ratingInt p.rating with
    | error e => rfl
    | ok r =>
      simp only [ok_bind]
      rw [chV_getE]
      cases Dict.getE d c with
      | error e => rfl
      | ok e =>
        simp only [Except.map, ok_bind]
        have he : ({ timesEntry k e with
            score := (timesEntry k e).score + r * (k * qty),
            votercount := if r > 0 then (timesEntry k e).votercount + k * qty else (timesEntry k e).votercount } : ScoreEntry) =
            timesEntry k { e with score := e.score + r * qty, votercount := if r > 0 then e.votercount + qty else e.votercount } := by
          have h1 : (timesEntry k e).score + r * (k * qty) = k * (e.score + r * qty) := by
            show k * e.score + _ = _
            rw [Int.mul_add, Int.mul_left_comm]
          have h2 : (if r > 0 then (timesEntry k e).votercount + k * qty else (timesEntry k e).votercount) =
              k * (if r > 0 then e.votercount + qty else e.votercount) := by
            show (if r > 0 then k * e.votercount + k * qty else k * e.votercount) = _
            split
            · rw [Int.mul_add]
            · rfl
          simp only [h1, h2]
          rfl
        rw [he, chV_set (fun _ => timesEntry k)]
        exact times_scorePrefs qty ps _

omit hk in
theorem times_scoreLines : ∀ (vls : List Voteline) (d : Dict Str ScoreEntry),
    scoreLines (vls.map (timesLine k)) (chV (fun _ => timesEntry k) d) = (scoreLines vls d).map (chV (fun _ => timesEntry k))
  | [], _ => rfl
  | vl :: vls, d => by
    rw [List.map_cons]
    unfold scoreLines
    have : scorePrefs (timesLine k vl).qty (timesLine k vl).prefs (chV (fun _ => timesEntry k) d) = _ := times_scorePrefs vl.qty vl.prefs d
    rw [this]
    cases scorePrefs vl.qty vl.prefs d with
    | error e => rfl
    | ok d' => exact times_scoreLines vls d'

omit U in
theorem times_scoreRanks : ∀ (prev : Option Int) (rank : Int) (l : Dict Str ScoreEntry),
    scoreRanks (prev.map (k * ·)) rank (chV (fun _ => timesEntry k) l) = scoreRanks prev rank l
  | _, _, [] => rfl
  | prev, rank, (c, e) :: rest => by
    show scoreRanks (prev.map (k * ·)) rank ((c, timesEntry k e) :: chV (fun _ => timesEntry k) rest) = _
    unfold scoreRanks
    cases prev with
    | none =>
      simp only [Option.map]
      congr 1
      exact times_scoreRanks (some e.score) _ rest
    | some ps =>
      have hr : (ps * k > (timesEntry k e).score) = (ps > e.score) := by
        rw [Int.mul_comm]; exact propext (times_lt hk _ _)
      simp only [Option.map, Int.mul_comm k ps, hr]
      congr 1
      exact times_scoreRanks (some e.score) _ rest

/-- C124 for scores: totals and voter counts are multiplied by `k`; ranks and order stay. -/
theorem C124_score (m : Jabmod) : enhancedScore (timesModel k m) = (enhancedScore m).map (timesScores k) := by
  have h1 : basicScore (timesModel k m) = (basicScore m).map (chV (fun _ => timesEntry k)) := by
    unfold basicScore
    have := times_scoreLines (k := k) m.votelines (m.candidates.map fun kv => (kv.1, { candname := kv.2, score := 0, votercount := 0 }))
    have hini : chV (fun _ => timesEntry k) (m.candidates.map fun kv => (kv.1, ({ candname := kv.2, score := 0, votercount := 0 } : ScoreEntry))) =
        m.candidates.map fun kv => (kv.1, { candname := kv.2, score := 0, votercount := 0 }) := by
      simp [chV, timesEntry, List.map_map, Function.comp_def]
    rw [hini] at this
    exact this
  unfold enhancedScore
  rw [h1]
  cases basicScore m with
  | error e => rfl
  | ok sc =>
    simp only [Except.map, ok_bind]
    have hs : sortByKeyDesc (fun kv : Str × ScoreEntry => kv.2.score) (chV (fun _ => timesEntry k) sc) =
        chV (fun _ => timesEntry k) (sortByKeyDesc (fun kv : Str × ScoreEntry => kv.2.score) sc) := by
      unfold sortByKeyDesc
      exact pySort_map _ _ _ (fun a b => decide_eq_decide.2 (times_le hk b.2.score a.2.score)) sc
    have hg : Dict.getE (timesModel k m).metadata c!"ballotcount" = (Dict.getE m.metadata c!"ballotcount").map (timesJson k) := by
      have := chV_getE (fun x v => if x = c!"ballotcount" then timesJson k v else v) m.metadata c!"ballotcount"
      simp only [if_true] at this
      exact this
    rw [hs, hg]
    cases Dict.getE m.metadata c!"ballotcount" with
    | error e => rfl
    | ok tv =>
      simp only [Except.map, ok_bind]
      have hr := times_scoreRanks hk none 0 (sortByKeyDesc (fun kv : Str × ScoreEntry => kv.2.score) sc)
      simp only [Option.map] at hr
      rw [hr]
      have ht : ((chV (fun _ => timesEntry k) sc).map fun kv : Str × ScoreEntry => kv.2.score).sum = k * (sc.map fun kv => kv.2.score).sum := by
        rw [← times_sum]; simp [chV, timesEntry, List.map_map, Function.comp_def]
      have hl : (chV (fun _ => timesEntry k) (sortByKeyDesc (fun kv : Str × ScoreEntry => kv.2.score) sc)).map Prod.fst =
          (sortByKeyDesc (fun kv : Str × ScoreEntry => kv.2.score) sc).map Prod.fst := by
        simp [chV, List.map_map, Function.comp_def]
      rw [ht, hl]
      rfl

/-- C124 for STAR: the same finalists and the same winner; the runoff votes and abstentions are multiplied by `k`. -/
theorem C124_star (m : Jabmod) : starResult (timesModel k m) = (starResult m).map (timesStar k) := by
  unfold starResult
  rw [C124_score hk, C124_copeland hk]
  cases enhancedScore m with
  | error e => rfl
  | ok r =>
    simp only [Except.map, ok_bind]
    cases fullCopecount m with
    | error e => rfl
    | ok cc =>
      simp only [ok_bind]
      have hrl : (timesScores k r).ranklist = r.ranklist := rfl
      have hsc : (timesScores k r).scores = chV (fun _ => timesEntry k) r.scores := rfl
      have htv : (timesScores k r).totalvoters = timesJson k r.totalvoters := rfl
      rw [hrl, hsc, htv]
      match hr : r.ranklist with
      | [] => rfl
      | [_] => rfl
      | a :: b :: t =>
        simp only
        rw [chV_getE, chV_getE, times_pairGet, times_pairGet]
        cases Dict.getE r.scores a with
        | error e => rfl
        | ok e1 =>
          cases Dict.getE r.scores b with
          | error e => rfl
          | ok e2 =>
            cases pairGet cc.winningvotes a b with
            | error e => rfl
            | ok v1 =>
              cases pairGet cc.winningvotes b a with
              | error e => rfl
              | ok v2 =>
                simp only [Except.map, ok_bind]
                cases r.totalvoters with
                | int bc =>
                  cases v1 with
                  | none => rfl
                  | some v1 =>
                    cases v2 with
                    | none => rfl
                    | some v2 =>
                      simp only [timesJson, Option.map_some, gt_iff_lt, times_lt hk, timesStar, ← Int.mul_sub, timesEntry]
                | _ => cases v1 <;> cases v2 <;> rfl

end Times

/-! ### texts -/
section
variable [U : Uni] {k : Nat}

theorem timesMetadata_get? (k : Int) (md : Dict Str Json) {x : Str} (hx : x ≠ c!"ballotcount") :
    Dict.get? (timesMetadata k md) x = Dict.get? md x := by
  have := chV_get? (fun x v => if x = c!"ballotcount" then timesJson k v else v) md x
  simp only [if_neg hx] at this
  exact this.trans (by cases Dict.get? md x <;> rfl)

theorem timesMetadata_set (k : Int) (md : Dict Str Json) {x : Str} (hx : x ≠ c!"ballotcount") (v : Json) :
    Dict.set (timesMetadata k md) x v = timesMetadata k (Dict.set md x v) := by
  have := chV_set (fun x v => if x = c!"ballotcount" then timesJson k v else v) md x v
  simp only [if_neg hx] at this
  exact this

theorem times_bump (k : Int) (md : Dict Str Json) (q : Int) :
    bumpBallotcount (timesMetadata k md) (k * q) = (bumpBallotcount md q).map (timesMetadata k) := by
  have hg := chV_get? (fun x v => if x = c!"ballotcount" then timesJson k v else v) md c!"ballotcount"
  simp only [if_true] at hg
  have hg' : Dict.get? (timesMetadata k md) c!"ballotcount" = (Dict.get? md c!"ballotcount").map (timesJson k) := hg
  unfold bumpBallotcount
  rw [hg']
  cases Dict.get? md c!"ballotcount" with
  | none => rfl
  | some j =>
    cases j with
    | int n =>
      simp only [Option.map_some, timesJson, Except.map]
      have hs := chV_set (fun x v => if x = c!"ballotcount" then timesJson k v else v) md c!"ballotcount" (.int (n + q))
      simp only [if_true, timesJson, Int.mul_add] at hs
      exact congrArg Except.ok hs
    | _ => rfl

theorem times_comment (k : Int) (com : Option Str) (i : Nat) (sc : Bool) (m : Jabmod) :
    processComment com i sc (timesModel k m) = (processComment com i sc m).map (timesModel k) := by
  have hne : c!"comments" ≠ c!"ballotcount" := by decide
  unfold processComment
  cases com with
  | none => rfl
  | some c =>
    simp only
    split
    · have hg : Dict.get? (timesModel k m).metadata c!"comments" = Dict.get? m.metadata c!"comments" := timesMetadata_get? k _ hne
      have hs : ∀ v, Dict.set (timesModel k m).metadata c!"comments" v = timesMetadata k (Dict.set m.metadata c!"comments" v) :=
        timesMetadata_set k _ hne
      rw [hg]
      cases Dict.get? m.metadata c!"comments" with
      | none => simp only [hs]; rfl
      | some j =>
        cases j with
        | arr l => simp only [hs]; rfl
        | _ => rfl
    · rfl

theorem times_lineEffect {l l' : Str} (h : TimesLine k l l') (m : Jabmod) :
    lineEffect l' (timesModel k m) = (lineEffect l m).map (timesModel k) := by
  rcases h with ⟨rfl, hn⟩ | ⟨q, q', p, c, e1, e2, hq⟩
  · have hn' : readVote (beforeHash l) = none := by
      unfold Spec.lineVote at hn
      exact Option.map_eq_none_iff.1 hn
    unfold lineEffect
    cases readCand (beforeHash l) with
    | some x => rfl
    | none =>
      cases matchMeta (beforeHash l) with
      | some x =>
        simp only [Except.map, processMeta]
        congr 1
        have hne : (if x.1 = c!"ballotcount" then c!"ballotcount_abif_metadata" else x.1) ≠ c!"ballotcount" := by
          split
          · decide
          · assumption
        show ({ timesModel k m with metadata := Dict.set (timesMetadata k m.metadata) _ _ } : Jabmod) = _
        rw [timesMetadata_set _ _ hne]
        rfl
      | none => rw [hn']; rfl
  · have key : ∀ (l q : Str) (m : Jabmod), Spec.lineVote l = some (q, p, c) → lineEffect l m = processPrefline q p c m := by
      intro l q m e
      unfold Spec.lineVote at e
      obtain ⟨⟨q0, p0⟩, hv, e⟩ := Option.map_eq_some_iff.1 e
      cases e
      unfold lineEffect
      rw [readCand_none_of_vote hv, matchMeta_none_of_vote hv, hv]
    rw [key l q m e1, key l' q' _ e2]
    unfold processPrefline
    simp only
    have hq' : ((digitsVal q' : Nat) : Int) = (k : Int) * (digitsVal q : Int) := by rw [hq]; exact Int.natCast_mul _ _
    have hb : bumpBallotcount (timesModel k m).metadata (digitsVal q') = (bumpBallotcount m.metadata (digitsVal q)).map (timesMetadata k) := by
      rw [hq']; exact times_bump k m.metadata (digitsVal q)
    rw [hb]
    cases bumpBallotcount m.metadata (digitsVal q) with
    | error e => rfl
    | ok md =>
      simp only [Except.map, ok_bind]
      cases parsePrefstr p with
      | error e => rfl
      | ok r => simp [ok_bind, timesModel, timesLine, hq']

theorem times_processPlain (sc : Bool) (i : Nat) {ls ls' : List Str} (hl : List.Forall₂ (TimesLine k) ls ls') (m : Jabmod) :
    processPlain sc i ls' (timesModel k m) = (processPlain sc i ls m).map (timesModel k) := by
  induction hl generalizing i m with
  | nil => rfl
  | @cons l l' ls ls' hll _ ih =>
    have hc : hashComment l' = hashComment l := by
      rcases hll with ⟨rfl, _⟩ | ⟨q, q', p, c, e1, e2, _⟩
      · rfl
      · unfold Spec.lineVote at e1 e2
        obtain ⟨_, _, e1⟩ := Option.map_eq_some_iff.1 e1
        obtain ⟨_, _, e2⟩ := Option.map_eq_some_iff.1 e2
        cases e1
        injection e2 with _ e2
        injection e2 with _ e2
    unfold processPlain
    rw [hc, times_comment]
    cases processComment (hashComment l) i sc m with
    | error e => rfl
    | ok m1 =>
      simp only [Except.map, ok_bind]
      rw [times_lineEffect hll]
      cases lineEffect l m1 with
      | error e => rfl
      | ok m2 => exact ih _ _

/-- C124 for whole texts: if the second text is the first with every voteline's number multiplied by `k` (`0 < k`), then the model read from it is the
model read from the first with every number of ballots multiplied, or both end with the same error; with and without added ratings and stored comments. -/
theorem C124_text (hk : 0 < k) (cw cw' ar sc : Bool) (text text' : Str)
    (h : List.Forall₂ (TimesLine k) (textLines cw text) (textLines cw' text')) :
    convertAbif cw' ar sc text' = (convertAbif cw ar sc text).map (timesModel k) := by
  have hk' : (0 : Int) < k := by omega
  have base : convertAbif cw' false sc text' = (convertAbif cw false sc text).map (timesModel k) := by
    rw [convertAbif_eq, convertAbif_eq]
    have h0 : timesModel k emptyishJabmod = emptyishJabmod := by simp [timesModel, emptyishJabmod, timesMetadata, timesJson]
    have := times_processPlain sc 0 h emptyishJabmod
    rw [h0] at this
    rw [this]
    cases processPlain sc 0 (textLines cw text) emptyishJabmod with
    | error e => rfl
    | ok m =>
      simp only [Except.map, ok_bind]
      unfold finish
      by_cases hn : m.votelines = []
      · rw [if_pos hn, if_pos (by simp [timesModel, hn])]
      · rw [if_neg hn, if_neg (by simp [timesModel, hn])]
        simp only [Bool.false_eq_true, if_false, ok_bind, Except.ok.injEq]
        have hs : sortByKeyDesc Voteline.qty (m.votelines.map (timesLine k)) = (sortByKeyDesc Voteline.qty m.votelines).map (timesLine k) := by
          unfold sortByKeyDesc
          exact pySort_map _ _ _ (fun a b => decide_eq_decide.2 (times_le hk' b.qty a.qty)) _
        show ({ timesModel k m with votelines := sortByKeyDesc Voteline.qty (m.votelines.map (timesLine k)) } : Jabmod) = _
        rw [hs]
        rfl
  cases ar with
  | false => exact base
  | true =>
    rw [convertAbif_rated, convertAbif_rated, base]
    cases convertAbif cw false sc text with
    | error e => rfl
    | ok m =>
      simp only [Except.map, ok_bind, Except.ok.injEq]
      have hr : hasAnyRating (timesModel k m) = hasAnyRating m := by
        simp [hasAnyRating, timesModel, timesLine, List.any_map, Function.comp_def]
      have ha : (timesModel k m).votelines.any (fun vl => !vl.prefs.isEmpty) = m.votelines.any (fun vl => !vl.prefs.isEmpty) := by
        simp [timesModel, timesLine, List.any_map, Function.comp_def]
      rw [hr, ha]
      have hv : (timesModel k m).votelines.map (ratedLine (hasAnyRating m) m.candidates.length) =
          (m.votelines.map (ratedLine (hasAnyRating m) m.candidates.length)).map (timesLine k) := by
        simp [timesModel, timesLine, ratedLine, Function.comp_def]
      have hc : (timesModel k m).candidates = m.candidates := rfl
      rw [hc, hv]
      have hne : c!"is_ranking_to_rating" ≠ c!"ballotcount" := by decide
      have hm : (timesModel k m).metadata = timesMetadata k m.metadata := rfl
      rw [hm, timesMetadata_set k _ hne]
      unfold timesModel
      simp only
      split <;> rfl

end

section
attribute [local instance] Uni.ascii
set_option maxRecDepth 20000

/-- the same ballots once and four times -/
def onefoldText : Str := c!"{title: \"t\"}\n3:A/2>B/1\n2:B>C # late\n2:C=A\n"
def fourfoldText : Str := c!"{title: \"t\"}\n12:A/2>B/1\n08:B>C # late\n8:C=A\n"

theorem four_times : List.Forall₂ (TimesLine 4) (textLines false onefoldText) (textLines false fourfoldText) := by
  have e1 : textLines false onefoldText = [c!"{title: \"t\"}", c!"3:A/2>B/1", c!"2:B>C # late", c!"2:C=A"] := by decide +kernel
  have e2 : textLines false fourfoldText = [c!"{title: \"t\"}", c!"12:A/2>B/1", c!"08:B>C # late", c!"8:C=A"] := by decide +kernel
  rw [e1, e2]
  refine .cons (.inl ⟨rfl, by decide +kernel⟩) (.cons (.inr ⟨c!"3", c!"12", c!"A/2>B/1", none, ?_, ?_, ?_⟩)
    (.cons (.inr ⟨c!"2", c!"08", c!"B>C ", some c!"# late", ?_, ?_, ?_⟩) (.cons (.inr ⟨c!"2", c!"8", c!"C=A", none, ?_, ?_, ?_⟩) .nil))) <;> decide +kernel

/-- what the theorem says of these texts, and that the first is read -/
example : (convertAbif false false false fourfoldText = (convertAbif false false false onefoldText).map (timesModel 4)) ∧
    (convertAbif false false false onefoldText).isOk = true :=
  ⟨C124_text (by decide) false false false false _ _ four_times, by decide +kernel⟩

/-- A zero does change things: with every ballot gone the same candidates tie. -/
theorem C124_zero_refuted : ∃ m : Jabmod, (irvDict Sched.std m).map (fun d => d.run.winner) = .ok [c!"A"] ∧
    (irvDict Sched.std (timesModel 0 m)).map (fun d => d.run.winner) = .ok [c!"A", c!"B"] := by
  have h : (match convertAbif false false false c!"3:A\n1:B\n" with
    | .ok m => decide ((irvDict Sched.std m).map (fun d => d.run.winner) = .ok [c!"A"] ∧
        (irvDict Sched.std (timesModel 0 m)).map (fun d => d.run.winner) = .ok [c!"A", c!"B"])
    | .error _ => false) = true := by decide +kernel
  cases hc : convertAbif false false false c!"3:A\n1:B\n" with
  | error e => rw [hc] at h; cases h
  | ok m => rw [hc] at h; exact ⟨m, of_decide_eq_true h⟩
end

end Verif.Props
