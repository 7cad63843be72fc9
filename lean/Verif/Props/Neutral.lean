/-
C85: the counts treat candidates alike, whatever their tokens are.
-/
import Verif.Props.Irv
import Verif.Props.Tally

set_option linter.unusedSimpArgs false
set_option linter.unusedSectionVars false

namespace Verif.Props
open Spec

/-- keys of a dict renamed -/
def renD {α : Type} (f : Str → Str) (d : Dict Str α) : Dict Str α := d.map (fun kv => (f kv.1, kv.2))
/-- the candidates of a voteline renamed -/
def renLine (f : Str → Str) (vl : Voteline) : Voteline := { vl with prefs := renD f vl.prefs }
/-- the candidates in a round's metadata renamed -/
def renMeta (f : Str → Str) (rm : RoundMeta) : RoundMeta :=
  { rm with
    startingCands := rm.startingCands.map f
    bottomtie := rm.bottomtie.map (fun l => l.map f)
    eliminated := rm.eliminated.map f
    allEliminated := rm.allEliminated.map f
    winner := rm.winner.map (fun l => l.map f) }
/-- the candidates of a count renamed -/
def renRun (f : Str → Str) (r : IrvRun) : IrvRun :=
  { winner := r.winner.map f, rounds := r.rounds.map (renD f), roundmeta := r.roundmeta.map (renMeta f) }

/-- The schedule that makes, for renamed candidates, the choices `S` makes for the original ones. -/
def renSched (f g : Str → Str) (hgf : ∀ x, f (g x) = x) (S : Sched) : Sched where
  setOrder n l := (S.setOrder n (l.map g)).map f
  choice n l := f (S.choice n (l.map g))
  setOrder_perm n l := by
    have h := (S.setOrder_perm n (l.map g)).map f
    rw [List.map_map] at h
    have : l.map (f ∘ g) = l := by
      conv_rhs => rw [← List.map_id l]
      exact List.map_congr_left (fun x _ => hgf x)
    rw [this] at h
    exact h
  choice_mem n l hl := by
    have := S.choice_mem n (l.map g) (by simpa using hl)
    obtain ⟨x, hx, e⟩ := List.mem_map.1 this
    rw [← e, hgf]
    exact hx

section Equivariance
variable {f : Str → Str} (hf : ∀ a b, f a = f b → a = b)
include hf

theorem renD_get? {α : Type} (d : Dict Str α) (k : Str) : Dict.get? (renD f d) (f k) = Dict.get? d k := by
  induction d with
  | nil => rfl
  | cons e d ih =>
    show (if f e.1 = f k then some e.2 else Dict.get? (renD f d) (f k)) = (if e.1 = k then some e.2 else Dict.get? d k)
    by_cases he : e.1 = k
    · rw [if_pos (congrArg f he), if_pos he]
    · rw [if_neg (fun h => he (hf _ _ h)), if_neg he]; exact ih

theorem renD_set {α : Type} (d : Dict Str α) (k : Str) (v : α) : Dict.set (renD f d) (f k) v = renD f (Dict.set d k v) := by
  induction d with
  | nil => rfl
  | cons e d ih =>
    show (if f e.1 = f k then (f e.1, v) :: renD f d else (f e.1, e.2) :: Dict.set (renD f d) (f k) v) =
      renD f (if e.1 = k then (e.1, v) :: d else (e.1, e.2) :: Dict.set d k v)
    by_cases he : e.1 = k
    · rw [if_pos (congrArg f he), if_pos he]; rfl
    · rw [if_neg (fun h => he (hf _ _ h)), if_neg he, ih]; rfl

theorem renD_erase {α : Type} (d : Dict Str α) (k : Str) : Dict.erase (renD f d) (f k) = renD f (Dict.erase d k) := by
  induction d with
  | nil => rfl
  | cons e d ih =>
    show (if f e.1 = f k then renD f d else (f e.1, e.2) :: Dict.erase (renD f d) (f k)) =
      renD f (if e.1 = k then d else (e.1, e.2) :: Dict.erase d k)
    by_cases he : e.1 = k
    · rw [if_pos (congrArg f he), if_pos he]
    · rw [if_neg (fun h => he (hf _ _ h)), if_neg he, ih]; rfl

theorem ren_mem {c : Str} {l : List Str} : f c ∈ l.map f ↔ c ∈ l := by
  constructor
  · intro h
    obtain ⟨x, hx, e⟩ := List.mem_map.1 h
    rw [← hf _ _ e]; exact hx
  · exact fun h => List.mem_map.2 ⟨c, h, rfl⟩

theorem ren_filter (l : List Str) (el : List Str) : (l.map f).filter (fun c => decide (c ∉ el.map f)) = (l.filter (fun c => decide (c ∉ el))).map f := by
  rw [List.filter_map]
  congr 1
  apply List.filter_congr
  intro c _
  simp only [Function.comp, ren_mem hf]

theorem ren_setUnion (a b : List Str) : setUnion (a.map f) (b.map f) = (setUnion a b).map f := by
  unfold setUnion
  induction b generalizing a with
  | nil => rfl
  | cons x b ih =>
    rw [List.map_cons, List.foldl_cons, List.foldl_cons]
    simp only [ren_mem hf]
    by_cases hx : x ∈ a
    · rw [if_pos hx, if_pos hx, ih]
    · rw [if_neg hx, if_neg hx, ← ih]
      simp

theorem ren_eliminate (el : List Str) (vls : List Voteline) :
    eliminateCands (el.map f) (vls.map (renLine f)) = (eliminateCands el vls).map (renLine f) := by
  unfold eliminateCands
  induction el generalizing vls with
  | nil => rfl
  | cons c el ih =>
    rw [List.map_cons, List.foldl_cons, List.foldl_cons, ← ih]
    congr 1
    rw [List.map_map, List.map_map]
    apply List.map_congr_left
    intro vl _
    show ({ renLine f vl with prefs := Dict.erase (renD f vl.prefs) (f c) } : Voteline) = renLine f { vl with prefs := Dict.erase vl.prefs c }
    rw [renD_erase hf]
    rfl

omit hf in
theorem ren_rankList (prefs : Dict Str Pref) : rankList (renD f prefs) = (rankList prefs).map (fun l => l.map (fun e => (f e.1, e.2))) := by
  let q : Str × Pref → Except PyErr (Str × Int) := fun kp => match kp.2.rank with
    | some r => Except.ok (kp.1, r)
    | none => Except.error PyErr.keyError
  have h : ∀ prefs : Dict Str Pref, List.mapM q (renD f prefs) = (List.mapM q prefs).map (fun (l : List (Str × Int)) => l.map (fun e => (f e.1, e.2))) := by
    intro prefs
    induction prefs with
    | nil => rfl
    | cons e d ih =>
      show List.mapM q ((f e.1, e.2) :: renD f d) = _
      rw [List.mapM_cons, List.mapM_cons, ih]
      have h1 : q (f e.1, e.2) = (q e).map (fun e => (f e.1, e.2)) := by
        show (match e.2.rank with | some r => Except.ok (f e.1, r) | none => Except.error PyErr.keyError) = Except.map _ (match e.2.rank with | some r => Except.ok (e.1, r) | none => Except.error PyErr.keyError)
        cases e.2.rank <;> rfl
      rw [h1]
      cases q e with
      | error e => rfl
      | ok x =>
        simp only [Except.map, ok_bind]
        cases List.mapM q d <;> rfl
  show (List.mapM q (renD f prefs) >>= fun ks => Except.ok (sortByKey Prod.snd ks)) = Except.map _ (List.mapM q prefs >>= fun ks => Except.ok (sortByKey Prod.snd ks))
  rw [h]
  cases List.mapM q prefs with
  | error e => rfl
  | ok ks =>
    simp only [Except.map, ok_bind]
    congr 1
    unfold sortByKey
    exact pySort_map _ _ _ (fun _ _ => rfl) ks

omit hf in
theorem ren_topIndex (l : List (Str × Int)) : topIndex (l.map (fun e => (f e.1, e.2))) = topIndex l := by
  cases l with
  | nil => rfl
  | cons x t => simp [topIndex, List.map_map, Function.comp_def]

omit hf in
theorem ren_isOvervote (prefs : Dict Str Pref) : isOvervote (renD f prefs) = isOvervote prefs := by
  unfold isOvervote
  rw [ren_rankList]
  cases rankList prefs with
  | error e => rfl
  | ok l =>
    simp only [Except.map, ok_bind, ren_topIndex]
    simp

omit hf in
theorem ren_discard : ∀ vls : List Voteline, discardOvervotes (vls.map (renLine f)) =
    (discardOvervotes vls).map (fun r => (r.1, r.2.map (renLine f)))
  | [] => rfl
  | [v] => by
    show discardOvervotes [renLine f v] = _
    unfold discardOvervotes
    have : isOvervote (renLine f v).prefs = isOvervote v.prefs := ren_isOvervote v.prefs
    rw [this]
    cases isOvervote v.prefs with
    | error e => rfl
    | ok b => cases b <;> rfl
  | v :: w :: rest => by
    show discardOvervotes (renLine f v :: renLine f w :: rest.map (renLine f)) = _
    have e1 := ren_discard rest
    have e2 := ren_discard (w :: rest)
    have e2' : discardOvervotes (renLine f w :: rest.map (renLine f)) = _ := e2
    unfold discardOvervotes
    have : isOvervote (renLine f v).prefs = isOvervote v.prefs := ren_isOvervote v.prefs
    rw [this]
    cases isOvervote v.prefs with
    | error e => rfl
    | ok b =>
      simp only [ok_bind]
      cases b
      · simp only [Bool.false_eq_true, if_false]
        rw [e2']
        cases discardOvervotes (w :: rest) <;> rfl
      · simp only [if_true]
        rw [e1]
        cases discardOvervotes rest <;> rfl

theorem ren_validTop : ∀ (n : Nat) (prefs : Dict Str Pref), validTop n (renD f prefs) = (validTop n prefs).map (fun r => r.map f)
  | 0, _ => rfl
  | n + 1, prefs => by
    unfold validTop
    rw [ren_rankList]
    cases rankList prefs with
    | error e => rfl
    | ok l =>
      cases l with
      | nil => rfl
      | cons x t =>
        simp only [Except.map, ok_bind, List.map_cons]
        have ht : topIndex ((f x.1, x.2) :: t.map (fun e => (f e.1, e.2))) = topIndex (x :: t) := ren_topIndex (x :: t)
        rw [ht]
        by_cases h0 : topIndex (x :: t) = 0
        · rw [if_pos h0, if_pos h0]; rfl
        · rw [if_neg h0, if_neg h0]
          have : ((((f x.1, x.2) :: t.map (fun e => (f e.1, e.2))).drop (topIndex (x :: t) + 1)).filterMap
              (fun k => (Dict.get? (renD f prefs) k.1).map (fun p => (k.1, p)))) =
              renD f (((x :: t).drop (topIndex (x :: t) + 1)).filterMap (fun k => (Dict.get? prefs k.1).map (fun p => (k.1, p)))) := by
            rw [List.drop_succ_cons, List.drop_succ_cons, ← List.map_drop]
            generalize t.drop (topIndex (x :: t)) = u
            induction u with
            | nil => rfl
            | cons k u ih =>
              rw [List.map_cons, List.filterMap_cons, List.filterMap_cons, renD_get? hf, ih]
              cases Dict.get? prefs k.1 <;> rfl
          rw [this, ren_validTop n]
          rfl

/-- counters renamed -/
def renAcc (f : Str → Str) (a : CountAcc) : CountAcc := { a with counts := renD f a.counts }

theorem ren_countLoop (h0 : f [] = []) : ∀ (vls : List Voteline) (a : CountAcc),
    countLoop (vls.map (renLine f)) (renAcc f a) = (countLoop vls a).map (renAcc f)
  | [], _ => rfl
  | vl :: rest, a => by
    show countLoop (renLine f vl :: rest.map (renLine f)) (renAcc f a) = _
    unfold countLoop
    have e : validTop ((renLine f vl).prefs.length + 1) (renLine f vl).prefs = (validTop (vl.prefs.length + 1) vl.prefs).map (fun r => r.map f) := by
      have : (renLine f vl).prefs = renD f vl.prefs := rfl
      rw [this, ren_validTop hf]
      simp [renD]
    rw [e]
    cases validTop (vl.prefs.length + 1) vl.prefs with
    | error e => rfl
    | ok r =>
      simp only [Except.map, ok_bind]
      have hcr : credited (r.map f) = (credited r).map f := by
        match r with
        | none => rfl
        | some [] => simp [credited, h0]
        | some (x :: s) =>
          have hne : f (x :: s) ≠ [] := by rw [← h0]; exact fun h => by have := hf _ _ h; cases this
          simp only [Option.map, credited]
          cases hfs : f (x :: s) with
          | nil => exact absurd hfs hne
          | cons y t => rfl
      rw [hcr]
      cases hc : credited r with
      | none =>
        simp only [Option.map]
        exact ren_countLoop h0 rest { a with ballotcount := a.ballotcount + vl.qty, exhausted := a.exhausted + vl.qty }
      | some c =>
        simp only [Option.map]
        have hg : Dict.getE (renAcc f a).counts (f c) = Dict.getE a.counts c := by
          unfold Dict.getE
          have : Dict.get? (renAcc f a).counts (f c) = Dict.get? a.counts c := renD_get? hf a.counts c
          rw [this]
        show (Dict.getE (renAcc f a).counts (f c) >>= _) = _
        rw [hg]
        cases Dict.getE a.counts c with
        | error e => rfl
        | ok k =>
          simp only [ok_bind]
          have := ren_countLoop h0 rest { a with ballotcount := a.ballotcount + vl.qty, counts := Dict.set a.counts c (k + vl.qty) }
          simp only [renAcc] at this ⊢
          rw [← renD_set hf] at this
          exact this

variable {g : Str → Str} (hfg : ∀ x, g (f x) = x) (hgf : ∀ x, f (g x) = x)
include hfg

/-- an elimination renamed -/
def renElim (f : Str → Str) (e : Elim) : Elim :=
  { e with bottomtie := e.bottomtie.map (fun l => l.map f), eliminated := e.eliminated.map f, losers := e.losers.map (fun l => l.map f) }

theorem ren_chooseElim (S : Sched) (rn : Nat) (counts : Dict Str Int) (mn pen : Int) :
    chooseElim (renSched f g hgf S) rn (renD f counts) mn pen = renElim f (chooseElim S rn counts mn pen) := by
  have hflt : (renD f counts).filter (fun cv => cv.2 ≤ mn) = renD f (counts.filter (fun cv => cv.2 ≤ mn)) := by
    unfold renD; rw [List.filter_map]; rfl
  have hb : (((renD f counts).filter (fun cv => cv.2 ≤ mn)).map Prod.fst) = ((counts.filter (fun cv => cv.2 ≤ mn)).map Prod.fst).map f := by
    rw [hflt]; simp [renD, List.map_map, Function.comp_def]
  have hsum : (((renD f counts).filter (fun cv => cv.2 ≤ mn)).map Prod.snd) = ((counts.filter (fun cv => cv.2 ≤ mn)).map Prod.snd) := by
    rw [hflt]; simp [renD, List.map_map, Function.comp_def]
  unfold chooseElim
  simp only [hb, hsum, List.length_map]
  have hch : ∀ l : List Str, (renSched f g hgf S).choice rn (l.map f) = f (S.choice rn l) := by
    intro l
    show f (S.choice rn ((l.map f).map g)) = _
    rw [List.map_map]
    have : l.map (g ∘ f) = l := by
      conv_rhs => rw [← List.map_id l]
      exact List.map_congr_left (fun x _ => hfg x)
    rw [this]
  split
  · split
    · rfl
    · rw [hch]; rfl
  · rfl

omit hfg in
theorem ren_allElim (prev : Option RoundMeta) (el : Elim) : allElimOf (prev.map (renMeta f)) (renElim f el) = (allElimOf prev el).map f := by
  unfold allElimOf
  cases prev with
  | none =>
    cases hl : el.losers with
    | none => simp [renElim, hl]
    | some l => simp only [renElim, hl, Option.map]; exact ren_setUnion hf [] l
  | some p =>
    have h1 : setUnion [] (renMeta f p).allEliminated = (setUnion [] p.allEliminated).map f := ren_setUnion hf [] _
    cases hl : el.losers with
    | none =>
      simp only [renElim, hl, Option.map]
      rw [h1, ren_setUnion hf]
    | some l =>
      simp only [renElim, hl, Option.map]
      rw [h1, ren_setUnion hf, ren_setUnion hf]

/-- a round renamed -/
def renOut (f : Str → Str) (r : RoundOut) : RoundOut :=
  { counts := renD f r.counts, info := renMeta f r.info, next := r.next.map (fun n => (n.1.map f, n.2.map (renLine f))) }

theorem ren_roundFinish (S : Sched) (prev : Option RoundMeta) (rn : Nat) (cands : List Str) (vls : List Voteline) (ov : Int)
    (pruned : List Voteline) (a : CountAcc) :
    roundFinish (renSched f g hgf S) (prev.map (renMeta f)) rn (cands.map f) (vls.map (renLine f)) ov (pruned.map (renLine f)) (renAcc f a) =
      (roundFinish S prev rn cands vls ov pruned a).map (renOut f) := by
  have hv : ((renAcc f a).counts.map Prod.snd) = a.counts.map Prod.snd := by
    simp [renAcc, renD, List.map_map, Function.comp_def]
  have hq : ((vls.map (renLine f)).map Voteline.qty) = vls.map Voteline.qty := by
    rw [List.map_map]; rfl
  have hw : ∀ mx : Int, (((renAcc f a).counts.filter (fun cv => decide (cv.2 = mx))).map Prod.fst) =
      ((a.counts.filter (fun cv => decide (cv.2 = mx))).map Prod.fst).map f := by
    intro mx
    have : (renAcc f a).counts.filter (fun cv => decide (cv.2 = mx)) = renD f (a.counts.filter (fun cv => decide (cv.2 = mx))) := by
      show (renD f a.counts).filter _ = _
      unfold renD; rw [List.filter_map]; rfl
    rw [this]; simp [renD, List.map_map, Function.comp_def]
  have hso : ∀ l : List Str, (renSched f g hgf S).setOrder rn (l.map f) = (S.setOrder rn l).map f := by
    intro l
    show (S.setOrder rn ((l.map f).map g)).map f = _
    rw [List.map_map]
    have : l.map (g ∘ f) = l := by
      conv_rhs => rw [← List.map_id l]
      exact List.map_congr_left (fun x _ => hfg x)
    rw [this]
  unfold roundFinish
  simp only [hv, hq]
  cases listMin (a.counts.map Prod.snd) with
  | none => rfl
  | some mn =>
    cases listMax (a.counts.map Prod.snd) with
    | none => rfl
    | some mx =>
      simp only
      have hel := ren_chooseElim hf hfg hgf S rn a.counts mn (penultVotes (a.counts.map Prod.snd) mn mx)
      have hel' : chooseElim (renSched f g hgf S) rn (renAcc f a).counts mn (penultVotes (a.counts.map Prod.snd) mn mx) = _ := hel
      rw [hel', ren_allElim hf, hw]
      generalize chooseElim S rn a.counts mn (penultVotes (a.counts.map Prod.snd) mn mx) = el
      have e1 : (renElim f el).eliminated = el.eliminated.map f := rfl
      rw [e1, ren_filter hf, ren_filter hf, hso, ren_eliminate hf]
      split <;> rfl

theorem ren_irvRound (h0 : f [] = []) (S : Sched) (prev : Option RoundMeta) (rn : Nat) (cands : List Str) (vls : List Voteline) :
    irvRound (renSched f g hgf S) (prev.map (renMeta f)) rn (cands.map f) (vls.map (renLine f)) =
      (irvRound S prev rn cands vls).map (renOut f) := by
  unfold irvRound
  rw [ren_discard]
  cases discardOvervotes vls with
  | error e => rfl
  | ok r =>
    simp only [Except.map, ok_bind]
    have e := ren_countLoop hf h0 r.2 { counts := cands.map fun c => (c, 0) }
    have hini : renAcc f { counts := cands.map fun c => (c, (0 : Int)) } = { counts := (cands.map f).map fun c => (c, 0) } := by
      simp [renAcc, renD, List.map_map, Function.comp_def]
    rw [hini] at e
    rw [e]
    cases countLoop r.2 { counts := cands.map fun c => (c, 0) } with
    | error e => rfl
    | ok a =>
      simp only [Except.map, ok_bind]
      exact ren_roundFinish hf hfg hgf S prev rn cands vls r.1 r.2 a

theorem ren_irvCount (h0 : f [] = []) (S : Sched) : ∀ (n : Nat) (prev : Option RoundMeta) (rn : Nat) (cands : List Str) (vls : List Voteline),
    irvCount (renSched f g hgf S) n (prev.map (renMeta f)) rn (cands.map f) (vls.map (renLine f)) =
      (irvCount S n prev rn cands vls).map (renRun f)
  | 0, _, _, _, _ => rfl
  | n + 1, prev, rn, cands, vls => by
    unfold irvCount
    rw [ren_irvRound hf hfg hgf h0]
    cases irvRound S prev rn cands vls with
    | error e => rfl
    | ok r =>
      simp only [Except.map, ok_bind]
      obtain ⟨counts, info, next⟩ := r
      cases next with
      | none =>
        simp only [renOut, Option.map, renRun, renMeta, Except.ok.injEq, IrvRun.mk.injEq, List.map_cons, List.map_nil, and_self, and_true]
        cases info.winner <;> rfl
      | some nx =>
        simp only [renOut, Option.map]
        have := ren_irvCount h0 S n (some info) (rn + 1) nx.1 nx.2
        simp only [Option.map] at this
        rw [this]
        cases irvCount S n (some info) (rn + 1) nx.1 nx.2 <;> rfl

end Equivariance

/-- C85 for instant runoff: if the candidates are renamed (by a bijection that keeps the empty token), the count with renamed
candidates is the renamed count: the same rounds, numbers, eliminations and winners; the choices left to chance being the
corresponding ones.  So every outcome possible before is, renamed, possible after. -/
theorem C85_irv (f g : Str → Str) (hfg : ∀ x, g (f x) = x) (hgf : ∀ x, f (g x) = x) (h0 : f [] = []) (S : Sched) (m : Jabmod) (d : IrvDict)
    (h : irvDict S m = .ok d) :
    irvCount (renSched f g hgf S) ((renameModel f m).candidates.length + 1) none 1 (Dict.keys (renameModel f m).candidates)
      (renameModel f m).votelines = .ok (renRun f d.run) := by
  have hr := irvDict_run h
  have hf : ∀ a b, f a = f b → a = b := fun a b h => by rw [← hfg a, ← hfg b, h]
  have hk : Dict.keys (renameModel f m).candidates = (Dict.keys m.candidates).map f := by
    simp [renameModel, Dict.keys, List.map_map, Function.comp_def]
  have hlen : (renameModel f m).candidates.length = m.candidates.length := by simp [renameModel]
  have hv : (renameModel f m).votelines = m.votelines.map (renLine f) := rfl
  rw [hk, hlen, hv]
  have := ren_irvCount hf hfg hgf h0 S (m.candidates.length + 1) none 1 (Dict.keys m.candidates) m.votelines
  rw [hr] at this
  exact this

/-! ### Copeland, scores, STAR -/

/-- a matrix renamed -/
def renPair (f : Str → Str) (d : PairDict) : PairDict := d.map (fun row => (f row.1, renD f row.2))
/-- a win-loss-tie result renamed -/
def renCope (f : Str → Str) (c : Copecount) : Copecount := { winningvotes := renPair f c.winningvotes, winlosstie := renD f c.winlosstie }
/-- a score result renamed -/
def renScore (f : Str → Str) (r : ScoreResult) : ScoreResult :=
  { r with scores := renD f r.scores, ranks := renD f r.ranks, ranklist := r.ranklist.map f }
/-- a STAR result renamed; the finalists' names stay -/
def renStar (f : Str → Str) (r : StarResult) : StarResult := { r with base := renScore f r.base, fin1 := f r.fin1, fin2 := f r.fin2 }

section Tallies
variable {f : Str → Str} (hf : ∀ a b, f a = f b → a = b)
include hf

theorem ren_getE {α : Type} (d : Dict Str α) (k : Str) : Dict.getE (renD f d) (f k) = Dict.getE d k := by
  unfold Dict.getE; rw [renD_get? hf]

theorem ren_pairGet (d : PairDict) (a b : Str) : pairGet (renPair f d) (f a) (f b) = pairGet d a b := by
  have h : renPair f d = renD f (d.map (fun row => (row.1, renD f row.2))) := by
    unfold renPair renD; rw [List.map_map]; rfl
  have hm : Dict.getE (d.map (fun row => (row.1, renD f row.2)) : PairDict) a = (Dict.getE d a).map (renD f) := by
    unfold Dict.getE
    have : Dict.get? (d.map (fun row => (row.1, renD f row.2)) : PairDict) a = (Dict.get? d a).map (renD f) := by
      clear h
      induction d with
      | nil => rfl
      | cons e d ih =>
        show (if e.1 = a then some (renD f e.2) else Dict.get? (d.map (fun row => (row.1, renD f row.2)) : PairDict) a) = (if e.1 = a then some e.2 else Dict.get? d a).map _
        split
        · rfl
        · exact ih
    rw [this]
    cases Dict.get? d a <;> rfl
  unfold pairGet
  rw [h, ren_getE hf, hm]
  cases Dict.getE d a with
  | error e => rfl
  | ok row => exact ren_getE hf row b

theorem ren_modify (acc : Dict Str WLT) (k : Str) (g : WLT → WLT) : Dict.modify (renD f acc) (f k) g = renD f (Dict.modify acc k g) := by
  unfold Dict.modify
  rw [renD_get? hf]
  cases Dict.get? acc k with
  | none => rfl
  | some w => exact renD_set hf acc k (g w)

theorem ren_wltStep (d : PairDict) (acc : Dict Str WLT) (a b : Str) :
    wltStep (renPair f d) (renD f acc) (f a) (f b) = (wltStep d acc a b).map (renD f) := by
  unfold wltStep
  rw [ren_pairGet hf, ren_pairGet hf]
  cases pairGet d a b with
  | error e => rfl
  | ok x =>
    cases pairGet d b a with
    | error e => rfl
    | ok y =>
      simp only [ok_bind]
      by_cases hab : a = b
      · rw [if_pos hab, if_pos (congrArg f hab)]; rfl
      · rw [if_neg hab, if_neg (fun h => hab (hf _ _ h))]
        cases x with
        | none => rfl
        | some x =>
          cases y with
          | none => rfl
          | some y =>
            simp only [ren_modify hf]
            split
            · rfl
            · split <;> rfl

theorem ren_wltInner (d : PairDict) (a : Str) : ∀ (bs : List Str) (acc : Dict Str WLT),
    wltInner (renPair f d) (f a) (bs.map f) (renD f acc) = (wltInner d a bs acc).map (renD f)
  | [], _ => rfl
  | b :: bs, acc => by
    rw [List.map_cons]
    unfold wltInner
    rw [ren_wltStep hf]
    cases wltStep d acc a b with
    | error e => rfl
    | ok acc' => exact ren_wltInner d a bs acc'

theorem ren_wltOuter (d : PairDict) (toks : List Str) : ∀ (as : List Str) (acc : Dict Str WLT),
    wltOuter (renPair f d) (toks.map f) (as.map f) (renD f acc) = (wltOuter d toks as acc).map (renD f)
  | [], _ => rfl
  | a :: as, acc => by
    rw [List.map_cons]
    unfold wltOuter
    rw [ren_wltInner hf]
    cases wltInner d a toks acc with
    | error e => rfl
    | ok acc' => exact ren_wltOuter d toks as acc'

omit hf in
theorem ren_sortDesc {α : Type} (key : α → Int) (d : Dict Str α) :
    sortByKeyDesc (fun kv => key kv.2) (renD f d) = renD f (sortByKeyDesc (fun kv : Str × α => key kv.2) d) := by
  unfold sortByKeyDesc
  exact pySort_map _ _ _ (fun _ _ => rfl) d

omit hf in
theorem ren_keys (m : Jabmod) : Dict.keys (renameModel f m).candidates = (Dict.keys m.candidates).map f := by
  simp [renameModel, Dict.keys, List.map_map, Function.comp_def]

/-- C85 for the win-loss-tie table and the Copeland winners -/
theorem C85_copeland (m : Jabmod) :
    fullCopecount (renameModel f m) = (fullCopecount m).map (renCope f) ∧
    ∀ wlt : Dict Str WLT, copelandWinners (renD f wlt) = (copelandWinners wlt).map (fun l => l.map f) ∧
      copelandReportWinner (renD f wlt) = (copelandReportWinner wlt).map f := by
  constructor
  · unfold fullCopecount
    have hp : pairwiseCount (renameModel f m) = renPair f (pairwiseCount m) := C20_neutral m f hf
    rw [hp, ren_keys]
    unfold winLossTie
    have hini : ((Dict.keys m.candidates).map f).map (fun t => (t, ({} : WLT))) = renD f ((Dict.keys m.candidates).map (fun t => (t, {}))) := by
      simp [renD, List.map_map, Function.comp_def]
    simp only
    rw [hini, ren_wltOuter hf]
    cases wltOuter (pairwiseCount m) (Dict.keys m.candidates) (Dict.keys m.candidates) ((Dict.keys m.candidates).map (fun t => (t, {}))) with
    | error e => rfl
    | ok acc =>
      simp only [Except.map, ok_bind]
      rw [ren_sortDesc WLT.wins]
      rfl
  · intro wlt
    have hs : copelandScores2 (renD f wlt) = renD f (copelandScores2 wlt) := by
      unfold copelandScores2
      rw [← ren_sortDesc (fun x => x)]
      congr 1
      simp [renD, List.map_map, Function.comp_def]
    constructor
    · unfold copelandWinners
      rw [hs]
      have hv : (renD f (copelandScores2 wlt)).map Prod.snd = (copelandScores2 wlt).map Prod.snd := by
        simp [renD, List.map_map, Function.comp_def]
      simp only [hv]
      cases listMax ((copelandScores2 wlt).map Prod.snd) with
      | none => rfl
      | some top =>
        simp only [Except.map]
        congr 1
        unfold renD
        rw [List.filter_map, List.map_map, List.map_map]
        rfl
    · unfold copelandReportWinner
      rw [hs]
      cases copelandScores2 wlt <;> rfl

variable [U : Uni]

theorem ren_scorePrefs (qty : Int) : ∀ (ps : Dict Str Pref) (d : Dict Str ScoreEntry),
    scorePrefs qty (renD f ps) (renD f d) = (scorePrefs qty ps d).map (renD f)
  | [], _ => rfl
  | (c, p) :: ps, d => by
    show scorePrefs qty ((f c, p) :: renD f ps) (renD f d) = _
    unfold scorePrefs
    cases ratingInt p.rating with
    | error e => rfl
    | ok r =>
      simp only [ok_bind]
      rw [ren_getE hf]
      cases Dict.getE d c with
      | error e => rfl
      | ok e =>
        simp only [ok_bind]
        rw [renD_set hf]
        exact ren_scorePrefs qty ps _

theorem ren_scoreLines : ∀ (vls : List Voteline) (d : Dict Str ScoreEntry),
    scoreLines (vls.map (renLine f)) (renD f d) = (scoreLines vls d).map (renD f)
  | [], _ => rfl
  | vl :: vls, d => by
    rw [List.map_cons]
    unfold scoreLines
    have : scorePrefs (renLine f vl).qty (renLine f vl).prefs (renD f d) = (scorePrefs vl.qty vl.prefs d).map (renD f) := ren_scorePrefs hf vl.qty vl.prefs d
    rw [this]
    cases scorePrefs vl.qty vl.prefs d with
    | error e => rfl
    | ok d' => exact ren_scoreLines vls d'

omit hf U in
theorem ren_scoreRanks : ∀ (prev : Option Int) (rank : Int) (l : List (Str × ScoreEntry)),
    scoreRanks prev rank (renD f l) = renD f (scoreRanks prev rank l)
  | _, _, [] => rfl
  | prev, rank, (c, e) :: rest => by
    show scoreRanks prev rank ((f c, e) :: renD f rest) = _
    unfold scoreRanks
    simp only
    rw [ren_scoreRanks]
    rfl

/-- C85 for scores and STAR: totals, voter counts, ranks, finalists, runoff votes and the winner's name -/
theorem C85_scores (m : Jabmod) :
    basicScore (renameModel f m) = (basicScore m).map (renD f) ∧
    enhancedScore (renameModel f m) = (enhancedScore m).map (renScore f) ∧
    starResult (renameModel f m) = (starResult m).map (renStar f) := by
  have h1 : basicScore (renameModel f m) = (basicScore m).map (renD f) := by
    unfold basicScore
    have hini : ((renameModel f m).candidates.map fun kv => (kv.1, ({ candname := kv.2, score := 0, votercount := 0 } : ScoreEntry))) =
        renD f (m.candidates.map fun kv => (kv.1, { candname := kv.2, score := 0, votercount := 0 })) := by
      simp [renameModel, renD, List.map_map, Function.comp_def]
    rw [hini]
    exact ren_scoreLines hf m.votelines _
  have h2 : enhancedScore (renameModel f m) = (enhancedScore m).map (renScore f) := by
    unfold enhancedScore
    rw [h1]
    cases basicScore m with
    | error e => rfl
    | ok sc =>
      simp only [Except.map, ok_bind]
      rw [ren_sortDesc ScoreEntry.score]
      show (Dict.getE m.metadata _ >>= _) = _
      cases Dict.getE m.metadata c!"ballotcount" with
      | error e => rfl
      | ok tv =>
        simp only [ok_bind]
        rw [ren_scoreRanks]
        simp only [renScore, renD, List.map_map, Function.comp_def]
  refine ⟨h1, h2, ?_⟩
  unfold starResult
  rw [h2, (C85_copeland hf m).1]
  cases enhancedScore m with
  | error e => rfl
  | ok r =>
    simp only [Except.map, ok_bind]
    cases fullCopecount m with
    | error e => rfl
    | ok cc =>
      simp only [ok_bind]
      have hrl : (renScore f r).ranklist = r.ranklist.map f := rfl
      have hsc : (renScore f r).scores = renD f r.scores := rfl
      have htv : (renScore f r).totalvoters = r.totalvoters := rfl
      have hwv : (renCope f cc).winningvotes = renPair f cc.winningvotes := rfl
      rw [hrl, hsc, htv, hwv]
      match hr : r.ranklist with
      | [] => rfl
      | [_] => rfl
      | a :: b :: t =>
        simp only [List.map_cons]
        rw [ren_getE hf, ren_getE hf, ren_pairGet hf, ren_pairGet hf]
        cases Dict.getE r.scores a with
        | error e => rfl
        | ok e1 =>
          cases Dict.getE r.scores b with
          | error e => rfl
          | ok e2 =>
            cases pairGet cc.winningvotes a b with
            | error e => rfl
            | ok v1 =>
              cases pairGet cc.winningvotes b a with
              | error e => rfl
              | ok v2 =>
                simp only [ok_bind]
                cases r.totalvoters <;> cases v1 <;> cases v2 <;> rfl

end Tallies

/-- a renaming: the first letters `A` and `B` trade places -/
def swapAB : Str → Str
  | 'A' :: s => 'B' :: s
  | 'B' :: s => 'A' :: s
  | s => s

theorem swapAB_swapAB (x : Str) : swapAB (swapAB x) = x := by
  match x with
  | [] => rfl
  | c :: s =>
    by_cases h1 : c = 'A'
    · subst h1; rfl
    · by_cases h2 : c = 'B'
      · subst h2; rfl
      · have : swapAB (c :: s) = c :: s := by
          unfold swapAB
          split
          · rename_i h; cases h; exact absurd rfl h1
          · rename_i h; cases h; exact absurd rfl h2
          · rfl
        rw [this, this]

/-- `C85_irv` and the other theorems apply to it -/
example (S : Sched) (d : IrvDict) (h : irvDict S irvModel = .ok d) := C85_irv swapAB swapAB swapAB_swapAB swapAB_swapAB rfl S irvModel d h
example (m : Jabmod) := C85_copeland (fun a b (h : swapAB a = swapAB b) => by rw [← swapAB_swapAB a, h, swapAB_swapAB b]) m
section
attribute [local instance] Uni.ascii
set_option maxRecDepth 20000
/-- in the running example the renamed count elects the renamed winner -/
example : (irvDict Sched.std (renameModel swapAB irvModel)).map (fun d => d.run.winner) = .ok [c!"B"] := by decide +kernel
end

end Verif.Props
