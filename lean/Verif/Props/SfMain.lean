/-
C87, C88: the program of abiflib/sftxt.py.
-/
import Verif.Model.SfMain
import Verif.Spec.SfMain
import Verif.Props.Sftxt
import Verif.Props.Json

set_option linter.unusedSimpArgs false
set_option linter.unusedSectionVars false

namespace Verif.Props
open Verif Spec

section
variable [U : Uni]

/-! ### runs are determined by the lines -/

theorem runsFrom_append (l : ImgLine) (t xs rest : List ImgLine) (h : ∀ y ∈ xs, y.voter = l.voter) :
    runsFrom l t (xs ++ rest) = runsFrom l (t ++ xs) rest := by
  induction xs generalizing t with
  | nil => simp
  | cons x xs ih =>
    rw [List.cons_append, runsFrom, if_pos (h x (by simp)).symm, ih _ (fun y hy => h y (by simp [hy]))]
    simp

theorem runsFrom_stop (l : ImgLine) (t rest : List ImgLine) (h : ∀ y, rest.head? = some y → l.voter ≠ y.voter) :
    runsFrom l t rest = (l, t) :: runsOf rest := by
  cases rest with
  | nil => rfl
  | cons x rest => rw [runsFrom, if_neg (h x rfl)]; rfl

/-- the runs of a list of lines are unique -/
theorem isRuns_eq (groups : List (List ImgLine)) (ls : List ImgLine) (h : IsRuns ls groups) : groups = (runsOf ls).map grp := by
  induction groups generalizing ls with
  | nil => obtain ⟨h1, _⟩ := h; simp at h1; subst h1; rfl
  | cons g gs ih =>
    obtain ⟨h1, h2, h3⟩ := h
    obtain ⟨hne, v, hv⟩ := h2 g (by simp)
    cases g with
    | nil => exact absurd rfl hne
    | cons x xs =>
      have hrest : IsRuns gs.flatten gs := by
        refine ⟨rfl, fun g hg => h2 g (by simp [hg]), ?_⟩
        intro i a b ha hb
        exact h3 (i + 1) a b (by simpa using ha) (by simpa using hb)
      have hvx : x.voter = v := hv x (by simp)
      have hstop : ∀ y, gs.flatten.head? = some y → x.voter ≠ y.voter := by
        intro y hy
        cases gs with
        | nil => simp at hy
        | cons b gs =>
          obtain ⟨hb, _⟩ := h2 b (by simp)
          cases b with
          | nil => exact absurd rfl hb
          | cons z b =>
            simp at hy
            subst hy
            exact h3 0 (x :: xs) (z :: b) rfl rfl x (by simp) z (by simp)
      rw [List.flatten_cons] at h1
      subst h1
      rw [List.cons_append, runsOf, runsFrom_append _ _ _ _ (fun y hy => by rw [hv y (by simp [hy]), hvx]), runsFrom_stop _ _ _ hstop,
        List.map_cons, ← ih _ hrest]
      rfl

/-! ### reading the files -/

theorem nlLines_lines (ls : List Str) (h : ∀ l ∈ ls, ∀ c ∈ l, isLineBreak c = false) :
    nlLines (ls.flatMap (fun l => l ++ ['\n'])) = ls := by
  unfold nlLines
  rw [splitAtChar_lines]
  · simp
  · rintro l hl c hc rfl
    have := h l hl _ hc
    revert this
    decide

theorem readFileRows_master {rs : List MasterRec} (h : ∀ r ∈ rs, r.Ok) :
    readFileRows masterSpec (masterText rs) = .ok (rs.map masterRow) := by
  unfold readFileRows
  rw [readFieldspec_master]
  simp only
  have e : masterText rs = (rs.map MasterRec.text).flatMap (fun l => l ++ ['\n']) := by
    unfold masterText; rw [List.flatMap_map]
  rw [e, nlLines_lines, List.mapM_map]
  · exact mapM_ok (fun r hr => sfRecord_master (h r hr))
  · intro l hl
    obtain ⟨r, hr, rfl⟩ := List.mem_map.1 hl
    exact (h r hr).2

theorem nlLines_image {ls : List ImgLine} (h : ∀ l ∈ ls, l.Ok) : nlLines (imageText ls) = ls.map ImgLine.text := by
  have e : imageText ls = (ls.map ImgLine.text).flatMap (fun l => l ++ ['\n']) := by
    unfold imageText; rw [List.flatMap_map]
  rw [e, nlLines_lines]
  intro l hl
  obtain ⟨r, hr, rfl⟩ := List.mem_map.1 hl
  exact (h r hr).2.2

/-- the ballots `main` works on -/
theorem sfMain_ballots {rs : List MasterRec} {ls : List ImgLine} (hr : ∀ r ∈ rs, r.Ok) (hl : ∀ l ∈ ls, l.Ok) (asked : Option Str)
    (ha : asked ≠ some []) {contest : Str} (hc : contestFor asked rs = some contest) (hex : ∃ l ∈ ls, l.contest = contest)
    (hk : ∀ l ∈ ls, l.contest = contest → UsableLine rs l) :
    ∃ pool, readFileRows masterSpec (masterText rs) = .ok (rs.map masterRow) ∧
      sfPoolFor asked (rs.map masterRow) = .ok (pool, some contest) ∧
      readFieldspec imageSpec = .ok imgWidths ∧
      sfBallots imgWidths pool (some contest) (nlLines (imageText ls)) none =
        .ok ((runsOf (contestLines contest ls)).map (fun g => some (runBallot rs g.1 g.2))) := by
  obtain ⟨pool, e1, e2⟩ := sfPool_fold hr [(c!"0000000", none)] asked ha
  unfold contestFor at hc
  rw [hc] at e1
  refine ⟨pool, readFileRows_master hr, e1, readFieldspec_image, ?_⟩
  rw [nlLines_image hl]
  exact sfBallots_top (poolOf_fold e2) contest ls hl hk hex

/-! ### C87: the urlencoded output -/

/-- the record of three votes -/
def rec3 (v0 v1 v2 : SfVote) : Dict (Option Str) Int := addVote (addVote (Dict.set [] v0.cand v0.rank) v1) v2

theorem get?_addVote (d : Dict (Option Str) Int) (v : SfVote) (k : Option Str) :
    Dict.get? (addVote d v) k = (Dict.get? d k).or (if v.cand = k then some v.rank else none) := by
  unfold addVote
  by_cases hh : Dict.has d v.cand = true
  · rw [if_pos hh]
    by_cases hk : v.cand = k
    · subst hk
      obtain ⟨x, hx⟩ := Dict.exists_get?_of_mem ((Dict.has_iff).1 hh)
      rw [hx]; rfl
    · rw [if_neg hk, Option.or_none]
  · rw [if_neg hh, Dict.get?_set]
    by_cases hk : v.cand = k
    · subst hk
      have : Dict.get? d v.cand = none := Dict.get?_eq_none.2 (fun h => hh ((Dict.has_iff).2 h))
      simp [this]
    · rw [if_neg hk, if_neg hk, Option.or_none]

theorem wf_addVote (d : Dict (Option Str) Int) (v : SfVote) (h : Dict.WF d) : Dict.WF (addVote d v) := by
  unfold addVote
  split
  · exact h
  · exact Dict.wf_set _ _ h

theorem keys_addVote (d : Dict (Option Str) Int) (v : SfVote) (k : Option Str) (h : k ∈ Dict.keys (addVote d v)) :
    k ∈ Dict.keys d ∨ k = v.cand := by
  unfold addVote at h
  split at h
  · exact .inl h
  · rw [← Dict.has_iff] at h
    obtain ⟨x, hx⟩ := Dict.exists_get?_of_mem ((Dict.has_iff).1 h)
    rw [Dict.get?_set] at hx
    split at hx
    · rename_i e; exact .inr e.symm
    · exact .inl (Dict.mem_keys_of_get? hx)

/-- the preferences the reader of the nameq format will see -/
def nqPrefs (d : Dict (Option Str) Int) : Dict Str Pref := d.map (fun kv => (nameStr kv.1, { rank := some kv.2 }))

/-- the key printed as `c` -/
def keyOf (c : Str) : Option Str := if c = c!"None" then none else some c

theorem nameStr_keyOf (c : Str) : nameStr (keyOf c) = c := by
  unfold keyOf
  split
  · rename_i h; rw [h]; rfl
  · rfl

theorem nameStr_eq {k : Option Str} (h : k ≠ some c!"None") (c : Str) : nameStr k = c ↔ k = keyOf c := by
  constructor
  · intro e
    unfold keyOf
    cases k with
    | none => rw [← e]; rfl
    | some x =>
      have : x = c := e
      subst this
      rw [if_neg (fun hx => h (by rw [hx]))]
  · rintro rfl; exact nameStr_keyOf c

theorem get?_nqPrefs (d : Dict (Option Str) Int) (h : some c!"None" ∉ Dict.keys d) (c : Str) :
    Dict.get? (nqPrefs d) c = (Dict.get? d (keyOf c)).map (fun r => ({ rank := some r } : Pref)) := by
  induction d with
  | nil => rfl
  | cons e d ih =>
    unfold Dict.keys at h
    simp only [List.map_cons, List.mem_cons, not_or] at h
    have ih := ih h.2
    unfold nqPrefs at ih ⊢
    rw [List.map_cons]
    have hk := nameStr_eq (fun x => h.1 x.symm) c
    unfold Dict.get?
    by_cases hh : e.1 = keyOf c
    · simp only [hk.2 hh, if_true]
      simp only [hh, if_true, Option.map_some]
    · have : ¬ nameStr e.1 = c := fun x => hh (hk.1 x)
      simp only [this, hh, if_false]
      exact ih

theorem wf_nqPrefs (d : Dict (Option Str) Int) (hw : Dict.WF d) (h : some c!"None" ∉ Dict.keys d) : Dict.WF (nqPrefs d) := by
  unfold Dict.WF Dict.keys at *
  unfold nqPrefs
  rw [List.map_map]
  have : (Prod.fst ∘ fun (kv : Option Str × Int) => (nameStr kv.1, ({ rank := some kv.2 } : Pref))) = nameStr ∘ Prod.fst := rfl
  rw [this, ← List.map_map]
  refine List.Nodup.map_on ?_ hw
  intro a ha b hb hab
  have ha' := (nameStr_eq (fun e => h (e ▸ ha)) (nameStr b)).1 hab
  have hb' := (nameStr_eq (fun e => h (e ▸ hb)) (nameStr b)).1 rfl
  rw [ha', ← hb']

theorem quotePlus_intStr (i : Int) : quotePlus (intStr i) = intStr i :=
  (quotePlus_eq_iff _).2 (fun c hc => numCh_safe (intStr_numCh i c hc))

theorem urlencode_eq (d : Dict (Option Str) Int) : urlencode d = nqLine { qty := 1, prefs := nqPrefs d } := by
  unfold urlencode nqLine nqPrefs
  rw [List.map_map]
  congr 1
  apply List.map_congr_left
  intro kv _
  simp [nqItem, quotePlus_intStr]

/-- the votes of a ballot with at least three lines -/
theorem urlRecord_run (rs : List MasterRec) (g : ImgLine × List ImgLine) (a b c : ImgLine) (t : List ImgLine)
    (hg : grp g = a :: b :: c :: t) :
    urlRecord (some (runBallot rs g.1 g.2)) = .ok (rec3 (lineVote rs a) (lineVote rs b) (lineVote rs c)) := by
  have hv : (runBallot rs g.1 g.2).votes = lineVote rs a :: lineVote rs b :: lineVote rs c :: t.map (lineVote rs) := by
    unfold runBallot
    simp only
    unfold grp at hg
    rw [hg]
    rfl
  unfold urlRecord sfVoteAt
  simp only [hv]
  rfl

theorem urlRecord_short (rs : List MasterRec) (g : ImgLine × List ImgLine) (hg : (grp g).length < 3) :
    urlRecord (some (runBallot rs g.1 g.2)) = .error .indexError := by
  have hv : (runBallot rs g.1 g.2).votes = (grp g).map (lineVote rs) := rfl
  unfold urlRecord sfVoteAt
  simp only [hv]
  generalize grp g = l at hg
  match l, hg with
  | [], _ => rfl
  | [a], _ => rfl
  | [a, b], _ => rfl

theorem get?_rec3 (rs : List MasterRec) (a b c : ImgLine) (t : List ImgLine) (k : Option Str) :
    Dict.get? (rec3 (lineVote rs a) (lineVote rs b) (lineVote rs c)) k = firstRank rs (a :: b :: c :: t) k := by
  unfold rec3 firstRank
  rw [get?_addVote, get?_addVote, Dict.get?_set]
  simp only [List.take_succ_cons, List.take_zero, List.find?_cons, List.find?_nil]
  have e : ∀ l, (lineVote rs l).cand = candName rs l.cand := fun _ => rfl
  have e' : ∀ l, (lineVote rs l).rank = (l.rankNum : Int) := fun _ => rfl
  simp only [e, e']
  by_cases h1 : candName rs a.cand = k
  · simp [h1]
  · by_cases h2 : candName rs b.cand = k
    · simp [h1, h2, Dict.get?]
    · by_cases h3 : candName rs c.cand = k <;> simp [h1, h2, h3, Dict.get?]

theorem rec3_wf (v0 v1 v2 : SfVote) : Dict.WF (rec3 v0 v1 v2) :=
  wf_addVote _ _ (wf_addVote _ _ (Dict.wf_set _ _ Dict.wf_nil))

theorem rec3_keys (v0 v1 v2 : SfVote) (k : Option Str) (h : k ∈ Dict.keys (rec3 v0 v1 v2)) : k = v0.cand ∨ k = v1.cand ∨ k = v2.cand := by
  rcases keys_addVote _ _ _ h with h | h
  · rcases keys_addVote _ _ _ h with h | h
    · rw [Dict.mem_keys_set] at h
      rcases h with h | h
      · exact .inl h
      · cases h
    · exact .inr (.inl h)
  · exact .inr (.inr h)

/-- the output of a program run: to the file if there is one -/
def SfOut.text (a : SfArgs) (o : SfOut) : Option Str := if a.outfile then o.file else some o.stdout

theorem emit_text (a : SfArgs) (s : Str) : SfOut.text a (a.emit s) = some s := by
  unfold SfOut.text SfArgs.emit
  cases a.outfile <;> rfl

theorem sfMain_urlencoded {rs : List MasterRec} {ls : List ImgLine} (hr : ∀ r ∈ rs, r.Ok) (hl : ∀ l ∈ ls, l.Ok) (a : SfArgs)
    (hf : a.fmt = c!"urlencoded") (hi : a.imagelines = false)
    (ha : a.contest ≠ some []) {contest : Str} (hc : contestFor a.contest rs = some contest) (hex : ∃ l ∈ ls, l.contest = contest)
    (hk : ∀ l ∈ ls, l.contest = contest → UsableLine rs l) :
    sfMain a (masterText rs) (imageText ls) =
      (dumpUrlencoded ((runsOf (contestLines contest ls)).map (fun g => some (runBallot rs g.1 g.2)))).map a.emit := by
  obtain ⟨pool, e1, e2, e3, e4⟩ := sfMain_ballots hr hl a.contest ha hc hex hk
  unfold sfMain
  rw [e1, ok_bind, e2, ok_bind, e3, ok_bind, hf, hi]
  rw [if_neg (by decide), if_neg (by decide), if_neg (by decide), if_pos rfl, if_neg (by decide)]
  simp only [e4, ok_bind]
  cases dumpUrlencoded _ <;> rfl

theorem forall₂_of_forall {α β : Type} {R : α → β → Prop} (l : List α) (h : ∀ x ∈ l, ∃ y, R x y) : ∃ r, List.Forall₂ R l r := by
  induction l with
  | nil => exact ⟨[], .nil⟩
  | cons x l ih =>
    obtain ⟨y, hy⟩ := h x (by simp)
    obtain ⟨ys, hys⟩ := ih (fun z hz => h z (by simp [hz]))
    exact ⟨y :: ys, .cons hy hys⟩

theorem mapM_forall₂ {α β : Type} {f : α → Except PyErr β} {l : List α} {r : List β} (h : List.Forall₂ (fun x y => f x = .ok y) l r) :
    l.mapM f = .ok r := by
  induction h with
  | nil => rfl
  | cons hx _ ih => rw [List.mapM_cons, hx, ih]; rfl

theorem forall₂_mem_right {α β : Type} {R : α → β → Prop} {l : List α} {r : List β} (h : List.Forall₂ R l r) {y : β} (hy : y ∈ r) :
    ∃ x ∈ l, R x y := by
  induction h with
  | nil => cases hy
  | cons hx _ ih =>
    rcases List.mem_cons.1 hy with rfl | hy
    · exact ⟨_, by simp, hx⟩
    · obtain ⟨x, hx, h⟩ := ih hy
      exact ⟨x, by simp [hx], h⟩

/-- C87 (partial: every ballot must have at least three lines, see `C87_short`; lines after the third are ignored and a
line naming nobody is a vote for a candidate called None, see `C87_refuted`).  For every well-formed pair of files,
the urlencoded output for the contest asked for (or the first one), read as a nameq file, has one voteline per run of
the contest's lines with the same voter id, in order; it gives each name the rank on the first of the run's first three
lines with that name, and `None` that of the first line naming nobody. -/
theorem C87_urlencoded_partial (rs : List MasterRec) (ls : List ImgLine) (hr : ∀ r ∈ rs, r.Ok) (hl : ∀ l ∈ ls, l.Ok) (a : SfArgs)
    (hf : a.fmt = c!"urlencoded") (hi : a.imagelines = false)
    (ha : a.contest ≠ some []) (contest : Str) (hc : contestFor a.contest rs = some contest) (hex : ∃ l ∈ ls, l.contest = contest)
    (hk : ∀ l ∈ ls, l.contest = contest → UsableLine rs l)
    (hn : ∀ r ∈ rs, strip r.desc ≠ c!"None")
    (groups : List (List ImgLine)) (hg : IsRuns (contestLines contest ls) groups) (h3 : ∀ g ∈ groups, 3 ≤ g.length) :
    ∃ out text m, sfMain a (masterText rs) (imageText ls) = .ok out ∧ SfOut.text a out = some text ∧
      nameqToJabmod text = .ok m ∧
      List.Forall₂ (fun (g : List ImgLine) (vl : Voteline) => vl.qty = 1 ∧ ∀ c : Str, Dict.get? vl.prefs c =
        (firstRank rs g (if c = c!"None" then none else some c)).map (fun r => ({ rank := some r } : Pref))) groups m.votelines := by
  have hg' := isRuns_eq _ _ hg
  subst hg'
  have hmain := sfMain_urlencoded hr hl a hf hi ha hc hex hk
  clear hg
  generalize runsOf (contestLines contest ls) = runs at h3 hmain ⊢
  have hname : ∀ l, candName rs l ≠ some c!"None" := by
    intro id h
    unfold candName at h
    rw [Option.map_eq_some_iff] at h
    obtain ⟨r, hr', h⟩ := h
    have := List.mem_of_getLast? hr'
    unfold candRecs at this
    exact hn r (List.mem_filter.1 this).1 h
  -- the record of each run
  have hrec : ∀ g ∈ runs, ∃ d : Dict (Option Str) Int, urlRecord (some (runBallot rs g.1 g.2)) = .ok d ∧ Dict.WF d ∧
      some c!"None" ∉ Dict.keys d ∧ ∀ k, Dict.get? d k = firstRank rs (grp g) k := by
    intro g hgm
    have hlen := h3 (grp g) (List.mem_map.2 ⟨g, hgm, rfl⟩)
    match hgr : grp g, hlen with
    | x :: y :: z :: t, _ =>
      refine ⟨_, urlRecord_run rs g x y z t hgr, rec3_wf _ _ _, ?_, fun k => get?_rec3 rs x y z t k⟩
      intro h
      rcases rec3_keys _ _ _ _ h with h | h | h <;> exact hname _ h.symm
  obtain ⟨recs, hrecs⟩ : ∃ recs : List (Dict (Option Str) Int), List.Forall₂ (fun g d => urlRecord (some (runBallot rs g.1 g.2)) = .ok d ∧ Dict.WF d ∧
      some c!"None" ∉ Dict.keys d ∧ ∀ k, Dict.get? d k = firstRank rs (grp g) k) runs recs := forall₂_of_forall runs hrec
  have hdump : dumpUrlencoded (runs.map (fun g => some (runBallot rs g.1 g.2))) = .ok (recs.flatMap (fun d => urlencode d ++ ['\n'])) := by
    unfold dumpUrlencoded
    rw [mapM_forall₂ (r := recs.map (fun d => urlencode d ++ ['\n'])), ok_bind, List.flatMap_def]
    rw [List.forall₂_map_left_iff, List.forall₂_map_right_iff]
    refine List.Forall₂.imp ?_ hrecs
    intro g d hd
    rw [hd.1]
    rfl
  refine ⟨a.emit (recs.flatMap (fun d => urlencode d ++ ['\n'])), recs.flatMap (fun d => urlencode d ++ ['\n']), ?_⟩
  rw [hmain, hdump]
  have hlines : splitlines (recs.flatMap (fun d => urlencode d ++ ['\n'])) = recs.map urlencode := by
    have := splitlines_lines (recs.map urlencode) (by
      intro l hl c hc
      obtain ⟨d, _, rfl⟩ := List.mem_map.1 hl
      rw [urlencode_eq] at hc
      exact (nqLine_clean _ c hc).2)
    rw [← this, List.flatMap_map]
  let conv (d : Dict (Option Str) Int) : Voteline :=
    { qty := 1, prefs := (nqPrefs d).map (fun kp => (kp.1, { rank := some (kp.2.rank.getD 0) })), nameq := some (urlencode d) }
  have hm : (recs.map urlencode).mapM nameqLine = .ok (recs.map conv) := by
    rw [List.mapM_map]
    apply mapM_ok
    intro d hd
    obtain ⟨g, _, _, hw, hkn, _⟩ := forall₂_mem_right hrecs hd
    simp only [Function.comp_apply, urlencode_eq]
    rw [nameqLine_line (wf_nqPrefs d hw hkn)]
    simp only [conv, urlencode_eq]
  refine ⟨_, rfl, emit_text _ _, by unfold nameqToJabmod; rw [hlines, hm], ?_⟩
  simp only
  rw [List.forall₂_map_left_iff, List.forall₂_map_right_iff]
  refine List.Forall₂.imp ?_ hrecs
  intro g d ⟨_, hw, hkn, hget⟩
  refine ⟨rfl, fun c => ?_⟩
  have e : (nqPrefs d).map (fun kp => (kp.1, ({ rank := some (kp.2.rank.getD 0) } : Pref))) = nqPrefs d := by
    unfold nqPrefs
    rw [List.map_map]
    rfl
  simp only [conv]
  rw [e, get?_nqPrefs d hkn, hget]
  rfl

/-- C87: a ballot with fewer than three lines makes the whole output fail. -/
theorem C87_short (rs : List MasterRec) (ls : List ImgLine) (hr : ∀ r ∈ rs, r.Ok) (hl : ∀ l ∈ ls, l.Ok) (a : SfArgs)
    (hf : a.fmt = c!"urlencoded") (hi : a.imagelines = false)
    (ha : a.contest ≠ some []) (contest : Str) (hc : contestFor a.contest rs = some contest) (hex : ∃ l ∈ ls, l.contest = contest)
    (hk : ∀ l ∈ ls, l.contest = contest → UsableLine rs l)
    (groups : List (List ImgLine)) (hg : IsRuns (contestLines contest ls) groups) (h3 : ∃ g ∈ groups, g.length < 3) :
    sfMain a (masterText rs) (imageText ls) = .error .indexError := by
  have hg' := isRuns_eq _ _ hg
  subst hg'
  rw [sfMain_urlencoded hr hl a hf hi ha hc hex hk]
  generalize runsOf (contestLines contest ls) = runs at h3
  have : dumpUrlencoded (runs.map (fun g => some (runBallot rs g.1 g.2))) = .error .indexError := by
    unfold dumpUrlencoded
    have : (runs.map (fun g => some (runBallot rs g.1 g.2))).mapM (fun b => do
        let r ← urlRecord b
        Except.ok (urlencode r ++ ['\n'])) = .error .indexError := by
      clear hg
      induction runs with
      | nil => obtain ⟨g, hg, _⟩ := h3; cases hg
      | cons g gs ih =>
        rw [List.map_cons, List.mapM_cons]
        by_cases hs : (grp g).length < 3
        · rw [urlRecord_short rs g hs]; rfl
        · have hl3 : 3 ≤ (grp g).length := by omega
          match hgr : grp g, hl3 with
          | x :: y :: z :: t, _ =>
            rw [urlRecord_run rs g x y z t hgr, ok_bind, ok_bind, ih]
            · rfl
            · obtain ⟨g', hg', hlt⟩ := h3
              rw [List.map_cons] at hg'
              rcases List.mem_cons.1 hg' with rfl | hg'
              · exact absurd hlt hs
              · exact ⟨g', hg', hlt⟩
    rw [this]; rfl
  rw [this]; rfl

/-! ### C87: the JSON output -/

theorem voteJson (rs : List MasterRec) (l : ImgLine) : (lineVote rs l).toJson = voteObject rs l := by
  unfold SfVote.toJson lineVote voteObject optJson optMember
  simp only
  congr 2
  by_cases ho : l.over = c!"1"
  · simp [ho]
  · by_cases hu : l.under = c!"1" <;> simp [ho, hu]

theorem ballotJson_run (rs : List MasterRec) (g : ImgLine × List ImgLine) :
    sfBallotJson (some (runBallot rs g.1 g.2)) = ballotObject rs (grp g) := by
  unfold sfBallotJson runBallot ballotObject grp
  simp only [List.map_map]
  congr 9
  apply List.map_congr_left
  intro l _
  exact voteJson rs l

theorem voteObject_distinct (rs : List MasterRec) (l : ImgLine) : DistinctKeys (voteObject rs l) := by
  unfold voteObject
  cases candName rs l.cand <;> by_cases ho : l.over = c!"1" <;> by_cases hu : l.under = c!"1" <;>
    simp [ho, hu, DistinctKeys, DistinctKeysObj]

theorem ballotObject_distinct (rs : List MasterRec) (g : List ImgLine) : DistinctKeys (ballotObject rs g) := by
  unfold ballotObject
  split
  · simp [DistinctKeys]
  · have : DistinctKeysArr (List.map (voteObject rs) (‹ImgLine› :: ‹List ImgLine›)) := by
      rw [distinctArr_iff]
      intro e he
      obtain ⟨l, _, rfl⟩ := List.mem_map.1 he
      exact voteObject_distinct rs l
    simp [DistinctKeys, DistinctKeysObj] at this ⊢
    exact this

/-- C87, JSON output: one object per run of lines of the contest with the same voter id, in order, with all the lines of
the run in order. -/
theorem C87_json (rs : List MasterRec) (ls : List ImgLine) (hr : ∀ r ∈ rs, r.Ok) (hl : ∀ l ∈ ls, l.Ok) (a : SfArgs)
    (hf : a.fmt = c!"json") (hi : a.imagelines = false)
    (ha : a.contest ≠ some []) (contest : Str) (hc : contestFor a.contest rs = some contest) (hex : ∃ l ∈ ls, l.contest = contest)
    (hk : ∀ l ∈ ls, l.contest = contest → UsableLine rs l)
    (groups : List (List ImgLine)) (hg : IsRuns (contestLines contest ls) groups) :
    ∃ out text, sfMain a (masterText rs) (imageText ls) = .ok out ∧ SfOut.text a out = some text ∧
      jsonLoads text = .ok (.arr (groups.map (ballotObject rs))) := by
  have hg' := isRuns_eq _ _ hg
  subst hg'
  obtain ⟨pool, e1, e2, e3, e4⟩ := sfMain_ballots hr hl a.contest ha hc hex hk
  refine ⟨a.emit (Json.arr (((runsOf (contestLines contest ls)).map grp).map (ballotObject rs))).dumpsIndent, _, ?_, emit_text _ _, ?_⟩
  · unfold sfMain
    rw [e1, ok_bind, e2, ok_bind, e3, ok_bind, hf, hi]
    rw [if_pos rfl, if_neg (by decide)]
    simp only [e4, ok_bind, List.map_map]
    congr 4
    apply List.map_congr_left
    intro g _
    exact ballotJson_run rs g
  · have := (C72_dumps (Json.arr (((runsOf (contestLines contest ls)).map grp).map (ballotObject rs))) (by
      show DistinctKeysArr _
      rw [distinctArr_iff]
      intro e he
      obtain ⟨l, _, rfl⟩ := List.mem_map.1 he
      exact ballotObject_distinct rs l) [] [] blank_nil blank_nil).2
    simpa using this

/-- C87, JSON output of a contest without lines: not an empty list but one ballot of nobody. -/
theorem C87_json_empty (rs : List MasterRec) (ls : List ImgLine) (hr : ∀ r ∈ rs, r.Ok) (hl : ∀ l ∈ ls, l.Ok) (a : SfArgs)
    (hf : a.fmt = c!"json") (hi : a.imagelines = false)
    (ha : a.contest ≠ some []) (contest : Str) (hc : contestFor a.contest rs = some contest) (hex : ∀ l ∈ ls, l.contest ≠ contest) :
    ∃ out text, sfMain a (masterText rs) (imageText ls) = .ok out ∧ SfOut.text a out = some text ∧
      jsonLoads text = .ok (.arr [.obj [(c!"Contest_Id", .null), (c!"Pref_Voter_Id", .null), (c!"Serial_Number", .null),
        (c!"Tally_Type_Id", .null), (c!"Precinct_Id", .null)]]) := by
  obtain ⟨pool, e1, e2⟩ := sfPool_fold hr [(c!"0000000", none)] a.contest ha
  unfold contestFor at hc
  rw [hc] at e1
  refine ⟨a.emit (Json.arr [sfBallotJson none]).dumpsIndent, _, ?_, emit_text _ _, ?_⟩
  · unfold sfMain
    have e1' : sfPoolFor a.contest (rs.map masterRow) = .ok (pool, some contest) := e1
    rw [readFileRows_master hr, ok_bind, e1', ok_bind, readFieldspec_image, ok_bind, hf, hi]
    rw [if_pos rfl, if_neg (by decide)]
    simp only [nlLines_image hl, sfBallots_none contest ls hl hex, ok_bind]
    rfl
  · have := (C72_dumps (Json.arr [sfBallotJson none]) (by
      simp [DistinctKeys, DistinctKeysArr, sfBallotJson, DistinctKeysObj]) [] [] blank_nil blank_nil).2
    simpa [sfBallotJson] using this

/-- C87, urlencoded output and the 1996 format of a contest without lines: a `KeyError`. -/
theorem C87_empty (rs : List MasterRec) (ls : List ImgLine) (hr : ∀ r ∈ rs, r.Ok) (hl : ∀ l ∈ ls, l.Ok) (a : SfArgs)
    (hf : a.fmt = c!"urlencoded" ∨ a.fmt = c!"csv96") (hi : a.imagelines = false)
    (ha : a.contest ≠ some []) (contest : Str) (hc : contestFor a.contest rs = some contest) (hex : ∀ l ∈ ls, l.contest ≠ contest) :
    sfMain a (masterText rs) (imageText ls) = .error .keyError := by
  obtain ⟨pool, e1, e2⟩ := sfPool_fold hr [(c!"0000000", none)] a.contest ha
  unfold contestFor at hc
  rw [hc] at e1
  unfold sfMain
  have e1' : sfPoolFor a.contest (rs.map masterRow) = .ok (pool, some contest) := e1
  rw [readFileRows_master hr, ok_bind, e1', ok_bind, readFieldspec_image, ok_bind, hi]
  rcases hf with hf | hf <;> rw [hf]
  · rw [if_neg (by decide), if_neg (by decide), if_neg (by decide), if_pos rfl, if_neg (by decide)]
    simp only [nlLines_image hl, sfBallots_none contest ls hl hex, ok_bind]
    rfl
  · rw [if_neg (by decide), if_neg (by decide), if_neg (by decide), if_neg (by decide), if_pos rfl, if_neg (by decide)]
    simp only [nlLines_image hl, sfBallots_none contest ls hl hex, ok_bind]
    rfl

/-! ### C87: the 1996 format -/

/-- the candidate pool of a plain lookup file, as a list -/
theorem sfPool_plain {rs : List MasterRec} (h : ∀ r ∈ rs, r.Ok) (pool : Dict Str (Option Str)) (ct : Option Str) (hct : ct ≠ some [])
    (hn : (Dict.keys pool ++ (candidateRecs rs).map MasterRec.id).Nodup) :
    (rs.map masterRow).foldlM sfPoolStep (pool, ct) =
      .ok (pool ++ (candidateRecs rs).map (fun r => (r.id, some (strip r.desc))), ct.or (chosenContest rs)) := by
  induction rs generalizing pool ct with
  | nil => simp [chosenContest, candidateRecs]; rfl
  | cons r rs ih =>
    have hr := h r (by simp)
    have hct' : ct.or (if strip r.rtype = c!"Contest" then some r.id else none) ≠ some [] := by
      cases ct with
      | some x => simpa using hct
      | none =>
        have : r.id ≠ [] := by intro e; have := hr.1.2.1; rw [e] at this; simp at this
        by_cases hc : strip r.rtype = c!"Contest" <;> simp [hc, this]
    have hcon : (ct.or (if strip r.rtype = c!"Contest" then some r.id else none)).or (chosenContest rs) = ct.or (chosenContest (r :: rs)) := by
      unfold chosenContest
      rw [List.find?_cons]
      by_cases hc : strip r.rtype = c!"Contest" <;> cases ct <;> simp [hc]
    rw [List.map_cons, List.foldlM_cons, sfPoolStep_row hr pool hct, ok_bind]
    by_cases hc : strip r.rtype = c!"Candidate"
    · have e : candidateRecs (r :: rs) = r :: candidateRecs rs := by
        unfold candidateRecs; rw [List.filter_cons_of_pos (by simpa using hc)]
      rw [e] at hn ⊢
      have hnot : r.id ∉ Dict.keys pool := by
        intro hm
        rw [List.nodup_append] at hn
        exact hn.2.2 _ hm _ (by simp) rfl
      rw [if_pos hc, ih (fun x hx => h x (by simp [hx])) _ _ hct', hcon]
      · rw [Dict.set_of_not_mem _ hnot]
        simp
      · rw [Dict.set_of_not_mem _ hnot]
        unfold Dict.keys at hn ⊢
        simpa using hn
    · have e : candidateRecs (r :: rs) = candidateRecs rs := by
        unfold candidateRecs; rw [List.filter_cons_of_neg (by simpa using hc)]
      rw [e] at hn ⊢
      rw [if_neg hc, ih (fun x hx => h x (by simp [hx])) _ _ hct' hn, hcon]

theorem csv96Cands_spec (cs : List (Str × Str)) (n : Nat) (rev : Dict (Option Str) Nat)
    (hne : ∀ c ∈ cs, c.2 ≠ []) (hnd : (cs.map Prod.snd).Nodup) :
    (csv96Cands (cs.map (fun c => (c.1, some c.2))) n rev).1 =
        (cs.zipIdx n).flatMap (fun ci => natStr ci.2 ++ c!", " ++ ci.1.2 ++ ['\n']) ∧
    ∀ k : Option Str, Dict.get? (csv96Cands (cs.map (fun c => (c.1, some c.2))) n rev).2 k =
      match k with
      | none => Dict.get? rev none
      | some s => if s ∈ cs.map Prod.snd then some (n + (cs.map Prod.snd).idxOf s) else Dict.get? rev (some s) := by
  induction cs generalizing n rev with
  | nil => refine ⟨rfl, fun k => ?_⟩; cases k <;> simp [csv96Cands]
  | cons c cs ih =>
    obtain ⟨id, name⟩ := c
    have hname : name ≠ [] := hne (id, name) (by simp)
    rw [List.map_cons, List.nodup_cons] at hnd
    obtain ⟨i1, i2⟩ := ih (n + 1) (Dict.set rev (some name) n) (fun c hc => hne c (by simp [hc])) hnd.2
    cases name with
    | nil => exact absurd rfl hname
    | cons x s =>
      rw [List.map_cons, csv96Cands]
      simp only
      refine ⟨?_, fun k => ?_⟩
      · rw [i1, List.zipIdx_cons, List.flatMap_cons]
      · rw [i2]
        cases k with
        | none => simp only [Dict.get?_set]; rw [if_neg (by simp)]
        | some t =>
          simp only [Dict.get?_set, List.map_cons, List.mem_cons, Option.some.injEq]
          by_cases ht : t = x :: s
          · subst ht
            rw [if_neg hnd.1]
            simp
          · have ht' : ¬ x :: s = t := fun e => ht e.symm
            simp only [ht, ht', false_or, if_false]
            by_cases hm : t ∈ cs.map Prod.snd
            · rw [if_pos hm, if_pos hm, List.idxOf_cons_ne _ ht']
              congr 1
              omega
            · rw [if_neg hm, if_neg hm]

theorem candName_mem {rs : List MasterRec} {id n : Str} (h : candName rs id = some n) :
    n ∈ (candidateRecs rs).map (fun r => strip r.desc) := by
  unfold candName at h
  rw [Option.map_eq_some_iff] at h
  obtain ⟨r, hr, rfl⟩ := h
  have hm := List.mem_of_getLast? hr
  unfold candRecs at hm
  obtain ⟨h1, h2⟩ := List.mem_filter.1 hm
  refine List.mem_map.2 ⟨r, ?_, rfl⟩
  unfold candidateRecs
  refine List.mem_filter.2 ⟨h1, ?_⟩
  simp only [Bool.and_eq_true] at h2
  exact h2.1

theorem csv96_vote (rev : Dict (Option Str) Nat) (num : Option Str → Nat) (d : Dict (Option Str) Int) (out : Str) (v : SfVote)
    (hnum : Dict.getE rev v.cand = .ok (num v.cand)) (hne : v.cand ≠ some []) :
    csv96Vote rev (d, out) v =
      if v.cand ≠ none ∧ v.cand ∉ Dict.keys d then .ok (Dict.set d v.cand v.rank, out ++ '>' :: natStr (num v.cand)) else .ok (d, out) := by
  unfold csv96Vote
  have hh : Dict.has d v.cand = false ↔ v.cand ∉ Dict.keys d := by
    rw [← Dict.has_iff]; simp
  simp only [hh, hnum, ne_eq, hne, not_false_eq_true, true_and]

theorem csv96_ballot (rev : Dict (Option Str) Nat) (num : Option Str → Nat) (b : SfBallot) (v0 v1 v2 : SfVote) (t : List SfVote)
    (hb : b.votes = v0 :: v1 :: v2 :: t)
    (hnum : ∀ v ∈ [v0, v1, v2], Dict.getE rev v.cand = .ok (num v.cand) ∧ v.cand ≠ some []) :
    csv96Ballot rev (some b) = .ok (arrowLine ((picks v0.cand v1.cand v2.cand).map num) ++ ['\n']) := by
  obtain ⟨h0, _⟩ := hnum v0 (by simp)
  obtain ⟨h1, n1⟩ := hnum v1 (by simp)
  obtain ⟨h2, n2⟩ := hnum v2 (by simp)
  have e0 : sfVoteAt (some b) 0 = .ok v0 := by unfold sfVoteAt; simp [hb]
  have e1 : sfVoteAt (some b) 1 = .ok v1 := by unfold sfVoteAt; simp [hb]
  have e2 : sfVoteAt (some b) 2 = .ok v2 := by unfold sfVoteAt; simp [hb]
  unfold csv96Ballot
  rw [e0, ok_bind, h0, ok_bind, e1, ok_bind, csv96_vote rev num _ _ v1 h1 n1]
  have hk0 : Dict.keys (Dict.set ([] : Dict (Option Str) Int) v0.cand v0.rank) = [v0.cand] := rfl
  rw [hk0]
  unfold picks arrowLine
  by_cases c1 : v1.cand ≠ none ∧ v1.cand ∉ [v0.cand]
  · rw [if_pos c1, ok_bind, e2, ok_bind, csv96_vote rev num _ _ v2 h2 n2]
    have hk1 : Dict.keys (Dict.set (Dict.set ([] : Dict (Option Str) Int) v0.cand v0.rank) v1.cand v1.rank) = [v0.cand, v1.cand] := by
      rw [Dict.keys_set, hk0, if_neg c1.2]; rfl
    rw [hk1]
    simp only [List.mem_cons, List.not_mem_nil, or_false] at c1
    by_cases c2 : v2.cand ≠ none ∧ v2.cand ∉ [v0.cand, v1.cand]
    · rw [if_pos c2]
      simp only [List.mem_cons, List.not_mem_nil, or_false, not_or] at c2
      have : ¬ (v2.cand == v1.cand) = true := by simpa using c2.2.2
      simp [c1, c2, List.eraseDups_cons, this, List.intercalate, ok_bind]
    · rw [if_neg c2]
      simp only [List.mem_cons, List.not_mem_nil, or_false, not_or, not_and, not_not] at c2
      by_cases z : v2.cand ≠ none ∧ v2.cand ≠ v0.cand
      · have e : v2.cand = v1.cand := c2 z.1 z.2
        simp [c1, e, List.eraseDups_cons, List.intercalate, ok_bind]
      · rw [List.filter_cons_of_pos (by simpa using c1), List.filter_cons_of_neg (by simpa using z)]
        simp [List.eraseDups_cons, List.intercalate, ok_bind]
  · rw [if_neg c1, ok_bind, e2, ok_bind, csv96_vote rev num _ _ v2 h2 n2, hk0]
    have c1' : ¬ (v1.cand ≠ none ∧ v1.cand ≠ v0.cand) := by simpa using c1
    rw [List.filter_cons_of_neg (by simpa using c1')]
    by_cases c2 : v2.cand ≠ none ∧ v2.cand ∉ [v0.cand]
    · rw [if_pos c2]
      have c2' : v2.cand ≠ none ∧ v2.cand ≠ v0.cand := by simpa using c2
      rw [List.filter_cons_of_pos (by simpa using c2')]
      simp [List.eraseDups_cons, List.intercalate, ok_bind]
    · rw [if_neg c2]
      have c2' : ¬ (v2.cand ≠ none ∧ v2.cand ≠ v0.cand) := by simpa using c2
      rw [List.filter_cons_of_neg (by simpa using c2')]
      simp [List.intercalate, ok_bind]

/-- C87, 1996 format (partial: every ballot must have at least three lines, of which the first three are shown, and the
lookup file must be plain).  The candidates are listed with their numbers, and each ballot, in order, is a line of numbers
separated by `>`: the candidate of its first line (0 for nobody) and those of the second and third line that are
new. -/
theorem C87_csv96_partial (rs : List MasterRec) (ls : List ImgLine) (hr : ∀ r ∈ rs, r.Ok) (hl : ∀ l ∈ ls, l.Ok) (a : SfArgs)
    (hf : a.fmt = c!"csv96") (hi : a.imagelines = false)
    (ha : a.contest ≠ some []) (contest : Str) (hc : contestFor a.contest rs = some contest) (hex : ∃ l ∈ ls, l.contest = contest)
    (hk : ∀ l ∈ ls, l.contest = contest → UsableLine rs l) (hp : PlainPool rs)
    (groups : List (List ImgLine)) (hg : IsRuns (contestLines contest ls) groups) (h3 : ∀ g ∈ groups, 3 ≤ g.length) :
    ∃ out candLines ballotLines, sfMain a (masterText rs) (imageText ls) = .ok out ∧
      SfOut.text a out = some ((candLines ++ ballotLines).flatMap (fun l => l ++ ['\n'])) ∧
      candLines = ((candidateRecs rs).map (fun r => strip r.desc)).map (fun n => natStr (nameNumber rs (some n)) ++ c!", " ++ n) ∧
      List.Forall₂ (fun (g : List ImgLine) (line : Str) => ∃ l0 l1 l2 t, g = l0 :: l1 :: l2 :: t ∧
        line = arrowLine ((picks (candName rs l0.cand) (candName rs l1.cand) (candName rs l2.cand)).map (nameNumber rs)))
        groups ballotLines := by
  obtain ⟨p1, p2, p3, p4⟩ := hp
  have hg' := isRuns_eq _ _ hg
  subst hg'
  obtain ⟨pool, e1, e2, e3, e4⟩ := sfMain_ballots hr hl a.contest ha hc hex hk
  have hpool := sfPool_plain hr [(c!"0000000", none)] a.contest ha (by
    show ([c!"0000000"] ++ (candidateRecs rs).map MasterRec.id).Nodup
    rw [List.singleton_append, List.nodup_cons]
    exact ⟨p2, p1⟩)
  have e2' : (rs.map masterRow).foldlM sfPoolStep ([(c!"0000000", none)], a.contest) = .ok (pool, some contest) := e2
  rw [e2'] at hpool
  have hpool1 : pool = (c!"0000000", none) :: ((candidateRecs rs).map (fun r => (r.id, strip r.desc))).map (fun c : Str × Str => (c.1, some c.2)) := by
    have := congrArg (fun x : Except PyErr (Dict Str (Option Str) × Option Str) => match x with | .ok p => p.1 | .error _ => []) hpool
    simp only at this
    rw [this, List.map_map]
    rfl
  have hnames : ((candidateRecs rs).map (fun r => (r.id, strip r.desc))).map Prod.snd = (candidateRecs rs).map (fun r => strip r.desc) := by
    rw [List.map_map]; rfl
  obtain ⟨s1, s2⟩ := csv96Cands_spec ((candidateRecs rs).map (fun r => (r.id, strip r.desc))) 1 (Dict.set [] none 0) (by
    intro c hc e
    obtain ⟨r, hr, rfl⟩ := List.mem_map.1 hc
    exact p4 (List.mem_map.2 ⟨r, hr, e⟩)) (by rw [hnames]; exact p3)
  have hc96 : csv96Cands pool 0 [] = csv96Cands (((candidateRecs rs).map (fun r => (r.id, strip r.desc))).map (fun c : Str × Str => (c.1, some c.2))) 1 (Dict.set [] none 0) := by
    rw [hpool1]; rfl
  rw [← hc96] at s1 s2
  have hnum : ∀ l, Dict.getE (csv96Cands pool 0 []).2 (candName rs l) = .ok (nameNumber rs (candName rs l)) ∧ candName rs l ≠ some [] := by
    intro l
    constructor
    · apply Dict.getE_of_get?
      rw [s2]
      cases hcn : candName rs l with
      | none => rfl
      | some n =>
        simp only [hnames]
        rw [if_pos (candName_mem hcn)]
        show some (1 + _) = some (_ + 1)
        rw [Nat.add_comm]
    · intro e
      exact p4 (candName_mem e)
  have hball : ∀ g ∈ runsOf (contestLines contest ls), ∃ line : Str,
      csv96Ballot (csv96Cands pool 0 []).2 (some (runBallot rs g.1 g.2)) = .ok (line ++ ['\n']) ∧
      ∃ l0 l1 l2 t, grp g = l0 :: l1 :: l2 :: t ∧
        line = arrowLine ((picks (candName rs l0.cand) (candName rs l1.cand) (candName rs l2.cand)).map (nameNumber rs)) := by
    intro g hgm
    have hlen := h3 (grp g) (List.mem_map.2 ⟨g, hgm, rfl⟩)
    match hgr : grp g, hlen with
    | x :: y :: z :: t, _ =>
      refine ⟨_, csv96_ballot _ (nameNumber rs) _ (lineVote rs x) (lineVote rs y) (lineVote rs z) (t.map (lineVote rs)) ?_ ?_, x, y, z, t, rfl, rfl⟩
      · have : (runBallot rs g.1 g.2).votes = (grp g).map (lineVote rs) := rfl
        rw [this, hgr]; rfl
      · intro v hv
        simp only [List.mem_cons, List.not_mem_nil, or_false] at hv
        rcases hv with rfl | rfl | rfl
        · exact hnum x.cand
        · exact hnum y.cand
        · exact hnum z.cand
  obtain ⟨lines, hlines⟩ := forall₂_of_forall _ hball
  have hdump : dumpCsv96 pool ((runsOf (contestLines contest ls)).map (fun g => some (runBallot rs g.1 g.2))) =
      .ok ((csv96Cands pool 0 []).1 ++ lines.flatMap (fun l => l ++ ['\n'])) := by
    unfold dumpCsv96
    simp only
    rw [mapM_forall₂ (r := lines.map (fun l => l ++ ['\n'])), ok_bind, List.flatMap_def]
    rw [List.forall₂_map_left_iff, List.forall₂_map_right_iff]
    exact List.Forall₂.imp (fun g d hd => hd.1) hlines
  refine ⟨a.emit ((csv96Cands pool 0 []).1 ++ lines.flatMap (fun l => l ++ ['\n'])),
    ((candidateRecs rs).map (fun r => strip r.desc)).map (fun n => natStr (nameNumber rs (some n)) ++ c!", " ++ n), lines, ?_, ?_, rfl, ?_⟩
  · unfold sfMain
    rw [e1, ok_bind, e2, ok_bind, e3, ok_bind, hf, hi]
    rw [if_neg (by decide), if_neg (by decide), if_neg (by decide), if_neg (by decide), if_pos rfl, if_neg (by decide)]
    simp only [e4, ok_bind, hdump]
  · rw [emit_text, List.flatMap_append, s1]
    congr 2
    rw [List.flatMap_map]
    have key : ∀ (cs : List MasterRec) (n : Nat) (pre : List Str), pre.length + 1 = n → ((pre ++ cs.map (fun r => strip r.desc))).Nodup →
        ((cs.map (fun r => (r.id, strip r.desc))).zipIdx n).flatMap (fun ci => natStr ci.2 ++ c!", " ++ ci.1.2 ++ ['\n']) =
        (cs.map (fun r => strip r.desc)).flatMap (fun x => natStr ((pre ++ cs.map (fun r => strip r.desc)).idxOf x + 1) ++ c!", " ++ x ++ ['\n']) := by
      intro cs
      induction cs with
      | nil => intros; rfl
      | cons r cs ih =>
        intro n pre hn hnd
        rw [List.map_cons, List.zipIdx_cons, List.flatMap_cons, List.map_cons, List.flatMap_cons]
        have hnot : strip r.desc ∉ pre := by
          intro hm
          rw [List.nodup_append] at hnd
          exact hnd.2.2 _ hm _ (by simp) rfl
        have := ih (n + 1) (pre ++ [strip r.desc]) (by simp; omega) (by simpa using hnd)
        rw [this]
        have e : (pre ++ strip r.desc :: cs.map (fun r => strip r.desc)).idxOf (strip r.desc) + 1 = n := by
          rw [List.idxOf_append_of_notMem hnot, List.idxOf_cons_self]
          omega
        simp only [e]
        simp
    have := key (candidateRecs rs) 1 [] rfl (by simpa using p3)
    rw [this]
    rfl
  · rw [List.forall₂_map_left_iff]
    exact List.Forall₂.imp (fun g d hd => hd.2) hlines

/-! ### C88: the options -/

theorem contestLines_idem (contest : Str) (ls : List ImgLine) : contestLines contest (contestLines contest ls) = contestLines contest ls := by
  unfold contestLines; rw [List.filter_filter]; simp

/-- C88, `--contestid` (partial: not for the abif and jabmod outputs, see `C88_contest_ignored`).  Only the lines of the
contest asked for (or of the first contest) matter: without the others the output is the same. -/
theorem C88_contest_partial (rs : List MasterRec) (ls : List ImgLine) (hr : ∀ r ∈ rs, r.Ok) (hl : ∀ l ∈ ls, l.Ok) (a : SfArgs)
    (hf : a.fmt = c!"json" ∨ a.fmt = c!"urlencoded" ∨ a.fmt = c!"csv96") (hi : a.imagelines = false)
    (ha : a.contest ≠ some []) (contest : Str) (hc : contestFor a.contest rs = some contest) (hex : ∃ l ∈ ls, l.contest = contest)
    (hk : ∀ l ∈ ls, l.contest = contest → UsableLine rs l) :
    sfMain a (masterText rs) (imageText ls) = sfMain a (masterText rs) (imageText (contestLines contest ls)) := by
  have hsub : ∀ l ∈ contestLines contest ls, l ∈ ls := fun l h => (List.mem_filter.1 h).1
  obtain ⟨pool, e1, e2, e3, e4⟩ := sfMain_ballots hr hl a.contest ha hc hex hk
  obtain ⟨pool', _, e2', _, e4'⟩ := sfMain_ballots hr (fun l h => hl l (hsub l h)) a.contest ha hc (ls := contestLines contest ls)
    (by obtain ⟨l, h1, h2⟩ := hex; exact ⟨l, List.mem_filter.2 ⟨h1, by simpa using h2⟩, h2⟩) (fun l h => hk l (hsub l h))
  have hpp : pool' = pool := by rw [e2] at e2'; cases e2'; rfl
  subst hpp
  rw [contestLines_idem] at e4'
  unfold sfMain
  simp only [e1, ok_bind, e2', e3, hi, Bool.false_eq_true, if_false, e4, e4']
  rcases hf with hf | hf | hf <;> rw [hf]
  · rfl
  · rw [if_neg (by decide), if_neg (by decide), if_neg (by decide), if_pos rfl,
      if_neg (by decide), if_neg (by decide), if_neg (by decide)]
  · rw [if_neg (by decide), if_neg (by decide), if_neg (by decide), if_neg (by decide), if_pos rfl,
      if_neg (by decide), if_neg (by decide), if_neg (by decide)]

/-- C88 is false for the abif and jabmod outputs: whatever contest is asked for, they are the same. -/
theorem C88_contest_ignored (rs : List MasterRec) (ballots : Str) (hr : ∀ r ∈ rs, r.Ok) (a : SfArgs)
    (hf : a.fmt = c!"abif" ∨ a.fmt = c!"jabmod") (c c' : Option Str) (hc : c ≠ some []) (hc' : c' ≠ some []) :
    sfMain { a with contest := c } (masterText rs) ballots = sfMain { a with contest := c' } (masterText rs) ballots := by
  obtain ⟨pool, e2, _⟩ := sfPool_fold hr [(c!"0000000", none)] c hc
  obtain ⟨pool', e2', _⟩ := sfPool_fold hr [(c!"0000000", none)] c' hc'
  have e2 : sfPoolFor c (rs.map masterRow) = .ok (pool, c.or (chosenContest rs)) := e2
  have e2' : sfPoolFor c' (rs.map masterRow) = .ok (pool', c'.or (chosenContest rs)) := e2'
  unfold sfMain
  simp only [readFileRows_master hr, ok_bind, e2, e2', readFieldspec_image]
  rcases hf with hf | hf <;> rw [hf]
  · rw [if_neg (by decide), if_pos rfl, if_neg (by decide), if_pos rfl]; rfl
  · rw [if_neg (by decide), if_neg (by decide), if_pos rfl, if_neg (by decide), if_neg (by decide), if_pos rfl]; rfl

/-- C88, `-o` (partial: not for the abif and jabmod outputs, see `C88_outfile_ignored`).  For all files: with `-o` nothing
is printed and the file holds what is printed without it. -/
theorem C88_outfile_partial (a : SfArgs) (master ballots : Str) (hf : a.fmt ≠ c!"abif") (hf' : a.fmt ≠ c!"jabmod") :
    sfMain { a with outfile := true } master ballots =
      (sfMain { a with outfile := false } master ballots).map (fun o => ⟨[], some o.stdout⟩) := by
  unfold sfMain
  cases readFileRows masterSpec master with
  | error e => rfl
  | ok rows =>
    rw [ok_bind, ok_bind]
    simp only
    cases sfPoolFor a.contest rows with
    | error e => rfl
    | ok pc =>
      rw [ok_bind, ok_bind]
      cases readFieldspec imageSpec with
      | error e => rfl
      | ok fields =>
        rw [ok_bind, ok_bind, if_neg hf, if_neg hf']
        cases a.imagelines with
        | true =>
          simp only [if_true]
          cases (nlLines ballots).mapM (sfRecord fields) with
          | error e =>
            split
            · rfl
            · split
              · rfl
              · split <;> rfl
          | ok recs =>
            simp only [ok_bind]
            split
            · rfl
            · split
              · cases recs <;> rfl
              · split
                · cases recs <;> rfl
                · rfl
        | false =>
          simp only [Bool.false_eq_true, if_false]
          cases sfBallots fields pc.1 pc.2 (nlLines ballots) none with
          | error e =>
            split
            · rfl
            · split
              · rfl
              · split <;> rfl
          | ok bs =>
            simp only [ok_bind]
            split
            · rfl
            · split
              · cases dumpUrlencoded bs <;> rfl
              · split
                · cases dumpCsv96 pc.1 bs <;> rfl
                · rfl

/-- C88 is false for the abif and jabmod outputs: with `-o` they are printed all the same and the file is left empty. -/
theorem C88_outfile_ignored (a : SfArgs) (master ballots : Str) (hf : a.fmt = c!"abif" ∨ a.fmt = c!"jabmod") :
    sfMain { a with outfile := true } master ballots =
      (sfMain { a with outfile := false } master ballots).map (fun o => ⟨o.stdout, some []⟩) := by
  unfold sfMain
  cases readFileRows masterSpec master with
  | error e => rfl
  | ok rows =>
    rw [ok_bind, ok_bind]
    simp only
    cases sfPoolFor a.contest rows with
    | error e => rfl
    | ok pc =>
      rw [ok_bind, ok_bind]
      cases readFieldspec imageSpec with
      | error e => rfl
      | ok fields =>
        rw [ok_bind, ok_bind]
        rcases hf with hf | hf <;> rw [hf]
        · rw [if_neg (by decide), if_pos rfl, if_neg (by decide), if_pos rfl]
          cases sfConvert false master ballots with
          | error e => rfl
          | ok m =>
            rw [ok_bind, ok_bind]
            cases convertToAbif (if a.consolidate = true then consolidate m else m) <;> rfl
        · rw [if_neg (by decide), if_neg (by decide), if_pos rfl, if_neg (by decide), if_neg (by decide), if_pos rfl]
          cases sfConvert false master ballots <;> rfl

/-- what `--imagelines` shows of a line: its nine columns under their names -/
def imageObject (l : ImgLine) : Json :=
  .obj [(c!"Contest_Id", .str l.contest), (c!"Pref_Voter_Id", .str l.voter), (c!"Serial_Number", .str l.serial), (c!"Tally_Type_Id", .str l.tally),
    (c!"Precinct_Id", .str l.precinct), (c!"Vote_Rank", .str l.rank), (c!"Candidate_Id", .str l.cand), (c!"Over_Vote", .str l.over),
    (c!"Under_Vote", .str l.under)]

/-- C87, JSON output with `--imagelines`: one object per line of the image file, of all contests, in file order. -/
theorem C87_imagelines (rs : List MasterRec) (ls : List ImgLine) (hr : ∀ r ∈ rs, r.Ok) (hl : ∀ l ∈ ls, l.Ok) (a : SfArgs)
    (hf : a.fmt = c!"json") (hi : a.imagelines = true) (ha : a.contest ≠ some []) :
    ∃ out text, sfMain a (masterText rs) (imageText ls) = .ok out ∧ SfOut.text a out = some text ∧
      jsonLoads text = .ok (.arr (ls.map imageObject)) := by
  obtain ⟨pool, e2, _⟩ := sfPool_fold hr [(c!"0000000", none)] a.contest ha
  have e2 : sfPoolFor a.contest (rs.map masterRow) = .ok (pool, a.contest.or (chosenContest rs)) := e2
  have e3 : (ls.map ImgLine.text).mapM (sfRecord imgWidths) = .ok (ls.map imgRow) := by
    rw [List.mapM_map]
    exact mapM_ok (fun l h => sfRecord_image (hl l h))
  have e4 : (ls.map imgRow).map sfRowJson = ls.map imageObject := by
    rw [List.map_map]
    apply List.map_congr_left
    intro l _
    rfl
  refine ⟨a.emit (Json.arr (ls.map imageObject)).dumpsIndent, _, ?_, emit_text _ _, ?_⟩
  · unfold sfMain
    rw [readFileRows_master hr, ok_bind, e2, ok_bind, readFieldspec_image, ok_bind, hf, hi]
    rw [if_pos rfl, if_pos rfl, nlLines_image hl, e3, ok_bind, e4]
  · have := (C72_dumps (.arr (ls.map imageObject)) (by
      show DistinctKeysArr _
      rw [distinctArr_iff]
      intro e he
      obtain ⟨l, _, rfl⟩ := List.mem_map.1 he
      simp [imageObject, DistinctKeys, DistinctKeysObj]) [] [] blank_nil blank_nil).2
    simpa using this

/-- C87 is false for `--imagelines` with the other two record formats: as soon as the image file has a line, the program
ends in a KeyError, whatever the line says. -/
theorem C87_imagelines_refuted (rs : List MasterRec) (ls : List ImgLine) (hr : ∀ r ∈ rs, r.Ok) (hl : ∀ l ∈ ls, l.Ok) (a : SfArgs)
    (hf : a.fmt = c!"urlencoded" ∨ a.fmt = c!"csv96") (hi : a.imagelines = true) (ha : a.contest ≠ some []) (hls : ls ≠ []) :
    sfMain a (masterText rs) (imageText ls) = .error .keyError := by
  obtain ⟨pool, e2, _⟩ := sfPool_fold hr [(c!"0000000", none)] a.contest ha
  have e2 : sfPoolFor a.contest (rs.map masterRow) = .ok (pool, a.contest.or (chosenContest rs)) := e2
  have e3 : (ls.map ImgLine.text).mapM (sfRecord imgWidths) = .ok (ls.map imgRow) := by
    rw [List.mapM_map]
    exact mapM_ok (fun l h => sfRecord_image (hl l h))
  have e4 : (ls.map imgRow).isEmpty = false := by
    cases ls with
    | nil => exact absurd rfl hls
    | cons => rfl
  unfold sfMain
  rw [readFileRows_master hr, ok_bind, e2, ok_bind, readFieldspec_image, ok_bind, hi]
  rcases hf with hf | hf <;> rw [hf]
  · rw [if_neg (by decide), if_neg (by decide), if_neg (by decide), if_pos rfl, if_pos rfl, nlLines_image hl, e3, ok_bind, e4]
    rfl
  · rw [if_neg (by decide), if_neg (by decide), if_neg (by decide), if_neg (by decide), if_pos rfl, if_pos rfl, nlLines_image hl, e3, ok_bind, e4]
    rfl

/-- C87, abif and jabmod output, for arbitrary image files: what is printed is the model of the two texts (C47, C48), as abif
text, or as JSON text that reads back as that model; consolidated if asked. -/
theorem C87_model (rs : List MasterRec) (ballots : Str) (hr : ∀ r ∈ rs, r.Ok) (a : SfArgs) (ha : a.contest ≠ some []) (m m' : Jabmod)
    (hm : sfConvert false (masterText rs) ballots = .ok m) (hm' : m' = if a.consolidate then consolidate m else m) :
    (a.fmt = c!"abif" → ∀ s, convertToAbif m' = .ok s →
      ∃ out, sfMain a (masterText rs) ballots = .ok out ∧ out.stdout = s ++ c!"\n") ∧
    (a.fmt = c!"jabmod" → ∃ out, sfMain a (masterText rs) ballots = .ok out ∧ loadModel out.stdout = .ok m') := by
  obtain ⟨pool, e2, _⟩ := sfPool_fold hr [(c!"0000000", none)] a.contest ha
  have e2 : sfPoolFor a.contest (rs.map masterRow) = .ok (pool, a.contest.or (chosenContest rs)) := e2
  subst hm'
  constructor
  · intro hf s hs
    refine ⟨a.say (s ++ c!"\n"), ?_, rfl⟩
    unfold sfMain
    rw [readFileRows_master hr, ok_bind, e2, ok_bind, readFieldspec_image, ok_bind, hf]
    rw [if_neg (by decide), if_pos rfl, hm, ok_bind, hs, ok_bind]
  · intro hf
    refine ⟨a.say (dumpModel (if a.consolidate then consolidate m else m) ++ c!"\n"), ?_, ?_⟩
    · unfold sfMain
      rw [readFileRows_master hr, ok_bind, e2, ok_bind, readFieldspec_image, ok_bind, hf]
      rw [if_neg (by decide), if_neg (by decide), if_pos rfl, hm, ok_bind]
    · have hk : KeysOk (if a.consolidate then consolidate m else m) := by
        split
        · exact consolidate_keys (sf_keys hm)
        · exact sf_keys hm
      have := load_dump hk blank_nil (b := c!"\n") (by intro c hc; rw [List.mem_singleton.1 hc]; simp)
      simpa [SfArgs.say] using this

/-- C88, unknown output formats are refused. -/
theorem C88_format (a : SfArgs) (master ballots : Str) (o : SfOut) (h : sfMain a master ballots = .ok o) :
    a.fmt ∈ [c!"json", c!"abif", c!"jabmod", c!"urlencoded", c!"csv96"] := by
  unfold sfMain at h
  simp only [bind_ok] at h
  obtain ⟨rows, _, pc, _, fields, _, h⟩ := h
  by_contra hn
  simp only [List.mem_cons, List.not_mem_nil, or_false, not_or] at hn
  rw [if_neg hn.1, if_neg hn.2.1, if_neg hn.2.2.1, if_neg hn.2.2.2.1, if_neg hn.2.2.2.2] at h
  cases h

end

section
attribute [local instance] Uni.ascii
set_option maxRecDepth 40000

/-- two contests; voter 1 has four lines, voter 2 three, of which one names nobody and one repeats a name -/
def exSf3 : List ImgLine :=
  [exImg c!"0000020" c!"000000001" c!"001" c!"0000102", exImg c!"0000020" c!"000000001" c!"002" c!"0000101",
   exImg c!"0000020" c!"000000001" c!"003" c!"0000102", exImg c!"0000020" c!"000000001" c!"004" c!"0000103",
   exImg c!"0000021" c!"000000001" c!"001" c!"0000101", exImg c!"0000021" c!"000000001" c!"002" c!"0000102",
   exImg c!"0000021" c!"000000001" c!"003" c!"0000103",
   exImg c!"0000020" c!"000000002" c!"001" c!"0000000", exImg c!"0000020" c!"000000002" c!"002" c!"0000102",
   exImg c!"0000020" c!"000000002" c!"003" c!"0000102"]

def exSf3Master : List MasterRec := exSfMaster ++ [exMasterRec c!"Candidate" c!"0000103" c!"CY"]

/-- the runs of the first contest -/
def exSf3Runs : List (List ImgLine) := [exSf3.take 4, exSf3.drop 7]

/-- non-vacuity: the hypotheses of the theorems on well-formed files hold of the example -/
example : (∀ r ∈ exSf3Master, r.Ok) ∧ (∀ l ∈ exSf3, l.Ok) ∧ contestFor none exSf3Master = some c!"0000020" ∧
    (∃ l ∈ exSf3, l.contest = c!"0000020") ∧ (∀ l ∈ exSf3, l.contest = c!"0000020" → UsableLine exSf3Master l) ∧
    (∀ r ∈ exSf3Master, strip r.desc ≠ c!"None") ∧ PlainPool exSf3Master ∧ (∀ g ∈ exSf3Runs, 3 ≤ g.length) := by
  unfold MasterRec.Ok ImgLine.Ok UsableLine KnownCand PlainPool
  refine ⟨by decide +kernel, by decide +kernel, by decide +kernel, by decide +kernel, by decide +kernel, by decide +kernel,
    by decide +kernel, by decide +kernel⟩

example : IsRuns (contestLines c!"0000020" exSf3) exSf3Runs := by
  refine ⟨rfl, ?_, ?_⟩
  · intro g hg
    simp only [exSf3Runs, List.mem_cons, List.not_mem_nil, or_false] at hg
    rcases hg with rfl | rfl
    · exact ⟨by decide +kernel, c!"000000001", by decide +kernel⟩
    · exact ⟨by decide +kernel, c!"000000002", by decide +kernel⟩
  · intro i g h h1 h2
    match i with
    | 0 =>
      simp only [exSf3Runs, List.getElem?_cons_zero, Option.some.injEq, List.getElem?_cons_succ, Nat.zero_add] at h1 h2
      subst h1; subst h2
      decide +kernel
    | i + 1 => simp [exSf3Runs] at h2

/-- C87 is false of the program: voter 1's fourth choice is missing, and voter 2's line naming nobody is a vote for a
candidate called None. -/
theorem C87_refuted : sfMain { fmt := c!"urlencoded" } (masterText exSf3Master) (imageText exSf3) =
    .ok ⟨c!"BO+B=1&ANN=2\nNone=1&BO+B=2\n", none⟩ := by decide +kernel

/-- the same in the 1996 format -/
example : sfMain { fmt := c!"csv96" } (masterText exSf3Master) (imageText exSf3) =
    .ok ⟨c!"1, ANN\n2, BO B\n3, CY\n2>1\n0>2\n", none⟩ := by decide +kernel

/-- all lines, as JSON -/
example : ((sfMain { fmt := c!"json", imagelines := true } (masterText exSf3Master) (imageText (exSf3.take 1))).toOption.map SfOut.stdout).isSome = true := by
  decide +kernel

/-- all lines, in the 1996 format -/
example : sfMain { fmt := c!"csv96", imagelines := true } (masterText exSf3Master) (imageText (exSf3.take 1)) = .error .keyError := by
  decide +kernel

/-- the model printed as abif -/
example : ((sfConvert false (masterText exSf3Master) (imageText exSf3)).toOption.bind (fun m => (convertToAbif m).toOption)).isSome = true := by
  decide +kernel

/-- two lines on a ballot -/
example : sfMain { fmt := c!"urlencoded" } (masterText exSf3Master) (imageText (exSf3.take 2)) = .error .indexError := by decide +kernel

/-- C88: asked for contest 21, the urlencoded output shows it but the abif output shows the ballots of contest 20;
with `-o` the file of the abif output is empty. -/
theorem C88_refuted :
    sfMain { fmt := c!"urlencoded", contest := some c!"0000021" } (masterText exSf3Master) (imageText exSf3) =
      .ok ⟨c!"ANN=1&BO+B=2&CY=3\n", none⟩ ∧
    sfMain { fmt := c!"abif", contest := some c!"0000021" } (masterText exSf3Master) (imageText exSf3) =
      sfMain { fmt := c!"abif", contest := some c!"0000020" } (masterText exSf3Master) (imageText exSf3) ∧
    (sfMain { fmt := c!"abif", outfile := true } (masterText exSf3Master) (imageText exSf3)).toOption.map SfOut.file = some (some []) := by
  refine ⟨by decide +kernel, by decide +kernel, by decide +kernel⟩

end
end Verif.Props
