/-
C49: import of Electowidget files.
-/
import Verif.Model.Widj
import Verif.Lib.Preflib

set_option linter.unusedSimpArgs false
set_option linter.unusedSectionVars false

namespace Verif.Props
open Verif

/-- A well-formed widj ballot: a dict with a `qty` and a `vote` dict. -/
def IsWidjBallot (b : Json) (qty : Json) (votes : Dict Str Json) : Prop :=
  ∃ d : Dict Str Json, b = .obj d ∧ d.get? c!"qty" = some qty ∧ d.get? c!"vote" = some (.obj votes) ∧ votes.WF

/-- A well-formed widj object: `cands` lists the candidate tokens with their display names and `ballots` the
quantities and votes. -/
def IsWidj (w : Json) (fields : Dict Str Json) (cands : Dict Str Json) (ballots : List (Json × Dict Str Json)) : Prop :=
  w = .obj fields ∧ fields.WF ∧
  (∃ cs : Dict Str Json, fields.get? c!"candidates" = some (.obj cs) ∧ cands.WF ∧
    List.Forall₂ (fun (e : Str × Json) (c : Str × Json) =>
      e.1 = c.1 ∧ ∃ d : Dict Str Json, e.2 = .obj d ∧ d.get? c!"display_name" = some c.2) cs cands) ∧
  (∃ bs : List Json, fields.get? c!"inline_ballots" = some (.arr bs) ∧
    List.Forall₂ (fun (b : Json) (x : Json × Dict Str Json) => IsWidjBallot b x.1 x.2) bs ballots)

/-- C49 is false of the program: `convert_widj_to_jabmod` raises `NameError` on every input, because
`ABIF_VERSION` is not defined in its module. -/
theorem C49_refuted (w : Json) : convertWidj w = .error .nameError := rfl

theorem foldl_set_fresh {α : Type} (l : Dict Str α) (d : Dict Str α) (h : (Dict.keys (d ++ l)).Nodup) :
    l.foldl (fun d kv => Dict.set d kv.1 kv.2) d = d ++ l := by
  induction l generalizing d with
  | nil => simp
  | cons kv l ih =>
    simp only [List.foldl_cons]
    have hk : kv.1 ∉ Dict.keys d := by
      simp only [Dict.keys, List.map_append, List.map_cons] at h
      rw [List.nodup_append] at h
      intro hm
      exact h.2.2 _ hm _ (by simp) rfl
    rw [Dict.set_of_not_mem _ hk, ih]
    · simp
    · simpa using h

theorem get?_foldl_set {α : Type} (l : Dict Str α) (d : Dict Str α) (h : (Dict.keys l).Nodup) (k : Str) :
    Dict.get? (l.foldl (fun d kv => Dict.set d kv.1 kv.2) d) k = (Dict.get? l k).or (Dict.get? d k) := by
  induction l generalizing d with
  | nil => rfl
  | cons kv l ih =>
    simp only [Dict.keys, List.map_cons, List.nodup_cons] at h
    simp only [List.foldl_cons]
    rw [ih _ h.2, Dict.get?_set]
    obtain ⟨k', v⟩ := kv
    simp only [Dict.get?]
    by_cases hk : k' = k
    · subst hk
      have : Dict.get? l k' = none := Dict.get?_eq_none.2 h.1
      simp [this]
    · simp [hk]

theorem get?_filter_keys {α : Type} (l : Dict Str α) (p : Str → Bool) (k : Str) :
    Dict.get? (l.filter fun kv => p kv.1) k = if p k then Dict.get? l k else none := by
  induction l with
  | nil => simp [Dict.get?]
  | cons kv l ih =>
    obtain ⟨k', v⟩ := kv
    by_cases hp : p k'
    · rw [List.filter_cons_of_pos (by exact hp)]
      simp only [Dict.get?]
      by_cases hk : k' = k
      · subst hk; simp [hp]
      · simp [hk, ih]
    · rw [List.filter_cons_of_neg (by simpa using hp), ih]
      simp only [Dict.get?]
      by_cases hk : k' = k
      · subst hk; simp [hp]
      · simp [hk]

theorem widjCands_ok {cs cands : List (Str × Json)} (d : Dict Str Json)
    (h : List.Forall₂ (fun (e : Str × Json) (c : Str × Json) =>
      e.1 = c.1 ∧ ∃ d : Dict Str Json, e.2 = .obj d ∧ d.get? c!"display_name" = some c.2) cs cands) :
    widjCands cs d = .ok (cands.foldl (fun d kv => Dict.set d kv.1 kv.2) d) := by
  induction h generalizing d with
  | nil => rfl
  | @cons e c cs cands he hr ih =>
    obtain ⟨k, info⟩ := e
    obtain ⟨k', n⟩ := c
    obtain ⟨h1, dd, h2, h3⟩ := he
    simp only at h1 h2 h3
    subst h1 h2
    unfold widjCands
    rw [show Json.index (.obj dd) c!"display_name" = .ok n from Dict.getE_of_get? h3]
    exact ih _

theorem widjBallots_ok {bs : List Json} {ballots : List (Json × Dict Str Json)}
    (h : List.Forall₂ (fun (b : Json) (x : Json × Dict Str Json) => IsWidjBallot b x.1 x.2) bs ballots) :
    bs.mapM widjBallot = .ok (ballots.map fun x => { qty := x.1, prefs := x.2 }) := by
  induction h with
  | nil => rfl
  | @cons b x bs ballots hb _ ih =>
    obtain ⟨d, rfl, hq, hv, hw⟩ := hb
    have : widjBallot (.obj d) = .ok { qty := x.1, prefs := x.2 } := by
      unfold widjBallot
      rw [show Json.index (.obj d) c!"qty" = .ok x.1 from Dict.getE_of_get? hq]
      rw [show Json.index (.obj d) c!"vote" = .ok (.obj x.2) from Dict.getE_of_get? hv]
      show Except.ok _ = Except.ok _
      rw [foldl_set_fresh x.2 [] (by simpa [Dict.WF] using hw)]
      rfl
    rw [List.mapM_cons, this, ih]
    rfl

/-- the fields of a widj file that are not metadata: display settings and the parts converted otherwise -/
def notMetadata : List Str :=
  [c!"display_parameters", c!"display_results", c!"display_ballots", c!"allow_voting",
   c!"ballot_type", c!"max_rating", c!"min_rating", c!"count_subpage_ballots", c!"count_inline_ballots",
   c!"election_methods", c!"inline_ballot_type", c!"candidates", c!"inline_ballots"]

/-- C49, for a module in which `ABIF_VERSION` were defined: the metadata are the version and the fields of the
file that are not pruned (a `version` field of the file wins), the candidates map each token to its display
name, and there is one voteline per inline ballot, in order, with its quantity and its ratings. -/
theorem C49_partial (globals : Dict Str Json) (version : Json) (hv : globals.get? c!"ABIF_VERSION" = some version)
    (w : Json) (fields cands : Dict Str Json) (ballots : List (Json × Dict Str Json))
    (h : IsWidj w fields cands ballots) :
    ∃ r, convertWidjIn globals w = .ok r ∧
      (∀ f, f ∉ notMetadata → f ≠ c!"version" → r.metadata.get? f = fields.get? f) ∧
      (∀ f, f ∈ notMetadata → r.metadata.get? f = none) ∧
      r.metadata.get? c!"version" = some ((fields.get? c!"version").getD version) ∧
      r.candidates = cands ∧
      r.votelines = ballots.map (fun x => { qty := x.1, prefs := x.2 }) := by
  rw [show notMetadata = prunedWidjFields from rfl]
  obtain ⟨rfl, hwf, ⟨cs, hc, hcw, hcs⟩, ⟨bs, hb, hbs⟩⟩ := h
  have hI : Json.index (.obj fields) c!"candidates" = .ok (.obj cs) := Dict.getE_of_get? hc
  have hB : Json.index (.obj fields) c!"inline_ballots" = .ok (.arr bs) := Dict.getE_of_get? hb
  have hM : ∀ f, Dict.get? ((fields.filter fun kv => !prunedWidjFields.contains kv.1).foldl
      (fun d kv => Dict.set d kv.1 kv.2) [(c!"version", version)]) f =
      if f ∈ prunedWidjFields then (if c!"version" = f then some version else none)
      else (Dict.get? fields f).or (if c!"version" = f then some version else none) := by
    intro f
    rw [get?_foldl_set _ _ (by
      unfold Dict.WF at hwf
      unfold Dict.keys at hwf ⊢
      exact hwf.sublist (List.filter_sublist.map _))]
    rw [get?_filter_keys fields (fun k => !prunedWidjFields.contains k)]
    by_cases hp : f ∈ prunedWidjFields
    · simp [hp, Dict.get?]
    · simp [hp, Dict.get?]
  refine ⟨{ metadata := (fields.filter fun kv => !prunedWidjFields.contains kv.1).foldl (fun d kv => Dict.set d kv.1 kv.2) [(c!"version", version)],
            candidates := cands, votelines := ballots.map (fun x => { qty := x.1, prefs := x.2 }) }, ?_, ?_, ?_, ?_, rfl, rfl⟩
  · unfold convertWidjIn widjBallots
    rw [hv, hI, hB]
    simp only [ok_bind, Json.items, Json.elems]
    rw [widjCands_ok [] hcs, widjBallots_ok hbs, foldl_set_fresh cands [] (by simpa [Dict.WF] using hcw)]
    rfl
  · intro f hf hfv
    rw [hM, if_neg hf, if_neg (fun e => hfv e.symm), Option.or_none]
  · intro f hf
    rw [hM, if_pos hf, if_neg]
    rintro rfl
    exact absurd hf (by decide +kernel)
  · rw [hM, if_neg (by decide +kernel), if_pos rfl]
    cases Dict.get? fields c!"version" <;> rfl

/-- Witness for `C49_partial`: a file with an extra field, two candidates and two ballots. -/
example : IsWidj
    (.obj [(c!"title", .str c!"T"), (c!"candidates", .obj [(c!"A", .obj [(c!"display_name", .str c!"Amy")]), (c!"B", .obj [(c!"display_name", .str c!"Bo")])]),
      (c!"inline_ballots", .arr [.obj [(c!"qty", .int 3), (c!"vote", .obj [(c!"A", .int 5)])], .obj [(c!"qty", .int 2), (c!"vote", .obj [])]])])
    [(c!"title", .str c!"T"), (c!"candidates", .obj [(c!"A", .obj [(c!"display_name", .str c!"Amy")]), (c!"B", .obj [(c!"display_name", .str c!"Bo")])]),
      (c!"inline_ballots", .arr [.obj [(c!"qty", .int 3), (c!"vote", .obj [(c!"A", .int 5)])], .obj [(c!"qty", .int 2), (c!"vote", .obj [])]])]
    [(c!"A", .str c!"Amy"), (c!"B", .str c!"Bo")]
    [(.int 3, [(c!"A", .int 5)]), (.int 2, [])] := by
  refine ⟨rfl, by unfold Dict.WF Dict.keys; decide +kernel, ⟨_, rfl, by unfold Dict.WF Dict.keys; decide +kernel, ?_⟩, ⟨_, rfl, ?_⟩⟩
  · exact .cons ⟨rfl, _, rfl, rfl⟩ (.cons ⟨rfl, _, rfl, rfl⟩ .nil)
  · exact .cons ⟨_, rfl, rfl, rfl, by unfold Dict.WF Dict.keys; decide +kernel⟩ (.cons ⟨_, rfl, rfl, rfl, by unfold Dict.WF Dict.keys; decide +kernel⟩ .nil)

/-- A ballot that cannot be read, and the exception it raises. -/
inductive BadBallot : Json → PyErr → Prop
  | notObject (b : Json) (h : ∀ d, b ≠ .obj d) : BadBallot b .typeError
  | noQty (d : Dict Str Json) (h : d.get? c!"qty" = none) : BadBallot (.obj d) .keyError
  | noVote (d : Dict Str Json) (q : Json) (hq : d.get? c!"qty" = some q) (h : d.get? c!"vote" = none) :
      BadBallot (.obj d) .keyError
  | voteNotObject (d : Dict Str Json) (q v : Json) (hq : d.get? c!"qty" = some q) (h : d.get? c!"vote" = some v)
      (hv : ∀ d, v ≠ .obj d) : BadBallot (.obj d) .attributeError

/-- A value that a `for` loop rejects. -/
def NotIterable (v : Json) : Prop := (∀ l, v ≠ .arr l) ∧ (∀ d, v ≠ .obj d) ∧ (∀ s, v ≠ .str s)

/-- `index` on anything but an object. -/
theorem index_not_obj {v : Json} (h : ∀ d, v ≠ .obj d) (k : Str) : v.index k = .error .typeError := by
  cases v <;> first | rfl | exact absurd rfl (h _)

theorem items_not_obj {v : Json} (h : ∀ d, v ≠ .obj d) : v.items = .error .attributeError := by
  cases v <;> first | rfl | exact absurd rfl (h _)

theorem elems_not_iterable {v : Json} (h : NotIterable v) : v.elems = .error .typeError := by
  cases v <;> first | rfl | exact absurd rfl (h.1 _) | exact absurd rfl (h.2.1 _) | exact absurd rfl (h.2.2 _)

theorem badBallot_err {b : Json} {e : PyErr} (h : BadBallot b e) : widjBallot b = .error e := by
  cases h with
  | notObject _ h => unfold widjBallot; rw [index_not_obj h]; rfl
  | noQty d h => unfold widjBallot Json.index; simp only [show Dict.getE d _ = .error .keyError by unfold Dict.getE; rw [h]]; rfl
  | noVote d q hq h => unfold widjBallot Json.index; simp only [Dict.getE_of_get? hq, show Dict.getE d _ = .error .keyError by unfold Dict.getE; rw [h]]; rfl
  | voteNotObject d q v hq h hv =>
    unfold widjBallot Json.index
    simp only [Dict.getE_of_get? hq, Dict.getE_of_get? h, ok_bind, items_not_obj hv]; rfl

theorem mapM_bad {α β : Type} {f : α → Except PyErr β} {pre post : List α} {a : α} {l : List β} {e : PyErr}
    (hp : pre.mapM f = .ok l) (h : f a = .error e) : (pre ++ a :: post).mapM f = .error e := by
  rw [List.mapM_append, hp]
  show (do let r ← (a :: post).mapM f; pure (l ++ r)) = _
  rw [List.mapM_cons, h]; rfl

theorem widjCands_bad {pre post : List (Str × Json)} {cands : List (Str × Json)} {k : Str} {info : Json} {e : PyErr}
    (d : Dict Str Json)
    (h : List.Forall₂ (fun (e : Str × Json) (c : Str × Json) =>
      e.1 = c.1 ∧ ∃ d : Dict Str Json, e.2 = .obj d ∧ d.get? c!"display_name" = some c.2) pre cands)
    (he : info.index c!"display_name" = .error e) :
    widjCands (pre ++ (k, info) :: post) d = .error e := by
  induction h generalizing d with
  | nil => rw [List.nil_append]; unfold widjCands; rw [he]; rfl
  | @cons e c cs cands hc hr ih =>
    obtain ⟨k, info⟩ := e
    obtain ⟨h1, dd, h2, h3⟩ := hc
    simp only at h1 h2 h3
    subst h2
    rw [List.cons_append]
    unfold widjCands
    rw [show Json.index (.obj dd) c!"display_name" = .ok c.2 from Dict.getE_of_get? h3]
    exact ih _

/-- C49, the files that cannot be read, for a module in which `ABIF_VERSION` were defined: a file that is not an
object is a `TypeError`; without `candidates` it is a `KeyError`, with candidates that are not an object an
`AttributeError`; the first candidate whose entry is not an object is a `TypeError`, the first without a display
name a `KeyError`; once the candidates are read, a file without `inline_ballots` is a `KeyError`, with ballots
that cannot be looped over a `TypeError`, and otherwise the first bad ballot decides. -/
theorem C49_malformed (globals : Dict Str Json) (version : Json) (hv : globals.get? c!"ABIF_VERSION" = some version)
    (fields : Dict Str Json) :
    (∀ w : Json, (∀ d, w ≠ .obj d) → convertWidjIn globals w = .error .typeError) ∧
    (fields.get? c!"candidates" = none → convertWidjIn globals (.obj fields) = .error .keyError) ∧
    (∀ c : Json, fields.get? c!"candidates" = some c → (∀ d, c ≠ .obj d) →
      convertWidjIn globals (.obj fields) = .error .attributeError) ∧
    (∀ (cs cands pre post : Dict Str Json), fields.get? c!"candidates" = some (.obj cs) →
      List.Forall₂ (fun (e : Str × Json) (c : Str × Json) =>
        e.1 = c.1 ∧ ∃ d : Dict Str Json, e.2 = .obj d ∧ d.get? c!"display_name" = some c.2) pre cands →
      (∀ (k : Str) (info : Json), cs = pre ++ (k, info) :: post → (∀ d, info ≠ .obj d) →
        convertWidjIn globals (.obj fields) = .error .typeError) ∧
      (∀ (k : Str) (d : Dict Str Json), cs = pre ++ (k, .obj d) :: post → d.get? c!"display_name" = none →
        convertWidjIn globals (.obj fields) = .error .keyError) ∧
      (cs = pre →
        (fields.get? c!"inline_ballots" = none → convertWidjIn globals (.obj fields) = .error .keyError) ∧
        (∀ v : Json, fields.get? c!"inline_ballots" = some v → NotIterable v →
          convertWidjIn globals (.obj fields) = .error .typeError) ∧
        (∀ (bpre bpost : List Json) (b : Json) (e : PyErr) (ballots : List (Json × Dict Str Json)),
          fields.get? c!"inline_ballots" = some (.arr (bpre ++ b :: bpost)) →
          List.Forall₂ (fun (b : Json) (x : Json × Dict Str Json) => IsWidjBallot b x.1 x.2) bpre ballots →
          BadBallot b e → convertWidjIn globals (.obj fields) = .error e))) := by
  have hnone : ∀ {d : Dict Str Json} {k : Str}, d.get? k = none → Json.index (.obj d) k = .error .keyError := by
    intro d k h
    show Dict.getE d k = _
    unfold Dict.getE; rw [h]
  have hsome : ∀ {d : Dict Str Json} {k : Str} {v : Json}, d.get? k = some v → Json.index (.obj d) k = .ok v :=
    fun h => Dict.getE_of_get? h
  refine ⟨?_, ?_, ?_, ?_⟩
  · intro w hw
    unfold convertWidjIn; rw [hv]
    cases w <;> first | rfl | exact absurd rfl (hw _)
  · intro h
    unfold convertWidjIn; rw [hv, hnone h]; rfl
  · intro c h hc
    unfold convertWidjIn; rw [hv, hsome h]
    simp only [ok_bind]
    rw [items_not_obj hc]; rfl
  · intro cs cands pre post hc hp
    refine ⟨?_, ?_, ?_⟩
    · intro k info e hi
      subst e
      unfold convertWidjIn; rw [hv, hsome hc]
      simp only [ok_bind, Json.items]
      rw [widjCands_bad [] hp (index_not_obj hi _)]; rfl
    · intro k d e hd
      subst e
      unfold convertWidjIn; rw [hv, hsome hc]
      simp only [ok_bind, Json.items]
      rw [widjCands_bad [] hp (hnone hd)]; rfl
    · intro e
      subst e
      refine ⟨?_, ?_, ?_⟩
      · intro h
        unfold convertWidjIn widjBallots; rw [hv, hsome hc, hnone h]
        simp only [ok_bind, Json.items]
        rw [widjCands_ok [] hp]; rfl
      · intro v h hn
        unfold convertWidjIn widjBallots; rw [hv, hsome hc, hsome h]
        simp only [ok_bind, Json.items]
        rw [widjCands_ok [] hp, elems_not_iterable hn]; rfl
      · intro bpre bpost b e ballots h hb hbad
        unfold convertWidjIn widjBallots; rw [hv, hsome hc, hsome h]
        simp only [ok_bind, Json.items, Json.elems]
        rw [widjCands_ok [] hp, mapM_bad (widjBallots_ok hb) (badBallot_err hbad)]; rfl

/-- Witness for `C49_malformed`: one good candidate and ballot, then a ballot whose vote is a list. -/
example : BadBallot (.obj [(c!"qty", .int 2), (c!"vote", .arr [])]) .attributeError :=
  .voteNotObject _ (.int 2) (.arr []) rfl rfl (fun _ => nofun)
example : NotIterable .null := ⟨fun _ => nofun, fun _ => nofun, fun _ => nofun⟩

end Verif.Props
