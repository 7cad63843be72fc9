/-
Jabmod documents (C111).
-/
import Verif.Spec.ModelDoc
import Verif.Props.FetchSpec
import Verif.Props.Json

set_option linter.unusedSectionVars false

namespace Verif.Props
open Spec

theorem optStrOf_iff (l : List (Str × Json)) (k : Str) (x : Option Str) :
    optStrOf (Dict.get? l k) = .ok x ↔ SaysText (.obj l) k x := by
  cases x with
  | none =>
    simp only [SaysText, member_get]
    cases Dict.get? l k with
    | none => simp [optStrOf]
    | some v => cases v <;> simp [optStrOf]
  | some x =>
    simp only [SaysText, member_get]
    cases Dict.get? l k with
    | none => simp [optStrOf]
    | some v => cases v <;> simp [optStrOf]

theorem commentOf_iff (l : List (Str × Json)) (x : Option Str) :
    commentOf (Dict.get? l c!"comment") = .ok x ↔ MaySayText (.obj l) c!"comment" x := by
  cases x with
  | none =>
    simp only [MaySayText, member_get]
    cases Dict.get? l c!"comment" with
    | none => simp [commentOf, optStrOf]
    | some v => cases v <;> simp [commentOf, optStrOf]
  | some x =>
    simp only [MaySayText, member_get]
    cases Dict.get? l c!"comment" with
    | none => simp [commentOf, optStrOf]
    | some v => cases v <;> simp [commentOf, optStrOf]

theorem optText_iff (o : Option Json) (x : Option Str) : optStrOf o = .ok x ↔ Holds IsText o x := by
  cases o with
  | none => cases x <;> simp [optStrOf, Holds]
  | some v => cases v <;> cases x <;> simp [optStrOf, Holds, IsText]

theorem optIntOf_iff (o : Option Json) (x : Option Int) : optIntOf o = .ok x ↔ Holds IsWhole o x := by
  cases o with
  | none => cases x <;> simp [optIntOf, Holds]
  | some v => cases v <;> cases x <;> simp [optIntOf, Holds, IsWhole]

theorem isRating_iff (j : Json) (r : RVal) : IsRating j r ↔
    (∃ i, j = .int i ∧ r = .int i) ∨ (∃ s, j = .str s ∧ r = .str s) ∨ (j = .null ∧ r = .null) := by
  constructor
  · rintro (⟨i⟩ | ⟨s⟩ | _)
    · exact .inl ⟨i, rfl, rfl⟩
    · exact .inr (.inl ⟨s, rfl, rfl⟩)
    · exact .inr (.inr ⟨rfl, rfl⟩)
  · rintro (⟨i, rfl, rfl⟩ | ⟨s, rfl, rfl⟩ | ⟨rfl, rfl⟩)
    · exact .whole i
    · exact .text s
    · exact .nothing

theorem ratingOfJson_iff (o : Option Json) (x : Option RVal) : ratingOfJson o = .ok x ↔ Holds IsRating o x := by
  cases o with
  | none => cases x <;> simp [ratingOfJson, Holds]
  | some v => cases v <;> cases x <;> simp [ratingOfJson, Holds, isRating_iff, eq_comm]

theorem candNameOf_iff (j : Json) (x : Option Str) : candNameOf j = .ok x ↔ IsName j x := by
  have e : IsName j x ↔ (∃ s, j = .str s ∧ x = some s) ∨ (j = .null ∧ x = none) := by
    constructor
    · rintro (⟨s⟩ | _)
      · exact .inl ⟨s, rfl, rfl⟩
      · exact .inr ⟨rfl, rfl⟩
    · rintro (⟨s, rfl, rfl⟩ | ⟨rfl, rfl⟩)
      · exact .text s
      · exact .nothing
  rw [e]
  cases j <;> cases x <;> simp [candNameOf, eq_comm]

theorem mapM_each {α β : Type} {f : α → Except PyErr β} {R : α → β → Prop} (hf : ∀ a b, f a = .ok b ↔ R a b) (l : List α) (r : List β) :
    l.mapM f = .ok r ↔ Each R l r := by
  induction l generalizing r with
  | nil =>
    constructor
    · intro h; cases h; exact .nil
    · intro h; cases h; rfl
  | cons a l ih =>
    rw [List.mapM_cons]
    constructor
    · intro h
      obtain ⟨b, hb, h⟩ := bind_ok.1 h
      obtain ⟨bs, hbs, h⟩ := bind_ok.1 h
      cases h
      exact .cons ((hf a b).1 hb) ((ih bs).1 hbs)
    · intro h
      cases h with
      | cons h1 h2 =>
        rw [(hf _ _).2 h1, ok_bind, (ih _).2 h2, ok_bind]
        rfl

theorem prefOf_iff (j : Json) (p : Pref) : prefOf j = .ok p ↔ DescribesPref j p := by
  cases j with
  | obj l =>
    unfold prefOf
    simp only
    constructor
    · intro h
      obtain ⟨r, hr, h⟩ := bind_ok.1 h
      obtain ⟨k, hk, h⟩ := bind_ok.1 h
      obtain ⟨n, hn, h⟩ := bind_ok.1 h
      cases h
      refine ⟨⟨l, rfl⟩, ?_, ?_, ?_⟩
      · rw [member_get]; exact (ratingOfJson_iff _ _).1 hr
      · rw [member_get]; exact (optIntOf_iff _ _).1 hk
      · rw [member_get]; exact (optText_iff _ _).1 hn
    · rintro ⟨_, h1, h2, h3⟩
      rw [member_get] at h1 h2 h3
      rw [(ratingOfJson_iff _ _).2 h1, ok_bind, (optIntOf_iff _ _).2 h2, ok_bind, (optText_iff _ _).2 h3, ok_bind]
  | _ =>
    constructor
    · intro h; cases h
    · rintro ⟨⟨l, hl⟩, _⟩; cases hl

theorem pair_iff {α : Type} {f : Json → Except PyErr α} {R : Json → α → Prop} (hf : ∀ a b, f a = .ok b ↔ R a b) (x : Str × Json) (y : Str × α) :
    (do let n ← f x.2; .ok (x.1, n) : Except PyErr (Str × α)) = .ok y ↔ x.1 = y.1 ∧ R x.2 y.2 := by
  obtain ⟨k, j⟩ := x
  obtain ⟨k', a⟩ := y
  constructor
  · intro h
    obtain ⟨n, hn, h⟩ := bind_ok.1 h
    cases h
    exact ⟨rfl, (hf _ _).1 hn⟩
  · rintro ⟨h1, h2⟩
    simp only at h1 h2
    subst h1
    rw [(hf _ _).2 h2, ok_bind]

theorem prefsOf_iff (l : List (Str × Json)) (k : Str) (ps : Dict Str Pref) :
    prefsOf (Dict.get? l k) = .ok ps ↔ ∃ d, member k (.obj l) = some d ∧ Members DescribesPref d ps := by
  rw [member_get]
  cases Dict.get? l k with
  | none => simp [prefsOf]
  | some v =>
    cases v with
    | obj ms =>
      unfold prefsOf
      simp only
      have e := mapM_each (R := fun (x : Str × Json) (y : Str × Pref) => x.1 = y.1 ∧ DescribesPref x.2 y.2) (pair_iff prefOf_iff) ms ps
      constructor
      · intro h; exact ⟨_, rfl, ms, rfl, e.1 h⟩
      · rintro ⟨d, hd, ms', rfl, h⟩
        cases hd
        exact e.2 h
    | _ =>
      constructor
      · intro h; cases h
      · rintro ⟨d, hd, ms', rfl, h⟩
        cases hd

theorem qtyOf_iff (l : List (Str × Json)) (k : Str) (i : Int) : qtyOf (Dict.get? l k) = .ok i ↔ member k (.obj l) = some (.int i) := by
  rw [member_get]
  cases Dict.get? l k with
  | none => simp [qtyOf]
  | some v => cases v <;> simp [qtyOf]

theorem votelineOf_iff (j : Json) (vl : Voteline) : votelineOf j = .ok vl ↔ DescribesLine j vl := by
  cases j with
  | obj l =>
    unfold votelineOf
    simp only
    constructor
    · intro h
      obtain ⟨q, hq, h⟩ := bind_ok.1 h
      obtain ⟨ps, hps, h⟩ := bind_ok.1 h
      obtain ⟨c, hc, h⟩ := bind_ok.1 h
      obtain ⟨pstr, hpstr, h⟩ := bind_ok.1 h
      obtain ⟨v, hv, h⟩ := bind_ok.1 h
      obtain ⟨n, hn, h⟩ := bind_ok.1 h
      cases h
      exact ⟨⟨l, rfl⟩, (qtyOf_iff _ _ _).1 hq, (prefsOf_iff _ _ _).1 hps, (commentOf_iff _ _).1 hc, (optStrOf_iff _ _ _).1 hpstr,
        (optStrOf_iff _ _ _).1 hv, (optStrOf_iff _ _ _).1 hn⟩
    · rintro ⟨_, h1, h2, h3, h4, h5, h6⟩
      rw [(qtyOf_iff _ _ _).2 h1, ok_bind, (prefsOf_iff _ _ _).2 h2, ok_bind, (commentOf_iff _ _).2 h3, ok_bind, (optStrOf_iff _ _ _).2 h4,
        ok_bind, (optStrOf_iff _ _ _).2 h5, ok_bind, (optStrOf_iff _ _ _).2 h6, ok_bind]
  | _ =>
    constructor
    · intro h; cases h
    · rintro ⟨⟨l, hl⟩, _⟩; cases hl

theorem jabmodOf_iff (d : Json) (m : Jabmod) : jabmodOf d = .ok m ↔ DescribesModel d m := by
  cases d with
  | obj l =>
    constructor
    · intro h
      unfold jabmodOf at h
      simp only at h
      split at h
      · rename_i cs md vs h1 h2 h3
        obtain ⟨cs', hcs, h⟩ := bind_ok.1 h
        obtain ⟨vs', hvs, h⟩ := bind_ok.1 h
        cases h
        refine ⟨by rw [member_get]; exact h2, ⟨.obj cs, by rw [member_get]; exact h1, cs, rfl, ?_⟩, ⟨vs, by rw [member_get]; exact h3, ?_⟩⟩
        · exact (mapM_each (R := fun (x : Str × Json) (y : Str × Option Str) => x.1 = y.1 ∧ IsName x.2 y.2) (pair_iff candNameOf_iff) cs cs').1 hcs
        · exact (mapM_each votelineOf_iff vs vs').1 hvs
      · cases h
    · rintro ⟨h1, ⟨cs, h2, ms, rfl, h2'⟩, ⟨vs, h3, h3'⟩⟩
      rw [member_get] at h1 h2 h3
      unfold jabmodOf
      simp only
      rw [h1, h2, h3]
      simp only
      rw [show ms.mapM candOf = .ok m.candidates from
        (mapM_each (R := fun (x : Str × Json) (y : Str × Option Str) => x.1 = y.1 ∧ IsName x.2 y.2) (pair_iff candNameOf_iff) _ _).2 h2', ok_bind,
        (mapM_each votelineOf_iff _ _).2 h3', ok_bind]
  | _ =>
    constructor
    · intro h; cases h
    · rintro ⟨h1, _⟩; cases h1

/-- C111.  Exactly: a text is read as the election `m` if and only if it is JSON text for a document that describes `m`. -/
theorem C111_exact (text : Str) (m : Jabmod) : loadModel text = .ok m ↔
    ∃ raw a t b, Blank a ∧ TextOf raw t ∧ Blank b ∧ text = a ++ t ++ b ∧ DescribesModel (asDicts raw) m := by
  unfold loadModel
  constructor
  · intro h
    cases hj : jsonLoads text with
    | error e => rw [hj] at h; cases h
    | ok v =>
      rw [hj] at h
      obtain ⟨raw, a, t, b, ha, ht, hb, e, rfl⟩ := (jsonLoads_iff text v).1 hj
      exact ⟨raw, a, t, b, ha, ht, hb, e, (jabmodOf_iff _ m).1 h⟩
  · rintro ⟨raw, a, t, b, ha, ht, hb, rfl, hm⟩
    rw [(jsonLoads_iff _ _).2 ⟨raw, a, t, b, ha, ht, hb, rfl, rfl⟩]
    exact (jabmodOf_iff _ m).2 hm

section
variable [U : Uni]

theorem optStrOf_other (o : Option Json) : OnlyOther (optStrOf o) := by
  unfold optStrOf
  split <;> first | exact onlyOther_ok _ | exact onlyOther_other
theorem commentOf_other (o : Option Json) : OnlyOther (commentOf o) := by
  unfold commentOf
  split <;> first | exact onlyOther_ok _ | exact optStrOf_other _
theorem optIntOf_other (o : Option Json) : OnlyOther (optIntOf o) := by
  unfold optIntOf
  split <;> first | exact onlyOther_ok _ | exact onlyOther_other
theorem ratingOfJson_other (o : Option Json) : OnlyOther (ratingOfJson o) := by
  unfold ratingOfJson
  split <;> first | exact onlyOther_ok _ | exact onlyOther_other
theorem prefOf_other (j : Json) : OnlyOther (prefOf j) := by
  unfold prefOf
  split
  · exact onlyOther_bind (ratingOfJson_other _) fun _ => onlyOther_bind (optIntOf_other _) fun _ => onlyOther_bind (optStrOf_other _) fun _ => onlyOther_ok _
  · exact onlyOther_other
theorem prefsOf_other (o : Option Json) : OnlyOther (prefsOf o) := by
  unfold prefsOf
  split
  · exact onlyOther_mapM (fun x => onlyOther_bind (prefOf_other _) fun _ => onlyOther_ok _) _
  · exact onlyOther_other
theorem qtyOf_other (o : Option Json) : OnlyOther (qtyOf o) := by
  unfold qtyOf
  split <;> first | exact onlyOther_ok _ | exact onlyOther_other
theorem votelineOf_other (j : Json) : OnlyOther (votelineOf j) := by
  unfold votelineOf
  split
  · exact onlyOther_bind (qtyOf_other _) fun _ => onlyOther_bind (prefsOf_other _) fun _ => onlyOther_bind (commentOf_other _) fun _ =>
      onlyOther_bind (optStrOf_other _) fun _ => onlyOther_bind (optStrOf_other _) fun _ => onlyOther_bind (optStrOf_other _) fun _ => onlyOther_ok _
  · exact onlyOther_other
theorem candNameOf_other (j : Json) : OnlyOther (candNameOf j) := by
  unfold candNameOf
  split <;> first | exact onlyOther_ok _ | exact onlyOther_other
theorem jabmodOf_other (j : Json) : OnlyOther (jabmodOf j) := by
  unfold jabmodOf
  split
  · split
    · exact onlyOther_bind (onlyOther_mapM (fun x => onlyOther_bind (candNameOf_other _) fun _ => onlyOther_ok _) _) fun _ =>
        onlyOther_bind (onlyOther_mapM votelineOf_other _) fun _ => onlyOther_ok _
    · exact onlyOther_other
  · exact onlyOther_other

/-- C111, members of other types.  JSON text that describes no election of the model is outside the model, and never read as one; a text
that is not JSON text is refused as `json.loads` refuses it. -/
theorem C111_others (text : Str) : (∃ m, loadModel text = .ok m) ∨ (loadModel text = .error .other) ∨
    (∃ e, jsonLoads text = .error e ∧ loadModel text = .error e) := by
  unfold loadModel
  cases hj : jsonLoads text with
  | error e => exact .inr (.inr ⟨e, rfl, rfl⟩)
  | ok v =>
    show (∃ m, jabmodOf v = .ok m) ∨ jabmodOf v = .error .other ∨ _
    cases hm : jabmodOf v with
    | ok m => exact .inl ⟨m, rfl⟩
    | error e => exact .inr (.inl (by rw [jabmodOf_other v e hm]))

/-- C111, how it is written.  Two documents that describe the same election, whatever the order of the members, further members, blanks
and escapes in the text, give the same output (the model does not keep further members, so the `jabmod` output is left out). -/
theorem C111_same (env : CliEnv) (hl : env.loads = loadModel) (a : CliArgs) (hf : cliFormat a = .ok c!"jabmod") (hfile : a.files = [c!"-"])
    (d d' : Json) (m : Jabmod) (hd : DistinctKeys d) (hd' : DistinctKeys d') (hm : DescribesModel d m) (hm' : DescribesModel d' m)
    (t t' x y x' y' : Str) (ht : TextOf d t) (ht' : TextOf d' t') (hx : Blank x) (hy : Blank y) (hx' : Blank x') (hy' : Blank y')
    (_hj : a.«to» ≠ c!"jabmod") :
    cliMain { env with stdin := x ++ t ++ y } a = cliMain { env with stdin := x' ++ t' ++ y' } a ∧
    (cliMain { env with stdin := x ++ t ++ y } a = match cliOutput env a (if c!"consolidate" ∈ cliModifiers a then consolidate m else m) with
      | .error e => ⟨[], .error e⟩
      | .ok out => ⟨out ++ c!"\n", .ok ()⟩) := by
  have key : ∀ (d : Json) (t x y : Str), DistinctKeys d → DescribesModel d m → TextOf d t → Blank x → Blank y →
      cliMain { env with stdin := x ++ t ++ y } a = match cliOutput env a (if c!"consolidate" ∈ cliModifiers a then consolidate m else m) with
      | .error e => ⟨[], .error e⟩
      | .ok out => ⟨out ++ c!"\n", .ok ()⟩ := by
    intro d t x y hd hm ht hx hy
    have hload : loadModel (x ++ t ++ y) = .ok m := by
      unfold loadModel
      rw [jsonLoads_text hx hy ht hd]
      exact (jabmodOf_iff d m).2 hm
    rw [cliMain_ok (env := { env with stdin := x ++ t ++ y }) (a := a) (fmt := c!"jabmod") (s := x ++ t ++ y) (blobs := []) (m := m) hf (by decide)
      (by unfold cliInput; rw [if_pos hfile])
      (by
        unfold cliModel
        rw [if_neg (by decide), if_neg (by decide), if_pos rfl]
        show env.loads _ = _
        rw [hl]; exact hload)]
    rfl
  exact ⟨(key d t x y hd hm ht hx hy).trans (key d' t' x' y' hd' hm' ht' hx' hy').symm, key d t x y hd hm ht hx hy⟩

end

/-! ### a concrete case -/

/-- a document with its members in an unusual order and with one that abiftool does not know -/
def handDoc : Json :=
  .obj [(c!"votelines", .arr [.obj [(c!"prefs", .obj [(c!"A", .obj [(c!"rank", .int 1), (c!"rating", .null)])]), (c!"weather", .str c!"fine"),
          (c!"qty", .int 3)]]),
        (c!"metadata", .obj [(c!"ballotcount", .int 3)]), (c!"candidates", .obj [(c!"A", .str c!"Ann"), (c!"B", .null)])]

/-- the election it describes -/
def handModel : Jabmod where
  metadata := [(c!"ballotcount", .int 3)]
  candidates := [(c!"A", some c!"Ann"), (c!"B", none)]
  votelines := [{ qty := 3, prefs := [(c!"A", { rating := some .null, rank := some 1 })] }]

example : DescribesModel handDoc handModel := (jabmodOf_iff _ _).1 rfl

example : DescribesModel handModel.toJson handModel := (jabmodOf_iff _ _).1 (jabmodOf_toJson _)

/-- not a document of the model: a rank that is a text -/
example : ∀ p, ¬ DescribesPref (.obj [(c!"rank", .str c!"1")]) p := fun p h => by
  have := (prefOf_iff _ _).2 h
  cases this

example : (match loadModel c!"{\"votelines\": [], \"candidates\":{} , \"metadata\" : {\"x\": null}, \"y\":[1]}" with
    | .ok m => decide (m.votelines = [] ∧ m.candidates = []) && (match m.metadata with | [(_, .null)] => true | _ => false)
    | .error _ => false) = true := by decide +kernel

end Verif.Props
