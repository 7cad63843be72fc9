/-
C91: the list of elections `configtool.py` makes from a fetchspec.
-/
import Verif.Spec.Configtool
import Verif.Lib.Debtally
import Verif.Lib.Regex
import Verif.Props.Output

set_option linter.unusedSimpArgs false
set_option linter.unusedSectionVars false

namespace Verif.Props
open Verif Spec

/-- the literal text as consumed by its atoms -/
theorem reads_lit (s : Str) (ps : List Str) (h : Reads (litAtoms s) ps) : ps.flatten = s := by
  induction s generalizing ps with
  | nil => cases h; rfl
  | cons c t ih =>
    cases h with
    | cons ha hr =>
      obtain ⟨x, rfl, hx⟩ := ha
      have hx : x = c := by simpa using hx
      subst hx
      rw [List.flatten_cons, ih _ hr]
      rfl

theorem reads_lit_of (s : Str) : Reads (litAtoms s) (s.map fun c => [c]) := by
  induction s with
  | nil => exact .nil
  | cons c t ih => exact .cons ⟨c, rfl, by simp⟩ ih

theorem reads_append (as bs : List Atom) (ps : List Str) (h : Reads (as ++ bs) ps) :
    ∃ p q, ps = p ++ q ∧ Reads as p ∧ Reads bs q := by
  induction as generalizing ps with
  | nil => exact ⟨[], ps, rfl, .nil, h⟩
  | cons a as ih =>
    cases h with
    | cons ha hr =>
      obtain ⟨p, q, rfl, h1, h2⟩ := ih _ hr
      exact ⟨_ :: p, q, rfl, .cons ha h1, h2⟩

theorem reads_append_of {as bs : List Atom} {p q : List Str} (h1 : Reads as p) (h2 : Reads bs q) : Reads (as ++ bs) (p ++ q) := by
  induction h1 with
  | nil => exact h2
  | cons ha _ ih => exact .cons ha ih

theorem flatten_singles (s : Str) : (s.map fun c => [c]).flatten = s := by
  induction s with
  | nil => rfl
  | cons c t ih => rw [List.map_cons, List.flatten_cons, ih]; rfl

theorem atEnd_iff (s : Str) : atEnd s = true ↔ s = [] ∨ s = ['\n'] := by
  unfold atEnd
  simp

/-- what a match of the pattern is -/
theorem idMatch_sound (t : Str) (r : List Str × Str)
    (h : rmatch atEnd (.plus (fun c => c != '/') :: litAtoms c!".abif") t = some r) :
    ∃ id, r.1.head? = some id ∧ id ≠ [] ∧ '/' ∉ id ∧ t = id ++ c!".abif" ++ r.2 ∧ (r.2 = [] ∨ r.2 = ['\n']) := by
  obtain ⟨h1, h2, h3⟩ := rmatch_sound _ _ _ _ h
  cases hr : r.1 with
  | nil => rw [hr] at h1; cases h1
  | cons p ps =>
    rw [hr] at h1 h2
    cases h1 with
    | cons ha hb =>
      obtain ⟨hne, hall⟩ := ha
      refine ⟨p, rfl, hne, ?_, ?_, (atEnd_iff _).1 h3⟩
      · intro hm
        have := hall _ hm
        simp at this
      · rw [← h2, List.flatten_cons, reads_lit _ _ hb]

/-- the end of the name is only read in one way -/
theorem id_unique (a b x y : Str) (h : a ++ c!".abif" ++ x = b ++ c!".abif" ++ y) (hx : x = [] ∨ x = ['\n'])
    (hy : y = [] ∨ y = ['\n']) : a = b := by
  have hrev := congrArg List.reverse h
  simp only [List.reverse_append] at hrev
  rcases hx with rfl | rfl <;> rcases hy with rfl | rfl <;> simp at hrev <;> simpa using hrev

/-- C91, the id of an entry: the last component of its file's path without `.abif` — and only then. -/
theorem C91_id (fn id : Str) : abifId fn = some id ↔ FileId fn id := by
  have fwd : ∀ id, FileId fn id → abifId fn = some id := by
    rintro id ⟨dir, tail, rfl, ht, hne, hs, hd⟩
    have hsome := rmatch_complete atEnd (.plus (fun c => c != '/') :: litAtoms c!".abif") (id :: c!".abif".map fun c => [c]) tail
      (.cons ⟨hne, by
        intro c hc
        have : c ≠ '/' := by rintro rfl; exact hs hc
        simpa using this⟩ (reads_lit_of _)) ((atEnd_iff _).2 ht)
    rw [List.flatten_cons, flatten_singles] at hsome
    obtain ⟨r, hr⟩ := Option.isSome_iff_exists.1 hsome
    obtain ⟨id', h1, _, _, h4, h5⟩ := idMatch_sound _ _ hr
    have : id = id' := id_unique _ _ _ _ h4 ht h5
    subst this
    have hskip := searchMatch_skip atEnd (.plus (fun c => c != '/') :: litAtoms c!".abif") dir (id ++ c!".abif" ++ tail) r (by
      intro a b hab hb
      cases hm : rmatch atEnd (.plus (fun c => c != '/') :: litAtoms c!".abif") (b ++ (id ++ c!".abif" ++ tail)) with
      | none => rfl
      | some q =>
        exfalso
        obtain ⟨i, _, _, g3, g4, g5⟩ := idMatch_sound _ _ hm
        have hb' : '/' ∈ b := by
          rcases hd with rfl | ⟨d, rfl⟩
          · have := List.append_eq_nil_iff.1 hab.symm
            exact absurd this.2 hb
          · have := congrArg List.getLast? hab
            rw [List.getLast?_append, List.getLast?_append] at this
            cases hbl : b.getLast? with
            | none => exact absurd (List.getLast?_eq_none_iff.1 hbl) hb
            | some z =>
              rw [hbl] at this
              simp at this
              subst this
              exact List.mem_of_getLast? hbl
        have : '/' ∈ i ++ c!".abif" ++ q.2 := by rw [← g4]; simp [hb']
        rcases List.mem_append.1 this with h | h
        · rcases List.mem_append.1 h with h | h
          · exact g3 h
          · simp at h
        · rcases g5 with g5 | g5 <;> (rw [g5] at h; simp at h)) hr
    unfold abifId
    have e : dir ++ id ++ c!".abif" ++ tail = dir ++ (id ++ c!".abif" ++ tail) := by simp
    rw [e, hskip]
    exact h1
  refine ⟨?_, fwd id⟩
  intro h
  by_cases hex : ∃ i, FileId fn i
  · obtain ⟨i, hi⟩ := hex
    have := fwd i hi
    rw [h] at this
    cases this
    exact hi
  · exfalso
    unfold abifId at h
    rw [searchMatch_none] at h
    · cases h
    · rintro t ⟨pre, rfl⟩
      cases hm : rmatch atEnd (.plus (fun c => c != '/') :: litAtoms c!".abif") t with
      | none => rfl
      | some q =>
        exfalso
        obtain ⟨i, _, g2, g3, g4, g5⟩ := idMatch_sound _ _ hm
        apply hex
        have hsplit : ∃ d l : Str, pre = d ++ l ∧ '/' ∉ l ∧ (d = [] ∨ ∃ d', d = d' ++ ['/']) := by
          clear g4 hm h hex fwd
          induction pre with
          | nil => exact ⟨[], [], rfl, by simp, .inl rfl⟩
          | cons c p ih =>
            obtain ⟨d, l, e, hl, hd⟩ := ih
            rcases hd with rfl | ⟨d', rfl⟩
            · by_cases hc : c = '/'
              · subst hc
                exact ⟨['/'], l, by simp [e], hl, .inr ⟨[], rfl⟩⟩
              · exact ⟨[], c :: l, by simp [e], by simp [hl, Ne.symm hc], .inl rfl⟩
            · exact ⟨c :: (d' ++ ['/']), l, by simp [e], hl, .inr ⟨c :: d', rfl⟩⟩
        obtain ⟨d, l, e, hl, hd⟩ := hsplit
        exact ⟨l ++ i, d, q.2, by rw [g4, e]; simp, g5, by simp [g2], by simp [hl, g3], hd⟩

theorem falsy_iff (v : Json) : Falsy v ↔ v.truthy = false := by
  cases v with
  | null => exact ⟨fun _ => rfl, fun _ => .null⟩
  | bool b =>
    cases b
    · exact ⟨fun _ => rfl, fun _ => .no⟩
    · exact ⟨(by intro h; cases h), (by intro h; cases h)⟩
  | int i =>
    constructor
    · intro h; cases h; rfl
    · intro h
      have : i = 0 := by simpa [Json.truthy] using h
      subst this; exact .zero
  | str s =>
    constructor
    · intro h; cases h; rfl
    · intro h
      have : s = [] := by simpa [Json.truthy] using h
      subst this; exact .str
  | arr l =>
    constructor
    · intro h; cases h; rfl
    · intro h
      have : l = [] := by simpa [Json.truthy] using h
      subst this; exact .arr
  | obj l =>
    constructor
    · intro h; cases h; rfl
    · intro h
      have : l = [] := by simpa [Json.truthy] using h
      subst this; exact .obj

theorem mapM_tagStr (l : List Json) (ss : List Str) : l.mapM tagStr = .ok ss ↔ l = ss.map .str := by
  induction l generalizing ss with
  | nil =>
    constructor
    · intro h; cases h; rfl
    · intro h
      have : ss = [] := by simpa using h.symm
      subst this; rfl
  | cons x l ih =>
    rw [List.mapM_cons]
    cases x with
    | str s =>
      show (l.mapM tagStr).bind (fun r => Except.ok (s :: r)) = .ok ss ↔ _
      cases hm : l.mapM tagStr with
      | error e =>
        constructor
        · intro h; cases h
        · intro h
          cases ss with
          | nil => cases h
          | cons a b =>
            cases h
            rw [(ih b).2 rfl] at hm; cases hm
      | ok r =>
        have hr := (ih r).1 hm
        constructor
        · intro h; cases h; rw [hr]; rfl
        · intro h
          cases ss with
          | nil => cases h
          | cons a b =>
            cases h
            have : r = b := by
              have := (ih b).2 rfl
              rw [hm] at this; cases this; rfl
            subst this; rfl
    | _ =>
      constructor
      · intro h; cases h
      · intro h
        cases ss <;> cases h

theorem entryTags_iff (t : Option Json) (r : Option Str) : entryTags t = .ok r ↔ TagsShown t r := by
  cases t with
  | none =>
    constructor
    · intro h; cases h; exact .absent
    · intro h; cases h; rfl
  | some v =>
    unfold entryTags
    simp only
    by_cases hv : v.truthy = true
    · rw [if_pos hv]
      have hnf : ¬ Falsy v := by rw [falsy_iff, hv]; simp
      have step : ∀ es : List Json, v.elems = .ok es → ((do
          let l ← (← v.elems).mapM tagStr
          let _fixedtags := l.flatMap fun t => fixTag t []
          pure (some (joinStr c!", " l)) : Except PyErr (Option Str)) = .ok r ↔ ∃ ss : List Str, es = ss.map .str ∧ r = some (c!", ".intercalate ss)) := by
        intro es he
        rw [he]
        show (es.mapM tagStr).bind (fun l => Except.ok (some (joinStr c!", " l))) = .ok r ↔ _
        cases hm : es.mapM tagStr with
        | error e =>
          constructor
          · intro h; cases h
          · rintro ⟨ss, h1, _⟩
            rw [(mapM_tagStr es ss).2 h1] at hm; cases hm
        | ok l =>
          have hl := (mapM_tagStr es l).1 hm
          constructor
          · intro h
            cases h
            exact ⟨l, hl, by rw [joinStr_intercalate]⟩
          · rintro ⟨ss, h1, rfl⟩
            have : l = ss := by
              have := (mapM_tagStr es ss).2 h1
              rw [hm] at this; cases this; rfl
            subst this
            show Except.ok (some (joinStr c!", " l)) = _
            rw [joinStr_intercalate]
      cases v with
      | null => cases hv
      | bool b =>
        constructor
        · intro h; cases h
        · intro h
          cases h with
          | falsy _ h => exact absurd h hnf
      | int i =>
        constructor
        · intro h; cases h
        · intro h
          cases h with
          | falsy _ h => exact absurd h hnf
      | arr l =>
        rw [step l rfl]
        constructor
        · rintro ⟨ss, rfl, rfl⟩
          refine .list ss ?_
          rintro rfl; exact hnf .arr
        · intro h
          cases h with
          | falsy _ h => exact absurd h hnf
          | list ss h => exact ⟨ss, rfl, rfl⟩
      | str s =>
        rw [step _ rfl]
        constructor
        · rintro ⟨ss, h1, rfl⟩
          have : ss = s.map fun c => [c] := by
            have hinj : Function.Injective Json.str := fun a b h => by cases h; rfl
            refine hinj.list_map ?_
            rw [← h1, List.map_map]; rfl
          subst this
          refine .chars s ?_
          rintro rfl; exact hnf .str
        · intro h
          cases h with
          | falsy _ h => exact absurd h hnf
          | chars _ h => exact ⟨_, by rw [List.map_map]; rfl, rfl⟩
      | obj d =>
        rw [step _ rfl]
        constructor
        · rintro ⟨ss, h1, rfl⟩
          have : ss = d.map Prod.fst := by
            have hinj : Function.Injective Json.str := fun a b h => by cases h; rfl
            refine hinj.list_map ?_
            rw [← h1, List.map_map]; rfl
          subst this
          refine .keys d ?_
          rintro rfl; exact hnf .obj
        · intro h
          cases h with
          | falsy _ h => exact absurd h hnf
          | keys _ h => exact ⟨_, by rw [List.map_map]; rfl, rfl⟩
    · rw [if_neg hv]
      have hf : Falsy v := by rw [falsy_iff]; simpa using hv
      constructor
      · intro h; cases h; exact .falsy v hf
      · intro h
        cases h with
        | falsy _ _ => rfl
        | list l h => rw [falsy_iff] at hf; simp [Json.truthy] at hf; exact absurd hf h
        | chars l h => rw [falsy_iff] at hf; simp [Json.truthy] at hf; exact absurd hf h
        | keys l h => rw [falsy_iff] at hf; simp [Json.truthy] at hf; exact absurd hf h

theorem cfgEntry_iff (j : Json) (e : CfgEntry) : cfgEntry j = .ok e ↔ Listed j e := by
  cases j with
  | obj d =>
    have hrun : cfgEntry (.obj d) = (Dict.getE d c!"abifloc").bind fun v => (tagStr v).bind fun fn =>
        (entryTags (Dict.get? d c!"tags")).bind fun tags =>
        .ok ⟨fn, abifId fn, if ((Dict.get? d c!"title").getD .null).truthy then (Dict.get? d c!"title").getD .null
          else match abifId fn with | some i => .str i | none => .null, tags, (Dict.get? d c!"desc").getD .null⟩ := by
      unfold cfgEntry
      show (Dict.getE d c!"abifloc").bind _ = _
      cases Dict.getE d c!"abifloc" with
      | error e => rfl
      | ok v => cases v <;> rfl
    have htitle : ∀ i : Option Str, ∀ x : Json,
        ((if ((Dict.get? d c!"title").getD .null).truthy then (Dict.get? d c!"title").getD .null
          else match i with | some i => .str i | none => .null) = x) ↔
        ((∀ t, Dict.get? d c!"title" = some t → ¬ Falsy t → x = t) ∧
        ((∀ t, Dict.get? d c!"title" = some t → Falsy t) → ∀ id, i = some id → x = .str id) ∧
        ((∀ t, Dict.get? d c!"title" = some t → Falsy t) → i = none → x = .null)) := by
      intro i x
      cases ht : Dict.get? d c!"title" with
      | none =>
        simp only [Option.getD_none, Json.truthy, Bool.false_eq_true, if_false]
        cases i with
        | none => simp; exact eq_comm
        | some i => simp; exact eq_comm
      | some t =>
        simp only [Option.getD_some, Option.some.injEq]
        by_cases hf : t.truthy = true
        · have hnf : ¬ Falsy t := by rw [falsy_iff, hf]; simp
          rw [if_pos hf]
          constructor
          · rintro rfl
            exact ⟨fun t h _ => h, fun h => absurd (h _ rfl) hnf, fun h => absurd (h _ rfl) hnf⟩
          · rintro ⟨h, _⟩
            exact (h t rfl hnf).symm
        · have hft : Falsy t := by rw [falsy_iff]; simpa using hf
          rw [if_neg hf]
          have hall : ∀ t', t = t' → Falsy t' := by rintro _ rfl; exact hft
          cases i with
          | none =>
            show Json.null = x ↔ _
            constructor
            · rintro rfl
              exact ⟨fun t' e h => absurd (hall _ e) h, (by intro _ id h; cases h), fun _ _ => rfl⟩
            · rintro ⟨_, _, h⟩
              exact (h hall rfl).symm
          | some i =>
            show Json.str i = x ↔ _
            constructor
            · rintro rfl
              exact ⟨fun t' e h => absurd (hall _ e) h, (by intro _ id h; cases h; rfl), (by intro _ h; cases h)⟩
            · rintro ⟨_, h, _⟩
              exact (h hall i rfl).symm
    rw [hrun]
    constructor
    · intro h
      cases h1 : Dict.get? d c!"abifloc" with
      | none => simp [Dict.getE, h1, Except.bind] at h
      | some v =>
        rw [Dict.getE_of_get? h1] at h
        cases v with
        | str fn =>
          change (entryTags (Dict.get? d c!"tags")).bind _ = _ at h
          cases h2 : entryTags (Dict.get? d c!"tags") with
          | error e => rw [h2] at h; cases h
          | ok tags =>
            rw [h2] at h
            cases h
            obtain ⟨t1, t2, t3⟩ := (htitle (abifId fn) _).1 rfl
            refine ⟨d, rfl, h1, fun id => C91_id fn id, t1, t2, t3, (entryTags_iff _ _).1 h2, ?_, ?_⟩
            · intro v hv
              show (Dict.get? d c!"desc").getD .null = v
              rw [hv]; rfl
            · intro hv
              show (Dict.get? d c!"desc").getD .null = .null
              rw [hv]; rfl
        | _ => cases h
    · rintro ⟨d', hd, h1, hid, t1, t2, t3, h3, h4, h5⟩
      cases hd
      rw [Dict.getE_of_get? h1]
      change (entryTags (Dict.get? d c!"tags")).bind _ = _
      rw [(entryTags_iff _ _).2 h3]
      have hi : e.id = abifId e.filename := by
        cases ha : abifId e.filename with
        | none =>
          cases hb : e.id with
          | none => rfl
          | some i => rw [(C91_id _ _).2 ((hid i).1 hb)] at ha; cases ha
        | some i => exact (hid i).2 ((C91_id _ _).1 ha)
      have ht := (htitle e.id e.title).2 ⟨t1, t2, t3⟩
      have hdesc : (Dict.get? d c!"desc").getD .null = e.desc := by
        cases hv : Dict.get? d c!"desc" with
        | none => rw [h5 hv]; rfl
        | some v => rw [h4 v hv]; rfl
      show Except.ok _ = _
      rw [hdesc, ← hi, ht]
  | _ =>
    constructor
    · intro h; cases h
    · rintro ⟨d, h, _⟩; cases h

theorem mapM_ok_iff₂ {α β ε : Type} (f : α → Except ε β) (l : List α) (r : List β) :
    l.mapM f = .ok r ↔ List.Forall₂ (fun a b => f a = .ok b) l r := by
  induction l generalizing r with
  | nil =>
    constructor
    · intro h; cases h; exact .nil
    · intro h; cases h; rfl
  | cons x l ih =>
    rw [List.mapM_cons]
    show (f x).bind (fun y => (l.mapM f).bind fun ys => .ok (y :: ys)) = _ ↔ _
    constructor
    · intro h
      cases h1 : f x with
      | error e => rw [h1] at h; cases h
      | ok y =>
        rw [h1] at h
        change (l.mapM f).bind _ = _ at h
        cases h2 : l.mapM f with
        | error e => rw [h2] at h; cases h
        | ok ys =>
          rw [h2] at h; cases h
          exact .cons h1 ((ih ys).1 h2)
    · intro h
      cases h with
      | cons h1 h2 =>
        rw [h1]
        show (l.mapM f).bind _ = _
        rw [(ih _).2 h2]; rfl

/-- C91.  An archive file that gets no entry stops the whole list, with a `KeyError` when it is an object without `abifloc` and with
a `TypeError` otherwise (not an object, a file name or a tag that is not a string, tags that cannot be gone through). -/
theorem C91_errors (j : Json) (e : PyErr) (h : cfgEntry j = .error e) :
    (e = .keyError ↔ ∃ d : List (Str × Json), j = .obj d ∧ Dict.get? d c!"abifloc" = none) ∧ (e = .keyError ∨ e = .typeError) := by
  cases j with
  | obj d =>
    have hrun : cfgEntry (.obj d) = (Dict.getE d c!"abifloc").bind fun v => (tagStr v).bind fun fn =>
        (entryTags (Dict.get? d c!"tags")).bind fun tags => .ok ⟨fn, abifId fn,
          (if ((Dict.get? d c!"title").getD .null).truthy then (Dict.get? d c!"title").getD .null
            else match abifId fn with | some i => .str i | none => .null), tags, (Dict.get? d c!"desc").getD .null⟩ := by
      rfl
    rw [hrun] at h
    cases hl : Dict.get? d c!"abifloc" with
    | none =>
      have : e = .keyError := by
        simp [Dict.getE, hl, Except.bind] at h
        exact h.symm
      exact ⟨⟨fun _ => ⟨d, rfl, hl⟩, fun _ => this⟩, .inl this⟩
    | some v =>
      rw [Dict.getE_of_get? hl] at h
      have ht : ∀ (v : Json) (e : PyErr), tagStr v = .error e → e = .typeError := by
        intro v e h
        cases v <;> cases h <;> rfl
      have htl : ∀ (l : List Json) (e : PyErr), l.mapM tagStr = .error e → e = .typeError := by
        intro l
        induction l with
        | nil => intro e h; cases h
        | cons a l ih =>
          intro e h
          rw [List.mapM_cons] at h
          cases ha : tagStr a with
          | error e' => rw [ha] at h; cases h; exact ht _ _ ha
          | ok s =>
            rw [ha] at h
            cases hl : l.mapM tagStr with
            | error e' => rw [hl] at h; cases h; exact ih _ hl
            | ok r => rw [hl] at h; cases h
      have hE : e = .typeError := by
        cases hv : tagStr v with
        | error e' => simp only [Except.bind, hv] at h; cases h; exact ht _ _ hv
        | ok fn =>
          cases hg : entryTags (Dict.get? d c!"tags") with
          | ok r => simp only [Except.bind, hv, hg] at h; cases h
          | error e' =>
            simp only [Except.bind, hv, hg] at h
            cases h
            cases ho : Dict.get? d c!"tags" with
            | none => rw [ho] at hg; cases hg
            | some t =>
              rw [ho] at hg
              unfold entryTags at hg
              simp only at hg
              split at hg
              · cases he : t.elems with
                | error e' =>
                  rw [he] at hg
                  cases t <;> cases he <;> cases hg <;> rfl
                | ok l =>
                  rw [he] at hg
                  simp only [ok_bind] at hg
                  cases hm : l.mapM tagStr with
                  | error e' => rw [hm] at hg; cases hg; exact htl _ _ hm
                  | ok r => rw [hm] at hg; cases hg
              · cases hg
      refine ⟨⟨fun h => ?_, ?_⟩, .inr hE⟩
      · rw [hE] at h; cases h
      · rintro ⟨d', h1, h2⟩
        cases h1
        rw [hl] at h2; cases h2
  | _ =>
    cases h
    exact ⟨⟨(by intro h; cases h), (by rintro ⟨d, h, _⟩; cases h)⟩, .inr rfl⟩

example : (match cfgEntry (.obj [(c!"tags", .arr [])]) with | .error e => e == .keyError | .ok _ => false) = true := by rfl
example : (match cfgEntry (.obj [(c!"abifloc", .str c!"a.abif"), (c!"tags", .arr [.str c!"x", .int 3])]) with
    | .error e => e == .typeError | .ok _ => false) = true := by rfl

/-- C91.  The fetchspec of an archive: the list has exactly one entry for each archive file, in the same order, with the file's
name, the id made from it, its title (the id if there is none), its tags as they are and its description — and every list that
comes out is one of these. -/
theorem C91_list (text : Str) (es : List CfgEntry) :
    cfgConvert (some text) = .ok (.entries es) ↔
      ∃ (d : List (Str × Json)) (l : List Json), jsonLoads text = .ok (.obj d) ∧ Dict.get? d c!"srcfmt" = some (.str c!"nameq_archive") ∧
        (Dict.get? d c!"archive_subfiles" = some (.arr l) ∨
          l = [] ∧ (Dict.get? d c!"archive_subfiles" = some (.str []) ∨ Dict.get? d c!"archive_subfiles" = some (.obj []))) ∧
        List.Forall₂ Listed l es := by
  have hlist : ∀ d : List (Str × Json), cfgFileList (.obj d) = .ok es ↔ ∃ l : List Json,
        (Dict.get? d c!"archive_subfiles" = some (.arr l) ∨
          l = [] ∧ (Dict.get? d c!"archive_subfiles" = some (.str []) ∨ Dict.get? d c!"archive_subfiles" = some (.obj []))) ∧
        List.Forall₂ Listed l es := by
    intro d
    have hm : ∀ l : List Json, l.mapM cfgEntry = .ok es ↔ List.Forall₂ Listed l es := by
      intro l
      rw [mapM_ok_iff₂]
      have : (fun a b => cfgEntry a = .ok b) = Listed := by
        funext a b
        exact propext (cfgEntry_iff a b)
      rw [this]
    have hrun : cfgFileList (.obj d) = (Dict.getE d c!"archive_subfiles").bind fun v => v.elems.bind fun l => l.mapM cfgEntry := rfl
    rw [hrun]
    have hstr : ∀ (s : Str) (l : List Str), List.Forall₂ Listed ((s :: l).map .str) es → False := by
      intro s l h
      cases h with
      | cons h _ => obtain ⟨_, e, _⟩ := h; cases e
    constructor
    · intro h
      cases h1 : Dict.get? d c!"archive_subfiles" with
      | none => simp [Dict.getE, h1, Except.bind] at h
      | some v =>
        rw [Dict.getE_of_get? h1] at h
        cases v with
        | arr l => exact ⟨l, .inl rfl, (hm l).1 h⟩
        | str s =>
          have h := (hm _).1 h
          cases s with
          | nil => exact ⟨[], .inr ⟨rfl, .inl rfl⟩, h⟩
          | cons c s =>
            exfalso
            refine hstr [c] (s.map fun c => [c]) ?_
            have e : ((c :: s).map fun c => Json.str [c]) = (([c] :: s.map fun c => [c]).map Json.str) := by simp
            rw [← e]; exact h
        | obj o =>
          have h := (hm _).1 h
          cases o with
          | nil => exact ⟨[], .inr ⟨rfl, .inr rfl⟩, h⟩
          | cons c s =>
            exfalso
            refine hstr c.1 (s.map Prod.fst) ?_
            have e : ((c :: s).map fun kv => Json.str kv.1) = ((c.1 :: s.map Prod.fst).map Json.str) := by simp
            rw [← e]; exact h
        | _ => cases h
    · rintro ⟨l, h1, h2⟩
      rcases h1 with h1 | ⟨rfl, h1 | h1⟩ <;> rw [Dict.getE_of_get? h1]
      · exact (hm l).2 h2
      · exact (hm []).2 h2
      · exact (hm []).2 h2
  unfold cfgConvert
  simp only
  constructor
  · intro h
    cases hj : jsonLoads text with
    | error e => rw [hj] at h; cases h
    | ok spec =>
      rw [hj] at h
      cases spec with
      | obj d =>
        change (match Dict.get? d c!"srcfmt" with
          | some (.str s) => if s = c!"nameq_archive" then (cfgFileList (.obj d)).map CfgOut.entries else pure (CfgOut.srcfmt (.str s))
          | some j => pure (CfgOut.srcfmt j)
          | none => pure (CfgOut.srcfmt .null)) = _ at h
        cases hs : Dict.get? d c!"srcfmt" with
        | none => rw [hs] at h; cases h
        | some v =>
          rw [hs] at h
          cases v with
          | str s =>
            simp only at h
            by_cases hn : s = c!"nameq_archive"
            · rw [if_pos hn] at h
              subst hn
              cases hl : cfgFileList (.obj d) with
              | error e => rw [hl] at h; cases h
              | ok es' =>
                rw [hl] at h
                cases h
                obtain ⟨l, g1, g2⟩ := (hlist d).1 hl
                exact ⟨d, l, rfl, hs, g1, g2⟩
            · rw [if_neg hn] at h; cases h
          | _ => cases h
      | _ => cases h
  · rintro ⟨d, l, hj, hs, g⟩
    rw [hj]
    change (match Dict.get? d c!"srcfmt" with
          | some (.str s) => if s = c!"nameq_archive" then (cfgFileList (.obj d)).map CfgOut.entries else pure (CfgOut.srcfmt (.str s))
          | some j => pure (CfgOut.srcfmt j)
          | none => pure (CfgOut.srcfmt .null)) = _
    rw [hs]
    simp only
    rw [if_pos trivial, (hlist d).2 ⟨l, g⟩]
    rfl

/-- C91.  Any other fetchspec: all that comes out is its `srcfmt` (nothing about its files); without a file, a failure. -/
theorem C91_other (text : Str) (d : List (Str × Json)) (hj : jsonLoads text = .ok (.obj d)) :
    (∀ j, Dict.get? d c!"srcfmt" = some j → (∀ s, j = .str s → s ≠ c!"nameq_archive") → cfgConvert (some text) = .ok (.srcfmt j)) ∧
    (Dict.get? d c!"srcfmt" = none → cfgConvert (some text) = .ok (.srcfmt .null)) ∧
    cfgConvert none = .error .other := by
  have hc : cfgConvert (some text) = (match Dict.get? d c!"srcfmt" with
          | some (.str s) => if s = c!"nameq_archive" then (cfgFileList (.obj d)).map CfgOut.entries else pure (CfgOut.srcfmt (.str s))
          | some j => pure (CfgOut.srcfmt j)
          | none => pure (CfgOut.srcfmt .null)) := by
    unfold cfgConvert
    simp only
    rw [hj]
    rfl
  refine ⟨?_, ?_, rfl⟩
  · intro j h1 h2
    rw [hc, h1]
    cases j with
    | str s => exact if_neg (h2 s rfl)
    | _ => rfl
  · intro h1
    rw [hc, h1]
    rfl

theorem saysMayor_iff (s : Str) : saysMayor s = true ↔ MentionsMayor s := by
  induction s with
  | nil =>
    constructor
    · intro h; cases h
    · rintro ⟨a, w, b, h, hw⟩
      have : w = [] := by
        have := List.append_eq_nil_iff.1 h.symm
        exact (List.append_eq_nil_iff.1 this.1).2
      subst this
      cases hw
  | cons c t ih =>
    unfold saysMayor
    rw [Bool.or_eq_true, ih, beq_iff_eq]
    constructor
    · rintro (h | ⟨a, w, b, rfl, hw⟩)
      · exact ⟨[], (c :: t).take 5, (c :: t).drop 5, by simp, h⟩
      · exact ⟨c :: a, w, b, rfl, hw⟩
    · rintro ⟨a, w, b, h, hw⟩
      cases a with
      | nil =>
        left
        rw [h]
        have hl : w.length = 5 := by
          have := congrArg List.length hw
          simpa using this
        have : ([] ++ w ++ b).take 5 = w := by simp [← hl]
        rw [this, hw]
      | cons x a =>
        right
        simp only [List.cons_append, List.cons.injEq] at h
        exact ⟨a, w, b, h.2, hw⟩

theorem saysAlaskaUS_iff (s : Str) : saysAlaskaUS s = true ↔
    ∃ (x y : Char) (rest : Str), s = c!"Alaska-U" ++ x :: c!"S" ++ y :: rest ∧ x ≠ '\n' ∧ y ≠ '\n' := by
  unfold saysAlaskaUS
  rw [prefixMatch_isSome]
  constructor
  · rintro ⟨ps, rest, h, rfl⟩
    obtain ⟨p1, q1, rfl, h, h4⟩ := reads_append _ _ _ h
    obtain ⟨p2, q2, rfl, h, h3⟩ := reads_append _ _ _ h
    obtain ⟨p3, q3, rfl, h1, h2⟩ := reads_append _ _ _ h
    cases h4 with
    | cons h4 h4' =>
      cases h4'
      obtain ⟨y, rfl, hy⟩ := h4
      cases h2 with
      | cons h2 h2' =>
        cases h2'
        obtain ⟨x, rfl, hx⟩ := h2
        refine ⟨x, y, rest, ?_, by simpa using hx, by simpa using hy⟩
        rw [List.flatten_append, List.flatten_append, List.flatten_append, reads_lit _ _ h1, reads_lit _ _ h3]
        simp
  · rintro ⟨x, y, rest, rfl, hx, hy⟩
    refine ⟨(c!"Alaska-U".map fun c => [c]) ++ [[x]] ++ (c!"S".map fun c => [c]) ++ [[y]], rest, ?_, ?_⟩
    · refine reads_append_of (reads_append_of (reads_append_of (reads_lit_of _) ?_) (reads_lit_of _)) ?_
      · exact .cons ⟨x, rfl, by simpa using hx⟩ .nil
      · exact .cons ⟨y, rfl, by simpa using hy⟩ .nil
    · simp

/-- C91, `_fix_tag`: the first known beginning decides; `mayor` anywhere adds that tag; a tag with no known beginning is not passed
on but taken apart into its characters. -/
theorem C91_fixtag (old title x : Str) :
    (∀ k, knownTags.find? (fun k => k.1.isPrefixOf old) = some k → (k.1 = c!"Alaska" →
        ¬ ∃ (a b : Char) (rest : Str), title = c!"Alaska-U" ++ a :: c!"S" ++ b :: rest ∧ a ≠ '\n' ∧ b ≠ '\n') →
      (x ∈ fixTag old title ↔ (x = c!"mayor" ∧ MentionsMayor old) ∨ x ∈ k.2)) ∧
    (c!"Alaska" <+: old → (∃ (a b : Char) (rest : Str), title = c!"Alaska-U" ++ a :: c!"S" ++ b :: rest ∧ a ≠ '\n' ∧ b ≠ '\n') →
      (x ∈ fixTag old title ↔ (x = c!"mayor" ∧ MentionsMayor old) ∨ x = c!"AK" ∨ x = c!"federal")) ∧
    ((∀ k ∈ knownTags, ¬ k.1 <+: old) → (x ∈ fixTag old title ↔ (x = c!"mayor" ∧ MentionsMayor old) ∨ ∃ c ∈ old, x = [c])) := by
  have hm : x ∈ (if saysMayor old then [c!"mayor"] else []) ↔ (x = c!"mayor" ∧ MentionsMayor old) := by
    rw [← saysMayor_iff]
    by_cases h : saysMayor old = true <;> simp [h]
  rw [← saysAlaskaUS_iff]
  unfold fixTag
  rw [List.mem_append, hm]
  refine ⟨?_, ?_, ?_⟩
  · intro k hk hal
    simp only [knownTags, List.find?_cons] at hk
    refine or_congr Iff.rfl ?_
    by_cases h1 : c!"Alaska".isPrefixOf old = true
    · rw [h1] at hk; cases hk
      have : saysAlaskaUS title = false := by simpa using hal rfl
      simp only [h1, this, Bool.and_false, Bool.false_eq_true, if_false, if_true]
    rw [Bool.not_eq_true] at h1
    simp only [h1, Bool.false_and, Bool.false_eq_true, if_false] at hk ⊢
    by_cases h2 : c!"AlamedaCounty".isPrefixOf old = true
    · rw [h2] at hk; cases hk; simp only [h2, if_true]
    rw [Bool.not_eq_true] at h2
    simp only [h2, Bool.false_eq_true, if_false] at hk ⊢
    by_cases h3 : c!"SanFrancisco".isPrefixOf old = true
    · rw [h3] at hk; cases hk; simp only [h3, Bool.true_or, if_true]
    rw [Bool.not_eq_true] at h3
    simp only [h3, Bool.false_or, Bool.false_eq_true, if_false] at hk ⊢
    by_cases h4 : c!"san_francisco".isPrefixOf old = true
    · rw [h4] at hk; cases hk; simp only [h4, if_true]
    rw [Bool.not_eq_true] at h4
    simp only [h4, Bool.false_eq_true, if_false] at hk ⊢
    by_cases h5 : c!"san_leandro".isPrefixOf old = true
    · rw [h5] at hk; cases hk; simp only [h5, if_true]
    rw [Bool.not_eq_true] at h5
    simp only [h5, Bool.false_eq_true, if_false] at hk ⊢
    by_cases h6 : c!"oakland".isPrefixOf old = true
    · rw [h6] at hk; cases hk; simp only [h6, if_true]
    rw [Bool.not_eq_true] at h6
    simp only [h6, Bool.false_eq_true, if_false] at hk ⊢
    by_cases h7 : c!"Maine".isPrefixOf old = true
    · rw [h7] at hk; cases hk; simp only [h7, if_true]
    rw [Bool.not_eq_true] at h7
    simp only [h7, Bool.false_eq_true, if_false] at hk ⊢
    by_cases h8 : c!"ME_Primary".isPrefixOf old = true
    · rw [h8] at hk; cases hk; simp only [h8, if_true]
    rw [Bool.not_eq_true] at h8
    simp only [h8, Bool.false_eq_true, if_false] at hk ⊢
    by_cases h9 : c!"Portland_ME".isPrefixOf old = true
    · rw [h9] at hk; cases hk; simp only [h9, if_true]
    rw [Bool.not_eq_true] at h9
    simp only [h9, Bool.false_eq_true, if_false] at hk ⊢
    by_cases h10 : c!"Minneapolis".isPrefixOf old = true
    · rw [h10] at hk; cases hk; simp only [h10, if_true]
    rw [Bool.not_eq_true] at h10
    simp only [h10, Bool.false_eq_true, if_false] at hk ⊢
    by_cases h11 : c!"NYC".isPrefixOf old = true
    · rw [h11] at hk; cases hk; simp only [h11, if_true]
    rw [Bool.not_eq_true] at h11
    simp only [h11, Bool.false_eq_true, if_false] at hk ⊢
    by_cases h12 : c!"Burlington_VT".isPrefixOf old = true
    · rw [h12] at hk; cases hk; simp only [h12, if_true]
    rw [Bool.not_eq_true] at h12
    simp only [h12, Bool.false_eq_true, if_false] at hk ⊢
    by_cases h13 : c!"Pierce_WA".isPrefixOf old = true
    · rw [h13] at hk; cases hk; simp only [h13, if_true]
    rw [Bool.not_eq_true] at h13
    simp only [h13] at hk
    cases hk
  · intro h1 h2
    rw [List.isPrefixOf_iff_prefix.2 h1, h2]
    simp
  · intro h
    refine or_congr Iff.rfl ?_
    have hp : ∀ k ∈ knownTags, k.1.isPrefixOf old = false := by
      intro k hk
      rw [← Bool.not_eq_true, List.isPrefixOf_iff_prefix]
      exact h k hk
    simp only [knownTags, List.forall_mem_cons, List.not_mem_nil, false_imp_iff, implies_true, and_true] at hp
    obtain ⟨h1, h2, h3, h4, h5, h6, h7, h8, h9, h10, h11, h12, h13⟩ := hp
    simp only [h1, h2, h3, h4, h5, h6, h7, h8, h9, h10, h11, h12, h13, Bool.false_and, Bool.or_self, Bool.false_eq_true, if_false]
    simp only [List.mem_map]
    constructor
    · rintro ⟨c, hc, rfl⟩; exact ⟨c, hc, rfl⟩
    · rintro ⟨c, hc, rfl⟩; exact ⟨c, hc, rfl⟩

/-- C91 does not hold of `_fix_tag` as documented ("acts a passthrough"): a tag it does not know, `2024`, comes out as its digits. -/
theorem C91_refuted : c!"2024" ∉ fixTag c!"2024" [] ∧ c!"4" ∈ fixTag c!"2024" [] := by
  decide +kernel

section
set_option maxRecDepth 20000

def exArchive : Str := c!"{\"srcfmt\": \"nameq_archive\", \"archive_subfiles\": [{\"abifloc\": \"ny/mayor.abif\", \"tags\": [\"NYC\", \"2021\"], \"desc\": \"d\"}, {\"abifloc\": \"x.txt\", \"title\": \"T\"}]}"

/-- an entry as plain strings -/
def _root_.Verif.CfgEntry.show (e : CfgEntry) : List Str := [e.filename, e.id.getD c!"-", e.title.dumps, e.tags.getD c!"-", e.desc.dumps]

/-- the entries of an output -/
def _root_.Verif.CfgOut.shown : CfgOut → List (List Str)
  | .entries l => l.map CfgEntry.show
  | .srcfmt _ => []

example : (cfgConvert (some exArchive)).toOption.map CfgOut.shown =
    some [[c!"ny/mayor.abif", c!"mayor", c!"\"mayor\"", c!"NYC, 2021", c!"\"d\""], [c!"x.txt", c!"-", c!"\"T\"", c!"-", c!"null"]] := by
  decide +kernel

example : FileId c!"ny/mayor.abif" c!"mayor" := (C91_id _ _).1 (by decide +kernel)

example : (fixTag c!"NYC_Mayor" [] = [c!"mayor", c!"NY", c!"NYC_NY"]) ∧ (fixTag c!"Alaska_x" c!"Alaska-U.S. House" = [c!"AK", c!"federal"]) := by
  decide +kernel

end

end Verif.Props
