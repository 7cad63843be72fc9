/-
Helper lemmas on the nameq format.
-/
import Verif.Model.Nameq
import Verif.Spec.Ballots
import Verif.Lib.Url
import Verif.Lib.Prefstr
import Verif.Lib.Irv

set_option linter.unusedSimpArgs false
set_option linter.unusedSectionVars false

namespace Verif
open Spec
variable [U : Uni]

/-! ### numbers -/

theorem pyInt_neg {ds : Str} (hne : ds ≠ []) (hd : ∀ c ∈ ds, isDigit c = true) :
    pyIntOfStr ('-' :: ds) = .ok (-(digitsVal ds : Int)) := by
  have hst : strip ('-' :: ds) = '-' :: ds := by
    rw [strip_eq_iff]
    refine ⟨fun c hc => ?_, fun c hc => ?_⟩
    · simp at hc; subst hc; decide
    · rw [List.getLast?_cons] at hc
      simp only [Option.some.injEq] at hc
      rw [List.getLast?_eq_some_getLast hne] at hc
      simp only [Option.getD_some] at hc
      exact digit_not_space (hd c (hc ▸ List.getLast_mem hne))
  have hnu : ∀ c ∈ ds, c ≠ '_' := by
    rintro c hc rfl
    have := hd _ hc
    rw [digit_ascii (by decide) (by decide)] at this
    cases this
  have hfil : ds.filter (fun c => c != '_') = ds := by
    rw [List.filter_eq_self]
    intro c hc; simpa using hnu c hc
  have hm : signSplit ('-' :: ds) = (true, ds) := rfl
  have hall : ds.all (fun c => isDigit c || c == '_') = true := by
    rw [List.all_eq_true]; intro c hc; simp [hd c hc]
  have hh : ds.head?.any isDigit = true := by
    cases ds with
    | nil => exact absurd rfl hne
    | cons c t => simpa using hd c (by simp)
  have hl : ds.getLast?.any isDigit = true := by
    rw [List.getLast?_eq_some_getLast hne]
    simpa using hd _ (List.getLast_mem hne)
  have hz : (ds.zip ds.tail).all (fun p => !(p.1 == '_' && p.2 == '_')) = true := by
    rw [List.all_eq_true]
    intro p hp
    have := hnu p.1 (List.of_mem_zip hp).1
    simp [this]
  unfold pyIntOfStr
  simp only [hst, hm, hh, hl, hall, hz, Bool.and_self, if_true, hfil]

/-- `int(str(i)) == i` -/
theorem pyInt_intStr (i : Int) : pyIntOfStr (intStr i) = .ok i := by
  cases i with
  | ofNat n =>
    show pyIntOfStr (natStr n) = _
    rw [pyInt_digits (natStr_spec n).1 (natStr_spec n).2.1, (natStr_spec n).2.2]; rfl
  | negSucc n =>
    show pyIntOfStr ('-' :: natStr (n + 1)) = _
    rw [pyInt_neg (natStr_spec _).1 (natStr_spec _).2.1, (natStr_spec _).2.2]; rfl

theorem numCh_safe {c : Char} (h : numCh c = true) : isUrlSafe c = true := by
  unfold numCh at h
  unfold isUrlSafe isAsciiAlnum
  simp only [Bool.or_eq_true] at h ⊢
  rcases h with h | h
  · simp [h]
  · simp [h]

theorem unquotePlus_intStr (i : Int) : unquotePlus (intStr i) = intStr i := by
  have : quotePlus (intStr i) = intStr i := (quotePlus_eq_iff _).2 (fun c hc => numCh_safe (intStr_numCh i c hc))
  rw [← this, unquotePlus_quotePlus, this]

theorem intStr_ne (i : Int) : intStr i ≠ [] := by
  cases i with
  | ofNat n => exact natStr_ne n
  | negSucc n => simp [intStr]

/-! ### the line of one ballot -/

/-- the printed item of an entry that has a rank -/
def nqItem (kp : Str × Pref) : Str := quotePlus kp.1 ++ ('=' :: intStr (kp.2.rank.getD 0))

/-- the printed line of a ballot, without line break -/
def nqLine (vl : Voteline) : Str := joinStr ['&'] (vl.prefs.map nqItem)

theorem nqItem_clean (kp : Str × Pref) : ∀ c ∈ nqItem kp, c ≠ '&' ∧ isSpace c = false ∧ isLineBreak c = false := by
  intro c hc
  rcases List.mem_append.1 hc with hc | hc
  · obtain ⟨h1, _, h3, h4⟩ := quotePlus_clean _ c hc
    exact ⟨h1, h3, h4⟩
  · rcases List.mem_cons.1 hc with rfl | hc
    · decide
    · obtain ⟨_, _, _, h1, _, h3, h4⟩ := urlSafe_ascii (numCh_safe (intStr_numCh _ c hc))
      exact ⟨h1, h3, h4⟩

theorem joinStr_mem {sep : Str} {ps : List Str} {c : Char} (h : c ∈ joinStr sep ps) : c ∈ sep ∨ ∃ p ∈ ps, c ∈ p := by
  induction ps with
  | nil => simp [joinStr] at h
  | cons p ps ih =>
    cases ps with
    | nil => exact .inr ⟨p, by simp, h⟩
    | cons q ps =>
      rw [joinStr] at h
      rcases List.mem_append.1 h with h | h
      · rcases List.mem_append.1 h with h | h
        · exact .inr ⟨p, by simp, h⟩
        · exact .inl h
      · rcases ih h with h | ⟨x, hx, hc⟩
        · exact .inl h
        · exact .inr ⟨x, by simp [hx], hc⟩

theorem nqLine_clean (vl : Voteline) : ∀ c ∈ nqLine vl, isSpace c = false ∧ isLineBreak c = false := by
  intro c hc
  rcases joinStr_mem hc with hc | ⟨p, hp, hc⟩
  · simp at hc; subst hc; decide
  · obtain ⟨kp, _, rfl⟩ := List.mem_map.1 hp
    exact (nqItem_clean kp c hc).2

theorem strip_noSpace {s : Str} (h : ∀ c ∈ s, isSpace c = false) : strip s = s := by
  rw [strip_eq_iff]
  exact ⟨fun c hc => h c (List.mem_of_head? hc), fun c hc => h c (List.mem_of_getLast? hc)⟩

theorem parseQsPiece_item (kp : Str × Pref) : parseQsPiece (nqItem kp) = some (kp.1, intStr (kp.2.rank.getD 0)) := by
  unfold parseQsPiece nqItem
  rw [splitEq_append (fun c hc => (quotePlus_clean _ c hc).2.1)]
  simp only [intStr_ne, if_false, unquotePlus_quotePlus, unquotePlus_intStr]

theorem parseQsl_line (vl : Voteline) : parseQsl (nqLine vl) = vl.prefs.map (fun kp => (kp.1, intStr (kp.2.rank.getD 0))) := by
  unfold parseQsl nqLine
  by_cases h : vl.prefs = []
  · rw [h]; rfl
  · rw [splitChar_join]
    · rw [List.filterMap_map, ← List.filterMap_eq_map]
      apply List.filterMap_congr
      intro kp _
      exact parseQsPiece_item kp
    · intro p hp
      obtain ⟨kp, _, rfl⟩ := List.mem_map.1 hp
      exact fun c hc => (nqItem_clean kp c hc).1
    · simpa using h

theorem nameqLine_line {vl : Voteline} (hw : Dict.WF vl.prefs) : nameqLine (nqLine vl) =
    .ok { qty := 1, prefs := vl.prefs.map (fun kp => (kp.1, { rank := some (kp.2.rank.getD 0) })), nameq := some (nqLine vl) } := by
  unfold nameqLine parseQs
  rw [strip_noSpace (fun c hc => (nqLine_clean vl c hc).1), parseQsl_line, parseQsGroup_nodup]
  · rw [List.nil_append, List.map_map]
    have : ((vl.prefs.map ((fun (p : Str × Str) => (p.1, [p.2])) ∘ fun (kp : Str × Pref) => (kp.1, intStr (kp.2.rank.getD 0)))).mapM
        nameqEntry) = .ok (vl.prefs.map (fun (kp : Str × Pref) => (kp.1, ({ rank := some (kp.2.rank.getD 0) } : Pref)))) := by
      rw [mapM_ok_of_forall nameqEntry (fun (kv : Str × List Str) => (kv.1, ({ rank := some (match kv.2 with
        | v :: _ => (match pyIntOfStr v with | .ok r => r | .error _ => 0) | [] => 0) } : Pref)))]
      · rw [List.map_map]
        congr 1
        apply List.map_congr_left
        intro kp _
        simp only [Function.comp_apply, pyInt_intStr]
      · intro a ha
        obtain ⟨kp, _, rfl⟩ := List.mem_map.1 ha
        simp only [Function.comp_apply, nameqEntry, pyInt_intStr]
    rw [this]
  · rw [List.map_nil, List.nil_append, List.map_map]
    exact hw

/-! ### writing -/

/-- all entries have ranks -/
def AllRanked (vl : Voteline) : Prop := ∀ (kp : Str × Pref), kp ∈ vl.prefs → kp.2.rank ≠ none

theorem nameqItem_mapM {prefs : Dict Str Pref} {items : List Str} (h : prefs.mapM nameqItem = .ok items) :
    (∀ (kp : Str × Pref), kp ∈ prefs → kp.2.rank ≠ none) ∧ items = prefs.map nqItem := by
  induction prefs generalizing items with
  | nil => cases h; simp
  | cons e prefs ih =>
    rw [List.mapM_cons] at h
    cases hr : e.2.rank with
    | none =>
      have he : nameqItem e = .error .keyError := by unfold nameqItem; simp [hr]
      rw [he] at h; cases h
    | some r =>
      have he : nameqItem e = .ok (nqItem e) := by unfold nameqItem nqItem; simp [hr]
      rw [he] at h
      cases hm : prefs.mapM nameqItem with
      | error e => rw [hm] at h; cases h
      | ok ds =>
        rw [hm] at h
        cases h
        obtain ⟨h1, h2⟩ := ih hm
        refine ⟨?_, by rw [h2]; rfl⟩
        intro kp hkp
        rcases List.mem_cons.1 hkp with rfl | hkp
        · simp [hr]
        · exact h1 kp hkp

theorem nameqItem_mapM_of {prefs : Dict Str Pref} (h : ∀ (kp : Str × Pref), kp ∈ prefs → kp.2.rank ≠ none) :
    prefs.mapM nameqItem = .ok (prefs.map nqItem) := by
  apply mapM_ok_of_forall
  intro kp hkp
  cases hr : kp.2.rank with
  | none => exact absurd hr (h kp hkp)
  | some r => unfold nameqItem nqItem; simp [hr]

theorem flatten_replicate_eq (n : Nat) (vl : Voteline) : (List.replicate n (nqLine vl ++ ['\n'])).flatten =
    (List.replicate n vl).flatMap (fun v => nqLine v ++ ['\n']) := by
  induction n with
  | zero => rfl
  | succ n ih => rw [List.replicate_succ, List.replicate_succ, List.flatten_cons, List.flatMap_cons, ih]

theorem nameqVoteline_iff (vl : Voteline) (t : Str) : nameqVoteline vl = .ok t ↔
    (0 < vl.qty → AllRanked vl) ∧ t = (List.replicate vl.qty.toNat vl).flatMap (fun v => nqLine v ++ ['\n']) := by
  unfold nameqVoteline
  by_cases hq : vl.qty.toNat = 0
  · rw [if_pos hq, hq]
    simp only [List.replicate_zero, List.flatMap_nil]
    constructor
    · intro h; cases h; exact ⟨fun h => by omega, rfl⟩
    · rintro ⟨_, rfl⟩; rfl
  · rw [if_neg hq]
    unfold nameqBallot
    constructor
    · intro h
      cases hm : vl.prefs.mapM nameqItem with
      | error e => rw [hm] at h; cases h
      | ok items =>
        rw [hm] at h
        obtain ⟨h1, h2⟩ := nameqItem_mapM hm
        cases h
        refine ⟨fun _ => h1, ?_⟩
        rw [h2]
        exact flatten_replicate_eq _ _
    · rintro ⟨h1, rfl⟩
      rw [nameqItem_mapM_of (h1 (by omega))]
      simp only
      congr 1
      exact flatten_replicate_eq _ _

theorem nameqVotelines_iff (vls : List Voteline) (t : Str) :
    (match vls.mapM nameqVoteline with | .ok ls => Except.ok ls.flatten | .error e => .error e) = (.ok t : Except PyErr Str) ↔
    (∀ (vl : Voteline), vl ∈ vls → 0 < vl.qty → AllRanked vl) ∧
      t = (singleBallots vls).flatMap (fun v => nqLine v ++ ['\n']) := by
  induction vls generalizing t with
  | nil =>
    constructor
    · intro h; cases h; exact ⟨by simp, rfl⟩
    · rintro ⟨_, rfl⟩; rfl
  | cons vl vls ih =>
    rw [List.mapM_cons]
    constructor
    · intro h
      cases h1 : nameqVoteline vl with
      | error e => rw [h1] at h; cases h
      | ok t1 =>
        rw [h1] at h
        cases h2 : vls.mapM nameqVoteline with
        | error e => rw [h2] at h; cases h
        | ok ts =>
          rw [h2] at h
          cases h
          rw [h2] at ih
          obtain ⟨a1, a2⟩ := (nameqVoteline_iff vl t1).1 h1
          obtain ⟨b1, b2⟩ := (ih ts.flatten).1 rfl
          refine ⟨?_, ?_⟩
          · intro x hx
            rcases List.mem_cons.1 hx with rfl | hx
            · exact a1
            · exact b1 x hx
          · rw [List.flatten_cons, a2, b2]; unfold singleBallots
            rw [List.flatMap_cons, List.flatMap_append]
    · rintro ⟨h1, rfl⟩
      rw [(nameqVoteline_iff vl _).2 ⟨h1 vl (by simp), rfl⟩]
      have := (ih _).2 ⟨fun x hx => h1 x (by simp [hx]), rfl⟩
      cases h2 : vls.mapM nameqVoteline with
      | error e => rw [h2] at this; cases this
      | ok ts =>
        rw [h2] at this
        simp only [Except.ok.injEq] at this
        show Except.ok (List.flatten (_ :: ts)) = _
        rw [List.flatten_cons, this]; unfold singleBallots
        rw [List.flatMap_cons, List.flatMap_append]

/-! ### candidates -/

theorem nameqCands_get (vls : List Voteline) (d : Dict Str (Option Str)) (c : Str) :
    Dict.get? (nameqCands vls d) c =
      open Classical in if ∃ vl ∈ vls, c ∈ Dict.keys vl.prefs then some (some c) else Dict.get? d c := by
  induction vls generalizing d with
  | nil => simp [nameqCands]
  | cons vl vls ih =>
    rw [nameqCands, ih]
    have hf : ∀ (ks : List Str) (d : Dict Str (Option Str)),
        Dict.get? (ks.foldl (fun d k => Dict.set d k (some k)) d) c = if c ∈ ks then some (some c) else Dict.get? d c := by
      intro ks
      induction ks with
      | nil => intro d; simp
      | cons k ks ihk =>
        intro d
        rw [List.foldl_cons, ihk, Dict.get?_set]
        by_cases h1 : c ∈ ks
        · simp [h1]
        · by_cases h2 : k = c
          · subst h2; simp [h1]
          · have : ¬ c = k := fun e => h2 e.symm
            simp [h1, h2, this]
    rw [hf]
    by_cases h1 : ∃ vl ∈ vls, c ∈ Dict.keys vl.prefs
    · have : ∃ vl' ∈ vl :: vls, c ∈ Dict.keys vl'.prefs := by
        obtain ⟨x, hx, hc⟩ := h1; exact ⟨x, by simp [hx], hc⟩
      rw [if_pos h1, if_pos this]
    · rw [if_neg h1]
      by_cases h2 : c ∈ Dict.keys vl.prefs
      · rw [if_pos h2, if_pos ⟨vl, by simp, h2⟩]
      · rw [if_neg h2, if_neg]
        rintro ⟨x, hx, hc⟩
        rcases List.mem_cons.1 hx with rfl | hx
        · exact h2 hc
        · exact h1 ⟨x, hx, hc⟩

end Verif
