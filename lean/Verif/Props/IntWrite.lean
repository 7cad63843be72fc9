/-
C120: elections that can be read can be written, unless the number of all ballots has too many digits.
-/
import Verif.Model.IntWrite
import Verif.Props.IntLimit
import Verif.Props.Merge
import Verif.Props.Consolidate
import Verif.Props.Irv
import Verif.Props.Paper
import Verif.Lib.JsonIo
import Verif.Lib.Parsed

set_option linter.unusedSimpArgs false
set_option linter.unusedSectionVars false

namespace Verif.Props
open Verif Spec

theorem fitsInt_iff {lim : Nat} (hl : 0 < lim) (i : Int) : fitsInt lim i = true ↔ i.natAbs < 10 ^ lim := by
  unfold fitsInt natStr
  rw [decide_eq_true_eq, Nat.length_toDigits_le_iff (by decide) hl]

theorem fitsArr_all (lim : Nat) (l : List Json) : Json.fitsArr lim l = l.all (fun j => j.fits lim) := by
  induction l with
  | nil => simp [Json.fitsArr]
  | cons x l ih => rw [Json.fitsArr, ih]; rfl

theorem fitsObj_all (lim : Nat) (l : List (Str × Json)) : Json.fitsObj lim l = l.all (fun kv => kv.2.fits lim) := by
  induction l with
  | nil => simp [Json.fitsObj]
  | cons x l ih => rw [Json.fitsObj, ih]; rfl

section
variable [U : Uni]

theorem decVal_lt {c : Char} {d : Nat} (h : decVal c = some d) : d < 10 := by
  unfold decVal at h
  split at h
  · split at h
    · rename_i h1
      unfold isAsciiDigit at h1
      simp only [Bool.and_eq_true, decide_eq_true_eq] at h1
      cases h
      omega
    · cases h
  · exact U.decHi_lt c d h

theorem digitsVal_lt (s : Str) : digitsVal s < 10 ^ s.length := by
  have key : ∀ (s : Str) (a : Nat), s.foldl (fun a c => 10 * a + (decVal c).getD 0) a < (a + 1) * 10 ^ s.length := by
    intro s
    induction s with
    | nil => intro a; simp
    | cons c s ih =>
      intro a
      rw [List.foldl_cons, List.length_cons, Nat.pow_succ]
      have hd : (decVal c).getD 0 < 10 := by
        cases h : decVal c with
        | none => simp
        | some d => exact decVal_lt h
      refine Nat.lt_of_lt_of_le (ih _) ?_
      rw [Nat.mul_comm (10 ^ s.length) 10, ← Nat.mul_assoc]
      exact Nat.mul_le_mul_right _ (by omega)
  have := key s 0
  simpa [digitsVal] using this

/-- a rating that can be written -/
def RatFits (lim : Nat) : Option RVal → Prop
  | some (.int i) => i.natAbs < 10 ^ lim
  | _ => True

theorem exStepLim_fit {lim : Nat} {s s' : ExSt} {tok : Str} (h : exStepLim lim s tok = .ok s') (hs : ∀ e ∈ s.retval, RatFits lim e.2) :
    ∀ e ∈ s'.retval, RatFits lim e.2 := by
  have happ : ∀ (l : List (Str × Option RVal)) (c : Str) (r : Option RVal), (∀ e ∈ l, RatFits lim e.2) → RatFits lim r → ∀ e ∈ l ++ [(c, r)], RatFits lim e.2 := by
    intro l c r h1 h2 e he
    rcases List.mem_append.1 he with he | he
    · exact h1 e he
    · simp only [List.mem_singleton] at he; rw [he]; exact h2
  have hset : ∀ (l : List (Str × Option RVal)) (c : Str) (r : Option RVal), (∀ e ∈ l, RatFits lim e.2) → RatFits lim r → ∀ e ∈ setLast l (c, r), RatFits lim e.2 := by
    intro l c r h1 h2 e he
    unfold setLast at he
    rcases List.mem_append.1 he with he | he
    · exact h1 e (List.dropLast_subset _ he)
    · simp only [List.mem_singleton] at he; rw [he]; exact h2
  have pnone : RatFits lim none := trivial
  unfold exStepLim at h
  have hnum : ∀ ds, exNumber s tok = some ds → (digitsVal ds : Nat) < 10 ^ lim := by
    intro ds he
    rw [he] at h
    simp only at h
    split at h
    · cases h
    · exact Nat.lt_of_lt_of_le (digitsVal_lt ds) (Nat.pow_le_pow_right (by decide) (by omega))
  have h : exStep s tok = .ok s' := by
    split at h
    · split at h
      · cases h
      · exact h
    · exact h
  unfold exNumber at hnum
  unfold exStep at h
  simp only at h
  split at h
  · split at h
    · cases h; exact hs
    · split at h
      · cases h; exact happ _ _ _ hs pnone
      · split at h
        · split at h
          · cases h; exact hs
          · split at h
            · cases h
            · cases h; exact hset _ _ _ hs pnone
        · split at h
          · cases h; exact hs
          · cases h
  · rename_i hin
    rw [if_neg hin] at hnum
    split at h
    · cases h
      exact happ _ _ _ hs trivial
    · rename_i hq
      split at h
      · cases h; exact hs
      · rename_i hb
        rw [hq, hb] at hnum
        simp only [Option.isSome_none, Bool.or_self, Bool.false_eq_true, if_false] at hnum
        split at h
        · rename_i hp
          rw [if_pos hp] at hnum
          revert h
          cases hsr : slashRating (strip tok) with
          | none =>
            simp only
            split
            · intro h; cases h; exact happ _ _ _ hs pnone
            · intro h; cases h; exact hs
          | some bd =>
            have hv : RatFits lim (some (.int (digitsVal bd.2))) := by
              have := hnum bd.2 (by rw [hsr]; rfl)
              simpa [RatFits] using this
            simp only
            split
            · simp only
              split
              · intro h; cases h
              · intro h; cases h
                exact hset _ _ _ (happ _ _ _ hs pnone) hv
            · split
              · intro h; cases h
              · split
                · intro h; cases h
                  exact hset _ _ _ hs hv
                · intro h; cases h
        · split at h
          · cases h; exact hs
          · split at h
            · cases h; exact hs
            · cases h; exact hs

theorem exLoopLim_fit {lim : Nat} {toks : List Str} {s s' : ExSt} (h : exLoopLim lim s toks = .ok s') (hs : ∀ e ∈ s.retval, RatFits lim e.2) :
    ∀ e ∈ s'.retval, RatFits lim e.2 := by
  induction toks generalizing s with
  | nil => cases h; exact hs
  | cons t ts ih =>
    unfold exLoopLim at h
    obtain ⟨s1, h1, h⟩ := bind_ok.1 h
    exact ih h (exStepLim_fit h1 hs)

theorem prefLoop_fit {lim : Nat} {mode : RankOrRate} {delims : List Char} {n i : Nat} {rank : Int}
    {cps : List (Str × Option RVal)} {prefs out : Dict Str Pref}
    (h : prefLoop mode delims n i rank cps prefs = .ok out) (hc : ∀ e ∈ cps, RatFits lim e.2)
    (hg : ∀ kp ∈ prefs, RatFits lim kp.2.rating) : ∀ kp ∈ out, RatFits lim kp.2.rating := by
  induction cps generalizing i rank prefs with
  | nil =>
    unfold prefLoop at h
    cases h
    exact hg
  | cons e rest ih =>
    obtain ⟨cand, rating⟩ := e
    have hrest : ∀ e ∈ rest, RatFits lim e.2 := fun e he => hc e (by simp [he])
    have step : ∀ (p : Pref) (rank' : Int), RatFits lim p.rating →
        prefLoop mode delims n (i + 1) rank' rest (prefs.set cand p) = .ok out → ∀ kp ∈ out, RatFits lim kp.2.rating := by
      intro p rank' hp h
      apply ih h hrest
      intro kp hkp
      rcases dict_mem_set hkp with h | h
      · rw [h]; exact hp
      · exact hg kp h
    have hr : RatFits lim (if ratingTruthy rating then rating else none) := by
      split
      · exact hc (cand, rating) (by simp)
      · trivial
    unfold prefLoop at h
    simp only at h
    split at h
    · split at h
      · cases h
      · exact step _ _ hr h
    · exact step _ _ hr h

theorem addRanksLoop_fit {lim : Nat} : ∀ (ks : List (Str × Int)) (first : Bool) (a b : Int) (prefs out : Dict Str Pref),
    addRanksLoop first a b ks prefs = .ok out → (∀ kp ∈ prefs, RatFits lim kp.2.rating) → ∀ kp ∈ out, RatFits lim kp.2.rating
  | [], _, _, _, prefs, out, h, hg => by
    unfold addRanksLoop at h
    cases h
    exact hg
  | (c, r) :: ks, first, a, b, prefs, out, h, hg => by
    have put : ∀ n : Int, ∀ kp ∈ prefs.modify c (fun p => if rankTruthy p.rank then p else { p with rank := some n }), RatFits lim kp.2.rating := by
      intro n kp hkp
      unfold Dict.modify at hkp
      split at hkp
      · rename_i v hv
        rcases dict_mem_set hkp with h | h
        · rw [h]
          have := hg _ (Dict.mem_of_get? hv)
          simp only
          split <;> exact this
        · exact hg kp h
      · exact hg kp hkp
    unfold addRanksLoop at h
    simp only at h
    split at h
    · exact addRanksLoop_fit ks _ _ _ _ _ h (put _)
    · split at h
      · exact addRanksLoop_fit ks _ _ _ _ _ h (put _)
      · split at h
        · exact addRanksLoop_fit ks _ _ _ _ _ h (put _)
        · cases h

theorem addRanksLim_fit {lim : Nat} {prefs out : Dict Str Pref} (h : addRanksByRatingLim lim prefs = .ok out) (hg : ∀ kp ∈ prefs, RatFits lim kp.2.rating) :
    ∀ kp ∈ out, RatFits lim kp.2.rating := by
  unfold addRanksByRatingLim at h
  obtain ⟨ks, _, h⟩ := bind_ok.1 h
  exact addRanksLoop_fit _ _ _ _ _ _ h hg

theorem parsePrefstrLim_fit {lim : Nat} {p : Str} {out : Dict Str Pref} {cs : List Str} (h : parsePrefstrLim lim p = .ok (out, cs)) :
    ∀ kp ∈ out, RatFits lim kp.2.rating := by
  unfold parsePrefstrLim extractCandprefsLim at h
  simp only at h
  obtain ⟨cps, h1, h⟩ := bind_ok.1 h
  obtain ⟨st, h0, h1⟩ := bind_ok.1 h1
  cases h1
  obtain ⟨p1, h2, h⟩ := bind_ok.1 h
  obtain ⟨p2, h3, h⟩ := bind_ok.1 h
  have f2 := addRanksLim_fit h3 (prefLoop_fit h2 (exLoopLim_fit h0 (by simp)) (by simp))
  split at h
  · cases h; simp
  · split at h
    · cases h
    · split at h
      · obtain ⟨p3, h4, h⟩ := bind_ok.1 h
        cases h
        exact addRanksLim_fit h4 f2
      · cases h; exact f2

/-- what holds of the model while the lines are read -/
structure WriteInv (lim : Nat) (m : Jabmod) : Prop where
  lines : ∀ vl ∈ m.votelines, vl.qty.natAbs < 10 ^ lim ∧ ∀ kp ∈ vl.prefs, RatFits lim kp.2.rating
  data : ∀ kv ∈ m.metadata, kv.1 ≠ c!"ballotcount" → kv.2.fits lim = true

theorem processLineLim_inv {lim : Nat} (hl : 0 < lim) {cw sc : Bool} {i : Nat} {l : Str} {m m' : Jabmod} (h : processLineLim lim cw sc i l m = .ok m')
    (hi : i < 10 ^ lim) (hm : WriteInv lim m) : WriteInv lim m' := by
  unfold processLineLim at h
  simp only at h
  obtain ⟨m1, h1, h⟩ := bind_ok.1 h
  have hentry : ∀ com : Str, (Json.arr [.int i, .str com]).fits lim = true := by
    intro com
    have : fitsInt lim (i : Int) = true := (fitsInt_iff hl _).2 (by simpa using hi)
    simp [Json.fits, Json.fitsArr, this]
  have hset : ∀ (m : Jabmod) (k : Str) (v : Json), WriteInv lim m → v.fits lim = true → WriteInv lim { m with metadata := m.metadata.set k v } := by
    intro m k v hm hv
    refine ⟨hm.lines, fun kv hkv hne => ?_⟩
    rcases dict_mem_set hkv with e | e
    · rw [e]; exact hv
    · exact hm.data kv e hne
  have hm1 : WriteInv lim m1 := by
    unfold processComment at h1
    split at h1
    · rename_i com _
      split at h1
      · simp only at h1
        split at h1
        · cases h1
          refine hset _ _ _ hm ?_
          rw [Json.fits, fitsArr_all]
          simp [hentry]
        · rename_i old ho
          cases h1
          refine hset _ _ _ hm ?_
          have := hm.data _ (Dict.mem_of_get? ho) (show c!"comments" ≠ c!"ballotcount" by decide)
          rw [Json.fits, fitsArr_all] at this ⊢
          simp only [List.all_append, this, List.all_cons, List.all_nil, hentry, Bool.and_self, Bool.and_true]
        · cases h1
      · cases h1; exact hm
    · cases h1; exact hm
  split at h
  · cases h
    exact ⟨hm1.lines, hm1.data⟩
  · split at h
    · cases h
      exact hset _ _ _ hm1 rfl
    · split at h
      · unfold processPreflineLim at h
        rename_i qs _ _
        simp only at h
        split at h
        · cases h
        split at h
        · cases h
        rename_i hle
        obtain ⟨q, h2, h⟩ := bind_ok.1 h
        cases h2
        obtain ⟨md, h3, h⟩ := bind_ok.1 h
        obtain ⟨⟨prefs, cands⟩, h4, h⟩ := bind_ok.1 h
        cases h
        have hq : (digitsVal qs : Int).natAbs < 10 ^ lim := by
          rw [Int.natAbs_natCast]
          exact Nat.lt_of_lt_of_le (digitsVal_lt _) (Nat.pow_le_pow_right (by decide) (by omega))
        refine ⟨fun vl hvl => ?_, fun kv hkv hne => ?_⟩
        · rcases List.mem_append.1 hvl with e | e
          · exact hm1.lines vl e
          · simp only [List.mem_singleton] at e
            subst e
            exact ⟨hq, parsePrefstrLim_fit h4⟩
        · unfold bumpBallotcount at h3
          split at h3
          · cases h3
            rcases dict_mem_set hkv with e | e
            · exact absurd (by rw [e]) hne
            · exact hm1.data kv e hne
          · cases h3
          · cases h3
      · cases h; exact hm1

theorem processLinesLim_inv {lim : Nat} (hl : 0 < lim) {cw sc : Bool} : ∀ (ls : List Str) (i : Nat) (m m' : Jabmod),
    processLinesLim lim cw sc i ls m = .ok m' → i + ls.length < 10 ^ lim → WriteInv lim m → WriteInv lim m'
  | [], _, _, _, h, _, hm => by cases h; exact hm
  | l :: ls, i, m, m', h, hi, hm => by
    unfold processLinesLim at h
    obtain ⟨m1, h1, h2⟩ := bind_ok.1 h
    rw [List.length_cons] at hi
    exact processLinesLim_inv hl ls (i + 1) m1 m' h2 (by omega) (processLineLim_inv hl h1 (by omega) hm)

theorem splitlinesAux_count (s cur : Str) : (splitlinesAux s cur).length ≤ s.length + (if cur = [] then 0 else 1) := by
  fun_induction splitlinesAux s cur with
  | case1 => simp
  | case2 => simp
  | case3 t cur ih => simp at *; split <;> omega
  | case4 c t cur _ _ ih => simp at *; split <;> omega
  | case5 c t cur _ _ ih => simp at *; split <;> omega

theorem convertAbifLim_inv {lim : Nat} (hl : 0 < lim) {cw sc : Bool} {text : Str} {m : Jabmod} (h : convertAbifLim lim cw false sc text = .ok m)
    (hlen : text.length < 10 ^ lim) : WriteInv lim m := by
  unfold convertAbifLim at h
  split at h
  · cases h
  · obtain ⟨m0, h0, h⟩ := bind_ok.1 h
    have hc : 0 + (splitlines text).length < 10 ^ lim := by
      have := splitlinesAux_count text []
      simp only [if_true] at this
      unfold splitlines
      omega
    have inv := processLinesLim_inv hl _ _ _ _ h0 hc ⟨by simp [emptyishJabmod], by simp [emptyishJabmod]⟩
    split at h
    · cases h
    · cases h
      exact ⟨fun vl hvl => inv.lines vl ((sortByKeyDesc_perm _ _).mem_iff.1 hvl), inv.data⟩

/-- everything but the number of all ballots can be written -/
structure Writable (lim : Nat) (m : Jabmod) : Prop where
  qty : ∀ vl ∈ m.votelines, vl.qty.natAbs < 10 ^ lim
  rating : ∀ vl ∈ m.votelines, ∀ kp ∈ vl.prefs, RatFits lim kp.2.rating
  rank : ∀ vl ∈ m.votelines, ∀ kp ∈ vl.prefs, ∀ r, kp.2.rank = some r → 0 ≤ r ∧ r.natAbs < 10 ^ lim
  data : ∀ kv ∈ m.metadata, kv.1 ≠ c!"ballotcount" → kv.2.fits lim = true

theorem read_writable {lim : Nat} (hl : 0 < lim) {cw ar sc : Bool} {text : Str} {m : Jabmod} (h : convertAbifLim lim cw ar sc text = .ok m)
    (hlen : 2 * text.length + m.candidates.length + 3 ≤ 10 ^ lim) : Writable lim m := by
  have base : ∀ m0, convertAbifLim lim cw false sc text = .ok m0 → Writable lim m0 := by
    intro m0 h0
    have inv := convertAbifLim_inv hl h0 (by omega)
    have hok : convertAbif cw false sc text = .ok m0 := by
      rcases C109_refines lim cw false sc text with e | e
      · rw [← e]; exact h0
      · rw [e] at h0; cases h0
    refine ⟨fun vl hvl => (inv.lines vl hvl).1, fun vl hvl => (inv.lines vl hvl).2, fun vl hvl kp hkp r hr => ?_, inv.data⟩
    obtain ⟨_, r', h1, h2, h3⟩ := convertAbif_entries hok vl hvl kp.1 kp.2 (Dict.get?_of_mem (C04_ranks _ _ _ _ _ hok vl hvl).1 hkp)
    rw [hr] at h1
    cases h1
    omega
  cases ar with
  | false => exact base m h
  | true =>
    unfold convertAbifLim at h
    split at h
    · cases h
    rename_i hne
    obtain ⟨m0, h0, h⟩ := bind_ok.1 h
    split at h
    · cases h
    rename_i hv
    obtain ⟨m1, h1, h⟩ := bind_ok.1 h
    cases h
    have hw0 : Writable lim { m0 with votelines := sortByKeyDesc Voteline.qty m0.votelines } := by
      apply base
      unfold convertAbifLim
      rw [if_neg hne, h0, ok_bind, if_neg hv]
      rfl
    have hw : Writable lim m0 := by
      have hmem : ∀ vl, vl ∈ m0.votelines → vl ∈ sortByKeyDesc Voteline.qty m0.votelines := fun vl hvl => (sortByKeyDesc_perm _ _).mem_iff.2 hvl
      exact ⟨fun vl hvl => hw0.qty vl (hmem vl hvl), fun vl hvl => hw0.rating vl (hmem vl hvl), fun vl hvl => hw0.rank vl (hmem vl hvl), hw0.data⟩
    unfold addRatings at h1
    simp only at h1
    obtain ⟨vls, hm, h1⟩ := bind_ok.1 h1
    cases h1
    have hlines : ∀ vl ∈ vls, vl.qty.natAbs < 10 ^ lim ∧ ∀ kp ∈ vl.prefs, RatFits lim kp.2.rating ∧ ∀ r, kp.2.rank = some r → 0 ≤ r ∧ r.natAbs < 10 ^ lim := by
      intro vl hvl
      obtain ⟨v0, hv0, hs⟩ := mem_of_mapM hm vl hvl
      obtain ⟨ps, hp, hs⟩ := bind_ok.1 hs
      cases hs
      refine ⟨hw.qty v0 hv0, fun kp hkp => ?_⟩
      obtain ⟨k0, hk0, hs⟩ := mem_of_mapM hp kp hkp
      obtain ⟨p, hp, hs⟩ := bind_ok.1 hs
      cases hs
      have hr := hw.rank v0 hv0 k0 hk0
      unfold addRatingEntry at hp
      split at hp
      · cases hp
        exact ⟨hw.rating v0 hv0 k0 hk0, hr⟩
      · split at hp
        · cases hp
          exact ⟨by simp [RatFits]; omega, hr⟩
        · split at hp
          · rename_i r he
            cases hp
            refine ⟨?_, hr⟩
            have := hr r he
            simp only [RatFits]
            simp only at hlen
            omega
          · cases hp
    have hmem : ∀ vl, vl ∈ sortByKeyDesc Voteline.qty vls → vl ∈ vls := fun vl hvl => (sortByKeyDesc_perm _ _).mem_iff.1 hvl
    refine ⟨fun vl hvl => (hlines vl (hmem vl hvl)).1, fun vl hvl kp hkp => ((hlines vl (hmem vl hvl)).2 kp hkp).1,
      fun vl hvl kp hkp => ((hlines vl (hmem vl hvl)).2 kp hkp).2, fun kv hkv hne => ?_⟩
    simp only at hkv
    split at hkv
    · rcases dict_mem_set hkv with e | e
      · rw [e]; rfl
      · exact hw.data kv e hne
    · exact hw.data kv hkv hne

theorem fitsRating_iff {lim : Nat} (hl : 0 < lim) (r : Option RVal) : fitsRating lim r = true ↔ RatFits lim r := by
  unfold fitsRating RatFits
  split
  · exact fitsInt_iff hl _
  · simp

theorem pref_fits {lim : Nat} (hl : 0 < lim) {p : Pref} (h1 : RatFits lim p.rating) (h2 : ∀ r, p.rank = some r → 0 ≤ r ∧ r.natAbs < 10 ^ lim) :
    p.toJson.fits lim = true := by
  unfold Pref.toJson
  rw [Json.fits, fitsObj_all, List.all_append, List.all_append, Bool.and_eq_true, Bool.and_eq_true]
  refine ⟨⟨?_, ?_⟩, ?_⟩
  · split
    · rename_i r hr
      rw [hr] at h1
      cases r with
      | int i =>
        have : fitsInt lim i = true := (fitsInt_iff hl i).2 h1
        simp [RVal.toJson, Json.fits, this]
      | str s => simp [RVal.toJson, Json.fits]
      | null => simp [RVal.toJson, Json.fits]
    · rfl
  · split
    · rename_i r hr
      have : fitsInt lim r = true := (fitsInt_iff hl r).2 (h2 r hr).2
      simp [Json.fits, this]
    · rfl
  · split
    · simp [Json.fits]
    · rfl

theorem line_fits {lim : Nat} (hl : 0 < lim) {vl : Voteline} (h0 : vl.qty.natAbs < 10 ^ lim) (h1 : ∀ kp ∈ vl.prefs, RatFits lim kp.2.rating)
    (h2 : ∀ kp ∈ vl.prefs, ∀ r, kp.2.rank = some r → 0 ≤ r ∧ r.natAbs < 10 ^ lim) : vl.toJson.fits lim = true := by
  have hq : fitsInt lim vl.qty = true := (fitsInt_iff hl _).2 h0
  have hp : (prefsJson vl.prefs).fits lim = true := by
    unfold prefsJson
    rw [Json.fits, fitsObj_all, List.all_map, List.all_eq_true]
    exact fun kp hkp => pref_fits hl (h1 kp hkp) (h2 kp hkp)
  have hopt : ∀ (k : Str) (o : Option Str), (optMember k o).all (fun kv => kv.2.fits lim) = true := by
    intro k o
    cases o <;> simp [optMember, Json.fits]
  unfold Voteline.toJson
  rw [Json.fits, fitsObj_all]
  simp only [List.all_append, List.all_cons, List.all_nil, hopt, hp, Bool.and_true, Json.fits, hq, Bool.true_and]
  cases vl.comment <;> rfl

/-- the number of all ballots decides -/
theorem model_fits {lim : Nat} (hl : 0 < lim) {m : Jabmod} (hw : Writable lim m) (hk : Dict.WF m.metadata) {n : Int}
    (hn : Dict.get? m.metadata c!"ballotcount" = some (.int n)) :
    (Json.fitsObj lim m.metadata = true ↔ n.natAbs < 10 ^ lim) ∧ (m.toJson.fits lim = true ↔ n.natAbs < 10 ^ lim) := by
  have h1 : Json.fitsObj lim m.metadata = true ↔ n.natAbs < 10 ^ lim := by
    rw [fitsObj_all, List.all_eq_true]
    constructor
    · intro h
      have := h _ (Dict.mem_of_get? hn)
      rw [Json.fits] at this
      exact (fitsInt_iff hl n).1 this
    · intro h kv hkv
      by_cases e : kv.1 = c!"ballotcount"
      · have h2 := Dict.get?_of_mem (k := kv.1) (v := kv.2) hk hkv
        rw [e, hn] at h2
        rw [← Option.some.inj h2, Json.fits]
        exact (fitsInt_iff hl n).2 h
      · exact hw.data kv hkv e
  refine ⟨h1, ?_⟩
  rw [← h1]
  obtain ⟨C, hC, he⟩ : ∃ C : List (Str × Json), Json.fitsObj lim C = true ∧
      m.toJson = .obj [(c!"candidates", .obj C), (c!"metadata", .obj m.metadata), (c!"votelines", .arr (m.votelines.map Voteline.toJson))] := by
    refine ⟨_, ?_, rfl⟩
    rw [fitsObj_all, List.all_map, List.all_eq_true]
    intro kv _
    simp only [Function.comp_apply]
    cases kv.2 <;> rfl
  have hv : Json.fitsArr lim (m.votelines.map Voteline.toJson) = true := by
    rw [fitsArr_all, List.all_map, List.all_eq_true]
    exact fun vl hvl => line_fits hl (hw.qty vl hvl) (hw.rating vl hvl) (hw.rank vl hvl)
  rw [he]
  simp only [Json.fits, Json.fitsObj, hC, hv, Bool.true_and, Bool.and_true]

theorem metadataStrLim_eq (lim : Nat) (md : Dict Str Json) :
    metadataStrLim lim md = if Json.fitsObj lim md then .ok (metadataStr md) else .error .valueError := by
  induction md with
  | nil => rfl
  | cons kv md ih =>
    unfold metadataStrLim Json.dumpsLim
    rw [ih, Json.fitsObj]
    cases h1 : kv.2.fits lim with
    | false => rfl
    | true =>
      cases h2 : Json.fitsObj lim md with
      | false => rfl
      | true =>
        simp only [if_true, Bool.and_self, ok_bind]
        rfl

theorem votelinesStrLim_eq {lim : Nat} (hl : 0 < lim) (vls : List Voteline) (h1 : ∀ vl ∈ vls, vl.qty.natAbs < 10 ^ lim)
    (h2 : ∀ vl ∈ vls, ∀ kp ∈ vl.prefs, RatFits lim kp.2.rating) : votelinesStrLim lim vls = votelinesStr vls := by
  induction vls with
  | nil => rfl
  | cons vl vls ih =>
    have hx : (vl.prefs.all (fun kp => fitsRating lim kp.2.rating) && fitsInt lim vl.qty) = true := by
      rw [Bool.and_eq_true, List.all_eq_true]
      exact ⟨fun kp hkp => (fitsRating_iff hl _).2 (h2 vl (by simp) kp hkp), (fitsInt_iff hl _).2 (h1 vl (by simp))⟩
    have hone : votelineStrLim lim vl = votelineStr vl := by
      unfold votelineStrLim
      cases votelineStr vl with
      | error e => rfl
      | ok s => rw [ok_bind, if_pos hx]
    unfold votelinesStrLim votelinesStr
    rw [hone, ih (fun v hv => h1 v (by simp [hv])) (fun v hv => h2 v (by simp [hv]))]

theorem outputs_of {lim : Nat} (hl : 0 < lim) {m : Jabmod} (hw : Writable lim m) (hk : Dict.WF m.metadata) {n : Int}
    (hn : Dict.get? m.metadata c!"ballotcount" = some (.int n)) (h : n.natAbs < 10 ^ lim) :
    dumpModelLim lim m = .ok (dumpModel m) ∧ convertToAbifLim lim m = convertToAbif m := by
  obtain ⟨f1, f2⟩ := model_fits hl hw hk hn
  unfold dumpModelLim convertToAbifLim
  rw [metadataStrLim_eq, votelinesStrLim_eq hl _ hw.qty hw.rating, if_pos (f2.2 h), if_pos (f1.2 h)]
  exact ⟨rfl, rfl⟩

theorem outputs_fail {lim : Nat} (hl : 0 < lim) {m : Jabmod} {n : Int}
    (hn : Dict.get? m.metadata c!"ballotcount" = some (.int n)) (h : 10 ^ lim ≤ n.natAbs) :
    dumpModelLim lim m = .error .valueError ∧ convertToAbifLim lim m = .error .valueError := by
  have hf : Json.fitsObj lim m.metadata = false := by
    cases he : Json.fitsObj lim m.metadata with
    | false => rfl
    | true =>
      rw [fitsObj_all, List.all_eq_true] at he
      have := he _ (Dict.mem_of_get? hn)
      rw [Json.fits] at this
      have := (fitsInt_iff hl n).1 this
      omega
  constructor
  · unfold dumpModelLim Jabmod.toJson
    rw [if_neg]
    simp [Json.fits, Json.fitsObj, hf]
  · unfold convertToAbifLim
    rw [metadataStrLim_eq, hf]
    rfl

theorem limit_reads {lim : Nat} {cw ar sc : Bool} {text : Str} {m : Jabmod} (h : convertAbifLim lim cw ar sc text = .ok m) :
    convertAbif cw ar sc text = .ok m := by
  rcases C109_refines lim cw ar sc text with e | e
  · rw [← e]; exact h
  · rw [e] at h; cases h

/-- the ballots of a model -/
def allBallots (m : Jabmod) : Int := (m.votelines.map Voteline.qty).sum

theorem ballots_le {vls : List Voteline} (h : ∀ vl ∈ vls, 0 ≤ vl.qty) (P : Voteline → Bool) :
    0 ≤ ((vls.filter P).map Voteline.qty).sum ∧ ((vls.filter P).map Voteline.qty).sum ≤ (vls.map Voteline.qty).sum := by
  induction vls with
  | nil => simp
  | cons v vls ih =>
    have := ih (fun u hu => h u (by simp [hu]))
    have hv := h v (by simp)
    rw [List.filter_cons]
    split
    · simp only [List.map_cons, List.sum_cons]; omega
    · simp only [List.map_cons, List.sum_cons]; omega

/-- C120.  Every text that is read (under the limit `lim` on the digits of a number) can be written as jabmod and as .abif, with or without consolidating
the votelines, if the number of all ballots has at most `lim` digits: the outputs are those of the program without the limit.  If it has more, both
outputs end with a ValueError although every number in the text is within the limit.  (The size condition is no restriction: the smallest limit Python
allows is 640.) -/
theorem C120_outputs (lim : Nat) (hl : 0 < lim) (cw ar sc : Bool) (text : Str) (m : Jabmod) (h : convertAbifLim lim cw ar sc text = .ok m)
    (hsize : 2 * text.length + m.candidates.length + 3 ≤ 10 ^ lim) :
    (allBallots m < 10 ^ lim → dumpModelLim lim m = .ok (dumpModel m) ∧ convertToAbifLim lim m = convertToAbif m ∧
      dumpModelLim lim (consolidate m) = .ok (dumpModel (consolidate m)) ∧ convertToAbifLim lim (consolidate m) = convertToAbif (consolidate m)) ∧
    (10 ^ lim ≤ allBallots m → dumpModelLim lim m = .error .valueError ∧ convertToAbifLim lim m = .error .valueError ∧
      dumpModelLim lim (consolidate m) = .error .valueError ∧ convertToAbifLim lim (consolidate m) = .error .valueError) := by
  have hok := limit_reads h
  have hn := (C01_ballotcount _ _ _ _ _ hok).1
  have hqty : ∀ vl ∈ m.votelines, 0 ≤ vl.qty := parsed_nonneg _ _ _ _ _ hok
  have hpos : 0 ≤ allBallots m := by
    have := ballots_le hqty (fun _ => true)
    unfold allBallots
    omega
  have hcast : ((10 ^ lim : Nat) : Int) = 10 ^ lim := by push_cast; rfl
  have hkeys := convertAbif_keys hok
  have hw := read_writable hl h hsize
  unfold allBallots at hpos ⊢
  obtain ⟨_, c2, _, c4, c5⟩ := C39_distinct m hkeys.prefs
  have hn' : Dict.get? (consolidate m).metadata c!"ballotcount" = some (.int (m.votelines.map Voteline.qty).sum) := by rw [c5]; exact hn
  constructor
  · intro hlt
    obtain ⟨o1, o2⟩ := outputs_of hl hw hkeys.mdata hn (by omega)
    have hsub : ∀ vl ∈ (consolidate m).votelines, ∃ v0 ∈ m.votelines, v0.prefs = vl.prefs := by
      intro vl hvl
      have := c2.subset (List.mem_map.2 ⟨vl, hvl, rfl⟩)
      obtain ⟨v0, h0, h1⟩ := List.mem_map.1 this
      exact ⟨v0, h0, h1⟩
    have hw' : Writable lim (consolidate m) := by
      refine ⟨fun vl hvl => ?_, fun vl hvl kp hkp => ?_, fun vl hvl kp hkp => ?_, fun kv hkv => hw.data kv (by rw [c5] at hkv; exact hkv)⟩
      · rw [C39_result m hkeys.prefs] at hvl
        obtain ⟨p, _, rfl⟩ := List.mem_map.1 hvl
        have := ballots_le hqty (fun vl => open Classical in decide (SameMap vl.prefs p))
        unfold ballotsWith
        simp only at this ⊢
        omega
      · obtain ⟨v0, h0, e⟩ := hsub vl hvl
        exact hw.rating v0 h0 kp (e ▸ hkp)
      · obtain ⟨v0, h0, e⟩ := hsub vl hvl
        exact hw.rank v0 h0 kp (e ▸ hkp)
    obtain ⟨o3, o4⟩ := outputs_of hl hw' (by rw [c5]; exact hkeys.mdata) hn' (by omega)
    exact ⟨o1, o2, o3, o4⟩
  · intro hge
    obtain ⟨o1, o2⟩ := outputs_fail hl hn (by omega)
    obtain ⟨o3, o4⟩ := outputs_fail hl hn' (by omega)
    exact ⟨o1, o2, o3, o4⟩

theorem shortNumbers_split {lim : Nat} {x y : Str} {c : Char} (hc : isDigit c = false) (hx : ShortNumbers lim x) (hy : ShortNumbers lim y) :
    ShortNumbers lim (x ++ c :: y) := by
  intro ds hds hdig
  obtain ⟨u, v, h⟩ := hds
  rcases List.append_eq_append_iff.1 h with ⟨w, h1, h2⟩ | ⟨w, h1, h2⟩
  · exact hx ds ⟨u, w, h1.symm⟩ hdig
  · cases w with
    | nil =>
      exact hx ds ⟨u, [], by rw [h1]; simp⟩ hdig
    | cons d w =>
      obtain ⟨rfl, h5⟩ := List.cons.inj h2
      rcases List.append_eq_append_iff.1 h1 with ⟨z, h3, h4⟩ | ⟨z, h3, h4⟩
      · exfalso
        have := hdig c (by rw [h4]; simp)
        rw [hc] at this
        cases this
      · cases z with
        | nil =>
          exfalso
          have := hdig c (by rw [← List.nil_append ds, ← h4]; simp)
          rw [hc] at this
          cases this
        | cons e z =>
          have h6 := (List.cons.inj h4).2
          exact hy ds ⟨z, v, by rw [h5, h6]; simp⟩ hdig

end
section
attribute [local instance] Uni.ascii
set_option maxRecDepth 20000

/-- `A >[B]` -/
def abBallot : Ballot := .ranked [[{ tok := c!"A", post := c!" " }], [{ style := .bracket, tok := c!"B" }]]

/-- the text `99…9:A >[B]` and `1:A >[B]`, with `lim` nines -/
def ninesPaper (lim : Nat) : List PaperLine := [.ballots (10 ^ lim - 1) abBallot none, .ballots 1 abBallot none]

/-- That the number of all ballots has at most `lim` digits is needed, whatever the limit is: each of the two numbers in this text is within the limit,
the text is read, and neither output can be written. -/
theorem C120_refuted (lim : Nat) (hl : 0 < lim) : ∃ m, convertAbifLim lim true false false (paperText (ninesPaper lim)) = .ok m ∧
    dumpModelLim lim m = .error .valueError ∧ convertToAbifLim lim m = .error .valueError := by
  have hp : 0 < 10 ^ lim := Nat.pow_pos (by decide)
  have hok : PaperOk (ninesPaper lim) := by
    have hb : abBallot.Ok := (exPaper_ok.1 (.ballots 3 abBallot none) (by simp [exPaper, abBallot])).1
    refine ⟨?_, _, _, _, List.mem_cons_self⟩
    intro l hl
    simp only [ninesPaper, List.mem_cons, List.not_mem_nil, or_false] at hl
    rcases hl with rfl | rfl <;> exact ⟨hb, by simp⟩
  obtain ⟨m, _, h1, _, _, _, _, h6⟩ := C103_read (ninesPaper lim) hok true
  have hcount : paperCount (ninesPaper lim) = 10 ^ lim := by
    show (10 ^ lim - 1) + (1 + 0) = 10 ^ lim
    omega
  rw [hcount] at h6
  have htext : paperText (ninesPaper lim) = natStr (10 ^ lim - 1) ++ ':' :: c!"A >[B]\n1:A >[B]\n" := by
    have hb : abBallot.text = c!"A >[B]" := by decide +kernel
    have h1 : natStr 1 = c!"1" := by decide +kernel
    simp [paperText, ninesPaper, PaperLine.text, hb, h1]
  have hshort : ShortNumbers lim (paperText (ninesPaper lim)) := by
    rw [htext]
    have hnil : ShortNumbers lim [] := fun ds hds _ => by rw [List.infix_nil.1 hds]; simp
    refine shortNumbers_split (by decide) ?_ ?_
    · intro ds hds _
      refine Nat.le_trans hds.length_le ?_
      unfold natStr
      rw [Nat.length_toDigits_le_iff (by decide) hl]
      omega
    · have hone : ShortNumbers lim c!"1" := fun ds hds _ => by have := hds.length_le; simp at this; omega
      refine shortNumbers_split (x := []) (by decide) hnil ?_
      refine shortNumbers_split (x := []) (by decide) hnil ?_
      refine shortNumbers_split (x := []) (by decide) hnil ?_
      refine shortNumbers_split (x := []) (by decide) hnil ?_
      refine shortNumbers_split (x := []) (by decide) hnil ?_
      refine shortNumbers_split (x := []) (by decide) hnil ?_
      refine shortNumbers_split (x := []) (by decide) hnil ?_
      refine shortNumbers_split (x := c!"1") (by decide) hone ?_
      refine shortNumbers_split (x := []) (by decide) hnil ?_
      refine shortNumbers_split (x := []) (by decide) hnil ?_
      refine shortNumbers_split (x := []) (by decide) hnil ?_
      refine shortNumbers_split (x := []) (by decide) hnil ?_
      refine shortNumbers_split (x := []) (by decide) hnil ?_
      refine shortNumbers_split (x := []) (by decide) hnil ?_
      exact shortNumbers_split (x := []) (by decide) hnil hnil
  refine ⟨m, by rw [C109_short lim true false false _ hshort]; exact h1, ?_⟩
  exact outputs_fail hl h6 (by rw [Int.natAbs_natCast])

/-- `C120_outputs` applies, in its two cases -/
example : (match convertAbifLim 2 true true true c!"71:A/5>B/3 # l\n28:B>A\n" with
    | .ok m => decide (2 * c!"71:A/5>B/3 # l\n28:B>A\n".length + m.candidates.length + 3 ≤ 10 ^ 2 ∧ allBallots m = 99)
    | .error _ => false) = true := by
  decide +kernel

example : (match convertAbifLim 2 true true true c!"71:A/5>B/3 # l\n29:B>A\n" with
    | .ok m => decide (2 * c!"71:A/5>B/3 # l\n29:B>A\n".length + m.candidates.length + 3 ≤ 10 ^ 2 ∧ allBallots m = 100)
    | .error _ => false) = true := by
  decide +kernel

end
end Verif.Props
