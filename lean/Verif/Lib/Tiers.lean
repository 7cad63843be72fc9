/-
Helper lemmas: reading back the .abif text written by an importer.
-/
import Verif.Spec.Tiers
import Verif.Spec.Ballots
import Verif.Lib.ExportFile
import Verif.Lib.Nameq
import Verif.Lib.Prefstr

set_option linter.unusedSimpArgs false
set_option linter.unusedSectionVars false

namespace Verif
open Spec
variable [U : Uni]

/-! ### tiers as items -/

/-- items of bare tokens; the last one is followed by `post` -/
def tokItems (post : Str) : List Str → List Item
  | [] => []
  | [t] => [{ tok := t, post := post }]
  | t :: u :: r => { tok := t } :: tokItems post (u :: r)

/-- the delimiters between the tokens of the tiers -/
def tierDelims : List (List Str) → List Char
  | [] => []
  | [t] => List.replicate (t.length - 1) '='
  | t :: u :: r => List.replicate (t.length - 1) '=' ++ '>' :: tierDelims (u :: r)

theorem tokItems_tok (post : Str) (ts : List Str) : (tokItems post ts).map Item.tok = ts := by
  induction ts with
  | nil => rfl
  | cons t ts ih =>
    cases ts with
    | nil => rfl
    | cons u r => simp only [tokItems, List.map_cons] at ih ⊢; rw [ih]

theorem tokItems_length (post : Str) (ts : List Str) : (tokItems post ts).length = ts.length := by
  have := congrArg List.length (tokItems_tok post ts)
  simpa using this

theorem simpleTok_ok {t post : Str} (h : SimpleTok t) (hp : ∀ c ∈ post, isSpace c = true) :
    Item.Ok { tok := t, post := post } := by
  obtain ⟨h1, h2, h3, h4⟩ := h
  refine ⟨by simp, hp, by simp, ?_⟩
  refine ⟨⟨h1, h2, ?_⟩, fun c hc => (h3 c hc).2.1, fun _ => h4⟩
  intro hh
  exact (h3 '"' (List.mem_of_head? hh)).2.2.2.2 rfl

theorem tokItems_ok {post : Str} {ts : List Str} (h : ∀ t ∈ ts, SimpleTok t) (hp : ∀ c ∈ post, isSpace c = true) :
    ∀ it ∈ tokItems post ts, it.Ok ∧ it.rating = none := by
  induction ts with
  | nil => simp [tokItems]
  | cons t ts ih =>
    cases ts with
    | nil =>
      intro it hit
      simp only [tokItems, List.mem_singleton] at hit
      subst hit
      exact ⟨simpleTok_ok (h t (by simp)) hp, rfl⟩
    | cons u r =>
      intro it hit
      simp only [tokItems, List.mem_cons] at hit
      rcases hit with rfl | hit
      · exact ⟨simpleTok_ok (h t (by simp)) (by simp), rfl⟩
      · exact ih (fun t ht => h t (by simp [ht])) it hit

theorem tierDelims_mem {tiers : List (List Str)} : ∀ d ∈ tierDelims tiers, d = '>' ∨ d = '=' := by
  induction tiers with
  | nil => simp [tierDelims]
  | cons t tiers ih =>
    intro d hd
    cases tiers with
    | nil => simp only [tierDelims, List.mem_replicate] at hd; exact .inr hd.2
    | cons u r =>
      simp only [tierDelims, List.mem_append, List.mem_replicate, List.mem_cons] at hd
      rcases hd with hd | rfl | hd
      · exact .inr hd.2
      · exact .inl rfl
      · exact ih d hd

theorem tierDelims_length {tiers : List (List Str)} (hne : tiers ≠ []) (h : ∀ t ∈ tiers, t ≠ []) :
    (tierDelims tiers).length + 1 = tiers.flatten.length := by
  induction tiers with
  | nil => exact absurd rfl hne
  | cons t tiers ih =>
    have ht : 0 < t.length := List.length_pos_iff.2 (h t (by simp))
    cases tiers with
    | nil => simp [tierDelims]; omega
    | cons u r =>
      have := ih (by simp) (fun t ht => h t (by simp [ht]))
      simp only [tierDelims, List.length_append, List.length_replicate, List.length_cons, List.flatten_cons] at this ⊢
      omega

theorem writeItems_cons (it it' : Item) (its : List Item) (d : Char) (ds : List Char) :
    writeItems (it :: it' :: its) (d :: ds) = it.text ++ d :: writeItems (it' :: its) ds := by rw [writeItems]; simp

theorem bare_text (t post : Str) : Item.text { tok := t, post := post } = t ++ post := by
  simp [Item.text, Item.tokText, Item.ratingText]

theorem tokItems_cons_ne {post : Str} {ts : List Str} (h : ts ≠ []) : ∃ it its, tokItems post ts = it :: its := by
  cases ht : tokItems post ts with
  | nil =>
    have := tokItems_length post ts
    rw [ht] at this
    exact absurd (List.length_eq_zero_iff.1 this.symm) h
  | cons a b => exact ⟨a, b, rfl⟩

theorem writeItems_tier {post : Str} {t : List Str} (ht : t ≠ []) :
    writeItems (tokItems post t) (List.replicate (t.length - 1) '=') = joinStr ['='] t ++ post := by
  induction t with
  | nil => exact absurd rfl ht
  | cons c t ih =>
    cases t with
    | nil => simp [tokItems, writeItems, bare_text, joinStr]
    | cons u r =>
      have := ih (by simp)
      obtain ⟨a, b, hab⟩ := tokItems_cons_ne (post := post) (ts := u :: r) (by simp)
      simp only [tokItems, List.length_cons, Nat.add_sub_cancel] at this ⊢
      rw [List.replicate_succ, hab, writeItems_cons, ← hab, this, bare_text]
      simp [joinStr]

theorem writeItems_two {post : Str} {t ts : List Str} (ht : t ≠ []) (hts : ts ≠ []) (ds : List Char) :
    writeItems (tokItems post (t ++ ts)) (List.replicate (t.length - 1) '=' ++ '>' :: ds) =
      joinStr ['='] t ++ '>' :: writeItems (tokItems post ts) ds := by
  induction t with
  | nil => exact absurd rfl ht
  | cons c t ih =>
    obtain ⟨a, b, hab⟩ := tokItems_cons_ne (post := post) (ts := ts) hts
    cases t with
    | nil =>
      cases ts with
      | nil => exact absurd rfl hts
      | cons x xs =>
        simp only [List.cons_append, List.nil_append, tokItems, List.length_cons, List.length_nil, Nat.zero_add,
          Nat.sub_self, List.replicate_zero]
        rw [hab, writeItems_cons, bare_text]
        simp [joinStr]
    | cons u r =>
      have := ih (by simp)
      obtain ⟨a, b, hab⟩ := tokItems_cons_ne (post := post) (ts := u :: (r ++ ts)) (by simp)
      simp only [List.cons_append, tokItems, List.length_cons, Nat.add_sub_cancel] at this ⊢
      rw [List.replicate_succ, List.cons_append, hab, writeItems_cons, ← hab, this, bare_text]
      simp [joinStr]

theorem writeItems_tiers {post : Str} {tiers : List (List Str)} (hne : tiers ≠ []) (h : ∀ t ∈ tiers, t ≠ []) :
    writeItems (tokItems post tiers.flatten) (tierDelims tiers) = tierText tiers ++ post := by
  induction tiers with
  | nil => exact absurd rfl hne
  | cons t tiers ih =>
    cases tiers with
    | nil =>
      simp only [List.flatten_cons, List.flatten_nil, List.append_nil, tierDelims]
      rw [writeItems_tier (h t (by simp))]
      simp [tierText, joinStr]
    | cons u r =>
      have hu : (u :: r).flatten ≠ [] := by
        have := h u (by simp)
        simp [this]
      rw [List.flatten_cons, tierDelims, writeItems_two (h t (by simp)) hu, ih (by simp) (fun t ht => h t (by simp [ht]))]
      simp [tierText, joinStr]

/-! ### ranks -/

/-- the ranks counted from the delimiters -/
theorem tier_ranks {tiers : List (List Str)} (h : ∀ t ∈ tiers, t ≠ []) (post : Str) (k : Nat) :
    (tokItems post tiers.flatten).zipIdx.map (fun x => (x.1.tok, some (1 + (k : Int) + (((tierDelims tiers).take x.2).count '>' : Nat)))) =
      (tiers.zipIdx k).flatMap (fun ti => ti.1.map (fun c => (c, some ((ti.2 : Int) + 1)))) := by
  have key : ∀ (toks : List Str) (ds : List Char) (k : Nat),
      (tokItems post toks).zipIdx.map (fun x => (x.1.tok, some (1 + (k : Int) + ((ds.take x.2).count '>' : Nat)))) =
      toks.zipIdx.map (fun x => (x.1, some (1 + (k : Int) + ((ds.take x.2).count '>' : Nat)))) := by
    intro toks ds k
    conv => rhs; rw [← tokItems_tok post toks]
    rw [List.zipIdx_map, List.map_map]
    rfl
  rw [key]
  have shift : ∀ (l : List Str) (f : Nat → Option Int) (n : Nat),
      (l.zipIdx n).map (fun x => (x.1, f x.2)) = l.zipIdx.map (fun x => (x.1, f (n + x.2))) := by
    intro l f n
    induction l generalizing f n with
    | nil => rfl
    | cons a l ih =>
      simp only [List.zipIdx_cons, List.map_cons, Nat.add_zero, Nat.zero_add]
      rw [ih, ih (fun m => f (n + m)) 1]
      simp [Nat.add_assoc]
  induction tiers generalizing k with
  | nil => rfl
  | cons t tiers ih =>
    have ht := List.length_pos_iff.2 (h t (by simp))
    have first : ∀ (ds : List Char), ds.take (t.length - 1) = List.replicate (t.length - 1) '=' →
        t.zipIdx.map (fun x => (x.1, some (1 + (k : Int) + ((ds.take x.2).count '>' : Nat)))) =
        t.map (fun c => (c, some ((k : Int) + 1))) := by
      intro ds hds
      have : t.map (fun c => (c, some ((k : Int) + 1))) = t.zipIdx.map (fun x => (x.1, some ((k : Int) + 1))) := by
        conv => lhs; rw [← List.zipIdx_map_fst 0 t]
        rw [List.map_map]; rfl
      rw [this]
      apply List.map_congr_left
      rintro ⟨c, j⟩ hx
      have hj : j < t.length := by
        have := List.snd_lt_of_mem_zipIdx hx
        omega
      have : ds.take j = List.replicate j '=' := by
        have e : ds.take j = (ds.take (t.length - 1)).take j := by rw [List.take_take]; congr 1; omega
        rw [e, hds, List.take_replicate]
        congr 1; omega
      rw [this]
      have c0 : List.count '>' (List.replicate j '=') = 0 := by
        rw [List.count_eq_zero]; intro hm; rw [List.mem_replicate] at hm; exact absurd hm.2 (by decide)
      rw [c0]
      show (c, _) = (c, _)
      congr 2; push_cast; omega
    rw [List.flatten_cons, List.zipIdx_append, List.map_append, List.zipIdx_cons, List.flatMap_cons]
    cases tiers with
    | nil =>
      simp only [List.flatten_nil, List.zipIdx_nil, List.map_nil, List.append_nil, List.flatMap_nil, tierDelims]
      exact first _ (by simp)
    | cons u r =>
      have hhead := first (List.replicate (t.length - 1) '=' ++ '>' :: tierDelims (u :: r)) (by simp)
      simp only [tierDelims] at hhead ⊢
      rw [hhead]
      congr 1
      rw [← ih (fun t ht => h t (by simp [ht])) (k + 1)]
      rw [Nat.zero_add, shift _ (fun n => some (1 + (k : Int) + (((List.replicate (t.length - 1) '=' ++ '>' :: tierDelims (u :: r)).take n).count '>' : Nat)))]
      apply List.map_congr_left
      rintro ⟨c, j⟩ hx
      have e : (List.replicate (t.length - 1) '=' ++ '>' :: tierDelims (u :: r)).take (t.length + j) =
          List.replicate (t.length - 1) '=' ++ '>' :: (tierDelims (u :: r)).take j := by
        rw [List.take_append, List.length_replicate]
        have e1 : t.length + j - (t.length - 1) = j + 1 := by omega
        rw [e1, List.take_succ_cons, List.take_of_length_le (by simp; omega)]
      have c0 : List.count '>' (List.replicate (t.length - 1) '=') = 0 := by
        rw [List.count_eq_zero]; intro hm; rw [List.mem_replicate] at hm; exact absurd hm.2 (by decide)
      simp only [e, List.count_append, c0, List.count_cons_self]
      congr 2; push_cast; omega

/-- what the parser makes of the tiers of a ballot -/
theorem parsePrefstr_tiers {tiers : List (List Str)} {post : Str} (hp : ∀ c ∈ post, isSpace c = true)
    (h : ∀ t ∈ tiers, t ≠ []) (ht : ∀ c ∈ tiers.flatten, SimpleTok c) (hnd : tiers.flatten.Nodup) :
    ∃ prefs cands, parsePrefstr (tierText tiers ++ post) = .ok (prefs, cands) ∧
      prefs.map (fun kp => (kp.1, kp.2.rank)) = tierRanks tiers ∧ (∀ kp ∈ prefs, kp.2.rating = none) ∧
      cands = tiers.flatten := by
  by_cases hne : tiers = []
  · subst hne
    refine ⟨[], [], ?_, rfl, by simp, rfl⟩
    show parsePrefstr post = _
    have hnosep : ∀ c ∈ post, isPrefSep c = false := by
      intro c hc; rw [isPrefSep_eq]; exact space_not_sep (hp c hc)
    unfold parsePrefstr
    have hx : extractCandprefs post = .ok [] := by
      unfold extractCandprefs
      rw [splitKeep_none hnosep]
      unfold exLoop
      have : exStep {} post = .ok {} := by
        unfold exStep
        simp only [strip_spaces hp]
        rfl
      rw [this]
      rfl
    rw [hx]
    rfl
  · have hok := tokItems_ok (post := post) ht hp
    have hlen := tierDelims_length hne h
    have hd : ∀ d ∈ tierDelims tiers, d = '>' ∨ d = '=' ∨ d = ',' := fun d hd => by
      rcases tierDelims_mem d hd with h | h
      · exact .inl h
      · exact .inr (.inl h)
    have hpp := parsePrefstr_items (its := tokItems post tiers.flatten) (ds := tierDelims tiers) (fun it hit => (hok it hit).1)
      hd (by rw [tokItems_length]; exact hlen) (by rw [tokItems_tok]; exact hnd)
    rw [writeItems_tiers hne h] at hpp
    refine ⟨_, _, hpp, ?_, ?_, tokItems_tok _ _⟩
    · rw [List.map_map]
      have := tier_ranks h post 0
      rw [tierRanks, ← this]
      apply List.map_congr_left
      rintro ⟨it, j⟩ hx
      have hh : (tierDelims tiers).head? ≠ some ',' := by
        intro hh
        rcases tierDelims_mem _ (List.mem_of_head? hh) with h | h <;> exact absurd h (by decide)
      simp [itemEntry, itemRank, hh]
    · intro kp hkp
      obtain ⟨⟨it, j⟩, hx, rfl⟩ := List.mem_map.1 hkp
      have hit : it ∈ tokItems post tiers.flatten := by
        have := List.mem_zipIdx hx
        rw [this.2.2]; exact List.getElem_mem _
      simp [itemEntry, Item.value, (hok it hit).2]

/-! ### lines -/

theorem joinStr_mem_sub {sep : Str} {ps : List Str} {p : Str} {c : Char} (hp : p ∈ ps) (h : c ∈ p) : c ∈ joinStr sep ps := by
  induction ps with
  | nil => cases hp
  | cons a ps ih =>
    cases ps with
    | nil =>
      simp only [List.mem_singleton] at hp; subst hp; exact h
    | cons b ps =>
      rw [joinStr]
      rcases List.mem_cons.1 hp with rfl | hp
      · simp [h]
      · simp only [List.mem_append]; exact .inr (ih hp)

theorem tierText_mem {tiers : List (List Str)} {c : Char} (h : c ∈ tierText tiers) : c = '>' ∨ c = '=' ∨ ∃ t ∈ tiers.flatten, c ∈ t := by
  unfold tierText at h
  rcases joinStr_mem h with h | ⟨p, hp, h⟩
  · simp at h; exact .inl h
  · obtain ⟨t, ht, rfl⟩ := List.mem_map.1 hp
    rcases joinStr_mem h with h | ⟨q, hq, h⟩
    · simp at h; exact .inr (.inl h)
    · exact .inr (.inr ⟨q, List.mem_flatten.2 ⟨t, ht, hq⟩, h⟩)

theorem Spec.ImpVote.Ok.text_noHash {v : ImpVote} (h : v.Ok) : '#' ∉ tierText v.tiers := by
  intro hc
  rcases tierText_mem hc with hc | hc | ⟨t, ht, hc⟩
  · exact absurd hc (by decide)
  · exact absurd hc (by decide)
  · exact ((h.toks t ht).2.2.1 _ hc).2.2.1 rfl

theorem Spec.ImpVote.Ok.noBreak {v : ImpVote} (h : v.Ok) : ∀ c ∈ v.line, isLineBreak c = false := by
  intro c hc
  simp only [ImpVote.line, List.mem_append, List.mem_cons] at hc
  rcases hc with hc | rfl | hc | hc
  · exact digit_not_break (h.digits c hc)
  · decide
  · rcases tierText_mem hc with rfl | rfl | ⟨t, ht, hc⟩
    · decide
    · decide
    · exact ((h.toks t ht).2.2.1 _ hc).1
  · cases hv : v.vid with
    | none => rw [hv] at hc; simp [vidText] at hc
    | some x =>
      rw [hv] at hc
      simp only [vidText, List.mem_append] at hc
      rcases hc with hc | hc
      · revert c; decide
      · have := (h.vid x hv).2 c hc
        cases hb : isLineBreak c with
        | false => rfl
        | true => rw [lineBreak_space hb] at this; cases this

/-- what the line of a ballot says -/
theorem Spec.ImpVote.Ok.lineVote {v : ImpVote} (h : v.Ok) :
    ∃ p com, Spec.lineVote v.line = some (v.qty, p, com) ∧ com.bind readVid = v.vid ∧
      ∃ prefs, parsePrefstr p = .ok (prefs, v.tiers.flatten) ∧
        prefs.map (fun kp => (kp.1, kp.2.rank)) = tierRanks v.tiers ∧ (∀ kp ∈ prefs, kp.2.rating = none) := by
  have hq : '#' ∉ v.qty := fun hc => digit_ne_hash (h.digits _ hc) rfl
  have hcolon : '#' ∉ v.qty ++ ':' :: tierText v.tiers := by
    simp only [List.mem_append, List.mem_cons, not_or]
    exact ⟨hq, by decide, h.text_noHash⟩
  unfold Spec.lineVote
  cases hv : v.vid with
  | none =>
    have hl : v.line = v.qty ++ ':' :: tierText v.tiers := by simp [ImpVote.line, hv, vidText]
    rw [hl, beforeHash_of_not_mem hcolon, readVote_printed h.qty_ne h.digits]
    obtain ⟨prefs, cands, e1, e2, e3, rfl⟩ := parsePrefstr_tiers (post := []) (by simp) h.tiers_ne h.toks h.nodup
    rw [List.append_nil] at e1
    refine ⟨_, _, rfl, ?_, prefs, e1, e2, e3⟩
    simp only [hashComment, hcolon, if_false, Option.bind_none]
  | some x =>
    have hl : v.line = (v.qty ++ ':' :: (tierText v.tiers ++ c!"  ")) ++ (c!"##VID:" ++ x) := by
      simp [ImpVote.line, hv, vidText, List.append_assoc]
    have hn : '#' ∉ v.qty ++ ':' :: (tierText v.tiers ++ c!"  ") := by
      have := hcolon
      simp only [List.mem_append, List.mem_cons, not_or] at this ⊢
      exact ⟨this.1, this.2.1, this.2.2, by decide, by decide, by simp⟩
    have hb : beforeHash v.line = v.qty ++ ':' :: (tierText v.tiers ++ c!"  ") := by
      rw [hl, beforeHash_append hn]
      show _ ++ List.takeWhile _ _ = _
      simp
    rw [hb, readVote_printed h.qty_ne h.digits]
    obtain ⟨prefs, cands, e1, e2, e3, rfl⟩ := parsePrefstr_tiers (post := c!"  ") (by decide) h.tiers_ne h.toks h.nodup
    refine ⟨_, _, rfl, ?_, prefs, e1, e2, e3⟩
    have hc : hashComment v.line = some (c!"##VID:" ++ x) := by
      unfold hashComment
      rw [if_pos (by rw [hl]; simp), hl]
      congr 1
      have : ∀ a b : Str, '#' ∉ a → (a ++ '#' :: b).dropWhile (fun c => c != '#') = '#' :: b := by
        intro a b ha
        rw [dropWhile_append_of_all]
        · simp
        · intro c hc
          simp only [bne_iff_ne, ne_eq]
          rintro rfl; exact ha hc
      exact this _ _ hn
    simp only [hc, Option.bind_some]
    obtain ⟨hx1, hx2⟩ := h.vid x hv
    unfold readVid
    have hp : List.isPrefixOf c!"##VID:" (c!"##VID:" ++ x) = true := by simp
    rw [if_pos hp]
    have : (List.drop 6 (c!"##VID:" ++ x)).takeWhile (fun c => !isSpace c) = x := by
      show List.takeWhile _ x = x
      exact takeWhile_all (fun c hc => by simp [hx2 c hc])
    rw [this]
    cases x with
    | nil => exact absurd rfl hx1
    | cons a b => rfl

theorem readVote_brace (t : Str) : readVote ('{' :: t) = none := readVote_head_none isDigit_brace
theorem readVote_eq (t : Str) : readVote ('=' :: t) = none := readVote_head_none isDigit_eq

theorem candOk_noHash {cn : Str × Str} (h : CandOk cn) : '#' ∉ declLine cn := by
  simp only [declLine, List.mem_cons, List.mem_append, not_or]
  exact ⟨by decide, fun hc => ((h.1.2.2.1 _ hc).2.2.1) rfl, by decide, by decide, fun hc => (h.2 _ hc).2.1 rfl, by decide, by simp⟩

theorem readCand_simple {tok d : Str} (ht : SimpleTok tok) (hd : ']' ∉ d) :
    readCand ('=' :: (tok ++ ':' :: '[' :: (d ++ [']']))) = some (tok, d) := by
  rw [readCand_cons_eq]
  obtain ⟨h1, h2, h3, _⟩ := ht
  have hstop : ∀ c ∈ tok, candTokCh c = true := by
    intro c hc
    show (!(c == ':' || c == '"' || c == ']')) = true
    obtain ⟨_, h2, _, h3, h6⟩ := h3 c hc
    have : c ≠ ']' := by rintro rfl; exact absurd h2 (by decide)
    simp [h3, h6, this]
  have e1 : List.dropWhile isSpace (tok ++ ':' :: '[' :: (d ++ [']'])) = tok ++ ':' :: '[' :: (d ++ [']']) := by
    cases tok with
    | nil => rfl
    | cons c t =>
      have := (strip_eq_iff.1 h2).1 c rfl
      simp [this]
  have e2 : dropOne (fun c => c == '"' || c == '[') (tok ++ ':' :: '[' :: (d ++ [']'])) = tok ++ ':' :: '[' :: (d ++ [']']) := by
    cases tok with
    | nil => rfl
    | cons c t =>
      obtain ⟨_, h2, _, h3, h6⟩ := h3 c (by simp)
      have : c ≠ '[' := by rintro rfl; exact absurd h2 (by decide)
      simp [dropOne, h6, this]
  simp only [e1, e2]
  have hc : candTokCh ':' = false := by decide
  have e3 : (tok ++ ':' :: '[' :: (d ++ [']'])).dropWhile candTokCh = ':' :: '[' :: (d ++ [']']) := by
    rw [dropWhile_append_of_all hstop]; simp [hc]
  have e4 : (tok ++ ':' :: '[' :: (d ++ [']'])).takeWhile candTokCh = tok := by
    rw [takeWhile_append_of_all hstop]; simp [hc]
  rw [e3, e4]
  have e5 : (d ++ [']']).dropWhile (fun c => c != ']') = [']'] := by
    rw [dropWhile_append_of_all]
    · rfl
    · intro c hc; simp only [bne_iff_ne]; rintro rfl; exact hd hc
  have e6 : (d ++ [']']).takeWhile (fun c => c != ']') = d := by
    rw [takeWhile_append_of_all]
    · simp
    · intro c hc; simp only [bne_iff_ne]; rintro rfl; exact hd hc
  simp [dropOne, e5, e6]

theorem declLine_facts {cn : Str × Str} (h : CandOk cn) :
    (∀ c ∈ declLine cn, isLineBreak c = false) ∧ readCand (beforeHash (declLine cn)) = some cn ∧
    readVote (beforeHash (declLine cn)) = none := by
  refine ⟨?_, ?_, ?_⟩
  · intro c hc
    simp only [declLine, List.mem_cons, List.mem_append, List.not_mem_nil, or_false] at hc
    rcases hc with rfl | hc | rfl | rfl | hc | rfl
    · decide
    · exact (h.1.2.2.1 c hc).1
    · decide
    · decide
    · exact (h.2 c hc).1
    · decide
  · rw [beforeHash_of_not_mem (candOk_noHash h)]
    exact readCand_simple h.1 (fun hc => (h.2 _ hc).2.2 rfl)
  · rw [beforeHash_of_not_mem (candOk_noHash h)]
    exact readVote_eq _

theorem filter_key_unique {cands : List (Str × Str)} {cn : Str × Str} (hnd : (cands.map Prod.fst).Nodup) (hcn : cn ∈ cands) :
    cands.filter (fun td => decide (td.1 = cn.1)) = [cn] := by
  induction cands with
  | nil => cases hcn
  | cons a cands ih =>
    rw [List.map_cons, List.nodup_cons] at hnd
    rcases List.mem_cons.1 hcn with rfl | hcn
    · rw [List.filter_cons_of_pos (by simp)]
      congr 1
      rw [List.filter_eq_nil_iff]
      intro x hx
      simp only [decide_eq_true_eq]
      intro he
      exact hnd.1 (he ▸ List.mem_map_of_mem hx)
    · rw [List.filter_cons_of_neg]
      · exact ih hnd.2 hcn
      · simp only [decide_eq_true_eq]
        intro he
        exact hnd.1 (he ▸ List.mem_map_of_mem hcn)

theorem says_votes {votes : List ImpVote} {vls : List Voteline} (hv : ∀ v ∈ votes, v.Ok)
    (f1 : List.Forall₂ SaysBallot (votes.filterMap (fun v => Spec.lineVote v.line)) vls) :
    List.Forall₂ (fun (v : ImpVote) (vl : Voteline) => vl.qty = (digitsVal v.qty : Int) ∧ ranksOf vl = tierRanks v.tiers ∧
        (∀ kp ∈ vl.prefs, kp.2.rating = none) ∧ vl.voterid = v.vid) votes vls := by
  induction votes generalizing vls with
  | nil => simp at f1; subst f1; exact .nil
  | cons v votes ih =>
    obtain ⟨p, com, h1, h2, prefs, h3, h4, h5⟩ := (hv v (by simp)).lineVote
    rw [List.filterMap_cons, h1] at f1
    cases f1 with
    | cons g1 g2 =>
      rename_i vl vls'
      refine .cons ?_ (ih (fun v hv' => hv v (by simp [hv'])) g2)
      obtain ⟨s1, ⟨cs, s2⟩, s3, s4, s5, s6⟩ := g1
      simp only at s1 s2 s5
      rw [h3] at s2
      simp only [Except.ok.injEq, Prod.mk.injEq] at s2
      refine ⟨s1, ?_, ?_, ?_⟩
      · unfold ranksOf; rw [← s2.1]; exact h4
      · rw [← s2.1]; exact h5
      · rw [s5]; exact h2

theorem textLines_impFile {metas : List Str} {cands : List (Str × Str)} {votes : List ImpVote}
    (hm : ∀ l ∈ metas, ∀ c ∈ l, isLineBreak c = false)
    (hc : ∀ cn ∈ cands, CandOk cn) (hv : ∀ v ∈ votes, v.Ok) :
    textLines false ((impFile metas cands votes).flatMap (fun l => l ++ ['\n'])) = impFile metas cands votes := by
  have hbreak : ∀ l ∈ impFile metas cands votes, ∀ c ∈ l, isLineBreak c = false := by
    intro l hl
    simp only [impFile, List.mem_append, List.mem_map, List.mem_singleton] at hl
    rcases hl with ((hl | ⟨cn, hcn, rfl⟩) | rfl) | ⟨v, hv', rfl⟩
    · exact hm l hl
    · exact (declLine_facts (hc cn hcn)).1
    · decide
    · exact (hv v hv').noBreak
  unfold textLines
  rw [splitlines_lines _ hbreak]
  simp

/-- Reading back an importer's file: one voteline per ballot, and the declared candidates. -/
theorem convertAbif_impFile {metas : List Str} {cands : List (Str × Str)} {votes : List ImpVote}
    (hm : ∀ l ∈ metas, l.head? = some '{' ∧ ∀ c ∈ l, isLineBreak c = false)
    (hc : ∀ cn ∈ cands, CandOk cn) (hnd : (cands.map Prod.fst).Nodup)
    (hv : ∀ v ∈ votes, v.Ok) (hsub : ∀ v ∈ votes, ∀ t ∈ v.tiers.flatten, t ∈ cands.map Prod.fst) (hne : votes ≠ []) :
    ∃ m vls, convertAbif false false false ((impFile metas cands votes).flatMap (fun l => l ++ ['\n'])) = .ok m ∧
      List.Forall₂ (fun (v : ImpVote) (vl : Voteline) => vl.qty = (digitsVal v.qty : Int) ∧ ranksOf vl = tierRanks v.tiers ∧
        (∀ kp ∈ vl.prefs, kp.2.rating = none) ∧ vl.voterid = v.vid) votes vls ∧
      StableSortedDesc vls m.votelines ∧
      m.candidates = cands.map (fun cn => (cn.1, some cn.2)) := by
  set text := (impFile metas cands votes).flatMap (fun l => l ++ ['\n']) with htext
  have hlines : textLines false text = impFile metas cands votes := textLines_impFile (fun l hl => (hm l hl).2) hc hv
  have hmeta : ∀ l ∈ metas, readCand (beforeHash l) = none ∧ readVote (beforeHash l) = none := by
    intro l hl
    obtain ⟨hh, _⟩ := hm l hl
    cases l with
    | nil => cases hh
    | cons a t =>
      simp at hh; subst hh
      rw [beforeHash_cons (by decide)]
      exact ⟨readCand_head_none (by decide), readVote_brace _⟩
  have hsep : readCand (beforeHash c!"# ---------------") = none ∧ readVote (beforeHash c!"# ---------------") = none := ⟨rfl, rfl⟩
  have hvotes : votesOf false text = votes.filterMap (fun v => Spec.lineVote v.line) := by
    unfold votesOf
    rw [hlines]
    unfold impFile
    have z : ∀ ls : List Str, (∀ l ∈ ls, readVote (beforeHash l) = none) → ls.filterMap Spec.lineVote = [] := by
      intro ls h
      rw [List.filterMap_eq_nil_iff]
      intro l hl
      simp [Spec.lineVote, h l hl]
    rw [List.filterMap_append, List.filterMap_append, List.filterMap_append, z metas (fun l hl => (hmeta l hl).2),
      z (cands.map declLine), z [_] (by simp [hsep.2]), List.filterMap_map]
    · rfl
    · intro l hl
      obtain ⟨cn, hcn, rfl⟩ := List.mem_map.1 hl
      exact (declLine_facts (hc cn hcn)).2.2
  have hline : ∀ l ∈ impFile metas cands votes, ∀ r, readVote (beforeHash l) = some r → ∃ v ∈ votes, l = v.line := by
    intro l hl r hr
    simp only [impFile, List.mem_append, List.mem_map, List.mem_singleton] at hl
    rcases hl with ((hl | ⟨cn, hcn, rfl⟩) | rfl) | ⟨v, hv', rfl⟩
    · rw [(hmeta l hl).2] at hr; cases hr
    · rw [(declLine_facts (hc cn hcn)).2.2] at hr; cases hr
    · rw [hsep.2] at hr; cases hr
    · exact ⟨v, hv', rfl⟩
  have hsome : ∀ v ∈ votes, ∃ r, Spec.lineVote v.line = some r := by
    intro v hv'
    obtain ⟨p, com, h, _⟩ := (hv v hv').lineVote
    exact ⟨_, h⟩
  obtain ⟨m, hmok⟩ := convertAbif_total false false text (by
    rw [hlines]
    intro l hl q p hqp
    obtain ⟨v, hv', rfl⟩ := hline l hl _ hqp
    obtain ⟨p', com, h1, _, prefs, h2, _⟩ := (hv v hv').lineVote
    unfold Spec.lineVote at h1
    rw [hqp] at h1
    simp only [Option.map_some, Option.some.injEq, Prod.mk.injEq] at h1
    obtain ⟨_, rfl, _⟩ := h1
    exact ⟨_, h2⟩) (by
    rw [hvotes]
    cases votes with
    | nil => exact absurd rfl hne
    | cons v votes =>
      obtain ⟨r, hr⟩ := hsome v (by simp)
      simp [hr])
  obtain ⟨vls, f1, f0, f2, f3, f4, _⟩ := convertAbif_ok hmok
  refine ⟨m, vls, hmok, ?_, f2 ▸ stableSorted vls, ?_⟩
  · rw [hvotes] at f1
    exact says_votes hv f1
  · -- the candidate table
    have hment : (textLines false text).flatMap lineMentions =
        cands.map Prod.fst ++ votes.flatMap (fun v => v.tiers.flatten) := by
      rw [hlines]
      unfold impFile
      have z : ∀ ls : List Str, (∀ l ∈ ls, readCand (beforeHash l) = none ∧ readVote (beforeHash l) = none) →
          ls.flatMap lineMentions = [] := by
        intro ls h
        rw [List.flatMap_eq_nil_iff]
        intro l hl
        unfold lineMentions
        rw [(h l hl).1, (h l hl).2]
      rw [List.flatMap_append, List.flatMap_append, List.flatMap_append, z metas hmeta, z [_] (by simp [hsep.1, hsep.2]),
        List.nil_append, List.append_nil, List.flatMap_map, List.flatMap_map]
      congr 1
      · rw [← List.flatMap_singleton' cands, List.map_flatMap]
        simp only [List.flatMap_singleton', List.map_cons, List.map_nil]
        apply List.flatMap_congr
        intro cn hcn
        unfold lineMentions
        rw [(declLine_facts (hc cn hcn)).2.1]
      · apply List.flatMap_congr
        intro v hv'
        obtain ⟨p, com, h1, h2, prefs, h3, h4, h5⟩ := (hv v hv').lineVote
        unfold Spec.lineVote at h1
        cases hr : readVote (beforeHash v.line) with
        | none => rw [hr] at h1; cases h1
        | some r =>
          rw [hr] at h1
          simp only [Option.map_some, Option.some.injEq, Prod.mk.injEq] at h1
          unfold lineMentions
          rw [readCand_none_of_vote hr, hr]
          simp only
          rw [h1.2.1]
          unfold ballotCands
          rw [h3]
          simp only
          have := congrArg (List.map Prod.fst) h4
          rw [List.map_map] at this
          show List.map Prod.fst prefs = _
          rw [show (Prod.fst ∘ fun kp : Str × Pref => (kp.1, kp.2.rank)) = Prod.fst from rfl] at this
          rw [this]
          unfold tierRanks
          rw [List.map_flatMap]
          simp only [List.map_map]
          have e : (fun a : List Str × Nat => List.map (Prod.fst ∘ fun c => (c, some ((a.2 : Int) + 1))) a.1) = (fun a => a.1) := by
            funext a
            exact List.map_id _
          rw [e, ← List.flatMap_id', show v.tiers.zipIdx.flatMap (fun a => a.1) = (v.tiers.zipIdx.map Prod.fst).flatMap id from by rw [List.flatMap_map]; rfl,
            List.zipIdx_map_fst]
          rfl
    have hfirst : firsts (cands.map Prod.fst ++ votes.flatMap (fun v => v.tiers.flatten)) = cands.map Prod.fst := by
      have gen : ∀ (a b : List Str), a.Nodup → (∀ x ∈ b, x ∈ a) → firsts (a ++ b) = a := by
        intro a
        induction a with
        | nil =>
          intro b _ hb
          cases b with
          | nil => rfl
          | cons x b => exact absurd (hb x (by simp)) (by simp)
        | cons x a ih =>
          intro b hnd hb
          rw [List.nodup_cons] at hnd
          simp only [List.cons_append, firsts]
          congr 1
          -- the filter commutes with `firsts`
          have comm : ∀ l : List Str, (firsts l).filter (fun y => decide (y ≠ x)) = firsts (l.filter (fun y => decide (y ≠ x))) := by
            intro l
            induction l with
            | nil => rfl
            | cons y l ih2 =>
              simp only [firsts]
              by_cases hy : y = x
              · subst hy
                simp only [List.filter_cons, ne_eq, not_true, decide_false, Bool.false_eq_true, if_false, List.filter_filter, Bool.and_self]
                exact ih2
              · simp only [List.filter_cons, ne_eq, hy, not_false_eq_true, decide_true, if_true, firsts]
                congr 1
                rw [List.filter_filter, ← ih2, List.filter_filter]
                apply List.filter_congr
                intro z _
                exact Bool.and_comm _ _
          rw [comm, List.filter_append]
          have e1 : a.filter (fun y => decide (y ≠ x)) = a := by
            rw [List.filter_eq_self]
            intro y hy
            simp only [ne_eq, decide_not, Bool.not_eq_true', decide_eq_false_iff_not]
            rintro rfl; exact hnd.1 hy
          rw [e1]
          apply ih _ hnd.2
          intro y hy
          rw [List.mem_filter] at hy
          rcases List.mem_cons.1 (hb y hy.1) with h | h
          · subst h; simp at hy
          · exact h
      apply gen _ _ hnd
      intro x hx
      obtain ⟨v, hv', hx⟩ := List.mem_flatMap.1 hx
      exact hsub v hv' x hx
    rw [hment, hfirst] at f3
    have hdecl : ∀ cn ∈ cands, declared (textLines false text) cn.1 = some cn.2 := by
      intro cn hcn
      unfold declared
      have : (textLines false text).filterMap (fun l => readCand (beforeHash l)) = cands := by
        rw [hlines]
        unfold impFile
        have z : ∀ ls : List Str, (∀ l ∈ ls, readCand (beforeHash l) = none) →
            ls.filterMap (fun l => readCand (beforeHash l)) = [] := by
          intro ls h
          rw [List.filterMap_eq_nil_iff]
          exact h
        rw [List.filterMap_append, List.filterMap_append, List.filterMap_append, z metas (fun l hl => (hmeta l hl).1),
          z [_] (by simp [hsep.1]), z (votes.map ImpVote.line), List.filterMap_map, List.nil_append, List.append_nil, List.append_nil]
        · conv => rhs; rw [← List.filterMap_some (l := cands)]
          apply List.filterMap_congr
          intro cn hcn
          exact (declLine_facts (hc cn hcn)).2.1
        · intro l hl
          obtain ⟨v, hv', rfl⟩ := List.mem_map.1 hl
          obtain ⟨r, hr⟩ := hsome v hv'
          unfold Spec.lineVote at hr
          cases hr2 : readVote (beforeHash v.line) with
          | none => rw [hr2] at hr; cases hr
          | some r => exact readCand_none_of_vote hr2
      rw [this]
      have hf : cands.filter (fun td => decide (td.1 = cn.1)) = [cn] := filter_key_unique hnd hcn
      rw [hf]; rfl
    -- a dict is determined by its keys and lookups
    have hwf : (Dict.keys m.candidates).Nodup := by rw [f3]; exact hnd
    have ext : ∀ (d : Dict Str (Option Str)) (cs : List (Str × Str)), Dict.keys d = cs.map Prod.fst → (Dict.keys d).Nodup →
        (∀ cn ∈ cs, Dict.get? d cn.1 = some (some cn.2)) → d = cs.map (fun cn => (cn.1, some cn.2)) := by
      intro d
      induction d with
      | nil =>
        intro cs hk _ _
        cases cs with
        | nil => rfl
        | cons a b => cases hk
      | cons e d ih =>
        intro cs hk hnd hg
        cases cs with
        | nil => cases hk
        | cons a cs =>
          obtain ⟨k, v⟩ := e
          simp only [Dict.keys, List.map_cons, List.cons.injEq] at hk
          obtain ⟨rfl, hk⟩ := hk
          have h0 := hg a (by simp)
          simp only [Dict.get?, if_true] at h0
          simp only [Option.some.injEq] at h0
          subst h0
          rw [List.map_cons]
          congr 1
          simp only [Dict.keys, List.map_cons, List.nodup_cons] at hnd
          apply ih cs hk hnd.2
          intro cn hcn
          have := hg cn (by simp [hcn])
          have hne' : cn.1 ≠ a.1 := by
            intro he
            apply hnd.1
            rw [← he, hk]
            exact List.mem_map_of_mem hcn
          simpa [Dict.get?, hne', Ne.symm hne'] using this
    apply ext _ _ f3 hwf
    intro cn hcn
    rw [f4 _ (by rw [f3]; exact List.mem_map_of_mem hcn), hdecl cn hcn]
    rfl

end Verif
