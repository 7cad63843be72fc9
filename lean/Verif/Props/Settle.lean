/-
C95: converting .abif text to .abif text settles after two conversions.
-/
import Verif.Lib.Settle
import Verif.Props.Meta
import Verif.Props.Preserve
import Verif.Props.SfMain

set_option linter.unusedSimpArgs false
set_option linter.unusedSectionVars false

namespace Verif.Props
open Spec
section
variable [U : Uni]

/-- reading the printed line of the first gives the second -/
def Reread (a b : Voteline) : Prop :=
  b.qty = a.qty ∧ ∃ p, votelineStr a = .ok ((natStr a.qty.toNat ++ ':' :: p) ++ ['\n']) ∧ ∃ cs, parsePrefstr p = .ok (b.prefs, cs)

/-- One conversion of an accepted text, in full. -/
theorem one_trip {cw : Bool} (cw' : Bool) {text : Str} {m : Jabmod} (h : convertAbif cw false false text = .ok m)
    (htok : ∀ (vl : Voteline), vl ∈ m.votelines → ∀ (k : Str), k ∈ Dict.keys vl.prefs → Printable k)
    (hkeys : ∀ k ∈ Dict.keys m.metadata, ∀ c t, k = c :: t → isSpace c = false) :
    ∃ (out : Str) (m' : Jabmod), abifTextToAbif cw false text = .ok out ∧ convertToAbif m = .ok out ∧
      convertAbif cw' false false out = .ok m' ∧
      List.Forall₂ Reread m.votelines m'.votelines ∧
      (∃ n d, m.metadata = (c!"ballotcount", .int n) :: d ∧ m'.metadata = (c!"ballotcount", .int n) :: rereadMeta n d) ∧
      Dict.keys m'.candidates = firsts (safeToks m.candidates ++ m'.votelines.flatMap (fun vl => Dict.keys vl.prefs)) ∧
      (∀ t n, (t, n) ∈ m.candidates → t.all isUrlSafe = true → Dict.get? m'.candidates t = some n) ∧
      (∀ t ∈ Dict.keys m'.candidates, ¬ t.all isUrlSafe = true → Dict.get? m'.candidates t = some (some t)) := by
  obtain ⟨h1, h2, h3, h4⟩ := parsed_exportable h htok (by intro e; cases e)
  obtain ⟨vlines, ht, hl⟩ := convertToAbif_lines h1
  have hv : List.Forall₂ PrintedAs m.votelines vlines := hl.imp (fun _ _ h => h.2)
  have htl := textLines_file cw' h2 hv
  have hvf := votes_file (md := m.metadata) (cs := m.candidates) hv
  obtain ⟨m', hm'⟩ : ∃ m', convertAbif cw' false false ((fileLines m.metadata m.candidates vlines).flatMap (fun l => l ++ ['\n'])) = .ok m' := by
    apply convertAbif_total
    · intro l hl q p hr
      rw [htl] at hl
      have hsrc : (q, p, hashComment l) ∈ (fileLines m.metadata m.candidates vlines).filterMap Spec.lineVote :=
        List.mem_filterMap.2 ⟨l, hl, by unfold Spec.lineVote; rw [hr]; rfl⟩
      exact forall₂_right (P := fun src : Str × Str × Option Str => ∃ r, parsePrefstr src.2.1 = .ok r)
        (by rintro a b ⟨prefs', _, _, hp, _⟩; exact ⟨_, hp⟩) hvf _ hsrc
    · unfold votesOf
      rw [htl]
      intro he
      rw [he] at hvf
      cases hvs : m.votelines with
      | nil => exact h3 hvs
      | cons a l => rw [hvs] at hvf; cases hvf
  obtain ⟨vls, g1, gx, g2, g3, g4, gy, gz⟩ := convertAbif_ok hm'
  clear gx gy gz
  unfold votesOf at g1
  rw [htl] at g1 g3 g4
  have hsrc : List.Forall₂ (fun (vl : Voteline) (src : Str × Str × Option Str) => src.1 = natStr vl.qty.toNat ∧
      votelineStr vl = .ok ((natStr vl.qty.toNat ++ ':' :: src.2.1) ++ ['\n'])) m.votelines
      ((fileLines m.metadata m.candidates vlines).filterMap Spec.lineVote) := by
    rw [votes_lines]
    clear hv htl hvf hm' g1 g3 g4 ht h1 h4 h3 htok h
    generalize m.votelines = V at hl ⊢
    induction hl with
    | nil => exact .nil
    | cons h _ ih =>
      obtain ⟨e1, h⟩ := h
      obtain ⟨f1, f2, _⟩ := printed_facts h
      obtain ⟨p, prefs', rfl, hc, hr, _⟩ := h
      rw [List.filterMap_cons_some (b := (_, p, none)) (by unfold Spec.lineVote; rw [f1, hr, f2]; rfl)]
      exact .cons ⟨rfl, e1⟩ ih
  have hre : List.Forall₂ Reread m.votelines vls := forall₂_comp' hsrc g1 (by
    rintro a ha b c ⟨s1, s2⟩ ⟨t1, t2, _⟩
    refine ⟨?_, b.2.1, s2, t2⟩
    rw [t1, s1, (natStr_spec _).2.2]
    have := (h1 a ha).qty
    omega)
  have hqty : m.votelines.map Voteline.qty = vls.map Voteline.qty := forall₂_map_eq hre (fun a b hab => hab.1.symm)
  have hsame : m'.votelines = vls := by
    rw [g2]
    unfold sortByKeyDesc
    apply pySort_of_sorted
    obtain ⟨vls0, _, _, e2, _⟩ := convertAbif_ok h
    have hs := (stableSorted vls0).2.1
    rw [← e2] at hs
    have hs2 : (m.votelines.map Voteline.qty).Pairwise (fun a b => b ≤ a) := List.pairwise_map.2 hs
    rw [hqty] at hs2
    exact (List.pairwise_map.1 hs2).imp (fun hab => by simpa using hab)
  have hcands := parsed_cands h htok
  have hcw : Dict.WF m.candidates := (convertAbif_keys h).cands
  refine ⟨_, m', by unfold abifTextToAbif; rw [h]; exact ht, ht, hm', hsame ▸ hre, ?_, ?_, ?_, ?_⟩
  · have e0 := convertAbif_metadata h
    have e1 := convertAbif_metadata hm'
    rw [htl, metas_file hv (fun kv hkv => parsed_keys h kv.1 (List.mem_map_of_mem (f := Prod.fst) hkv) (hkeys kv.1 (List.mem_map_of_mem (f := Prod.fst) hkv)))] at e1
    refine ⟨_, _, e0, ?_⟩
    rw [e1]
    rw [hsame, ← hqty]
    unfold rereadMeta
    rw [← e0]
  · rw [g3, mentions_list hcands]
    congr 2
    rw [hsame]
    have e1 : vlines.flatMap lineMentions = (vlines.filterMap Spec.lineVote).flatMap (fun src => ballotCands src.2.1) := by
      clear hl htl hvf hm' g1 g3 g4 ht h1 h4 h3 htok h hsrc hre hqty
      generalize m.votelines = V at hv
      induction hv with
      | nil => rfl
      | cons h _ ih =>
        obtain ⟨f1, f2, f3⟩ := printed_facts h
        obtain ⟨p, prefs', rfl, hc, hr, _⟩ := h
        rw [List.filterMap_cons_some (b := (_, p, none)) (by unfold Spec.lineVote; rw [f1, hr, f2]; rfl), List.flatMap_cons, List.flatMap_cons, ih]
        congr 1
        unfold lineMentions
        rw [f1, f3, hr]
    rw [e1, ← votes_lines m.metadata m.candidates]
    clear hre hqty hsame hsrc hvf g2 hm' g3 g4 e1
    generalize (fileLines m.metadata m.candidates vlines).filterMap Spec.lineVote = srcs at g1 ⊢
    induction g1 with
    | nil => rfl
    | cons hs _ ih =>
      rw [List.flatMap_cons, List.flatMap_cons, ih]
      congr 1
      obtain ⟨_, ⟨cands, hp⟩, _⟩ := hs
      unfold ballotCands
      rw [hp]
  · intro t n hm hs
    have hsafe : SafeCand (t, n) := (hcands _ hm).resolve_right (fun hb => hb.1 (List.all_eq_true.1 hs))
    obtain ⟨_, d, hd, _⟩ := id hsafe
    simp only at hd
    subst hd
    have hk : t ∈ Dict.keys m'.candidates := by
      rw [g3, mentions_list hcands, mem_firsts]
      exact List.mem_append_left _ (List.mem_filter.2 ⟨List.mem_map_of_mem (f := Prod.fst) hm, hs⟩)
    rw [g4 t hk, (declared_file (md := m.metadata) hv hcw hcands).1 t d hm hsafe]
    rfl
  · intro t ht hs
    rw [g4 t ht]
    have : declared (fileLines m.metadata m.candidates vlines) t = none := by
      unfold declared
      have : (((fileLines m.metadata m.candidates vlines).filterMap (fun l => readCand (beforeHash l))).filter (fun td => decide (td.1 = t))) = [] := by
        rw [List.filter_eq_nil_iff]
        rintro ⟨a, b⟩ hx
        simp only [decide_eq_true_eq]
        rintro rfl
        exact hs (List.all_eq_true.2 ((readCands_file (md := m.metadata) hv hcands a b).1 hx).2.1)
      rw [this]; rfl
    rw [this]
    rfl

/-- One ballot, printed and read. -/
theorem reread_once {a b : Voteline} (h : Exportable a) (h1 : Reread a b) :
    (∀ e ∈ b.prefs, SettledRating e.2.rating) ∧ (Dict.keys b.prefs).Perm (Dict.keys a.prefs) ∧
    ((∀ e ∈ a.prefs, SettledRating e.2.rating) → votelineStr b = votelineStr a) ∧
    (∀ c, Reread b c → Dict.keys c.prefs = Dict.keys b.prefs) := by
  obtain ⟨q1, p, hp, cs, hr⟩ := h1
  have strip : ∀ (v : Voteline) (p : Str), 0 ≤ v.qty → votelineStr v = .ok ((natStr v.qty.toNat ++ ':' :: p) ++ ['\n']) → prefstrOfPrefs v.prefs = .ok p := by
    intro v p hv e
    unfold votelineStr at e
    obtain ⟨p0, h0, e⟩ := bind_ok.1 e
    rw [h0]
    rw [intStr_nonneg hv] at e
    injection e with e
    have : natStr v.qty.toNat ++ (':' :: (p0 ++ ['\n'])) = natStr v.qty.toNat ++ (':' :: (p ++ ['\n'])) := by simpa using e
    have := List.append_cancel_left this
    simp only [List.cons.injEq, true_and] at this
    rw [List.append_cancel_right this]
  have hp := strip a p h.qty hp
  by_cases hne : a.prefs = []
  · have hnil : prefstrOfPrefs [] = .ok [] := rfl
    rw [hne] at hp ⊢
    have : p = [] := by
      rw [hnil] at hp; exact (Except.ok.inj hp).symm
    subst this
    rw [parsePrefstr_nil] at hr
    injection hr with hr
    have hb : b.prefs = [] := (Prod.mk.inj hr).1.symm
    rw [hb]
    refine ⟨by simp, .refl _, ?_, ?_⟩
    · intro _
      unfold votelineStr
      rw [hb, hne, q1]
    · rintro c ⟨q2, p', hp', cs', hr'⟩
      have hp' := strip b p' (by rw [q1]; exact h.qty) hp'
      rw [hb] at hp'
      have : p' = [] := by
        rw [hnil] at hp'; exact (Except.ok.inj hp').symm
      subst this
      rw [parsePrefstr_nil] at hr'
      injection hr' with hr'
      rw [← (Prod.mk.inj hr').1]
  · obtain ⟨p1, prefs1, p2, prefs2, e1, e2, e3, e4, e5, e6, e7, e8⟩ := reprint hne h.wf h.tokens h.ranked h.ratings
    rw [hp] at e1
    cases e1
    rw [hr] at e2
    injection e2 with e2
    have hb : b.prefs = prefs1 := (Prod.mk.inj e2).1
    refine ⟨by rw [hb]; exact e3, by rw [hb]; exact e4, ?_, ?_⟩
    · intro hs
      unfold votelineStr
      rw [hb, e5, hp, q1, e8 hs]
    · rintro c ⟨q2, p', hp', cs', hr'⟩
      have hp' := strip b p' (by rw [q1]; exact h.qty) hp'
      rw [hb, e5] at hp'
      cases hp'
      rw [e6] at hr'
      injection hr' with hr'
      rw [hb, ← (Prod.mk.inj hr').1]
      exact e7

theorem forall₂_flatMap_eq {α β γ : Type} {R : α → β → Prop} {f : α → List γ} {g : β → List γ} {l : List α} {r : List β}
    (h : List.Forall₂ R l r) (hf : ∀ a b, R a b → f a = g b) : l.flatMap f = r.flatMap g := by
  induction h with
  | nil => rfl
  | cons hr _ ih => simp [hf _ _ hr, ih]

theorem votelinesStr_congr {l r : List Voteline} (h : List.Forall₂ (fun a b => votelineStr a = votelineStr b) l r) :
    votelinesStr l = votelinesStr r := by
  induction h with
  | nil => rfl
  | cons hr _ ih => unfold votelinesStr; rw [hr, ih]

theorem filter_firsts {κ : Type} [DecidableEq κ] (p : κ → Bool) (l : List κ) : (firsts l).filter p = firsts (l.filter p) := by
  induction l with
  | nil => rfl
  | cons a l ih =>
    simp only [firsts, List.filter_cons]
    split
    · simp only [firsts]
      rw [← ih, List.filter_filter, List.filter_filter]
      simp only [Bool.and_comm]
    · rename_i hp
      rw [← ih, List.filter_filter]
      apply List.filter_congr
      intro x hx
      by_cases hxp : p x = true
      · have : x ≠ a := by rintro rfl; exact hp hxp
        simp [hxp, this]
      · simp [hxp]

theorem forall₂_flip' {α : Type} {R : α → α → Prop} {S : α → α → Prop} {l r : List α} (h : List.Forall₂ R l r)
    (hs : ∀ a ∈ l, ∀ b, R a b → S b a) : List.Forall₂ S r l := by
  induction h with
  | nil => exact .nil
  | cons hr _ ih => exact .cons (hs _ (by simp) _ hr) (ih (fun a ha => hs a (by simp [ha])))

theorem forall₂_mid {α β γ : Type} {R : α → β → Prop} {S : β → γ → Prop} {l : List α} {m : List β} {r : List γ}
    (h : List.Forall₂ R l m) (g : List.Forall₂ S m r) : List.Forall₂ (fun b c => ∃ a ∈ l, R a b ∧ S b c) m r := by
  induction h generalizing r with
  | nil => cases g; exact .nil
  | cons hr _ ih =>
    cases g with
    | cons gs g =>
      exact .cons ⟨_, by simp, hr, gs⟩ ((ih g).imp (fun b c ⟨a, ha, h⟩ => ⟨a, by simp [ha], h⟩))

/-- C95.  Converting an accepted .abif text (printable ballot tokens, no metadata key starting with a blank) to .abif
once and once more gives a text that is converted to itself, whatever the whitespace options. -/
theorem C95_settles (cw cw1 cw2 : Bool) (text : Str) (m : Jabmod) (h : convertAbif cw false false text = .ok m)
    (htok : ∀ (vl : Voteline), vl ∈ m.votelines → ∀ (k : Str), k ∈ Dict.keys vl.prefs → Printable k)
    (hkeys : ∀ k ∈ Dict.keys m.metadata, ∀ c t, k = c :: t → isSpace c = false) :
    ∃ (once twice : Str), abifTextToAbif cw false text = .ok once ∧ abifTextToAbif cw1 false once = .ok twice ∧
      abifTextToAbif cw2 false twice = .ok twice := by
  obtain ⟨out1, m1, a1, a1', b1, c1, ⟨n, d, d1, d1'⟩, k1, s1, u1⟩ := one_trip cw1 h htok hkeys
  obtain ⟨x0, _, _, _⟩ := parsed_exportable h htok (by intro e; cases e)
  -- the ballots of the first result have the same tokens
  have q1 : ∀ b ∈ m1.votelines, (∀ e ∈ b.prefs, SettledRating e.2.rating) ∧ ∃ a ∈ m.votelines, (Dict.keys b.prefs).Perm (Dict.keys a.prefs) := by
    intro b hb
    obtain ⟨a, ha, hab⟩ := forall₂_mem_right c1 hb
    exact ⟨(reread_once (x0 a ha) hab).1, a, ha, (reread_once (x0 a ha) hab).2.1⟩
  have htok1 : ∀ (vl : Voteline), vl ∈ m1.votelines → ∀ (k : Str), k ∈ Dict.keys vl.prefs → Printable k := by
    intro vl hvl k hk
    obtain ⟨_, a, ha, hp⟩ := q1 vl hvl
    exact htok a ha k (hp.mem_iff.1 hk)
  have hkeys1 : ∀ k ∈ Dict.keys m1.metadata, ∀ c t, k = c :: t → isSpace c = false := by
    intro k hk c t e
    rw [d1'] at hk
    have hbc : ∀ s : Str, s = c!"ballotcount" ∨ s = c!"ballotcount_abif_metadata" → s = c :: t → isSpace c = false := by
      rintro s (rfl | rfl) e <;> (cases e; rfl)
    rcases List.mem_cons.1 hk with rfl | hk
    · exact hbc _ (.inl rfl) e
    · rcases setAll_keys k hk with hk | ⟨kv, hkv, rfl⟩
      · cases hk
      · obtain ⟨kv0, hm0, e0⟩ := List.mem_filterMap.1 hkv
        rw [← d1] at hm0
        cases hr : rereadText kv0.2 with
        | none => rw [hr] at e0; cases e0
        | some v =>
          rw [hr] at e0
          have e1 : kv.1 = kv0.1 := by cases e0; rfl
          unfold filedAs at e
          split at e
          · exact hbc _ (.inr rfl) e
          · rw [e1] at e
            exact hkeys kv0.1 (List.mem_map_of_mem (f := Prod.fst) hm0) c t e
  obtain ⟨out2, m2, a2, a2', b2, c2, ⟨n', d', d2, d2'⟩, k2, s2, u2⟩ := one_trip cw2 b1 htok1 hkeys1
  obtain ⟨x1, _, _, _⟩ := parsed_exportable b1 htok1 (by intro e; cases e)
  -- metadata
  have hmeta : m2.metadata = m1.metadata := by
    rw [d1'] at d2
    injection d2 with e1 e2
    have en : n' = n := by cases e1; rfl
    rw [d2', d1', en, ← e2, rereadMeta_idem]
  -- ballots
  have hstr : votelinesStr m2.votelines = votelinesStr m1.votelines := by
    apply votelinesStr_congr
    refine (forall₂_flip' c2 ?_)
    intro a ha b hab
    exact (reread_once (x1 a ha) hab).2.2.1 (q1 a ha).1
  have hq : m2.votelines.flatMap (fun vl => Dict.keys vl.prefs) = m1.votelines.flatMap (fun vl => Dict.keys vl.prefs) := by
    symm
    have := forall₂_mid c1 c2
    refine forall₂_flatMap_eq this ?_
    rintro b c ⟨a, ha, hab, hbc⟩
    exact ((reread_once (x0 a ha) hab).2.2.2 c hbc).symm
  -- candidates
  have hsafe : safeToks m1.candidates = safeToks m.candidates := by
    have hn : (safeToks m.candidates).Nodup := (show (Dict.keys m.candidates).Nodup from (convertAbif_keys h).cands).filter _
    unfold safeToks at hn ⊢
    rw [k1, filter_firsts, List.filter_append]
    unfold safeToks
    rw [List.filter_filter]
    simp only [Bool.and_self]
    rw [firsts_append_subset, firsts_of_nodup hn]
    intro x hx
    obtain ⟨hx, hs⟩ := List.mem_filter.1 hx
    obtain ⟨b, hb, hx⟩ := List.mem_flatMap.1 hx
    obtain ⟨_, a, ha, hp⟩ := q1 b hb
    exact List.mem_filter.2 ⟨(C03_candidates cw false false text m h).2.2 a ha x (hp.mem_iff.1 hx), hs⟩
  have hk : Dict.keys m2.candidates = Dict.keys m1.candidates := by
    rw [k2, k1, hq, hsafe]
  have hcands : m2.candidates = m1.candidates := by
    apply dict_ext hk (convertAbif_keys b2).cands
    intro t
    by_cases hm : t ∈ Dict.keys m1.candidates
    · by_cases hs : t.all isUrlSafe = true
      · obtain ⟨v, hv⟩ := Dict.exists_get?_of_mem hm
        rw [hv]
        exact s2 t v (Dict.mem_of_get? hv) hs
      · rw [u2 t (hk ▸ hm) hs, u1 t hm hs]
    · rw [Dict.get?_eq_none.2 hm, Dict.get?_eq_none.2 (hk ▸ hm)]
  refine ⟨out1, out2, a1, a2, ?_⟩
  have : convertToAbif m2 = convertToAbif m1 := by
    unfold convertToAbif
    rw [hstr, hmeta, hcands]
  unfold abifTextToAbif
  rw [b2]
  exact this.trans a2'

end

/-! ### the hypotheses are met; one conversion is not enough; the condition on the tokens is needed -/
section
attribute [local instance] Uni.ascii
set_option maxRecDepth 40000

/-- a text with metadata, a named candidate, a bracketed candidate, ratings (one of them zero) and a tie -/
def settleText : Str := c!"{title: Vote}\n=A:[Ann]\n3:B=A/5>[C D]/0\n5:[C D]>A\n"
def settleOnce : Str := c!"#------- metadata -------\n{ballotcount: 8}\n{title: \"Vote\"}\n#------ candlines ------\n=A:[Ann]\n=B:[B]\n=[C D]:[C D]\n#------- votelines ------\n5:[C D]>A\n3:B=A/5>[C D]\n"
def settleTwice : Str := c!"#------- metadata -------\n{ballotcount: 8}\n{ballotcount_abif_metadata: \"8\"}\n{title: \"Vote\"}\n#------ candlines ------\n=A:[Ann]\n=B:[B]\n=[C D]:[C D]\n#------- votelines ------\n5:[C D]>A\n3:B=A/5>[C D]\n"

theorem settle_text : (abifTextToAbif true false settleText).toOption = some settleOnce ∧
    (abifTextToAbif true false settleOnce).toOption = some settleTwice ∧
    (abifTextToAbif true false settleTwice).toOption = some settleTwice := by decide +kernel

/-- what the first conversion reads -/
def settleModel : Jabmod := match convertAbif true false false settleText with | .ok m => m | .error _ => { metadata := [], candidates := [], votelines := [] }

example : convertAbif true false false settleText = .ok settleModel := by
  have : (convertAbif true false false settleText).toOption.isSome = true := by decide +kernel
  unfold settleModel
  cases h : convertAbif true false false settleText with
  | ok m => rfl
  | error e => rw [h] at this; cases this

example : ∀ (vl : Voteline), vl ∈ settleModel.votelines → ∀ (k : Str), k ∈ Dict.keys vl.prefs → Printable k := by
  have : ∀ vl ∈ settleModel.votelines, ∀ k ∈ Dict.keys vl.prefs, k = c!"A" ∨ k = c!"B" ∨ k = c!"C D" := by decide +kernel
  intro vl hvl k hk
  rcases this vl hvl k hk with rfl | rfl | rfl <;> exact printable_plain (by decide) (by decide +kernel) (by decide +kernel)

example : ∀ k ∈ Dict.keys settleModel.metadata, ∀ c t, k = c :: t → isSpace c = false := by
  have : ∀ k ∈ Dict.keys settleModel.metadata, k = c!"ballotcount" ∨ k = c!"title" := by decide +kernel
  intro k hk c t e
  rcases this k hk with rfl | rfl <;> (cases e; rfl)

/-- One conversion is not enough: the converted text is not converted to itself. -/
theorem C95_once_refuted : ¬ ∀ (text once : Str), abifTextToAbif true false text = .ok once →
    abifTextToAbif true false once = .ok once := by
  intro h
  have h1 : abifTextToAbif true false settleText = .ok settleOnce := by
    have := settle_text.1
    cases h : abifTextToAbif true false settleText with
    | ok m => rw [h] at this; cases this; rfl
    | error e => rw [h] at this; cases this
  have h2 := h _ _ h1
  have := settle_text.2.1
  rw [h2] at this
  exact absurd this (by decide +kernel)

/-- Without the condition on the tokens, the converted text may not even be accepted: one unmatched quote is enough. -/
theorem C95_quote_refuted : ¬ ∀ (text once : Str), abifTextToAbif true false text = .ok once →
    ∃ twice, abifTextToAbif true false once = .ok twice := by
  intro h
  have h1 : (abifTextToAbif true false c!"1:\"A>B\n").toOption = some
      c!"#------- metadata -------\n{ballotcount: 1}\n#------ candlines ------\n=[\"A]:[\"A]\n=B:[B]\n#------- votelines ------\n1:[\"A]>B\n" := by decide +kernel
  have h2 : (abifTextToAbif true false
      c!"#------- metadata -------\n{ballotcount: 1}\n#------ candlines ------\n=[\"A]:[\"A]\n=B:[B]\n#------- votelines ------\n1:[\"A]>B\n").toOption = none := by decide +kernel
  obtain ⟨t, ht⟩ := h c!"1:\"A>B\n" _ (by
    cases e : abifTextToAbif true false c!"1:\"A>B\n" with
    | ok m => rw [e] at h1; cases h1; rfl
    | error e' => rw [e] at h1; cases h1)
  rw [ht] at h2
  cases h2

end
end Verif.Props
