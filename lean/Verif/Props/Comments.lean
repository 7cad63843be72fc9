/-
C10 for texts that do have a metadata line keyed `comments`: the key is shared by the stored comments
(a list) and by such a line (a string), core.py:97-104 and core.py:169-186.
-/
import Verif.Props.Parse
import Verif.Lib.MetaRound

namespace Verif

open Spec

section
variable [U : Uni]

/-- a line `{comments: ...}` -/
def Spec.CommentsLine (l : Str) : Prop := ∃ v, readMeta (beforeHash l) = some (c!"comments", v)

/-- no `{comments: ...}` line is followed, on a later line, by a comment -/
def Spec.NoCommentAfter (ls : List Str) : Prop :=
  ls.Pairwise (fun l l' => CommentsLine l → hashComment l' = none)

theorem commentsLine_effect {l v : Str} (h : readMeta (beforeHash l) = some (c!"comments", v)) (m : Jabmod) :
    lineEffect l m = .ok { m with metadata := m.metadata.set c!"comments" (.str v) } := by
  unfold lineEffect
  have hc : readCand (beforeHash l) = none := by
    cases hb : beforeHash l with
    | nil => rw [hb] at h; cases h
    | cons c t =>
      rw [hb] at h
      by_cases hc : c = '{'
      · subst hc; rfl
      · rw [readMeta_head_none hc] at h; cases h
  rw [hc]
  simp only
  rw [matchMeta_eq, h]
  rfl

/-- one line that is no `{comments: ...}` line, on two models that differ in the key `comments` only -/
theorem lineEffect_same {l : Str} (hl : ¬ CommentsLine l) {m m' : Jabmod} (hs : SameButComments m m') :
    (∃ e, lineEffect l m = .error e ∧ lineEffect l m' = .error e) ∨
    (∃ r r', lineEffect l m = .ok r ∧ lineEffect l m' = .ok r' ∧ SameButComments r r' ∧
      r.metadata.get? c!"comments" = m.metadata.get? c!"comments" ∧
      r'.metadata.get? c!"comments" = m'.metadata.get? c!"comments") := by
  have hbc : m.metadata.get? c!"ballotcount" = m'.metadata.get? c!"ballotcount" := hs.md _ (by decide)
  have setk : ∀ (d d' : Dict Str Json) (a : Str) (v : Json),
      (∀ k, k ≠ c!"comments" → d.get? k = d'.get? k) →
      (∀ k, k ≠ c!"comments" → (d.set a v).get? k = (d'.set a v).get? k) := by
    intro d d' a v h k hk
    rw [Dict.get?_set, Dict.get?_set, h k hk]
  unfold lineEffect
  cases readCand (beforeHash l) with
  | some td => exact .inr ⟨_, _, rfl, rfl, ⟨by simp [processCand, hs.cands], hs.lines, hs.md⟩, rfl, rfl⟩
  | none =>
    simp only
    cases hmm : matchMeta (beforeHash l) with
    | some kv =>
      obtain ⟨mk, mv⟩ := kv
      have hk : (if mk = c!"ballotcount" then c!"ballotcount_abif_metadata" else mk) ≠ c!"comments" := by
        split
        · decide
        · intro e
          subst e
          exact hl ⟨mv, by rw [← matchMeta_eq, hmm]⟩
      refine .inr ⟨_, _, rfl, rfl, ⟨hs.cands, hs.lines, setk _ _ _ _ hs.md⟩, ?_, ?_⟩
      · simp only [processMeta]; rw [Dict.get?_set_ne _ _ hk]
      · simp only [processMeta]; rw [Dict.get?_set_ne _ _ hk]
    | none =>
      simp only
      cases readVote (beforeHash l) with
      | none => exact .inr ⟨_, _, rfl, rfl, hs, rfl, rfl⟩
      | some qp =>
        simp only
        unfold processPrefline
        simp only
        rcases bump_congr (q := (digitsVal qp.1 : Int)) hbc with ⟨e, h1, h2⟩ | ⟨v, h1, h2⟩
        · rw [h1, h2]; exact .inl ⟨e, rfl, rfl⟩
        · rw [h1, h2]
          cases parsePrefstr qp.2 with
          | error e => exact .inl ⟨e, rfl, rfl⟩
          | ok r =>
            refine .inr ⟨_, _, rfl, rfl, ⟨by simp [hs.cands], by simp [hs.lines], setk _ _ _ _ hs.md⟩, ?_, ?_⟩
            · simp only; rw [Dict.get?_set_ne _ _ (by decide)]
            · simp only; rw [Dict.get?_set_ne _ _ (by decide)]

/-- the two runs after a `{comments: ...}` line: they agree until the next comment, which ends the storing one -/
theorem processPlain_seen {ls : List Str} {i j : Nat} {m m' : Jabmod} (hs : SameButComments m m') {v : Str}
    (he : m.metadata.get? c!"comments" = some (.str v)) (he' : m'.metadata.get? c!"comments" = some (.str v)) :
    (∀ e, processPlain false j ls m' = .error e →
      processPlain true i ls m = .error e ∨ processPlain true i ls m = .error .attributeError) ∧
    (∀ r', processPlain false j ls m' = .ok r' →
      ((∃ l ∈ ls, hashComment l ≠ none) → processPlain true i ls m = .error .attributeError) ∧
      ((∀ l ∈ ls, hashComment l = none) → ∃ r, processPlain true i ls m = .ok r ∧ SameButComments r r' ∧
        ∃ w, r.metadata.get? c!"comments" = some (.str w) ∧ r'.metadata.get? c!"comments" = some (.str w))) := by
  induction ls generalizing i j m m' v with
  | nil =>
    refine ⟨fun e h => (by cases h), fun r' h => ?_⟩
    cases h
    exact ⟨fun ⟨l, hl, _⟩ => (by cases hl), fun _ => ⟨m, rfl, hs, v, he, he'⟩⟩
  | cons l ls ih =>
    simp only [processPlain, processComment_false, ok_bind]
    cases hc : hashComment l with
    | some c =>
      have hp : processComment (some c) i true m = .error .attributeError := by
        unfold processComment
        simp only [hashComment_ne hc, ne_eq, not_false_eq_true, and_self, if_true, he]
      rw [hp, error_bind]
      refine ⟨fun e _ => .inr rfl, fun r' _ => ⟨fun _ => rfl, fun h => ?_⟩⟩
      rw [h l (by simp)] at hc
      cases hc
    | none =>
      have hp : processComment none i true m = .ok m := rfl
      rw [hp, ok_bind]
      have key : (∃ e, lineEffect l m = .error e ∧ lineEffect l m' = .error e) ∨
          (∃ (r r' : Jabmod) (w : Str), lineEffect l m = .ok r ∧ lineEffect l m' = .ok r' ∧ SameButComments r r' ∧
            r.metadata.get? c!"comments" = some (.str w) ∧ r'.metadata.get? c!"comments" = some (.str w)) := by
        by_cases hl : CommentsLine l
        · obtain ⟨w, hw⟩ := hl
          refine .inr ⟨_, _, w, commentsLine_effect hw m, commentsLine_effect hw m',
            ⟨hs.cands, hs.lines, ?_⟩, Dict.get?_set_self _ _ _, Dict.get?_set_self _ _ _⟩
          intro k hk
          simp only
          rw [Dict.get?_set, Dict.get?_set, hs.md k hk]
        · rcases lineEffect_same hl hs with h | ⟨r, r', h1, h2, h3, h4, h5⟩
          · exact .inl h
          · exact .inr ⟨r, r', v, h1, h2, h3, h4.trans he, h5.trans he'⟩
      rcases key with ⟨e, h1, h2⟩ | ⟨r, r', w, h1, h2, h3, h4, h5⟩
      · rw [h1, h2, error_bind, error_bind]
        exact ⟨fun e' h => .inl h, fun r' h => (by cases h)⟩
      · have := ih (i := i + 1) (j := j + 1) h3 h4 h5
        rw [h1, h2, ok_bind, ok_bind]
        refine ⟨this.1, fun r0 h0 => ⟨fun hex => (this.2 r0 h0).1 ?_, fun hall => (this.2 r0 h0).2 (fun x hx => hall x (by simp [hx]))⟩⟩
        obtain ⟨x, hx, hxc⟩ := hex
        rcases List.mem_cons.1 hx with rfl | hx
        · exact absurd hc hxc
        · exact ⟨x, hx, hxc⟩

/-- the two runs from the start -/
theorem processPlain_both {ls : List Str} {i j : Nat} {m m' : Jabmod} {es : List Json} (hs : SameButComments m m')
    (he : m.metadata.get? c!"comments" = storedAs es) (he' : m'.metadata.get? c!"comments" = none) :
    (∀ e, processPlain false j ls m' = .error e →
      processPlain true i ls m = .error e ∨ processPlain true i ls m = .error .attributeError) ∧
    (∀ r', processPlain false j ls m' = .ok r' →
      (¬ NoCommentAfter ls → processPlain true i ls m = .error .attributeError) ∧
      (NoCommentAfter ls → ∃ r, processPlain true i ls m = .ok r ∧ SameButComments r r' ∧
        ((∃ l ∈ ls, CommentsLine l) → r.metadata.get? c!"comments" = r'.metadata.get? c!"comments"))) := by
  induction ls generalizing i j m m' es with
  | nil =>
    refine ⟨fun e h => (by cases h), fun r' h => ?_⟩
    cases h
    exact ⟨fun h => absurd List.Pairwise.nil h, fun _ => ⟨m, rfl, hs, fun ⟨l, hl, _⟩ => (by cases hl)⟩⟩
  | cons l ls ih =>
    simp only [processPlain, processComment_false, ok_bind]
    obtain ⟨m1, es1, hp1, hs1, he1⟩ : ∃ m1 es1, processComment (hashComment l) i true m = .ok m1 ∧
        SameButComments m1 m' ∧ m1.metadata.get? c!"comments" = storedAs es1 := by
      unfold processComment
      cases hc : hashComment l with
      | none => exact ⟨m, es, rfl, hs, he⟩
      | some c =>
        have hne := hashComment_ne hc
        simp only [hne, ne_eq, not_false_eq_true, and_self, if_true]
        refine ⟨{ m with metadata := m.metadata.set c!"comments" (.arr (es ++ [.arr [.int i, .str c]])) },
          es ++ [.arr [.int i, .str c]], ?_, ?_, ?_⟩
        · rw [he]
          unfold storedAs
          by_cases hes : es = []
          · subst hes; simp
          · simp [hes]
        · refine ⟨hs.cands, hs.lines, ?_⟩
          intro k hk
          rw [← hs.md k hk]
          exact Dict.get?_set_ne _ _ (Ne.symm hk)
        · rw [Dict.get?_set_self]; unfold storedAs; simp
    rw [hp1, ok_bind]
    by_cases hl : CommentsLine l
    · obtain ⟨w, hw⟩ := hl
      rw [commentsLine_effect hw m1, commentsLine_effect hw m', ok_bind, ok_bind]
      have key := processPlain_seen (ls := ls) (i := i + 1) (j := j + 1)
        (m := { m1 with metadata := m1.metadata.set c!"comments" (.str w) })
        (m' := { m' with metadata := m'.metadata.set c!"comments" (.str w) }) (v := w)
        ⟨hs1.cands, hs1.lines, by
          intro k hk
          simp only
          rw [Dict.get?_set, Dict.get?_set, hs1.md k hk]⟩ (Dict.get?_set_self _ _ _) (Dict.get?_set_self _ _ _)
      refine ⟨key.1, fun r' hr => ⟨fun hn => (key.2 r' hr).1 ?_, fun hp => ?_⟩⟩
      · by_contra hnone
        have hnone : ∀ l ∈ ls, hashComment l = none := by
          intro x hx
          by_contra hxc
          exact hnone ⟨x, hx, hxc⟩
        refine hn (List.pairwise_cons.2 ⟨fun x hx _ => hnone x hx, ?_⟩)
        exact List.pairwise_of_forall_mem_list (fun _ _ y hy _ => hnone y hy)
      · have h1 := (List.pairwise_cons.1 hp).1
        obtain ⟨r, hr1, hr2, v, hr3, hr4⟩ := (key.2 r' hr).2 (fun x hx => h1 x hx ⟨w, hw⟩)
        exact ⟨r, hr1, hr2, fun _ => hr3.trans hr4.symm⟩
    · rcases lineEffect_same hl hs1 with ⟨e, h1, h2⟩ | ⟨r, r', h1, h2, h3, h4, h5⟩
      · rw [h1, h2, error_bind, error_bind]
        exact ⟨fun e' h => .inl h, fun r' h => (by cases h)⟩
      · rw [h1, h2, ok_bind, ok_bind]
        have key := ih (i := i + 1) (j := j + 1) h3 (h4.trans he1) (h5.trans he')
        refine ⟨key.1, fun r0 hr => ⟨fun hn => (key.2 r0 hr).1 (fun hp => hn ?_), fun hp => ?_⟩⟩
        · exact List.pairwise_cons.2 ⟨fun _ _ hx => absurd hx hl, hp⟩
        · obtain ⟨q, q1, q2, q3⟩ := (key.2 r0 hr).2 (List.pairwise_cons.1 hp).2
          refine ⟨q, q1, q2, fun ⟨x, hx, hxc⟩ => q3 ?_⟩
          rcases List.mem_cons.1 hx with rfl | hx
          · exact absurd hxc hl
          · exact ⟨x, hx, hxc⟩

end

namespace Props

variable [U : Uni]

/-- C10, for every text, in particular those with a metadata line `{comments: ...}`.  A text that is accepted without
`storecomments` is accepted with it, unless a `{comments: ...}` line is followed on a later line by a `#` comment: then
`storecomments` ends in an AttributeError (the stored string has no `append`).  If it is accepted, candidates, votelines
and all metadata but `comments` are the same; and if there is a `{comments: ...}` line, so is `comments`: the comments on
and before that line are lost.  A text that is refused without `storecomments` is refused with it, for the same reason
or with that AttributeError. -/
theorem C10_comments_key (cw ar : Bool) (text : Str) :
    (∀ e, convertAbif cw ar false text = .error e →
      convertAbif cw ar true text = .error e ∨ convertAbif cw ar true text = .error .attributeError) ∧
    (∀ m', convertAbif cw ar false text = .ok m' →
      (¬ NoCommentAfter (textLines cw text) → convertAbif cw ar true text = .error .attributeError) ∧
      (NoCommentAfter (textLines cw text) → ∃ m, convertAbif cw ar true text = .ok m ∧
        m.candidates = m'.candidates ∧ m.votelines = m'.votelines ∧
        (∀ k, k ≠ c!"comments" → m.metadata.get? k = m'.metadata.get? k) ∧
        ((∃ l ∈ textLines cw text, CommentsLine l) →
          m.metadata.get? c!"comments" = m'.metadata.get? c!"comments"))) := by
  rw [convertAbif_eq, convertAbif_eq]
  have key := processPlain_both (ls := textLines cw text) (i := 0) (j := 0) (m := emptyishJabmod)
    (m' := emptyishJabmod) (es := []) ⟨rfl, rfl, fun _ _ => rfl⟩ rfl rfl
  cases hp : processPlain false 0 (textLines cw text) emptyishJabmod with
  | error e0 =>
    rw [error_bind]
    refine ⟨fun e h => ?_, fun m' h => (by cases h)⟩
    cases h
    rcases key.1 _ hp with h | h
    · rw [h]; exact .inl rfl
    · rw [h]; exact .inr rfl
  | ok r' =>
    rw [ok_bind]
    by_cases hn : NoCommentAfter (textLines cw text)
    · obtain ⟨r, h1, hs, hc⟩ := (key.2 r' hp).2 hn
      rw [h1, ok_bind]
      obtain ⟨vls, f1, f2, _⟩ := processPlain_ok h1 0 rfl
      have f2' : r.votelines = vls := by rw [f2]; rfl
      have hg : ∀ vl ∈ r.votelines, GoodLine vl := by rw [f2']; exact says_good f1
      have hg' : ∀ vl ∈ r'.votelines, GoodLine vl := hs.lines ▸ hg
      unfold finish
      rw [← hs.lines]
      by_cases hne : r.votelines = []
      · rw [if_pos hne, if_pos hne]; exact ⟨fun e h => .inl h, fun m' h => (by cases h)⟩
      · rw [if_neg hne, if_neg hne]
        cases ar with
        | false =>
          refine ⟨fun e h => (by cases h), fun m' h => ⟨fun h => absurd hn h, fun _ => ?_⟩⟩
          cases h
          exact ⟨_, rfl, hs.cands, by simp only [hs.lines], hs.md, hc⟩
        | true =>
          simp only [if_true]
          rw [addRatings_eq r hg, addRatings_eq r' hg']
          have hh : hasAnyRating r = hasAnyRating r' := by unfold hasAnyRating; rw [hs.lines]
          refine ⟨fun e h => (by cases h), fun m' h => ⟨fun h => absurd hn h, fun _ => ?_⟩⟩
          cases h
          refine ⟨_, rfl, hs.cands, ?_, ?_, ?_⟩
          · simp only [hh, hs.lines, hs.cands]
          · intro k hk
            simp only [hh, hs.lines]
            split
            · rw [Dict.get?_set, Dict.get?_set, hs.md k hk]
            · exact hs.md k hk
          · intro hx
            simp only [hh, hs.lines]
            split
            · rw [Dict.get?_set_ne _ _ (by decide), Dict.get?_set_ne _ _ (by decide)]; exact hc hx
            · exact hc hx
    · have h1 := (key.2 r' hp).1 hn
      rw [h1, error_bind]
      refine ⟨fun e _ => .inr rfl, fun m' _ => ⟨fun _ => rfl, fun h => absurd h hn⟩⟩

end Props

section
attribute [local instance] Uni.ascii
set_option maxRecDepth 20000

/-- a text of the clash: accepted without `storecomments`, an AttributeError with it -/
example : (match convertAbif true false false c!"{comments: by hand}\n3:A>B # counted twice\n" with
      | .ok _ => true | .error _ => false) = true ∧
    (match convertAbif true false true c!"{comments: by hand}\n3:A>B # counted twice\n" with
      | .ok _ => false | .error e => decide (e = .attributeError)) = true := by decide +kernel

/-- the other order is accepted, and the comment is lost -/
example : (match convertAbif true false true c!"3:A>B # counted twice\n{comments: by hand}\n" with
      | .ok m => (match m.metadata.get? c!"comments" with | some (.str s) => decide (s = c!"by hand") | _ => false)
      | .error _ => false) = true := by decide +kernel

end
end Verif
