/-
C02 and C12 for texts read with `add_ratings`.
-/
import Verif.Props.Parse

namespace Verif.Props
open Verif Spec

variable [U : Uni]

omit U in
theorem forall₂_imp_right {α β : Type} {R S : α → β → Prop} {l1 : List α} {l2 : List β} (h : List.Forall₂ R l1 l2)
    (hi : ∀ a b, b ∈ l2 → R a b → S a b) : List.Forall₂ S l1 l2 := by
  induction h with
  | nil => exact .nil
  | cons hx _ ih => exact .cons (hi _ _ (by simp) hx) (ih (fun a b hb => hi a b (by simp [hb])))

/-- C02 with any flags: up to the ratings that `add_ratings` adds, the returned votelines are those of the text, sorted. -/
theorem C02_rated (cw ar sc : Bool) (text : Str) (m : Jabmod) (h : convertAbif cw ar sc text = .ok m) :
    ∃ vls sorted, List.Forall₂ SaysBallot (votesOf cw text) vls ∧ StableSortedDesc vls sorted ∧
      List.Forall₂ (fun v v' : Voteline => { v with prefs := v'.prefs } = v' ∧ Dict.keys v.prefs = Dict.keys v'.prefs ∧
        ∀ c p', Dict.get? v'.prefs c = some p' → ∃ p, Dict.get? v.prefs c = some p ∧ p.rank = p'.rank ∧ p.nextdelim = p'.nextdelim ∧
          ∀ r, p'.rating = some r → p.rating = some r) m.votelines sorted := by
  cases ar with
  | false =>
    obtain ⟨vls, h1, h2⟩ := C02_votelines cw sc text m h
    refine ⟨vls, _, h1, h2, List.forall₂_same.2 (fun v _ => ⟨rfl, rfl, fun c p hp => ⟨p, hp, rfl, rfl, fun _ hr => hr⟩⟩)⟩
  | true =>
    rcases C12_add_ratings cw sc text with ⟨e, he, _⟩ | ⟨m1, m', h1, h2, _, _, h3⟩
    · rw [he] at h; cases h
    · rw [h1] at h
      cases h
      obtain ⟨vls, g1, g2⟩ := C02_votelines cw sc text m' h2
      refine ⟨vls, _, g1, g2, ?_⟩
      have h4 : ∀ x ∈ m'.votelines, ∀ c p, Dict.get? x.prefs c = some p → ∀ r, p.rating = some r →
          ∃ u ∈ m'.votelines, ∃ e ∈ u.prefs, e.2.rating.isSome = true :=
        fun x hx c p hp r hr => ⟨x, hx, (c, p), Dict.mem_of_get? hp, by simp [hr]⟩
      refine forall₂_imp_right h3 (fun v x hx hv => ?_)
      refine ⟨hv.1, hv.2.1, fun c p' hp => ?_⟩
      obtain ⟨p, e1, e2, e3, e4⟩ := hv.2.2 c p' hp
      refine ⟨p, e1, e2, e3, fun r hr => ?_⟩
      rw [e4, if_pos (h4 x hx c p' hp r hr), hr]
      rfl

/-- C12, the flag: `add_ratings` sets `is_ranking_to_rating` to true exactly when the text has no rating and some ballot lists a candidate; otherwise
the key is as it would be without `add_ratings`. -/
theorem C12_flag (cw sc : Bool) (text : Str) (m m' : Jabmod) (h : convertAbif cw true sc text = .ok m) (h' : convertAbif cw false sc text = .ok m') :
    Dict.get? m.metadata c!"is_ranking_to_rating" =
      if (∀ u ∈ m'.votelines, ∀ e ∈ u.prefs, e.2.rating = none) ∧ (∃ u ∈ m'.votelines, u.prefs ≠ []) then some (.bool true)
      else Dict.get? m'.metadata c!"is_ranking_to_rating" := by
  rw [convertAbif_rated, h', ok_bind] at h
  cases h
  simp only
  have key : (!hasAnyRating m' && m'.votelines.any (fun vl => !vl.prefs.isEmpty)) = true ↔
      (∀ u ∈ m'.votelines, ∀ e ∈ u.prefs, e.2.rating = none) ∧ (∃ u ∈ m'.votelines, u.prefs ≠ []) := by
    unfold hasAnyRating
    rw [Bool.and_eq_true, Bool.not_eq_true', List.any_eq_false, List.any_eq_true]
    refine and_congr (forall₂_congr fun u _ => ?_) (exists_congr fun u => and_congr_right fun _ => ?_)
    · rw [List.any_eq_true]
      simp only [not_exists, not_and, Bool.not_eq_true, Option.isSome_eq_false_iff, Option.isNone_iff_eq_none]
    · cases u.prefs <;> simp
  by_cases hk : (!hasAnyRating m' && m'.votelines.any (fun vl => !vl.prefs.isEmpty)) = true
  · rw [if_pos hk, if_pos (key.1 hk), Dict.get?_set_self]
  · rw [if_neg hk, if_neg (fun x => hk (key.2 x))]

end Verif.Props

namespace Verif.Props
open Verif Spec
section
attribute [local instance] Uni.ascii
set_option maxRecDepth 20000

/-- texts to which `C02_rated` and `C12_flag` apply: with ratings and without -/
example : (convertAbif true true false c!"2:A>B\n3:B=C\n").toOption.map (fun m => (m.votelines.map Voteline.qty,
      Dict.keys m.metadata)) = some ([3, 2], [c!"ballotcount", c!"is_ranking_to_rating"]) ∧
    (convertAbif true true false c!"2:A/5>B/1\n3:B=C\n").toOption.map (fun m => (m.votelines.map Voteline.qty,
      Dict.keys m.metadata)) = some ([3, 2], [c!"ballotcount"]) := by decide +kernel
end
end Verif.Props
