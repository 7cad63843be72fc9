/-
C59: escaping in the HTML output of the score and STAR results.
-/
import Verif.Model.Html
import Verif.Spec.Html
import Verif.Lib.Prefs

set_option linter.unusedSimpArgs false

namespace Verif.Props
open Verif Verif.Spec

theorem replaceChar_append (c : Char) (r a b : Str) : replaceChar c r (a ++ b) = replaceChar c r a ++ replaceChar c r b := by
  unfold replaceChar; simp

theorem replaceChar_one (c : Char) (r : Str) (x : Char) : replaceChar c r [x] = if x = c then r else [x] := by
  unfold replaceChar; simp

theorem htmlEscape_append (a b : Str) : htmlEscape (a ++ b) = htmlEscape a ++ htmlEscape b := by
  unfold htmlEscape; simp only [replaceChar_append]

theorem soupEscape_append (a b : Str) : soupEscape (a ++ b) = soupEscape a ++ soupEscape b := by
  unfold soupEscape; simp only [replaceChar_append]

/-- what `html.escape` makes of a single character -/
theorem htmlEscape_one (c : Char) : (∃ r, (r, c) ∈ htmlRefs ∧ htmlEscape [c] = r) ∨
    (c ∉ ['&', '<', '>', '"', '\''] ∧ htmlEscape [c] = [c]) := by
  by_cases h1 : c = '&'
  · subst h1; left; exact ⟨c!"&amp;", by decide, by decide⟩
  by_cases h2 : c = '<'
  · subst h2; left; exact ⟨c!"&lt;", by decide, by decide⟩
  by_cases h3 : c = '>'
  · subst h3; left; exact ⟨c!"&gt;", by decide, by decide⟩
  by_cases h4 : c = '"'
  · subst h4; left; exact ⟨c!"&quot;", by decide, by decide⟩
  by_cases h5 : c = '\''
  · subst h5; left; exact ⟨c!"&#x27;", by decide, by decide⟩
  right
  refine ⟨by simp [h1, h2, h3, h4, h5], ?_⟩
  unfold htmlEscape
  simp only [replaceChar_one, if_neg h1, if_neg h2, if_neg h3, if_neg h4, if_neg h5]

theorem soupEscape_one (c : Char) : (∃ r, (r, c) ∈ htmlRefs ∧ soupEscape [c] = r) ∨
    (c ≠ '&' ∧ c ≠ '<' ∧ c ≠ '>' ∧ soupEscape [c] = [c]) := by
  by_cases h1 : c = '&'
  · subst h1; left; exact ⟨c!"&amp;", by decide, by decide⟩
  by_cases h2 : c = '<'
  · subst h2; left; exact ⟨c!"&lt;", by decide, by decide⟩
  by_cases h3 : c = '>'
  · subst h3; left; exact ⟨c!"&gt;", by decide, by decide⟩
  right
  refine ⟨h1, h2, h3, ?_⟩
  unfold soupEscape
  simp only [replaceChar_one, if_neg h1, if_neg h2, if_neg h3]

/-- reading HTML text has one result -/
theorem shows_unique {h s s' : Str} (h1 : Shows h s) (h2 : Shows h s') : s = s' := by
  induction h1 generalizing s' with
  | nil =>
    generalize hx : ([] : Str) = x at h2
    cases h2 with
    | nil => rfl
    | char => cases hx
    | ref r c h s hr _ =>
      simp only [htmlRefs, List.mem_cons, List.not_mem_nil, or_false, Prod.mk.injEq] at hr
      rcases hr with ⟨rfl, _⟩ | ⟨rfl, _⟩ | ⟨rfl, _⟩ | ⟨rfl, _⟩ | ⟨rfl, _⟩ <;> simp at hx
  | char c h s hc1 hc2 _ ih =>
    generalize hx : c :: h = x at h2
    cases h2 with
    | nil => cases hx
    | char c' h' s' _ _ h3 => cases hx; rw [ih h3]
    | ref r c' h' s' hr _ =>
      exfalso
      simp only [htmlRefs, List.mem_cons, List.not_mem_nil, or_false, Prod.mk.injEq] at hr
      rcases hr with ⟨rfl, _⟩ | ⟨rfl, _⟩ | ⟨rfl, _⟩ | ⟨rfl, _⟩ | ⟨rfl, _⟩ <;>
        exact hc1 (List.cons.inj hx).1
  | ref r c h s hr _ ih =>
    generalize hx : r ++ h = x at h2
    cases h2 with
    | nil =>
      simp only [htmlRefs, List.mem_cons, List.not_mem_nil, or_false, Prod.mk.injEq] at hr
      rcases hr with ⟨rfl, _⟩ | ⟨rfl, _⟩ | ⟨rfl, _⟩ | ⟨rfl, _⟩ | ⟨rfl, _⟩ <;> simp at hx
    | char c' h' s' hc1 _ _ =>
      exfalso
      simp only [htmlRefs, List.mem_cons, List.not_mem_nil, or_false, Prod.mk.injEq] at hr
      rcases hr with ⟨rfl, _⟩ | ⟨rfl, _⟩ | ⟨rfl, _⟩ | ⟨rfl, _⟩ | ⟨rfl, _⟩ <;>
        exact hc1 (List.cons.inj hx).1.symm
    | ref r' c' h' s' hr' h3 =>
      simp only [htmlRefs, List.mem_cons, List.not_mem_nil, or_false, Prod.mk.injEq] at hr hr'
      rcases hr with ⟨rfl, rfl⟩ | ⟨rfl, rfl⟩ | ⟨rfl, rfl⟩ | ⟨rfl, rfl⟩ | ⟨rfl, rfl⟩ <;>
        rcases hr' with ⟨rfl, rfl⟩ | ⟨rfl, rfl⟩ | ⟨rfl, rfl⟩ | ⟨rfl, rfl⟩ | ⟨rfl, rfl⟩ <;>
        first
          | (simp only [List.cons_append, List.nil_append, List.cons.injEq, true_and] at hx; subst hx; rw [ih h3])
          | (exfalso; simp at hx)

theorem escape_shows (esc : Str → Str) (happ : ∀ a b, esc (a ++ b) = esc a ++ esc b) (hnil : esc [] = [])
    (hone : ∀ c, (∃ r, (r, c) ∈ htmlRefs ∧ esc [c] = r) ∨ (c ≠ '&' ∧ c ≠ '<' ∧ esc [c] = [c])) (s : Str) : Shows (esc s) s := by
  induction s with
  | nil => rw [hnil]; exact .nil
  | cons c s ih =>
    have : esc (c :: s) = esc [c] ++ esc s := happ [c] s
    rw [this]
    rcases hone c with ⟨r, hr, e⟩ | ⟨h1, h2, e⟩
    · rw [e]; exact .ref r c _ _ hr ih
    · rw [e]; exact .char c _ _ h1 h2 ih

theorem htmlEscape_shows (s : Str) : Shows (htmlEscape s) s := by
  apply escape_shows htmlEscape htmlEscape_append rfl
  intro c
  rcases htmlEscape_one c with h | ⟨h, e⟩
  · exact .inl h
  · exact .inr ⟨fun e' => h (by simp [e']), fun e' => h (by simp [e']), e⟩

theorem soupEscape_shows (s : Str) : Shows (soupEscape s) s := by
  apply escape_shows soupEscape soupEscape_append rfl
  intro c
  rcases soupEscape_one c with h | ⟨h, h', _, e⟩
  · exact .inl h
  · exact .inr ⟨h, h', e⟩

theorem htmlEscape_safe (s : Str) : ∀ c ∈ htmlEscape s, c ∉ ['<', '>', '"', '\''] := by
  induction s with
  | nil => intro c hc; cases hc
  | cons x s ih =>
    intro c hc
    have e : htmlEscape (x :: s) = htmlEscape [x] ++ htmlEscape s := htmlEscape_append [x] s
    rw [e] at hc
    rcases List.mem_append.1 hc with hc | hc
    · rcases htmlEscape_one x with ⟨r, hr, e⟩ | ⟨h, e⟩
      · rw [e] at hc
        simp only [htmlRefs, List.mem_cons, List.not_mem_nil, or_false, Prod.mk.injEq] at hr
        rcases hr with ⟨rfl, _⟩ | ⟨rfl, _⟩ | ⟨rfl, _⟩ | ⟨rfl, _⟩ | ⟨rfl, _⟩ <;>
        · simp only [List.mem_cons, List.not_mem_nil, or_false] at hc
          rcases hc with rfl | rfl | rfl | rfl | rfl | rfl <;> decide
      · rw [e] at hc
        cases List.mem_singleton.1 hc
        intro h'
        exact h (List.mem_cons_of_mem _ h')
    · exact ih c hc

/-- C59, `html.escape`: the escaped text is read as the original text, and only as that; it has no raw `<`, `>` or
quote; and escaping character by character is the same. -/
theorem C59_escape (s : Str) :
    Shows (htmlEscape s) s ∧ (∀ s', Shows (htmlEscape s) s' → s' = s) ∧
    (∀ c ∈ htmlEscape s, c ∉ ['<', '>', '"', '\'']) ∧
    (s.map (fun c => htmlEscape [c])).flatten = htmlEscape s := by
  refine ⟨htmlEscape_shows s, fun s' h => shows_unique h (htmlEscape_shows s), htmlEscape_safe s, ?_⟩
  induction s with
  | nil => rfl
  | cons c s ih =>
    have e : htmlEscape (c :: s) = htmlEscape [c] ++ htmlEscape s := htmlEscape_append [c] s
    rw [List.map_cons, List.flatten_cons, ih, e]

/-- different texts are escaped differently -/
theorem C59_injective (s s' : Str) (h : htmlEscape s = htmlEscape s') : s = s' :=
  shows_unique (htmlEscape_shows s) (h ▸ htmlEscape_shows s')

theorem htmlEscape_len (s : Str) : s.length ≤ (htmlEscape s).length ∧
    ((∃ c ∈ s, c ∈ ['&', '<', '>', '"', '\'']) → s.length < (htmlEscape s).length) := by
  induction s with
  | nil => exact ⟨Nat.le_refl _, (by rintro ⟨c, h, _⟩; cases h)⟩
  | cons x s ih =>
    have e : htmlEscape (x :: s) = htmlEscape [x] ++ htmlEscape s := htmlEscape_append [x] s
    rw [e, List.length_append, List.length_cons]
    rcases htmlEscape_one x with ⟨r, hr, e⟩ | ⟨h, e⟩
    · have : 1 < (htmlEscape [x]).length := by
        rw [e]
        simp only [htmlRefs, List.mem_cons, List.not_mem_nil, or_false, Prod.mk.injEq] at hr
        rcases hr with ⟨rfl, _⟩ | ⟨rfl, _⟩ | ⟨rfl, _⟩ | ⟨rfl, _⟩ | ⟨rfl, _⟩ <;> decide
      exact ⟨by omega, fun _ => by omega⟩
    · rw [e]
      refine ⟨by simp only [List.length_singleton]; omega, ?_⟩
      rintro ⟨c, hc, h'⟩
      rcases List.mem_cons.1 hc with rfl | hc
      · exact absurd h' h
      · have := ih.2 ⟨c, hc, h'⟩
        simp only [List.length_singleton]
        omega

theorem htmlEscape_id_iff (s : Str) : htmlEscape s = s ↔ ∀ c ∈ s, c ∉ ['&', '<', '>', '"', '\''] := by
  constructor
  · intro h c hc hx
    have := (htmlEscape_len s).2 ⟨c, hc, hx⟩
    rw [h] at this
    omega
  · intro h
    induction s with
    | nil => rfl
    | cons x s ih =>
      have e : htmlEscape (x :: s) = htmlEscape [x] ++ htmlEscape s := htmlEscape_append [x] s
      rw [e, ih (fun c hc => h c (List.mem_cons_of_mem _ hc))]
      rcases htmlEscape_one x with ⟨r, hr, e⟩ | ⟨_, e⟩
      · exfalso
        simp only [htmlRefs, List.mem_cons, List.not_mem_nil, or_false, Prod.mk.injEq] at hr
        have := h x List.mem_cons_self
        rcases hr with ⟨_, rfl⟩ | ⟨_, rfl⟩ | ⟨_, rfl⟩ | ⟨_, rfl⟩ | ⟨_, rfl⟩ <;> exact this (by decide)
      · rw [e]; rfl

section
variable [U : Uni]

/-- C59, partial, the page: it is one `pre` element without any further tag, and its text is read as the STAR report, its
escape sequences not decoded, followed by the two JSON documents; so it shows the report itself exactly when the report
has none of the five special characters.  Missing from the full C59: reports with such a character (a candidate called
`Smith & Sons`) are shown with their escape sequences, because BeautifulSoup escapes again (`C59_refuted`). -/
theorem C59_page_partial (d1 : StarResult → Except PyErr Str) (d2 : ScaledResult → Except PyErr Str) (m : Jabmod) (page : Str)
    (hp : htmlStar d1 d2 m = .ok page) :
    ∃ report star scaled j1 j2 body, starReport m = .ok report ∧ starResult m = .ok star ∧ scaledScores m 50 = .ok scaled ∧
      d1 star = .ok j1 ∧ d2 scaled = .ok j2 ∧
      page = c!"<pre>" ++ body ++ c!"</pre>" ∧ '<' ∉ body ∧
      (∀ t, Shows body t ↔ t = htmlEscape report ++ j1 ++ j2) ∧
      (Shows body (report ++ j1 ++ j2) ↔ ∀ c ∈ report, c ∉ ['&', '<', '>', '"', '\'']) := by
  obtain ⟨text, ht, hp⟩ := bind_ok.1 hp
  obtain ⟨report, hr, ht⟩ := bind_ok.1 ht
  obtain ⟨star, hs, ht⟩ := bind_ok.1 ht
  obtain ⟨j1, hj1, ht⟩ := bind_ok.1 ht
  obtain ⟨scaled, hc, ht⟩ := bind_ok.1 ht
  obtain ⟨j2, hj2, ht⟩ := bind_ok.1 ht
  have hte : text = htmlEscape report ++ j1 ++ j2 := by
    have := Except.ok.inj ht
    rw [← this, ← (C59_escape report).2.2.2]
    simp
  have hsh : ∀ t, Shows (soupEscape text) t ↔ t = htmlEscape report ++ j1 ++ j2 := by
    intro t
    constructor
    · intro h
      rw [shows_unique h (soupEscape_shows text), hte]
    · intro h
      rw [h, ← hte]
      exact soupEscape_shows text
  refine ⟨report, star, scaled, j1, j2, soupEscape text, hr, hs, hc, hj1, hj2, (Except.ok.inj hp).symm, ?_, hsh, ?_⟩
  · have : ∀ s : Str, '<' ∉ soupEscape s := by
      intro s
      induction s with
      | nil => intro h; cases h
      | cons x s ih =>
        have e : soupEscape (x :: s) = soupEscape [x] ++ soupEscape s := soupEscape_append [x] s
        rw [e]
        intro h
        rcases List.mem_append.1 h with h | h
        · rcases soupEscape_one x with ⟨r, hr, e⟩ | ⟨_, h2, _, e⟩
          · rw [e] at h
            simp only [htmlRefs, List.mem_cons, List.not_mem_nil, or_false, Prod.mk.injEq] at hr
            rcases hr with ⟨rfl, _⟩ | ⟨rfl, _⟩ | ⟨rfl, _⟩ | ⟨rfl, _⟩ | ⟨rfl, _⟩ <;> revert h <;> decide
          · rw [e] at h
            exact h2 (List.mem_singleton.1 h).symm
        · exact ih h
    exact this text
  · rw [hsh, ← htmlEscape_id_iff]
    constructor
    · intro h
      have := List.append_cancel_right (List.append_cancel_right h)
      exact this.symm
    · intro h
      rw [h]

end

section
attribute [local instance] Uni.ascii
set_option maxRecDepth 40000

example : htmlEscape c!"a<b & 'c'" = c!"a&lt;b &amp; &#x27;c&#x27;" := by decide

/-- an election with a candidate `A&B` -/
def ampText : Str := c!"=A:[A&B]\n=C:[Cy]\n1:A/5>C/2\n"

/-- C59 is false of the page: a name with `&` is shown as `A&amp;B`. -/
theorem C59_refuted : ∃ m report page, convertAbif true false false ampText = .ok m ∧ starReport m = .ok report ∧
    htmlStar (fun _ => .ok []) (fun _ => .ok []) m = .ok (c!"<pre>" ++ page ++ c!"</pre>") ∧ ¬ Shows page report := by
  have h : (convertAbif true false false ampText).toOption.map (fun m =>
      ((starReport m).toOption.map (fun r => r.contains '&'), (htmlStar (fun _ => .ok []) (fun _ => .ok []) m).toOption.isSome)) =
      some (some true, true) := by decide +kernel
  cases hm : convertAbif true false false ampText with
  | error e => rw [hm] at h; cases h
  | ok m =>
    rw [hm] at h
    simp only [Except.toOption, Option.map_some, Option.some.injEq, Prod.mk.injEq] at h
    obtain ⟨h1, h2⟩ := h
    cases hp : htmlStar (fun _ => .ok []) (fun _ => .ok []) m with
    | error e => rw [hp] at h2; cases h2
    | ok page =>
      obtain ⟨report, star, scaled, j1, j2, body, g1, g2, g3, g4, g5, g6, g7, g8, g9⟩ := C59_page_partial _ _ m page hp
      refine ⟨m, report, body, rfl, g1, by rw [← g6]; exact hp, ?_⟩
      rw [g1] at h1
      simp only [Option.map_some, Option.some.injEq] at h1
      cases g4
      cases g5
      intro hsh
      have := g9.1 (by simpa using hsh) '&' (by simpa using h1)
      exact this (by decide)

end
end Verif.Props
