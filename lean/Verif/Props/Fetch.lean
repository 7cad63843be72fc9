/-
C56, C57: fetchmgr.py.
-/
import Mathlib.Tactic.Tauto
import Verif.Model.Fetch
import Verif.Lib.Prefs

set_option linter.unusedSimpArgs false

namespace Verif.Props
open Verif

section
variable {L : Type} [DecidableEq L]

/-- What a run that may make the downloads in `plan` (url and local path) does, from `s` to `s'`, ending with `r`:
nothing that exists changes; the requests made are planned ones, in order, each for a path that did not exist;
every file that appears is at the path of a request answered with status 200 and holds the answer (a beginning of it
if the run was cut short); and if the run succeeds, every planned path exists or its request was refused. -/
structure Fetched (P : PathSem L) (W : World L) (plan : List (Str × Str)) (s : FetchState L) (r : Except PyErr Unit)
    (s' : FetchState L) : Prop where
  keep : ∀ l n, s.fs l = some n → s'.fs l = some n
  log : ∃ new : List (Str × Str), new.Sublist plan ∧ s'.reqs = s.reqs ++ new.map Prod.fst ∧
    (∀ d ∈ new, s.fs (P.loc d.2) = none) ∧
    (∀ l c, s.fs l = none → s'.fs l = some (.file c) →
      ∃ k d body, new[k]? = some d ∧ P.loc d.2 = l ∧ W.server (s.reqs.length + k) d.1 = some (200, body) ∧
        c <+: body ∧ (r = .ok () → c = body)) ∧
    (r = .ok () → ∀ d ∈ plan, s'.fs (P.loc d.2) ≠ none ∨
      ∃ k, new[k]? = some d ∧ ∀ body, W.server (s.reqs.length + k) d.1 ≠ some (200, body))

/-- the downloads of one entry -/
def itemPlan (u : UrlDict) (lps : List Str) (lp : Option Str) : List (Str × Str) :=
  match u.urls with
  | some urls => urls.zip lps
  | none =>
    match lp with
    | some path => [(u.url.getD [], path)]
    | none => []

/-- the downloads the loop may make -/
def loopPlan (subdir : Str) : List UrlDict → List Str → Option Str → List (Str × Str)
  | [], _, _ => []
  | u :: us, lps, lp =>
    match itemPaths subdir u lps lp with
    | .error _ => []
    | .ok q => itemPlan u q.1 q.2 ++ loopPlan subdir us q.1 q.2

theorem Fetched.refl {P : PathSem L} {W : World L} (s : FetchState L) (r : Except PyErr Unit) (plan : List (Str × Str))
    (h : r = .ok () → ∀ d ∈ plan, s.fs (P.loc d.2) ≠ none) : Fetched P W plan s r s := by
  refine ⟨fun _ _ h => h, [], List.nil_sublist _, by simp, (by intro d hd; cases hd), ?_, fun hr d hd => .inl (h hr d hd)⟩
  intro l c h1 h2
  rw [h1] at h2
  cases h2

theorem Fetched.trans {P : PathSem L} {W : World L} {s s1 s2 : FetchState L} {r : Except PyErr Unit} {A B : List (Str × Str)}
    (h1 : Fetched P W A s (.ok ()) s1) (h2 : Fetched P W B s1 r s2) : Fetched P W (A ++ B) s r s2 := by
  obtain ⟨k1, n1, a1, a2, a3, a4, a5⟩ := h1
  obtain ⟨k2, n2, b1, b2, b3, b4, b5⟩ := h2
  have hlen : s1.reqs.length = s.reqs.length + n1.length := by rw [a2]; simp
  refine ⟨fun l n h => k2 l n (k1 l n h), n1 ++ n2, a1.append b1, by rw [b2, a2]; simp, ?_, ?_, ?_⟩
  · intro d hd
    rcases List.mem_append.1 hd with hd | hd
    · exact a3 d hd
    · cases hs : s.fs (P.loc d.2) with
      | none => rfl
      | some n => exact absurd (b3 d hd) (by rw [k1 _ _ hs]; simp)
  · intro l c hl hc
    cases hs : s1.fs l with
    | some n =>
      have e := k2 _ _ hs
      rw [hc] at e
      cases e
      obtain ⟨k, d, body, e1, e2, e3, e4, e5⟩ := a4 l c hl hs
      refine ⟨k, d, body, ?_, e2, e3, e4, fun _ => e5 rfl⟩
      rw [List.getElem?_append_left (List.getElem?_eq_some_iff.1 e1).1]
      exact e1
    | none =>
      obtain ⟨k, d, body, e1, e2, e3, e4, e5⟩ := b4 l c hs hc
      refine ⟨n1.length + k, d, body, ?_, e2, ?_, e4, e5⟩
      · rw [List.getElem?_append_right (by omega)]
        simpa using e1
      · rw [← Nat.add_assoc, ← hlen]; exact e3
  · intro hr d hd
    rcases List.mem_append.1 hd with hd | hd
    · rcases a5 rfl d hd with h | ⟨k, e1, e2⟩
      · left
        cases hs : s1.fs (P.loc d.2) with
        | none => exact absurd hs h
        | some n => rw [k2 _ _ hs]; simp
      · right
        refine ⟨k, ?_, e2⟩
        rw [List.getElem?_append_left (List.getElem?_eq_some_iff.1 e1).1]
        exact e1
    · rcases b5 hr d hd with h | ⟨k, e1, e2⟩
      · exact .inl h
      · right
        refine ⟨n1.length + k, ?_, ?_⟩
        · rw [List.getElem?_append_right (by omega)]
          simpa using e1
        · rw [← Nat.add_assoc, ← hlen]; exact e2

theorem Fetched.stop {P : PathSem L} {W : World L} {s s1 : FetchState L} {e : PyErr} {A B : List (Str × Str)}
    (h1 : Fetched P W A s (.error e) s1) : Fetched P W (A ++ B) s (.error e) s1 := by
  obtain ⟨k1, n1, a1, a2, a3, a4, a5⟩ := h1
  exact ⟨k1, n1, a1.trans (List.sublist_append_left A B), a2, a3, a4, (by intro h; cases h)⟩

/-- making directories -/
theorem makedirs_spec (P : PathSem L) (W : World L) (s : FetchState L) (p : Str) :
    (∀ l n, s.fs l = some n → (makedirs P W s p).2.fs l = some n) ∧ (makedirs P W s p).2.reqs = s.reqs ∧
    (∀ l, s.fs l = none → (makedirs P W s p).2.fs l = none ∨ (makedirs P W s p).2.fs l = some .dir) := by
  unfold makedirs
  split
  · exact ⟨fun _ _ h => h, rfl, fun _ h => .inl h⟩
  · refine ⟨?_, rfl, ?_⟩
    · intro l n h
      simp only [h]
      rw [if_neg (by simp)]
    · intro l h
      by_cases h2 : l ∈ P.up p ∧ s.fs l = none
      · right; simp only; rw [if_pos h2]
      · left; simp only; rw [if_neg h2]; exact h

theorem ensure_spec (P : PathSem L) (W : World L) (s : FetchState L) (p : Str) (r : Except PyErr Unit × FetchState L)
    (h : r = if s.has P p then (.ok (), s) else makedirs P W s p) :
    (∀ l n, s.fs l = some n → r.2.fs l = some n) ∧ r.2.reqs = s.reqs ∧
    (∀ l, s.fs l = none → r.2.fs l = none ∨ r.2.fs l = some .dir) := by
  split at h
  · subst h; exact ⟨fun _ _ h => h, rfl, fun _ h => .inl h⟩
  · subst h; exact makedirs_spec P W s p

theorem fetched_of_ensure {P : PathSem L} {W : World L} {s s' : FetchState L}
    (h : (∀ l n, s.fs l = some n → s'.fs l = some n) ∧ s'.reqs = s.reqs ∧
    (∀ l, s.fs l = none → s'.fs l = none ∨ s'.fs l = some .dir)) (r : Except PyErr Unit) : Fetched P W [] s r s' := by
  obtain ⟨h1, h2, h3⟩ := h
  refine ⟨h1, [], List.nil_sublist _, by simp [h2], (by intro d hd; cases hd), ?_, (by intro _ d hd; cases hd)⟩
  intro l c hl hc
  rcases h3 l hl with h | h
  · rw [h] at hc; cases hc
  · rw [h] at hc; cases hc

theorem fetchUrl_spec (P : PathSem L) (W : World L) (s : FetchState L) (url subdir path : Str) (hp : s.fs (P.loc path) = none) :
    Fetched P W [(url, path)] s (fetchUrl P W s url subdir path).1 (fetchUrl P W s url subdir path).2 := by
  unfold fetchUrl
  split
  · exact Fetched.refl s _ _ (by intro h; cases h)
  · -- the request is made
    have base : ∀ (s1 : FetchState L) (r : Except PyErr Unit), (∀ l n, s.fs l = some n → s1.fs l = some n) →
        s1.reqs = s.reqs ++ [url] →
        (∀ l c, s.fs l = none → s1.fs l = some (.file c) → P.loc path = l ∧ ∃ body,
          W.server s.reqs.length url = some (200, body) ∧ c <+: body ∧ (r = .ok () → c = body)) →
        (r = .ok () → s1.fs (P.loc path) ≠ none ∨ ∀ body, W.server s.reqs.length url ≠ some (200, body)) →
        Fetched P W [(url, path)] s r s1 := by
      intro s1 r h1 h2 h3 h4
      refine ⟨h1, [(url, path)], List.Sublist.refl _, h2, ?_, ?_, ?_⟩
      · intro d hd
        cases List.mem_singleton.1 hd
        exact hp
      · intro l c hl hc
        obtain ⟨e1, body, e2, e3, e4⟩ := h3 l c hl hc
        exact ⟨0, (url, path), body, rfl, e1, e2, e3, e4⟩
      · intro hr d hd
        cases List.mem_singleton.1 hd
        rcases h4 hr with h | h
        · exact .inl h
        · exact .inr ⟨0, rfl, h⟩
    simp only
    cases hs : W.server s.reqs.length url with
    | none =>
      refine base _ _ (fun _ _ h => h) rfl ?_ (by intro h; cases h)
      intro l c hl hc
      simp only at hc
      rw [hl] at hc
      cases hc
    | some a =>
      obtain ⟨status, content⟩ := a
      simp only
      by_cases h200 : status = 200
      · rw [if_pos h200]
        subst h200
        -- directories
        obtain ⟨g1, g2, g3⟩ := ensure_spec P W { s with reqs := s.reqs ++ [url] } (pyDirname path) _ rfl
        revert g1 g2 g3
        generalize (if FetchState.has P { s with reqs := s.reqs ++ [url] } (pyDirname path) = true then
          (Except.ok (), ({ s with reqs := s.reqs ++ [url] } : FetchState L))
          else makedirs P W { s with reqs := s.reqs ++ [url] } (pyDirname path)) = q
        intro g1 g2 g3
        simp only at g1 g2 g3
        obtain ⟨r, s2⟩ := q
        simp only at g1 g2 g3
        have dirOnly : ∀ r' : Except PyErr Unit, ∀ l c, s.fs l = none → s2.fs l = some (.file c) → P.loc path = l ∧ ∃ body,
            W.server s.reqs.length url = some (200, body) ∧ c <+: body ∧ (r' = .ok () → c = body) := by
          intro r' l c hl hc
          rcases g3 l hl with h | h <;> (rw [h] at hc; cases hc)
        cases r with
        | error e => exact base _ _ g1 g2 (dirOnly _) (by intro h; cases h)
        | ok _ =>
          simp only
          split
          · unfold writeFile
            split
            · exact base _ _ g1 g2 (dirOnly _) (by intro h; cases h)
            · rename_i _ hnd
              simp only [Bool.or_eq_true, decide_eq_true_eq, not_or] at hnd
              have hn2 : s2.fs (P.loc path) = none := by
                rcases g3 _ hp with h | h
                · exact h
                · exact absurd h hnd.1
              have keep2 : ∀ (cont : Str) l n, s.fs l = some n →
                  (fun l => if l = P.loc path then some (FNode.file cont) else s2.fs l) l = some n := by
                intro cont l n h
                simp only
                by_cases hl : l = P.loc path
                · rw [hl, hp] at h; cases h
                · rw [if_neg hl]; exact g1 l n h
              cases hcut : W.cut s2.fs path with
              | none =>
                refine base _ _ (keep2 content) g2 ?_ ?_
                · intro l c hl hc
                  simp only at hc
                  by_cases hl' : l = P.loc path
                  · rw [if_pos hl'] at hc
                    cases hc
                    exact ⟨hl'.symm, content, hs, List.prefix_rfl, fun _ => rfl⟩
                  · rw [if_neg hl'] at hc
                    exact dirOnly _ l c hl hc
                · intro _
                  left
                  simp
              | some k =>
                refine base _ _ (keep2 (content.take k)) g2 ?_ (by intro h; cases h)
                intro l c hl hc
                simp only at hc
                by_cases hl' : l = P.loc path
                · rw [if_pos hl'] at hc
                  cases hc
                  exact ⟨hl'.symm, content, hs, List.take_prefix _ _, by intro h; cases h⟩
                · rw [if_neg hl'] at hc
                  exact dirOnly _ l c hl hc
          · exact base _ _ g1 g2 (dirOnly _) (by intro h; cases h)
      · rw [if_neg h200]
        refine base _ _ (fun _ _ h => h) rfl ?_ ?_
        · intro l c hl hc
          simp only at hc
          rw [hl] at hc
          cases hc
        · intro _
          right
          intro body hb
          rw [hs] at hb
          cases hb
          exact h200 rfl

theorem fetchOne_spec (P : PathSem L) (W : World L) (subdir : Str) (u : UrlDict) (s : FetchState L) (url : Option Str)
    (path : Str) : Fetched P W [(url.getD [], path)] s (fetchOne P W subdir u s url path).1 (fetchOne P W subdir u s url path).2 := by
  unfold fetchOne
  by_cases hh : s.has P path = true
  · rw [if_pos hh]
    refine Fetched.refl s _ _ ?_
    intro _ d hd
    cases List.mem_singleton.1 hd
    unfold FetchState.has at hh
    intro e
    rw [e] at hh
    cases hh
  · rw [if_neg hh]
    have hn : s.fs (P.loc path) = none := by
      unfold FetchState.has at hh
      cases h : s.fs (P.loc path) with
      | none => rfl
      | some n => rw [h] at hh; exact absurd rfl hh
    cases url with
    | none => exact Fetched.refl s _ _ (by intro h; cases h)
    | some url =>
      simp only [Option.getD_some]
      cases fetchArgs u with
      | error e => exact Fetched.refl s _ _ (by intro h; cases h)
      | ok _ => exact fetchUrl_spec P W s url subdir path hn

theorem fetchMany_spec (P : PathSem L) (W : World L) (subdir : Str) (u : UrlDict) (lps : List Str) (urls : List Str) (i : Nat)
    (s : FetchState L) : Fetched P W (urls.zip (lps.drop i)) s (fetchMany P W subdir u lps urls i s).1
      (fetchMany P W subdir u lps urls i s).2 := by
  induction urls generalizing i s with
  | nil => exact Fetched.refl s _ _ (by intro _ d hd; cases hd)
  | cons url urls ih =>
    unfold fetchMany
    cases hi : lps[i]? with
    | none =>
      refine Fetched.refl s _ _ (by intro h; cases h)
    | some path =>
      simp only
      have hdrop : lps.drop i = path :: lps.drop (i + 1) := by
        obtain ⟨h1, h2⟩ := List.getElem?_eq_some_iff.1 hi
        rw [← h2]
        exact List.drop_eq_getElem_cons h1
      rw [hdrop, List.zip_cons_cons]
      have h1 := fetchOne_spec P W subdir u s (some url) path
      simp only [Option.getD_some] at h1
      revert h1
      generalize fetchOne P W subdir u s (some url) path = q
      intro h1
      obtain ⟨r, s1⟩ := q
      cases r with
      | error e => exact Fetched.stop (B := urls.zip (lps.drop (i + 1))) h1
      | ok x => exact Fetched.trans (A := [(url, path)]) h1 (ih (i + 1) s1)

theorem fetchItem_spec (P : PathSem L) (W : World L) (subdir : Str) (u : UrlDict) (lps : List Str) (lp : Option Str)
    (s : FetchState L) : Fetched P W (itemPlan u lps lp) s (fetchItem P W subdir u lps lp s).1
      (fetchItem P W subdir u lps lp s).2 := by
  unfold fetchItem itemPlan
  cases u.urls with
  | some urls =>
    have := fetchMany_spec P W subdir u lps urls 0 s
    rw [List.drop_zero] at this
    exact this
  | none =>
    cases lp with
    | none => exact Fetched.refl s _ _ (by intro h; cases h)
    | some path => exact fetchOne_spec P W subdir u s u.url path

theorem fetchLoop_spec (P : PathSem L) (W : World L) (subdir : Str) (us : List UrlDict) (lps : List Str) (lp : Option Str)
    (s : FetchState L) : Fetched P W (loopPlan subdir us lps lp) s (fetchLoop P W subdir us lps lp s).1
      (fetchLoop P W subdir us lps lp s).2 := by
  induction us generalizing lps lp s with
  | nil => exact Fetched.refl s _ _ (by intro _ d hd; cases hd)
  | cons u us ih =>
    unfold fetchLoop loopPlan
    cases itemPaths subdir u lps lp with
    | error e => exact Fetched.refl s _ _ (by intro h; cases h)
    | ok q =>
      obtain ⟨lps', lp'⟩ := q
      simp only
      have h1 := fetchItem_spec P W subdir u lps' lp' s
      revert h1
      generalize fetchItem P W subdir u lps' lp' s = q
      intro h1
      obtain ⟨r, s1⟩ := q
      cases r with
      | error e => exact Fetched.stop h1
      | ok x => exact Fetched.trans h1 (ih lps' lp' s1)

theorem fetchWebItems_spec (P : PathSem L) (W : World L) (subdir : Str) (us : List UrlDict) (s : FetchState L) :
    Fetched P W (loopPlan subdir us [] none) s (fetchWebItems P W subdir us s).1 (fetchWebItems P W subdir us s).2 := by
  unfold fetchWebItems
  have h0 := ensure_spec P W s subdir _ rfl
  revert h0
  generalize (if FetchState.has P s subdir = true then (Except.ok (), s) else makedirs P W s subdir) = q
  intro h0
  obtain ⟨r, s1⟩ := q
  cases r with
  | error e => exact Fetched.stop (A := []) (fetched_of_ensure h0 _)
  | ok x => exact Fetched.trans (A := []) (fetched_of_ensure h0 _) (fetchLoop_spec P W subdir us [] none s1)

/-- the paths of setCopies on a fresh prefix -/
theorem setCopies_take (subdir : Str) (cs : List Str) (i : Nat) (lps : List Str) (hi : i ≤ lps.length) :
    (setCopies subdir cs i lps).take (i + cs.length) = lps.take i ++ cs.map (pyJoin subdir) ∧
    i + cs.length ≤ (setCopies subdir cs i lps).length := by
  induction cs generalizing i lps with
  | nil => simp [setCopies, hi]
  | cons c cs ih =>
    unfold setCopies
    have := ih (i + 1) ((lps ++ [c!"REPLACETHIS"]).set i (pyJoin subdir c)) (by simp; omega)
    rw [show i + (c :: cs).length = i + 1 + cs.length by simp; omega]
    refine ⟨?_, this.2⟩
    rw [this.1, List.take_add_one, List.take_set, List.getElem?_set]
    simp only [List.length_append, List.length_singleton]
    rw [if_pos trivial, if_pos (by omega)]
    have h2 : (List.take i (lps ++ [c!"REPLACETHIS"])) = lps.take i := by
      rw [List.take_append_of_le_length hi]
    rw [h2, List.set_eq_of_length_le (by simp; omega)]
    simp

/-- An entry of `web_urls` as the fetchspecs have them: one url with its local copy, or a list of urls with at least as
many local copies. -/
def WellFormed (u : UrlDict) : Prop :=
  (∃ cs urls, u.localcopies = some cs ∧ u.urls = some urls ∧ urls.length ≤ cs.length) ∨
  (∃ c url, u.localcopies = none ∧ u.urls = none ∧ u.localcopy = some c ∧ u.url = some url)

/-- what such an entry asks for: each url with the path it is to be stored at -/
def wanted (subdir : Str) (u : UrlDict) : List (Str × Str) :=
  match u.localcopies, u.urls with
  | some cs, some urls => urls.zip (cs.map (pyJoin subdir))
  | _, _ => [(u.url.getD [], pyJoin subdir (u.localcopy.getD []))]

theorem zip_take_right {α β : Type} (a : List α) (b : List β) (n : Nat) (h : a.length ≤ n) : a.zip (b.take n) = a.zip b := by
  induction a generalizing b n with
  | nil => simp
  | cons x a ih =>
    cases n with
    | zero => simp at h
    | succ n =>
      cases b with
      | nil => simp
      | cons y b => simp [ih b n (by simpa using h)]

theorem loopPlan_wellFormed (subdir : Str) (us : List UrlDict) (h : ∀ u ∈ us, WellFormed u) (lps : List Str) (lp : Option Str) :
    loopPlan subdir us lps lp = us.flatMap (wanted subdir) := by
  induction us generalizing lps lp with
  | nil => rfl
  | cons u us ih =>
    have ih' := fun lps lp => ih (fun v hv => h v (List.mem_cons_of_mem _ hv)) lps lp
    unfold loopPlan
    rw [List.flatMap_cons]
    rcases h u List.mem_cons_self with ⟨cs, urls, h1, h2, h3⟩ | ⟨c, url, h1, h2, h3, h4⟩
    · have e : itemPaths subdir u lps lp = .ok (setCopies subdir cs 0 lps, lp) := by unfold itemPaths; rw [h1]
      rw [e]
      simp only
      rw [ih']
      congr 1
      simp only [itemPlan, h1, h2, wanted]
      have := (setCopies_take subdir cs 0 lps (Nat.zero_le _)).1
      simp only [Nat.zero_add, List.take_zero, List.nil_append] at this
      rw [← this]
      rw [zip_take_right _ _ _ h3]
    · have e : itemPaths subdir u lps lp = .ok (lps, some (pyJoin subdir c)) := by unfold itemPaths; rw [h1, h3]
      rw [e]
      simp only
      rw [ih']
      congr 1
      simp [itemPlan, h1, h2, h3, h4, wanted]

/-- C56, for the fetchspecs in use: whatever the server and the operating system do and however the run ends,
nothing that exists changes; the requests made are a subsequence of the wanted downloads, all for files that did not
exist; every file that appears is at the path of one of these requests, answered with status 200, and holds that answer
(a beginning of it if the run was cut short); and if the run ends normally, every wanted file exists unless its request
was answered otherwise. -/
theorem C56_fetch (P : PathSem L) (W : World L) (subdir : Str) (us : List UrlDict) (h : ∀ u ∈ us, WellFormed u)
    (s : FetchState L) (r : Except PyErr Unit) (s' : FetchState L) (hrun : fetchWebItems P W subdir us s = (r, s')) :
    Fetched P W (us.flatMap (wanted subdir)) s r s' := by
  have := fetchWebItems_spec P W subdir us s
  rw [hrun, loopPlan_wellFormed subdir us h] at this
  exact this

/-- C56, for every fetchspec, well-formed or not: existing files are untouched, no request is made for a path that
exists, and files appear only with (a beginning of) the body of an answer with status 200 to a request of this run. -/
theorem C56_safe (P : PathSem L) (W : World L) (subdir : Str) (us : List UrlDict) (s : FetchState L) (r : Except PyErr Unit)
    (s' : FetchState L) (hrun : fetchWebItems P W subdir us s = (r, s')) :
    (∀ l n, s.fs l = some n → s'.fs l = some n) ∧
    (∃ new, s'.reqs = s.reqs ++ new) ∧
    ∀ l c, s.fs l = none → s'.fs l = some (.file c) → ∃ k url body, s.reqs.length ≤ k ∧ s'.reqs[k]? = some url ∧
      W.server k url = some (200, body) ∧ c <+: body ∧ (r = .ok () → c = body) := by
  have := fetchWebItems_spec P W subdir us s
  rw [hrun] at this
  obtain ⟨k1, new, a1, a2, a3, a4, a5⟩ := this
  simp only at a2 a4 a5 k1
  refine ⟨k1, ⟨_, a2⟩, ?_⟩
  intro l c hl hc
  obtain ⟨k, d, body, e1, e2, e3, e4, e5⟩ := a4 l c hl hc
  refine ⟨s.reqs.length + k, d.1, body, by omega, ?_, e3, e4, e5⟩
  rw [a2, List.getElem?_append_right (by omega)]
  simp [e1]

/-! a second run -/

theorem fetchOne_again {P : PathSem L} (W2 : World L) (subdir : Str) (u : UrlDict) (s2 : FetchState L) (url : Option Str)
    (path : Str) (h : s2.fs (P.loc path) ≠ none) : fetchOne P W2 subdir u s2 url path = (.ok (), s2) := by
  unfold fetchOne
  rw [if_pos]
  unfold FetchState.has
  cases hs : s2.fs (P.loc path) with
  | none => exact absurd hs h
  | some n => rfl

theorem fetchMany_again {P : PathSem L} (W W2 : World L) (subdir : Str) (u : UrlDict) (lps urls : List Str) (i : Nat)
    (s s' s2 : FetchState L) (hrun : fetchMany P W subdir u lps urls i s = (.ok (), s'))
    (h : ∀ d ∈ urls.zip (lps.drop i), s2.fs (P.loc d.2) ≠ none) :
    fetchMany P W2 subdir u lps urls i s2 = (.ok (), s2) := by
  induction urls generalizing i s s' with
  | nil => rfl
  | cons url urls ih =>
    unfold fetchMany at hrun ⊢
    cases hi : lps[i]? with
    | none => rw [hi] at hrun; simp at hrun
    | some path =>
      rw [hi] at hrun
      simp only at hrun ⊢
      have hdrop : lps.drop i = path :: lps.drop (i + 1) := by
        obtain ⟨h1, h2⟩ := List.getElem?_eq_some_iff.1 hi
        rw [← h2]
        exact List.drop_eq_getElem_cons h1
      rw [hdrop, List.zip_cons_cons] at h
      rw [fetchOne_again W2 subdir u s2 (some url) path (h _ List.mem_cons_self)]
      cases hq : fetchOne P W subdir u s (some url) path with
      | mk r s1 =>
        rw [hq] at hrun
        cases r with
        | error e => simp at hrun
        | ok x => exact ih (i + 1) s1 s' hrun (fun d hd => h d (List.mem_cons_of_mem _ hd))

theorem fetchItem_again {P : PathSem L} (W W2 : World L) (subdir : Str) (u : UrlDict) (lps : List Str) (lp : Option Str)
    (s s' s2 : FetchState L) (hrun : fetchItem P W subdir u lps lp s = (.ok (), s'))
    (h : ∀ d ∈ itemPlan u lps lp, s2.fs (P.loc d.2) ≠ none) :
    fetchItem P W2 subdir u lps lp s2 = (.ok (), s2) := by
  unfold fetchItem at hrun ⊢
  unfold itemPlan at h
  cases hu : u.urls with
  | some urls =>
    rw [hu] at hrun h
    exact fetchMany_again W W2 subdir u lps urls 0 s s' s2 hrun h
  | none =>
    rw [hu] at hrun h
    cases lp with
    | none => simp at hrun
    | some path => exact fetchOne_again W2 subdir u s2 u.url path (h _ List.mem_cons_self)

theorem fetchLoop_again {P : PathSem L} (W W2 : World L) (subdir : Str) (us : List UrlDict) (lps : List Str) (lp : Option Str)
    (s s' s2 : FetchState L) (hrun : fetchLoop P W subdir us lps lp s = (.ok (), s'))
    (h : ∀ d ∈ loopPlan subdir us lps lp, s2.fs (P.loc d.2) ≠ none) :
    fetchLoop P W2 subdir us lps lp s2 = (.ok (), s2) := by
  induction us generalizing lps lp s s' with
  | nil => rfl
  | cons u us ih =>
    unfold fetchLoop at hrun ⊢
    unfold loopPlan at h
    cases hp : itemPaths subdir u lps lp with
    | error e => rw [hp] at hrun; simp at hrun
    | ok q =>
      obtain ⟨lps', lp'⟩ := q
      rw [hp] at hrun h
      simp only at hrun h ⊢
      cases hq : fetchItem P W subdir u lps' lp' s with
      | mk r s1 =>
        rw [hq] at hrun
        cases r with
        | error e => simp at hrun
        | ok x =>
          rw [fetchItem_again W W2 subdir u lps' lp' s s1 s2 hq (fun d hd => h d (List.mem_append_left _ hd))]
          exact ih lps' lp' s1 s' hrun (fun d hd => h d (List.mem_append_right _ hd))

/-- C56, running again: for every fetchspec, if a run ends normally and all the requests it made were answered with
status 200, then any later run — with whatever server and operating system, from any state in which what the first run
left still exists, after any number of other requests — makes no request, changes nothing and ends normally.  (`hup`: `os.makedirs(subdir)` makes `subdir`.) -/
theorem C56_idempotent (P : PathSem L) (W W2 : World L) (subdir : Str) (us : List UrlDict) (s s' s2 : FetchState L)
    (hrun : fetchWebItems P W subdir us s = (.ok (), s'))
    (hall : ∀ k url, s.reqs.length ≤ k → s'.reqs[k]? = some url → ∃ body, W.server k url = some (200, body))
    (hup : P.loc subdir ∈ P.up subdir)
    (h2 : ∀ l, s'.fs l ≠ none → s2.fs l ≠ none) :
    fetchWebItems P W2 subdir us s2 = (.ok (), s2) := by
  have hf := fetchWebItems_spec P W subdir us s
  rw [hrun] at hf
  obtain ⟨k1, new, a1, a2, a3, a4, a5⟩ := hf
  have hexist : ∀ d ∈ loopPlan subdir us [] none, s2.fs (P.loc d.2) ≠ none := by
    intro d hd
    apply h2
    rcases a5 rfl d hd with h | ⟨k, e1, e2⟩
    · exact h
    · exfalso
      simp only at a2
      obtain ⟨body, hb⟩ := hall (s.reqs.length + k) d.1 (by omega)
        (by rw [a2, List.getElem?_append_right (by omega)]; simp [e1])
      exact e2 body hb
  have hs1 : ∃ s1, s1.has P subdir = true ∧ fetchLoop P W subdir us [] none s1 = (.ok (), s') := by
    unfold fetchWebItems at hrun
    by_cases hh : s.has P subdir = true
    · rw [if_pos hh] at hrun
      exact ⟨s, hh, hrun⟩
    · rw [if_neg hh] at hrun
      unfold makedirs at hrun
      split at hrun
      · rename_i heq
        split at heq
        · cases heq; simp at hrun
        · cases heq
      · rename_i s1 heq
        split at heq
        · cases heq
        · cases heq
          refine ⟨_, ?_, hrun⟩
          have hn : s.fs (P.loc subdir) = none := by
            unfold FetchState.has at hh
            cases h : s.fs (P.loc subdir) with
            | none => rfl
            | some n => rw [h] at hh; exact absurd rfl hh
          simp [FetchState.has, hup, hn]
  obtain ⟨s1, g1, g2⟩ := hs1
  have hs2 : s2.has P subdir = true := by
    have hk := (fetchLoop_spec P W subdir us [] none s1).keep
    rw [g2] at hk
    unfold FetchState.has at g1 ⊢
    cases hx1 : s1.fs (P.loc subdir) with
    | none => rw [hx1] at g1; cases g1
    | some n =>
      have := h2 (P.loc subdir) (by rw [hk _ _ hx1]; simp)
      cases hx : s2.fs (P.loc subdir) with
      | none => exact absurd hx this
      | some n => rfl
  unfold fetchWebItems
  rw [if_pos hs2]
  exact fetchLoop_again W W2 subdir us [] none s1 s' s2 g2 hexist

/-- A download cut short is not repeated: whatever a run left behind, complete or not, a later run makes no request for
it and does not change it. -/
theorem C56_interrupted (P : PathSem L) (W W2 : World L) (subdir : Str) (us : List UrlDict) (h : ∀ u ∈ us, WellFormed u)
    (s s1 s2 : FetchState L) (r r2 : Except PyErr Unit) (l : L) (c : Str)
    (_h1 : fetchWebItems P W subdir us s = (r, s1)) (hc : s1.fs l = some (.file c))
    (h2 : fetchWebItems P W2 subdir us s1 = (r2, s2)) :
    s2.fs l = some (.file c) ∧ ∃ new : List (Str × Str), s2.reqs = s1.reqs ++ new.map Prod.fst ∧ ∀ d ∈ new, P.loc d.2 ≠ l := by
  obtain ⟨k1, new, a1, a2, a3, a4, a5⟩ := C56_fetch P W2 subdir us h s1 r2 s2 h2
  refine ⟨k1 l _ hc, new, a2, ?_⟩
  intro d hd e
  have := a3 d hd
  rw [e, hc] at this
  cases this

end

/-! examples -/

/-- a file system where every path is its own place -/
def flatFs : PathSem Str := { loc := fun p => p, up := fun p => [p] }

/-- a server that answers the first request with 200 and the second with 404, and a write cut short as told -/
def exWorld (cut : Option Nat) : World Str :=
  { server := fun k _ => if k = 0 then some (200, c!"votes") else some (404, c!"none"),
    canMake := fun _ _ => true, canOpen := fun _ _ => true, cut := fun _ _ => cut }

/-- one list entry and one single entry -/
def exSpecs : List UrlDict :=
  [{ localcopies := some [c!"a", c!"b"], urls := some [c!"u1", c!"u2"], metaurls := some [c!"m"], desc := some c!"d" },
   { localcopy := some c!"c", url := some c!"u3", metaurls := some [c!"m"], desc := some c!"d" }]

/-- only `dl/a` is there -/
def exStart : FetchState Str := { fs := fun p => if p = c!"dl/a" then some (.file c!"old") else none, reqs := [] }

example : ∀ u ∈ exSpecs, WellFormed u := by
  intro u hu
  simp only [exSpecs, List.mem_cons, List.not_mem_nil, or_false] at hu
  rcases hu with rfl | rfl
  · exact .inl ⟨_, _, rfl, rfl, by decide⟩
  · exact .inr ⟨_, _, rfl, rfl, rfl, rfl⟩

example : (fetchWebItems flatFs (exWorld none) c!"dl" exSpecs exStart).1.toOption = some () ∧
    (fetchWebItems flatFs (exWorld none) c!"dl" exSpecs exStart).2.reqs = [c!"u2", c!"u3"] ∧
    (fetchWebItems flatFs (exWorld none) c!"dl" exSpecs exStart).2.fs c!"dl/a" = some (.file c!"old") ∧
    (fetchWebItems flatFs (exWorld none) c!"dl" exSpecs exStart).2.fs c!"dl/b" = some (.file c!"votes") ∧
    (fetchWebItems flatFs (exWorld none) c!"dl" exSpecs exStart).2.fs c!"dl/c" = none := by
  decide +kernel

/-- the truncated file of `C56_interrupted` -/
example : (fetchWebItems flatFs (exWorld (some 2)) c!"dl" exSpecs exStart).2.fs c!"dl/b" = some (.file c!"vo") := by
  decide +kernel

/-- a run all of whose requests succeed -/
example : (fetchWebItems flatFs (exWorld none) c!"dl" (exSpecs.take 1) exStart).1.toOption = some () ∧
    (fetchWebItems flatFs (exWorld none) c!"dl" (exSpecs.take 1) exStart).2.reqs = [c!"u2"] ∧
    (exWorld none).server 0 c!"u2" = some (200, c!"votes") := by
  decide +kernel

/-! ### C57 -/

/-- the format an entry should be converted from: its own, or the default -/
def ownFmt (dflt : Option Str) (e : ExtFile) : Option Str :=
  match e.srcfmt with
  | some (c :: cs) => some (c :: cs)
  | _ => dflt

/-- does the entry name a format? -/
def hasFmt (e : ExtFile) : Prop := ∃ c cs, e.srcfmt = some (c :: cs)

/-- the actions for entries with the given formats, up to the first that fails -/
def actions (dl ab : Str) : List (ExtFile × Option Str) → List ExtAction × Except PyErr Unit
  | [] => ([], .ok ())
  | (e, f) :: es =>
    match extAction dl ab e f with
    | .error err => ([], .error err)
    | .ok a => (a :: (actions dl ab es).1, (actions dl ab es).2)

/-- the format the program uses for each entry: the last format named so far, the default if there is none -/
def lastFmt (dflt : Option Str) : List ExtFile → List (Option Str)
  | [] => []
  | e :: es => ownFmt dflt e :: lastFmt (ownFmt dflt e) es

theorem ownFmt_eq (dflt : Option Str) (e : ExtFile) : orStr e.srcfmt dflt = ownFmt dflt e := by
  unfold orStr ownFmt
  rcases e.srcfmt with _ | _ | ⟨c, cs⟩ <;> rfl

/-- what the program does in every case: entry `i` is converted from the last format named by an entry up to `i` -/
theorem C57_carried (dl ab : Str) (es : List ExtFile) (dflt : Option Str) :
    processExtfiles dl ab es dflt = actions dl ab (es.zip (lastFmt dflt es)) := by
  induction es generalizing dflt with
  | nil => rfl
  | cons e es ih =>
    unfold processExtfiles lastFmt
    rw [List.zip_cons_cons, ownFmt_eq]
    unfold actions
    simp only [ih]
    cases extAction dl ab e (ownFmt dflt e) <;> rfl

/-- C57 when no entry without a format follows one with a format (in particular when all entries name their format, or
none does): every entry is converted from its own format, or the default if it has none.
Missing from the full C57: an entry without a format after one with a format, see `C57_refuted`. -/
theorem C57_partial (dl ab : Str) (es : List ExtFile) (dflt : Option Str)
    (h : es.Pairwise (fun e e' => hasFmt e → hasFmt e')) :
    processExtfiles dl ab es dflt = actions dl ab (es.map (fun e => (e, ownFmt dflt e))) := by
  rw [C57_carried]
  congr 1
  have all : ∀ (es : List ExtFile) (d d' : Option Str), (∀ e ∈ es, hasFmt e) → es.zip (lastFmt d es) = es.map (fun e => (e, ownFmt d' e)) := by
    intro es
    induction es with
    | nil => intros; rfl
    | cons e es ih =>
      intro d d' h
      obtain ⟨c, cs, hc⟩ := h e List.mem_cons_self
      have e1 : ∀ x, ownFmt x e = some (c :: cs) := by intro x; unfold ownFmt; rw [hc]
      unfold lastFmt
      rw [List.zip_cons_cons, List.map_cons, e1, e1, ih _ d' (fun e he => h e (List.mem_cons_of_mem _ he))]
  induction es with
  | nil => rfl
  | cons e es ih =>
    rw [List.pairwise_cons] at h
    by_cases he : hasFmt e
    · exact all (e :: es) dflt dflt (by
        intro x hx
        rcases List.mem_cons.1 hx with rfl | hx
        · exact he
        · exact h.1 x hx he)
    · have e1 : ownFmt dflt e = dflt := by
        unfold ownFmt
        rcases hs : e.srcfmt with _ | _ | ⟨c, cs⟩
        · rfl
        · rfl
        · exact absurd ⟨c, cs, hs⟩ he
      unfold lastFmt
      rw [List.zip_cons_cons, List.map_cons, e1, ih h.2]

/-- When an entry cannot be used, and how the run ends then: no file is named; no output name is given for a file that is linked or
converted, or no archive for an archive format (`KeyError`); an empty list of files is to be linked (`IndexError`); no or an
unknown format (an exception of its own). -/
theorem C57_errors (dl ab : Str) (e : ExtFile) (fmt : Option Str) (err : PyErr) :
    extAction dl ab e fmt = .error err ↔
      (e.localcopies = none ∧ e.localcopy = none ∧ err = .keyError) ∨
      ((e.localcopies ≠ none ∨ e.localcopy ≠ none) ∧
        ((fmt ∈ [some c!"abif", some c!"debtally", some c!"preflib", some c!"sftxt"] ∧ e.abifloc = none ∧ err = .keyError) ∨
         (fmt = some c!"abif" ∧ e.abifloc ≠ none ∧ e.localcopies = some [] ∧ err = .indexError) ∨
         (fmt = some c!"nameq_archive" ∧ e.localcopy = none ∧ err = .keyError) ∨
         (fmt ∉ [some c!"abif", some c!"debtally", some c!"preflib", some c!"sftxt", some c!"nameq_archive"] ∧ err = .other))) := by
  unfold extAction extInfiles extOut
  simp only [List.mem_cons, List.not_mem_nil, or_false, not_or]
  by_cases h1 : fmt = some c!"abif"
  · subst h1
    rcases hl : e.localcopies with _ | _ | ⟨x, l⟩ <;> rcases hc : e.localcopy with _ | c <;> rcases ha : e.abifloc with _ | a <;>
      simp [ok_bind, error_bind, @eq_comm PyErr _ err]
  · by_cases h2 : fmt = some c!"debtally" ∨ fmt = some c!"preflib" ∨ fmt = some c!"sftxt"
    · have h3 : fmt ≠ some c!"nameq_archive" := by rintro rfl; revert h2; decide
      rcases hl : e.localcopies with _ | l <;> rcases hc : e.localcopy with _ | c <;> rcases ha : e.abifloc with _ | a <;>
        simp [ok_bind, error_bind, @eq_comm PyErr _ err, h1, h2, h3] <;> tauto
    · by_cases h3 : fmt = some c!"nameq_archive"
      · subst h3
        rcases hl : e.localcopies with _ | l <;> rcases hc : e.localcopy with _ | c <;>
          simp [ok_bind, error_bind, @eq_comm PyErr _ err]
      · rcases hl : e.localcopies with _ | l <;> rcases hc : e.localcopy with _ | c <;>
          simp [ok_bind, error_bind, @eq_comm PyErr _ err, h1, h2, h3] <;> tauto

/-- what an action does for an entry with a usable format: it uses exactly that format, the entry's files and the entry's
output name -/
theorem C57_action (dl ab : Str) (e : ExtFile) (f : Str) (a : ExtAction) (h : extAction dl ab e (some f) = .ok a) :
    (f = c!"abif" ∧ ∃ i o l, a = .link i o ∧ e.abifloc.map (pyJoin ab) = some o ∧
      ((e.localcopies.getD ((e.localcopy.map (fun c => [c])).getD [])).map (pyJoin dl) = i :: l)) ∨
    (f ∈ [c!"debtally", c!"preflib", c!"sftxt"] ∧ ∃ o, e.abifloc.map (pyJoin ab) = some o ∧
      a = .convert f ((e.localcopies.getD ((e.localcopy.map (fun c => [c])).getD [])).map (pyJoin dl)) o
        (e.desc.filter (fun d => d ≠ []))) ∨
    (f = c!"nameq_archive" ∧ ∃ c, e.localcopy = some c ∧ a = .tarball (pyJoin dl c)) := by
  unfold extAction at h
  obtain ⟨infiles, hin, h⟩ := bind_ok.1 h
  have hi : infiles = (e.localcopies.getD ((e.localcopy.map (fun c => [c])).getD [])).map (pyJoin dl) := by
    unfold extInfiles at hin
    cases hl : e.localcopies with
    | some l => rw [hl] at hin; cases hin; rfl
    | none =>
      rw [hl] at hin
      cases hc : e.localcopy with
      | none => rw [hc] at hin; cases hin
      | some c => rw [hc] at hin; cases hin; rfl
  have hout : ∀ o, extOut ab e = .ok o → e.abifloc.map (pyJoin ab) = some o := by
    intro o ho
    unfold extOut at ho
    cases ha : e.abifloc with
    | none => rw [ha] at ho; cases ho
    | some x => rw [ha] at ho; cases ho; rfl
  simp only [Option.some.injEq] at h
  by_cases h1 : f = c!"abif"
  · rw [if_pos h1] at h
    left
    refine ⟨h1, ?_⟩
    obtain ⟨o, ho, h⟩ := bind_ok.1 h
    cases infiles with
    | nil => cases h
    | cons i l =>
      cases h
      exact ⟨i, o, l, rfl, hout o ho, hi.symm⟩
  · rw [if_neg h1] at h
    right
    by_cases h2 : f = c!"debtally" ∨ f = c!"preflib" ∨ f = c!"sftxt"
    · rw [if_pos h2] at h
      left
      refine ⟨by simpa using h2, ?_⟩
      obtain ⟨o, ho, h⟩ := bind_ok.1 h
      cases h
      refine ⟨o, hout o ho, ?_⟩
      · rw [← hi]
        congr 1
        unfold orStr
        rcases e.desc with _ | _ | ⟨d, ds⟩ <;> rfl
    · rw [if_neg h2] at h
      right
      by_cases h3 : f = c!"nameq_archive"
      · rw [if_pos h3] at h
        refine ⟨h3, ?_⟩
        cases hc : e.localcopy with
        | none => rw [hc] at h; cases h
        | some c => rw [hc] at h; cases h; exact ⟨c, rfl, rfl⟩
      · rw [if_neg h3] at h
        cases h

/-- an entry in preflib format, and one without a format -/
def leakEntries : List ExtFile :=
  [{ localcopy := some c!"x.toc", srcfmt := some c!"preflib", abifloc := some c!"x.abif" },
   { localcopy := some c!"y.abif", abifloc := some c!"y.abif" }]

/-- C57 is false of the program: the second entry names no format and the default is `abif`, yet it is converted from
preflib, the format of the entry before it. -/
theorem C57_refuted :
    processExtfiles c!"dl" c!"out" leakEntries (some c!"abif") ≠
      actions c!"dl" c!"out" (leakEntries.map (fun e => (e, ownFmt (some c!"abif") e))) ∧
    (processExtfiles c!"dl" c!"out" leakEntries (some c!"abif")).1 =
      [.convert c!"preflib" [c!"dl/x.toc"] c!"out/x.abif" none, .convert c!"preflib" [c!"dl/y.abif"] c!"out/y.abif" none] := by
  refine ⟨fun h => ?_, by decide +kernel⟩
  have := congrArg (fun q => q.1) h
  revert this
  decide +kernel

example : leakEntries.reverse.Pairwise (fun e e' => hasFmt e → hasFmt e') := by
  refine List.Pairwise.cons ?_ (List.Pairwise.cons (by intro a ha; cases ha) List.Pairwise.nil)
  intro a ha _
  cases List.mem_singleton.1 ha
  exact ⟨_, _, rfl⟩

end Verif.Props
