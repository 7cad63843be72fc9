/-
`deepcopy` makes a copy: the same value, of new objects, and no old object is changed.
-/
import Verif.Lib.Heap
import Verif.Lib.Dict
import Mathlib.Data.List.Forall2

namespace Verif

open Spec

/-- preferences made of objects from `n` on -/
def PrefsNew (n : Nat) (h : Heap) (a : Addr) (D : Dict Str Pref) : Prop :=
  ∃ d, n ≤ a ∧ (h[a]?).bind Obj.asPrefs = some d ∧ itemsAt h d = some D ∧ ∀ kv ∈ d, n ≤ kv.2

/-- a voteline made of objects from `n` on -/
def LineNew (n : Nat) (h : Heap) (a : Addr) (v : Voteline) : Prop :=
  ∃ l, n ≤ a ∧ (h[a]?).bind Obj.asLine = some l ∧ PrefsNew n h l.prefs v.prefs ∧ l.qty = v.qty ∧ l.comment = v.comment ∧
    l.prefstr = v.prefstr ∧ l.voterid = v.voterid ∧ l.nameq = v.nameq

theorem PrefsNew.mono {n : Nat} {h h' : Heap} {a : Addr} {D : Dict Str Pref} (hp : PrefsNew n h a D) (hu : Untouched h h') :
    PrefsNew n h' a D := by
  obtain ⟨d, h1, h2, h3, h4⟩ := hp
  exact ⟨d, h1, hu.obj h2, hu.items h3, h4⟩

theorem LineNew.mono {n : Nat} {h h' : Heap} {a : Addr} {v : Voteline} (hp : LineNew n h a v) (hu : Untouched h h') :
    LineNew n h' a v := by
  obtain ⟨l, h1, h2, h3, h4⟩ := hp
  exact ⟨l, h1, hu.obj h2, h3.mono hu, h4⟩

theorem PrefsNew.prefsAt {n : Nat} {h : Heap} {a : Addr} {D : Dict Str Pref} (hp : PrefsNew n h a D) : prefsAt h a = some D := by
  obtain ⟨d, _, h2, h3, _⟩ := hp
  unfold Spec.prefsAt
  rw [h2]
  exact h3

theorem LineNew.lineAt {n : Nat} {h : Heap} {a : Addr} {v : Voteline} (hp : LineNew n h a v) : lineAt h a = some v := by
  obtain ⟨l, _, h2, h3, g1, g2, g3, g4, g5⟩ := hp
  rw [lineAt_of h2 h3.prefsAt, g1, g2, g3, g4, g5]

/-- what the memo of a copy says: the copies are new and have the value of the originals -/
def MemoOk (h0 h : Heap) (memo : Memo) : Prop :=
  ∀ a b, Dict.get? memo a = some b → h0.length ≤ b ∧ (∀ p, entryAt h0 a = some p → entryAt h b = some p) ∧
    (∀ D, prefsAt h0 a = some D → PrefsNew h0.length h b D) ∧ (∀ v, lineAt h0 a = some v → LineNew h0.length h b v)

theorem MemoOk.mono {h0 h h' : Heap} {memo : Memo} (hm : MemoOk h0 h memo) (hu : Untouched h h') : MemoOk h0 h' memo := by
  intro a b hab
  obtain ⟨h1, h2, h3, h4⟩ := hm a b hab
  exact ⟨h1, fun p hp => hu.entry (h2 p hp), fun D hD => (h3 D hD).mono hu, fun v hv => (h4 v hv).mono hu⟩

theorem memoOk_nil (h0 h : Heap) : MemoOk h0 h [] := by
  intro a b hab
  cases hab

/-- what is newly allocated -/
theorem alloc_get (h : Heap) (o : Obj) {α : Type} (f : Obj → Option α) : ((h ++ [o])[h.length]?).bind f = f o := by
  simp

theorem entry_not_prefs {h : Heap} {a : Addr} {p : Pref} (h1 : entryAt h a = some p) : prefsAt h a = none ∧ lineAt h a = none := by
  obtain ⟨o, h2, h3⟩ := Option.bind_eq_some_iff.1 h1
  cases o with
  | entry q => unfold prefsAt lineAt; rw [h2]; exact ⟨rfl, rfl⟩
  | prefs _ => cases h3
  | line _ => cases h3
  | lines _ => cases h3
  | cands _ => cases h3
  | metadata _ => cases h3
  | jabmod _ => cases h3

theorem prefs_not_line {h : Heap} {a : Addr} {d : Dict Str Addr} (h1 : (h[a]?).bind Obj.asPrefs = some d) :
    entryAt h a = none ∧ lineAt h a = none := by
  obtain ⟨o, h2, h3⟩ := Option.bind_eq_some_iff.1 h1
  cases o with
  | prefs q => unfold entryAt lineAt; rw [h2]; exact ⟨rfl, rfl⟩
  | entry _ => cases h3
  | line _ => cases h3
  | lines _ => cases h3
  | cands _ => cases h3
  | metadata _ => cases h3
  | jabmod _ => cases h3

theorem line_not_prefs {h : Heap} {a : Addr} {l : LineObj} (h1 : (h[a]?).bind Obj.asLine = some l) :
    entryAt h a = none ∧ prefsAt h a = none := by
  obtain ⟨o, h2, h3⟩ := Option.bind_eq_some_iff.1 h1
  cases o with
  | line q => unfold entryAt prefsAt; rw [h2]; exact ⟨rfl, rfl⟩
  | entry _ => cases h3
  | prefs _ => cases h3
  | lines _ => cases h3
  | cands _ => cases h3
  | metadata _ => cases h3
  | jabmod _ => cases h3

theorem MemoOk.set {h0 h : Heap} {memo : Memo} (hm : MemoOk h0 h memo) {a b : Addr}
    (hab : h0.length ≤ b ∧ (∀ p, entryAt h0 a = some p → entryAt h b = some p) ∧
      (∀ D, prefsAt h0 a = some D → PrefsNew h0.length h b D) ∧ (∀ v, lineAt h0 a = some v → LineNew h0.length h b v)) :
    MemoOk h0 h (Dict.set memo a b) := by
  intro x y hxy
  rw [Dict.get?_set] at hxy
  by_cases hx : x = a
  · rw [if_pos hx.symm] at hxy
    cases hxy
    rw [hx]
    exact hab
  · rw [if_neg (fun e => hx e.symm)] at hxy
    exact hm x y hxy

theorem copyEntry_spec {h0 h : Heap} {memo : Memo} {a : Addr} {p : Pref} (hu : Untouched h0 h) (hm : MemoOk h0 h memo)
    (hp : entryAt h0 a = some p) : ∃ b memo' h', copyEntry memo a h = (.ok (b, memo'), h') ∧ Untouched h h' ∧
      MemoOk h0 h' memo' ∧ h0.length ≤ b ∧ entryAt h' b = some p := by
  unfold copyEntry
  cases hg : Dict.get? memo a with
  | some b =>
    obtain ⟨h1, h2, _⟩ := hm a b hg
    exact ⟨b, memo, h, rfl, .refl h, hm, h1, h2 p hp⟩
  | none =>
    simp only
    rw [HM.bind_of_ok (HM.look_of (hu.entry hp)), HM.bind_of_ok (HM.alloc_eq _ _)]
    have hb : entryAt (h ++ [Obj.entry p]) h.length = some p := by unfold entryAt; rw [alloc_get]; rfl
    refine ⟨h.length, _, _, HM.ret_eq _ _, untouched_alloc _ _, ?_, hu.length, hb⟩
    refine (hm.mono (untouched_alloc _ _)).set ⟨hu.length, ?_, ?_, ?_⟩
    · intro q hq; rw [hp] at hq; cases hq; exact hb
    · intro D hD; rw [(entry_not_prefs hp).1] at hD; cases hD
    · intro v hv; rw [(entry_not_prefs hp).2] at hv; cases hv

theorem copyItems_spec {h0 : Heap} : ∀ {d : Dict Str Addr} {D : Dict Str Pref} {h : Heap} {memo : Memo}, Untouched h0 h →
    MemoOk h0 h memo → itemsAt h0 d = some D → ∃ d' memo' h', copyItems memo d h = (.ok (d', memo'), h') ∧ Untouched h h' ∧
      MemoOk h0 h' memo' ∧ (∀ kv ∈ d', h0.length ≤ kv.2) ∧ itemsAt h' d' = some D
  | [], D, h, memo, _, hm, hD => by
    cases hD
    exact ⟨[], memo, h, rfl, .refl h, hm, fun kv hkv => (by cases hkv), rfl⟩
  | (k, a) :: d, D, h, memo, hu, hm, hD => by
    obtain ⟨p, D', g1, g2, rfl⟩ := itemsAt_cons hD
    obtain ⟨b, memo1, h1, e1, u1, m1, n1, v1⟩ := copyEntry_spec hu hm g1
    obtain ⟨d', memo2, h2, e2, u2, m2, n2, v2⟩ := copyItems_spec (hu.trans u1) m1 g2
    refine ⟨(k, b) :: d', memo2, h2, ?_, u1.trans u2, m2, ?_, itemsAt_of_cons (u2.entry v1) v2⟩
    · unfold copyItems
      rw [HM.bind_of_ok e1]
      simp only
      rw [HM.bind_of_ok e2]
      rfl
    · intro kv hkv
      rcases List.mem_cons.1 hkv with rfl | hkv
      · exact n1
      · exact n2 kv hkv

theorem copyPrefs_spec {h0 h : Heap} {memo : Memo} {a : Addr} {D : Dict Str Pref} (hu : Untouched h0 h) (hm : MemoOk h0 h memo)
    (hD : prefsAt h0 a = some D) : ∃ b memo' h', copyPrefs memo a h = (.ok (b, memo'), h') ∧ Untouched h h' ∧
      MemoOk h0 h' memo' ∧ PrefsNew h0.length h' b D := by
  unfold copyPrefs
  cases hg : Dict.get? memo a with
  | some b =>
    obtain ⟨_, _, h3, _⟩ := hm a b hg
    exact ⟨b, memo, h, rfl, .refl h, hm, h3 D hD⟩
  | none =>
    simp only
    obtain ⟨d, g1, g2⟩ := Option.bind_eq_some_iff.1 hD
    obtain ⟨d', memo1, h1, e1, u1, m1, n1, v1⟩ := copyItems_spec hu hm g2
    rw [HM.bind_of_ok (HM.look_of (hu.obj g1)), HM.bind_of_ok e1]
    simp only
    rw [HM.bind_of_ok (HM.alloc_eq _ _)]
    have hl : h0.length ≤ h1.length := (hu.trans u1).length
    have hb : PrefsNew h0.length (h1 ++ [Obj.prefs d']) h1.length D :=
      ⟨d', hl, by rw [alloc_get]; rfl, (untouched_alloc _ _).items v1, n1⟩
    refine ⟨h1.length, _, _, HM.ret_eq _ _, u1.trans (untouched_alloc _ _), ?_, hb⟩
    refine (m1.mono (untouched_alloc _ _)).set ⟨hl, ?_, ?_, ?_⟩
    · intro q hq; rw [(prefs_not_line g1).1] at hq; cases hq
    · intro D' hD'; rw [hD] at hD'; cases hD'; exact hb
    · intro v hv; rw [(prefs_not_line g1).2] at hv; cases hv

theorem copyLine_spec {h0 h : Heap} {memo : Memo} {a : Addr} {v : Voteline} (hu : Untouched h0 h) (hm : MemoOk h0 h memo)
    (hv : lineAt h0 a = some v) : ∃ b memo' h', copyLine memo a h = (.ok (b, memo'), h') ∧ Untouched h h' ∧
      MemoOk h0 h' memo' ∧ LineNew h0.length h' b v := by
  unfold copyLine
  cases hg : Dict.get? memo a with
  | some b =>
    obtain ⟨_, _, _, h4⟩ := hm a b hg
    exact ⟨b, memo, h, rfl, .refl h, hm, h4 v hv⟩
  | none =>
    simp only
    obtain ⟨l, d, g1, _, _, g4, q1, q2, q3, q4, q5⟩ := lineAt_some hv
    obtain ⟨p, memo1, h1, e1, u1, m1, v1⟩ := copyPrefs_spec hu hm g4
    rw [HM.bind_of_ok (HM.look_of (hu.obj g1)), HM.bind_of_ok e1]
    simp only
    rw [HM.bind_of_ok (HM.alloc_eq _ _)]
    have hl : h0.length ≤ h1.length := (hu.trans u1).length
    have hb : LineNew h0.length (h1 ++ [Obj.line { l with prefs := p }]) h1.length v :=
      ⟨{ l with prefs := p }, hl, by rw [alloc_get]; rfl, v1.mono (untouched_alloc _ _), q1, q2, q3, q4, q5⟩
    refine ⟨h1.length, _, _, HM.ret_eq _ _, u1.trans (untouched_alloc _ _), ?_, hb⟩
    refine (m1.mono (untouched_alloc _ _)).set ⟨hl, ?_, ?_, ?_⟩
    · intro q hq; rw [(line_not_prefs g1).1] at hq; cases hq
    · intro D' hD'; rw [(line_not_prefs g1).2] at hD'; cases hD'
    · intro w hw; rw [hv] at hw; cases hw; exact hb

/-- new votelines -/
def LinesNew (n : Nat) (h : Heap) (l : List Addr) (vls : List Voteline) : Prop := List.Forall₂ (LineNew n h) l vls

theorem LinesNew.mono {n : Nat} {h h' : Heap} {l : List Addr} {vls : List Voteline} (hl : LinesNew n h l vls)
    (hu : Untouched h h') : LinesNew n h' l vls := List.Forall₂.imp (fun _ _ hx => hx.mono hu) hl

theorem LinesNew.read {n : Nat} {h : Heap} {l : List Addr} {vls : List Voteline} (hl : LinesNew n h l vls) :
    linesOfAddrs h l = some vls := by
  induction hl with
  | nil => rfl
  | cons hx _ ih => exact linesOfAddrs_of_cons hx.lineAt ih

theorem copyLineList_spec {h0 : Heap} : ∀ {l : List Addr} {vls : List Voteline} {h : Heap} {memo : Memo}, Untouched h0 h →
    MemoOk h0 h memo → linesOfAddrs h0 l = some vls → ∃ l' memo' h', copyLineList memo l h = (.ok (l', memo'), h') ∧
      Untouched h h' ∧ MemoOk h0 h' memo' ∧ LinesNew h0.length h' l' vls
  | [], vls, h, memo, _, hm, hD => by
    cases hD
    exact ⟨[], memo, h, rfl, .refl h, hm, .nil⟩
  | a :: l, vls, h, memo, hu, hm, hD => by
    obtain ⟨v, vls', g1, g2, rfl⟩ := linesOfAddrs_cons hD
    obtain ⟨b, memo1, h1, e1, u1, m1, v1⟩ := copyLine_spec hu hm g1
    obtain ⟨l', memo2, h2, e2, u2, m2, v2⟩ := copyLineList_spec (hu.trans u1) m1 g2
    refine ⟨b :: l', memo2, h2, ?_, u1.trans u2, m2, .cons (v1.mono u2) v2⟩
    unfold copyLineList
    rw [HM.bind_of_ok e1]
    simp only
    rw [HM.bind_of_ok e2]
    rfl

/-- `deepcopy` of a list of votelines -/
theorem deepcopyLines_spec {h : Heap} {a : Addr} {vls : List Voteline} (hv : linesAt h a = some vls) :
    ∃ b l h', deepcopyLines a h = (.ok b, h') ∧ Untouched h h' ∧ h.length ≤ b ∧ (h'[b]?).bind Obj.asLines = some l ∧
      LinesNew h.length h' l vls := by
  obtain ⟨l, g1, g2⟩ := Option.bind_eq_some_iff.1 hv
  obtain ⟨l', memo, h1, e1, u1, _, v1⟩ := copyLineList_spec (.refl h) (memoOk_nil h h) g2
  refine ⟨h1.length, l', h1 ++ [.lines l'], ?_, u1.trans (untouched_alloc _ _), u1.length, by rw [alloc_get]; rfl,
    v1.mono (untouched_alloc _ _)⟩
  unfold deepcopyLines
  rw [HM.bind_of_ok (HM.look_of g1), HM.bind_of_ok e1]
  rfl

theorem linesAt_of {h : Heap} {a : Addr} {l : List Addr} {vls : List Voteline} (h1 : (h[a]?).bind Obj.asLines = some l)
    (h2 : linesOfAddrs h l = some vls) : linesAt h a = some vls := by
  unfold linesAt
  rw [h1]
  exact h2

end Verif
