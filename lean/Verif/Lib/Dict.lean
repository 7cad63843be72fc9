/-
Helper lemmas on insertion-ordered dictionaries.
-/
import Verif.Py.Dict

set_option linter.unusedSectionVars false
set_option linter.unusedSimpArgs false

namespace Verif
namespace Dict

variable {κ α β : Type} [DecidableEq κ]

theorem get?_set (d : Dict κ α) (k k' : κ) (v : α) :
    (d.set k v).get? k' = if k = k' then some v else d.get? k' := by
  induction d with
  | nil => simp [set, get?]
  | cons e d ih =>
    obtain ⟨k₀, v₀⟩ := e
    unfold set
    by_cases h : k₀ = k
    · simp only [h, if_true]
      by_cases hk : k = k' <;> simp [get?, hk]
    · simp only [h, if_false, get?, ih]
      by_cases hk : k₀ = k'
      · have : ¬ k = k' := fun e => h (hk.trans e.symm)
        simp [hk, this]
      · simp [hk]

theorem get?_set_self (d : Dict κ α) (k : κ) (v : α) : (d.set k v).get? k = some v := by
  simp [get?_set]

theorem get?_set_ne (d : Dict κ α) {k k' : κ} (v : α) (h : k ≠ k') : (d.set k v).get? k' = d.get? k' := by
  simp [get?_set, h]

theorem get?_eq_none {d : Dict κ α} {k : κ} : d.get? k = none ↔ k ∉ d.keys := by
  induction d with
  | nil => simp [get?, keys]
  | cons e d ih =>
    obtain ⟨k₀, v₀⟩ := e
    by_cases h : k₀ = k
    · simp [get?, keys, h]
    · have h' : ¬ k = k₀ := fun e => h e.symm
      simp [get?, keys, h, h'] at ih ⊢
      exact ih

theorem has_iff {d : Dict κ α} {k : κ} : d.has k = true ↔ k ∈ d.keys := by
  unfold has
  cases h : d.get? k with
  | none => simpa using get?_eq_none.1 h
  | some v =>
    simp only [Option.isSome_some, true_iff]
    apply Classical.byContradiction
    intro hn
    rw [get?_eq_none.2 hn] at h
    cases h

theorem get?_isSome_iff {d : Dict κ α} {k : κ} : (d.get? k).isSome = true ↔ k ∈ d.keys := has_iff

theorem exists_get?_of_mem {d : Dict κ α} {k : κ} (h : k ∈ d.keys) : ∃ v, d.get? k = some v := by
  have := has_iff.2 h
  unfold has at this
  exact Option.isSome_iff_exists.1 this

theorem mem_keys_of_get? {d : Dict κ α} {k : κ} {v : α} (h : d.get? k = some v) : k ∈ d.keys := by
  rw [← has_iff]; simp [has, h]

theorem mem_of_get? {d : Dict κ α} {k : κ} {v : α} (h : d.get? k = some v) : (k, v) ∈ d := by
  induction d with
  | nil => simp [get?] at h
  | cons e d ih =>
    obtain ⟨k₀, v₀⟩ := e
    unfold get? at h
    split at h
    · rename_i he; cases h; simp [he]
    · simp [ih h]

theorem get?_of_mem {d : Dict κ α} {k : κ} {v : α} (hd : d.WF) (h : (k, v) ∈ d) : d.get? k = some v := by
  induction d with
  | nil => simp at h
  | cons e d ih =>
    obtain ⟨k₀, v₀⟩ := e
    have hw : k₀ ∉ keys d ∧ WF d := by simpa [WF, keys] using hd
    rcases List.mem_cons.1 h with h | h
    · cases h; simp [get?]
    · have : k₀ ≠ k := by
        rintro rfl
        exact hw.1 (by unfold keys; exact List.mem_map.2 ⟨(k₀, v), h, rfl⟩)
      simp [get?, this, ih hw.2 h]

theorem keys_set (d : Dict κ α) (k : κ) (v : α) :
    (d.set k v).keys = if k ∈ d.keys then d.keys else d.keys ++ [k] := by
  induction d with
  | nil => simp [set, keys]
  | cons e d ih =>
    obtain ⟨k₀, v₀⟩ := e
    unfold set
    by_cases h : k₀ = k
    · simp [h, keys]
    · have h' : ¬ k = k₀ := fun e => h e.symm
      simp only [h, if_false]
      have : keys ((k₀, v₀) :: set d k v) = k₀ :: (set d k v).keys := rfl
      rw [this, ih]
      have e2 : keys ((k₀, v₀) :: d) = k₀ :: keys d := rfl
      rw [e2]
      by_cases hk : k ∈ keys d <;> simp [hk, h']

theorem keys_set_of_mem {d : Dict κ α} {k : κ} {v : α} (h : k ∈ d.keys) : (d.set k v).keys = d.keys := by
  simp [keys_set, h]

theorem mem_keys_set {d : Dict κ α} {k k' : κ} {v : α} :
    k' ∈ (d.set k v).keys ↔ k' = k ∨ k' ∈ d.keys := by
  rw [keys_set]
  split
  · rename_i h
    constructor
    · exact Or.inr
    · rintro (rfl | h')
      · exact h
      · exact h'
  · simp [or_comm]

theorem wf_nil : WF ([] : Dict κ α) := by simp [WF, keys]

theorem wf_set {d : Dict κ α} (k : κ) (v : α) (h : d.WF) : (d.set k v).WF := by
  unfold WF at *
  rw [keys_set]
  split
  · exact h
  · rename_i hk
    rw [List.nodup_append]
    refine ⟨h, by simp, ?_⟩
    intro a ha b hb
    simp at hb
    subst hb
    rintro rfl
    exact hk ha

theorem get?_modify (d : Dict κ α) (k k' : κ) (f : α → α) :
    (d.modify k f).get? k' = if k = k' then (d.get? k').map f else d.get? k' := by
  unfold modify
  cases h : d.get? k with
  | none =>
    by_cases hk : k = k'
    · subst hk; simp [h]
    · simp [hk]
  | some v =>
    simp only [get?_set]
    by_cases hk : k = k'
    · subst hk; simp [h]
    · simp [hk]

theorem keys_modify (d : Dict κ α) (k : κ) (f : α → α) : (d.modify k f).keys = d.keys := by
  unfold modify
  cases h : d.get? k with
  | none => rfl
  | some v => exact keys_set_of_mem (mem_keys_of_get? h)

theorem wf_modify {d : Dict κ α} (k : κ) (f : α → α) (h : d.WF) : (d.modify k f).WF := by
  unfold WF; rw [keys_modify]; exact h

theorem getE_ok {d : Dict κ α} {k : κ} {v : α} : d.getE k = .ok v ↔ d.get? k = some v := by
  unfold getE
  cases d.get? k <;> simp

theorem getE_of_get? {d : Dict κ α} {k : κ} {v : α} (h : d.get? k = some v) : d.getE k = .ok v :=
  getE_ok.2 h

/-- a well-formed dict is determined by its keys (in order) and its lookup function -/
theorem ext_of_wf {d₁ d₂ : Dict κ α} (h₁ : d₁.WF) (h₂ : d₂.WF) (hk : d₁.keys = d₂.keys)
    (hg : ∀ k, d₁.get? k = d₂.get? k) : d₁ = d₂ := by
  induction d₁ generalizing d₂ with
  | nil =>
    cases d₂ with
    | nil => rfl
    | cons e d => simp [keys] at hk
  | cons e d ih =>
    cases d₂ with
    | nil => simp [keys] at hk
    | cons e' d' =>
      obtain ⟨k, v⟩ := e
      obtain ⟨k', v'⟩ := e'
      have hw : k ∉ keys d ∧ WF d := by simpa [WF, keys] using h₁
      have hw' : k' ∉ keys d' ∧ WF d' := by simpa [WF, keys] using h₂
      have e1 : k = k' ∧ keys d = keys d' := by simpa [keys] using hk
      obtain ⟨rfl, hk'⟩ := e1
      have hv := hg k
      simp [get?] at hv
      subst hv
      congr 1
      apply ih hw.2 hw'.2 hk'
      intro x
      by_cases hx : k = x
      · subst hx
        rw [get?_eq_none.2 hw.1, get?_eq_none.2 (hk' ▸ hw.1)]
      · simpa [get?, hx] using hg x

theorem get?_map (d : Dict κ α) (f : κ → α → β) (k : κ) :
    get? (d.map (fun e => (e.1, f e.1 e.2))) k = (d.get? k).map (f k) := by
  induction d with
  | nil => simp [get?]
  | cons e d ih =>
    obtain ⟨k₀, v₀⟩ := e
    by_cases h : k₀ = k
    · subst h; simp [get?]
    · simp [get?, h, ih]

theorem keys_map (d : Dict κ α) (f : κ × α → β) :
    keys (d.map (fun e => (e.1, f e))) = d.keys := by
  simp [keys, Function.comp_def]

theorem get?_mapKeys (l : List κ) (f : κ → α) (k : κ) :
    get? (l.map (fun a => (a, f a))) k = if k ∈ l then some (f k) else none := by
  induction l with
  | nil => simp [get?]
  | cons a l ih =>
    by_cases h : a = k
    · subst h; simp [get?]
    · have h' : ¬ k = a := fun e => h e.symm
      simp [get?, h, h', ih]

theorem get?_perm {d₁ d₂ : Dict κ α} (h : d₁.Perm d₂) (hw : d₁.WF) (k : κ) : d₁.get? k = d₂.get? k := by
  have hw2 : d₂.WF := by unfold WF keys at *; exact (h.map _).nodup hw
  cases hg : d₁.get? k with
  | some v => exact (get?_of_mem hw2 (h.mem_iff.1 (mem_of_get? hg))).symm
  | none =>
    symm
    rw [get?_eq_none] at hg ⊢
    unfold keys at *
    rwa [← (h.map Prod.fst).mem_iff]

theorem wf_perm {d₁ d₂ : Dict κ α} (h : d₁.Perm d₂) (hw : d₁.WF) : d₂.WF := by
  unfold WF keys at *; exact (h.map _).nodup hw

theorem get?_append (d₁ d₂ : Dict κ α) (k : κ) : get? (d₁ ++ d₂) k = (d₁.get? k).or (d₂.get? k) := by
  induction d₁ with
  | nil => simp [get?]
  | cons e d ih =>
    obtain ⟨k₀, v₀⟩ := e
    by_cases h : k₀ = k
    · simp [get?, h]
    · simp [get?, h, ih]

theorem set_of_not_mem {d : Dict κ α} {k : κ} (v : α) (h : k ∉ d.keys) : d.set k v = d ++ [(k, v)] := by
  induction d with
  | nil => rfl
  | cons e d ih =>
    obtain ⟨k₀, v₀⟩ := e
    have h' : k ≠ k₀ ∧ k ∉ keys d := by simpa [keys] using h
    simp [set, Ne.symm h'.1, ih h'.2]

theorem erase_eq_filter {d : Dict κ α} (h : d.WF) (k : κ) : d.erase k = d.filter (fun e => decide (e.1 ≠ k)) := by
  induction d with
  | nil => rfl
  | cons e d ih =>
    obtain ⟨k₀, v₀⟩ := e
    have hw : k₀ ∉ keys d ∧ WF d := by simpa [WF, keys] using h
    unfold erase
    by_cases hk : k₀ = k
    · subst hk
      simp only [if_true, List.filter_cons]
      simp
      symm
      rw [List.filter_eq_self]
      intro a ha
      have : a.1 ∈ keys d := by unfold keys; exact List.mem_map.2 ⟨a, ha, rfl⟩
      simp
      rintro rfl
      exact hw.1 this
    · simp [hk, ih hw.2]

end Dict
end Verif
