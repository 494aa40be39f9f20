import Verif.Model.Py

set_option autoImplicit false
set_option linter.unusedSectionVars false

namespace Verif
namespace Dict

variable {K V W : Type*} [DecidableEq K]

@[simp] theorem get?_nil (k : K) : get? ([] : Dict K V) k = none := rfl

theorem get?_cons (k' : K) (v : V) (d : Dict K V) (k : K) :
    get? ((k', v) :: d) k = if k' = k then some v else get? d k := rfl

@[simp] theorem keys_nil : keys ([] : Dict K V) = [] := rfl
@[simp] theorem keys_cons (p : K × V) (d : Dict K V) : keys (p :: d) = p.1 :: keys d := rfl
@[simp] theorem keys_append (d e : Dict K V) : keys (d ++ e) = keys d ++ keys e := by
  simp [keys]

theorem get?_eq_none_iff (d : Dict K V) (k : K) : get? d k = none ↔ k ∉ keys d := by
  induction d with
  | nil => simp
  | cons p d ih =>
    obtain ⟨k', v⟩ := p
    rw [get?_cons]
    by_cases h : k' = k
    · simp [h]
    · simp only [h, if_false, ih, keys_cons, List.mem_cons, not_or]
      exact ⟨fun hh => ⟨fun e => h e.symm, hh⟩, fun hh => hh.2⟩

theorem has_iff (d : Dict K V) (k : K) : has d k = true ↔ k ∈ keys d := by
  unfold has
  rw [Option.isSome_iff_ne_none, ne_eq, get?_eq_none_iff, Classical.not_not]

theorem has_false_iff (d : Dict K V) (k : K) : has d k = false ↔ k ∉ keys d := by
  rw [← has_iff]; simp

theorem set_of_not_mem (d : Dict K V) (k : K) (v : V) (h : k ∉ keys d) :
    set d k v = d ++ [(k, v)] := by
  induction d with
  | nil => rfl
  | cons p d ih =>
    obtain ⟨k', v'⟩ := p
    simp only [keys_cons, List.mem_cons, not_or] at h
    have hne : k' ≠ k := fun e => h.1 e.symm
    simp [set, hne, ih h.2]

theorem keys_set (d : Dict K V) (k : K) (v : V) :
    keys (set d k v) = if k ∈ keys d then keys d else keys d ++ [k] := by
  induction d with
  | nil => simp [set, keys]
  | cons p d ih =>
    obtain ⟨k', v'⟩ := p
    by_cases h : k' = k
    · subst h; simp [set]
    · have h' : ¬ k = k' := fun e => h e.symm
      simp only [set, h, if_false, keys_cons, ih, List.mem_cons, h', false_or]
      split <;> rfl

theorem get?_set (d : Dict K V) (k k' : K) (v : V) :
    get? (set d k v) k' = if k = k' then some v else get? d k' := by
  induction d with
  | nil => simp [set, get?_cons]
  | cons p d ih =>
    obtain ⟨k0, v0⟩ := p
    by_cases h : k0 = k
    · subst h
      simp only [set, if_true, get?_cons]
      split <;> rfl
    · simp only [set, h, if_false, get?_cons, ih]
      by_cases h1 : k0 = k'
      · subst h1
        have : ¬ k = k0 := fun e => h e.symm
        simp [this]
      · simp [h1]

theorem WF.set {d : Dict K V} (h : WF d) (k : K) (v : V) : WF (set d k v) := by
  unfold WF at *
  rw [keys_set]
  split
  · exact h
  · rename_i hk
    rw [List.nodup_append]
    refine ⟨h, by simp, ?_⟩
    intro a ha b hb e
    simp at hb
    subst hb; subst e; exact hk ha

theorem get?_append (d e : Dict K V) (k : K) :
    get? (d ++ e) k = match get? d k with | some v => some v | none => get? e k := by
  induction d with
  | nil => rfl
  | cons p d ih =>
    obtain ⟨k0, v0⟩ := p
    simp only [List.cons_append, get?_cons]
    split
    · rfl
    · exact ih

theorem get?_mem {d : Dict K V} {k : K} {v : V} (h : get? d k = some v) : (k, v) ∈ d := by
  induction d with
  | nil => simp at h
  | cons p d ih =>
    obtain ⟨k0, v0⟩ := p
    rw [get?_cons] at h
    split at h
    · rename_i e; simp at h; subst e; subst h; simp
    · exact List.mem_cons_of_mem _ (ih h)

theorem get?_of_mem {d : Dict K V} (hd : WF d) {k : K} {v : V} (h : (k, v) ∈ d) :
    get? d k = some v := by
  induction d with
  | nil => simp at h
  | cons p d ih =>
    obtain ⟨k0, v0⟩ := p
    have hd' : k0 ∉ keys d ∧ (keys d).Nodup := by
      have : (k0 :: keys d).Nodup := hd
      exact List.nodup_cons.mp this
    rw [get?_cons]
    rcases List.mem_cons.mp h with e | hm
    · simp at e; simp [e.1, e.2]
    · have : k ∈ keys d := List.mem_map.mpr ⟨(k, v), hm, rfl⟩
      have hne : k0 ≠ k := fun e => hd'.1 (e ▸ this)
      rw [if_neg hne]; exact ih hd'.2 hm

theorem get?_eq_some_iff {d : Dict K V} (hd : WF d) (k : K) (v : V) :
    get? d k = some v ↔ (k, v) ∈ d := ⟨get?_mem, get?_of_mem hd⟩

theorem mem_keys_of_get? {d : Dict K V} {k : K} {v : V} (h : get? d k = some v) : k ∈ keys d :=
  List.mem_map.mpr ⟨(k, v), get?_mem h, rfl⟩

theorem exists_get?_of_mem {d : Dict K V} {k : K} (h : k ∈ keys d) : ∃ v, get? d k = some v := by
  cases hg : get? d k with
  | none => exact absurd h ((get?_eq_none_iff d k).mp hg)
  | some v => exact ⟨v, rfl⟩

/-- mapping values commutes with lookup -/
theorem get?_map (f : K → V → W) (d : Dict K V) (k : K) :
    get? (d.map fun p => (p.1, f p.1 p.2)) k = (get? d k).map (f k) := by
  induction d with
  | nil => rfl
  | cons p d ih =>
    obtain ⟨k0, v0⟩ := p
    simp only [List.map_cons, get?_cons]
    split
    · rename_i e; subst e; rfl
    · exact ih

@[simp] theorem keys_map (f : K → V → W) (d : Dict K V) :
    keys (d.map fun p => (p.1, f p.1 p.2)) = keys d := by
  simp [keys, List.map_map, Function.comp_def]

theorem WF.filter {d : Dict K V} (h : WF d) (f : K × V → Bool) : WF (List.filter f d) := by
  unfold WF keys at *
  exact h.sublist ((List.filter_sublist).map _)

/-- filtering by a test on the key -/
theorem get?_filter_key (f : K → Bool) (d : Dict K V) (k : K) :
    get? (d.filter fun p => f p.1) k = if f k then get? d k else none := by
  induction d with
  | nil => simp
  | cons p d ih =>
    obtain ⟨k0, v0⟩ := p
    by_cases h : f k0
    · simp only [List.filter_cons, h, if_true, get?_cons, ih]
      by_cases e : k0 = k
      · subst e; simp [h]
      · simp [e]
    · simp only [List.filter_cons, h, get?_cons]
      by_cases e : k0 = k
      · subst e; simp [h, ih]
      · simp [e, ih]

end Dict
end Verif
