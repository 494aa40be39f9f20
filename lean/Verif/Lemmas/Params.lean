import Verif.Spec.C41
import Mathlib.Tactic.Linarith

/-!
# Lemmas on parameter checks
-/

set_option autoImplicit false

namespace Verif
namespace Params

open Spec

theorem bind_ok {α β : Type} (x : Except PyErr α) (f : α → Except PyErr β) (y : β) :
    (x >>= f) = .ok y ↔ ∃ a, x = .ok a ∧ f a = .ok y := by
  cases x with
  | error e => simp [bind, Except.bind]
  | ok a => simp [bind, Except.bind]

theorem rejectIf_ok (b : Bool) (u : Unit) : rejectIf b = .ok u ↔ b = false := by
  cases b <;> simp [rejectIf]

theorem unit_exists (P : Unit → Prop) : (∃ u, P u) ↔ P () :=
  ⟨fun ⟨_, h⟩ => h, fun h => ⟨_, h⟩⟩

/-- Fails with `ValueError` only. -/
def OnlyValue {α : Type} (x : Except PyErr α) : Prop := ∀ e, x = .error e → e = .valueError

theorem OnlyValue.bind {α β : Type} {x : Except PyErr α} {f : α → Except PyErr β}
    (hx : OnlyValue x) (hf : ∀ a, OnlyValue (f a)) : OnlyValue (x >>= f) := by
  cases x with
  | error e => intro e' h; cases h; exact hx e rfl
  | ok a => exact hf a

theorem onlyValue_reject (b : Bool) : OnlyValue (rejectIf b) := by
  intro e h
  cases b <;> simp [rejectIf] at h
  exact h.symm

theorem onlyValue_ok {α : Type} (a : α) : OnlyValue (Except.ok a : Except PyErr α) := by
  intro e h; cases h

theorem onlyValue_lower (lower : String → String) (v : PyVal) (l : List String) :
    OnlyValue (checkAndChangeLower lower v l) := by
  intro e h
  unfold checkAndChangeLower at h
  cases v with
  | str s => simp only at h; split at h <;> cases h; rfl
  | _ => cases h; rfl

theorem onlyValue_first (v : PyVal) : OnlyValue (firstOf v) := by
  intro e h
  unfold firstOf at h
  split at h <;> cases h
  rfl

theorem lower_ok (lower : String → String) (v : PyVal) (l : List String) (w : PyVal) :
    checkAndChangeLower lower v l = .ok w ↔ ∃ s, v = .str s ∧ lower s ∈ l ∧ w = .str (lower s) := by
  unfold checkAndChangeLower
  cases v with
  | str s =>
    by_cases h : lower s ∈ l
    · simp only [h, if_true, Except.ok.injEq]
      constructor
      · rintro rfl; exact ⟨s, rfl, h, rfl⟩
      · rintro ⟨t, ht, _, rfl⟩; cases ht; rfl
    · simp only [h, if_false]
      constructor
      · intro h'; cases h'
      · rintro ⟨t, ht, hm, _⟩; cases ht; exact absurd hm h
  | _ =>
    constructor
    · intro h; cases h
    · rintro ⟨t, ht, _⟩; cases ht

theorem first_ok (v x : PyVal) : firstOf v = .ok x ↔ ∃ xs, v = .list (x :: xs) := by
  unfold firstOf
  split
  · simp only [Except.ok.injEq, PyVal.list.injEq, List.cons.injEq]
    constructor
    · rintro rfl; exact ⟨_, rfl, rfl⟩
    · rintro ⟨_, rfl, _⟩; rfl
  · rename_i h
    constructor
    · intro h'; cases h'
    · rintro ⟨xs, rfl⟩; exact absurd rfl (h x xs)

theorem notOf_int (v : PyVal) : notOf v ["int", "long"] = false ↔ IsInt v := by
  cases v <;> simp [notOf, PyVal.typeName, IsInt]

theorem notOf_int1 (v : PyVal) : notOf v ["int"] = false ↔ IsInt v := by
  cases v <;> simp [notOf, PyVal.typeName, IsInt]

theorem notOf_num (v : PyVal) : notOf v ["int", "long", "float"] = false ↔ IsNumber v := by
  cases v <;> simp [notOf, PyVal.typeName, IsNumber]

theorem notOf_num' (v : PyVal) : notOf v ["float", "int", "long"] = false ↔ IsNumber v := by
  cases v <;> simp [notOf, PyVal.typeName, IsNumber]

theorem notOf_num2 (v : PyVal) : notOf v ["float", "int"] = false ↔ IsNumber v := by
  cases v <;> simp [notOf, PyVal.typeName, IsNumber]

theorem notOf_bool (v : PyVal) : notOf v ["bool"] = false ↔ IsBool v := by
  cases v <;> simp [notOf, PyVal.typeName, IsBool]

theorem notOf_float (v : PyVal) : notOf v ["float"] = false ↔ ∃ x, v = .flt x := by
  cases v <;> simp [notOf, PyVal.typeName]

theorem isStr_iff (v : PyVal) (s : String) : v.isStr s = true ↔ v = .str s := by
  cases v <;> simp [PyVal.isStr]

theorem int_lt (v : PyVal) (low : Int) :
    (IsInt v ∧ v.num.lt low = false) ↔ IntAtLeast v low := by
  constructor
  · rintro ⟨⟨z, rfl⟩, h⟩
    refine ⟨z, rfl, ?_⟩
    simp only [PyVal.num, Flt.lt, decide_eq_false_iff_not, not_lt] at h
    exact_mod_cast h
  · rintro ⟨z, rfl, h⟩
    refine ⟨⟨z, rfl⟩, ?_⟩
    simp only [PyVal.num, Flt.lt, decide_eq_false_iff_not, not_lt]
    exact_mod_cast h

theorem int_le (v : PyVal) : (IsInt v ∧ v.num.le 0 = false) ↔ IntAtLeast v 1 := by
  constructor
  · rintro ⟨⟨z, rfl⟩, h⟩
    refine ⟨z, rfl, ?_⟩
    simp only [PyVal.num, Flt.le, decide_eq_false_iff_not, not_le] at h
    have : 0 < z := by exact_mod_cast h
    omega
  · rintro ⟨z, rfl, h⟩
    refine ⟨⟨z, rfl⟩, ?_⟩
    simp only [PyVal.num, Flt.le, decide_eq_false_iff_not, not_le]
    have : 0 < z := by omega
    exact_mod_cast this

/-- A number is finite, infinite or not-a-number. -/
theorem number_cases (v : PyVal) : IsNumber v ↔
    (∃ q, HasValue v q) ∨ v = .flt .posInf ∨ v = .flt .negInf ∨ v = .flt .nan := by
  constructor
  · rintro (⟨z, rfl⟩ | ⟨x, rfl⟩)
    · exact Or.inl ⟨z, Or.inl ⟨z, rfl, rfl⟩⟩
    · cases x with
      | fin q => exact Or.inl ⟨q, Or.inr rfl⟩
      | posInf => exact Or.inr (Or.inl rfl)
      | negInf => exact Or.inr (Or.inr (Or.inl rfl))
      | nan => exact Or.inr (Or.inr (Or.inr rfl))
  · rintro (⟨q, ⟨z, rfl, _⟩ | rfl⟩ | rfl | rfl | rfl)
    · exact Or.inl ⟨z, rfl⟩
    all_goals exact Or.inr ⟨_, rfl⟩

theorem num_of_value {v : PyVal} {q : Rat} (h : HasValue v q) : v.num = .fin q := by
  rcases h with ⟨z, rfl, rfl⟩ | rfl <;> rfl

theorem isNumber_of_value {v : PyVal} {q : Rat} (h : HasValue v q) : IsNumber v := by
  rcases h with ⟨z, rfl, _⟩ | rfl
  · exact Or.inl ⟨z, rfl⟩
  · exact Or.inr ⟨_, rfl⟩

end Params
end Verif
