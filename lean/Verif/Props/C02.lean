import Verif.Lemmas.DTable

/-!
# C02 – join, union and subtraction are the finite-map operations

Specifications are written with `Option` values of lookups only.
-/

set_option autoImplicit false

namespace Verif
variable {K V W X : Type*} [DecidableEq K]

/-- What a join must return for one key. -/
def Spec.join (f : V → W → X) : Option V → Option W → Option X
  | some v, some w => some (f v w)
  | _, _ => none

/-- What a union must return for one key. -/
def Spec.union (f : V → V → V) : Option V → Option V → Option V
  | some v, some w => some (f v w)
  | some v, none => some v
  | none, o => o

/-- What a subtraction must return for one key. -/
def Spec.subtract : Option V → Option W → Option V
  | some v, none => some v
  | _, _ => none

/-- `a.join(b, f)` never fails, holds `f(a[k], b[k])` for the common keys and
nothing else, in the record order of `b`. -/
theorem C02_join (a : DTable K V) (b : DTable K W) (hb : b.WF) (f : V → W → X) :
    ∃ r, a.join b f = .ok r ∧ r.WF ∧
      (∀ k, r.data.get? k = Spec.join f (a.data.get? k) (b.data.get? k)) ∧
      r.data.keys = b.data.keys.filter (fun k => decide (k ∈ a.data.keys)) := by
  refine ⟨_, DTable.join_ok a hb f, DTable.joinLoop_WF _ _ hb, ?_, ?_⟩
  · intro k
    rw [DTable.joinLoop_get?]
    cases a.data.get? k <;> cases b.data.get? k <;> rfl
  · rw [DTable.joinLoop_keys]
    apply List.filter_congr
    intro k _
    rw [Bool.eq_iff_iff, Dict.has_iff]; simp

example : (⟨[(1, 10), (2, 20)]⟩ : DTable Nat Nat).join ⟨[(2, 5), (3, 6), (1, 7)]⟩ (· + ·)
    = .ok ⟨[(2, 25), (1, 17)]⟩ := by decide
example : (⟨[(2, 5), (3, 6), (1, 7)]⟩ : DTable Nat Nat).WF := by
  unfold DTable.WF Dict.WF; decide

/-- `a.union(b, f)` never fails; common keys hold `f(a[k], b[k])`, the others keep
their only value; order is that of `a`, then the new keys of `b`. -/
theorem C02_union (a b : DTable K V) (ha : a.WF) (hb : b.WF) (f : V → V → V) :
    ∃ r, a.union b f = .ok r ∧ r.WF ∧
      (∀ k, r.data.get? k = Spec.union f (a.data.get? k) (b.data.get? k)) ∧
      r.data.keys = a.data.keys ++ b.data.keys.filter (fun k => decide (k ∉ a.data.keys)) := by
  refine ⟨_, DTable.union_ok ha b f, DTable.unionLoop_WF f ha _, ?_, ?_⟩
  · intro k
    rw [DTable.unionLoop_get? f a.data hb]
    cases a.data.get? k <;> cases b.data.get? k <;> rfl
  · rw [DTable.unionLoop_keys f a.data hb]
    congr 1
    apply List.filter_congr
    intro k _
    rw [Bool.eq_iff_iff]
    simp only [Bool.not_eq_true', decide_eq_true_eq]
    exact Dict.has_false_iff _ _

example : (⟨[(1, 10), (2, 20)]⟩ : DTable Nat Nat).union ⟨[(2, 5), (3, 6)]⟩ (· - ·)
    = .ok ⟨[(1, 10), (2, 15), (3, 6)]⟩ := by decide

/-- The default combining function of `union` and `join` keeps the first table's value. -/
theorem C02_union_default (a b : DTable K V) (ha : a.WF) (hb : b.WF) (k : K) (v : V)
    (hk : a.data.get? k = some v) :
    ∃ r, a.union b = .ok r ∧ r.data.get? k = some v := by
  obtain ⟨r, hr, _, hget, _⟩ := C02_union a b ha hb (fun v _ => v)
  refine ⟨r, hr, ?_⟩
  rw [hget, hk]
  cases b.data.get? k <;> rfl

/-- `a.subtractByKey(b)` never fails and keeps exactly the records of `a` whose key
is not in `b`, in the order of `a`. -/
theorem C02_subtract (a : DTable K V) (b : DTable K W) (ha : a.WF) :
    ∃ r, a.subtractByKey b = .ok r ∧ r.WF ∧
      (∀ k, r.data.get? k = Spec.subtract (a.data.get? k) (b.data.get? k)) ∧
      r.data.Sublist a.data ∧
      r.data.keys = a.data.keys.filter (fun k => decide (k ∉ b.data.keys)) := by
  refine ⟨_, DTable.subtractByKey_ok ha b, Dict.WF.filter ha _, ?_, List.filter_sublist, ?_⟩
  · intro k
    rw [Dict.get?_filter_key (fun k => !(b.data.has k))]
    unfold Dict.has
    cases a.data.get? k <;> cases b.data.get? k <;> simp [Spec.subtract]
  · unfold Dict.keys
    rw [List.filter_map]
    congr 1
    apply List.filter_congr
    intro p _
    rw [Bool.eq_iff_iff]
    simp only [Bool.not_eq_true', Function.comp, decide_eq_true_eq]
    exact Dict.has_false_iff _ _

example : (⟨[(1, 10), (2, 20), (3, 30)]⟩ : DTable Nat Nat).subtractByKey
    (⟨[(2, 'x')]⟩ : DTable Nat Char) = .ok ⟨[(1, 10), (3, 30)]⟩ := by decide

/-- Operations chain: starting from constructor-built tables every result is again
duplicate-free, so no chain of table operations ever hits the duplicate-key error. -/
theorem C02_closed (a b : DTable K V) (ha : a.WF) (hb : b.WF) (f : V → V → V)
    (g : K → V → Bool) (m : V → V) :
    (∃ r, a.join b f = .ok r ∧ r.WF) ∧ (∃ r, a.union b f = .ok r ∧ r.WF) ∧
    (∃ r, a.subtractByKey b = .ok r ∧ r.WF) ∧ (∃ r, a.filter g = .ok r ∧ r.WF) ∧
    (∃ r, a.mapValues m = .ok r ∧ r.WF) := by
  refine ⟨?_, ?_, ?_, ?_, ?_⟩
  · obtain ⟨r, h, w, _⟩ := C02_join a b hb f; exact ⟨r, h, w⟩
  · obtain ⟨r, h, w, _⟩ := C02_union a b ha hb f; exact ⟨r, h, w⟩
  · obtain ⟨r, h, w, _⟩ := C02_subtract a b ha; exact ⟨r, h, w⟩
  · exact ⟨_, DTable.filter_ok ha g, Dict.WF.filter ha _⟩
  · refine ⟨_, DTable.mapValues_ok ha m, ?_⟩
    have : Dict.keys (a.data.map fun p => (p.1, m p.2)) = a.data.keys :=
      Dict.keys_map (fun _ v => m v) a.data
    unfold DTable.WF Dict.WF; rw [this]; exact ha

end Verif
