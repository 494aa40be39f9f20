import Verif.Props.C80

/-!
# C80, settings that were never checked

A tree object can be given settings without `check`.  Then truth values and missing criteria reach the
message, too, and are stored as numbers and as nothing.
-/

set_option autoImplicit false

namespace Verif
namespace Spec

open Params

/-- The value `v` is stored as the whole number `w`: a number within 32 bits, or a truth value. -/
def StoredInt (v : PyVal) (w : Int) : Prop :=
  (v = .int w ∧ -2 ^ 31 ≤ w ∧ w < 2 ^ 31) ∨ (v = .bool true ∧ w = 1) ∨ (v = .bool false ∧ w = 0)

/-- The value `v` is stored as the text `s`; nothing is stored as the empty text. -/
def StoredText (v : PyVal) (s : String) : Prop := v = .str s ∨ (v = .none ∧ s = "")

/-- A value that can be stored as a sequence of floats: a list of numbers, or nothing. -/
def FloatList (v : PyVal) : Prop := v = .none ∨ ∃ ps, v = .list ps ∧ ∀ p ∈ ps, HasFloat p

end Spec

open Params Meta Spec DTree

variable {rnd : Int → Rat}

private theorem toInt32_stored {v : PyVal} {w : Int} : toInt32 v = .ok w ↔ StoredInt v w := by
  cases v with
  | int z =>
    simp only [toInt32, int32_ok, StoredInt, PyVal.int.injEq, reduceCtorEq, false_and, or_false]
    constructor
    · rintro ⟨rfl, h⟩; exact ⟨rfl, h⟩
    · rintro ⟨rfl, h⟩; exact ⟨rfl, h⟩
  | bool b => cases b <;> simp [toInt32, StoredInt, eq_comm]
  | none | flt _ | str _ | list _ | dict _ => simp [toInt32, StoredInt]

private theorem toText_stored {v : PyVal} {s : String} : toText v = .ok s ↔ StoredText v s := by
  cases v <;> simp [toText, StoredText, eq_comm]

private theorem toDoubles_stored {v : PyVal} : (∃ ps, toDoubles rnd v = .ok ps) ↔ FloatList v := by
  cases v with
  | list xs =>
    simp only [toDoubles, evalList_ok, FloatList, PyVal.list.injEq, exists_eq_left', reduceCtorEq, false_or]
    exact forall₂_congr fun _ _ => toDouble_ok
  | none => simp [toDoubles, FloatList]
  | int _ | flt _ | str _ | bool _ | dict _ => simp [toDoubles, FloatList]

/-- **Any settings.**  The guest can store settings, checked or not, exactly if the three whole-number
limits are numbers within 32 bits or truth values, the impurity is a number with a float, the criterion is
a string or missing, and its parameters are a list of such numbers or missing.  The message then has these
limits, this criterion, and no parameters for missing ones. -/
theorem C80_any (t : DecisionTree) :
    ((∃ m, guestMeta rnd t = .ok m) ↔ (∃ a, StoredInt t.maxDepth a) ∧ (∃ b, StoredInt t.minSampleSplit b) ∧
      (∃ c, StoredInt t.minLeafNode c) ∧ HasFloat t.minImpuritySplit ∧ (∃ s, StoredText t.criterionMethod s) ∧
      FloatList t.criterionParams) ∧
    ∀ m, guestMeta rnd t = .ok m → StoredInt t.maxDepth m.maxDepth ∧ StoredInt t.minSampleSplit m.minSampleSplit ∧
      StoredInt t.minLeafNode m.minLeafNode ∧ StoredText t.criterionMethod m.method ∧
      (t.criterionParams = .none → m.params = []) := by
  constructor
  · constructor
    · rintro ⟨m, h⟩
      obtain ⟨s, ps, h1, h2, h3⟩ := guestMeta_ok.1 h
      obtain ⟨_, _, k1, k2, k3, k4⟩ := limits_ok.1 h3
      exact ⟨⟨_, toInt32_stored.1 k1⟩, ⟨_, toInt32_stored.1 k2⟩, ⟨_, toInt32_stored.1 k4⟩, toDouble_ok.1 ⟨_, k3⟩,
        ⟨s, toText_stored.1 h1⟩, toDoubles_stored.1 ⟨ps, h2⟩⟩
    · rintro ⟨⟨a, ha⟩, ⟨b, hb⟩, ⟨c, hc⟩, hi, ⟨s, hs⟩, hp⟩
      obtain ⟨i, hi⟩ := (toDouble_ok (rnd := rnd)).2 hi
      obtain ⟨ps, hp⟩ := (toDoubles_stored (rnd := rnd)).2 hp
      exact ⟨⟨s, ps, a, b, i, c⟩, guestMeta_ok.2 ⟨s, ps, toText_stored.2 hs, hp, limits_ok.2
        ⟨rfl, rfl, toInt32_stored.2 ha, toInt32_stored.2 hb, hi, toInt32_stored.2 hc⟩⟩⟩
  · intro m h
    obtain ⟨s, ps, h1, h2, h3⟩ := guestMeta_ok.1 h
    obtain ⟨e1, e2, k1, k2, k3, k4⟩ := limits_ok.1 h3
    refine ⟨toInt32_stored.1 k1, toInt32_stored.1 k2, toInt32_stored.1 k4, e1 ▸ toText_stored.1 h1, fun hn => ?_⟩
    rw [hn] at h2
    cases h2
    exact e2

/-- **A host stores no criterion**, whatever its own settings name: only the limits decide whether the
message exists, and its criterion is empty. -/
theorem C80_host (t : DecisionTree) :
    ((∃ m, hostMeta rnd t = .ok m) ↔ (∃ a, StoredInt t.maxDepth a) ∧ (∃ b, StoredInt t.minSampleSplit b) ∧
      (∃ c, StoredInt t.minLeafNode c) ∧ HasFloat t.minImpuritySplit) ∧
    ∀ m, hostMeta rnd t = .ok m → m.method = "" ∧ m.params = [] := by
  constructor
  · constructor
    · rintro ⟨m, h⟩
      obtain ⟨_, _, k1, k2, k3, k4⟩ := limits_ok.1 h
      exact ⟨⟨_, toInt32_stored.1 k1⟩, ⟨_, toInt32_stored.1 k2⟩, ⟨_, toInt32_stored.1 k4⟩, toDouble_ok.1 ⟨_, k3⟩⟩
    · rintro ⟨⟨a, ha⟩, ⟨b, hb⟩, ⟨c, hc⟩, hi⟩
      obtain ⟨i, hi⟩ := (toDouble_ok (rnd := rnd)).2 hi
      exact ⟨⟨"", [], a, b, i, c⟩, limits_ok.2
        ⟨rfl, rfl, toInt32_stored.2 ha, toInt32_stored.2 hb, hi, toInt32_stored.2 hc⟩⟩
  · intro m h
    obtain ⟨e1, e2, _⟩ := limits_ok.1 h
    exact ⟨e1, e2⟩

/-- Settings that no check has seen, with a truth value for a limit and no criterion. -/
example : guestMeta (fun z => z) ⟨.none, .none, .bool true, .int 2, .flt (.fin 3), .int 1, .none, .none, .none, .none⟩ =
    .ok ⟨"", [], 1, 2, .fin 3, 1⟩ := by
  simp [guestMeta, toText, toDoubles, toDouble, limits, toInt32, int32, bind, Except.bind, pure, Except.pure]

/-- A host stores its limits beside a criterion that the guest could not store. -/
example : hostMeta (fun z => z) ⟨.int 1, .none, .int 4, .int 2, .flt (.fin 3), .int 1, .none, .none, .none, .none⟩ =
    .ok ⟨"", [], 4, 2, .fin 3, 1⟩ := by
  simp [hostMeta, toDouble, limits, toInt32, int32, bind, Except.bind, pure, Except.pure]

/-- A criterion that is a number cannot be stored. -/
example : ¬ ∃ m, guestMeta (fun z => z) ⟨.int 1, .none, .int 1, .int 2, .int 3, .int 1, .none, .none, .none, .none⟩ = .ok m := by
  intro h
  obtain ⟨s, h⟩ := ((C80_any _).1.1 h).2.2.2.2.1
  rcases h with h | ⟨h, _⟩ <;> cases h

end Verif
