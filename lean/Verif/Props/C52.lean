import Verif.Lemmas.DTable
import Verif.Spec.C52

/-!
# C52 – grouping by key combines all values of a key
-/

set_option autoImplicit false
set_option linter.unusedSectionVars false

namespace Verif
variable {K L V W : Type*} [DecidableEq K] [DecidableEq L]


open Spec

private theorem loop_wf (r : W → W → W) : ∀ (kvs : List (L × W)) (acc : Dict L W), acc.WF →
    (DTable.reduceByKey r acc kvs).WF
  | [], acc, h => h
  | (k, v) :: rest, acc, h => by
    unfold DTable.reduceByKey
    split
    · exact loop_wf r rest _ (h.set k v)
    · exact loop_wf r rest _ (h.set k _)

private theorem loop_get (r : W → W → W) (k : L) : ∀ (kvs : List (L × W)) (acc : Dict L W),
    Dict.get? (DTable.reduceByKey r acc kvs) k = match acc.get? k with
      | none => combined r (valuesOf kvs k)
      | some x => some ((valuesOf kvs k).foldl r x)
  | [], acc => by
    unfold DTable.reduceByKey valuesOf
    cases Dict.get? acc k <;> rfl
  | (k', v) :: rest, acc => by
    unfold DTable.reduceByKey
    by_cases hk : k' = k
    · subst hk
      have e : valuesOf ((k', v) :: rest) k' = v :: valuesOf rest k' := by
        simp [valuesOf]
      rw [e]
      cases h : acc.get? k' with
      | none =>
        simp only
        rw [loop_get r k' rest, Dict.get?_set, if_pos rfl]
        rfl
      | some old =>
        simp only
        rw [loop_get r k' rest, Dict.get?_set, if_pos rfl]
        rfl
    · have e : valuesOf ((k', v) :: rest) k = valuesOf rest k := by
        simp [valuesOf, hk]
      rw [e]
      split
      · rw [loop_get r k rest, Dict.get?_set, if_neg hk]
      · rw [loop_get r k rest, Dict.get?_set, if_neg hk]

/-- `mapReducePartitions(mapper, reducer)` always succeeds and gives, for every key, the
combination of all values the mapper has produced for it, in order; no key appears twice, and no
key appears that the mapper has not produced. -/
theorem C52_group (t : DTable K V) (mapper : List (K × V) → List (L × W)) (r : W → W → W) :
    ∃ T, t.mapReducePartitions mapper r = .ok T ∧ T.WF ∧
      ∀ k, T.data.get? k = combined r (valuesOf (mapper t.collect) k) := by
  have hwf := loop_wf r (mapper t.data) [] (by simp [Dict.WF, Dict.keys])
  refine ⟨⟨DTable.reduceByKey r [] (mapper t.data)⟩, ?_, hwf, fun k => ?_⟩
  · unfold DTable.mapReducePartitions
    exact DTable.ofPairs_ok hwf
  · exact loop_get r k (mapper t.data) []

example : (⟨[(1, 10), (2, 21), (3, 30)]⟩ : DTable Nat Nat).mapReducePartitions
    (fun kvs => kvs.map fun p => (p.2 % 2, p.1)) (· + ·) = .ok ⟨[(0, 4), (1, 2)]⟩ := by decide

end Verif
