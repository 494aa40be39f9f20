import Verif.Lemmas.C16

/-!
# C16 – a quantile summary accounts for every inserted value

Sortedness, provenance of the samples and the counter are right for every program of
insertions, compressions, merges and queries.  The stored weights are right for programs
that never flush the buffer below an already stored sample (`Tame`); in general they are
only an under-count: `_insert_head_buffer` forgets the stored samples that are larger than
everything in the buffer (`C16_weight_refuted`).
-/

set_option autoImplicit false

namespace Verif
open Quantile Spec

/-- Samples are sorted, whatever was called. -/
theorem C16_sorted (p : Prog) : p.eval.sampled.Pairwise (fun a b => a.value ≤ b.value) :=
  (inv16_eval p).sorted

/-- Every sample (and every buffered value) is one of the inserted values. -/
theorem C16_samples_inserted (p : Prog) :
    (∀ s ∈ p.eval.sampled, s.value ∈ inserted p) ∧ ∀ x ∈ p.eval.head, x ∈ inserted p :=
  ⟨(inv16_eval p).mem, (inv16_eval p).headMem⟩

/-- The counter plus the buffered values is the number of inserted values. -/
theorem C16_count (p : Prog) : p.eval.count + p.eval.head.length = (inserted p).length :=
  (inv16_eval p).count

/-- The weight never exceeds the number of inserted values, and a non-empty summary has
at least one sample. -/
theorem C16_weight_bound (p : Prog) :
    weight p.eval ≤ (inserted p).length ∧ (p.eval.sampled = [] → p.eval.head.length = (inserted p).length) := by
  have h := inv16_eval p
  refine ⟨?_, fun h0 => ?_⟩
  · have h1 := h.le; have h2 := h.count
    unfold weight
    unfold gsum at h1
    omega
  · have := h.ne.mp h0; have := h.count; omega

/-- **Weights add up to the number of inserted values** – partial: for tame programs (in
particular when the values fit into one buffer, or arrive in increasing order, with any
compressions, merges and queries in between). -/
theorem C16_weight_partial (p : Prog) (h : Tame p) : weight p.eval = (inserted p).length := by
  have h1 := (full16_eval p h).eq
  have h2 := (inv16_eval p).count
  unfold weight
  unfold gsum at h1
  omega

/-- The unrestricted claim fails: after inserting 5 and then 3 with a buffer of one value
the sample 5 is lost. -/
theorem C16_weight_refuted :
    let p := Prog.insert (.insert (.new ⟨10, 1, 1 / 1000, []⟩) 5) 3
    inserted p = [5, 3] ∧ weight p.eval = 1 ∧ p.eval.sampled.map Stat.value = [3] := by
  decide +kernel

/-- A tame program with several flushes, a compression and a merge. -/
example :
    let p := Prog.merge (.insert (.insert (.compress (.insert (.insert (.insert
      (.new ⟨10, 3, 1 / 4, [7]⟩) 5) 1) 5)) 6) 7)
      (.insert (.insert (.new ⟨10, 3, 1 / 4, []⟩) 2) 1)
    inserted p = [5, 1, 5, 6, 2, 1] ∧ weight p.eval = 6 ∧
      p.eval.sampled.map Stat.value ≠ [] := by
  decide +kernel

example : Tame (.insert (.compress (.insert (.insert (.new ⟨10, 3, 1 / 4, [7]⟩) 5) 1)) 6) := by
  refine ⟨⟨⟨trivial, Or.inr (Or.inl ?_)⟩, Or.inr (Or.inl ?_)⟩, Or.inr (Or.inr ?_)⟩ <;> decide +kernel

end Verif
