import Verif.Model.Quantile

/-!
# Specification vocabulary for C16: what was put into a summary
-/

set_option autoImplicit false

namespace Verif
open Quantile
namespace Spec

/-- The configuration a program's summary was created with. -/
def cfgOf : Prog → Config
  | .new cfg => cfg
  | .insert p _ => cfgOf p
  | .compress p => cfgOf p
  | .merge p _ => cfgOf p
  | .query p => cfgOf p

/-- All observations a program inserted (abnormal values are to be ignored), including those
of the summaries merged in. -/
def inserted : Prog → List Rat
  | .new _ => []
  | .insert p x => if x ∈ (cfgOf p).abnormal then inserted p else inserted p ++ [x]
  | .compress p => inserted p
  | .merge p o => inserted p ++ inserted o
  | .query p => inserted p

/-- Total weight of a summary: what its samples stand for, plus the values still buffered. -/
def weight (q : QS) : Nat := (q.sampled.map Stat.g).sum + q.head.length

/-- Programs for which the buffer is never flushed below an already stored sample: each
inserted value is at least as large as all values so far, unless nothing has been moved out
of the buffer yet. -/
def Tame : Prog → Prop
  | .new _ => True
  | .insert p x => Tame p ∧
      (x ∈ (cfgOf p).abnormal ∨ p.eval.sampled = [] ∨ ∀ y ∈ inserted p, y ≤ x)
  | .compress p => Tame p
  | .merge p o => Tame p ∧ Tame o
  | .query p => Tame p

end Spec
end Verif
