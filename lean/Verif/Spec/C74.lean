import Verif.Model.Numpy
import Verif.Spec.C24
import Mathlib.Order.WithBot

/-! # Specification vocabulary for split finding with infinities -/

set_option autoImplicit false

namespace Verif
namespace Spec

open DTree Histogram

/-- Rational numbers with infinities. -/
abbrev Ext := WithBot (WithTop Rat)

/-- A rational number. -/
def num (x : Rat) : Ext := ((x : WithTop Rat) : Ext)

/-- Plus infinity. -/
def infinity : Ext := ((⊤ : WithTop Rat) : Ext)

/-- The number a float stands for; none for NaN. -/
def extValue : Np → Option Ext
  | .fin x => some (num x)
  | .inf false => some infinity
  | .inf true => some ⊥
  | .nan => none

/-- The outcome of a division of a nonnegative number. -/
inductive Score where
  | undefined
  | infinite
  | number (x : Rat)

/-- The score (gradient sum)² / (hessian sum + λ): infinite if only the denominator is zero,
undefined if both are. -/
def scoreExt (lam : Rat) (s : Rat × Rat) : Score :=
  if s.2 + lam = 0 then (if s.1 = 0 then .undefined else .infinite)
  else .number (s.1 ^ 2 / (s.2 + lam))

/-- The gain of a split: scores of the sides minus score of the node, undefined if a score is or
if it would be infinity minus infinity. -/
def gainExt (lam : Rat) (node left : Rat × Rat) : Option Ext :=
  match scoreExt lam left, scoreExt lam (node.1 - left.1, node.2 - left.2), scoreExt lam node with
  | .undefined, _, _ => none
  | _, .undefined, _ => none
  | _, _, .undefined => none
  | .number a, .number b, .number c => some (num (a + b - c))
  | .number _, .number _, .infinite => some ⊥
  | _, _, .number _ => some infinity
  | _, _, .infinite => none

/-- `s` reports the best of the splits `offered f b left` of a node: the largest defined gain above
`minImp`, among equals the lowest feature and then the lowest bin; or no feature if no defined gain
is above `minImp`. -/
def IsBestExt (lam minImp : Rat) (node : Rat × Rat) (offered : Nat → Nat → Rat × Rat → Prop)
    (s : SplitInfo (Option Np) Np) : Prop :=
  (s.fid = none ∧ s.bid = none ∧ ∀ f b l v, offered f b l → gainExt lam node l = some v → v ≤ num minImp) ∨
  ∃ (f b : Nat) (l : Rat × Rat) (g : Ext), s.fid = some f ∧ s.bid = some b ∧
    s.sumGrad = some (.fin l.1) ∧ s.sumHess = some (.fin l.2) ∧ extValue s.gain = some g ∧
    gainExt lam node l = some g ∧ offered f b l ∧ num minImp < g ∧
    ∀ f' b' l' v, offered f' b' l' → gainExt lam node l' = some v → v ≤ g ∧
      (v = g → f < f' ∨ (f = f' ∧ b ≤ b'))

/-- A histogram of finite numbers as one of floats. -/
def finHist (hist : List (List (HCell Rat))) : List (List (HCell Np)) :=
  hist.map (List.map fun c => (.fin c.1, .fin c.2.1, c.2.2))

end Spec
end Verif
