import Verif.Model.Affine

/-!
# Specification vocabulary for C14
-/

set_option autoImplicit false

namespace Verif
open Affine

namespace Spec

/-- Linear combinations built with the cipher's operators. -/
inductive AExpr where
  | enc (m : Int)
  | add (x y : AExpr)
  | zeroAdd (x : AExpr)
  | sub (x y : AExpr)
  | mul (x : AExpr) (z : Int)

/-- Evaluated with the library. -/
def AExpr.run (k : Key) : AExpr → Except PyErr Ct
  | enc m => .ok (rawEncrypt k m)
  | add x y => do let a ← x.run k; let b ← y.run k; Affine.add a (.ct b)
  | zeroAdd x => do let a ← x.run k; Affine.add a (.int 0)
  | sub x y => do let a ← x.run k; let b ← y.run k; Affine.sub a b
  | mul x z => do let a ← x.run k; .ok (Affine.mulInt a z)

/-- Evaluated on the integers. -/
def AExpr.plain : AExpr → Int
  | enc m => m
  | add x y => x.plain + y.plain
  | zeroAdd x => x.plain
  | sub x y => x.plain - y.plain
  | mul x z => x.plain * z

/-- The representable window: more than a tenth of the modulus below zero, up to nine
tenths above. -/
def InWindow (n v : Int) : Prop := -n < 10 * v ∧ 10 * v ≤ 9 * n

end Spec
end Verif
