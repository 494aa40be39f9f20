import Verif.Model.Paillier
import Mathlib.RingTheory.Coprime.Basic

/-!
# Specification vocabulary for C11
-/

set_option autoImplicit false

namespace Verif
open Paillier

namespace Spec

/-- Trees of ciphertext operations with their scalars and random draws. -/
inductive Expr where
  | enc (s : FP.Scalar) (randomValue : Option Int) (draw : Int)
  | obfuscate (e : Expr) (draw : Int)
  | add (a b : Expr)
  | addScalar (a : Expr) (s : FP.Scalar)
  | sub (a b : Expr)
  | subScalar (a : Expr) (s : FP.Scalar)
  | rsubScalar (s : FP.Scalar) (a : Expr)
  | mulScalar (a : Expr) (s : FP.Scalar)

/-- Evaluate with the library. -/
def Expr.run (k : PubKey) : Expr → Except PyErr EncNum
  | enc s rv d => encrypt k s rv d
  | obfuscate a d => do let x ← a.run k; .ok (x.obfuscate d)
  | add a b => do let x ← a.run k; let y ← b.run k; Paillier.add x y
  | addScalar a s => do let x ← a.run k; Paillier.addScalar x s
  | sub a b => do let x ← a.run k; let y ← b.run k; Paillier.sub x y
  | subScalar a s => do let x ← a.run k; Paillier.subScalar x s
  | rsubScalar s a => do let x ← a.run k; Paillier.rsubScalar s x
  | mulScalar a s => do let x ← a.run k; Paillier.mul x s

/-- The number (and exponent) a scalar is encoded to; `none` if the encoder rejects it. -/
def encoded (n : Int) (s : FP.Scalar) (minExp : Option Int) : Option (Rat × Int) :=
  match FP.encode s n (n / 3 - 1) minExp with
  | .error _ => none
  | .ok f => match FP.decode f with
    | .error _ => none
    | .ok t => some (t.val, f.exponent)

/-- Two exponents can be aligned: equal, or the scale factor is itself encodable. -/
def canAlign (n e1 e2 : Int) : Bool :=
  decide (e1 = e2) || decide ((16 : Int) ^ (max e1 e2 - min e1 e2).toNat ≤ n / 3 - 1)

/-- Sum of two plain values carrying exponents. -/
def plainAdd (n : Int) (x y : Rat × Int) : Option (Rat × Int) :=
  if canAlign n x.2 y.2 then some (x.1 + y.1, max x.2 y.2) else none

/-- Evaluate in exact arithmetic on the encoded scalars. -/
def Expr.plain (n : Int) : Expr → Option (Rat × Int)
  | enc s _ _ => encoded n s none
  | obfuscate a _ => a.plain n
  | add a b => do let x ← a.plain n; let y ← b.plain n; plainAdd n x y
  | addScalar a s => do let x ← a.plain n; let y ← encoded n s (some x.2); plainAdd n x y
  | sub a b => do let x ← a.plain n; let y ← b.plain n; plainAdd n x (-y.1, y.2)
  | subScalar a s => do let x ← a.plain n; let y ← encoded n s.neg (some x.2); plainAdd n x y
  | rsubScalar s a => do
      let x ← a.plain n; let y ← encoded n s (some x.2); plainAdd n (-x.1, x.2) y
  | mulScalar a s => do
      let x ← a.plain n; let y ← encoded n s none; some (x.1 * y.1, x.2 + y.2)

/-- All random values in the tree are coprime to the modulus. -/
def Expr.Usable (n : Int) : Expr → Prop
  | enc _ rv d => IsCoprime d n ∧ ∀ r, rv = some r → r ≠ 0 → IsCoprime r n
  | obfuscate a d => a.Usable n ∧ IsCoprime d n
  | add a b => a.Usable n ∧ b.Usable n
  | addScalar a _ => a.Usable n
  | sub a b => a.Usable n ∧ b.Usable n
  | subScalar a _ => a.Usable n
  | rsubScalar _ a => a.Usable n
  | mulScalar a _ => a.Usable n

end Spec

end Verif
