import Verif.Model.EncryptMode

/-!
# Specification vocabulary for C15
-/

set_option autoImplicit false

namespace Verif
open EncryptMode

namespace Spec
variable {K C : Type} [DecidableEq K]

/-- The encrypted table decrypts, record by record and number by number, to the plain table
within `δ`; both hold the same records. -/
def DecryptsTo (dec : C → Rat) (δ : Rat) (e : DTable K (List C)) (d : DTable K (List Rat)) : Prop :=
  ∀ k, match e.data.get? k, d.data.get? k with
    | some cs, some vs => List.Forall₂ (fun c v => |dec c - v| ≤ δ) cs vs
    | none, none => True
    | _, _ => False

/-- The cipher's accuracy: `ε₀` for encrypting, `ε₁` for adding a plain number to a
ciphertext, `ε₂` for the subtraction of plain numbers (all 0 for exact arithmetic). -/
structure Accurate (dec : C → Rat) (sub : Rat → Rat → Rat) (addS : Rat → C → C)
    (calls : List (Call K C)) (ε₀ ε₁ ε₂ : Rat) : Prop where
  enc : ∀ c ∈ calls, ∀ k i v, |dec (c.enc k i v) - v| ≤ ε₀
  addS : ∀ d c, |dec (addS d c) - (d + dec c)| ≤ ε₁
  sub : ∀ a b, |sub a b - (a - b)| ≤ ε₂

/-- Every record of `t` is also in `t'`, with the same number of entries. -/
def SameShape (t t' : DTable K (List Rat)) : Prop :=
  ∀ k vs, t.data.get? k = some vs → ∃ ws, t'.data.get? k = some ws ∧ ws.length = vs.length

/-- Each table of the history only holds records of the table before it. -/
def Nested : List (Call K C) → Prop
  | [] => True
  | [_] => True
  | a :: b :: cs => SameShape b.input a.input ∧ Nested (b :: cs)

end Spec
end Verif
