import Verif.Spec.C81

/-! # Specification vocabulary for columns with other values in the same order -/

set_option autoImplicit false

namespace Verif
namespace Spec

open DTree

variable {K : Type} [DecidableEq K] {α L : Type}

/-- The same samples in the same order, with rows of the same lengths. -/
def SameLayout (t u : DTable K (List Rat)) : Prop :=
  t.data.map (fun p => (p.1, p.2.length)) = u.data.map fun p => (p.1, p.2.length)

/-- `x` and `y` are the values in column `f` of the records at the same place of the tables. -/
def PairIn (t u : DTable K (List Rat)) (f : Nat) (x y : Rat) : Prop :=
  ∃ (i : Nat) (p q : K × List Rat), t.data[i]? = some p ∧ u.data[i]? = some q ∧ x = value p.2 f ∧ y = value q.2 f

/-- Corresponding values of column `f`: of a training sample, of a new sample, or zero in both (which
stands for values that are not stored). -/
def PairOf (rows rows' new new' : DTable K (List Rat)) (f : Nat) (x y : Rat) : Prop :=
  (x = 0 ∧ y = 0) ∨ PairIn rows rows' f x y ∨ PairIn new new' f x y

/-- In every column, corresponding values compare in the same way. -/
def SameOrder (rows rows' new new' : DTable K (List Rat)) : Prop :=
  ∀ f x y x' y', PairOf rows rows' new new' f x y → PairOf rows rows' new new' f x' y' → (x ≤ x' ↔ y ≤ y')

/-- `P` and `P'` are the same party, prepared with the same settings (and no values marked as abnormal)
from tables in the same order. -/
def Recoded (P P' : Party K) (rows rows' new new' : DTable K (List Rat)) : Prop :=
  P'.idx = P.idx ∧ P'.valid = P.valid ∧ SameLayout rows rows' ∧ SameLayout new new' ∧ SameOrder rows rows' new new' ∧
  ∃ (cfg : Quantile.Config) (binNum : Nat) (header : List String), cfg.abnormal = [] ∧ header.Nodup ∧
    (∀ p ∈ rows.data, p.2.length ≤ header.length) ∧
    Binning.prepare cfg binNum header rows = .ok (P.data, P.splits, P.sparse) ∧
    Binning.prepare cfg binNum header rows' = .ok (P'.data, P'.splits, P'.sparse)

/-- A party, prepared without abnormal values from the rows. -/
def PreparedFrom (P : Party K) (rows : DTable K (List Rat)) : Prop :=
  ∃ (cfg : Quantile.Config) (binNum : Nat) (header : List String), cfg.abnormal = [] ∧ header.Nodup ∧
    (∀ p ∈ rows.data, p.2.length ≤ header.length) ∧ Binning.prepare cfg binNum header rows = .ok (P.data, P.splits, P.sparse)

/-- Two inputs of tree training that are the same but for the values of the columns. -/
def RecodedSetup (S : Setup K α) (rows new : Option Nat → DTable K (List Rat)) (S' : Setup K α)
    (rows' new' : Option Nat → DTable K (List Rat)) : Prop :=
  (∃ guest hosts, S' = { S with guest := guest, hosts := hosts }) ∧ S'.hosts.length = S.hosts.length ∧
  ∀ j P P', partyAt S j = some P → partyAt S' j = some P' → Recoded P P' (rows j) (rows' j) (new j) (new' j)

/-- Two runs that are the same but for the values of the columns. -/
def RecodedRun (B : Boost K α L) (rows new : Option Nat → DTable K (List Rat)) (B' : Boost K α L)
    (rows' new' : Option Nat → DTable K (List Rat)) : Prop :=
  (∃ base, B' = { B with base := base }) ∧ RecodedSetup B.base rows new B'.base rows' new'

/-- A change of scale: strictly increasing, and zero stays zero. -/
structure Scale (φ : Rat → Rat) : Prop where
  increasing : ∀ x y, x < y → φ x < φ y
  zero : φ 0 = 0

/-- The same values of the table count as zero before and after. -/
def Visible (φ : Nat → Rat → Rat) (t : DTable K (List Rat)) : Prop :=
  ∀ p ∈ t.data, ∀ (f : Nat) x, p.2[f]? = some x → (|φ f x| < 1 / 10 ^ 6 ↔ |x| < 1 / 10 ^ 6)

/-- The table with `φ f` applied to column `f`. -/
def rescale (φ : Nat → Rat → Rat) (t : DTable K (List Rat)) : DTable K (List Rat) :=
  ⟨t.data.map fun p => (p.1, p.2.mapIdx φ)⟩

end Spec
end Verif
