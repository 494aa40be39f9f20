import Verif.Model.DTable
import Mathlib.Algebra.Order.Ring.Rat

/-!
# Model of `ml/secureprotol/encrypt_mode.py`

A record is a list of numbers (the ndarray / iterable branches of `encrypt_row`,
`get_differance` and `add_differance` coincide on lists; the single-value branch is the
list of length one).  The cipher is abstract: `enc` encrypts one number of one record
(its randomness may depend on record and position and differs from call to call), `addS`
is `diff + ciphertext`, and `sub` is the float subtraction used for the difference.
`rubbish_clear` calls a method `destroy` that `DTable` does not have and swallows the
exception: no effect.
-/

set_option autoImplicit false

namespace Verif
namespace EncryptMode

variable {K C : Type} [DecidableEq K]

inductive Mode where
  | strict | fast | balance | other
deriving DecidableEq, Repr

/-- `encrypt_mode.py` 40-45 (`prev_data`, `prev_encrypted_data`). -/
structure State (K C : Type) where
  mode : Mode
  rate : Rat
  prev : Option (DTable K (List Rat) × DTable K (List C))

/-- `encrypt_mode.py` 40-45. -/
def State.init (mode : Mode) (rate : Rat) : State K C := ⟨mode, rate, none⟩

/-- `encrypt_mode.py` 47-53. -/
def encryptRow (enc : K → Nat → Rat → C) (k : K) (row : List Rat) : List C :=
  row.mapIdx fun i v => enc k i v

/-- `encrypt_mode.py` 96-119. -/
def getDifference (sub : Rat → Rat → Rat) (newRow oldRow : List Rat) : List Rat :=
  (newRow.zip oldRow).map fun p => sub p.1 p.2

/-- `encrypt_mode.py` 121-144. -/
def addDifference (addS : Rat → C → C) (diff : List Rat) (encrypted : List C) : List C :=
  (diff.zip encrypted).map fun p => addS p.1 p.2

/-- `encrypt_mode.py` 72-73: re-encrypt everything? -/
def reEncrypt (s : State K C) (draw : Rat) : Bool :=
  s.prev.isNone || s.mode = .strict || (s.mode = .balance && draw ≤ s.rate + 1 / 10 ^ 6)

/-- `encrypt_mode.py` 58-94. -/
def encrypt (sub : Rat → Rat → Rat) (addS : Rat → C → C) (enc : K → Nat → Rat → C) (draw : Rat)
    (s : State K C) (input : DTable K (List Rat)) :
    Except PyErr (DTable K (List C) × State K C) := do
  let newData ←
    if reEncrypt s draw then input.map (encryptRow enc)
    else match s.prev with
      | none => input.map (encryptRow enc)   -- unreachable
      | some (prevData, prevEnc) => do
        let diff ← input.join prevData (getDifference sub)
        diff.join prevEnc (addDifference addS)
  let prevData ← input.mapValues id
  let prevEnc ← newData.mapValues id
  .ok (newData, { s with prev := some (prevData, prevEnc) })

/-- One call: the input table, the encryption function in force and the random draw. -/
structure Call (K C : Type) where
  input : DTable K (List Rat)
  enc : K → Nat → Rat → C
  draw : Rat

/-- A history of calls on one calculator; returns all outputs. -/
def runAll (sub : Rat → Rat → Rat) (addS : Rat → C → C) :
    State K C → List (Call K C) → Except PyErr (List (DTable K (List C)))
  | _, [] => .ok []
  | s, c :: cs => do
    let (out, s') ← encrypt sub addS c.enc c.draw s c.input
    let outs ← runAll sub addS s' cs
    .ok (out :: outs)

end EncryptMode
end Verif
