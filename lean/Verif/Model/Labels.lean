import Verif.Model.Boost
import Mathlib.Data.Sum.Order
import Mathlib.Data.List.Sort

/-!
# Labels

`ml/utils/classfiy_label_checker.py` 33-76, `check_label` 128-155 and `predict` 315-341 of
`ml/tree/hetero_secureboosting_tree_guest.py`, for classification.
-/

set_option autoImplicit false

namespace Verif

/-- A label: a Python `int`, a `float` (a rational here, no NaN), or a value of another totally
ordered type `T` that does not compare with numbers, such as `str`. -/
inductive Label (T : Type) where
  | int (z : Int)
  | flt (q : Rat)
  | str (s : T)
deriving DecidableEq, Repr

/-- What `==`, `hash` and `<` look at: `1 == 1.0`. -/
def Label.value {T : Type} : Label T → Rat ⊕ₗ T
  | .int z => toLex (.inl z)
  | .flt q => toLex (.inl q)
  | .str s => toLex (.inr s)

def Label.isNum {T : Type} : Label T → Bool
  | .str _ => false
  | _ => true

namespace Labels

open Histogram (getAt)

variable {K T : Type} [DecidableEq K] [LinearOrder T]

/-- `class_dict[label] = True`: an equal key that is present stays. -/
def addClass (cs : List (Label T)) (l : Label T) : List (Label T) :=
  if cs.any fun c => decide (c.value = l.value) then cs else cs ++ [l]

/-- `consts.MAX_CLASSNUM` -/
def maxClassNum : Nat := 1000

/-- `get_all_class`, 67-76: the keys of the dictionary. -/
def getAllClass (labels : List (Label T)) : Except PyErr (List (Label T)) :=
  let cs := labels.foldl addClass []
  if cs.length > maxClassNum then .error .valueError else .ok cs

/-- `validate_y`, 54-64: the table is one partition; its dictionary is merged into an empty one. -/
def validateY (y : DTable K (Label T)) : Except PyErr (Nat × List (Label T)) := do
  let part ← getAllClass y.data.values
  let cs := part.foldl addClass []
  if cs.length > maxClassNum then .error .valueError else pure (cs.length, cs)

/-- The loop 136-145 over `range_from_zero`, which is `True` (1) or `False` (0) in the comparison.
Comparing a string with 0 raises, the handler clears the flag and the loop goes on. -/
def rangeFromZero : Bool → List (Label T) → Bool
  | r, [] => r
  | r, .int z :: cs => if 0 ≤ z ∧ z < (if r then 1 else 0) then rangeFromZero r cs else false
  | _, .flt _ :: _ => false
  | _, .str _ :: cs => rangeFromZero false cs

/-- `sorted(self.classes_)`: raises when numbers are mixed with strings. -/
def sortClasses (cs : List (Label T)) : Except PyErr (List (Label T)) :=
  if cs.all Label.isNum || cs.all (fun c => !c.isNum) then
    .ok (cs.insertionSort fun a b => a.value ≤ b.value)
  else .error .typeError

/-- `class_mapping[_class]` for `class_mapping = dict(zip(classes, range(n)))`. -/
def classIndex (cs : List (Label T)) (l : Label T) : Except PyErr (Label T) :=
  match cs.findIdx? fun c => decide (c.value = l.value) with
  | some i => .ok (.int i)
  | none => .error .keyError

/-- What `check_label` stores: `num_classes`, `classes_`, `tree_dim`, the labels for training. -/
structure Checked (K T : Type) where
  num : Nat
  classes : List (Label T)
  dim : Nat
  y : DTable K (Label T)

/-- `check_label`, 128-149. -/
def checkLabel (y : DTable K (Label T)) : Except PyErr (Checked K T) := do
  let (num, cs) ← validateY y
  let dim := if num > 2 then num else 1
  let range := rangeFromZero true cs
  let cs ← sortClasses cs
  if range then pure ⟨num, cs, dim, y⟩
  else do
    let y ← y.mapValuesM (classIndex cs)
    pure ⟨num, cs, dim, y⟩

/-! ## Prediction -/

variable {P : Type} [LinearOrder P]

/-- The loop of `np.argmax`: next index, best index and best value so far. -/
def argmaxLoop : Nat → Nat → P → List P → Nat × P
  | _, b, m, [] => (b, m)
  | i, b, m, x :: xs => if m < x then argmaxLoop (i + 1) i x xs else argmaxLoop (i + 1) b m xs

/-- `np.argmax(preds)` and `np.max(preds)`. -/
def argmax : List P → Except PyErr (Nat × P)
  | [] => .error .valueError
  | x :: xs => .ok (argmaxLoop 1 0 x xs)

/-- A row of the result: given label, predicted label, score, and the dictionary of probabilities.
(Its keys are strings: the codes `"0"` and `"1"` for two classes, `str(label)` otherwise.) -/
structure Row (T P : Type) where
  given : Option (Label T)
  label : Label T
  score : P
  detail : List (Label T × P)
deriving DecidableEq

/-- 324, two classes. -/
def binaryRow [One P] [Sub P] (classes : List (Label T)) (threshold : P)
    (given : Option (Label T)) (p : P) : Except PyErr (Row T P) := do
  let l ← getAt classes (if p > threshold then 1 else 0)
  pure ⟨given, l, p, [(.int 0, 1 - p), (.int 1, p)]⟩

/-- 327-328, any other number of classes. -/
def multiRow (classes : List (Label T)) (given : Option (Label T)) (ps : List P) :
    Except PyErr (Row T P) := do
  let (i, m) ← argmax ps
  let l ← getAt classes i
  pure ⟨given, l, m, classes.zip ps⟩

/-- `float(loss_method.predict(f))` for two classes; `f` has one entry. -/
def binaryScore (sigmoid : Rat → P) : List Rat → Except PyErr P
  | [x] => .ok (sigmoid x)
  | _ => .error .valueError

/-- `predict` from the scores on, 318-328.  `sigmoid` and `softmax` are the score transforms. -/
def predictRows [One P] [Sub P] (sigmoid : Rat → P) (softmax : List Rat → List P) (num : Nat)
    (classes : List (Label T)) (threshold : P) (given : DTable K (Option (Label T)))
    (scores : DTable K (List Rat)) : Except PyErr (DTable K (Row T P)) :=
  if num = 2 then do
    let ps ← scores.mapValuesM (binaryScore sigmoid)
    given.joinM ps (binaryRow classes threshold)
  else do
    let ps ← scores.mapValues softmax
    given.joinM ps (multiRow classes)

end Labels
end Verif
