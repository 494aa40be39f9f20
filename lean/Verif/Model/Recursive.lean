import Verif.Model.Encrypter

/-!
# `recursive_encrypt` and `recursive_decrypt` of `encrypt.py` (74-113)

The argument is an array with at least one dimension, that is, after `np.array` has been applied to
a list (82-83, 102-103), or a table.  The shape of arrays without elements is not kept apart.
-/

set_option autoImplicit false

namespace Verif
namespace Encrypter

open Paillier
open FP (Scalar)

/-- An array with `n + 1` dimensions (lists of equal length are not demanded). -/
def Nd (α : Type) : Nat → Type
  | 0 => List α
  | n + 1 => List (Nd α n)

/-- `encrypt.py` 85-86, 105-106: `np.expand_dims` gives an array with one dimension a second one. -/
def expand {α : Type} : (n : Nat) → Nd α n → Nd α (n - 1 + 1)
  | 0, A => ([A] : List (List α))
  | _ + 1, A => A

/-- `encrypt.py` 87-94 and 107-113: rows with one dimension are handed to `f`, others to the function
itself; `conv` makes an element a `float64` (`none` is NaN).  The path says where a row is. -/
def rowwise {α β : Type} (f : List Nat → List α → Except PyErr (List β))
    (conv : β → Except PyErr (Option Rat)) :
    (n : Nat) → List Nat → Nd α (n + 1) → Except PyErr (Nd (Option Rat) (n + 1))
  | 0, path, (A : List (List α)) => do
    let rows ← mapList (fun p => f (path ++ [p.2]) p.1) A.zipIdx
    mapList (mapList conv) rows
  | n + 1, path, (A : List (Nd α (n + 1))) =>
    mapList (fun p => rowwise f conv n (path ++ [p.2]) p.1) A.zipIdx

/-- `np.array(…, dtype=np.float64)`, 113: `None` becomes NaN; a ciphertext has no `__float__`
(`fate_paillier.py` 189-336). -/
def floatOfCipher : Option EncNum → Except PyErr (Option Rat)
  | none => .ok none
  | some _ => .error .typeError

/-- `np.array(…, dtype=np.float64)`, 94: `None` becomes NaN, an int is rounded by `rnd` if it is not
too large. -/
def floatOfPlain (rnd : Int → Rat) : Option Scalar → Except PyErr (Option Rat)
  | none => .ok none
  | some (.int z) => if |z| < 2 ^ 1024 - 2 ^ 970 then .ok (some (rnd z)) else .error .overflow
  | some (.float x) => .ok (some x)
  | some .other => .error .typeError

/-- `encrypt.py` 96-113 `recursive_encrypt` for an array; `draw` gives the random number for the
element at a place. -/
def Holder.recursiveEncrypt (h : Holder) (draw : List Nat → Nat → Int) (n : Nat) (A : Nd Scalar n) :
    Except PyErr (Nd (Option Rat) (n - 1 + 1)) :=
  rowwise (fun path row => h.encryptList row (draw path)) floatOfCipher (n - 1) [] (expand n A)

/-- `encrypt.py` 97-108 `recursive_encrypt` for a table: `np.array` of a view of values is an array
without dimensions, which cannot be iterated over. -/
def Holder.recursiveEncryptTable {K : Type} (_ : Holder) (_ : DTable K Scalar) :
    Except PyErr (Nd (Option Rat) 1) := .error .typeError

/-- `encrypt.py` 74-94 `recursive_decrypt` for an array. -/
def Holder.recursiveDecrypt (h : Holder) (rnd : Int → Rat) (n : Nat) (A : Nd (Option EncNum) n) :
    Except PyErr (Nd (Option Rat) (n - 1 + 1)) :=
  rowwise (fun _ row => h.decryptList row) (floatOfPlain rnd) (n - 1) [] (expand n A)

/-- `encrypt.py` 75-79 `recursive_decrypt` for a table: the list of its values. -/
def Holder.recursiveDecryptTable {K : Type} [DecidableEq K] (h : Holder) (rnd : Int → Rat)
    (t : DTable K (Option EncNum)) : Except PyErr (Nd (Option Rat) 1) :=
  h.recursiveDecrypt rnd 0 t.data.values

end Encrypter
end Verif
