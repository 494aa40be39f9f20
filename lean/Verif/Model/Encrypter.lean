import Verif.Model.KeyGen
import Verif.Model.DTableM
import Verif.Model.Params

/-!
# The encrypter objects: `Encrypt`, `PaillierEncrypt` and `FakeEncrypt` of `encrypt.py`

A value `None` is `none`.  `draw` gives the random number for the element at a position (or key).
`recursive_encrypt` and `recursive_decrypt` (74-113) are in `Recursive`.
-/

set_option autoImplicit false

namespace Verif
namespace Encrypter

open Paillier
open FP (Scalar)

/-- `encrypt.py` 30-32: the keys, initially `None`. -/
structure Holder where
  pub : Option PubKey
  priv : Option PrivKey
deriving DecidableEq, Repr

/-- `encrypt.py` 30-32, 163-164: a new object holds no key. -/
def Holder.init : Holder := ⟨none, none⟩

/-- `encrypt.py` 166-168 `generate_key`. -/
def Holder.generateKey (_ : Holder) (nLength : Int) (draws : List Nat) : Except PyErr Holder := do
  let (pk, sk) ← KeyGen.generateKeypair nLength draws
  .ok ⟨some pk, some sk⟩

/-- `encrypt.py` 173-174 `set_public_key`. -/
def Holder.setPublic (h : Holder) (pk : PubKey) : Holder := { h with pub := some pk }

/-- `encrypt.py` 179-180 `set_privacy_key`. -/
def Holder.setPrivate (h : Holder) (sk : PrivKey) : Holder := { h with priv := some sk }

/-- `encrypt.py` 185-189 `encrypt`. -/
def Holder.encrypt (h : Holder) (value : Scalar) (draw : Int) : Except PyErr (Option EncNum) :=
  match h.pub with
  | some pk => do let x ← Paillier.encrypt pk value none draw; .ok (some x)
  | none => .ok none

/-- `encrypt.py` 191-195 `decrypt`; `fate_paillier.py` 181-183 refuses what is not a ciphertext. -/
def Holder.decrypt (h : Holder) (value : Option EncNum) : Except PyErr (Option Scalar) :=
  match h.priv with
  | some sk =>
    match value with
    | some x => do let t ← Paillier.decrypt sk x; .ok (some t)
    | none => .error .typeError
  | none => .ok none

/-- A comprehension whose body may raise. -/
def mapList {α β : Type} (f : α → Except PyErr β) : List α → Except PyErr (List β)
  | [] => .ok []
  | x :: xs => do
    let y ← f x
    let ys ← mapList f xs
    .ok (y :: ys)

/-- `encrypt.py` 56-58 `encrypt_list`. -/
def Holder.encryptList (h : Holder) (values : List Scalar) (draw : Nat → Int) :
    Except PyErr (List (Option EncNum)) :=
  mapList (fun p => h.encrypt p.1 (draw p.2)) values.zipIdx

/-- `encrypt.py` 60-62 `decrypt_list`. -/
def Holder.decryptList (h : Holder) (values : List (Option EncNum)) :
    Except PyErr (List (Option Scalar)) :=
  mapList h.decrypt values

variable {K : Type} [DecidableEq K]

/-- `encrypt.py` 68-70 `distribute_encrypt`: `mapValues`. -/
def Holder.encryptTable (h : Holder) (t : DTable K Scalar) (draw : K → Int) :
    Except PyErr (DTable K (Option EncNum)) :=
  (⟨t.data.map fun p => (p.1, (p.2, draw p.1))⟩ : DTable K (Scalar × Int)).mapValuesM
    fun p => h.encrypt p.1 p.2

/-- `encrypt.py` 64-66 `distribute_decrypt`: `mapValues`. -/
def Holder.decryptTable (h : Holder) (t : DTable K (Option EncNum)) :
    Except PyErr (DTable K (Option Scalar)) :=
  t.mapValuesM h.decrypt

/-- `hetero_secureboosting_tree_guest.py` 98-104 `generate_encrypter` (the calculator that is set up
with it is modelled in `EncryptMode`).  The key length is an `int`, as the check of the parameters
demands. -/
def generateEncrypter (method : PyVal) (keyLength : Int) (draws : List Nat) : Except PyErr Holder :=
  if method.isStr "Paillier" then Holder.init.generateKey keyLength draws
  else .error .exception

end Encrypter
end Verif
