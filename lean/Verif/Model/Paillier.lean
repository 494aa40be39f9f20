import Verif.Model.GmpyMath
import Verif.Model.FixedPoint

/-!
# Model of `ml/secureprotol/fate_paillier.py`

Randomness is an explicit argument: `draw` is the value returned by
`random.SystemRandom().randrange(1, n)`.  Plaintexts passed to the raw functions are
encodings, already reduced modulo `n`.  Type checks on Python objects are implicit in the
types.  Key generation is modelled in `KeyGen`; theorems here quantify over all prime
pairs.  Division by a scalar (`__truediv__`) is modelled in `Division`.
-/

set_option autoImplicit false

namespace Verif
namespace Paillier
open Gmpy FP

/-- `fate_paillier.py` 49-56, `PaillierPublicKey.__init__`; `__eq__` (62-63) compares `n`. -/
structure PubKey where
  n : Int
deriving DecidableEq, Repr

namespace PubKey
def g (k : PubKey) : Int := k.n + 1
def nsquare (k : PubKey) : Int := k.n * k.n
def maxInt (k : PubKey) : Int := k.n / 3 - 1
end PubKey

/-- `fate_paillier.py` 68-74 `apply_obfuscator`: `random_value or randrange(1, n)`. -/
def applyObfuscator (k : PubKey) (ciphertext : Int) (randomValue : Option Int) (draw : Int) : Int :=
  let r := match randomValue with
    | some v => if v = 0 then draw else v
    | none => draw
  (ciphertext * powmod r k.n.toNat k.nsquare) % k.nsquare

/-- `fate_paillier.py` 76-93 `raw_encrypt`. -/
def rawEncrypt (k : PubKey) (plaintext : Int) (randomValue : Option Int) (draw : Int) :
    Except PyErr Int := do
  let c ←
    if plaintext ≥ k.n - k.maxInt ∧ plaintext < k.n then
      let negPlaintext := k.n - plaintext
      let negCiphertext := (k.n * negPlaintext + 1) % k.nsquare
      invert negCiphertext k.nsquare
    else .ok ((k.n * plaintext + 1) % k.nsquare)
  .ok (applyObfuscator k c randomValue draw)

/-- `fate_paillier.py` 201-211 `PaillierEncryptedNumber.__init__`. -/
structure EncNum where
  pk : PubKey
  cipher : Int
  exponent : Int
  isObfuscator : Bool
deriving DecidableEq, Repr

/-- `fate_paillier.py` 221-225 `apply_obfuscator`. -/
def EncNum.obfuscate (x : EncNum) (draw : Int) : EncNum :=
  { x with cipher := applyObfuscator x.pk x.cipher none draw, isObfuscator := true }

/-- `fate_paillier.py` 213-219 `ciphertext(be_secure)`: possibly re-randomises the object,
returns the new object and the ciphertext. -/
def EncNum.ciphertext (x : EncNum) (beSecure : Bool) (draw : Int) : EncNum × Int :=
  let x := if beSecure && !x.isObfuscator then x.obfuscate draw else x
  (x, x.cipher)

/-- `fate_paillier.py` 95-105 `encrypt` (with `precision = None`). -/
def encrypt (k : PubKey) (value : Scalar) (randomValue : Option Int) (draw : Int) :
    Except PyErr EncNum := do
  let encoding ← FP.encode value k.n k.maxInt none
  let obfuscator := match randomValue with
    | some v => if v = 0 then 1 else v
    | none => 1
  let c ← rawEncrypt k encoding.encoding (some obfuscator) draw
  let x : EncNum := ⟨k, c, encoding.exponent, false⟩
  .ok (match randomValue with
    | none => x.obfuscate draw
    | some _ => x)

/-- `fate_paillier.py` 146-150 `l_func`. -/
def lFunc (x p : Int) : Int := (x - 1) / p

/-- `fate_paillier.py` 140-144 `h_func`. -/
def hFunc (k : PubKey) (x xsquare : Int) : Except PyErr Int :=
  invert (lFunc (powmod k.g (x - 1).toNat xsquare) x) x

/-- `fate_paillier.py` 108-127, the fields of `PaillierPrivateKey`. -/
structure PrivKey where
  pk : PubKey
  p : Int
  q : Int
  qInverse : Int
  hp : Int
  hq : Int
deriving DecidableEq, Repr

/-- `fate_paillier.py` 111-127 `PaillierPrivateKey.__init__`. -/
def PrivKey.new (k : PubKey) (p q : Int) : Except PyErr PrivKey := do
  if ¬ (p * q = k.n) then .error .valueError
  else if p = q then .error .valueError
  else
    let (p, q) := if q < p then (q, p) else (p, q)
    let qInverse ← invert q p
    let hp ← hFunc k p (p * p)
    let hq ← hFunc k q (q * q)
    .ok ⟨k, p, q, qInverse, hp, hq⟩

/-- `fate_paillier.py` 152-159 `crt`. -/
def crt (sk : PrivKey) (mp mq : Int) : Int :=
  let u := (mp - mq) * sk.qInverse % sk.p
  (mq + u * sk.q) % sk.pk.n

/-- `fate_paillier.py` 161-176 `raw_decrypt`. -/
def rawDecrypt (sk : PrivKey) (ciphertext : Int) : Int :=
  let mp := lFunc (powmod ciphertext (sk.p - 1).toNat (sk.p * sk.p)) sk.p * sk.hp % sk.p
  let mq := lFunc (powmod ciphertext (sk.q - 1).toNat (sk.q * sk.q)) sk.q * sk.hq % sk.q
  crt sk mp mq

/-- `fate_paillier.py` 178-195 `decrypt`. -/
def decrypt (sk : PrivKey) (x : EncNum) : Except PyErr Scalar :=
  if sk.pk ≠ x.pk then .error .valueError
  else
    FP.decode ⟨rawDecrypt sk (x.ciphertext false 1).2, x.exponent, sk.pk.n, sk.pk.maxInt⟩

/-- `fate_paillier.py` 248-268 `__mul__`. -/
def mul (x : EncNum) (s : Scalar) : Except PyErr EncNum := do
  let enc ← FP.encode s x.pk.n x.pk.maxInt none
  let plaintext := enc.encoding
  if plaintext < 0 ∨ plaintext ≥ x.pk.n then .error .valueError
  else
    let c ←
      if plaintext ≥ x.pk.n - x.pk.maxInt then do
        let negC ← invert x.cipher x.pk.nsquare
        .ok (powmod negC (x.pk.n - plaintext).toNat x.pk.nsquare)
      else .ok (powmod x.cipher plaintext.toNat x.pk.nsquare)
    .ok ⟨x.pk, c, x.exponent + enc.exponent, false⟩

/-- `fate_paillier.py` 270-281 `increase_exponent_to`. -/
def increaseExponentTo (x : EncNum) (e : Int) : Except PyErr EncNum := do
  if e < x.exponent then .error .valueError
  else
    let y ← mul x (.int (16 ^ (e - x.exponent).toNat))
    .ok { y with exponent := e }

/-- `fate_paillier.py` 330-335 `__raw_add`. -/
def rawAdd (k : PubKey) (ex ey e : Int) : EncNum := ⟨k, ex * ey % k.nsquare, e, false⟩

/-- `fate_paillier.py` 283-291 `__align_exponent` on two encrypted numbers. -/
def align (x y : EncNum) : Except PyErr (EncNum × EncNum) :=
  if x.exponent < y.exponent then do
    let x ← increaseExponentTo x y.exponent
    .ok (x, y)
  else if x.exponent > y.exponent then do
    let y ← increaseExponentTo y x.exponent
    .ok (x, y)
  else .ok (x, y)

/-- `fate_paillier.py` 283-291 `__align_exponent` on an encrypted and a plain number. -/
def alignFix (x : EncNum) (y : FP.Num) : Except PyErr (EncNum × FP.Num) :=
  if x.exponent < y.exponent then do
    let x ← increaseExponentTo x y.exponent
    .ok (x, y)
  else if x.exponent > y.exponent then do
    let y ← FP.increaseExponentTo y x.exponent
    .ok (x, y)
  else .ok (x, y)

/-- `fate_paillier.py` 303-315 `__add_fixpointnumber`. -/
def addFix (x : EncNum) (y : FP.Num) : Except PyErr EncNum :=
  if x.pk.n ≠ y.n then .error .valueError
  else do
    let (x', y') ← alignFix x y
    let es ← rawEncrypt x'.pk y'.encoding (some 1) 1
    .ok (rawAdd x.pk x'.cipher es x'.exponent)

/-- `fate_paillier.py` 293-301 `__add_scalar` (also `__radd__`). -/
def addScalar (x : EncNum) (s : Scalar) : Except PyErr EncNum := do
  let y ← FP.encode s x.pk.n x.pk.maxInt (some x.exponent)
  addFix x y

/-- `fate_paillier.py` 317-328 `__add_encryptednumber`. -/
def add (x y : EncNum) : Except PyErr EncNum :=
  if x.pk ≠ y.pk then .error .valueError
  else do
    let (x', y') ← align x y
    .ok (rawAdd x.pk x'.cipher y'.cipher x'.exponent)

/-- `fate_paillier.py` 236-237 `__sub__` with an encrypted operand. -/
def sub (x y : EncNum) : Except PyErr EncNum := do
  let ny ← mul y (.int (-1))
  add x ny

/-- `fate_paillier.py` 236-237 `__sub__` with a scalar operand. -/
def subScalar (x : EncNum) (s : Scalar) : Except PyErr EncNum := addScalar x s.neg

/-- `fate_paillier.py` 239-240 `__rsub__` (scalar − encrypted). -/
def rsubScalar (s : Scalar) (x : EncNum) : Except PyErr EncNum := do
  let nx ← mul x (.int (-1))
  addScalar nx s

end Paillier
end Verif
