import Verif.Model.Paillier
import Verif.Model.Affine
import Mathlib.Data.Nat.Prime.Infinite
import Mathlib.Data.Nat.Size

/-!
# Key generation: `gmpy_math.getprimeover`, `PaillierKeypair.generate_keypair`,
`AffineCipher.generate_keypair`

The random numbers are a list, consumed from the front; a loop that still runs when they are used up
is the error `unfinished` (which stands for a loop that goes on).  `gmpy2.next_prime` is taken to
return a prime (it uses a probabilistic test with an error of at most 2^-50).
-/

set_option autoImplicit false

namespace Verif
namespace KeyGen

open Paillier

/-- `gmpy2.next_prime(r)`: the least prime above `r`. -/
def nextPrime (r : Nat) : Nat := Nat.find (Nat.exists_infinite_primes (r + 1))

/-- `gmpy_math.py` 49-55 `getprimeover`; `r` is the result of `getrandbits(n)`.  For `n ≤ 0` either
`getrandbits` or `bit_set` raises, depending on the versions. -/
def getPrimeOver (n : Int) (r : Nat) : Except PyErr Nat :=
  if n ≤ 0 then .error .valueError
  else .ok (nextPrime (r ||| 2 ^ (n - 1).toNat))

/-- `fate_paillier.py` 40-41, the inner loop: draw until the prime differs from `p`. -/
def drawOther (k : Int) (p : Nat) : List Nat → Except PyErr (Nat × List Nat)
  | [] => .error .unfinished
  | r :: rs => do
    let q ← getPrimeOver k r
    if q = p then drawOther k p rs else .ok (q, rs)

/-- `fate_paillier.py` 37-43, the outer loop, entered with a length that differs from `n_length`.
The first argument bounds the number of iterations. -/
def drawPrimes (nLength : Int) : Nat → List Nat → Except PyErr (Nat × Nat)
  | 0, _ => .error .unfinished
  | _ + 1, [] => .error .unfinished
  | fuel + 1, r :: rs => do
    let p ← getPrimeOver (nLength / 2) r
    let (q, rs) ← drawOther (nLength / 2) p rs
    if ((p * q).size : Int) ≠ nLength then drawPrimes nLength fuel rs else .ok (p, q)

/-- `fate_paillier.py` 29-48 `generate_keypair`.  With `n_length = 0` the loop is not entered and
`n` is `None`, for which the constructor of the public key raises `TypeError`. -/
def generateKeypair (nLength : Int) (draws : List Nat) : Except PyErr (PubKey × PrivKey) :=
  if nLength = 0 then .error .typeError
  else do
    let (p, q) ← drawPrimes nLength draws.length draws
    let pk : PubKey := ⟨(p : Int) * q⟩
    let sk ← PrivKey.new pk p q
    .ok (pk, sk)

/-- `affine.py` 37-40, the loop: draw until `a` has no common factor with `n`. -/
def drawCoprime (n : Nat) : List Nat → Except PyErr Nat
  | [] => .error .unfinished
  | a :: as => if Nat.gcd n a = 1 then .ok a else drawCoprime n as

/-- `affine.py` 31-42 `generate_keypair`: `n`, `as` and `b` are the results of `getrandbits`. -/
def affineKeypair (n : Nat) (as : List Nat) (b : Nat) (mult : Int) : Except PyErr Affine.Key := do
  let a ← drawCoprime n as
  Affine.Key.new a b n mult

end KeyGen
end Verif
