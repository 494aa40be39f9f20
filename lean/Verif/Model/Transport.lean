import Verif.Model.Py

/-!
# Model of `federation/transfer_inst.py`

A TCP connection is a byte stream.  The sender's bytes are all in the stream; the
network decides how many of the requested bytes each `recv` call yields (at least
one when bytes are available).  `pickle.dumps` / `pickle.loads` are parameters.
-/

set_option autoImplicit false

namespace Verif
namespace Transport

abbrev Byte := Nat

/-- Decimal digits, most significant first (`str(n)`); `fuel ≥ n` suffices. -/
def decAux : Nat → Nat → List Nat
  | 0, n => [n % 10]
  | f + 1, n => if n < 10 then [n] else decAux f (n / 10) ++ [n % 10]

/-- `str(n)` as a list of digits. -/
def dec (n : Nat) : List Nat := decAux n n

/-- ASCII code of a digit. -/
def ascii (d : Nat) : Nat := 48 + d

/-- `transfer_inst.py` 19: `bytes(f"{length:<16}", 'utf-8')` – decimal, left
justified, padded with spaces (32) to *at least* 16 bytes. -/
def header (length : Nat) : List Byte :=
  let ds := (dec length).map ascii
  ds ++ List.replicate (16 - ds.length) 32

/-- `transfer_inst.py` 10-21: the bytes written for one message whose pickle is `body`. -/
def frame (body : List Byte) : List Byte := header body.length ++ body

/-- Python's whitespace bytes accepted around the literal by `int(bytes)`. -/
def isSpace (b : Nat) : Bool := b == 32 || (9 ≤ b && b ≤ 13)

/-- Value of an ASCII digit string, `none` if some byte is not a digit. -/
def digitsValue : Nat → List Nat → Option Nat
  | acc, [] => some acc
  | acc, b :: bs => if 48 ≤ b ∧ b ≤ 57 then digitsValue (10 * acc + (b - 48)) bs else none

/-- Strip whitespace on both sides. -/
def strip (bs : List Byte) : List Byte :=
  ((bs.dropWhile isSpace).reverse.dropWhile isSpace).reverse

/-- `int(msg[:16])`, `transfer_inst.py` 37.  Simplified: signs and underscores, which
Python also accepts, are treated as errors (the sender never writes them). -/
def parseInt (bs : List Byte) : Except PyErr Nat :=
  match strip (bs.take 16) with
  | [] => .error .valueError
  | b :: bs => match digitsValue 0 (b :: bs) with
    | some n => .ok n
    | none => .error .valueError

/-- Outcome of a blocking receive: a value and the unread rest of the stream, an
exception, or waiting for bytes that never come. -/
inductive Outcome (α : Type*) where
  | ok (a : α) (rest : List Byte)
  | raised (e : PyErr)
  | hang
  deriving DecidableEq

/-- `cs.recv(k)` on a non-empty stream: the network yields `c` bytes, clipped to at
least one and at most `k` (and to what is available). -/
def recv (c k : Nat) (s : List Byte) : List Byte × List Byte :=
  (s.take (min (max 1 c) k), s.drop (min (max 1 c) k))

/-- `transfer_inst.py` 39-44: `while nowsize < length: more = cs.recv(length - nowsize) …`.
`σ i` is the number of bytes the network is willing to yield at the `i`-th call.
`fuel` bounds the number of calls; running out of stream is `hang`. -/
def bodyLoop (σ : Nat → Nat) (length : Nat) :
    (fuel i : Nat) → (full : List Byte) → (s : List Byte) → Outcome (List Byte)
  | fuel, i, full, s =>
    if full.length < length then
      match fuel with
      | 0 => .hang
      | fuel + 1 =>
        if s = [] then .hang
        else
          bodyLoop σ length fuel (i + 1) (full ++ (recv (σ i) (length - full.length) s).1)
            (recv (σ i) (length - full.length) s).2
    else .ok full s

/-- `transfer_inst.py` 24-47.  `c` is what the network yields for the single
`cs.recv(16)` that reads the header. -/
def recvData {M : Type*} (loads : List Byte → M) (c : Nat) (σ : Nat → Nat) (s : List Byte) :
    Outcome M :=
  if s = [] then .hang
  else
    match parseInt (recv c 16 s).1 with
    | .error e => .raised e
    | .ok length =>
      match bodyLoop σ length length 0 [] (recv c 16 s).2 with
      | .ok full rest => .ok (loads full) rest
      | .raised e => .raised e
      | .hang => .hang

/-- Receiving one message per schedule in the list. -/
def recvMany {M : Type*} (loads : List Byte → M) :
    List (Nat × (Nat → Nat)) → List Byte → Outcome (List M)
  | [], s => .ok [] s
  | (c, σ) :: rest, s =>
    match recvData loads c σ s with
    | .ok m s' =>
      match recvMany loads rest s' with
      | .ok ms s'' => .ok (m :: ms) s''
      | .raised e => .raised e
      | .hang => .hang
    | .raised e => .raised e
    | .hang => .hang

/-- The bytes written by a sequence of `send_data` calls. -/
def sendMany {M : Type*} (dumps : M → List Byte) (ms : List M) : List Byte :=
  (ms.map fun m => frame (dumps m)).flatten

/-! ## Addressing: `TransferInstGuest` -/

/-- The guest's end of one connection: messages written to the host and messages
from the host not yet read (`self.conns[i]`). -/
structure Conn (M : Type*) where
  sent : List M
  inbox : List M
  deriving DecidableEq, Repr

/-- `transfer_inst.py` 66-87: `send_data_to_hosts(data, index)`. -/
def sendToHosts {M : Type*} (conns : List (Conn M)) (data : M) (index : Int) :
    Except PyErr (List (Conn M)) :=
  if index = -1 then
    .ok (conns.map fun c => { c with sent := c.sent ++ [data] })
  else if index < conns.length ∧ index ≥ 0 then
    .ok (conns.modify index.toNat fun c => { c with sent := c.sent ++ [data] })
  else .error .valueError

/-- What `recv_data_from_hosts` returns: a list for index -1, else one object. -/
inductive Received (M : Type*) where
  | all (ms : List M)
  | one (m : M)
  deriving DecidableEq, Repr

/-- Result of a guest receive: value and new connections, exception, or blocked
on an empty inbox. -/
inductive RecvResult (M : Type*) where
  | got (r : Received M) (conns : List (Conn M))
  | raised (e : PyErr)
  | blocked
  deriving DecidableEq, Repr

/-- `transfer_inst.py` 107-110: loop over `self.conns`. -/
def recvAllLoop {M : Type*} : List (Conn M) → Option (List M × List (Conn M))
  | [] => some ([], [])
  | c :: cs =>
    match c.inbox with
    | [] => none
    | m :: ms =>
      match recvAllLoop cs with
      | none => none
      | some (ds, cs') => some (m :: ds, { c with inbox := ms } :: cs')

/-- `transfer_inst.py` 89-116: `recv_data_from_hosts(index)`. -/
def recvFromHosts {M : Type*} (conns : List (Conn M)) (index : Int) : RecvResult M :=
  if index = -1 then
    match recvAllLoop conns with
    | none => .blocked
    | some (ds, cs) => .got (.all ds) cs
  else if index < conns.length ∧ index ≥ 0 then
    match conns[index.toNat]? with
    | none => .raised .indexError
    | some c =>
      match c.inbox with
      | [] => .blocked
      | m :: ms => .got (.one m) (conns.set index.toNat { c with inbox := ms })
  else .raised .valueError

end Transport
end Verif
