import Verif.Model.Network
import Verif.Model.Transport

/-!
# Connections of programs that have ended

When a Python program ends, by returning or by an exception, its sockets are closed.  What is sent
on a closed connection is lost and sooner or later an exception; `recv` yields what was sent before
and then `b''`, or an exception if the operating system has reset the connection.
-/

set_option autoImplicit false

namespace Verif
namespace Network

variable {P M R : Type}

/-- The program has returned or raised an exception. -/
def Proc.Ended : Proc P M R → Prop
  | .done _ => True
  | .fail _ => True
  | _ => False

/-- The program is in a call of `sendall` or `recv` on the connection to `q`. -/
def Proc.At (q : P) : Proc P M R → Prop
  | .send q' _ _ => q' = q
  | .wait q' _ => q' = q
  | .recv q' _ => q' = q
  | _ => False

variable [DecidableEq P]

/-- A step of party `p` where programs may end before the others: besides the steps of `Step`, a
call on a connection to a party that has ended may raise any exception (`ConnectionError`, or the
`ValueError` of `int(b'')`, `transfer_inst.py` 36-37). -/
inductive CStep (strict : Bool) (p : P) (c : Net P M R) : Net P M R → Prop
  | live (d : Net P M R) (h : Step strict p c d) : CStep strict p c d
  | closed (q : P) (e : PyErr) (h : (c.state p).At q) (hq : (c.state q).Ended) :
      CStep strict p c ⟨Function.update c.state p (.fail e), c.chan⟩

/-- Executions of `n` steps. -/
inductive CRun : Nat → Net P M R → Net P M R → Prop
  | nil (c : Net P M R) : CRun 0 c c
  | snoc (n : Nat) (p : P) (c d e : Net P M R) (t : CRun n c d) (h : CStep false p d e) :
      CRun (n + 1) c e

end Network

namespace Transport

/-- The loop of `transfer_inst.py` 39-44 when the other side has closed the connection after the
bytes `s`: `recv` yields `b''` when they are used up.  `hang` if it has not ended after
`fuel` turns. -/
def bodyLoopClosed (σ : Nat → Nat) (length : Nat) :
    (fuel i : Nat) → (full : List Byte) → (s : List Byte) → Outcome (List Byte)
  | fuel, i, full, s =>
    if full.length < length then
      match fuel with
      | 0 => .hang
      | fuel + 1 =>
        bodyLoopClosed σ length fuel (i + 1) (full ++ (recv (σ i) (length - full.length) s).1)
          (recv (σ i) (length - full.length) s).2
    else .ok full s

/-- `recv_data` on a closed connection, `transfer_inst.py` 24-47, with at most `fuel` turns of the
loop. -/
def recvDataClosed {M : Type*} (loads : List Byte → M) (c : Nat) (σ : Nat → Nat) (fuel : Nat)
    (s : List Byte) : Outcome M :=
  match parseInt (recv c 16 s).1 with
  | .error e => .raised e
  | .ok length =>
    match bodyLoopClosed σ length fuel 0 [] (recv c 16 s).2 with
    | .ok full rest => .ok (loads full) rest
    | .raised e => .raised e
    | .hang => .hang

end Transport
end Verif
