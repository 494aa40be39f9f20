import Verif.Model.Py
import Mathlib.Logic.Function.Basic

/-!
# Parties that exchange messages

A party is a program that sends and receives messages on its connections
(`federation/transfer_inst.py`); what it computes in between is part of the continuation.
Connections deliver in order (C04).  `socket.sendall` may return at once, when the bytes fit
into buffers, or as late as when the other side has read the message: after `send` a program is in
a `wait`, which it leaves at a moment chosen by the environment.  Only a wait for a message that
has been read is certain to end.
-/

set_option autoImplicit false

namespace Verif
namespace Network

/-- The program of one party; `P` are the parties, `M` the messages, `R` the result. -/
inductive Proc (P M R : Type) where
  | done (r : R)
  | fail (e : PyErr)
  | send (q : P) (m : M) (k : Proc P M R)
  | wait (q : P) (k : Proc P M R)
  | recv (q : P) (k : M → Proc P M R)

variable {P M R R' : Type}

/-- Sequencing; an exception ends the program. -/
def Proc.bind : Proc P M R → (R → Proc P M R') → Proc P M R'
  | .done r, f => f r
  | .fail e, _ => .fail e
  | .send q m k, f => .send q m (k.bind f)
  | .wait q k, f => .wait q (k.bind f)
  | .recv q k, f => .recv q fun m => (k m).bind f

instance : Monad (Proc P M) where
  pure := .done
  bind := .bind

/-- A computation of the party itself. -/
def lift (r : Except PyErr R) : Proc P M R :=
  match r with
  | .ok v => .done v
  | .error e => .fail e

/-- All parties and the messages on their way: `chan (p, q)` from `p` to `q`. -/
structure Net (P M R : Type) where
  state : P → Proc P M R
  chan : P × P → List M

variable [DecidableEq P]

/-- A step of party `p`.  A strict step does not rely on buffers: a wait ends only when the
message has been read. -/
inductive Step (strict : Bool) (p : P) (c : Net P M R) : Net P M R → Prop
  | send (q : P) (m : M) (k : Proc P M R) (h : c.state p = .send q m k) :
      Step strict p c ⟨Function.update c.state p (.wait q k),
        Function.update c.chan (p, q) (c.chan (p, q) ++ [m])⟩
  | wait (q : P) (k : Proc P M R) (h : c.state p = .wait q k) (hb : strict = true → c.chan (p, q) = []) :
      Step strict p c ⟨Function.update c.state p k, c.chan⟩
  | recv (q : P) (k : M → Proc P M R) (m : M) (ms : List M) (h : c.state p = .recv q k)
      (hm : c.chan (q, p) = m :: ms) :
      Step strict p c ⟨Function.update c.state p (k m), Function.update c.chan (q, p) ms⟩

/-- Executions of `n` steps, in any order of the parties. -/
inductive Run (strict : Bool) : Nat → Net P M R → Net P M R → Prop
  | nil (c : Net P M R) : Run strict 0 c c
  | cons (n : Nat) (p : P) (c d e : Net P M R) (h : Step strict p c d) (t : Run strict n d e) :
      Run strict (n + 1) c e

/-- Every party has returned. -/
def Net.Finished (c : Net P M R) : Prop := ∀ p, ∃ r, c.state p = .done r

end Network
end Verif
