import Verif.Model.Protocol

/-!
# What it means for the parties to complete a run together
-/

set_option autoImplicit false

namespace Verif
namespace Spec

open Network DTree

/-- Started in `c`, the parties complete with the results `out`, whatever the order of their steps
and whatever the connections buffer. -/
structure Completes {P M R : Type} [DecidableEq P] (c : Net P M R) (out : P → R) : Prop where
  /-- No execution goes on forever. -/
  bounded : ∃ n, ∀ b m d, Run b m c d → m ≤ n
  /-- No party ever raises an exception; a message of an unexpected kind would be one. -/
  safe : ∀ b m d p e, Run b m c d → d.state p ≠ .fail e
  /-- As long as not all parties have returned, some party can go on, even if no connection buffers
  anything; and when they have, every message has been read. -/
  progress : ∀ b m d, Run b m c d →
    ((∀ p, d.state p = .done (out p)) ∧ ∀ x, d.chan x = []) ∨ ∃ p e, Step true p d e

/-- The guest returns `g`, the host at connection `i` the `i`-th of `hs`. -/
def results {G H : Type} (g : G) (hs : List H) : Option Nat → Outcome G H
  | none => .guest g
  | some i =>
    match hs[i]? with
    | some h => .host h
    | none => .absent

variable {K : Type}

/-- The guest's part of a boosting state. -/
def gpart (st : BoostState K) : GuestBoostState K :=
  ⟨st.scores, st.trees.map fun P => (P.nodes, P.guestMask), st.imps, st.losses, st.pre⟩

/-- A tree as host `j` keeps it. -/
def hostTree (j : Nat) (P : Saved) : List NodeParam × Dict Nat Rat := (P.nodes, P.hostMasks.getD j [])

/-- The trees as host `j` keeps them. -/
def hpart (j : Nat) (trees : List Saved) : List (List NodeParam × Dict Nat Rat) := trees.map (hostTree j)

end Spec
end Verif
