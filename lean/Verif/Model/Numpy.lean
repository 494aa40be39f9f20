import Verif.Model.SplitChoice

/-!
# Split search with numpy floats

`Model/Splitter.lean` takes a division by zero to be an exception, as it is for Python floats.  The
guest's gradients and hessians are numpy floats (`ml/optim/activation.py` 31-43 ends in numpy
operations, `ml/tree/feateur_histogram.py` adds them up): for them a division by zero gives an
infinity or NaN with a warning, and operations with these go on.  This is a second model of the
guest's search (`ml/tree/splitter.py` 32-74), of its search among a host's candidates
(`ml/tree/hetero_decision_tree_guest.py` 201-222) and of node weights with such numbers.

Simplifications: there is one zero (denominators are sums that start from +0 and differences, which
are never -0.0).  A cell of a bin without samples is the Python int 0; it is not offered if
`min_leaf_node` is at least 1.
-/

set_option autoImplicit false

namespace Verif
namespace DTree

open Histogram (HCell Hist getAt)
open Quantile (floatZero)

/-- A numpy `float64`. -/
inductive Np where
  | fin (x : Rat)
  | inf (neg : Bool)
  | nan
deriving DecidableEq, Repr

namespace Np

/-- `-a` -/
def neg : Np → Np
  | fin x => fin (-x)
  | inf s => inf (!s)
  | nan => nan

/-- `a + b`; `R` rounds the exact result, possibly to an infinity. -/
def add (R : Rat → Np) : Np → Np → Np
  | fin x, fin y => R (x + y)
  | fin _, inf s => inf s
  | inf s, fin _ => inf s
  | inf s, inf t => if s = t then inf s else nan
  | _, _ => nan

/-- `a - b` -/
def sub (R : Rat → Np) : Np → Np → Np
  | fin x, fin y => R (x - y)
  | a, b => add R a b.neg

/-- `a * b` -/
def mul (R : Rat → Np) : Np → Np → Np
  | fin x, fin y => R (x * y)
  | fin x, inf s => if x = 0 then nan else inf (s != decide (x < 0))
  | inf s, fin x => if x = 0 then nan else inf (s != decide (x < 0))
  | inf s, inf t => inf (s != t)
  | _, _ => nan

/-- `a / b` with a warning instead of an exception -/
def div (R : Rat → Np) : Np → Np → Np
  | fin x, fin y => if y = 0 then (if x = 0 then nan else inf (decide (x < 0))) else R (x / y)
  | fin _, inf _ => fin 0
  | inf s, fin y => inf (s != decide (y < 0))
  | _, _ => nan

/-- `a > b` -/
def gt : Np → Np → Bool
  | fin x, fin y => decide (x > y)
  | fin _, inf s => s
  | inf s, fin _ => !s
  | inf s, inf t => !s && t
  | _, _ => false

end Np

/-- `creterion.py` 50-51 -/
def nodeGainNp (R : Rat → Np) (lam : Rat) (g h : Np) : Np :=
  Np.div R (Np.mul R g g) (Np.add R h (.fin lam))

/-- `creterion.py` 53-54 -/
def nodeWeightNp (R : Rat → Np) (lam : Rat) (g h : Np) : Np :=
  Np.div R g.neg (Np.add R (.fin lam) h)

/-- `creterion.py` 42-48 -/
def splitGainNp (R : Rat → Np) (lam : Rat) (g h gl hl gr hr : Np) : Np :=
  Np.sub R (Np.add R (nodeGainNp R lam gl hl) (nodeGainNp R lam gr hr)) (nodeGainNp R lam g h)

/-- The gain computed in `splitter.py` 56-64 for the cell `c` of a feature with the last cell
`tot`. -/
def cellGainNp (R : Rat → Np) (lam : Rat) (tot c : HCell Np) : Np :=
  splitGainNp R lam tot.1 tot.2.1 c.1 c.2.1 (Np.sub R tot.1 c.1) (Np.sub R tot.2.1 c.2.1)

/-- `splitter.py` 33-37: the variables `best_*`. -/
structure BestNp where
  gain : Np
  fid : Option Int
  bid : Option Int
  sumGrad : Option Np
  sumHess : Option Np
deriving DecidableEq, Repr

/-- `splitter.py` 51-69 -/
def binLoopNp (R : Rat → Np) (cfg : Config) (fid : Nat) (tot : HCell Np) :
    Nat → List (HCell Np) → BestNp → BestNp
  | _, [], best => best
  | bid, c :: cs, best =>
    if c.2.2 ≥ cfg.minLeaf ∧ tot.2.2 - c.2.2 ≥ cfg.minLeaf then
      let gain := cellGainNp R cfg.regLambda tot c
      if gain.gt (.fin cfg.minImpurity) ∧ gain.gt best.gain then
        binLoopNp R cfg fid tot (bid + 1) cs ⟨gain, some fid, some bid, some c.1, some c.2.1⟩
      else binLoopNp R cfg fid tot (bid + 1) cs best
    else binLoopNp R cfg fid tot (bid + 1) cs best

/-- `splitter.py` 38-69 -/
def featLoopNp (R : Rat → Np) (cfg : Config) (valid : List Bool) :
    Nat → List (List (HCell Np)) → BestNp → Except PyErr BestNp
  | _, [], best => .ok best
  | fid, bins :: rest, best =>
    match getAt valid fid with
    | .error e => .error e
    | .ok false => featLoopNp R cfg valid (fid + 1) rest best
    | .ok true =>
      match bins.getLast? with
      | none => featLoopNp R cfg valid (fid + 1) rest best
      | some tot =>
        if tot.2.2 < cfg.minSample then .ok best
        else featLoopNp R cfg valid (fid + 1) rest (binLoopNp R cfg fid tot 0 bins best)

/-- `splitter.py` 32-74 -/
def findSplitNp (R : Rat → Np) (cfg : Config) (valid : List Bool) (hist : List (List (HCell Np))) :
    Except PyErr (SplitInfo (Option Np) Np) := do
  let best ← featLoopNp R cfg valid 0 hist ⟨R (cfg.minImpurity - floatZero), none, none, none, none⟩
  pure ⟨.guest, best.fid, best.bid, best.sumGrad, best.sumHess, best.gain⟩

/-- The gain of a host's candidate, `hetero_decision_tree_guest.py` 209-215.  The decrypted sums of
the left side are Python floats (`fixedpoint.py` 104), so that dividing by a zero raises; the sums
of the node and with them those of the right side are numpy floats.  (Those of a left child of an
earlier host split are Python floats, too, and raise for zeros on either side.) -/
def hostGainNp (R : Rat → Np) (lam : Rat) (g h : Np) (gl hl : Rat) : Except PyErr Np :=
  if R (hl + lam) = .fin 0 then .error .zeroDivision
  else .ok (splitGainNp R lam g h (.fin gl) (.fin hl) (Np.sub R g (.fin gl)) (Np.sub R h (.fin hl)))

variable {α : Type}

/-- `hetero_decision_tree_guest.py` 208-219 -/
def hostScanNp (R : Rat → Np) (cfg : Config) (C : Cipher α) (g h : Np) :
    Nat → List (α × α) → Int × Np → Except PyErr (Int × Np)
  | _, [], best => .ok best
  | i, c :: cs, best =>
    match C.dec c.1 with
    | .error e => .error e
    | .ok gl =>
      match C.dec c.2 with
      | .error e => .error e
      | .ok hl =>
        match hostGainNp R cfg.regLambda g h gl hl with
        | .error e => .error e
        | .ok gain =>
          if gain.gt (.fin cfg.minImpurity) ∧ gain.gt best.2 then hostScanNp R cfg C g h (i + 1) cs (i, gain)
          else hostScanNp R cfg C g h (i + 1) cs best

/-- `self.encrypt(best_gain)`: `round` of an infinity or NaN raises (`fixedpoint.py` 81). -/
def encryptNp (C : Cipher α) (label : Nat × Nat) : Np → Except PyErr α
  | .fin x => C.enc label x
  | .inf _ => .error .overflow
  | .nan => .error .valueError

/-- `hetero_decision_tree_guest.py` 201-222 -/
def findHostSplitNp (R : Rat → Np) (cfg : Config) (C : Cipher α) (label : Nat × Nat) (node : Np × Np)
    (cands : List (α × α)) : Except PyErr (Int × α) := do
  let best ← hostScanNp R cfg C node.1 node.2 0 cands (-1, R (cfg.minImpurity - floatZero))
  let g ← encryptNp C label best.2
  pure (best.1, g)

end DTree
end Verif
