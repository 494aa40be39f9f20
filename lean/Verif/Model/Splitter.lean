import Verif.Model.Histogram

/-!
# Model of `ml/tree/splitter.py`, `ml/tree/creterion.py` and `ml/tree/node.py` (`SplitInfo`)

Numbers are rationals; `rnd` is the rounding of float arithmetic: every sum, difference, product and
quotient is `rnd` of the exact result.  (`id` for exact arithmetic; infinities and NaN are not
modelled here.)  A division by zero is a `ZeroDivisionError`, as for Python floats (numpy floats give
`inf`/`nan` with a warning instead: `Model/Numpy`).
-/

set_option autoImplicit false

namespace Verif
namespace DTree

open Histogram (HCell Hist getAt)
open Quantile (floatZero)

/-- `consts.GUEST`, or `"host." + str(runtime_idx)` (`hetero_decision_tree_host.py` 43-46). -/
inductive Site where
  | guest
  | host (idx : Nat)
deriving DecidableEq, Repr

/-- `node.py` 47-55.  `α` is the type of the two sums, `γ` that of the gain; `best_fid` and
`best_bid` may be `None` or an int. -/
structure SplitInfo (α γ : Type) where
  site : Site
  fid : Option Int
  bid : Option Int
  sumGrad : α
  sumHess : α
  gain : γ
deriving DecidableEq, Repr

/-- The settings of a `Splitter` (`splitter.py` 10-30, with the xgboost criterion), and the rounding
of the guest's float arithmetic. -/
structure Config where
  regLambda : Rat
  minImpurity : Rat
  minSample : Int
  minLeaf : Int
  rnd : Rat → Rat := id

/-- Exact arithmetic: results are not rounded. -/
class Config.Exact (cfg : Config) : Prop where
  rnd_eq : cfg.rnd = id

@[simp] theorem Config.rnd_apply (cfg : Config) [h : cfg.Exact] (x : Rat) : cfg.rnd x = x := by
  rw [h.rnd_eq]; rfl

/-- `a / b` -/
def div (rnd : Rat → Rat) (a b : Rat) : Except PyErr Rat :=
  if b = 0 then .error .zeroDivision else .ok (rnd (a / b))

/-- `creterion.py` 50-51 -/
def nodeGain (rnd : Rat → Rat) (lam g h : Rat) : Except PyErr Rat := div rnd (rnd (g * g)) (rnd (h + lam))

/-- `creterion.py` 53-54 -/
def nodeWeight (rnd : Rat → Rat) (lam g h : Rat) : Except PyErr Rat := div rnd (-g) (rnd (lam + h))

/-- `creterion.py` 42-48 and `splitter.py` 136-139: node, left and right sums. -/
def splitGain (rnd : Rat → Rat) (lam g h gl hl gr hr : Rat) : Except PyErr Rat := do
  let a ← nodeGain rnd lam gl hl
  let b ← nodeGain rnd lam gr hr
  let c ← nodeGain rnd lam g h
  pure (rnd (rnd (a + b) - c))

/-- `splitter.py` 33-37: the variables `best_*`. -/
structure Best where
  gain : Rat
  fid : Option Int
  bid : Option Int
  sumGrad : Option Rat
  sumHess : Option Rat
deriving DecidableEq, Repr

/-- `splitter.py` 51-69: the loop over the bins of feature `fid`; `tot` is the last bin. -/
def binLoopGuest (cfg : Config) (fid : Nat) (tot : HCell Rat) :
    Nat → List (HCell Rat) → Best → Except PyErr Best
  | _, [], best => .ok best
  | bid, c :: cs, best =>
    if c.2.2 ≥ cfg.minLeaf ∧ tot.2.2 - c.2.2 ≥ cfg.minLeaf then
      match splitGain cfg.rnd cfg.regLambda tot.1 tot.2.1 c.1 c.2.1 (cfg.rnd (tot.1 - c.1))
          (cfg.rnd (tot.2.1 - c.2.1)) with
      | .error e => .error e
      | .ok gain =>
        if gain > cfg.minImpurity ∧ gain > best.gain then
          binLoopGuest cfg fid tot (bid + 1) cs ⟨gain, some fid, some bid, some c.1, some c.2.1⟩
        else binLoopGuest cfg fid tot (bid + 1) cs best
    else binLoopGuest cfg fid tot (bid + 1) cs best

/-- `splitter.py` 38-69: the loop over features. -/
def featLoopGuest (cfg : Config) (valid : List Bool) :
    Nat → List (List (HCell Rat)) → Best → Except PyErr Best
  | _, [], best => .ok best
  | fid, bins :: rest, best =>
    match getAt valid fid with
    | .error e => .error e
    | .ok false => featLoopGuest cfg valid (fid + 1) rest best
    | .ok true =>
      match bins.getLast? with
      | none => featLoopGuest cfg valid (fid + 1) rest best
      | some tot =>
        if tot.2.2 < cfg.minSample then .ok best
        else match binLoopGuest cfg fid tot 0 bins best with
          | .error e => .error e
          | .ok best => featLoopGuest cfg valid (fid + 1) rest best

/-- `splitter.py` 32-74 -/
def findSplitSingleGuest (cfg : Config) (valid : List Bool) (hist : List (List (HCell Rat))) :
    Except PyErr (SplitInfo (Option Rat) Rat) := do
  let best ← featLoopGuest cfg valid 0 hist ⟨cfg.rnd (cfg.minImpurity - floatZero), none, none, none, none⟩
  pure ⟨.guest, best.fid, best.bid, best.sumGrad, best.sumHess, best.gain⟩

/-- Evaluates a function that may raise on every element, in order. -/
def evalList {β γ : Type} (f : β → Except PyErr γ) : List β → Except PyErr (List γ)
  | [] => .ok []
  | x :: xs => do
    let y ← f x
    let ys ← evalList f xs
    pure (y :: ys)

/-- `splitter.py` 76-83.  (The round trip through a `DTable` keyed by position keeps the order,
see C01.) -/
def findSplit (cfg : Config) (valid : List Bool) (hists : Hist Rat) :
    Except PyErr (List (SplitInfo (Option Rat) Rat)) :=
  evalList (findSplitSingleGuest cfg valid) hists

variable {α : Type}

/-- `splitter.py` 99-111: the loop over bins; returns the candidates it appends. -/
def binLoopHost (cfg : Config) (site : Site) (fid : Nat) (tot : HCell α) :
    Nat → List (HCell α) → List (SplitInfo α Unit)
  | _, [] => []
  | bid, c :: cs =>
    if c.2.2 ≥ cfg.minLeaf ∧ tot.2.2 - c.2.2 ≥ cfg.minLeaf then
      ⟨site, some fid, some bid, c.1, c.2.1, ()⟩ :: binLoopHost cfg site fid tot (bid + 1) cs
    else binLoopHost cfg site fid tot (bid + 1) cs

/-- `splitter.py` 88-111: the loop over features. -/
def featLoopHost (cfg : Config) (valid : List Bool) (site : Site) :
    Nat → List (List (HCell α)) → Except PyErr (List (SplitInfo α Unit))
  | _, [] => .ok []
  | fid, bins :: rest =>
    match getAt valid fid with
    | .error e => .error e
    | .ok false => featLoopHost cfg valid site (fid + 1) rest
    | .ok true =>
      match bins.getLast? with
      | none => featLoopHost cfg valid site (fid + 1) rest
      | some tot =>
        if tot.2.2 < cfg.minSample then .ok []
        else do
          let more ← featLoopHost cfg valid site (fid + 1) rest
          pure (binLoopHost cfg site fid tot 0 bins ++ more)

/-- `splitter.py` 85-113: the candidates and, for the guest, their sums. -/
def findSplitSingleHost (cfg : Config) (valid : List Bool) (site : Site)
    (hist : List (List (HCell α))) :
    Except PyErr (List (SplitInfo α Unit) × List (α × α)) := do
  let cs ← featLoopHost cfg valid site 0 hist
  pure (cs, cs.map fun c => (c.sumGrad, c.sumHess))

/-- `splitter.py` 115-128 -/
def findSplitHost (cfg : Config) (valid : List Bool) (site : Site) (hists : Hist α) :
    Except PyErr (List (List (SplitInfo α Unit)) × List (List (α × α))) := do
  let rs ← evalList (findSplitSingleHost cfg valid site) hists
  pure (rs.map Prod.fst, rs.map Prod.snd)

end DTree
end Verif
