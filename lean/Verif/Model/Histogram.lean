import Verif.Model.Binning

/-!
# Model of `ml/tree/feateur_histogram.py`

Gradients and hessians are either plain numbers (guest) or ciphertexts (host), so the
computation is parameterised by the arithmetic it is run with (`Arith`).  Every cell of a
histogram is a triple (gradient sum, hessian sum, count); counts are Python ints.
-/

set_option autoImplicit false

namespace Verif
namespace Histogram

open Binning (Cell SparseVec)

/-- The Python operations the histogram code applies to gradients and hessians. -/
structure Arith (α : Type) where
  /-- the literal `0` the cells are initialised with -/
  zero : α
  add : α → α → Except PyErr α
  sub : α → α → Except PyErr α

/-- Floats: every sum and difference is the rounded exact result (`rnd` gives the float for an exact
result; infinities and NaN are not modelled). -/
def floats (rnd : Rat → Rat) : Arith Rat :=
  ⟨0, fun x y => .ok (rnd (x + y)), fun x y => .ok (rnd (x - y))⟩

/-- Plain numbers, computed with exactly. -/
def plain : Arith Rat := ⟨0, fun x y => .ok (x + y), fun x y => .ok (x - y)⟩

/-- `[0 for i in range(3)]`: gradient, hessian, count. -/
abbrev HCell (α : Type) := α × α × Int

variable {α : Type}

/-- A fresh cell. -/
def zeroCell (A : Arith α) : HCell α := (A.zero, A.zero, 0)

/-- `c[0] += d[0]; c[1] += d[1]; c[2] += d[2]` -/
def addCell (A : Arith α) (d c : HCell α) : Except PyErr (HCell α) := do
  let g ← A.add c.1 d.1
  let h ← A.add c.2.1 d.2.1
  pure (g, h, c.2.2 + d.2.2)

/-- `a[r] - b[r]` for `r` in 0, 1, 2 -/
def subCell (A : Arith α) (a b : HCell α) : Except PyErr (HCell α) := do
  let g ← A.sub a.1 b.1
  let h ← A.sub a.2.1 b.2.1
  pure (g, h, a.2.2 - b.2.2)

/-- `l[i] = f(l[i])`; `IndexError` outside the list. -/
def updAt {β : Type} : List β → Nat → (β → Except PyErr β) → Except PyErr (List β)
  | [], _, _ => .error .indexError
  | x :: xs, 0, f => do
    let y ← f x
    pure (y :: xs)
  | x :: xs, n + 1, f => do
    let ys ← updAt xs n f
    pure (x :: ys)

/-- `l[i]` -/
def getAt {β : Type} (l : List β) (i : Nat) : Except PyErr β :=
  match l[i]? with
  | some x => .ok x
  | none => .error .indexError

/-- `feateur_histogram.py` 96-107: one record that takes part. -/
structure Record (α : Type) where
  features : SparseVec Cell
  nodeId : Nat
  grad : α
  hess : α

/-- `feateur_histogram.py` 96-107: the value of a record is
`((data_bin, (unleaf_state, nodeid)), (g, h))`; records that are at a leaf or at a node that is
not being split are skipped. -/
def collectRecords (nodeMap : Dict Nat Nat) :
    List ((SparseVec Cell × Nat × Nat) × α × α) → List (Record α)
  | [] => []
  | ((f, state, nid), g, h) :: rest =>
    if state = 0 ∨ nodeMap.has nid = false then collectRecords nodeMap rest
    else ⟨f, nid, g, h⟩ :: collectRecords nodeMap rest

/-- `valid_features is not None and valid_features[fid] is False` -/
def isDisabled (valid : Option (List Bool)) (fid : Nat) : Except PyErr Bool :=
  match valid with
  | none => .ok false
  | some v => do
    let b ← getAt v fid
    pure (!b)

/-- `valid_features is not None and valid_features[fid] is True` -/
def isEnabled (valid : Option (List Bool)) (fid : Nat) : Except PyErr Bool :=
  match valid with
  | none => .ok false
  | some v => getAt v fid

/-- `feateur_histogram.py` 119-126: the empty histogram of one node. -/
def template (A : Arith α) (valid : Option (List Bool)) :
    Nat → List (List Rat) → Except PyErr (List (List (HCell α)))
  | _, [] => .ok []
  | fid, sp :: rest => do
    let d ← isDisabled valid fid
    let t ← template A valid (fid + 1) rest
    pure ((if d then [] else List.replicate (sp.length + 1) (zeroCell A)) :: t)

/-- Histograms of all nodes: node, feature, bin. -/
abbrev Hist (α : Type) := List (List (List (HCell α)))

/-- The three accumulators of lines 111-128. -/
structure Acc (α : Type) where
  hist : Hist α
  zeroOptim : List (List (HCell α))
  nodeSum : List (HCell α)

/-- `feateur_histogram.py` 137-147: the stored features of one record. -/
def featureLoop (A : Arith α) (valid : Option (List Bool)) (nid : Nat) (d : HCell α) :
    List (Nat × Cell) → Acc α → Except PyErr (Acc α)
  | [], acc => .ok acc
  | (fid, value) :: rest, acc => do
    let dis ← isDisabled valid fid
    if dis then featureLoop A valid nid d rest acc
    else
      match value with
      | .raw _ => .error .typeError
      | .bin b => do
        let hist ← updAt acc.hist nid fun fh => updAt fh fid fun bins => updAt bins b (addCell A d)
        let zo ← updAt acc.zeroOptim nid fun row => updAt row fid (addCell A d)
        featureLoop A valid nid d rest { acc with hist := hist, zeroOptim := zo }

/-- `feateur_histogram.py` 132-147. -/
def recordLoop (A : Arith α) (valid : Option (List Bool)) (nodeMap : Dict Nat Nat) :
    List (Record α) → Acc α → Except PyErr (Acc α)
  | [], acc => .ok acc
  | r :: rest, acc => do
    match nodeMap.get? r.nodeId with
    | none => .error .typeError
    | some nid => do
      let ns ← updAt acc.nodeSum nid (addCell A (r.grad, r.hess, 1))
      let acc ← featureLoop A valid nid (r.grad, r.hess, 1) r.features.allData { acc with nodeSum := ns }
      recordLoop A valid nodeMap rest acc

/-- `feateur_histogram.py` 151-155 for one node and one feature. -/
def zeroFix (A : Arith α) (sparse : Dict Nat Nat) (nodeSum zo : HCell α) (fid : Nat)
    (bins : List (HCell α)) : Except PyErr (List (HCell α)) :=
  match sparse.get? fid with
  | none => .error .keyError
  | some sp => do
    let diff ← subCell A nodeSum zo
    updAt bins sp (addCell A diff)

/-- `feateur_histogram.py` 151-155: only features known to be enabled are corrected. -/
def zeroFixIf (A : Arith α) (sparse : Dict Nat Nat) (nodeSum zo : HCell α) (fid : Nat)
    (bins : List (HCell α)) (en : Bool) : Except PyErr (List (HCell α)) :=
  if en then zeroFix A sparse nodeSum zo fid bins else .ok bins

/-- `feateur_histogram.py` 150-155 for one node; `zos` are the sums over stored entries. -/
def zeroFixNode (A : Arith α) (valid : Option (List Bool)) (sparse : Dict Nat Nat) (nodeSum : HCell α) :
    Nat → List (HCell α) → List (List (HCell α)) → Except PyErr (List (List (HCell α)))
  | _, [], fh => .ok fh
  | _, _ :: _, [] => .error .indexError
  | fid, z :: zs, bins :: fh => do
    let en ← isEnabled valid fid
    let bins' ← zeroFixIf A sparse nodeSum z fid bins en
    let rest ← zeroFixNode A valid sparse nodeSum (fid + 1) zs fh
    pure (bins' :: rest)

/-- `feateur_histogram.py` 149-155. -/
def zeroFixAll (A : Arith α) (valid : Option (List Bool)) (sparse : Dict Nat Nat) :
    List (HCell α) → List (List (HCell α)) → Hist α → Except PyErr (Hist α)
  | [], _, h => .ok h
  | s :: ss, z :: zs, fh :: h => do
    let fh' ← zeroFixNode A valid sparse s 0 z fh
    let rest ← zeroFixAll A valid sparse ss zs h
    pure (fh' :: rest)
  | _ :: _, _, _ => .error .indexError

/-- `feateur_histogram.py` 85-157: `batch_calculate_histogram` on the records of a partition.
Without any node to split, line 130 uses an unassigned variable. -/
def batch (A : Arith α) (splits : List (List Rat)) (sparse : Dict Nat Nat)
    (valid : Option (List Bool)) (nodeMap : Dict Nat Nat)
    (kvs : List ((SparseVec Cell × Nat × Nat) × α × α)) : Except PyErr (Hist α) := do
  let records := collectRecords nodeMap kvs
  let nodeNum := nodeMap.length
  let tmpl ← template A valid 0 splits
  if nodeNum = 0 then .error .nameError
  else
    let acc : Acc α := ⟨List.replicate nodeNum tmpl,
      List.replicate nodeNum (List.replicate splits.length (zeroCell A)),
      List.replicate nodeNum (zeroCell A)⟩
    let acc ← recordLoop A valid nodeMap records acc
    zeroFixAll A valid sparse acc.nodeSum acc.zeroOptim acc.hist

/-- `feateur_histogram.py` 50-73.  The joined table is one partition, so `mapPartitions`
returns a one-element table and `reduce` returns that element unchanged
(`aggregate_histogram` is never called; see `C22_aggregate`). -/
def calculate {K : Type} [DecidableEq K] (A : Arith α) (splits : List (List Rat))
    (sparse : Dict Nat Nat) (valid : Option (List Bool)) (nodeMap : Dict Nat Nat)
    (dataBin : DTable K (SparseVec Cell × Nat × Nat)) (gh : DTable K (α × α)) :
    Except PyErr (Hist α) := do
  let joined ← dataBin.join gh (fun v w => (v, w))
  batch A splits sparse valid nodeMap joined.data.values

/-- `feateur_histogram.py` 44-46 for one feature: each bin adds the (already accumulated)
previous one. -/
def accBins (A : Arith α) : HCell α → List (HCell α) → Except PyErr (List (HCell α))
  | _, [] => .ok []
  | p, c :: cs => do
    let c' ← addCell A p c
    let r ← accBins A c' cs
    pure (c' :: r)

/-- `feateur_histogram.py` 44-46: the first bin stays. -/
def accFeature (A : Arith α) : List (HCell α) → Except PyErr (List (HCell α))
  | [] => .ok []
  | c :: cs => do
    let r ← accBins A c cs
    pure (c :: r)

/-- Applies a function that may raise to every element. -/
def forEach {β γ : Type} (f : β → Except PyErr γ) : List β → Except PyErr (List γ)
  | [] => .ok []
  | x :: xs => do
    let y ← f x
    let ys ← forEach f xs
    pure (y :: ys)

/-- `feateur_histogram.py` 40-48: `accumulate_histogram`. -/
def accumulate (A : Arith α) (h : Hist α) : Except PyErr (Hist α) :=
  forEach (forEach (accFeature A)) h

/-- `feateur_histogram.py` 80-81 for two lists of bins. -/
def aggBins (A : Arith α) : List (HCell α) → List (HCell α) → Except PyErr (List (HCell α))
  | [], _ => .ok []
  | _ :: _, [] => .error .indexError
  | c :: cs, d :: ds => do
    let x ← addCell A d c
    let r ← aggBins A cs ds
    pure (x :: r)

/-- Combines two lists position by position, as the index loops of lines 77-81 do. -/
def aggList {β : Type} (f : β → β → Except PyErr β) : List β → List β → Except PyErr (List β)
  | [], _ => .ok []
  | _ :: _, [] => .error .indexError
  | x :: xs, y :: ys => do
    let z ← f x y
    let r ← aggList f xs ys
    pure (z :: r)

/-- `feateur_histogram.py` 75-83: `aggregate_histogram`. -/
def aggregate (A : Arith α) (h1 h2 : Hist α) : Except PyErr (Hist α) :=
  aggList (aggList (aggBins A)) h1 h2

/-- `hetero_decision_tree_guest.py` 479-483 (and `..._host.py` 319-323): positions of the
nodes to split. -/
def nodeMapLoop : Nat → List Nat → Dict Nat Nat → Dict Nat Nat
  | _, [], m => m
  | i, id :: ids, m => nodeMapLoop (i + 1) ids (m.set id i)

/-- `node_map` of a batch of node ids. -/
def nodeMapOf (ids : List Nat) : Dict Nat Nat := nodeMapLoop 0 ids []

/-- `get_histograms` of either party (`hetero_decision_tree_guest.py` 139-146,
`hetero_decision_tree_host.py` 109-119) on the joined table. -/
def getHistograms {K : Type} [DecidableEq K] (A : Arith α) (splits : List (List Rat))
    (sparse : Dict Nat Nat) (valid : Option (List Bool)) (ids : List Nat)
    (dataBin : DTable K (SparseVec Cell × Nat × Nat)) (gh : DTable K (α × α)) :
    Except PyErr (Hist α) := do
  let h ← calculate A splits sparse valid (nodeMapOf ids) dataBin gh
  accumulate A h

end Histogram
end Verif
