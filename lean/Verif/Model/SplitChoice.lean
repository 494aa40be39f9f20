import Verif.Model.Splitter
import Verif.Model.EncHistogram

/-!
# Choosing the split of a node among guest and hosts

`ml/tree/hetero_decision_tree_guest.py` 201-235 and 414-447,
`ml/tree/hetero_decision_tree_host.py` 145-162 and 325-333.  Messages are passed as values; the
order in which they are exchanged is the subject of C31.
-/

set_option autoImplicit false

namespace Verif
namespace DTree

open Histogram (HCell Hist getAt)
open Quantile (floatZero)

/-- The guest's encrypter (`hetero_decision_tree_guest.py` 148-152).  `enc` takes a label for the
random draw: host and position in the batch.  `zero` is the Python int `0` as a value of the
ciphertext type (default of the sums in `SplitInfo`). -/
structure Cipher (α : Type) where
  zero : α
  enc : Nat × Nat → Rat → Except PyErr α
  dec : α → Except PyErr Rat

variable {α : Type}

/-- `hetero_decision_tree_guest.py` 208-219: the loop; `best` is `(best_idx, best_gain)`. -/
def hostScan (cfg : Config) (C : Cipher α) (g h : Rat) :
    Nat → List (α × α) → Int × Rat → Except PyErr (Int × Rat)
  | _, [], best => .ok best
  | i, c :: cs, best =>
    match C.dec c.1 with
    | .error e => .error e
    | .ok gl =>
      match C.dec c.2 with
      | .error e => .error e
      | .ok hl =>
        match splitGain cfg.rnd cfg.regLambda g h gl hl (cfg.rnd (g - gl)) (cfg.rnd (h - hl)) with
        | .error e => .error e
        | .ok gain =>
          if gain > cfg.minImpurity ∧ gain > best.2 then hostScan cfg C g h (i + 1) cs (i, gain)
          else hostScan cfg C g h (i + 1) cs best

/-- `hetero_decision_tree_guest.py` 201-222 -/
def findHostSplit (cfg : Config) (C : Cipher α) (label : Nat × Nat) (node : Rat × Rat)
    (cands : List (α × α)) : Except PyErr (Int × α) := do
  let best ← hostScan cfg C node.1 node.2 0 cands (-1, cfg.rnd (cfg.minImpurity - floatZero))
  let g ← C.enc label best.2
  pure (best.1, g)

/-- `hetero_decision_tree_guest.py` 229-233 for host number `j`: `zip` stops at the shorter
list. -/
def bestForHost (cfg : Config) (C : Cipher α) (j : Nat) :
    Nat → List (Rat × Rat) → List (List (α × α)) → Except PyErr (List (Int × α))
  | i, n :: ns, c :: cs => do
    let b ← findHostSplit cfg C (j, i) n c
    let bs ← bestForHost cfg C j (i + 1) ns cs
    pure (b :: bs)
  | _, _, _ => .ok []

/-- Python `l[i]` for an int `i` (negative indices count from the end). -/
def getAtInt {β : Type} (l : List β) (i : Int) : Except PyErr β :=
  if 0 ≤ i then getAt l i.toNat
  else if 0 ≤ i + l.length then getAt l (i + l.length).toNat
  else .error .indexError

/-- `hetero_decision_tree_host.py` 149-158 for one node: the split proposed to the guest, and
the host's `split_maskdict` afterwards. -/
def finalSplit (C : Cipher α) (site : Site) (mask : Dict Nat Int) (nid : Nat)
    (cands : List (SplitInfo α Unit)) (best : Int × α) :
    Except PyErr (SplitInfo α α × Dict Nat Int) :=
  if best.1 ≠ -1 then
    match getAtInt cands best.1 with
    | .error e => .error e
    | .ok s =>
      if s.site ≠ site then .error .assertionError
      else match s.fid, s.bid with
        | none, _ => .error .assertionError
        | some f, some b => .ok (⟨s.site, some f, none, s.sumGrad, s.sumHess, best.2⟩, mask.set nid b)
        | some f, none => .ok (⟨s.site, some f, none, s.sumGrad, s.sumHess, best.2⟩, mask)
  else .ok (⟨site, some (-1), some (-1), C.zero, C.zero, best.2⟩, mask)

/-- `hetero_decision_tree_host.py` 148-160; `ids` are the ids of `cur_split_nodes`. -/
def finalSplits (C : Cipher α) (site : Site) :
    Dict Nat Int → List Nat → List (List (SplitInfo α Unit)) → List (Int × α) →
      Except PyErr (List (SplitInfo α α) × Dict Nat Int)
  | mask, _, [], _ => .ok ([], mask)
  | _, _, _ :: _, [] => .error .indexError
  | mask, nid :: ids, c :: cs, b :: bs => do
    let (s, mask) ← finalSplit C site mask nid c b
    let (ss, mask) ← finalSplits C site mask ids cs bs
    pure (s :: ss, mask)
  | _, [], _ :: _, _ :: _ => .error .indexError

/-- `hetero_decision_tree_guest.py` 417-421: the loop over the remaining hosts; `best` is
`(best_gain_host, the split info at best_gain_host_idx)`. -/
def bestHost (C : Cipher α) : List (SplitInfo α α) → Rat × SplitInfo α α →
    Except PyErr (Rat × SplitInfo α α)
  | [], best => .ok best
  | s :: ss, best =>
    match C.dec s.gain with
    | .error e => .error e
    | .ok gain => if best.1 < gain then bestHost C ss (gain, s) else bestHost C ss best

/-- `hetero_decision_tree_guest.py` 414-431 (`splitinfo_guest_host[0]` is the guest's). -/
def findBestGuestHost (rnd : Rat → Rat) (C : Cipher α) (guest : SplitInfo (Option Rat) Rat)
    (hosts : List (SplitInfo α α)) : Except PyErr (SplitInfo (Option Rat) Rat) :=
  match hosts with
  | [] => .error .indexError
  | s :: ss =>
    match C.dec s.gain with
    | .error e => .error e
    | .ok gain =>
      match bestHost C (s :: ss) (gain, s) with
      | .error e => .error e
      | .ok (bestGain, best) =>
        if guest.gain ≥ rnd (bestGain - floatZero) then .ok guest
        else match C.dec best.sumGrad with
          | .error e => .error e
          | .ok g =>
            match C.dec best.sumHess with
            | .error e => .error e
            | .ok h => .ok ⟨best.site, best.fid, best.bid, some g, some h, bestGain⟩

/-- `hetero_decision_tree_guest.py` 438-439: `[splitinfo_host[j][i] for j]`. -/
def column (hosts : List (List (SplitInfo α α))) (i : Nat) : Except PyErr (List (SplitInfo α α)) :=
  evalList (fun l => getAt l i) hosts

/-- `hetero_decision_tree_guest.py` 433-447 -/
def mergeLoop (rnd : Rat → Rat) (C : Cipher α) (hosts : List (List (SplitInfo α α))) :
    Nat → List (SplitInfo (Option Rat) Rat) → Except PyErr (List (SplitInfo (Option Rat) Rat))
  | _, [] => .ok []
  | i, g :: gs => do
    let col ← column hosts i
    let b ← findBestGuestHost rnd C g col
    let bs ← mergeLoop rnd C hosts (i + 1) gs
    pure (b :: bs)

/-- A host while a batch of nodes is processed. -/
structure HostSide (α : Type) where
  idx : Nat
  valid : List Bool
  hists : Hist α
  mask : Dict Nat Int

/-- One host's part of a batch (`hetero_decision_tree_host.py` 327-333 with
`hetero_decision_tree_guest.py` 224-235 answering): its final split infos and mask dictionary.
`j` is the position of the host in the guest's list. -/
def hostBatch (cfg : Config) (C : Cipher α) (ids : List Nat) (sums : List (Rat × Rat)) (j : Nat)
    (H : HostSide α) : Except PyErr (List (SplitInfo α α) × Dict Nat Int) := do
  let (infos, encs) ← findSplitHost cfg H.valid (.host H.idx) H.hists
  let bests ← bestForHost cfg C j 0 sums encs
  finalSplits C (.host H.idx) H.mask ids infos bests

/-- All hosts, in the guest's order. -/
def hostsBatch (cfg : Config) (C : Cipher α) (ids : List Nat) (sums : List (Rat × Rat)) :
    Nat → List (HostSide α) → Except PyErr (List (List (SplitInfo α α) × Dict Nat Int))
  | _, [] => .ok []
  | j, H :: Hs => do
    let r ← hostBatch cfg C ids sums j H
    let rs ← hostsBatch cfg C ids sums (j + 1) Hs
    pure (r :: rs)

/-- One batch of nodes (`hetero_decision_tree_guest.py` 485-493): the guest's best splits, the
hosts' answers, the merged choice; also the hosts' mask dictionaries afterwards. -/
def splitBatch (cfg : Config) (C : Cipher α) (ids : List Nat) (sums : List (Rat × Rat))
    (valid : List Bool) (hists : Hist Rat) (hosts : List (HostSide α)) :
    Except PyErr (List (SplitInfo (Option Rat) Rat) × List (Dict Nat Int)) := do
  let gs ← findSplit cfg valid hists
  let rs ← hostsBatch cfg C ids sums 0 hosts
  let best ← mergeLoop cfg.rnd C (rs.map Prod.fst) 0 gs
  pure (best, rs.map Prod.snd)

/-- The guest's encrypter in a Paillier run (`ml/secureprotol/encrypt.py` 162-195 used through
`hetero_decision_tree_guest.py` 148-152): encrypting a gain, a float; decrypting a ciphertext.
A bare int cannot be decrypted (`fate_paillier.py` 181-183, `TypeError`).  `draw` are the random
draws. -/
def paillierCipher (sk : Paillier.PrivKey) (draw : Nat × Nat → Int) : Cipher Histogram.Num where
  zero := .int 0
  enc label x := (Paillier.encrypt sk.pk (.float x) none (draw label)).map .enc
  dec
    | .int _ => .error .typeError
    | .enc X => (Paillier.decrypt sk X).map FP.Scalar.val

end DTree
end Verif
