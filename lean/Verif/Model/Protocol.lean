import Verif.Model.Network
import Verif.Model.Boost

/-!
# The programs of guest and hosts

`ml/tree/hetero_decision_tree_guest.py`, `ml/tree/hetero_decision_tree_host.py`,
`ml/tree/hetero_secureboosting_tree_guest.py`, `ml/tree/hetero_secureboosting_tree_host.py`, with
every `sync_*` call as a send or a receive on the connections of `federation/transfer_inst.py`.
`Model/Fit.lean`, `Model/Predict.lean` and `Model/Boost.lean` compose the same computations into
single functions; C31 shows that the programs below compute what those functions compute.

A party's program sees that party's data and settings only.
-/

set_option autoImplicit false

namespace Verif
namespace Network

open DTree
open Histogram (Arith getHistograms floats getAt)
open Binning (Cell SparseVec)

variable {K : Type} [DecidableEq K] {α : Type}

/-- What is sent.  The sender pickles a Python object without a tag; the constructors name the
places in the protocol. -/
inductive Msg (K α : Type) where
  | gradHess (t : DTable K (α × α))
  | nodes (ids : List Nat)
  | positions (t : DTable K Disp)
  | cands (c : List (List (α × α)))
  | bests (b : List (Int × α))
  | finals (s : List (SplitInfo α α))
  | questions (t : DTable K Disp)
  | answers (t : DTable K Disp)
  | tree (ns : List Node)
  | treeDim (n : Nat)
  | stop (b : Bool)
  | finish (b : Bool)
  | walking (t : DTable K PState)
  | walked (t : DTable K PState)

namespace Msg

/-! Using a received object as one of a certain kind.  For an object of another kind Python fails
sooner or later or computes nonsense; here it is an error at once. -/

def asGradHess : Msg K α → Except PyErr (DTable K (α × α))
  | .gradHess t => .ok t
  | _ => .error .typeError
def asNodes : Msg K α → Except PyErr (List Nat)
  | .nodes t => .ok t
  | _ => .error .typeError
def asPositions : Msg K α → Except PyErr (DTable K Disp)
  | .positions t => .ok t
  | _ => .error .typeError
def asCands : Msg K α → Except PyErr (List (List (α × α)))
  | .cands t => .ok t
  | _ => .error .typeError
def asBests : Msg K α → Except PyErr (List (Int × α))
  | .bests t => .ok t
  | _ => .error .typeError
def asFinals : Msg K α → Except PyErr (List (SplitInfo α α))
  | .finals t => .ok t
  | _ => .error .typeError
def asQuestions : Msg K α → Except PyErr (DTable K Disp)
  | .questions t => .ok t
  | _ => .error .typeError
def asAnswers : Msg K α → Except PyErr (DTable K Disp)
  | .answers t => .ok t
  | _ => .error .typeError
def asTree : Msg K α → Except PyErr (List Node)
  | .tree t => .ok t
  | _ => .error .typeError
def asTreeDim : Msg K α → Except PyErr Nat
  | .treeDim t => .ok t
  | _ => .error .typeError
def asStop : Msg K α → Except PyErr Bool
  | .stop t => .ok t
  | _ => .error .typeError
def asFinish : Msg K α → Except PyErr Bool
  | .finish t => .ok t
  | _ => .error .typeError
def asWalking : Msg K α → Except PyErr (DTable K PState)
  | .walking t => .ok t
  | _ => .error .typeError
def asWalked : Msg K α → Except PyErr (DTable K PState)
  | .walked t => .ok t
  | _ => .error .typeError

end Msg

/-- A program of a party: `none` is the guest, `some i` the host at connection `i`. -/
abbrev Prog (K α R : Type) := Proc (Option Nat) (Msg K α) R

/-- `send_data` on one connection. -/
def sendTo (q : Option Nat) (m : Msg K α) : Prog K α Unit := .send q m (.done ())

/-- `recv_data` on one connection. -/
def recvAs {β : Type} (q : Option Nat) (dec : Msg K α → Except PyErr β) : Prog K α β :=
  .recv q fun m => lift (dec m)

/-- `send_data_to_hosts(data, -1)`, `transfer_inst.py` 87-108. -/
def sendAll (m : Msg K α) : List Nat → Prog K α Unit
  | [] => pure ()
  | i :: is => do
    sendTo (some i) m
    sendAll m is

/-- `recv_data_from_hosts(-1)`, `transfer_inst.py` 110-139. -/
def recvAll {β : Type} (dec : Msg K α → Except PyErr β) : List Nat → Prog K α (List β)
  | [] => pure []
  | i :: is => do
    let v ← recvAs (some i) dec
    let vs ← recvAll dec is
    pure (v :: vs)

/-- What the guest's tree works on. -/
structure GuestIn (K α : Type) where
  cfg : Config
  kind : ImpType
  maxDepth : Nat
  maxSplitNodes : Nat
  cipher : Nat → Nat → Cipher α
  party : Party K
  conns : Nat
  gh : DTable K (Rat × Rat)
  encGh : DTable K (α × α)

/-- What a host's tree works on: its data, the settings, the arithmetic of ciphertexts.  `zero` is
the int `0` as a value of the ciphertext type. -/
structure HostIn (K α : Type) where
  cfg : Config
  maxDepth : Nat
  maxSplitNodes : Nat
  arith : Arith α
  zero : Nat → Nat → α
  party : Party K

/-- The guest's part of a run. -/
def guestIn (S : Setup K α) : GuestIn K α :=
  ⟨S.cfg, S.kind, S.maxDepth, S.maxSplitNodes, S.cipher, S.guest, S.hosts.length, S.gh, S.encGh⟩

/-- A host's part of a run, with the same settings as the guest. -/
def hostIn (S : Setup K α) (H : Party K) : HostIn K α :=
  ⟨S.cfg, S.maxDepth, S.maxSplitNodes, S.arith, fun dep batch => (S.cipher dep batch).zero, H⟩

/-! ## Guest, one tree -/

/-- `federated_find_split`, `hetero_decision_tree_guest.py` 228-235: the answers to the hosts. -/
def answerHosts (cfg : Config) (C : Cipher α) (sums : List (Rat × Rat)) :
    Nat → List (List (List (α × α))) → Prog K α Unit
  | _, [] => pure ()
  | j, e :: es => do
    let b ← lift (bestForHost cfg C j 0 sums e)
    sendTo (some j) (.bests b)
    answerHosts cfg C sums (j + 1) es

/-- One batch, `hetero_decision_tree_guest.py` 474-493. -/
def guestBatch (G : GuestIn K α) (dep batch : Nat) (dataPos : DTable K (SparseVec Cell × Nat × Nat))
    (nodes : List Node) : Prog K α (List (SplitInfo (Option Rat) Rat)) := do
  let H ← lift (getHistograms (floats G.cfg.rnd) G.party.splits G.party.sparse (some G.party.valid)
    (nodes.map Node.id) dataPos G.gh)
  let gs ← lift (findSplit G.cfg G.party.valid H)
  let encs ← recvAll Msg.asCands (List.range G.conns)
  answerHosts G.cfg (G.cipher dep batch) (nodes.map fun n => (n.sumGrad, n.sumHess)) 0 encs
  let finals ← recvAll Msg.asFinals (List.range G.conns)
  lift (mergeLoop G.cfg.rnd (G.cipher dep batch) finals 0 gs)

/-- The batches of a level, `hetero_decision_tree_guest.py` 474-495 (`fuel` bounds their
number). -/
def guestBatches (G : GuestIn K α) (dep : Nat) (dataPos : DTable K (SparseVec Cell × Nat × Nat)) :
    Nat → Nat → List Node → Prog K α (List (SplitInfo (Option Rat) Rat))
  | _, _, [] => pure []
  | 0, _, _ :: _ => pure []
  | fuel + 1, batch, n :: ns => do
    let ss ← guestBatch G dep batch dataPos ((n :: ns).take G.maxSplitNodes)
    let rest ← guestBatches G dep dataPos fuel (batch + 1) ((n :: ns).drop G.maxSplitNodes)
    pure (ss ++ rest)

/-- What the guest keeps between two levels. -/
structure GuestState (K : Type) where
  grow : Grow
  disp : DTable K Disp
  weights : Option (DTable K Rat)

/-- `redispatch_node`, `hetero_decision_tree_guest.py` 369-407. -/
def guestRedispatch (G : GuestIn K α) (g : Grow) (dataPos : DTable K (SparseVec Cell × Nat × Nat))
    (weights : Option (DTable K Rat)) : Prog K α (GuestState K) := do
  let res ← lift (dataPos.mapValuesM (dispatchNode g.tree g.mask G.party.sparse))
  let toHost ← lift (res.filter (fun _ d => d.isAsk))
  let res ← lift (res.subtractByKey toHost)
  let leaf ← lift (res.filter (fun _ d => d.isLeaf))
  let leafW ← lift (leaf.mapValues Disp.weight)
  let weights ← lift (addWeights weights leafW)
  let res ← lift (res.subtractByKey leaf)
  sendAll (.questions toHost) (List.range G.conns)
  let answers ← recvAll Msg.asAnswers (List.range G.conns)
  let fromHosts ← lift (combine none answers)
  let disp ← lift (addPositions fromHosts res)
  pure ⟨g, disp, some weights⟩

/-- A level after the queue has been sent, `hetero_decision_tree_guest.py` 468-500. -/
def guestLevel (G : GuestIn K α) (dep : Nat) (reach : Bool) (st : GuestState K) :
    Prog K α (GuestState K) := do
  sendAll (.positions st.disp) (List.range G.conns)
  let pos ← lift (st.disp.mapValuesM unpackPos)
  let dataPos ← lift (G.party.data.join pos (fun v p => (v, p)))
  if G.maxSplitNodes = 0 then lift (.error .valueError)
  else do
    let ss ← guestBatches G dep dataPos st.grow.queue.length 0 st.grow.queue
    let g ← lift (updateQueue G.cfg G.kind reach ss st.grow)
    guestRedispatch G g dataPos st.weights

/-- The loop over the depths, `hetero_decision_tree_guest.py` 461-500; the queue is sent without
the sums of the nodes (238-242). -/
def guestLevels (G : GuestIn K α) : Nat → Nat → GuestState K → Prog K α (GuestState K)
  | 0, _, st => pure st
  | r + 1, dep, st => do
    sendAll (.nodes (st.grow.queue.map Node.id)) (List.range G.conns)
    if st.grow.queue.isEmpty then pure st
    else do
      let st ← guestLevel G dep (r = 0) st
      guestLevels G r (dep + 1) st

/-- What the guest has after training a tree. -/
structure GuestTree (K : Type) where
  tree : List Node
  mask : Dict Nat Rat
  weights : Option (DTable K Rat)
  imps : Dict (Site × Option Int) Rat
deriving DecidableEq, Repr

/-- `hetero_decision_tree_guest.py` 454-460 -/
def guestInit (G : GuestIn K α) : Except PyErr (GuestState K) := do
  let (g, h) ← gradHessSum G.cfg.rnd G.gh
  let w ← nodeWeight G.cfg.rnd G.cfg.regLambda g h
  let disp ← G.party.data.mapValues (fun _ => Disp.at 1 0)
  pure ⟨⟨[], [Node.fresh 0 g h w], 0, [], []⟩, disp, none⟩

/-- `HeteroDecisionTreeGuest.fit`, `hetero_decision_tree_guest.py` 449-507. -/
def guestFit (G : GuestIn K α) : Prog K α (GuestTree K) := do
  sendAll (.gradHess G.encGh) (List.range G.conns)
  let st ← lift (guestInit G)
  let st ← guestLevels G G.maxDepth 0 st
  sendAll (.tree st.grow.tree) (List.range G.conns)
  let m ← lift (convert .guest G.party.splits st.grow.mask st.grow.tree [])
  pure ⟨st.grow.tree, m, st.weights, st.grow.imps⟩

/-! ## Host, one tree -/

/-- A host has no key. -/
def noKey (zero : α) : Cipher α :=
  ⟨zero, fun _ _ => .error .attributeError, fun _ => .error .attributeError⟩

/-- One batch, `hetero_decision_tree_host.py` 317-335: the mask dictionary afterwards. -/
def hostBatchP (P : HostIn K α) (egh : DTable K (α × α)) (dep batch : Nat)
    (data : DTable K (SparseVec Cell × Nat × Nat)) (ids : List Nat) (mask : Dict Nat Int) :
    Prog K α (Dict Nat Int) := do
  let E ← lift (getHistograms P.arith P.party.splits P.party.sparse (some P.party.valid) ids data egh)
  let s ← lift (findSplitHost P.cfg P.party.valid (.host P.party.idx) E)
  sendTo none (.cands s.2)
  let bests ← recvAs none Msg.asBests
  let f ← lift (finalSplits (noKey (P.zero dep batch)) (.host P.party.idx) mask ids s.1 bests)
  sendTo none (.finals f.1)
  pure f.2

/-- The batches of a level, `hetero_decision_tree_host.py` 314-337. -/
def hostBatches (P : HostIn K α) (egh : DTable K (α × α)) (dep : Nat)
    (data : DTable K (SparseVec Cell × Nat × Nat)) :
    Nat → Nat → List Nat → Dict Nat Int → Prog K α (Dict Nat Int)
  | _, _, [], mask => pure mask
  | 0, _, _ :: _, mask => pure mask
  | fuel + 1, batch, n :: ns, mask => do
    let mask ← hostBatchP P egh dep batch data ((n :: ns).take P.maxSplitNodes) mask
    hostBatches P egh dep data fuel (batch + 1) ((n :: ns).drop P.maxSplitNodes) mask

/-- A level after the queue has arrived, `hetero_decision_tree_host.py` 312-340. -/
def hostLevel (P : HostIn K α) (egh : DTable K (α × α)) (dep : Nat) (ids : List Nat)
    (mask : Dict Nat Int) : Prog K α (Dict Nat Int) := do
  let disp ← recvAs none Msg.asPositions
  let pos ← lift (disp.mapValuesM unpackPos)
  let data ← lift (P.party.data.join pos (fun v p => (v, p)))
  if P.maxSplitNodes = 0 then lift (.error .valueError)
  else do
    let mask ← hostBatches P egh dep data ids.length 0 ids mask
    let q ← recvAs none Msg.asQuestions
    let a ← lift (q.joinM P.party.data (dispatchHost (.host P.party.idx) mask P.party.sparse))
    sendTo none (.answers a)
    pure mask

/-- The loop over the depths, `hetero_decision_tree_host.py` 308-340. -/
def hostLevels (P : HostIn K α) (egh : DTable K (α × α)) :
    Nat → Nat → Dict Nat Int → Prog K α (Dict Nat Int)
  | 0, _, mask => pure mask
  | r + 1, dep, mask => do
    let ids ← recvAs none Msg.asNodes
    if ids.isEmpty then pure mask
    else do
      let mask ← hostLevel P egh dep ids mask
      hostLevels P egh r (dep + 1) mask

/-- `HeteroDecisionTreeHost.fit`, `hetero_decision_tree_host.py` 304-344: the tree and the host's
thresholds. -/
def hostFit (P : HostIn K α) : Prog K α (List Node × Dict Nat Rat) := do
  let egh ← recvAs none Msg.asGradHess
  let mask ← hostLevels P egh P.maxDepth 0 []
  let tree ← recvAs none Msg.asTree
  let m ← lift (convert (.host P.party.idx) P.party.splits mask tree [])
  pure (tree, m)

/-! ## Boosting -/

/-- A tree as one party keeps it (`get_model_param`, guest 527-541, host 385-399). -/
def savePart (tree : List Node) (mask : Dict Nat Rat) :
    Except PyErr (List NodeParam × Dict Nat Rat) := do
  let nodes ← evalList saveNode tree
  let m ← saveMask mask
  pure (nodes, m)

/-- What the guest boosts with; see `DTree.Boost`. -/
structure GuestBoost (K α L : Type) where
  base : GuestIn K α
  valid : Nat → Nat → List Bool
  cipher : Nat → Nat → Nat → Nat → Cipher α
  enc : Nat → Nat → DTable K (Rat × Rat) → Except PyErr (DTable K (α × α))
  gradHess : L → List Rat → Except PyErr (List Rat × List Rat)
  loss : DTable K L → DTable K (List Rat) → Except PyErr Rat
  rounds : Nat
  dim : Nat
  rate : Rate
  early : Bool
  tol : Rat

/-- What a host boosts with. -/
structure HostBoost (K α : Type) where
  base : HostIn K α
  valid : Nat → Nat → List Bool
  zero : Nat → Nat → Nat → Nat → α
  rounds : Nat
  early : Bool

/-- State of the guest between two trees. -/
structure GuestBoostState (K : Type) where
  scores : DTable K (List Rat)
  trees : List (List NodeParam × Dict Nat Rat)
  imps : Dict (Site × Option Int) Rat
  losses : List Rat
  pre : Option Rat
deriving DecidableEq, Repr

variable {L : Type}

/-- The guest's part of a boosting run. -/
def guestBoostIn (B : Boost K α L) : GuestBoost K α L :=
  ⟨guestIn B.base, fun i t => B.valid i t none, B.cipher, B.enc, B.gradHess, B.loss, B.rounds, B.dim,
    B.rate, B.early, B.tol⟩

/-- The part of the host at connection `j`, with the same settings as the guest. -/
def hostBoostIn (B : Boost K α L) (j : Nat) (H : Party K) : HostBoost K α :=
  ⟨hostIn B.base H, fun i t => B.valid i t (some j), fun i t dep batch => (B.cipher i t dep batch).zero,
    B.rounds, B.early⟩

/-- What the guest's tree `t` of round `i` works on, `hetero_secureboosting_tree_guest.py`
262-270. -/
def GuestBoost.treeIn (B : GuestBoost K α L) (i t : Nat) (gh : DTable K (Rat × Rat))
    (egh : DTable K (α × α)) : GuestIn K α :=
  { B.base with
    gh := gh
    encGh := egh
    cipher := B.cipher i t
    party := { B.base.party with valid := B.valid i t } }

/-- The same for a host, `hetero_secureboosting_tree_host.py` 91-99. -/
def HostBoost.treeIn (B : HostBoost K α) (i t : Nat) : HostIn K α :=
  { B.base with
    zero := B.zero i t
    party := { B.base.party with valid := B.valid i t } }

/-- One tree, `hetero_secureboosting_tree_guest.py` 260-280. -/
def guestTree (B : GuestBoost K α L) (gh : DTable K (List Rat × List Rat)) (i t : Nat)
    (st : GuestBoostState K) : Prog K α (GuestBoostState K) := do
  let g ← lift (gh.mapValuesM (component t))
  let e ← lift (B.enc i t g)
  let F ← guestFit (B.treeIn i t g e)
  let P ← lift (savePart F.tree F.mask)
  let scores ← lift (updateF B.rate t st.scores F.weights)
  pure { st with scores := scores, trees := st.trees ++ [P], imps := addImportances st.imps F.imps }

/-- The trees of a round. -/
def guestTrees (B : GuestBoost K α L) (gh : DTable K (List Rat × List Rat)) (i : Nat) :
    Nat → Nat → GuestBoostState K → Prog K α (GuestBoostState K)
  | 0, _, st => pure st
  | r + 1, t, st => do
    let st ← guestTree B gh i t st
    guestTrees B gh i r (t + 1) st

/-- A round up to the loss, `hetero_secureboosting_tree_guest.py` 258-284. -/
def guestRound (B : GuestBoost K α L) (y : DTable K L) (i : Nat) (st : GuestBoostState K) :
    Prog K α (GuestBoostState K) := do
  let gh ← lift (y.joinM st.scores B.gradHess)
  let st ← guestTrees B gh i B.dim 0 st
  let l ← lift (B.loss y st.scores)
  pure { st with losses := st.losses ++ [l] }

/-- `check_convergence` of the last loss, `hetero_secureboosting_tree_guest.py` 108-113, 287-288. -/
def guestConverge (tol : Rat) (st : GuestBoostState K) : Bool × GuestBoostState K :=
  match st.losses.getLast? with
  | none => (false, st)
  | some l =>
    let c := isConverge tol st.pre l
    (c.1, { st with pre := c.2 })

/-- The loop over rounds, `hetero_secureboosting_tree_guest.py` 256-292. -/
def guestLoop (B : GuestBoost K α L) (y : DTable K L) :
    Nat → Nat → GuestBoostState K → Prog K α (GuestBoostState K)
  | 0, _, st => pure st
  | r + 1, i, st => do
    let st ← guestRound B y i st
    if B.early then do
      let c := guestConverge B.tol st
      sendAll (.stop c.1) (List.range B.base.conns)
      if c.1 then pure c.2 else guestLoop B y r (i + 1) c.2
    else guestLoop B y r (i + 1) st

/-- `HeteroSecureBoostingTreeGuest.fit` from line 251 on. -/
def guestBoost (B : GuestBoost K α L) (init : List Rat) (y : DTable K L) :
    Prog K α (GuestBoostState K) := do
  let scores ← lift (y.mapValues (fun _ => init))
  sendAll (.treeDim B.dim) (List.range B.base.conns)
  guestLoop B y B.rounds 0 ⟨scores, [], [], [], none⟩

/-- The trees of a round, `hetero_secureboosting_tree_host.py` 89-105. -/
def hostTrees (B : HostBoost K α) (i : Nat) :
    Nat → Nat → List (List NodeParam × Dict Nat Rat) → Prog K α (List (List NodeParam × Dict Nat Rat))
  | 0, _, trees => pure trees
  | r + 1, t, trees => do
    let F ← hostFit (B.treeIn i t)
    let P ← lift (savePart F.1 F.2)
    hostTrees B i r (t + 1) (trees ++ [P])

/-- The loop over rounds, `hetero_secureboosting_tree_host.py` 87-113. -/
def hostLoop (B : HostBoost K α) (dim : Nat) :
    Nat → Nat → List (List NodeParam × Dict Nat Rat) → Prog K α (List (List NodeParam × Dict Nat Rat))
  | 0, _, trees => pure trees
  | r + 1, i, trees => do
    let trees ← hostTrees B i dim 0 trees
    if B.early then do
      let s ← recvAs none Msg.asStop
      if s then pure trees else hostLoop B dim r (i + 1) trees
    else hostLoop B dim r (i + 1) trees

/-- `HeteroSecureBoostingTreeHost.fit` from line 85 on: `tree_dim` and the trees. -/
def hostBoost (B : HostBoost K α) : Prog K α (Nat × List (List NodeParam × Dict Nat Rat)) := do
  let dim ← recvAs none Msg.asTreeDim
  let trees ← hostLoop B dim B.rounds 0 []
  pure (dim, trees)

/-! ## Prediction -/

/-- `HeteroDecisionTreeGuest.predict`, `hetero_decision_tree_guest.py` 611-642. -/
def guestPredictLoop (conns : Nat) (tree : List Node) (mask : Dict Nat Rat)
    (rows : DTable K (SparseVec Rat)) (fuel : Nat) :
    Nat → DTable K PState → Option (DTable K Rat) → Prog K α (DTable K Rat)
  | 0, _, _ => lift (.error .unfinished)
  | r + 1, todo, result => do
    let moved ← lift (todo.joinM rows (traverseGuest tree mask fuel))
    let leaf ← lift (moved.filter (fun _ s => s.isWeight))
    let leafW ← lift (leaf.mapValues PState.getWeight)
    let result ← lift (addWeights result leafW)
    let todo ← lift (moved.subtractByKey leaf)
    if todo.count = 0 then do
      sendAll (.finish true) (List.range conns)
      pure result
    else do
      sendAll (.finish false) (List.range conns)
      sendAll (.walking todo) (List.range conns)
      let answers ← recvAll Msg.asWalked (List.range conns)
      let todo ← lift (mergeWalks todo answers)
      guestPredictLoop conns tree mask rows fuel r todo (some result)

/-- `hetero_decision_tree_guest.py` 605-644 -/
def guestPredictTree (conns : Nat) (tree : List Node) (mask : Dict Nat Rat)
    (rows : DTable K (SparseVec Rat)) (fuel : Nat) : Prog K α (DTable K Rat) := do
  let todo ← lift (rows.mapValues (fun _ => PState.node 0 1))
  guestPredictLoop conns tree mask rows fuel fuel todo none

/-- `HeteroDecisionTreeHost.predict`, `hetero_decision_tree_host.py` 346-367. -/
def hostPredictLoop (site : Site) (tree : List Node) (mask : Dict Nat Rat)
    (rows : DTable K (SparseVec Rat)) (fuel : Nat) : Nat → Prog K α Unit
  | 0 => lift (.error .unfinished)
  | r + 1 => do
    let tag ← recvAs none Msg.asFinish
    if tag then pure ()
    else do
      let todo ← recvAs none Msg.asWalking
      let t ← lift (todo.joinM rows (traverseHost tree mask site fuel))
      sendTo none (.walked t)
      hostPredictLoop site tree mask rows fuel r

/-- The trees of a round, `hetero_secureboosting_tree_guest.py` 305-313. -/
def guestPredictRound (conns : Nat) (rate : Rate) (dim : Nat)
    (trees : List (List NodeParam × Dict Nat Rat)) (rows : DTable K (SparseVec Rat)) (fuel i : Nat) :
    Nat → Nat → DTable K (List Rat) → Prog K α (DTable K (List Rat))
  | 0, _, scores => pure scores
  | r + 1, t, scores => do
    let P ← lift (getAt trees (i * dim + t))
    let w ← guestPredictTree conns (P.1.map loadNode) P.2 rows fuel
    let scores ← lift (updateF rate t scores (some w))
    guestPredictRound conns rate dim trees rows fuel i r (t + 1) scores

/-- All rounds, `hetero_secureboosting_tree_guest.py` 304-313. -/
def guestPredictRounds (conns : Nat) (rate : Rate) (dim : Nat)
    (trees : List (List NodeParam × Dict Nat Rat)) (rows : DTable K (SparseVec Rat)) (fuel : Nat) :
    Nat → Nat → DTable K (List Rat) → Prog K α (DTable K (List Rat))
  | 0, _, scores => pure scores
  | r + 1, i, scores => do
    let scores ← guestPredictRound conns rate dim trees rows fuel i dim 0 scores
    guestPredictRounds conns rate dim trees rows fuel r (i + 1) scores

/-- `predict` up to the scores, `hetero_secureboosting_tree_guest.py` 315-318, 298-313. -/
def guestPredict (conns : Nat) (rate : Rate) (dim : Nat) (init : List Rat)
    (trees : List (List NodeParam × Dict Nat Rat)) (table : DTable K (List Rat)) (fuel : Nat) :
    Prog K α (DTable K (List Rat)) := do
  let rows ← lift (alignRows table)
  let scores ← lift (rows.mapValues (fun _ => init))
  if dim = 0 then lift (.error .zeroDivision)
  else guestPredictRounds conns rate dim trees rows fuel (trees.length / dim) 0 scores

/-- The trees of a round, `hetero_secureboosting_tree_host.py` 122-131. -/
def hostPredictRound (idx dim : Nat) (trees : List (List NodeParam × Dict Nat Rat))
    (rows : DTable K (SparseVec Rat)) (fuel i : Nat) : Nat → Nat → Prog K α Unit
  | 0, _ => pure ()
  | r + 1, t => do
    let P ← lift (getAt trees (i * dim + t))
    hostPredictLoop (.host idx) (P.1.map loadNode) P.2 rows fuel fuel
    hostPredictRound idx dim trees rows fuel i r (t + 1)

/-- All rounds, `hetero_secureboosting_tree_host.py` 120-131. -/
def hostPredictRounds (idx dim : Nat) (trees : List (List NodeParam × Dict Nat Rat))
    (rows : DTable K (SparseVec Rat)) (fuel : Nat) : Nat → Nat → Prog K α Unit
  | 0, _ => pure ()
  | r + 1, i => do
    hostPredictRound idx dim trees rows fuel i dim 0
    hostPredictRounds idx dim trees rows fuel r (i + 1)

/-- `hetero_secureboosting_tree_host.py` 117-133 -/
def hostPredict (idx dim : Nat) (trees : List (List NodeParam × Dict Nat Rat))
    (table : DTable K (List Rat)) (fuel : Nat) : Prog K α Unit := do
  let rows ← lift (alignRows table)
  if dim = 0 then lift (.error .zeroDivision)
  else hostPredictRounds idx dim trees rows fuel (trees.length / dim) 0

/-! ## The parties together -/

/-- How a party ended; `absent` for a connection that does not exist. -/
inductive Outcome (G H : Type) where
  | guest (g : G)
  | host (h : H)
  | absent

/-- A guest and its hosts, no message on the way. -/
def lock {R : Type} (idle : R) (g : Prog K α R) (hs : List (Prog K α R)) :
    Net (Option Nat) (Msg K α) R where
  state
    | none => g
    | some i => (hs[i]?).getD (.done idle)
  chan _ := []

/-- The start of a run. -/
def system {G H : Type} (g : Prog K α G) (hs : List (Prog K α H)) :
    Net (Option Nat) (Msg K α) (Outcome G H) :=
  lock .absent (do let r ← g; pure (.guest r)) (hs.map fun h => do let r ← h; pure (.host r))

end Network
end Verif
