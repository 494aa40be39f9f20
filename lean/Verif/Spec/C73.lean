import Verif.Spec.C32

/-! # Specification vocabulary for renaming samples and hosts -/

set_option autoImplicit false

namespace Verif
namespace Spec

open DTree

variable {K K' : Type} {α : Type}

/-- A table with every identifier renamed and every value translated. -/
def renTable {V W : Type} (κ : K → K') (f : V → W) (t : DTable K V) : DTable K' W :=
  ⟨t.data.map fun p => (κ p.1, f p.2)⟩

/-- The name of a party after the hosts have been renumbered. -/
def renSite (σ : Nat → Nat) : Site → Site
  | .guest => .guest
  | .host j => .host (σ j)

def renNode (σ : Nat → Nat) (n : Node) : Node := { n with site := renSite σ n.site }

def renParty (σ : Nat → Nat) (κ : K → K') (P : Party K) : Party K' :=
  ⟨σ P.idx, P.splits, P.sparse, P.valid, renTable κ id P.data⟩

/-- The same run with other sample identifiers and other host numbers. -/
def renSetup (σ : Nat → Nat) (κ : K → K') (S : Setup K α) : Setup K' α where
  cfg := S.cfg
  kind := S.kind
  maxDepth := S.maxDepth
  maxSplitNodes := S.maxSplitNodes
  arith := S.arith
  cipher := S.cipher
  guest := renParty id κ S.guest
  hosts := S.hosts.map (renParty σ κ)
  gh := renTable κ id S.gh
  encGh := renTable κ id S.encGh

/-- Feature importances under the new names. -/
def renImps (σ : Nat → Nat) (imps : Dict (Site × Option Int) Rat) : Dict (Site × Option Int) Rat :=
  imps.map fun p => ((renSite σ p.1.1, p.1.2), p.2)

/-- The same tree with other sample identifiers and other host numbers. -/
def renFitted (σ : Nat → Nat) (κ : K → K') (F : Fitted K) : Fitted K' where
  tree := F.tree.map (renNode σ)
  guestMask := F.guestMask
  hostMasks := F.hostMasks
  weights := F.weights.map (renTable κ id)
  imps := renImps σ F.imps

/-- The same saved tree with other host numbers. -/
def renSaved (σ : Nat → Nat) (P : Saved) : Saved :=
  { P with nodes := P.nodes.map fun n => { n with site := renSite σ n.site } }

/-- `B'` is the run `B` with other sample identifiers and other host numbers: the same settings and
draws, encryption and loss go by the values and not by the names. -/
structure Renamed {L : Type} (σ : Nat → Nat) (κ : K → K') (B : Boost K α L) (B' : Boost K' α L) :
    Prop where
  base : B'.base = renSetup σ κ B.base
  valid : B'.valid = B.valid
  cipher : B'.cipher = B.cipher
  enc : ∀ i t g, B'.enc i t (renTable κ id g) = (B.enc i t g).map (renTable κ id)
  gradHess : B'.gradHess = B.gradHess
  loss : ∀ y s, B'.loss (renTable κ id y) (renTable κ id s) = B.loss y s
  rounds : B'.rounds = B.rounds
  dim : B'.dim = B.dim
  rate : B'.rate = B.rate
  early : B'.early = B.early
  tol : B'.tol = B.tol

/-- The result of a run under the new names. -/
def renResult (σ : Nat → Nat) (κ : K → K') (R : BoostState K) : BoostState K' where
  scores := renTable κ id R.scores
  trees := R.trees.map (renSaved σ)
  imps := renImps σ R.imps
  losses := R.losses
  pre := R.pre
  flags := R.flags

end Spec
end Verif
