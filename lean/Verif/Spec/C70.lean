import Verif.Spec.C69

/-! # Specification vocabulary for comparing two runs on the same data -/

set_option autoImplicit false

namespace Verif
namespace Spec

open DTree

variable {K : Type} [DecidableEq K] {α : Type}

/-- Training on the same data with the same limits, but with another rounding of floats, other keys and
random draws, another number of nodes per batch, another kind of importance. -/
def variant (S : Setup K α) (rnd : Rat → Rat) (kind : ImpType) (batch : Nat) (cipher : Nat → Nat → Cipher α)
    (encGh : DTable K (α × α)) : Setup K α :=
  { S with cfg := { S.cfg with rnd := rnd }, kind := kind, maxSplitNodes := batch, cipher := cipher, encGh := encGh }

/-- No admissible split of `A` is better by more than `δ` than this one. -/
def NearTop (S : Setup K α) (δ : Rat) (A : List K) (l : Rat × Rat) : Prop :=
  ∀ j f b l', OfferAt S A j f b l' →
    gain S.cfg.regLambda (sumKeys S.gh A) l' ≤ gain S.cfg.regLambda (sumKeys S.gh A) l + δ

/-- The decision at a node with the samples `A` is clear by a margin `δ`: either all gains are below the
minimum by `δ` or one is above it by more than `δ`; and all splits that are best up to `δ` divide
`A` in the same way. -/
def ClearAt (S : Setup K α) (δ : Rat) (A : List K) : Prop :=
  ((∀ j f b l, OfferAt S A j f b l → gain S.cfg.regLambda (sumKeys S.gh A) l ≤ S.cfg.minImpurity - δ) ∨
    ∃ j f b l, OfferAt S A j f b l ∧ S.cfg.minImpurity + δ < gain S.cfg.regLambda (sumKeys S.gh A) l) ∧
  ∀ j P f b l j' P' f' b' l', OfferAt S A j f b l → OfferAt S A j' f' b' l' → NearTop S δ A l → NearTop S δ A l' →
    partyAt S j = some P → partyAt S j' = some P' →
    ∀ k ∈ A, binAt P f k ≤ (b : Rat) ↔ binAt P' f' k ≤ (b' : Rat)

/-- The decision is clear at every node of the tree above the depth limit. -/
def ClearTree (S : Setup K α) (δ : Rat) (F : Fitted K) (rows : Option Nat → DTable K (List Rat)) : Prop :=
  ∀ i d, DepthAt F.tree i d → d < S.maxDepth → ∀ A, (Lists A fun k => k ∈ S.gh.data.keys ∧ Reaches S F rows k i) → ClearAt S δ A

/-- Two trees of the same shape that divide the samples in the same way, with sums and weights that
differ by at most `a`, `b` and `w`. -/
structure TreesAgree (S : Setup K α) (rows : Option Nat → DTable K (List Rat)) (a b w : Rat) (F F' : Fitted K) : Prop where
  length : F.tree.length = F'.tree.length
  nodes : ∀ (i : Nat) n n', F.tree[i]? = some n → F'.tree[i]? = some n' →
    n'.id = n.id ∧ n'.isLeaf = n.isLeaf ∧ n'.left = n.left ∧ n'.right = n.right ∧
    |n.sumGrad - n'.sumGrad| ≤ a ∧ |n.sumHess - n'.sumHess| ≤ b ∧ |n.weight - n'.weight| ≤ w
  reach : ∀ k ∈ S.gh.data.keys, ∀ i, Reaches S F rows k i ↔ Reaches S F' rows k i
  weights : ∀ k ∈ S.gh.data.keys, ∃ x x', trainedWeight F k = some x ∧ trainedWeight F' k = some x' ∧ |x - x'| ≤ w

/-- How far gains that are computed and compared can be from the exact ones, all in all. -/
def tolerance (S : Setup K α) (bins : Nat) (m ε eg eh : Rat) : Rat :=
  2 / 10 ^ 6 + 2 * roundedShift S bins m ε eg eh + 2 * roundedError S bins m ε eg + 2 * ε

end Spec
end Verif
