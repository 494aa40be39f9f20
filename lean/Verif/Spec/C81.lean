import Verif.Spec.C79

/-! # Specification vocabulary for predictions after training on another distribution of the columns -/

set_option autoImplicit false

namespace Verif
namespace Spec

open DTree

variable {K : Type} [DecidableEq K] {α L : Type}

/-- Every column of a party in `B` is the column of some party in `B'`, for the training samples (as in
`ColumnsOfRun`) and for the samples of other tables `new` and `new'` alike. -/
def ColumnsWith (keys : List K) (B : Boost K α L) (rows new : Option Nat → DTable K (List Rat)) (B' : Boost K α L)
    (rows' new' : Option Nat → DTable K (List Rat)) : Prop :=
  ∀ j P, partyAt B.base j = some P → ∀ f < P.splits.length, ∃ j' P' f', partyAt B'.base j' = some P' ∧
    P'.splits[f']? = P.splits[f]? ∧ (∀ i t, (B'.valid i t j')[f']? = (B.valid i t j)[f]?) ∧
    (∀ k ∈ keys, ∀ row row', (rows j).data.get? k = some row → (rows' j').data.get? k = some row' →
      value row' f' = value row f) ∧
    ∀ k row row', (new j).data.get? k = some row → (new' j').data.get? k = some row' → value row' f' = value row f

/-- All splits of the training samples `A` that are best up to `δ` send sample `k` of the tables `new` to
the same side. -/
def ClearFor (S : Setup K α) (δ : Rat) (A : List K) (new : Option Nat → DTable K (List Rat)) (k : K) : Prop :=
  ∀ j P f b l sp t j' P' f' b' l' sp' t', OfferAt S A j f b l → OfferAt S A j' f' b' l' → NearTop S δ A l → NearTop S δ A l' →
    partyAt S j = some P → P.splits[f]? = some sp → sp[b]? = some t →
    partyAt S j' = some P' → P'.splits[f']? = some sp' → sp'[b']? = some t' →
    ∀ row row', (new j).data.get? k = some row → (new j').data.get? k = some row' → (value row f ≤ t ↔ value row' f' ≤ t')

/-- This holds at every node of the tree (above the depth limit) for every new sample that comes there. -/
def ClearForNew (S : Setup K α) (δ : Rat) (F : Fitted K) (rows new : Option Nat → DTable K (List Rat)) : Prop :=
  ∀ i d, DepthAt F.tree i d → d < S.maxDepth → ∀ A, (Lists A fun k => k ∈ S.gh.data.keys ∧ Reaches S F rows k i) →
    ∀ k, Reaches S F new k i → ClearFor S δ A new k

/-- … and in every tree of the run. -/
def ClearRunForNew (B : Boost K α L) (y : DTable K L) (init : List Rat) (δ : Rat)
    (rows new : Option Nat → DTable K (List Rat)) (fits : List (Fitted K)) : Prop :=
  ∀ (n : Nat) F gh egh, fits[n]? = some F → GradientsFor B y init fits n gh →
    ClearForNew (treeSetup B (n / B.dim) (n % B.dim) gh egh) δ F rows new

end Spec
end Verif
