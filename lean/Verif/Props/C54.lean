import Verif.Lemmas.LosslessRun
import Verif.Examples.DemoJoined
import Verif.Examples.DemoNear

/-! # C54: nothing is lost by federation -/

set_option autoImplicit false

namespace Verif

open DTree Spec

variable {K : Type} [DecidableEq K]

/-- **The federated run grows the tree of the centralised run.**  Any number of hosts, any rows,
any tree settings; the hosts compute on Paillier ciphertexts.  The centralised program runs on the
columns of all parties side by side, with the same gradients.  Both runs succeed.  If the choice
of the split is clear at every node (the best splits of two parties do not have almost the same
gain), both trees are the same: node by node the same sums, weights and children, the same column
and threshold at every split; all samples get the same weight.  Then both also give the same
predictions for any rows of other samples. -/
theorem C54_lossless (p q : Nat) (sk : Paillier.PrivKey) (lo hi : Int) (m : Rat)
    (S : Setup K Histogram.Num) [S.cfg.Exact] (rows : Option Nat → DTable K (List Rat)) (hr : RawRun S rows)
    (hu : Usual S m) (hp : PaillierRun p q sk lo hi m 0 0 S) (C : Central K) (all : DTable K (List Rat))
    (hc : Centralised S rows C all) :
    ∃ F T, fit S = .ok F ∧ centralFit C = .ok T ∧ (DecisiveTree S F rows →
      SameTree S F T ∧ ∀ (new : Option Nat → DTable K (List Rat)) (newAll : DTable K (List Rat))
        (fuel : Nat), SameSamples S new → JoinedRows S new newAll → F.tree.length ≤ fuel →
        ∃ W W', predictRows S F (new none) (hostRows S new) fuel = .ok W ∧
          centralPredictRows T newAll fuel = .ok W' ∧ ∀ k, W.data.get? k = W'.data.get? k) :=
  lossless hr hu hc (gainError_nonneg S m 0) hp.accuracy
    (paillier_chooses (RawRun.prepared hr) hu hp)

/-- A choice that is not clear can fall differently even if nothing is encrypted: the guest's split
is preferred to a host's split whose gain is higher by less than 1e-6, while the centralised
program takes the higher gain.  Sample 0 gets another weight. -/
theorem C54_near_tie_differs : ∃ (S : Setup Nat Rat) (rows : Option Nat → DTable Nat (List Rat))
    (C : Central Nat) (all : DTable Nat (List Rat)) (F : Fitted Nat) (T : CFitted Nat),
    RawRun S rows ∧ Usual S 1 ∧ Centralised S rows C all ∧ fit S = .ok F ∧ centralFit C = .ok T ∧
    trainedWeight F 0 = some (-10 / 11) ∧ (T.weights.bind fun t => t.data.get? 0) = some (10 / 21) := by
  cases hF : fit DemoNear.setup with
  | error e =>
    have : (fit DemoNear.setup).toOption.isSome = true := by decide +kernel
    rw [hF] at this; cases this
  | ok F =>
    cases hT : centralFit DemoNear.central with
    | error e =>
      have : (centralFit DemoNear.central).toOption.isSome = true := by decide +kernel
      rw [hT] at this; cases this
    | ok T =>
      refine ⟨_, _, _, _, F, T, DemoNear.raw, DemoNear.usual, DemoNear.centralised, hF, hT, ?_, ?_⟩
      · have : (fit DemoNear.setup).toOption.bind (fun F => trainedWeight F 0) = some (-10 / 11) := by
          decide +kernel
        rw [hF] at this
        exact this
      · have : (centralFit DemoNear.central).toOption.bind
            (fun T => T.weights.bind fun t => t.data.get? 0) = some (10 / 21) := by
          decide +kernel
        rw [hT] at this
        exact this

/-- A run over three parties meets the hypotheses, with a clear choice everywhere. -/
example : ∃ p q sk lo hi m, ∃ (S : Setup Nat Histogram.Num) (C : Central Nat) (all : DTable Nat (List Rat)),
    RawRun S DemoJoined.rows ∧ Usual S m ∧ PaillierRun p q sk lo hi m 0 0 S ∧
    Centralised S DemoJoined.rows C all ∧ (∀ F, DecisiveTree S F DemoJoined.rows) ∧
    JoinedRows S DemoJoined.rows all ∧ S.hosts.length = 2 := by
  obtain ⟨sk, h1, h2⟩ := DemoPaillier.key
  exact ⟨_, _, sk, 12, 13, 11 / 10, DemoJoined.setup sk, DemoJoined.central, DemoJoined.joined,
    DemoJoined.raw sk, DemoJoined.usual sk, DemoJoined.run h1 h2, DemoJoined.centralised sk,
    DemoJoined.decisive sk, (DemoJoined.centralised sk).joined, rfl⟩

/-- The centralised tree of this run: the root splits the column of the second host. -/
example : ((centralFit DemoJoined.central).toOption.map fun T => T.tree.map Node.fid) =
      some [some 3, some 0, none, some 0, none, none, none] ∧
    ((centralFit DemoJoined.central).toOption.map fun T => T.tree.map Node.left) =
      some [some 1, some 3, none, some 5, none, none, none] ∧
    ((centralFit DemoJoined.central).toOption.bind fun T => T.mask.get? 0) = some (-1) := by
  decide +kernel

end Verif
