import Verif.Lemmas.LosslessBoost
import Verif.Examples.DemoJoinedBoost

/-! # C55: whole runs lose nothing by federation -/

set_option autoImplicit false

namespace Verif

open DTree Spec

variable {K : Type} [DecidableEq K] {L : Type}

/-- **Federated boosting is centralised boosting.**  The conditions of the federated run can be
checked before it starts (C53); any number of hosts, samples, features, rounds and components.  The
centralised program runs on the columns of all parties side by side, with the same settings and
loss.  The federated run succeeds.  If the choice of the split is clear at every node of its trees,
the centralised run succeeds with as many trees, pairwise the same, the same losses and the same
verdicts on stopping, and the same scores for all samples; and with the saved trees both programs
predict the same scores for any rows of other samples. -/
theorem C55_lossless_run (p q : Nat) (sk : Paillier.PrivKey) (lo hi : Int) (m gmax hmax : Rat)
    (G : Rat × Rat → Prop) (B : Boost K Histogram.Num L) [B.base.cfg.Exact] (y : DTable K L)
    (rows : Option Nat → DTable K (List Rat))
    (hb : PaillierBoost p q sk lo hi m gmax hmax 0 0 G B y rows) (C : CBoost K L)
    (all : DTable K (List Rat)) (hc : CentralisedBoost B y rows C all) (init : List Rat)
    (hdim : init.length = B.dim) (hpos : 0 < B.dim) :
    ∃ st fits, boost B init y = .ok st ∧
      List.Forall₂ (fun F P => save F = .ok P) fits st.trees ∧
      (∀ (n : Nat) F, fits[n]? = some F → TrainedOn B y init fits n F) ∧
      (DecisiveRun B y init rows fits → ∃ ct cfits, centralBoost C init y = .ok ct ∧
        List.Forall₂ (fun T P => centralSave T = .ok P) cfits ct.trees ∧
        List.Forall₂ (SameTree B.base) fits cfits ∧
        (∀ k, ct.scores.data.get? k = st.scores.data.get? k) ∧
        ct.losses = st.losses ∧ ct.flags = st.flags ∧
        ∀ (new : Option Nat → DTable K (List Rat)) (newAll : DTable K (List Rat)) (fuel : Nat),
          SameSamples B.base new → JoinedRows B.base new newAll →
          (∀ F ∈ fits, F.tree.length ≤ fuel) →
          ∃ T T', predictScores B.base.hosts B.rate B.dim init st.trees (new none)
              (hostRows B.base new) fuel = .ok T ∧
            centralScores C.rate C.dim init ct.trees newAll fuel = .ok T' ∧
            ∀ k, T.data.get? k = T'.data.get? k) := by
  obtain ⟨st, h⟩ := boost_ok hb hdim
  obtain ⟨fits, h1, h2⟩ := boost_sim hb hc hdim h
  refine ⟨st, fits, h, h1.saved, h1.trained, fun hdec => ?_⟩
  obtain ⟨ct, cfits, c1, c2⟩ := h2 hdec
  refine ⟨ct, cfits, c1, c2.saved, c2.same, c2.scores, c2.losses, c2.flags, ?_⟩
  intro new newAll fuel hs hj hf
  rw [hc.rate, hc.dim]
  refine scores_same h1.saved (fun F hF => ?_) hb.names c2.predicts hs hj init B.rate hdim hpos hf
  obtain ⟨n, hn⟩ := List.mem_iff_getElem?.mp hF
  obtain ⟨gh, egh, _, _, hfit, _⟩ := h1.trained n F hn
  have hnames := treeSetup_names B (n / B.dim) (n % B.dim) gh egh
  exact usable_of_names hnames.symm (C29_trained_usable (treeSetup B (n / B.dim) (n % B.dim) gh egh) hb.depth.1
    (by rw [hnames]; exact hb.names) F hfit)

/-- A run over three parties, two components, three rounds, and its centralised counterpart: all
conditions are met, and the choice is clear at every node of whatever trees are trained. -/
example : ∃ p q sk lo hi m gmax hmax G, ∃ (B : Boost Nat Histogram.Num Rat) (C : CBoost Nat Rat),
    PaillierBoost p q sk lo hi m gmax hmax 0 0 G B DemoBoost.labels DemoJoined.rows ∧
    CentralisedBoost B DemoBoost.labels DemoJoined.rows C DemoJoined.joined ∧
    B.dim = 2 ∧ B.rounds = 3 ∧ B.base.hosts.length = 2 ∧
    ∀ fits, DecisiveRun B DemoBoost.labels [0, 1] DemoJoined.rows fits := by
  obtain ⟨sk, h1, h2⟩ := DemoPaillier.key
  exact ⟨_, _, sk, _, _, _, _, _, _, DemoJoinedBoost.secureRun sk, DemoJoinedBoost.central,
    DemoJoinedBoost.run h1 h2, DemoJoinedBoost.centralised sk, rfl, rfl, rfl,
    fun fits => DemoJoinedBoost.decisive sk _ fits⟩

end Verif
