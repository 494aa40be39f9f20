import Verif.Lemmas.Sides
import Verif.Lemmas.PaillierGreedy
import Verif.Examples.DemoPaillier
import Verif.Examples.DemoRounded
import Verif.Examples.DemoRaw

/-!
# C83: Splits separate the training samples

At each split of a trained tree, at least `min_leaf_node` training samples are on either side of
the threshold, by their raw values.  Hence no constant column is split on, and the number of leaves
is bounded by the number of samples.
-/

set_option autoImplicit false

namespace Verif
open DTree Spec

variable {K : Type} [DecidableEq K]

/-- **Splits separate the samples**, for a run over any number of parties whose hosts compute on
Paillier ciphertexts; the arithmetic of the guest is exact. -/
theorem C83_separates (p q : Nat) (sk : Paillier.PrivKey) (lo hi : Int) (m eg eh : Rat)
    (S : Setup K Histogram.Num) [S.cfg.Exact] (rows : Option Nat → DTable K (List Rat)) (hr : RawRun S rows)
    (hu : Usual S m) (hp : PaillierRun p q sk lo hi m eg eh S) (F : Fitted K) (hf : fit S = .ok F) :
    Separates S F rows := by
  have hpr := RawRun.prepared hr
  obtain ⟨gh', hc, F', lev, mem, g⟩ := paillier_grown hr hu hp
  have := g.fit
  rw [hf, Except.ok.injEq] at this
  subst this
  refine GrownBy.separates (R := rulesOf S (encView S gh' _ _) (gainError S m eg)) hr hu
    (fun A s j f b l h => offerAt_of h.1) ?_ g
  intro A s j P f b l sp t hA hP hsp hbt hpick
  obtain ⟨k, hk, hkb⟩ := best_bin_mem hpr hu hA hP hpick
  obtain ⟨row, _, hrow⟩ := binAt_raw (RawRun.binned hr j P hP)
    (((hpr.parties j P hP).2.2.2.2 k).mpr (hA k hk)) hsp
  rw [hrow] at hkb
  exact binOk_of_mem (by exact_mod_cast hkb) hbt

/-- **Splits separate the samples**, even if every operation of the guest rounds.  The split points
of the parties must be increasing. -/
theorem C83_rounded (p q : Nat) (sk : Paillier.PrivKey) (lo hi : Int) (m eg eh : Rat) (bins : Nat) (M ε : Rat)
    (S : Setup K Histogram.Num) (rows : Option Nat → DTable K (List Rat)) (hr : RawRun S rows)
    (hu : Usual S m) (hrun : RoundedRun p q sk lo hi m eg eh bins M ε S)
    (hinc : ∀ j P, partyAt S j = some P → ∀ sp ∈ P.splits, sp.Pairwise (· < ·))
    (F : Fitted K) (hf : fit S = .ok F) : Separates S F rows := by
  obtain ⟨F', lev, mem, g⟩ := round_grown hr hu hrun hinc
  have := g.fit
  rw [hf, Except.ok.injEq] at this
  subst this
  refine GrownBy.separates hr hu (fun A s j f b l h => ?_) ?_ g
  · obtain ⟨l0, h, _⟩ := h
    exact ⟨l0, h.1⟩
  · intro A s j P f b l sp t hA hP hsp hbt hpick v
    exact Binning.getBinNum_le_iff v sp (hinc j P hP sp (List.mem_of_getElem? hsp)) b t hbt

/-- A key for which a run over three parties meets the hypotheses. -/
example : ∃ p q sk lo hi m, ∃ S : Setup Nat Histogram.Num, RawRun S DemoRaw.rows ∧ Usual S m ∧
    PaillierRun p q sk lo hi m 0 0 S ∧ S.hosts.length = 2 := by
  obtain ⟨sk, h1, h2⟩ := DemoPaillier.key
  exact ⟨_, _, sk, 12, 13, 11 / 10, DemoPaillier.setup sk, DemoPaillier.raw sk,
    DemoPaillier.usual sk, DemoPaillier.run h1 h2, rfl⟩

/-- A key for which a run over three parties meets the hypotheses; the rounding is not exact. -/
example : ∃ p q sk lo hi m bins M ε, ∃ S : Setup Nat Histogram.Num, RawRun S DemoRaw.rows ∧ Usual S m ∧
    RoundedRun p q sk lo hi m 0 0 bins M ε S ∧
    (∀ j P, partyAt S j = some P → ∀ sp ∈ P.splits, sp.Pairwise (· < ·)) ∧ S.hosts.length = 2 := by
  obtain ⟨sk, h1, h2⟩ := DemoPaillier.key
  exact ⟨_, _, sk, 12, 13, 11 / 10, 4, 10000, 1 / 2 ^ 60, DemoRounded.setup sk DemoRounded.fine 2 .split 1,
    DemoRounded.raw _ _ _ _ _, DemoRounded.usual _ _ _ (by decide) (by decide),
    DemoRounded.run h1 h2 (DemoRounded.fine_accurate _) _ _ _, DemoRounded.increasing _ _ _ _ _, rfl⟩

/-- The tree for these rows has splits; four leaves for six samples. -/
example : DemoRaw.fitted.tree.length = 7 ∧ (DemoRaw.fitted.tree.filter Node.isLeaf).length = 4 ∧
    DemoRaw.setup.gh.data.length = 6 := by
  decide +kernel

end Verif
