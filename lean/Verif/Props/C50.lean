import Verif.Lemmas.PaillierGreedy
import Verif.Examples.DemoPaillier

/-! # C50: training completes -/

set_option autoImplicit false

namespace Verif

open DTree Spec

variable {K : Type} [DecidableEq K]

/-- **Training completes.**  Every party has prepared its own raw rows, the settings are usual,
the key is large enough for the gradients and their exponents: then training raises no exception,
for any number of hosts, samples and features, and returns a well-formed tree. -/
theorem C50_training_completes (p q : Nat) (sk : Paillier.PrivKey) (lo hi : Int) (m eg eh : Rat)
    (S : Setup K Histogram.Num) [S.cfg.Exact] (rows : Option Nat → DTable K (List Rat)) (hr : RawRun S rows)
    (hu : Usual S m) (hp : PaillierRun p q sk lo hi m eg eh S) :
    ∃ F, fit S = .ok F ∧ WellFormed F.tree := by
  obtain ⟨_, _, F, lev, mem, g⟩ := paillier_grown hr hu hp
  obtain ⟨_, _, _, _, hi⟩ := g.inv
  exact ⟨F, g.fit, hi.wellFormed⟩

/-- A key for which a run over three parties meets the hypotheses. -/
example : ∃ p q sk lo hi m, ∃ S : Setup Nat Histogram.Num, RawRun S DemoRaw.rows ∧ Usual S m ∧
    PaillierRun p q sk lo hi m 0 0 S ∧ S.hosts.length = 2 := by
  obtain ⟨sk, h1, h2⟩ := DemoPaillier.key
  exact ⟨_, _, sk, 12, 13, 11 / 10, DemoPaillier.setup sk, DemoPaillier.raw sk,
    DemoPaillier.usual sk, DemoPaillier.run h1 h2, rfl⟩

end Verif
