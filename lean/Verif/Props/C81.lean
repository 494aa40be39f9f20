import Verif.Lemmas.MovedPredict
import Verif.Examples.DemoTwins

/-!
# C81: models trained on other distributions of the columns predict the same
-/

set_option autoImplicit false

namespace Verif

open DTree Spec

variable {K : Type} [DecidableEq K] {L : Type}

/-- **The same predictions from another distribution of the columns.**  Two runs as in C79, and rows of
other samples, distributed among the parties in the same way.  If every decision in the first run is clear
by 5e-6, and at every node all splits that are best up to that send the new samples that come there to
the same side, both models give the same scores to the new samples. -/
theorem C81_predictions (p q : Nat) (sk : Paillier.PrivKey) (lo hi : Int) (m gmax hmax : Rat) (G : Rat × Rat → Prop)
    (p' q' : Nat) (sk' : Paillier.PrivKey) (lo' hi' : Int) (m' gmax' hmax' : Rat) (G' : Rat × Rat → Prop)
    (B B' : Boost K Histogram.Num L) [B.base.cfg.Exact] [B'.base.cfg.Exact] (y y' : DTable K L)
    (rows rows' new new' : Option Nat → DTable K (List Rat))
    (hb : PaillierBoost p q sk lo hi m gmax hmax 0 0 G B y rows)
    (hb' : PaillierBoost p' q' sk' lo' hi' m' gmax' hmax' 0 0 G' B' y' rows')
    (hd : RedistributedBoost B y rows B' y' rows')
    (hinc : ∀ j P, partyAt B.base j = some P → ∀ sp ∈ P.splits, sp.Pairwise (· < ·))
    (hinc' : ∀ j P, partyAt B'.base j = some P → ∀ sp ∈ P.splits, sp.Pairwise (· < ·))
    (init : List Rat) (hdim : init.length = B.dim) (hpos : 0 < B.dim)
    (hs : SameSamples B.base new) (hs' : SameSamples B'.base new')
    (hkeys : ∀ k, k ∈ (new' none).data.keys ↔ k ∈ (new none).data.keys)
    (hcol : ColumnsWith y.data.keys B' rows' new' B rows new) :
    ∃ s s' fits, boost B init y = .ok s ∧ boost B' init y' = .ok s' ∧
      List.Forall₂ (fun F P => save F = .ok P) fits s.trees ∧
      (∀ (n : Nat) F, fits[n]? = some F → TrainedOn B y init fits n F) ∧
      (ClearRun B y init (5 / 10 ^ 6) rows fits → ClearRunForNew B y init (5 / 10 ^ 6) rows new fits →
        ∀ fuel, (∀ F ∈ fits, F.tree.length ≤ fuel) → ∃ T T',
          predictScores B.base.hosts B.rate B.dim init s.trees (new none) (hostRows B.base new) fuel = .ok T ∧
          predictScores B'.base.hosts B'.rate B'.dim init s'.trees (new' none) (hostRows B'.base new') fuel = .ok T' ∧
          (∀ k, k ∈ T.data.keys ↔ k ∈ (new none).data.keys) ∧
          ∀ k, T'.data.get? k = T.data.get? k) := by
  obtain ⟨s, h⟩ := boost_ok hb hdim
  obtain ⟨s', h'⟩ := boost_ok hb' (init := init) (by rw [hd.dim]; exact hdim)
  obtain ⟨fits, f1, f2⟩ := boost_moved hb hb' hd hinc hinc' hdim h h'
  refine ⟨s, s', fits, h, h', f1.saved, f1.trained, fun hclear hnew fuel hfuel => ?_⟩
  obtain ⟨fits', g1, g2, g3, g4⟩ := f2 hclear
  exact predict_moved hb hb' hd hinc hinc' hdim hpos f1 g1 g2 hclear hnew hs hs' hkeys hcol hfuel

/-- **The condition on the new samples is needed**: guest and host hold columns that agree on the training
samples.  All decisions are clear, whoever holds which, but the model uses the guest's, and a new
sample in which they differ gets another score when they are exchanged.  Nothing is encrypted or rounded. -/
theorem C81_equal_columns_refuted : ∃ (B B' : Boost Nat Rat (Rat × Rat)) (y : DTable Nat (Rat × Rat))
    (rows rows' new new' : Option Nat → DTable Nat (List Rat)),
    (∀ j P, partyAt B.base j = some P → ∃ cfg n header, Binning.prepare cfg n header (rows j) = .ok (P.data, P.splits, P.sparse)) ∧
    (∀ j P, partyAt B'.base j = some P →
      ∃ cfg n header, Binning.prepare cfg n header (rows' j) = .ok (P.data, P.splits, P.sparse)) ∧
    RedistributedBoost B y rows B' y rows' ∧ SameSamples B.base new ∧ SameSamples B'.base new' ∧
    (∀ k, k ∈ (new' none).data.keys ↔ k ∈ (new none).data.keys) ∧ ColumnsWith y.data.keys B' rows' new' B rows new ∧
    (∀ init fits, ClearRun B y init (5 / 10 ^ 6) rows fits) ∧
    ∃ s s' T T', boost B [0] y = .ok s ∧ boost B' [0] y = .ok s' ∧
      predictScores B.base.hosts B.rate B.dim [0] s.trees (new none) (hostRows B.base new) 3 = .ok T ∧
      predictScores B'.base.hosts B'.rate B'.dim [0] s'.trees (new' none) (hostRows B'.base new') 3 = .ok T' ∧
      T.data.get? 7 = some [-10 / 7] ∧ T'.data.get? 7 = some [40 / 21] := by
  obtain ⟨T, t1, t2⟩ := DemoTwins.scores (new := DemoTwins.new) (x := [-10 / 7]) (by decide +kernel)
  obtain ⟨T', t1', t2'⟩ := DemoTwins.scores (new := DemoTwins.swapped) (x := [40 / 21]) (by decide +kernel)
  have hprep : ∀ j P, partyAt DemoTwins.run.base j = some P →
      ∃ cfg n header, Binning.prepare cfg n header (DemoTwins.rows j) = .ok (P.data, P.splits, P.sparse) :=
    fun j P hP => ⟨_, _, DemoTwins.prepared hP⟩
  have hcol : ColumnsOfRun DemoTwins.labels.data.keys DemoTwins.run DemoTwins.rows DemoTwins.run DemoTwins.rows := by
    intro j P hP f _
    exact ⟨j, P, f, hP, rfl, fun _ _ => rfl, fun k _ row row' e e' => by rw [e] at e'; cases e'; rfl⟩
  refine ⟨DemoTwins.run, DemoTwins.run, DemoTwins.labels, DemoTwins.rows, DemoTwins.rows, DemoTwins.new, DemoTwins.swapped,
    hprep, hprep, ⟨rfl, rfl, rfl, rfl, rfl, .refl _, hcol, hcol, rfl, ?_, rfl, rfl, rfl, rfl, rfl⟩,
    DemoTwins.same _ _ rfl rfl, DemoTwins.same _ _ rfl rfl, fun k => Iff.rfl, DemoTwins.columns, DemoTwins.clear, _, _, T, T',
    DemoTwins.final_ok, DemoTwins.final_ok, t1, t1', t2, t2'⟩
  intro s s' _ _ h
  show DemoMovedBoost.loss DemoTwins.labels s' = DemoMovedBoost.loss DemoTwins.labels s
  unfold DemoMovedBoost.loss
  simp only [h]

/-- The runs of C79 on three and on two parties, and two new samples: all hypotheses are met, and all
decisions are clear for them. -/
example : ∃ p q sk lo hi m gmax hmax G, ∃ (B B' : Boost Nat Histogram.Num (Rat × Rat)) (y y' : DTable Nat (Rat × Rat))
    (rows rows' new new' : Option Nat → DTable Nat (List Rat)), B.base.cfg.Exact ∧ B'.base.cfg.Exact ∧
    PaillierBoost p q sk lo hi m gmax hmax 0 0 G B y rows ∧ PaillierBoost p q sk lo hi m gmax hmax 0 0 G B' y' rows' ∧
    RedistributedBoost B y rows B' y' rows' ∧
    (∀ j P, partyAt B.base j = some P → ∀ sp ∈ P.splits, sp.Pairwise (· < ·)) ∧
    (∀ j P, partyAt B'.base j = some P → ∀ sp ∈ P.splits, sp.Pairwise (· < ·)) ∧ B.dim = 2 ∧
    SameSamples B.base new ∧ SameSamples B'.base new' ∧ (∀ k, k ∈ (new' none).data.keys ↔ k ∈ (new none).data.keys) ∧
    ColumnsWith y.data.keys B' rows' new' B rows new ∧
    (∀ init fits, ClearRun B y init (5 / 10 ^ 6) rows fits) ∧
    (∀ init fits, ClearRunForNew B y init (5 / 10 ^ 6) rows new fits) ∧
    (∀ k ∈ (new none).data.keys, k ∉ y.data.keys) ∧ B.base.hosts.length ≠ B'.base.hosts.length := by
  obtain ⟨sk, h1, h2⟩ := DemoPaillier.key
  refine ⟨_, _, sk, _, _, _, _, _, _, DemoMovedBoost.first sk, DemoMovedBoost.second sk, DemoMovedBoost.labels,
    DemoMovedBoost.reversed, _, _, DemoClear.new, DemoClear.newMoved, inferInstance, inferInstance,
    DemoMovedBoost.run h1 h2, DemoMovedBoost.run_second h1 h2,
    DemoMovedBoost.moved sk, DemoRounded.increasing sk id 5 .split 1, DemoMovedBoost.cases (by decide +kernel) (by decide +kernel),
    rfl, DemoClear.same sk, DemoClear.same_moved sk, fun _ => Iff.rfl, DemoClear.new_columns sk,
    DemoClear.run_clear sk, DemoClear.run_new sk, by decide, ?_⟩
  show 2 ≠ 1
  decide

/-- The two samples are sent to different sides at a root. -/
example : ∃ x ∈ offerList DemoClear.plain [0, 1, 2, 3, 4, 5],
    (∀ z ∈ sideList DemoClear.plain [0, 1, 2, 3, 4, 5], z.2 ≤ gain (1 / 10) (sumKeys DemoClear.plain.gh [0, 1, 2, 3, 4, 5]) x.2.2.2) ∧
    DemoClear.below DemoClear.plain DemoClear.new x 10 ≠ DemoClear.below DemoClear.plain DemoClear.new x 11 := by
  decide +kernel

end Verif
