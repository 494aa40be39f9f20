import Verif.Lemmas.Boost
import Verif.Examples.DemoBoost

/-!
# C32: scores are the initial score plus the learning rate times the leaf weights
-/

set_option autoImplicit false

namespace Verif

open DTree Spec

variable {K : Type} [DecidableEq K] {α L : Type}

/-- **Prediction adds up the trees.**  For any saved usable trees, any number of hosts, any
dimension and any rows of the same samples: prediction raises no exception and returns exactly the
samples; component `c` of a sample's score is the initial score plus the learning rate times the
sum of the weights of the leaves the sample comes to in trees `c`, `c + dim`, `c + 2 dim`, ... of
the complete rounds. -/
theorem C32_prediction (S : Setup K α) (Fs : List (Fitted K)) (Ps : List Saved)
    (hsave : List.Forall₂ (fun F P => save F = .ok P) Fs Ps) (hu : ∀ F ∈ Fs, UsableTree S F)
    (rows : Option Nat → DTable K (List Rat)) (hr : SameSamples S rows) (init : List Rat) (rate : Rate)
    (dim : Nat) (hdim : init.length = dim) (hpos : 0 < dim) (fuel : Nat)
    (hfuel : ∀ F ∈ Fs, F.tree.length ≤ fuel) :
    ∃ T, predictScores S.hosts rate dim init Ps (rows none) (hostRows S rows) fuel = .ok T ∧
      (∀ k, k ∈ T.data.keys ↔ k ∈ (rows none).data.keys) ∧
      ∀ k ∈ (rows none).data.keys, ∃ W : Nat → Rat,
        T.data.get? k = some (scoreAfter init rate dim W (Ps.length / dim * dim)) ∧
        ∀ (n : Nat) F, Fs[n]? = some F → ∃ i node, F.tree[i]? = some node ∧ node.isLeaf = true ∧
          Reaches S F rows k i ∧ W n = node.weight := by
  obtain ⟨W, T, h1, h2, h3, h4⟩ := predictScores_ok hsave hu hr init rate hdim hpos hfuel
  refine ⟨T, h1, fun k => ⟨fun hk => ?_, fun hk => ?_⟩, fun k hk => ⟨W k, ?_, fun n F hF => ?_⟩⟩
  · obtain ⟨v, hv⟩ := Dict.exists_get?_of_mem hk
    rw [h3] at hv
    by_contra hc
    rw [if_neg hc] at hv; cases hv
  · exact Dict.mem_keys_of_get? (by rw [h3, if_pos hk])
  · rw [h3, if_pos hk]
  · obtain ⟨i, node, a1, a2, a3, a4⟩ := h4 n F hF k hk
    exact ⟨i, node, a2, a3, a1, a4⟩

/-- **Training adds up the trees.**  For every run that ends without an exception: there are
`dim` trees per round, saved in order; each is trained on the gradients and hessians of its
component at the scores after the preceding rounds; at the end every sample with a label, and no
other, has a score: the initial score plus the learning rate times the sum of the weights recorded
for it. -/
theorem C32_training (B : Boost K α L) (y : DTable K L) (hsame : SameData B y)
    (hd : 1 ≤ B.base.maxDepth) (init : List Rat) (hdim : init.length = B.dim) (st : BoostState K)
    (h : boost B init y = .ok st) :
    ∃ fits : List (Fitted K), List.Forall₂ (fun F P => save F = .ok P) fits st.trees ∧
      fits.length = st.losses.length * B.dim ∧
      (∀ k, k ∈ st.scores.data.keys ↔ k ∈ y.data.keys) ∧
      (∀ k ∈ y.data.keys, st.scores.data.get? k =
        some (scoreAfter init B.rate B.dim (weightIn fits k) fits.length)) ∧
      ∀ (n : Nat) F, fits[n]? = some F → TrainedOn B y init fits n F := by
  obtain ⟨fits, h1, h2, _⟩ := boost_inv hd hsame hdim h
  refine ⟨fits, h1.saved, h2, fun k => ⟨fun hk => ?_, fun hk => ?_⟩, fun k hk => ?_, h1.trained⟩
  · obtain ⟨v, hv⟩ := Dict.exists_get?_of_mem hk
    rw [h1.scores] at hv
    by_contra hc
    rw [if_neg hc] at hv; cases hv
  · exact Dict.mem_keys_of_get? (by rw [h1.scores, if_pos hk])
  · rw [h1.scores, if_pos hk]

/-- **Predicting the training data gives the training scores**, for features whose split points
increase: every party has prepared its own raw rows, then a run that ends without an exception is
reproduced exactly by prediction on these rows. -/
theorem C32_training_data (B : Boost K α L) (y : DTable K L) (hsame : SameData B y)
    (hd : 1 ≤ B.base.maxDepth) (init : List Rat) (hdim : init.length = B.dim) (hpos : 0 < B.dim)
    (rows : Option Nat → DTable K (List Rat)) (hr : SameSamples B.base rows)
    (hraw : ∀ j P, partyAt B.base j = some P → FromRaw P (rows j))
    (hinc : ∀ j P, partyAt B.base j = some P → ∀ sp ∈ P.splits, sp.Pairwise (· < ·))
    (st : BoostState K) (h : boost B init y = .ok st) :
    ∃ fuel T, predictScores B.base.hosts B.rate B.dim init st.trees (rows none)
        (hostRows B.base rows) fuel = .ok T ∧
      ∀ k, T.data.get? k = st.scores.data.get? k := by
  obtain ⟨fits, h1, h2, _⟩ := boost_inv hd hsame hdim h
  have hparty : ∀ i t gh egh j P, partyAt (treeSetup B i t gh egh) j = some P →
      ∃ P0, partyAt B.base j = some P0 ∧ P = { P0 with valid := B.valid i t j } := by
    intro i t gh egh j P hP
    rw [treeSetup_party] at hP
    cases hP0 : partyAt B.base j with
    | none => rw [hP0] at hP; cases hP
    | some P0 => rw [hP0] at hP; cases hP; exact ⟨P0, rfl, rfl⟩
  have hleaf : ∀ (n : Nat) F, fits[n]? = some F → UsableTree B.base F ∧
      ∀ k ∈ (rows none).data.keys, ∀ w, LeafWeight B.base F rows k w → w = weightIn fits k n := by
    intro n F hF
    obtain ⟨gh, egh, _, _, hfit, _⟩ := h1.trained n F hF
    have hnames := treeSetup_names B (n / B.dim) (n % B.dim) gh egh
    have hidx : ((treeSetup B (n / B.dim) (n % B.dim) gh egh).hosts.map Party.idx).Nodup := by
      rw [hnames]; exact hsame.names
    refine ⟨usable_of_names hnames.symm (C29_trained_usable (treeSetup B (n / B.dim) (n % B.dim) gh egh) hd hidx F hfit), fun k hk w hw => ?_⟩
    obtain ⟨i, nd, a1, a2, a3, a4, a5⟩ := C28_increasing (treeSetup B (n / B.dim) (n % B.dim) gh egh) hd rows
      (by
        intro j P hP
        obtain ⟨P0, hP0, rfl⟩ := hparty _ _ _ _ _ _ hP
        exact hraw j P0 hP0)
      (by
        intro j P hP
        obtain ⟨P0, hP0, rfl⟩ := hparty _ _ _ _ _ _ hP
        exact hr.keys j P0 hP0)
      (by
        intro j P hP
        obtain ⟨P0, hP0, rfl⟩ := hparty _ _ _ _ _ _ hP
        exact hinc j P0 hP0) hidx F hfit k hk
    obtain ⟨i', nd', b1, b2, b3, rfl⟩ := hw
    have := a5 i' nd' b2 b3 ((reaches_of_names hnames rows k i').mp b1)
    subst this
    rw [a1, Option.some.injEq] at b2
    subst b2
    unfold weightIn
    rw [hF]
    simp [a4]
  obtain ⟨fuel, hfuel⟩ : ∃ fuel, ∀ F ∈ fits, F.tree.length ≤ fuel := by
    refine ⟨(fits.map fun F => F.tree.length).sum, fun F hF => ?_⟩
    exact List.single_le_sum (by simp) _ (List.mem_map_of_mem hF)
  obtain ⟨W, T, t1, _, t3, t4⟩ := predictScores_ok h1.saved (fun F hF => by
    obtain ⟨n, hn⟩ := List.mem_iff_getElem?.mp hF
    exact (hleaf n F hn).1) hr init B.rate hdim hpos hfuel
  refine ⟨fuel, T, t1, fun k => ?_⟩
  have hkeys : k ∈ (rows none).data.keys ↔ k ∈ y.data.keys := by
    rw [← (binned_of_fromRaw (hraw none B.base.guest rfl)).keys]
    exact hsame.guest k
  rw [t3, h1.scores]
  by_cases hk : k ∈ (rows none).data.keys
  · rw [if_pos hk, if_pos (hkeys.mp hk)]
    have hlen : st.trees.length / B.dim * B.dim = fits.length := by
      rw [← h1.saved.length_eq, h2, Nat.mul_div_cancel _ hpos]
    rw [hlen]
    congr 1
    apply scoreAfter_congr
    intro n hn
    exact (hleaf n _ (List.getElem?_eq_getElem hn)).2 k hk _ (t4 n _ (List.getElem?_eq_getElem hn) k hk)
  · rw [if_neg hk, if_neg (fun hc => hk (hkeys.mpr hc))]

/-- A run over three parties with two components: it meets the hypotheses, the trees are not
trivial, and prediction gives the scores of training. -/
example : SameData DemoBoost.clear DemoBoost.labels ∧
    boost DemoBoost.clear [0, 1] DemoBoost.labels = .ok DemoBoost.final ∧
    DemoBoost.final.trees.map (fun P => P.nodes.length) = [7, 5, 7, 7] ∧
    (∀ j P, partyAt DemoBoost.clear.base j = some P → ∀ sp ∈ P.splits, sp.Pairwise (· < ·)) ∧
    (predictScores DemoBoost.clear.base.hosts DemoBoost.clear.rate 2 [0, 1] DemoBoost.final.trees
      (DemoRaw.rows none) (hostRows DemoBoost.clear.base DemoRaw.rows) 7).map
        (fun T => (T.data.get? 2, T.data.get? 5)) =
      .ok (DemoBoost.final.scores.data.get? 2, DemoBoost.final.scores.data.get? 5) ∧
    DemoBoost.final.scores.data.get? 5 = some [-10 / 11, 16 / 231] := by
  refine ⟨DemoBoost.same, DemoBoost.final_ok, by decide +kernel, ?_, by decide +kernel, by decide +kernel⟩
  intro j P hP
  match j with
  | none => cases hP; decide +kernel
  | some 0 => cases hP; decide +kernel
  | some 1 => cases hP; decide +kernel
  | some (j + 2) => simp [partyAt, DemoBoost.clear, DemoRaw.setup] at hP

end Verif
