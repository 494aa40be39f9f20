import Verif.Lemmas.BoostRun
import Verif.Examples.DemoBoost

/-!
# C53: a whole run with Paillier encryption completes and is reproduced by prediction
-/

set_option autoImplicit false

namespace Verif

open DTree Spec

variable {K : Type} [DecidableEq K] {L : Type}

/-- **Boosting completes and prediction reproduces it.**  The conditions can be checked before the
run: raw rows of the same samples at every party, usual settings, a loss with bounded gradients,
and a key large enough for them.  Then training raises no exception, for any number of hosts,
samples, features, rounds and components; every sample gets a score; and prediction on the
training rows returns exactly these scores.  Nothing is assumed about the split points. -/
theorem C53_run (p q : Nat) (sk : Paillier.PrivKey) (lo hi : Int) (m gmax hmax eg eh : Rat)
    (G : Rat × Rat → Prop) (B : Boost K Histogram.Num L) [B.base.cfg.Exact] (y : DTable K L)
    (rows : Option Nat → DTable K (List Rat))
    (hb : PaillierBoost p q sk lo hi m gmax hmax eg eh G B y rows) (init : List Rat)
    (hdim : init.length = B.dim) (hpos : 0 < B.dim) :
    ∃ st fuel T, boost B init y = .ok st ∧ (∀ k, k ∈ st.scores.data.keys ↔ k ∈ y.data.keys) ∧
      predictScores B.base.hosts B.rate B.dim init st.trees (rows none) (hostRows B.base rows) fuel =
        .ok T ∧
      ∀ k, T.data.get? k = st.scores.data.get? k := by
  obtain ⟨st, h⟩ := boost_ok hb hdim
  have hsame := hb.sameData
  obtain ⟨fits, h1, h2, _⟩ := boost_inv hb.depth.1 hsame hdim h
  have hkeys : ∀ j P, partyAt B.base j = some P → ∀ k, k ∈ (rows j).data.keys ↔ k ∈ (rows none).data.keys :=
    fun j P hP k => ((hb.raw j P hP).2.2.2 k).trans ((hb.raw none B.base.guest rfl).2.2.2 k).symm
  have hr : SameSamples B.base rows := by
    refine ⟨fun j P hP => ?_, hkeys, ?_⟩
    · obtain ⟨_, _, _, _, _, _, _, h, _⟩ := (hb.raw j P hP).1
      exact h
    · obtain ⟨_, _, _, _, _, _, _, _, h, _⟩ := (hb.raw none B.base.guest rfl).1
      exact h
  have hleaf : ∀ (n : Nat) F, fits[n]? = some F → UsableTree B.base F ∧
      ∀ k ∈ (rows none).data.keys, ∀ w, LeafWeight B.base F rows k w → w = weightIn fits k n := by
    intro n F hF
    obtain ⟨gh, egh, g1, g2, hfit, g3, g4⟩ := h1.trained n F hF
    have hG : ∀ x ∈ gh.data, G x.2 := by
      intro x hx
      have hx' := Dict.get?_of_mem g1 hx
      obtain ⟨l, hl⟩ := Dict.exists_get?_of_mem ((g3 x.1).mp (Dict.mem_keys_of_get? hx'))
      obtain ⟨g, h, a, b, e1, e2, e3, e4⟩ := g4 x.1 l hl
      obtain ⟨g', h', q1, _, _, q4⟩ := hb.grads x.1 l (scoreAfter init B.rate B.dim (weightIn fits x.1)
        (n / B.dim * B.dim)) hl (by unfold scoreAfter; rw [List.length_mapIdx]; exact hdim)
      rw [e1] at q1
      cases q1
      have hx2 : x.2 = (a, b) := by
        have : some x.2 = some (a, b) := by rw [← hx', e4]
        exact Option.some.inj this
      rw [hx2]; exact q4 _ a b e2 e3
    obtain ⟨egh', e1, e2, e3, e4⟩ := hb.tree (n / B.dim) (n % B.dim) g1 g3 hG
    rw [g2] at e1
    cases e1
    have hnames := treeSetup_names B (n / B.dim) (n % B.dim) gh egh
    refine ⟨usable_of_names hnames.symm (C29_trained_usable (treeSetup B (n / B.dim) (n % B.dim) gh egh)
      hb.depth.1 e2.names F hfit), fun k hk w hw => ?_⟩
    obtain ⟨F', hF', hF''⟩ := C28_run p q sk lo hi m eg eh (treeSetup B (n / B.dim) (n % B.dim) gh egh) rows e2 e3 e4
    rw [hfit] at hF'
    cases hF'
    obtain ⟨i, nd, a1, a2, a3, a4, a5⟩ := hF'' k hk
    obtain ⟨i', nd', b1, b2, b3, rfl⟩ := hw
    have := a5 i' nd' b2 b3 ((reaches_of_names hnames rows k i').mp b1)
    subst this
    rw [a1, Option.some.injEq] at b2
    subst b2
    unfold weightIn
    rw [hF]
    simp [a4]
  obtain ⟨fuel, hfuel⟩ : ∃ fuel, ∀ F ∈ fits, F.tree.length ≤ fuel := by
    refine ⟨(fits.map fun F => F.tree.length).sum, fun F hF => ?_⟩
    exact List.single_le_sum (by simp) _ (List.mem_map_of_mem hF)
  obtain ⟨W, T, t1, _, t3, t4⟩ := predictScores_ok h1.saved (fun F hF => by
    obtain ⟨n, hn⟩ := List.mem_iff_getElem?.mp hF
    exact (hleaf n F hn).1) hr init B.rate hdim hpos hfuel
  refine ⟨st, fuel, T, h, fun k => ⟨fun hk => ?_, fun hk => ?_⟩, t1, fun k => ?_⟩
  · obtain ⟨v, hv⟩ := Dict.exists_get?_of_mem hk
    rw [h1.scores] at hv
    by_contra hc
    rw [if_neg hc] at hv; cases hv
  · exact Dict.mem_keys_of_get? (by rw [h1.scores, if_pos hk])
  have hkeys : k ∈ (rows none).data.keys ↔ k ∈ y.data.keys := (hb.raw none B.base.guest rfl).2.2.2 k
  rw [t3, h1.scores]
  by_cases hk : k ∈ (rows none).data.keys
  · rw [if_pos hk, if_pos (hkeys.mp hk)]
    have hlen : st.trees.length / B.dim * B.dim = fits.length := by
      rw [← h1.saved.length_eq, h2, Nat.mul_div_cancel _ hpos]
    rw [hlen]
    congr 1
    apply scoreAfter_congr
    intro n hn
    exact (hleaf n _ (List.getElem?_eq_getElem hn)).2 k hk _ (t4 n _ (List.getElem?_eq_getElem hn) k hk)
  · rw [if_neg hk, if_neg (fun hc => hk (hkeys.mpr hc))]

/-- A key for which a run over three parties meets the hypotheses: two components, three rounds,
absolute error. -/
example : ∃ p q sk lo hi m gmax hmax G, ∃ B : Boost Nat Histogram.Num Rat,
    PaillierBoost p q sk lo hi m gmax hmax 0 0 G B DemoBoost.labels DemoRaw.rows ∧ B.dim = 2 ∧
    B.rounds = 3 ∧ B.base.hosts.length = 2 := by
  obtain ⟨sk, h1, h2⟩ := DemoPaillier.key
  exact ⟨_, _, sk, _, _, _, _, _, _, DemoBoost.secure sk, DemoBoost.run h1 h2, rfl, rfl, rfl⟩

end Verif
