import Verif.Lemmas.C18

/-!
# C18 – larger quantiles never give smaller split points

Dense summaries: proved for *every* program (also those that lose samples).  Sparse
summaries: the claim is false when a feature has entries of both signs
(`C18_sparse_refuted`, with the default error and buffer): a query slightly below the zero
block may return a positive value, and the next query returns 0.  It is proved for features
whose stored entries all have the same sign.
-/

set_option autoImplicit false

namespace Verif
open Quantile Spec

/-- Monotone queries. -/
theorem C18_query_monotone (err : Rat) (herr : 0 ≤ err) (p : Prog) (hE : ErrorIs err p)
    (q q' : Rat) (h0 : 0 ≤ q) (hqq : q ≤ q') (h1 : q' ≤ 1) :
    ∃ v v', query p.eval q = .ok v ∧ query p.eval q' = .ok v' ∧ v ≤ v' := by
  obtain ⟨v, hv, _⟩ := query_ok herr p hE h0 (by linarith)
  obtain ⟨v', hv', _⟩ := query_ok herr p hE (by linarith : 0 ≤ q') h1
  exact ⟨v, v', hv, hv', query_mono herr p hE h0 hqq h1 hv hv'⟩

/-- Split points of a dense column: strictly increasing, and exactly the answers to the
queries `1/b, 2/b, …, (b-1)/b`. -/
theorem C18_split_points_increasing (cfg : Config) (herr : 0 ≤ cfg.error) (data : List Rat)
    (binNum : Nat) (hb : 1 ≤ binNum) :
    ∃ sps, splitPoints (query (denseOf cfg data)) binNum = .ok sps ∧ sps.Pairwise (· < ·) ∧
      ∀ v, v ∈ sps ↔ ∃ i : Nat, 1 ≤ i ∧ i < binNum ∧ query (denseOf cfg data) ((i : Rat) / binNum) = .ok v := by
  obtain ⟨e1, e2, e3, e4, e5⟩ := progOf_spec cfg data
  have hd : denseOf cfg data = (Prog.compress (progOf cfg data)).eval := by
    simp only [denseOf, Prog.eval, e1]
  rw [hd]
  apply splitPoints_increasing _ _ hb
  · intro q h0 h1
    obtain ⟨v, hv, _⟩ := query_ok herr (.compress (progOf cfg data)) e4 h0 h1
    exact ⟨v, hv⟩
  · intro q q' v v' h0 hqq h1 hv hv'
    exact query_mono herr (.compress (progOf cfg data)) e4 h0 hqq h1 hv hv'

/-- Split points of a sparse column whose stored entries are all positive, or all negative. -/
theorem C18_sparse_split_points_partial (cfg : Config) (herr : 0 ≤ cfg.error) (data : List Rat)
    (total : Nat) (hab : ∀ x ∈ data, x ∉ cfg.abnormal) (ht : 1 ≤ total) (hlen : data.length ≤ total)
    (hsign : (∀ x ∈ data, 1 / 10 ^ 6 ≤ x) ∨ (∀ x ∈ data, x < 0))
    (binNum : Nat) (hb : 1 ≤ binNum) :
    ∃ sps, splitPoints (sparseOf cfg data total).query binNum = .ok sps ∧ sps.Pairwise (· < ·) ∧
      ∀ v, v ∈ sps ↔ ∃ i : Nat, 1 ≤ i ∧ i < binNum ∧
        (sparseOf cfg data total).query ((i : Rat) / binNum) = .ok v := by
  obtain ⟨f1, f2, f3, f4, f5, f6⟩ := sparse_facts cfg data total hab
  obtain ⟨e1, e2, e3, e4, e5⟩ := progOf_spec cfg data
  generalize hS : sparseOf cfg data total = S at *
  have hins : inserted (Prog.compress (progOf cfg data)) = data := by
    simp only [inserted]
    rw [e3, List.filter_eq_self.mpr]
    intro x hx; simpa using hab x hx
  have hT : (1 : Rat) ≤ S.total := by rw [f2]; exact_mod_cast ht
  have hreg := sparse_query S (by omega) (by omega) (by omega)
  -- the stored values
  have hqs : ∀ q, 0 ≤ q → q ≤ 1 → ∃ v, Quantile.query S.qs q = .ok v ∧ (data = [] → v = 0) ∧ (data ≠ [] → v ∈ data) := by
    intro q h0 h1
    rw [f1]
    have := query_ok herr (.compress (progOf cfg data)) e4 h0 h1
    rwa [hins] at this
  have hmn : ∀ q q' v v', 0 ≤ q → q ≤ q' → q' ≤ 1 → Quantile.query S.qs q = .ok v →
      Quantile.query S.qs q' = .ok v' → v ≤ v' := by
    intro q q' v v' h0 hqq h1 hv hv'
    rw [f1] at hv hv'
    exact query_mono herr (.compress (progOf cfg data)) e4 h0 hqq h1 hv hv'
  rcases hsign with hpos | hneg
  · have hsm : S.smaller = 0 := by
      rw [f3, List.countP_eq_zero]
      intro x hx; simp only [decide_eq_true_eq, not_lt]; exact hpos x hx
    have hbig : S.bigger = data.length := by omega
    rw [hsm, hbig] at hreg
    have hlenT : (data.length : Rat) ≤ S.total := by rw [f2]; exact_mod_cast hlen
    -- upper part
    have hup : ∀ q, 0 ≤ q → q ≤ 1 → (S.total : Rat) - data.length < q * S.total →
        (1 ≤ data.length) ∧ 0 ≤ (q * S.total - (S.total - (0 : Nat) - data.length)) / ((0 + data.length : Nat) : Rat) ∧
        (q * S.total - (S.total - (0 : Nat) - data.length)) / ((0 + data.length : Nat) : Rat) ≤ 1 := by
      intro q h0 h1 hlt
      have hd : 1 ≤ data.length := by
        rcases Nat.eq_zero_or_pos data.length with h | h
        · rw [h] at hlt; push_cast at hlt; nlinarith
        · exact h
      have hdp : (0 : Rat) < ((0 + data.length : Nat) : Rat) := by push_cast; simp; omega
      refine ⟨hd, div_nonneg (by push_cast; linarith) hdp.le, ?_⟩
      rw [div_le_one hdp]; push_cast; nlinarith
    apply splitPoints_increasing _ _ hb
    · intro q h0 h1
      obtain ⟨r1, _, r3⟩ := hreg q h0 h1
      by_cases hc : q * S.total ≤ (S.total : Rat) - data.length
      · exact ⟨0, r1 ⟨by push_cast; nlinarith, hc⟩⟩
      · obtain ⟨_, g0, g1⟩ := hup q h0 h1 (not_le.mp hc)
        obtain ⟨v, hv, _⟩ := hqs _ g0 g1
        exact ⟨v, by rw [r3 (not_le.mp hc)]; exact hv⟩
    · intro q q' v v' h0 hqq h1 hv hv'
      obtain ⟨r1, _, r3⟩ := hreg q h0 (by linarith)
      obtain ⟨r1', _, r3'⟩ := hreg q' (by linarith) h1
      by_cases hc' : q' * S.total ≤ (S.total : Rat) - data.length
      · rw [r1' ⟨by push_cast; nlinarith, hc'⟩] at hv'
        rw [r1 ⟨by push_cast; nlinarith, by nlinarith⟩] at hv
        cases hv; cases hv'; exact le_refl _
      · obtain ⟨hd, g0', g1'⟩ := hup q' (by linarith) h1 (not_le.mp hc')
        rw [r3' (not_le.mp hc')] at hv'
        by_cases hc : q * S.total ≤ (S.total : Rat) - data.length
        · rw [r1 ⟨by push_cast; nlinarith, hc⟩] at hv
          cases hv
          obtain ⟨w, hw, _, hm⟩ := hqs _ g0' g1'
          rw [hw] at hv'; cases hv'
          have := hpos _ (hm (by intro h; rw [h] at hd; simp at hd))
          exact le_trans (by norm_num) this
        · obtain ⟨_, g0, g1⟩ := hup q h0 (by linarith) (not_le.mp hc)
          rw [r3 (not_le.mp hc)] at hv
          refine hmn _ _ _ _ g0 ?_ g1' hv hv'
          have hdp : (0 : Rat) < ((0 + data.length : Nat) : Rat) := by push_cast; simp; omega
          apply div_le_div_of_nonneg_right _ hdp.le
          nlinarith
  · have hbig : S.bigger = 0 := by
      rw [f4, List.countP_eq_zero]
      intro x hx
      simp only [decide_eq_true_eq, not_le]
      exact lt_trans (hneg x hx) (by norm_num [floatZero])
    have hsm : S.smaller = data.length := by omega
    rw [hsm, hbig] at hreg
    have hlow : ∀ q : Rat, 0 ≤ q → q * S.total < data.length →
        1 ≤ data.length ∧ 0 ≤ q * S.total / ((data.length + 0 : Nat) : Rat) ∧
        q * S.total / ((data.length + 0 : Nat) : Rat) ≤ 1 := by
      intro q h0 hlt
      have hd : 1 ≤ data.length := by
        rcases Nat.eq_zero_or_pos data.length with h | h
        · rw [h] at hlt; push_cast at hlt; nlinarith
        · exact h
      have hdp : (0 : Rat) < ((data.length + 0 : Nat) : Rat) := by push_cast; simp; omega
      refine ⟨hd, div_nonneg (by nlinarith) hdp.le, ?_⟩
      rw [div_le_one hdp]; push_cast; linarith
    apply splitPoints_increasing _ _ hb
    · intro q h0 h1
      obtain ⟨r1, r2, _⟩ := hreg q h0 h1
      by_cases hc : (data.length : Rat) ≤ q * S.total
      · exact ⟨0, r1 ⟨hc, by push_cast; nlinarith⟩⟩
      · obtain ⟨_, g0, g1⟩ := hlow q h0 (not_le.mp hc)
        obtain ⟨v, hv, _⟩ := hqs _ g0 g1
        exact ⟨v, by rw [r2 (not_le.mp hc)]; exact hv⟩
    · intro q q' v v' h0 hqq h1 hv hv'
      obtain ⟨r1, r2, _⟩ := hreg q h0 (by linarith)
      obtain ⟨r1', r2', _⟩ := hreg q' (by linarith) h1
      by_cases hc : (data.length : Rat) ≤ q * S.total
      · rw [r1 ⟨hc, by push_cast; nlinarith⟩] at hv
        rw [r1' ⟨by nlinarith, by push_cast; nlinarith⟩] at hv'
        cases hv; cases hv'; exact le_refl _
      · obtain ⟨hd, g0, g1⟩ := hlow q h0 (not_le.mp hc)
        rw [r2 (not_le.mp hc)] at hv
        by_cases hc' : (data.length : Rat) ≤ q' * S.total
        · rw [r1' ⟨hc', by push_cast; nlinarith⟩] at hv'
          cases hv'
          obtain ⟨w, hw, _, hm⟩ := hqs _ g0 g1
          rw [hw] at hv; cases hv
          exact (hneg _ (hm (by intro h; rw [h] at hd; simp at hd))).le
        · obtain ⟨_, g0', g1'⟩ := hlow q' (by linarith) (not_le.mp hc')
          rw [r2' (not_le.mp hc')] at hv'
          refine hmn _ _ _ _ g0 ?_ g1' hv hv'
          have hdp : (0 : Rat) < ((data.length + 0 : Nat) : Rat) := by push_cast; simp; omega
          apply div_le_div_of_nonneg_right _ hdp.le
          nlinarith

/-- With the default configuration (buffer 10000, error 1/1000, 32 bins), ten rows and one
negative and one positive entry, the split points come out as `[5, 0]`. -/
theorem C18_sparse_refuted :
    splitPoints (sparseOf ⟨10000, 10000, 1 / 1000, []⟩ [-1, 5] 10).query 32 = .ok [5, 0] := by
  decide +kernel

/-- Concrete dense and sparse columns. -/
example : splitPoints (query (denseOf ⟨10000, 10000, 1 / 1000, []⟩ [3, 1, 4, 1, 5, 9, 2, 6])) 4
    = .ok [1, 3, 5] := by decide +kernel
example : splitPoints (sparseOf ⟨10000, 10000, 1 / 1000, []⟩ [3, 1, 4, 5] 8).query 8
    = .ok [0, 3, 4] := by decide +kernel

end Verif
