import Verif.Lemmas.C18

/-!
# C19 – sparse quantiles treat missing entries as zeros

For a column with `s` negative and `b` positive stored entries out of `n` rows, the zeros
occupy the ranks `s … n - b`.  The query returns 0 exactly when `q n` lies in that *closed*
interval; otherwise it asks the stored values for the percentile corresponding to the rank
`q n` (below) or `q n - zeros` (above).  Because the interval is closed it is non-empty even
without zeros: then 0 is returned although it is not in the data
(`C19_no_zero_refuted`).  On a summary that was not compressed yet the query can divide by
zero (`C19_unflushed_refuted`); the binning code always compresses first.
-/

set_option autoImplicit false

namespace Verif
open Quantile Spec

/-- **Zero region**: the answer is 0 exactly when the quantile falls among the zeros, and the
query never fails. -/
theorem C19_zero_iff (cfg : Config) (herr : 0 ≤ cfg.error) (data : List Rat) (total : Nat)
    (hab : ∀ x ∈ data, x ∉ cfg.abnormal) (hnz : ∀ x ∈ data, 1 / 10 ^ 6 ≤ |x|)
    (ht : 1 ≤ total) (hlen : data.length ≤ total) (q : Rat) (h0 : 0 ≤ q) (h1 : q ≤ 1) :
    ∃ v, (sparseOf cfg data total).query q = .ok v ∧
      (v = 0 ↔ (data.countP (· < 0) : Rat) ≤ q * total ∧ q * total ≤ total - data.countP (0 < ·)) ∧
      (v ≠ 0 → v ∈ data) := by
  obtain ⟨f1, f2, f3, f4, f5, f6⟩ := sparse_facts cfg data total hab
  obtain ⟨e1, e2, e3, e4, e5⟩ := progOf_spec cfg data
  have hfz : floatZero = 1 / 10 ^ 6 := rfl
  have hneg : data.countP (· < floatZero) = data.countP (· < 0) := by
    apply List.countP_congr
    intro x hx
    simp only [decide_eq_true_eq]
    have := hnz x hx
    constructor
    · intro h
      by_contra hc
      rw [abs_of_nonneg (not_lt.mp hc)] at this
      rw [hfz] at h; linarith
    · intro h; exact lt_trans h (by norm_num [hfz])
  have hpos : data.countP (floatZero ≤ ·) = data.countP (0 < ·) := by
    apply List.countP_congr
    intro x hx
    simp only [decide_eq_true_eq]
    have := hnz x hx
    constructor
    · intro h; exact lt_of_lt_of_le (by norm_num [hfz]) h
    · intro h
      rw [abs_of_pos h] at this
      rw [hfz]; exact this
  rw [hneg] at f3
  rw [hpos] at f4
  have hins : inserted (Prog.compress (progOf cfg data)) = data := by
    simp only [inserted]
    rw [e3, List.filter_eq_self.mpr]
    intro x hx; simpa using hab x hx
  generalize hS : sparseOf cfg data total = S at *
  have hqs : ∀ q, 0 ≤ q → q ≤ 1 → 1 ≤ data.length →
      ∃ v, Quantile.query S.qs q = .ok v ∧ v ∈ data ∧ v ≠ 0 := by
    intro q h0 h1 hd
    rw [f1]
    obtain ⟨v, hv, _, hm⟩ := query_ok herr (.compress (progOf cfg data)) e4 h0 h1
    rw [hins] at hm
    have := hm (by rintro rfl; simp at hd)
    refine ⟨v, hv, this, ?_⟩
    rintro rfl
    have := hnz 0 this
    norm_num at this
  obtain ⟨r1, r2, r3⟩ := sparse_query S (by omega) (by omega) (by omega) q h0 h1
  have hT : (1 : Rat) ≤ S.total := by rw [f2]; exact_mod_cast ht
  have hc : (S.smaller : Rat) + S.bigger ≤ S.total := by
    rw [f2]; exact_mod_cast (by omega : S.smaller + S.bigger ≤ total)
  rw [← f2, ← f3, ← f4]
  by_cases ha : q * S.total < S.smaller
  · have hsm : 1 ≤ S.smaller := by
      rcases Nat.eq_zero_or_pos S.smaller with h | h
      · rw [h] at ha; push_cast at ha; nlinarith
      · exact h
    have hdp : (0 : Rat) < ((S.smaller + S.bigger : Nat) : Rat) := by
      exact_mod_cast (by omega : 0 < S.smaller + S.bigger)
    obtain ⟨v, hv, hm, hz⟩ := hqs (q * S.total / (S.smaller + S.bigger : Nat))
      (div_nonneg (by nlinarith) hdp.le)
      (by
        rw [div_le_one hdp]; push_cast
        have : (0 : Rat) ≤ S.bigger := by positivity
        linarith) (by omega)
    refine ⟨v, by rw [r2 ha]; exact hv, ⟨fun h => absurd h hz, fun h => absurd h.1 (not_le.mpr ha)⟩, fun _ => hm⟩
  · by_cases hb : (S.total : Rat) - S.bigger < q * S.total
    · have hbg : 1 ≤ S.bigger := by
        rcases Nat.eq_zero_or_pos S.bigger with h | h
        · rw [h] at hb; push_cast at hb; nlinarith
        · exact h
      have hdp : (0 : Rat) < ((S.smaller + S.bigger : Nat) : Rat) := by
        exact_mod_cast (by omega : 0 < S.smaller + S.bigger)
      have hsm0 : (0 : Rat) ≤ S.smaller := by positivity
      obtain ⟨v, hv, hm, hz⟩ := hqs ((q * S.total - (S.total - S.smaller - S.bigger)) / (S.smaller + S.bigger : Nat))
        (div_nonneg (by linarith) hdp.le) (by rw [div_le_one hdp]; push_cast; nlinarith) (by omega)
      exact ⟨v, by rw [r3 hb]; exact hv, ⟨fun h => absurd h hz, fun h => absurd h.2 (not_le.mpr hb)⟩,
        fun _ => hm⟩
    · exact ⟨0, r1 ⟨not_lt.mp ha, not_lt.mp hb⟩, ⟨fun _ => ⟨not_lt.mp ha, not_lt.mp hb⟩, fun _ => rfl⟩,
        fun h => absurd rfl h⟩

/-- **Percentile conversion**: outside the zero region the stored values are asked for the
percentile `r` whose rank among them is the rank of `q` in the whole column without the zeros;
it lies in `[0, 1]` and on the correct side of zero. -/
theorem C19_percentile (cfg : Config) (data : List Rat) (total : Nat)
    (hab : ∀ x ∈ data, x ∉ cfg.abnormal) (ht : 1 ≤ total) (hlen : data.length ≤ total)
    (q : Rat) (h0 : 0 ≤ q) (h1 : q ≤ 1) :
    let s := sparseOf cfg data total
    (q * total < s.smaller →
      ∃ r, s.query q = Quantile.query s.qs r ∧ r * data.length = q * total ∧
        0 ≤ r ∧ r ≤ 1 ∧ r * data.length < s.smaller) ∧
    ((total : Rat) - s.bigger < q * total →
      ∃ r, s.query q = Quantile.query s.qs r ∧
        r * data.length = q * total - (total - data.length : Int) ∧
        0 ≤ r ∧ r ≤ 1 ∧ (s.smaller : Rat) < r * data.length) := by
  obtain ⟨f1, f2, f3, f4, f5, f6⟩ := sparse_facts cfg data total hab
  generalize hS : sparseOf cfg data total = S at *
  simp only
  obtain ⟨_, r2, r3⟩ := sparse_query S (by omega) (by omega) (by omega) q h0 h1
  have hsum : ((S.smaller + S.bigger : Nat) : Rat) = data.length := by rw [f5]
  have hsum' : (S.smaller : Rat) + S.bigger = data.length := by rw [← hsum]; push_cast; ring
  have hsm0 : (0 : Rat) ≤ S.smaller := by positivity
  have hbg0 : (0 : Rat) ≤ S.bigger := by positivity
  have hlen' : (data.length : Rat) ≤ total := by exact_mod_cast hlen
  have hT : (1 : Rat) ≤ total := by exact_mod_cast ht
  rw [f2] at r2 r3
  rw [hsum] at r2 r3
  constructor
  · intro ha
    have hdp : (0 : Rat) < data.length := by nlinarith
    refine ⟨_, r2 ha, div_mul_cancel₀ _ (ne_of_gt hdp), div_nonneg (by nlinarith) hdp.le, ?_, ?_⟩
    · rw [div_le_one hdp]; linarith
    · rw [div_mul_cancel₀ _ (ne_of_gt hdp)]; exact ha
  · intro hb
    have hdp : (0 : Rat) < data.length := by nlinarith
    refine ⟨_, r3 hb, ?_, div_nonneg (by linarith) hdp.le, ?_, ?_⟩
    · rw [div_mul_cancel₀ _ (ne_of_gt hdp)]; push_cast; linarith
    · rw [div_le_one hdp]; nlinarith
    · rw [div_mul_cancel₀ _ (ne_of_gt hdp)]; linarith

/-- Without any zero entry the median of `-1, 5` is reported as 0. -/
theorem C19_no_zero_refuted :
    (sparseOf ⟨10000, 10000, 1 / 1000, []⟩ [-1, 5] 2).query (1 / 2) = .ok 0 ∧
    (sparseOf ⟨10000, 10000, 1 / 1000, []⟩ [-1, -2] 2).query 1 = .ok 0 := by
  decide +kernel

/-- A summary that is queried before it was compressed divides by zero. -/
theorem C19_unflushed_refuted :
    (([-1, 5].foldl Sparse.insert (Sparse.new ⟨10000, 10000, 1 / 1000, []⟩)).setTotal 4).query (1 / 10)
      = .error .zeroDivision := by
  decide +kernel

/-- Concrete column: two negative, two positive entries and four zeros. -/
example : ([1/8, 1/4, 3/8, 1/2, 3/4, 7/8].map
    (sparseOf ⟨10000, 10000, 1 / 1000, []⟩ [-3, -1, 2, 7] 8).query) =
    [.ok (-1), .ok 0, .ok 0, .ok 0, .ok 0, .ok 2] := by decide +kernel

end Verif
