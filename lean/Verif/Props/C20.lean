import Verif.Lemmas.Fit
import Verif.Spec.C20
import Verif.Props.C18

/-!
# C20 – a bin test and a threshold test decide the same way

Training compares bin numbers, prediction compares raw values with the split point of the
chosen bin.  For increasing split points the two tests agree.  Split points of dense columns
and of sparse columns with entries of one sign are increasing (C18); the split points that C18
exhibits for a column with both signs make the two tests disagree
(`C20_unsorted_refuted`).
-/

set_option autoImplicit false

namespace Verif
open Binning Spec Quantile

/-- The bin of a value is the unique interval that contains it. -/
theorem C20_bin_is_interval (sps : List Rat) (hs : sps.Pairwise (· < ·)) (v : Rat) (b : Nat) :
    getBinNum v sps = b ↔ InBin sps b v := by
  constructor
  · rintro rfl
    exact ⟨getBinNum_le v sps, getBinNum_take v sps, getBinNum_drop v sps hs⟩
  · rintro ⟨hb, hlt, hge⟩
    rcases Nat.lt_trichotomy (getBinNum v sps) b with h | h | h
    · exfalso
      have hlen : getBinNum v sps < sps.length := by omega
      have h1 := getBinNum_at v sps _ (List.getElem?_eq_getElem hlen)
      have h2 := hlt sps[getBinNum v sps] (by
        rw [List.mem_take_iff_getElem]
        exact ⟨getBinNum v sps, by omega, rfl⟩)
      exact absurd h1 (not_le.mpr h2)
    · exact h
    · exfalso
      have hlen : b < sps.length := by have := getBinNum_le v sps; omega
      have h1 := getBinNum_take v sps sps[b] (by
        rw [List.mem_take_iff_getElem]
        exact ⟨b, by omega, rfl⟩)
      have h2 := hge sps[b] (by
        rw [List.mem_drop_iff_getElem]
        exact ⟨0, by omega, by simp⟩)
      exact absurd h1 (not_lt.mpr h2)

/-- Larger values get larger (or equal) bins, for any split points. -/
theorem C20_bin_monotone (sps : List Rat) (v w : Rat) (h : v ≤ w) :
    getBinNum v sps ≤ getBinNum w sps :=
  getBinNum_mono v w sps h

/-- The two tests agree for every bin that has a threshold. -/
theorem C20_bin_test_iff_threshold_test (sps : List Rat) (hs : sps.Pairwise (· < ·)) (v : Rat)
    (b : Nat) (t : Rat) (hb : sps[b]? = some t) : getBinNum v sps ≤ b ↔ v ≤ t :=
  getBinNum_le_iff v sps hs b t hb

/-- Split points fitted to a dense column: the tests agree for every value. -/
theorem C20_dense_column (cfg : Config) (herr : 0 ≤ cfg.error) (data : List Rat) (binNum : Nat)
    (hb : 1 ≤ binNum) :
    ∃ sps, splitPoints (query (denseOf cfg data)) binNum = .ok sps ∧
      ∀ (v : Rat) (b : Nat) (t : Rat), sps[b]? = some t → (getBinNum v sps ≤ b ↔ v ≤ t) := by
  obtain ⟨sps, h1, h2, _⟩ := C18_split_points_increasing cfg herr data binNum hb
  exact ⟨sps, h1, fun v b t ht => getBinNum_le_iff v sps h2 b t ht⟩

/-- Split points fitted to a sparse column whose stored entries have one sign. -/
theorem C20_sparse_column_partial (cfg : Config) (herr : 0 ≤ cfg.error) (data : List Rat)
    (total : Nat) (hab : ∀ x ∈ data, x ∉ cfg.abnormal) (ht : 1 ≤ total) (hlen : data.length ≤ total)
    (hsign : (∀ x ∈ data, 1 / 10 ^ 6 ≤ x) ∨ (∀ x ∈ data, x < 0)) (binNum : Nat) (hb : 1 ≤ binNum) :
    ∃ sps, splitPoints (sparseOf cfg data total).query binNum = .ok sps ∧
      ∀ (v : Rat) (b : Nat) (t : Rat), sps[b]? = some t → (getBinNum v sps ≤ b ↔ v ≤ t) := by
  obtain ⟨sps, h1, h2, _⟩ := C18_sparse_split_points_partial cfg herr data total hab ht hlen hsign binNum hb
  exact ⟨sps, h1, fun v b t ht => getBinNum_le_iff v sps h2 b t ht⟩

/-- With the split points of `C18_sparse_refuted` the training value `5` is sent left by the
bin test of bin 1 and right by the threshold test of its split point 0. -/
theorem C20_unsorted_refuted :
    ∃ sps, splitPoints (sparseOf ⟨10000, 10000, 1 / 1000, []⟩ [-1, 5] 10).query 32 = .ok sps ∧
      sps[1]? = some 0 ∧ getBinNum 5 sps ≤ 1 ∧ ¬ ((5 : Rat) ≤ 0) := by
  refine ⟨[5, 0], C18_sparse_refuted, by decide, by decide +kernel, by decide⟩

example : ([0, 1, 2, 3, 7].map fun v => getBinNum v [1, 3, 5]) = [0, 0, 1, 1, 3] := by decide +kernel

end Verif
