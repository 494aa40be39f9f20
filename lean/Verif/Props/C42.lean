import Verif.Model.Sampling
import Mathlib.Data.List.Perm.Basic
import Mathlib.Data.List.Perm.Subperm
import Mathlib.Tactic.Linarith
import Mathlib.Tactic.NormNum

/-!
# C42 Feature subsampling enables the right number of features
-/

set_option autoImplicit false

namespace Verif
open Sampling

/-- How many features out of `n` are to be enabled. -/
def Spec.sampleSize (n : Nat) (rate : Rat) : Nat := max 1 ⌊rate * n⌋₊

private theorem enable_ok (chosen : List Nat) (valid : List Bool)
    (h : ∀ f ∈ chosen, f < valid.length) :
    ∃ v, enable valid chosen = .ok v ∧ v.length = valid.length ∧
      ∀ i, v[i]? = some true ↔ (valid[i]? = some true ∨ i ∈ chosen) := by
  induction chosen generalizing valid with
  | nil => exact ⟨valid, rfl, rfl, fun i => by simp⟩
  | cons f rest ih =>
    have hf := h f (List.mem_cons_self ..)
    obtain ⟨v, h1, h2, h3⟩ := ih (valid.set f true) (fun g hg => by
      simpa using h g (List.mem_cons_of_mem _ hg))
    refine ⟨v, by simp only [enable, hf, if_true]; exact h1, by simpa using h2, fun i => ?_⟩
    rw [h3, List.getElem?_set]
    by_cases hi : f = i
    · subst hi; simp [hf]
    · simp [hi, Ne.symm hi]

private theorem count_true (n : Nat) (v : List Bool) (chosen : List Nat) (hl : v.length = n)
    (hnd : chosen.Nodup) (hlt : ∀ f ∈ chosen, f < n)
    (h : ∀ i, v[i]? = some true ↔ i ∈ chosen) : v.count true = chosen.length := by
  have hp : chosen.Perm ((List.range n).filter fun i => v[i]? = some true) := by
    rw [List.perm_ext_iff_of_nodup hnd (List.nodup_range.filter _)]
    intro a
    simp only [List.mem_filter, List.mem_range, decide_eq_true_eq, h]
    exact ⟨fun ha => ⟨hlt a ha, ha⟩, fun ha => ha.2⟩
  rw [hp.length_eq, ← List.countP_eq_length_filter, ← hl]
  clear hp h hlt hnd hl
  induction v with
  | nil => rfl
  | cons b v ih =>
    rw [List.length_cons, List.range_succ_eq_map, List.countP_cons, List.countP_map]
    have : List.countP ((fun i => decide ((b :: v)[i]? = some true)) ∘ Nat.succ) (List.range v.length)
        = List.countP (fun i => decide (v[i]? = some true)) (List.range v.length) := by
      congr 1
    rw [this, ← ih]
    cases b <;> simp

private theorem truncate_eq (n : Nat) (rate : Rat) (hr : 0 ≤ rate) :
    max 1 (truncate (rate * n)) = (Spec.sampleSize n rate : Int) := by
  have h0 : 0 ≤ rate * n := mul_nonneg hr (Nat.cast_nonneg n)
  unfold truncate Spec.sampleSize
  rw [if_pos h0, ← Int.natCast_floor_eq_floor h0]
  push_cast
  rfl

private theorem size_le (n : Nat) (rate : Rat) (hn : 0 < n) (h1 : rate ≤ 1) :
    Spec.sampleSize n rate ≤ n := by
  unfold Spec.sampleSize
  apply max_le hn
  by_cases h0 : 0 ≤ rate * n
  · have hle : rate * n ≤ n := by
      have : (0 : Rat) ≤ n := Nat.cast_nonneg n
      nlinarith
    exact_mod_cast le_trans (Nat.floor_le h0) hle
  · rw [Nat.floor_of_nonpos (le_of_lt (not_le.1 h0))]
    exact Nat.zero_le _

/-- For every feature count, every rate between zero and one and every random draw: exactly
`max(1, floor(rate * n))` of the `n` features are enabled, namely the ones drawn. -/
theorem C42_count (perm : List Nat) (n : Nat) (rate : Rat) (hn : 0 < n) (h0 : 0 ≤ rate)
    (h1 : rate ≤ 1) (hp : perm.Perm (List.range n)) :
    ∃ v, sampleValidFeatures perm n rate = .ok v ∧ v.length = n ∧
      v.count true = Spec.sampleSize n rate ∧
      ∀ i, v[i]? = some true ↔ i ∈ perm.take (Spec.sampleSize n rate) := by
  have hk := size_le n rate hn h1
  have hc : choice perm n (max 1 (truncate (rate * n)))
      = .ok (perm.take (Spec.sampleSize n rate)) := by
    rw [truncate_eq n rate h0]
    unfold choice
    rw [if_neg (by omega), if_neg (by omega)]
    rfl
  have hlt : ∀ f ∈ perm.take (Spec.sampleSize n rate), f < n := fun f hf =>
    List.mem_range.1 (hp.mem_iff.1 (List.mem_of_mem_take hf))
  obtain ⟨v, hv, hl, hi⟩ := enable_ok (perm.take (Spec.sampleSize n rate))
    (List.replicate n false) (by simpa using hlt)
  simp only [List.length_replicate] at hl
  have hmem : ∀ i, v[i]? = some true ↔ i ∈ perm.take (Spec.sampleSize n rate) := by
    intro i
    rw [hi]
    simp [List.getElem?_replicate]
  refine ⟨v, by unfold sampleValidFeatures; rw [hc]; exact hv, hl, ?_, hmem⟩
  rw [count_true n v _ hl ((List.take_sublist _ _).nodup (hp.nodup_iff.2 List.nodup_range)) hlt hmem,
    List.length_take, hp.length_eq, List.length_range, min_eq_left hk]

/-- With rate one every feature is enabled. -/
theorem C42_all (perm : List Nat) (n : Nat) (hn : 0 < n) (hp : perm.Perm (List.range n)) :
    sampleValidFeatures perm n 1 = .ok (List.replicate n true) := by
  obtain ⟨v, hv, hl, hc, _⟩ := C42_count perm n 1 hn (by norm_num) (le_refl _) hp
  rw [hv]
  congr 1
  have hs : Spec.sampleSize n 1 = n := by
    unfold Spec.sampleSize
    rw [one_mul, Nat.floor_natCast]
    exact max_eq_right hn
  rw [hs, ← hl] at hc
  rw [← hl]
  exact List.eq_replicate_iff.2 ⟨rfl, fun b hb => ((List.count_eq_length.1 hc) b hb).symm⟩

/-- Every choice of that many features can be drawn. -/
theorem C42_any (n : Nat) (rate : Rat) (hn : 0 < n) (h0 : 0 ≤ rate) (h1 : rate ≤ 1)
    (S : List Nat) (hS : S.Nodup) (hlt : ∀ f ∈ S, f < n) (hlen : S.length = Spec.sampleSize n rate) :
    ∃ perm v, perm.Perm (List.range n) ∧ sampleValidFeatures perm n rate = .ok v ∧
      ∀ i, v[i]? = some true ↔ i ∈ S := by
  have hp : (S ++ (List.range n).filter fun i => i ∉ S).Perm (List.range n) := by
    rw [List.perm_ext_iff_of_nodup]
    · intro a
      simp only [List.mem_append, List.mem_filter, List.mem_range, decide_eq_true_eq]
      constructor
      · rintro (h | h)
        · exact hlt a h
        · exact h.1
      · intro h
        by_cases ha : a ∈ S
        · exact Or.inl ha
        · exact Or.inr ⟨h, ha⟩
    · rw [List.nodup_append]
      refine ⟨hS, List.nodup_range.filter _, fun a ha b hb => ?_⟩
      rintro rfl
      simp [ha] at hb
    · exact List.nodup_range
  obtain ⟨v, hv, _, _, hi⟩ := C42_count _ n rate hn h0 h1 hp
  refine ⟨_, v, hp, hv, fun i => ?_⟩
  rw [hi, ← hlen, List.take_left']
  rfl

/-- Without features there is nothing to draw from. -/
theorem C42_no_features (perm : List Nat) (rate : Rat) :
    sampleValidFeatures perm 0 rate = .error .valueError := rfl

/-! ## Examples -/

example : sampleValidFeatures [3, 0, 4, 1, 2] 5 (1 / 2) = .ok [true, false, false, true, false] := by
  decide +kernel
example : Spec.sampleSize 5 (1 / 2) = 2 ∧ [3, 0, 4, 1, 2].Perm (List.range 5) := by
  constructor
  · unfold Spec.sampleSize
    rw [show ((1 : Rat) / 2 * (5 : ℕ)) = 5 / 2 by norm_num]
    have : ⌊(5 / 2 : Rat)⌋₊ = 2 := by
      rw [Nat.floor_eq_iff (by norm_num)]
      norm_num
    rw [this]
    rfl
  · decide
/-- A rate of zero still enables one feature. -/
example : sampleValidFeatures [1, 0, 2] 3 0 = .ok [false, true, false] := by decide +kernel

end Verif
