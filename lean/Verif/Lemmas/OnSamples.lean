import Verif.Spec.C24
import Verif.Props.C22

/-! # What the histogram of a node offers, in terms of the samples at the node -/

set_option autoImplicit false

namespace Verif
namespace DTree
open Spec Histogram
open Binning (Cell SparseVec)

variable {K : Type} [DecidableEq K]

theorem count_right (sparse : Dict Nat Nat) (f b : Nat) (S : List (SparseVec Cell × Rat × Rat)) :
    ((upToBin sparse f b S).length : Int) +
      (S.filter fun s => decide ((b : Rat) < binOf sparse f s.1)).length = S.length := by
  unfold upToBin
  induction S with
  | nil => rfl
  | cons s S ih =>
    by_cases h : binOf sparse f s.1 ≤ b
    · rw [List.filter_cons_of_pos (by simpa using h), List.filter_cons_of_neg (by simpa using h)]
      simp only [List.length_cons]; push_cast; omega
    · rw [List.filter_cons_of_neg (by simpa using h), List.filter_cons_of_pos (by simpa using h)]
      simp only [List.length_cons]; push_cast; omega

theorem sum_right (sparse : Dict Nat Nat) (f b : Nat) (S : List (SparseVec Cell × Rat × Rat)) :
    (sumsOf (upToBin sparse f b S)).2 +
      (sumsOf (S.filter fun s => decide ((b : Rat) < binOf sparse f s.1))).2 = (sumsOf S).2 := by
  unfold upToBin sumsOf
  induction S with
  | nil => simp
  | cons s S ih =>
    simp only at ih
    by_cases h : binOf sparse f s.1 ≤ b
    · rw [List.filter_cons_of_pos (by simpa using h), List.filter_cons_of_neg (by simpa using h)]
      simp only [List.map_cons, List.sum_cons]; linarith
    · rw [List.filter_cons_of_neg (by simpa using h), List.filter_cons_of_pos (by simpa using h)]
      simp only [List.map_cons, List.sum_cons]; linarith

theorem hess_nonneg (S : List (SparseVec Cell × Rat × Rat)) (h : ∀ s ∈ S, 0 ≤ s.2.2) :
    0 ≤ (sumsOf S).2 := by
  apply List.sum_nonneg
  intro x hx
  obtain ⟨s, hs, rfl⟩ := List.mem_map.mp hx
  exact h s hs

theorem hess_pos (S : List (SparseVec Cell × Rat × Rat)) (h : ∀ s ∈ S, 0 < s.2.2)
    (hne : 1 ≤ (S.length : Int)) : 0 < (sumsOf S).2 := by
  cases S with
  | nil => simp at hne
  | cons s S =>
    have h1 := h s (by simp)
    have h2 := hess_nonneg S (fun t ht => le_of_lt (h t (by simp [ht])))
    simp only [sumsOf, List.map_cons, List.sum_cons] at h2 ⊢
    linarith

theorem safe_of_regular (cfg : Config) (sparse : Dict Nat Nat)
    (S : List (SparseVec Cell × Rat × Rat)) (hr : Regular cfg S) (f b : Nat)
    (h1 : cfg.minLeaf ≤ (upToBin sparse f b S).length)
    (h2 : cfg.minLeaf ≤ (S.filter fun s => decide ((b : Rat) < binOf sparse f s.1)).length) :
    Safe cfg.regLambda (sumsOf S) (sumsOf (upToBin sparse f b S)) := by
  have hs := sum_right sparse f b S
  have e : (sumsOf S).2 - (sumsOf (upToBin sparse f b S)).2 =
      (sumsOf (S.filter fun s => decide ((b : Rat) < binOf sparse f s.1))).2 := by linarith
  unfold Safe
  rw [e]
  rcases hr with ⟨hl, hh⟩ | ⟨hl, hm, hh⟩
  · have a := hess_nonneg (upToBin sparse f b S) (fun s hs => hh s (List.mem_filter.mp hs).1)
    have b' := hess_nonneg (S.filter fun s => decide ((b : Rat) < binOf sparse f s.1))
      (fun s hs => hh s (List.mem_filter.mp hs).1)
    refine ⟨?_, ?_, ?_⟩ <;> apply ne_of_gt <;> linarith
  · have a := hess_pos (upToBin sparse f b S) (fun s hs => hh s (List.mem_filter.mp hs).1) (by omega)
    have b' := hess_pos (S.filter fun s => decide ((b : Rat) < binOf sparse f s.1))
      (fun s hs => hh s (List.mem_filter.mp hs).1) (by omega)
    refine ⟨?_, ?_, ?_⟩ <;> apply ne_of_gt <;> linarith

/-- The splits a histogram offers. -/
theorem nodeFacts (cfg : Config) (splits : List (List Rat)) (sparse : Dict Nat Nat)
    (valid : List Bool) (hv : valid.length = splits.length) (hz : ZeroBins splits sparse)
    (data : DTable K (SparseVec Cell × Nat × Nat))
    (hd : ∀ k x, data.data.get? k = some x → BinnedRow splits x.1) (gh : DTable K (Rat × Rat))
    (id : Nat) (fh : List (List (HCell Rat)))
    (f3 : ∀ (f : Nat) sp, splits[f]? = some sp → ∃ bins, fh[f]? = some bins ∧
      (valid[f]? = some false → bins = []) ∧
      (valid[f]? = some true → bins.length = sp.length + 1 ∧ ∀ b ≤ sp.length,
        bins[b]? = some (totals (upToBin sparse f b (atNode data gh id))))) :
    LastIs valid fh (fun c => c = totals (atNode data gh id)) ∧
    (∀ f b c, Offered cfg valid fh f b c → c = totals (upToBin sparse f b (atNode data gh id))) ∧
    ∀ f b l, (∃ c, Offered cfg valid fh f b c ∧ l = (c.1, c.2.1)) ↔
      OfferedOn cfg valid splits sparse (atNode data gh id) f b l := by
  set S := atNode data gh id with hS
  have hbins : ∀ f bins, valid[f]? = some true → fh[f]? = some bins →
      ∃ sp, splits[f]? = some sp ∧ bins.length = sp.length + 1 ∧
        ∀ b ≤ sp.length, bins[b]? = some (totals (upToBin sparse f b S)) := by
    intro f bins hval hb
    have hf : f < splits.length := by
      rw [← hv]
      by_contra hc
      rw [List.getElem?_eq_none (by omega)] at hval
      cases hval
    obtain ⟨bins', g1, _, g3⟩ := f3 f splits[f] (List.getElem?_eq_getElem hf)
    rw [hb, Option.some.injEq] at g1
    subst g1
    exact ⟨_, List.getElem?_eq_getElem hf, g3 hval⟩
  have hlast : ∀ (f : Nat) (bins : List (HCell Rat)) (c : HCell Rat), valid[f]? = some true → fh[f]? = some bins → bins.getLast? = some c →
      c = totals S := by
    intro f bins c hval hb hc
    obtain ⟨sp, s1, s2, s3⟩ := hbins f bins hval hb
    rw [List.getLast?_eq_getElem?, s2, Nat.add_sub_cancel, s3 _ le_rfl, Option.some.injEq] at hc
    rw [← hc]
    exact C22_last_bin splits sparse hz f sp s1 data hd gh id
  have hoff : ∀ f b c, Offered cfg valid fh f b c → c = totals (upToBin sparse f b S) ∧
      OfferedOn cfg valid splits sparse S f b (c.1, c.2.1) := by
    rintro f b c ⟨bins, tot, a1, a2, a3, a4, a5, a6, a7⟩
    obtain ⟨sp, s1, s2, s3⟩ := hbins f bins a1 a2
    have hb : b ≤ sp.length := by
      by_contra hcon
      rw [List.getElem?_eq_none (by omega)] at a3
      cases a3
    have htot := hlast f bins tot a1 a2 a4
    rw [s3 b hb, Option.some.injEq] at a3
    refine ⟨a3.symm, a1, ⟨sp, s1, hb⟩, ?_, ?_, ?_, ?_⟩
    · rw [htot] at a5; exact a5
    · rw [← a3] at a6; exact a6
    · rw [← a3, htot] at a7
      simp only [totals] at a7
      have := count_right sparse f b S
      omega
    · rw [← a3]; rfl
  have hback : ∀ f b l, OfferedOn cfg valid splits sparse S f b l →
      ∃ c, Offered cfg valid fh f b c ∧ l = (c.1, c.2.1) := by
    rintro f b l ⟨a1, ⟨sp, a2, a3⟩, a4, a5, a6, rfl⟩
    obtain ⟨bins, g1, _, g3⟩ := f3 f sp a2
    obtain ⟨g4, g5⟩ := g3 a1
    refine ⟨totals (upToBin sparse f b S), ⟨bins, totals S, a1, g1, g5 b a3, ?_, a4, a5, ?_⟩, rfl⟩
    · cases hx : bins.getLast? with
      | none => rw [List.getLast?_eq_none_iff] at hx; rw [hx] at g4; simp at g4
      | some c => rw [hlast f bins c a1 g1 hx]
    · have := count_right sparse f b S
      simp only [totals]
      omega
  refine ⟨hlast, fun f b c h => (hoff f b c h).1, fun f b l => ⟨?_, hback f b l⟩⟩
  rintro ⟨c, hc, rfl⟩
  exact (hoff f b c hc).2

end DTree
end Verif
