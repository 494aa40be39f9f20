import Verif.Lemmas.HistogramSum

/-! # `aggregate_histogram` adds cell by cell -/

set_option autoImplicit false

namespace Verif
namespace Histogram

open Binning (Cell SparseVec)
open Spec

theorem aggBins_ok (l1 l2 : List (HCell Rat)) (h : l1.length = l2.length) :
    ∃ l, aggBins plain l1 l2 = .ok l ∧ l.length = l1.length ∧ ∀ b, at1 l b = at1 l1 b + at1 l2 b := by
  induction l1 generalizing l2 with
  | nil =>
    cases l2 with
    | nil => exact ⟨[], rfl, rfl, fun b => by simp [at1]⟩
    | cons _ _ => simp at h
  | cons x l1 ih =>
    cases l2 with
    | nil => simp at h
    | cons y l2 =>
      obtain ⟨l, a1, a2, a3⟩ := ih l2 (by simpa using h)
      refine ⟨(x + y) :: l, ?_, by simp [a2], ?_⟩
      · unfold aggBins
        rw [addCell_plain]
        simp only [bind, Except.bind]
        rw [a1]
        rfl
      · intro b
        cases b with
        | zero => rfl
        | succ b => exact a3 b

theorem aggList_ok {β : Type} (f : List β → List β → Except PyErr (List β))
    (P : List β → List β → List β → Prop) (h0 : P [] [] []) (l1 l2 : List (List β))
    (hl : l1.length = l2.length) (h : ∀ i, ∃ z, f (row l1 i) (row l2 i) = .ok z ∧ P (row l1 i) (row l2 i) z) :
    ∃ l, aggList f l1 l2 = .ok l ∧ l.length = l1.length ∧ ∀ i, P (row l1 i) (row l2 i) (row l i) := by
  induction l1 generalizing l2 with
  | nil =>
    cases l2 with
    | nil => exact ⟨[], rfl, rfl, fun i => h0⟩
    | cons _ _ => simp at hl
  | cons x l1 ih =>
    cases l2 with
    | nil => simp at hl
    | cons y l2 =>
      obtain ⟨l, a1, a2, a3⟩ := ih l2 (by simpa using hl) (fun i => h (i + 1))
      obtain ⟨z, z1, z2⟩ := h 0
      refine ⟨z :: l, ?_, by simp [a2], ?_⟩
      · unfold aggList
        have : f x y = .ok z := z1
        rw [this]
        simp only [bind, Except.bind]
        rw [a1]
        rfl
      · intro i
        cases i with
        | zero => exact z2
        | succ i => exact a3 i

theorem row_ext {β : Type} {l l' : List (List β)} (hl : l.length = l'.length)
    (h : ∀ i < l.length, row l i = row l' i) : l = l' := by
  apply List.ext_getElem hl
  intro i h1 h2
  have := h i h1
  unfold row at this
  rw [List.getElem?_eq_getElem h1, List.getElem?_eq_getElem h2] at this
  exact this

theorem at1_ext {l l' : List (HCell Rat)} (hl : l.length = l'.length) (h : ∀ b, at1 l b = at1 l' b) : l = l' := by
  apply List.ext_getElem hl
  intro i h1 h2
  have := h i
  unfold at1 at this
  rw [List.getElem?_eq_getElem h1, List.getElem?_eq_getElem h2] at this
  exact this

theorem collectRecords_append {α : Type} (nodeMap : Dict Nat Nat)
    (a b : List ((SparseVec Cell × Nat × Nat) × α × α)) :
    collectRecords nodeMap (a ++ b) = collectRecords nodeMap a ++ collectRecords nodeMap b := by
  induction a with
  | nil => rfl
  | cons p a ih =>
    obtain ⟨⟨f, st, nid⟩, g, h⟩ := p
    rw [List.cons_append]
    simp only [collectRecords]
    split
    · exact ih
    · rw [ih, List.cons_append]

theorem batch_aggregate (splits : List (List Rat)) (sparse : Dict Nat Nat) (v : List Bool)
    (hv : v.length = splits.length) (hz : ZeroBins splits sparse) (nodeMap : Dict Nat Nat)
    (hN : nodeMap ≠ []) (hmap : ∀ id n, nodeMap.get? id = some n → n < nodeMap.length)
    (k1 k2 : List ((SparseVec Cell × Nat × Nat) × Rat × Rat))
    (h1 : ∀ p ∈ k1, BinnedRow splits p.1.1) (h2 : ∀ p ∈ k2, BinnedRow splits p.1.1) :
    ∃ H1 H2 H, batch plain splits sparse (some v) nodeMap k1 = .ok H1 ∧
      batch plain splits sparse (some v) nodeMap k2 = .ok H2 ∧ aggregate plain H1 H2 = .ok H ∧
      batch plain splits sparse (some v) nodeMap (k1 ++ k2) = .ok H := by
  obtain ⟨H1, a1, a2, a3, a4⟩ := batch_ok splits sparse v hv hz nodeMap hN hmap k1 h1
  obtain ⟨H2, b1, b2, b3, b4⟩ := batch_ok splits sparse v hv hz nodeMap hN hmap k2 h2
  obtain ⟨H3, c1, c2, c3, c4⟩ := batch_ok splits sparse v hv hz nodeMap hN hmap (k1 ++ k2) (by
    intro p hp
    rcases List.mem_append.mp hp with hp | hp
    · exact h1 p hp
    · exact h2 p hp)
  have out : ∀ (H : Hist Rat) (n : Nat), ¬ n < H.length → row H n = [] := by
    intro H n hn; unfold row; rw [List.getElem?_eq_none (by omega)]; rfl
  have hrl : ∀ n f, (row (row H1 n) f).length = (row (row H2 n) f).length := by
    intro n f
    by_cases hn : n < nodeMap.length
    · by_cases hf : f < splits.length
      · rw [(a4 n hn f hf).1, (b4 n hn f hf).1]
      · have e1 : row (row H1 n) f = [] := by
          unfold row at *; rw [List.getElem?_eq_none (by rw [a3 n hn]; omega)]; rfl
        have e2 : row (row H2 n) f = [] := by
          unfold row at *; rw [List.getElem?_eq_none (by rw [b3 n hn]; omega)]; rfl
        rw [e1, e2]
    · rw [out H1 n (by omega), out H2 n (by omega)]
  obtain ⟨H, d1, d2, d3⟩ := aggList_ok (aggList (aggBins plain))
    (fun x y z => z.length = x.length ∧ ∀ f, (row z f).length = (row x f).length ∧
      ∀ b, at1 (row z f) b = at1 (row x f) b + at1 (row y f) b)
    ⟨rfl, fun f => ⟨rfl, fun b => by simp [at1, row]⟩⟩ H1 H2 (by omega) (by
      intro n
      have hl : (row H1 n).length = (row H2 n).length := by
        by_cases hn : n < nodeMap.length
        · rw [a3 n hn, b3 n hn]
        · rw [out H1 n (by omega), out H2 n (by omega)]
      obtain ⟨z, z1, z2, z3⟩ := aggList_ok (aggBins plain)
        (fun x y z => z.length = x.length ∧ ∀ b, at1 z b = at1 x b + at1 y b)
        ⟨rfl, fun b => by simp [at1]⟩ (row H1 n) (row H2 n) hl (fun f => aggBins_ok _ _ (hrl n f))
      exact ⟨z, z1, z2, z3⟩)
  refine ⟨H1, H2, H, a1, b1, d1, ?_⟩
  rw [c1]
  congr 1
  apply row_ext (by rw [c2, d2, a2])
  intro n hn
  rw [c2] at hn
  have hfl : (row H3 n).length = (row H n).length := by rw [c3 n hn, (d3 n).1, a3 n hn]
  apply row_ext hfl
  intro f hf
  rw [c3 n hn] at hf
  have hbl : (row (row H3 n) f).length = (row (row H n) f).length := by
    rw [(c4 n hn f hf).1, ((d3 n).2 f).1, (a4 n hn f hf).1]
  by_cases hen : v.getD f false = true
  · apply at1_ext hbl
    intro b
    rw [((d3 n).2 f).2 b]
    have e1 := (a4 n hn f hf).2 hen b
    have e2 := (b4 n hn f hf).2 hen b
    have e3 := (c4 n hn f hf).2 hen b
    unfold at3 at2 at e1 e2 e3
    rw [e1, e2, e3, collectRecords_append, List.map_append, List.sum_append]
  · have e : (row (row H3 n) f).length = 0 := by
      rw [(c4 n hn f hf).1, if_neg hen]
    rw [List.length_eq_zero_iff.mp e, List.length_eq_zero_iff.mp (hbl.symm.trans e)]

end Histogram
end Verif
