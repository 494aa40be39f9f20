import Verif.Model.Binning
import Verif.Lemmas.DTableM
import Mathlib.Data.List.Nodup
import Mathlib.Data.List.Range
import Mathlib.Tactic.Linarith
import Mathlib.Data.Rat.Defs
import Mathlib.Algebra.Order.Ring.Rat

set_option autoImplicit false
set_option linter.unusedSectionVars false

namespace Verif
namespace Binning

theorem binLoop_shift (v : Rat) (i : Nat) (l : List Rat) :
    binLoop v i l = (binLoop v 0 l).map (· + i) := by
  induction l generalizing i with
  | nil => rfl
  | cons s l ih =>
    simp only [binLoop]
    split
    · simp
    · rw [ih (i + 1), ih (0 + 1), Option.map_map]
      congr 1
      funext n
      simp only [Function.comp]
      omega

theorem getBinNum_nil (v : Rat) : getBinNum v [] = 0 := rfl

theorem getBinNum_cons (v s : Rat) (l : List Rat) :
    getBinNum v (s :: l) = if v ≤ s then 0 else getBinNum v l + 1 := by
  unfold getBinNum
  simp only [binLoop]
  split
  · rfl
  · rw [binLoop_shift]
    cases binLoop v 0 l <;> simp

theorem getBinNum_le (v : Rat) (l : List Rat) : getBinNum v l ≤ l.length := by
  induction l with
  | nil => simp [getBinNum_nil]
  | cons s l ih =>
    rw [getBinNum_cons]
    split
    · simp
    · simpa using ih

/-- For arbitrary split points: everything before the bin is below the value, and the bin's
own split point is not. -/
theorem getBinNum_take (v : Rat) (l : List Rat) : ∀ s ∈ l.take (getBinNum v l), s < v := by
  induction l with
  | nil => simp
  | cons s l ih =>
    rw [getBinNum_cons]
    split
    · simp
    · intro t ht
      rw [List.take_succ_cons, List.mem_cons] at ht
      rcases ht with rfl | ht
      · exact not_le.mp ‹_›
      · exact ih t ht

theorem getBinNum_at (v : Rat) (l : List Rat) (t : Rat) (h : l[getBinNum v l]? = some t) : v ≤ t := by
  induction l with
  | nil => simp at h
  | cons s l ih =>
    rw [getBinNum_cons] at h
    split at h
    · simp at h; rw [← h]; assumption
    · simp at h; exact ih h

theorem getBinNum_drop (v : Rat) (l : List Rat) (hs : l.Pairwise (· < ·)) :
    ∀ s ∈ l.drop (getBinNum v l), v ≤ s := by
  induction l with
  | nil => simp
  | cons s l ih =>
    rw [List.pairwise_cons] at hs
    rw [getBinNum_cons]
    split
    · rename_i h
      intro t ht
      rw [List.drop_zero, List.mem_cons] at ht
      rcases ht with rfl | ht
      · exact h
      · exact le_trans h (hs.1 t ht).le
    · intro t ht
      rw [List.drop_succ_cons] at ht
      exact ih hs.2 t ht

theorem getBinNum_le_iff (v : Rat) (l : List Rat) (hs : l.Pairwise (· < ·)) (b : Nat) (t : Rat)
    (hb : l[b]? = some t) : getBinNum v l ≤ b ↔ v ≤ t := by
  induction l generalizing b with
  | nil => simp at hb
  | cons s l ih =>
    rw [List.pairwise_cons] at hs
    rw [getBinNum_cons]
    cases b with
    | zero =>
      simp at hb
      subst hb
      split
      · simpa
      · simp; exact not_le.mp ‹_›
    | succ b =>
      simp at hb
      have hmem : t ∈ l := List.mem_of_getElem? hb
      split
      · rename_i h
        simp only [Nat.zero_le, true_iff]
        exact le_trans h (hs.1 t hmem).le
      · rw [Nat.add_le_add_iff_right]
        exact ih hs.2 b hb

theorem getBinNum_mono (v w : Rat) (l : List Rat) (h : v ≤ w) : getBinNum v l ≤ getBinNum w l := by
  induction l with
  | nil => simp [getBinNum_nil]
  | cons s l ih =>
    rw [getBinNum_cons, getBinNum_cons]
    split
    · simp
    · rename_i h1
      rw [if_neg (fun h2 => h1 (le_trans h h2))]
      omega

/-! ## Sparse vectors -/

theorem foldl_set_get? {V : Type} (ps : List (Nat × V)) (d : Dict Nat V) (hn : (ps.map Prod.fst).Nodup)
    (k : Nat) :
    Dict.get? (ps.foldl (fun d p => Dict.set d p.1 p.2) d) k =
      match Dict.get? ps k with
      | some v => some v
      | none => Dict.get? d k := by
  induction ps generalizing d with
  | nil => rfl
  | cons p ps ih =>
    obtain ⟨k0, v0⟩ := p
    simp only [List.map_cons, List.nodup_cons] at hn
    simp only [List.foldl_cons]
    rw [ih _ hn.2, Dict.get?_cons]
    by_cases h : k0 = k
    · subst h
      have : Dict.get? ps k0 = none := (Dict.get?_eq_none_iff _ _).mpr hn.1
      rw [this]
      simp [Dict.get?_set]
    · simp only [h, if_false]
      rw [Dict.get?_set, if_neg h]

theorem foldl_set_eq {V : Type} (ps : List (Nat × V)) (d : Dict Nat V)
    (hn : (Dict.keys d ++ ps.map Prod.fst).Nodup) :
    ps.foldl (fun d p => Dict.set d p.1 p.2) d = d ++ ps := by
  induction ps generalizing d with
  | nil => simp
  | cons p ps ih =>
    obtain ⟨k0, v0⟩ := p
    simp only [List.foldl_cons]
    have hk : k0 ∉ Dict.keys d := by
      intro h
      rw [List.nodup_append] at hn
      exact hn.2.2 k0 h k0 (by simp) rfl
    rw [Dict.set_of_not_mem d k0 v0 hk, ih]
    · simp
    · simpa using hn

theorem transformLoop_zip (i : Nat) (row : List Rat) :
    (transformLoop i row).1.zip (transformLoop i row).2 =
      (row.zipIdx i).filterMap (fun p => if |p.1| < Quantile.floatZero then none else some (p.2, p.1)) ∧
    (transformLoop i row).1.length = (transformLoop i row).2.length := by
  induction row generalizing i with
  | nil => exact ⟨rfl, rfl⟩
  | cons x row ih =>
    obtain ⟨i1, i2⟩ := ih (i + 1)
    simp only [transformLoop, List.zipIdx_cons, List.filterMap_cons]
    split
    · exact ⟨i1, i2⟩
    · exact ⟨by simp [i1], by simp [i2]⟩

theorem get?_filterMap_zipIdx (i : Nat) (row : List Rat) (k : Nat) :
    Dict.get? ((row.zipIdx i).filterMap
      (fun p => if |p.1| < Quantile.floatZero then none else some (p.2, p.1))) k =
      if i ≤ k then
        match row[k - i]? with
        | some x => if |x| < Quantile.floatZero then none else some x
        | none => none
      else none := by
  induction row generalizing i with
  | nil => simp
  | cons x row ih =>
    simp only [List.zipIdx_cons, List.filterMap_cons]
    by_cases hk : i = k
    · subst hk
      simp only [Nat.le_refl, if_true, Nat.sub_self, List.getElem?_cons_zero]
      split
      · rw [ih, if_neg (by omega)]
        rename_i h
        split at h
        · simp [*]
        · simp at h
      · rename_i h
        split at h
        · simp at h
        · simp at h
          subst h
          simp [Dict.get?_cons, *]
    · have key : Dict.get? ((row.zipIdx (i + 1)).filterMap
          (fun p => if |p.1| < Quantile.floatZero then none else some (p.2, p.1))) k =
          if i ≤ k then
            match (x :: row)[k - i]? with
            | some x => if |x| < Quantile.floatZero then none else some x
            | none => none
          else none := by
        rw [ih]
        by_cases hik : i ≤ k
        · have hlt : i + 1 ≤ k := by omega
          rw [if_pos hlt, if_pos hik]
          have : k - i = (k - (i + 1)) + 1 := by omega
          rw [this, List.getElem?_cons_succ]
        · rw [if_neg (by omega), if_neg hik]
      split
      · exact key
      · rename_i p h
        split at h
        · simp at h
        · simp at h
          subst h
          rw [Dict.get?_cons, if_neg hk]
          exact key

theorem filterMap_zipIdx_nodup (i : Nat) (row : List Rat) :
    (((row.zipIdx i).filterMap
      (fun p => if |p.1| < Quantile.floatZero then none else some (p.2, p.1))).map Prod.fst).Nodup ∧
    ∀ k ∈ ((row.zipIdx i).filterMap
      (fun p => if |p.1| < Quantile.floatZero then none else some (p.2, p.1))).map Prod.fst,
      i ≤ k ∧ k < i + row.length := by
  induction row generalizing i with
  | nil => simp
  | cons x row ih =>
    obtain ⟨i1, i2⟩ := ih (i + 1)
    simp only [List.zipIdx_cons, List.filterMap_cons]
    split
    · refine ⟨i1, fun k hk => ?_⟩
      have := i2 k hk
      simp only [List.length_cons]
      omega
    · rename_i p h
      split at h
      · simp at h
      · simp at h
        subst h
        simp only [List.map_cons, List.nodup_cons]
        refine ⟨⟨fun hk => ?_, i1⟩, ?_⟩
        · have := i2 i hk; omega
        · intro k hk
          simp only [List.length_cons]
          rcases List.mem_cons.mp hk with rfl | hk
          · omega
          · have := i2 k hk; omega

/-- The sparse row: exactly the entries that are not near zero, in column order. -/
theorem dataFormatTransform_vec (row : List Rat) :
    (dataFormatTransform row).vec = (row.zipIdx 0).filterMap
      (fun p => if |p.1| < Quantile.floatZero then none else some (p.2, p.1)) := by
  unfold dataFormatTransform SparseVec.ofLists
  simp only
  rw [(transformLoop_zip 0 row).1, foldl_set_eq]
  · rfl
  · simpa using (filterMap_zipIdx_nodup 0 row).1

theorem dataFormatTransform_get? (row : List Rat) (k : Nat) :
    Dict.get? (dataFormatTransform row).vec k =
      match row[k]? with
      | some x => if |x| < Quantile.floatZero then none else some x
      | none => none := by
  rw [dataFormatTransform_vec, get?_filterMap_zipIdx]
  simp

theorem dataFormatTransform_wf (row : List Rat) :
    Dict.WF (dataFormatTransform row).vec ∧ ∀ k ∈ Dict.keys (dataFormatTransform row).vec, k < row.length := by
  rw [dataFormatTransform_vec]
  have := filterMap_zipIdx_nodup 0 row
  refine ⟨this.1, fun k hk => ?_⟩
  have := (this.2 k hk).2
  omega

/-! ## Conversion -/

theorem lookupSplits_ok (header : List String) (sps : Dict String (List Rat)) (i : Nat) (name : String)
    (s : List Rat) (hh : header[i]? = some name) (hs : sps.get? name = some s) :
    lookupSplits header sps i = .ok s := by
  simp [lookupSplits, hh, hs]

/-- Conversion of stored entries: same columns, every value replaced by its bin. -/
theorem convertLoop_all (cols : List Nat) (sps : Dict String (List Rat)) (header : List String)
    (S : Nat → List Rat) (l : List (Nat × Rat))
    (hc : ∀ p ∈ l, p.1 ∈ cols) (hS : ∀ p ∈ l, lookupSplits header sps p.1 = .ok (S p.1)) :
    convertLoop cols sps header l =
      .ok (l.map Prod.fst, l.map fun p => Cell.bin (getBinNum p.2 (S p.1))) := by
  induction l with
  | nil => rfl
  | cons p l ih =>
    obtain ⟨i, x⟩ := p
    have h1 := hc (i, x) (by simp)
    have h2 := hS (i, x) (by simp)
    simp only at h1 h2
    simp only [convertLoop, if_pos h1, h2,
      ih (fun q hq => hc q (List.mem_cons_of_mem _ hq)) (fun q hq => hS q (List.mem_cons_of_mem _ hq)),
      List.map_cons]

theorem convertSparse_all (cols : List Nat) (sps : Dict String (List Rat)) (header : List String)
    (S : Nat → List Rat) (f : SparseVec Rat) (hwf : f.vec.WF)
    (hc : ∀ k ∈ Dict.keys f.vec, k ∈ cols)
    (hS : ∀ k ∈ Dict.keys f.vec, lookupSplits header sps k = .ok (S k)) :
    convertSparse cols sps header f =
      .ok ⟨f.vec.map (fun p => (p.1, Cell.bin (getBinNum p.2 (S p.1)))), f.shape⟩ := by
  unfold convertSparse SparseVec.allData
  rw [convertLoop_all cols sps header S f.vec
    (fun p hp => hc p.1 (List.mem_map.mpr ⟨p, hp, rfl⟩))
    (fun p hp => hS p.1 (List.mem_map.mpr ⟨p, hp, rfl⟩))]
  simp only [SparseVec.ofLists, Except.ok.injEq, SparseVec.mk.injEq, and_true]
  rw [List.zip_map', foldl_set_eq]
  · rfl
  · simp only [Dict.keys_nil, List.nil_append, List.map_map]
    exact hwf

theorem sparseBinLoop_ok (sps : Dict String (List Rat)) (header : List String) (S : Nat → List Rat)
    (cols : List Nat) (acc : Dict Nat Nat)
    (hS : ∀ c ∈ cols, lookupSplits header sps c = .ok (S c)) :
    sparseBinLoop sps header cols acc =
      .ok ((cols.map fun c => (c, getBinNum 0 (S c))).foldl (fun d p => Dict.set d p.1 p.2) acc) := by
  induction cols generalizing acc with
  | nil => rfl
  | cons c cols ih =>
    have h := hS c (by simp)
    simp only [sparseBinLoop, h, List.map_cons, List.foldl_cons]
    exact ih _ (fun c' hc' => hS c' (List.mem_cons_of_mem _ hc'))

theorem getSparseBin_ok (sps : Dict String (List Rat)) (header : List String) (S : Nat → List Rat)
    (n : Nat) (hS : ∀ c < n, lookupSplits header sps c = .ok (S c)) :
    getSparseBin (List.range n) sps header =
      .ok ((List.range n).map fun c => (c, getBinNum 0 (S c))) := by
  unfold getSparseBin
  rw [sparseBinLoop_ok sps header S _ _ (fun c hc => hS c (List.mem_range.mp hc)), foldl_set_eq]
  · rfl
  · simp only [Dict.keys_nil, List.nil_append, List.map_map]
    have : (Prod.fst ∘ fun c => (c, getBinNum 0 (S c))) = id := rfl
    rw [this, List.map_id]
    exact List.nodup_range

theorem get?_map_range {V : Type} (n : Nat) (g : Nat → V) (k : Nat) :
    Dict.get? ((List.range n).map fun c => (c, g c)) k = if k < n then some (g k) else none := by
  have hwf : Dict.WF ((List.range n).map fun c => (c, g c)) := by
    unfold Dict.WF Dict.keys
    rw [List.map_map]
    have : (Prod.fst ∘ fun c => (c, g c)) = id := rfl
    rw [this, List.map_id]
    exact List.nodup_range
  split
  · exact Dict.get?_of_mem hwf (List.mem_map.mpr ⟨k, List.mem_range.mpr ‹_›, rfl⟩)
  · rw [Dict.get?_eq_none_iff]
    intro h
    unfold Dict.keys at h
    rw [List.map_map, List.mem_map] at h
    obtain ⟨c, hc, rfl⟩ := h
    exact ‹¬ _› (List.mem_range.mp hc)

theorem convertDenseLoop_all (cols : List Nat) (sps : Dict String (List Rat)) (header : List String)
    (S : Nat → List Rat) (i : Nat) (l : List Rat)
    (hc : ∀ k, i ≤ k → k < i + l.length → k ∈ cols ∧ lookupSplits header sps k = .ok (S k)) :
    ∃ r, convertDenseLoop cols sps header i l = .ok r ∧ r.length = l.length ∧
      ∀ k (x : Rat), l[k]? = some x → r[k]? = some (Cell.bin (getBinNum x (S (i + k)))) := by
  induction l generalizing i with
  | nil => exact ⟨[], rfl, rfl, by simp⟩
  | cons x l ih =>
    obtain ⟨r, h1, h2, h3⟩ := ih (i + 1) (fun k hk1 hk2 => hc k (by omega) (by simp; omega))
    obtain ⟨c1, c2⟩ := hc i (le_refl _) (by simp)
    refine ⟨Cell.bin (getBinNum x (S i)) :: r, ?_, by simp [h2], ?_⟩
    · simp only [convertDenseLoop, if_pos c1, c2, h1]
    · intro k y hk
      cases k with
      | zero => simp at hk; subst hk; simp
      | succ k =>
        simp at hk
        have := h3 k y hk
        simp only [List.getElem?_cons_succ]
        rw [this]
        congr 4
        omega

end Binning
end Verif
