import Verif.Model.Operator
import Mathlib.Algebra.BigOperators.Group.List.Basic
import Mathlib.Algebra.Order.BigOperators.Group.List
import Mathlib.Algebra.BigOperators.Ring.List
import Mathlib.Tactic.Linarith
import Mathlib.Tactic.Ring
import Mathlib.Tactic.NormNum
import Mathlib.Algebra.Order.Ring.Abs

/-!
# C47 Vector helpers compute the usual sums
-/

set_option autoImplicit false

namespace Verif
open Operator

/-- Position `i` of a vector, zero outside. -/
def Spec.entry (x : List Rat) (i : Nat) : Rat := x.getD i 0

/-- The sum of the entries at position `i` of vectors. -/
def Spec.entrySum (xs : List (List Rat)) (i : Nat) : Rat := (xs.map fun x => Spec.entry x i).sum

/-- A vector or nothing, as `reduce_add` sees it. -/
def Spec.ofVec : Option (List Rat) → Acc
  | none => .none
  | some x => .vec x

/-- A number or nothing. -/
def Spec.ofNum : Option Rat → Acc
  | none => .none
  | some q => .scalar q

private theorem addLoop_ok (y : List Rat) (x : List Rat) (k : Nat) (h : k + x.length ≤ y.length) :
    ∃ r, addLoop y k x = .ok r ∧ r.length = x.length ∧
      ∀ i, i < x.length → Spec.entry r i = Spec.entry x i + Spec.entry y (k + i) := by
  induction x generalizing k with
  | nil => exact ⟨[], rfl, rfl, fun i hi => absurd hi (Nat.not_lt_zero i)⟩
  | cons a x ih =>
    simp only [List.length_cons] at h
    have hk : k < y.length := by omega
    obtain ⟨r, h1, h2, h3⟩ := ih (k + 1) (by omega)
    refine ⟨(a + y[k]) :: r, ?_, by simp [h2], fun i hi => ?_⟩
    · simp only [addLoop, List.getElem?_eq_getElem hk, h1]
    · cases i with
      | zero => simp [Spec.entry, List.getElem?_eq_getElem hk]
      | succ i =>
        have := h3 i (by simpa using hi)
        simp only [Spec.entry, List.getD_cons_succ] at this ⊢
        rw [this]
        congr 2
        omega

private theorem addLoop_err (y : List Rat) (x : List Rat) (k : Nat) (h : y.length < k + x.length)
    (hk : k ≤ y.length) : addLoop y k x = .error .indexError := by
  induction x generalizing k with
  | nil => simp at h; omega
  | cons a x ih =>
    simp only [List.length_cons] at h
    unfold addLoop
    by_cases hlt : k < y.length
    · rw [List.getElem?_eq_getElem hlt]
      simp only
      rw [ih (k + 1) (by omega) hlt]
    · rw [List.getElem?_eq_none (by omega)]

/-- Adding two vectors: an error exactly if the second is shorter; otherwise the positions of the
first vector are added one by one. -/
theorem C47_add (x y : List Rat) :
    (y.length < x.length → reduceAdd (.vec x) (.vec y) = .error .indexError) ∧
    (x.length ≤ y.length → ∃ r, reduceAdd (.vec x) (.vec y) = .ok (.vec r) ∧
      r.length = x.length ∧
      ∀ i, i < x.length → Spec.entry r i = Spec.entry x i + Spec.entry y i) := by
  constructor
  · intro h
    cases x with
    | nil => simp at h
    | cons a x =>
      simp only [reduceAdd]
      rw [addLoop_err y _ 0 (by omega) (by omega)]
      rfl
  · intro h
    obtain ⟨r, h1, h2, h3⟩ := addLoop_ok y x 0 (by omega)
    refine ⟨r, ?_, h2, fun i hi => by simpa using h3 i hi⟩
    cases x with
    | nil => simp only [reduceAdd, h1]; rfl
    | cons a x => simp only [reduceAdd, h1]; rfl

/-- Nothing is neutral on both sides. -/
theorem C47_none (x : Acc) : reduceAdd .none x = .ok x ∧ reduceAdd x .none = .ok x := by
  cases x with
  | none => exact ⟨rfl, rfl⟩
  | scalar q => exact ⟨rfl, rfl⟩
  | vec xs => cases xs <;> exact ⟨rfl, rfl⟩

private theorem vec_ext (x y : List Rat) (hl : x.length = y.length)
    (h : ∀ i, i < x.length → Spec.entry x i = Spec.entry y i) : x = y := by
  apply List.ext_getElem hl
  intro i h1 h2
  have := h i h1
  simpa [Spec.entry, h1, h2] using this

private theorem reduceAll_none (items : List (Option (List Rat))) (hn : items.filterMap id = []) :
    reduceAll .none (items.map Spec.ofVec) = .ok .none := by
  induction items with
  | nil => rfl
  | cons it items ih =>
    cases it with
    | none =>
      simp only [List.map_cons, Spec.ofVec, reduceAll, reduceAdd]
      exact ih (by simpa using hn)
    | some x => simp at hn

/-- Accumulating any sequence of vectors of one length, with any number of `None`s between them:
the result is `None` if there was no vector, and otherwise the vector whose entry at each position
is the sum of the entries at that position. -/
theorem C47_sum (n : Nat) (items : List (Option (List Rat)))
    (hlen : ∀ x ∈ items.filterMap id, x.length = n) :
    (items.filterMap id = [] → reduceAll .none (items.map Spec.ofVec) = .ok .none) ∧
    (items.filterMap id ≠ [] → ∃ r, reduceAll .none (items.map Spec.ofVec) = .ok (.vec r) ∧
      r.length = n ∧ ∀ i, i < n → Spec.entry r i = Spec.entrySum (items.filterMap id) i) := by
  have fold : ∀ (items : List (Option (List Rat))) (acc : List Rat), acc.length = n →
      (∀ x ∈ items.filterMap id, x.length = n) →
      ∃ r, reduceAll (.vec acc) (items.map Spec.ofVec) = .ok (.vec r) ∧ r.length = n ∧
        ∀ i, i < n → Spec.entry r i = Spec.entry acc i + Spec.entrySum (items.filterMap id) i := by
    intro items
    induction items with
    | nil =>
      intro acc hacc _
      exact ⟨acc, rfl, hacc, fun i _ => by simp [Spec.entrySum]⟩
    | cons it items ih =>
      intro acc hacc hl
      cases it with
      | none =>
        obtain ⟨r, h1, h2, h3⟩ := ih acc hacc (by simpa using hl)
        refine ⟨r, ?_, h2, by simpa using h3⟩
        simp only [List.map_cons, Spec.ofVec, reduceAll, (C47_none (.vec acc)).2]
        exact h1
      | some x =>
        have hx : x.length = n := hl x (by simp)
        obtain ⟨s, hs, hsl, hse⟩ := (C47_add acc x).2 (by omega)
        obtain ⟨r, h1, h2, h3⟩ := ih s (by omega) (fun y hy => hl y (by
          simp only [List.filterMap_cons, id, List.mem_cons]; exact Or.inr hy))
        refine ⟨r, ?_, h2, fun i hi => ?_⟩
        · simp only [List.map_cons, Spec.ofVec, reduceAll, hs]
          exact h1
        · rw [h3 i hi, hse i (by omega)]
          simp only [Spec.entrySum, List.filterMap_cons, id, List.map_cons, List.sum_cons]
          ring
  refine ⟨reduceAll_none items, fun hne => ?_⟩
  induction items with
  | nil => simp at hne
  | cons it items ih =>
    cases it with
    | none =>
      obtain ⟨r, h1, h2, h3⟩ := ih (by simpa using hlen) (by simpa using hne)
      exact ⟨r, h1, h2, by simpa using h3⟩
    | some x =>
      obtain ⟨r, h1, h2, h3⟩ := fold items x (hlen x (by simp)) (fun y hy => hlen y (by
        simp only [List.filterMap_cons, id, List.mem_cons]; exact Or.inr hy))
      refine ⟨r, h1, h2, fun i hi => ?_⟩
      rw [h3 i hi]
      simp [Spec.entrySum]

/-- The order in which vectors of one length are accumulated does not matter. -/
theorem C47_order (n : Nat) (items items' : List (Option (List Rat))) (hp : items.Perm items')
    (hlen : ∀ x ∈ items.filterMap id, x.length = n) :
    reduceAll .none (items.map Spec.ofVec) = reduceAll .none (items'.map Spec.ofVec) := by
  have hp' := hp.filterMap id
  have hlen' : ∀ x ∈ items'.filterMap id, x.length = n :=
    fun x hx => hlen x (hp'.mem_iff.2 hx)
  by_cases hne : items.filterMap id = []
  · have hne' : items'.filterMap id = [] := (hne ▸ hp').nil_eq.symm
    rw [(C47_sum n items hlen).1 hne, (C47_sum n items' hlen').1 hne']
  · have hne' : items'.filterMap id ≠ [] := fun e => hne ((e ▸ hp').eq_nil)
    obtain ⟨r, h1, h2, h3⟩ := (C47_sum n items hlen).2 hne
    obtain ⟨r', h1', h2', h3'⟩ := (C47_sum n items' hlen').2 hne'
    have : r = r' := vec_ext r r' (by omega) fun i hi => by
      rw [h3 i (by omega), h3' i (by omega)]
      exact (hp'.map _).sum_eq
    rw [h1, h1', this]

/-- Accumulating numbers. -/
theorem C47_numbers (items : List (Option Rat)) :
    reduceAll .none (items.map Spec.ofNum) = .ok (if items.filterMap id = [] then .none
      else .scalar (items.filterMap id).sum) := by
  have fold : ∀ (items : List (Option Rat)) (a : Rat),
      reduceAll (.scalar a) (items.map Spec.ofNum) = .ok (.scalar (a + (items.filterMap id).sum)) := by
    intro items
    induction items with
    | nil => intro a; simp [reduceAll]
    | cons it items ih =>
      intro a
      cases it with
      | none => simpa [Spec.ofNum, reduceAll, reduceAdd] using ih a
      | some q =>
        simp only [List.map_cons, Spec.ofNum, reduceAll, reduceAdd, ih, List.filterMap_cons, id,
          List.sum_cons, add_assoc]
  induction items with
  | nil => rfl
  | cons it items ih =>
    cases it with
    | none => simpa [Spec.ofNum, reduceAll, reduceAdd] using ih
    | some q => simp [Spec.ofNum, reduceAll, reduceAdd, fold]

/-- A number and a non-empty vector cannot be accumulated. -/
theorem C47_mixed (q : Rat) (x : List Rat) (h : x ≠ []) :
    reduceAdd (.scalar q) (.vec x) = .error .typeError ∧
      reduceAdd (.vec x) (.scalar q) = .error .typeError := by
  cases x with
  | nil => exact absurd rfl h
  | cons a x => exact ⟨rfl, rfl⟩

/-! ## Dot product -/

/-- The products of the entries of `x` that satisfy `p` with the entries of `w`, added up. -/
def Spec.dotOver (p : Rat → Bool) (x w : List Rat) : Rat :=
  ((List.zip x w).map fun q => if p q.1 then q.1 * q.2 else 0).sum

/-- The exact dot product. -/
def Spec.exactDot (x w : List Rat) : Rat := ((List.zip x w).map fun q => q.1 * q.2).sum

private theorem dotLoop_ok (x w : List Rat) (u : List Rat) (res : Rat) (h : x.length ≤ w.length) :
    dotLoop (u ++ w) u.length x res
      = .ok (res + Spec.dotOver (fun q => !decide (|q| < 1 / 100000)) x w) := by
  induction x generalizing u w res with
  | nil => simp [dotLoop, Spec.dotOver]
  | cons a x ih =>
    cases w with
    | nil => simp at h
    | cons b w =>
      have hsplit : u ++ b :: w = (u ++ [b]) ++ w := by simp
      have hlen : u.length + 1 = (u ++ [b]).length := by simp
      have hrec := fun res => ih w (u ++ [b]) res (by simpa using h)
      unfold dotLoop
      by_cases ha : |a| < 1 / 100000
      · rw [if_pos ha, hsplit, hlen, hrec]
        simp only [Spec.dotOver, List.zip_cons_cons, List.map_cons, List.sum_cons, ha,
          decide_true, Bool.not_true, Bool.false_eq_true, if_false, zero_add]
      · rw [if_neg ha]
        have hb : (u ++ b :: w)[u.length]? = some b := by simp
        rw [hb]
        simp only
        rw [hsplit, hlen, hrec]
        simp only [Spec.dotOver, List.zip_cons_cons, List.map_cons, List.sum_cons, ha,
          decide_false, Bool.not_false, if_true]
        congr 1
        ring

private theorem dot_split (p : Rat → Bool) (x w : List Rat) :
    Spec.exactDot x w = Spec.dotOver p x w + Spec.dotOver (fun q => !p q) x w := by
  induction x generalizing w with
  | nil => simp [Spec.exactDot, Spec.dotOver]
  | cons a x ih =>
    cases w with
    | nil => simp [Spec.exactDot, Spec.dotOver]
    | cons b w =>
      have := ih w
      simp only [Spec.exactDot, Spec.dotOver, List.zip_cons_cons, List.map_cons,
        List.sum_cons] at this ⊢
      rw [this]
      cases p a <;> simp <;> ring

private theorem dotOver_bound (ε : Rat) (x w : List Rat) :
    |Spec.dotOver (fun q => decide (|q| < ε)) x w| ≤ max ε 0 * (w.map fun b => |b|).sum := by
  induction x generalizing w with
  | nil =>
    simp only [Spec.dotOver, List.zip_nil_left, List.map_nil, List.sum_nil, abs_zero]
    apply mul_nonneg (le_max_right _ _)
    apply List.sum_nonneg
    intro y hy
    obtain ⟨b, _, rfl⟩ := List.mem_map.1 hy
    exact abs_nonneg b
  | cons a x ih =>
    cases w with
    | nil => simp [Spec.dotOver]
    | cons b w =>
      have := ih w
      simp only [Spec.dotOver, List.zip_cons_cons, List.map_cons, List.sum_cons] at this ⊢
      refine le_trans (abs_add_le _ _) ?_
      rw [mul_add]
      refine add_le_add ?_ this
      by_cases ha : |a| < ε
      · simp only [ha, decide_true, if_true, abs_mul]
        exact mul_le_mul_of_nonneg_right (le_trans ha.le (le_max_left _ _)) (abs_nonneg _)
      · simp only [ha, decide_false, Bool.false_eq_true, if_false, abs_zero]
        exact mul_nonneg (le_max_right _ _) (abs_nonneg _)

/-- The dot product that skips tiny entries: it is computed whenever the weights are at least as
many as the entries; what is missing from the exact product is exactly the contribution of the
entries below `1e-5`, hence at most `1e-5` times the sum of the absolute weights; and nothing is
missing when no entry is both tiny and non-zero. -/
theorem C47_dot (x w : List Rat) (h : x.length ≤ w.length) :
    ∃ r, dot1 x w = .ok r ∧
      Spec.exactDot x w - r = Spec.dotOver (fun q => decide (|q| < 1 / 100000)) x w ∧
      |Spec.exactDot x w - r| ≤ 1 / 100000 * (w.map fun b => |b|).sum ∧
      ((∀ a ∈ x, |a| < 1 / 100000 → a = 0) → r = Spec.exactDot x w) := by
  have h0 := dotLoop_ok x w [] 0 h
  rw [zero_add] at h0
  refine ⟨_, h0, ?_⟩
  have hs := dot_split (fun q => decide (|q| < 1 / 100000)) x w
  have e : Spec.exactDot x w
      - Spec.dotOver (fun q => !decide (|q| < 1 / 100000)) x w
      = Spec.dotOver (fun q => decide (|q| < 1 / 100000)) x w := by rw [hs]; ring
  refine ⟨e, ?_, fun hz => ?_⟩
  · rw [e]
    have := dotOver_bound (1 / 100000) x w
    rwa [max_eq_left (by norm_num)] at this
  · have hzero : Spec.dotOver (fun q => decide (|q| < 1 / 100000)) x w = 0 := by
      unfold Spec.dotOver
      apply List.sum_eq_zero
      intro y hy
      obtain ⟨q, hq, rfl⟩ := List.mem_map.1 hy
      by_cases hlt : |q.1| < 1 / 100000
      · have := hz q.1 (List.of_mem_zip hq).1 hlt
        simp [this]
      · simp only [hlt, decide_false, Bool.false_eq_true, if_false]
    linarith [e, hzero]

/-- With too few weights the product fails exactly if an entry without weight is not tiny. -/
theorem C47_dot_short (x w : List Rat) :
    (∃ r, dot1 x w = .ok r) ↔ ∀ i a, x[i]? = some a → w.length ≤ i → |a| < 1 / 100000 := by
  have key : ∀ (x : List Rat) (k : Nat) (res : Rat),
      (∃ r, dotLoop w k x res = .ok r) ↔
        ∀ i a, x[i]? = some a → w.length ≤ k + i → |a| < 1 / 100000 := by
    intro x
    induction x with
    | nil => intro k res; simp [dotLoop]
    | cons a x ih =>
      intro k res
      have shift : (∀ i b, (a :: x)[i]? = some b → w.length ≤ k + i → |b| < 1 / 100000) ↔
          (w.length ≤ k → |a| < 1 / 100000) ∧
            ∀ i b, x[i]? = some b → w.length ≤ k + 1 + i → |b| < 1 / 100000 := by
        constructor
        · intro h
          refine ⟨fun hk => h 0 a rfl hk, fun i b hb hi => h (i + 1) b (by simpa using hb) (by omega)⟩
        · rintro ⟨h1, h2⟩ i b hb hi
          cases i with
          | zero => simp at hb; subst hb; exact h1 hi
          | succ i => exact h2 i b (by simpa using hb) (by omega)
      rw [shift]
      unfold dotLoop
      by_cases ha : |a| < 1 / 100000
      · rw [if_pos ha, ih]
        exact ⟨fun h => ⟨fun _ => ha, h⟩, fun h => h.2⟩
      · rw [if_neg ha]
        by_cases hk : k < w.length
        · rw [List.getElem?_eq_getElem hk]
          simp only
          rw [ih]
          exact ⟨fun h => ⟨fun hle => absurd hk (by omega), h⟩, fun h => h.2⟩
        · rw [List.getElem?_eq_none (by omega)]
          constructor
          · rintro ⟨r, hr⟩; cases hr
          · intro h; exact absurd (h.1 (by omega)) ha
  have := key x 0 0
  simp only [Nat.zero_add] at this
  exact this

/-- A matrix times a vector is the product of each row. -/
theorem C47_matrix (X : List (List Rat)) (w : List Rat) (r : List Rat) :
    dot2 w X = .ok r ↔ List.Forall₂ (fun x v => dot1 x w = .ok v) X r := by
  induction X generalizing r with
  | nil =>
    simp only [dot2, Except.ok.injEq, List.forall₂_nil_left_iff]
    exact eq_comm
  | cons x X ih =>
    cases hx : dot1 x w with
    | error e =>
      simp only [dot2, hx]
      constructor
      · intro h; cases h
      · intro h; cases h with
        | cons h1 _ => rw [hx] at h1; cases h1
    | ok v =>
      simp only [dot2, hx]
      cases hX : dot2 w X with
      | error e =>
        constructor
        · intro h; cases h
        · intro h; cases h with
          | cons _ h2 => rw [(ih _).2 h2] at hX; cases hX
      | ok vs =>
        simp only [Except.ok.injEq]
        constructor
        · rintro rfl; exact .cons hx ((ih vs).1 hX)
        · intro h; cases h with
          | cons h1 h2 =>
            rw [hx] at h1
            cases h1
            rw [(ih _).2 h2] at hX
            cases hX
            rfl

/-! ## Examples -/

example : reduceAll .none ([none, some [1, 2, 3], none, some [10, 20, 30], some [5, 0, -1]].map
    Spec.ofVec) = .ok (.vec [16, 22, 32]) := by decide +kernel

example : ∀ x ∈ [none, some [1, 2, 3], none, some [10, 20, 30], some ([5, 0, -1] : List Rat)].filterMap
    id, x.length = 3 := by decide +kernel

example : reduceAdd (.vec [1, 2]) (.vec [1]) = .error .indexError := by decide +kernel
/-- Extra entries of the second vector are dropped silently. -/
example : reduceAdd (.vec [1]) (.vec [1, 2]) = .ok (.vec [2]) := by decide +kernel

example : dot1 [2, 1 / 1000000, 3] [5, 7, 11] = .ok 43 ∧
    Spec.exactDot [2, 1 / 1000000, 3] [5, 7, 11] = 43 + 7 / 1000000 := by decide +kernel

example : dot2 [1, 2] [[3, 4], [5, 6]] = .ok [11, 17] := by decide +kernel

end Verif
