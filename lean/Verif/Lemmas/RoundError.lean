import Verif.Lemmas.RoundHist
import Verif.Props.C22
import Verif.Spec.C68
import Mathlib.Algebra.BigOperators.Group.Finset.Basic
import Mathlib.Algebra.BigOperators.Ring.Finset
import Mathlib.Algebra.Order.BigOperators.Group.Finset
import Mathlib.Tactic.Linarith
import Mathlib.Tactic.Ring
import Mathlib.Tactic.Positivity

/-! # The histogram code with rounded sums: how far the sums are from the exact ones -/

set_option autoImplicit false

namespace Verif
namespace Histogram

open Binning (Cell SparseVec)
open Spec

/-- A component of a cell that is a float. -/
structure IsFloat (p : HCell Rat → Rat) : Prop where
  zero : p 0 = 0
  add : ∀ (rnd : Rat → Rat) (c d : HCell Rat), p (radd rnd c d) = rnd (p c + p d)
  sub : ∀ (rnd : Rat → Rat) (c d : HCell Rat), p (rsub rnd c d) = rnd (p c - p d)

theorem isFloat_grad : IsFloat (fun c => c.1) := ⟨rfl, fun _ _ _ => rfl, fun _ _ _ => rfl⟩

theorem isFloat_hess : IsFloat (fun c => c.2.1) := ⟨rfl, fun _ _ _ => rfl, fun _ _ _ => rfl⟩

variable {rnd : Rat → Rat} {M ε : Rat}

theorem round_abs (hr : RoundsWithin rnd M ε) {x : Rat} (h : |x| ≤ M) : |rnd x| ≤ |x| + ε := by
  have h1 := hr x h
  have h3 := abs_add_le (rnd x - x) x
  rw [sub_add_cancel] at h3
  linarith

/-- Rounding a number that is near another. -/
theorem round_near (hr : RoundsWithin rnd M ε) {x y e : Rat} (hx : |x - y| ≤ e) (hm : |y| + e ≤ M) :
    |rnd x - y| ≤ e + ε := by
  have h0 := abs_add_le (x - y) y
  rw [sub_add_cancel] at h0
  have h1 := hr x (by linarith)
  have h2 := abs_add_le (rnd x - x) (x - y)
  rw [sub_add_sub_cancel] at h2
  linarith

theorem rsum_near {p : HCell Rat → Rat} (hp : IsFloat p) (hε : 0 ≤ ε) (hr : RoundsWithin rnd M ε) :
    ∀ (l : List (HCell Rat)) (c : HCell Rat) (x : Rat), |p c| + (l.map fun d => |p d| + ε).sum ≤ M →
      |p (rsum rnd c l) - (x + (l.map p).sum)| ≤ |p c - x| + l.length * ε
  | [], c, x, _ => by simp [rsum]
  | d :: l, c, x, hM => by
    rw [List.map_cons, List.sum_cons] at hM
    have hrest : 0 ≤ (l.map fun d => |p d| + ε).sum := by
      apply List.sum_nonneg
      intro y hy
      obtain ⟨m, _, rfl⟩ := List.mem_map.mp hy
      positivity
    have h0 := abs_add_le (p c) (p d)
    have h1 := hr (p c + p d) (by linarith)
    have hs : |rnd (p c + p d)| ≤ |p c| + |p d| + ε := by
      have h3 := abs_add_le (rnd (p c + p d) - (p c + p d)) (p c + p d)
      rw [sub_add_cancel] at h3
      linarith
    have ih := rsum_near hp hε hr l (radd rnd c d) (x + p d) (by rw [hp.add]; linarith)
    rw [hp.add] at ih
    rw [rsum, List.map_cons, List.sum_cons, List.length_cons]
    have h4 : |rnd (p c + p d) - (x + p d)| ≤ |p c - x| + ε := by
      have : rnd (p c + p d) - (x + p d) = (rnd (p c + p d) - (p c + p d)) + (p c - x) := by ring
      rw [this]
      have := abs_add_le (rnd (p c + p d) - (p c + p d)) (p c - x)
      linarith
    rw [← add_assoc]
    push_cast
    linarith

theorem rsum_id {p : HCell Rat → Rat} (hp : IsFloat p) (l : List (HCell Rat)) (c : HCell Rat) :
    p (rsum id c l) = p c + (l.map p).sum := by
  induction l generalizing c with
  | nil => simp [rsum]
  | cons d l ih => rw [rsum, ih, hp.add, List.map_cons, List.sum_cons, id, add_assoc]

theorem rsum_count (rnd : Rat → Rat) (l : List (HCell Rat)) (c c' : HCell Rat) (h : c.2.2 = c'.2.2) :
    (rsum rnd c l).2.2 = (rsum id c' l).2.2 := by
  induction l generalizing c c' with
  | nil => exact h
  | cons d l ih => exact ih _ _ (by simp [radd, h])

theorem sum_abs_eps (p : HCell Rat → Rat) (l : List (HCell Rat)) :
    (l.map fun d => |p d| + ε).sum = (l.map fun d => |p d|).sum + l.length * ε := by
  induction l with
  | nil => simp
  | cons d l ih => simp only [List.map_cons, List.sum_cons, ih, List.length_cons]; push_cast; ring

theorem abs_sum_map_le (p : HCell Rat → Rat) (l : List (HCell Rat)) :
    |(l.map p).sum| ≤ (l.map fun d => |p d|).sum := by
  induction l with
  | nil => simp
  | cons d l ih =>
    simp only [List.map_cons, List.sum_cons]
    exact (abs_add_le _ _).trans (by linarith)

/-- Adding up a list from zero. -/
theorem rsum_zero {p : HCell Rat → Rat} (hp : IsFloat p) (hε : 0 ≤ ε) (hr : RoundsWithin rnd M ε)
    (l : List (HCell Rat)) (hM : (l.map fun d => |p d|).sum + l.length * ε ≤ M) :
    |p (rsum rnd 0 l) - p (rsum id 0 l)| ≤ l.length * ε := by
  have := rsum_near hp hε hr l 0 0 (by rw [sum_abs_eps, hp.zero, abs_zero, zero_add]; exact hM)
  rw [rsum_id hp, hp.zero]
  simpa [hp.zero] using this

/-! ### What a record adds -/

theorem hits_entry (v : List Bool) (d : HCell Rat) (f b : Nat) (hen : v.getD f false = true)
    (l : Dict Nat Cell) (hwf : l.WF) :
    hits (isEntry v f b) d l = if l.get? f = some (.bin b) then [d] else [] := by
  induction l with
  | nil => simp [hits, Dict.get?]
  | cons q l ih =>
    obtain ⟨k, c⟩ := q
    have hd : k ∉ Dict.keys l ∧ Dict.WF l := by unfold Dict.WF at hwf ⊢; simpa using hwf
    rw [Dict.get?_cons]
    by_cases hk : k = f
    · subst hk
      have hn : Dict.get? l k = none := (Dict.get?_eq_none_iff _ _).mpr hd.1
      rw [if_pos rfl]
      have ih' := ih hd.2
      rw [hn, if_neg (by simp)] at ih'
      by_cases hc : c = .bin b
      · rw [hits_pos (by simp [isEntry, hc]; simpa using hen), ih', hc]; simp
      · rw [hits_neg (by simp [isEntry, hc]), ih', if_neg (by simpa using hc)]
    · rw [if_neg hk, hits_neg (by simp only [isEntry, decide_eq_true_eq]; rintro ⟨_, h, _⟩; exact hk h.symm), ih hd.2]

theorem hits_stored (v : List Bool) (d : HCell Rat) (f : Nat) (hen : v.getD f false = true)
    (l : Dict Nat Cell) (hwf : l.WF) :
    hits (isStored v f) d l = if l.get? f ≠ none then [d] else [] := by
  induction l with
  | nil => simp [hits, Dict.get?]
  | cons q l ih =>
    obtain ⟨k, c⟩ := q
    have hd : k ∉ Dict.keys l ∧ Dict.WF l := by unfold Dict.WF at hwf ⊢; simpa using hwf
    rw [Dict.get?_cons]
    by_cases hk : k = f
    · subst hk
      have hn : Dict.get? l k = none := (Dict.get?_eq_none_iff _ _).mpr hd.1
      rw [if_pos rfl]
      have ih' := ih hd.2
      rw [hn, if_neg (by simp)] at ih'
      rw [hits_pos (by simp [isStored]; simpa using hen), ih']; simp
    · rw [if_neg hk, hits_neg (by simp only [isStored, decide_eq_true_eq]; rintro ⟨_, h⟩; exact hk h.symm), ih hd.2]

/-- Some of the records at a node, each at most once. -/
theorem recSum_le (p : HCell Rat → Rat) (nodeMap : Dict Nat Nat) (n : Nat) (g : Record Rat → List (HCell Rat))
    (rs : List (Record Rat)) (hg : ∀ r ∈ rs, g r = [] ∨ g r = [amount r]) :
    (recSum nodeMap n g rs).length ≤ (recSum nodeMap n (fun r => [amount r]) rs).length ∧
      ((recSum nodeMap n g rs).map fun d => |p d|).sum ≤
        ((recSum nodeMap n (fun r => [amount r]) rs).map fun d => |p d|).sum := by
  induction rs with
  | nil => simp [recSum]
  | cons r rs ih =>
    have ih' := ih fun r hr => hg r (by simp [hr])
    by_cases h : nodeMap.get? r.nodeId = some n
    · rw [recSum_pos h, recSum_pos h]
      have := abs_nonneg (p (amount r))
      rcases hg r (by simp) with e | e
      · rw [e]
        simp only [List.nil_append, List.length_append, List.length_singleton, List.map_append, List.sum_append,
          List.map_cons, List.map_nil, List.sum_singleton]
        exact ⟨by omega, by linarith [ih'.2]⟩
      · rw [e]
        simp only [List.length_append, List.length_singleton, List.map_append, List.sum_append,
          List.map_cons, List.map_nil, List.sum_singleton]
        exact ⟨by omega, by linarith [ih'.2]⟩
    · rw [recSum_neg h, recSum_neg h]; exact ih'

/-- Every record is stored in at most one bin. -/
theorem entries_le (v : List Bool) (f : Nat) (hen : v.getD f false = true) (nodeMap : Dict Nat Nat) (n b : Nat)
    (rs : List (Record Rat)) (hwf : ∀ r ∈ rs, r.features.vec.WF) :
    (∑ b' ∈ Finset.range (b + 1),
      (recSum nodeMap n (fun r => hits (isEntry v f b') (amount r) r.features.vec) rs).length) ≤
    (recSum nodeMap n (fun r => [amount r]) rs).length := by
  induction rs with
  | nil => simp [recSum]
  | cons r rs ih =>
    have ih' := ih fun r hr => hwf r (by simp [hr])
    by_cases h : nodeMap.get? r.nodeId = some n
    · simp only [recSum_pos h, List.length_append, List.length_singleton, Finset.sum_add_distrib]
      have : (∑ b' ∈ Finset.range (b + 1), (hits (isEntry v f b') (amount r) r.features.vec).length) ≤ 1 := by
        simp only [hits_entry v _ f _ hen _ (hwf r (by simp))]
        cases hc : r.features.vec.get? f with
        | none => simp
        | some c =>
          cases c with
          | raw x => simp
          | bin k =>
            have e : ∀ b', (if some (Cell.bin k) = some (Cell.bin b') then [amount r] else []).length =
                if k = b' then 1 else 0 := by
              intro b'; simp only [Option.some.injEq, Cell.bin.injEq]; split <;> rfl
            simp only [e]
            rw [Finset.sum_ite_eq]
            split <;> omega
      omega
    · simp only [recSum_neg h]; exact ih'

/-- The records of a node are its samples. -/
theorem recSum_atNode {K : Type} [DecidableEq K] (ids : List Nat) (hn : ids.Nodup) (n id : Nat)
    (hid : ids[n]? = some id) (data : DTable K (SparseVec Cell × Nat × Nat)) (gh : DTable K (Rat × Rat)) :
    recSum (nodeMapOf ids) n (fun r => [amount r])
      (collectRecords (nodeMapOf ids) (Dict.values (DTable.joinLoop data.data (fun v w => (v, w)) gh.data))) =
    (atNode data gh id).map fun s => (s.2.1, s.2.2, 1) := by
  obtain ⟨g⟩ := gh
  unfold atNode
  simp only
  induction g with
  | nil => simp [DTable.joinLoop, Dict.values, collectRecords, recSum]
  | cons p g ih =>
    obtain ⟨k, gr, he⟩ := p
    rw [List.filterMap_cons]
    unfold DTable.joinLoop
    cases hd : data.data.get? k with
    | none => exact ih
    | some x =>
      obtain ⟨v, st, nid⟩ := x
      simp only
      have hv : Dict.values ((k, ((v, st, nid), gr, he)) :: DTable.joinLoop data.data (fun v w => (v, w)) g) =
        ((v, st, nid), gr, he) :: Dict.values (DTable.joinLoop data.data (fun v w => (v, w)) g) := rfl
      rw [hv]
      unfold collectRecords
      by_cases hst : st = 0
      · rw [if_pos (Or.inl hst), if_neg (by simp [hst])]
        exact ih
      · by_cases hnid : nid = id
        · subst hnid
          have hget := (nodeMapOf_get? ids hn nid n).mpr hid
          have hhas : (nodeMapOf ids).has nid = true :=
            (Dict.has_iff _ _).mpr (Dict.mem_keys_of_get? hget)
          rw [if_neg (by simp [hst, hhas]), if_pos ⟨hst, rfl⟩, recSum_pos hget, ih]
          rfl
        · have hc : ¬ (st ≠ 0 ∧ nid = id) := by simp [hnid]
          rw [if_neg hc]
          split
          · exact ih
          · have hne : ¬ (nodeMapOf ids).get? nid = some n := by
              rw [nodeMapOf_get? ids hn, hid]
              intro h
              exact hnid (Option.some.inj h).symm
            rw [recSum_neg hne, ih]

/-! ### Errors -/

theorem rawCell_count (rnd : Rat → Rat) (sparse : Dict Nat Nat) (v : List Bool) (nodeMap : Dict Nat Nat)
    (rs : List (Record Rat)) (n f b : Nat) :
    (rawCell rnd sparse v nodeMap rs n f b).2.2 = (rawCell id sparse v nodeMap rs n f b).2.2 := by
  unfold rawCell
  simp only
  split
  · simp only [radd, rsub]
    rw [rsum_count rnd _ 0 0 rfl, rsum_count rnd _ 0 0 rfl, rsum_count rnd _ 0 0 rfl]
  · exact rsum_count rnd _ 0 0 rfl

/-- How many operations lead to a cell that is not accumulated, for `m` samples at the node. -/
def ops (sparse : Dict Nat Nat) (v : List Bool) (nodeMap : Dict Nat Nat) (rs : List (Record Rat)) (n f b m : Nat) : Nat :=
  (recSum nodeMap n (fun r => hits (isEntry v f b) (amount r) r.features.vec) rs).length +
    if sparse.get? f = some b then 2 * m + 2 else 0

theorem rawCell_near {p : HCell Rat → Rat} (hp : IsFloat p) (hε : 0 ≤ ε) (hr : RoundsWithin rnd M ε)
    (sparse : Dict Nat Nat) (v : List Bool) (nodeMap : Dict Nat Nat) (rs : List (Record Rat))
    (hwf : ∀ r ∈ rs, r.features.vec.WF) (n f b : Nat) (hen : v.getD f false = true) (m : Nat) (T : Rat)
    (hm : (recSum nodeMap n (fun r => [amount r]) rs).length ≤ m)
    (hT : ((recSum nodeMap n (fun r => [amount r]) rs).map fun d => |p d|).sum ≤ T)
    (hM : 3 * T + (3 * m + 2) * ε ≤ M) :
    |p (rawCell rnd sparse v nodeMap rs n f b) - p (rawCell id sparse v nodeMap rs n f b)| ≤
      ops sparse v nodeMap rs n f b m * ε := by
  have hT0 : 0 ≤ T := le_trans (List.sum_nonneg (by
    intro y hy
    obtain ⟨m, _, rfl⟩ := List.mem_map.mp hy
    exact abs_nonneg _)) hT
  set E := recSum nodeMap n (fun r => hits (isEntry v f b) (amount r) r.features.vec) rs with hE
  set A := recSum nodeMap n (fun r => [amount r]) rs with hA
  set Z := recSum nodeMap n (fun r => hits (isStored v f) (amount r) r.features.vec) rs with hZ
  have leE := recSum_le p nodeMap n (fun r => hits (isEntry v f b) (amount r) r.features.vec) rs (by
    intro r hr
    rw [hits_entry v _ f b hen _ (hwf r hr)]
    split
    · exact .inr rfl
    · exact .inl rfl)
  have leZ := recSum_le p nodeMap n (fun r => hits (isStored v f) (amount r) r.features.vec) rs (by
    intro r hr
    rw [hits_stored v _ f hen _ (hwf r hr)]
    split
    · exact .inr rfl
    · exact .inl rfl)
  rw [← hE, ← hA] at leE
  rw [← hZ, ← hA] at leZ
  have big : ∀ l : List (HCell Rat), l.length ≤ A.length → (l.map fun d => |p d|).sum ≤ (A.map fun d => |p d|).sum →
      |p (rsum rnd 0 l) - p (rsum id 0 l)| ≤ l.length * ε ∧ (l.length : Rat) * ε ≤ m * ε ∧ |p (rsum id 0 l)| ≤ T := by
    intro l h1 h2
    have h3 : (l.length : Rat) * ε ≤ m * ε :=
      mul_le_mul_of_nonneg_right (by exact_mod_cast h1.trans hm) hε
    have h4 : 0 ≤ (m : Rat) * ε := by positivity
    refine ⟨rsum_zero hp hε hr l (by nlinarith), h3, ?_⟩
    rw [rsum_id hp, hp.zero, zero_add]
    exact (abs_sum_map_le p l).trans (h2.trans hT)
  obtain ⟨e1, e2, e3⟩ := big E leE.1 leE.2
  obtain ⟨a1, a2, a3⟩ := big A le_rfl le_rfl
  obtain ⟨z1, z2, z3⟩ := big Z leZ.1 leZ.2
  unfold rawCell ops
  simp only
  rw [← hE, ← hA, ← hZ]
  split
  · rw [hp.add, hp.add, hp.sub, hp.sub]
    simp only [id]
    have d1 : |p (rsum rnd 0 A) - p (rsum rnd 0 Z) - (p (rsum id 0 A) - p (rsum id 0 Z))| ≤ (2 * m) * ε := by
      rw [show p (rsum rnd 0 A) - p (rsum rnd 0 Z) - (p (rsum id 0 A) - p (rsum id 0 Z)) =
        (p (rsum rnd 0 A) - p (rsum id 0 A)) - (p (rsum rnd 0 Z) - p (rsum id 0 Z)) by ring]
      refine (abs_sub _ _).trans ?_
      linarith
    have d0 : |p (rsum id 0 A) - p (rsum id 0 Z)| ≤ 2 * T := (abs_sub _ _).trans (by linarith)
    have d2 := round_near hr d1 (by nlinarith)
    have d3 : |p (rsum rnd 0 E) + rnd (p (rsum rnd 0 A) - p (rsum rnd 0 Z)) -
        (p (rsum id 0 E) + (p (rsum id 0 A) - p (rsum id 0 Z)))| ≤ E.length * ε + (2 * m * ε + ε) := by
      rw [show p (rsum rnd 0 E) + rnd (p (rsum rnd 0 A) - p (rsum rnd 0 Z)) -
        (p (rsum id 0 E) + (p (rsum id 0 A) - p (rsum id 0 Z))) =
        (p (rsum rnd 0 E) - p (rsum id 0 E)) +
          (rnd (p (rsum rnd 0 A) - p (rsum rnd 0 Z)) - (p (rsum id 0 A) - p (rsum id 0 Z))) by ring]
      exact (abs_add_le _ _).trans (by linarith)
    have d4 : |p (rsum id 0 E) + (p (rsum id 0 A) - p (rsum id 0 Z))| ≤ 3 * T := (abs_add_le _ _).trans (by linarith)
    have d5 := round_near hr d3 (by nlinarith)
    refine d5.trans (le_of_eq ?_)
    push_cast
    ring
  · rw [Nat.add_zero]; exact e1

theorem accdR_near {p : HCell Rat → Rat} (hp : IsFloat p) (hr : RoundsWithin rnd M ε)
    (l l' e e' : List (HCell Rat)) (hl : AccdR rnd l l') (he : AccdR id e e') (hlen : l.length = e.length)
    (k : Nat → Nat) (hk : ∀ b < l.length, |p (at1 l b) - p (at1 e b)| ≤ k b * ε) (T : Rat)
    (hT : ∀ b < e.length, |p (at1 e' b)| ≤ T)
    (hM : T + (((∑ b ∈ Finset.range l.length, k b) + l.length : Nat) : Rat) * ε ≤ M) (hε : 0 ≤ ε) :
    ∀ b < l.length, |p (at1 l' b) - p (at1 e' b)| ≤ (((∑ b' ∈ Finset.range (b + 1), k b') + b : Nat) : Rat) * ε := by
  intro b
  induction b with
  | zero =>
    intro hb
    rw [hl.2.1, he.2.1]
    simpa using hk 0 hb
  | succ b ih =>
    intro hb
    rw [hl.2.2 b hb, he.2.2 b (by omega), hp.add, hp.add, id]
    have h1 := ih (by omega)
    have h2 := hk (b + 1) hb
    have h3 : |p (at1 l (b + 1)) + p (at1 l' b) - (p (at1 e (b + 1)) + p (at1 e' b))| ≤
        k (b + 1) * ε + (((∑ b' ∈ Finset.range (b + 1), k b') + b : Nat) : Rat) * ε := by
      rw [show p (at1 l (b + 1)) + p (at1 l' b) - (p (at1 e (b + 1)) + p (at1 e' b)) =
        (p (at1 l (b + 1)) - p (at1 e (b + 1))) + (p (at1 l' b) - p (at1 e' b)) by ring]
      exact (abs_add_le _ _).trans (by linarith)
    have h4 : |p (at1 e (b + 1)) + p (at1 e' b)| ≤ T := by
      have := hT (b + 1) (by omega)
      rwa [he.2.2 b (by omega), hp.add] at this
    have h5 : (((∑ b' ∈ Finset.range (b + 1), k b') + b + k (b + 1) : Nat) : Rat) * ε ≤
        (((∑ b ∈ Finset.range l.length, k b) + l.length : Nat) : Rat) * ε := by
      apply mul_le_mul_of_nonneg_right _ hε
      have : (∑ b' ∈ Finset.range (b + 1 + 1), k b') ≤ ∑ b ∈ Finset.range l.length, k b :=
        Finset.sum_le_sum_of_subset (by intro x; simp; omega)
      rw [Finset.sum_range_succ] at this
      exact_mod_cast (by omega)
    have h6 := round_near hr h3 (by push_cast at h5 hM ⊢; nlinarith)
    refine h6.trans (le_of_eq ?_)
    rw [Finset.sum_range_succ _ (b + 1)]
    push_cast
    ring

theorem accdR_count (rnd : Rat → Rat) (l l' e e' : List (HCell Rat)) (hl : AccdR rnd l l') (he : AccdR id e e')
    (hlen : l.length = e.length) (hk : ∀ b < l.length, (at1 l b).2.2 = (at1 e b).2.2) :
    ∀ b < l.length, (at1 l' b).2.2 = (at1 e' b).2.2 := by
  intro b
  induction b with
  | zero => intro hb; rw [hl.2.1, he.2.1, hk 0 hb]
  | succ b ih =>
    intro hb
    rw [hl.2.2 b hb, he.2.2 b (by omega)]
    simp only [radd]
    rw [hk (b + 1) hb, ih (by omega)]

theorem accumulate_id (H : Hist Rat) : accumulate (floats id) H = accumulate plain H := rfl

/-- The cells of an exact histogram are bounded by the sums of absolute values. -/
theorem totals_bound {R : Type} (l : List (R × Rat × Rat)) (P : R × Rat × Rat → Bool) :
    |(totals (l.filter P)).1| ≤ (l.map fun s => |s.2.1|).sum ∧
      |(totals (l.filter P)).2.1| ≤ (l.map fun s => |s.2.2|).sum := by
  unfold totals
  simp only
  induction l with
  | nil => simp
  | cons s l ih =>
    have h1 := abs_nonneg s.2.1
    have h2 := abs_nonneg s.2.2
    rw [List.filter_cons]
    split
    · simp only [List.map_cons, List.sum_cons]
      exact ⟨(abs_add_le _ _).trans (by linarith [ih.1]), (abs_add_le _ _).trans (by linarith [ih.2])⟩
    · simp only [List.map_cons, List.sum_cons]
      exact ⟨by linarith [ih.1], by linarith [ih.2]⟩

/-- **Rounded histograms**: every cell holds the sums over samples up to a rounding error for each operation
that leads to it, and the exact count. -/
theorem histogram_near {K : Type} [DecidableEq K] (hε : 0 ≤ ε) (hr : RoundsWithin rnd M ε)
    (splits : List (List Rat)) (sparse : Dict Nat Nat) (valid : List Bool)
    (hv : valid.length = splits.length) (hz : ZeroBins splits sparse) (ids : List Nat)
    (hids : ids.Nodup) (hne : ids ≠ []) (data : DTable K (SparseVec Cell × Nat × Nat))
    (hd : ∀ k x, data.data.get? k = some x → BinnedRow splits x.1)
    (gh : DTable K (Rat × Rat)) (hg : gh.WF) (m bins : Nat) (T : Rat)
    (hb : ∀ sp ∈ splits, sp.length ≤ bins)
    (hm : ∀ id ∈ ids, (atNode data gh id).length ≤ m ∧ ((atNode data gh id).map fun s => |s.2.1|).sum ≤ T ∧
      ((atNode data gh id).map fun s => |s.2.2|).sum ≤ T)
    (hM : 3 * T + (3 * m + bins + 3) * ε ≤ M) :
    ∃ H, getHistograms (floats rnd) splits sparse (some valid) ids data gh = .ok H ∧
      H.length = ids.length ∧
      ∀ (i : Nat) (id : Nat), ids[i]? = some id → ∃ fh, H[i]? = some fh ∧ fh.length = splits.length ∧
        ∀ (f : Nat) (sp : List Rat), splits[f]? = some sp → ∃ bs, fh[f]? = some bs ∧
          (valid[f]? = some false → bs = []) ∧
          (valid[f]? = some true → bs.length = sp.length + 1 ∧
            ∀ b ≤ sp.length, ∃ c, bs[b]? = some c ∧
              |c.1 - (totals (upToBin sparse f b (atNode data gh id))).1| ≤ (3 * m + bins + 2) * ε ∧
              |c.2.1 - (totals (upToBin sparse f b (atNode data gh id))).2.1| ≤ (3 * m + bins + 2) * ε ∧
              c.2.2 = (totals (upToBin sparse f b (atNode data gh id))).2.2) := by
  have hmap : ∀ id n, (nodeMapOf ids).get? id = some n → n < (nodeMapOf ids).length := by
    intro id n h
    rw [nodeMapOf_get? ids hids] at h
    rw [nodeMapOf_length ids hids]
    by_contra hc
    rw [List.getElem?_eq_none (by omega)] at h
    cases h
  have hnm : nodeMapOf ids ≠ [] := by
    intro h
    have := nodeMapOf_length ids hids
    rw [h] at this
    exact hne (List.length_eq_zero_iff.mp this.symm)
  have hjoin := DTable.join_ok data hg (fun v w => (v, w))
  obtain ⟨HE, c1, c2, c3⟩ := C22_histogram splits sparse valid hv hz ids hids hne data hd gh hg
  set kvs := Dict.values (DTable.joinLoop data.data (fun v w => (v, w)) gh.data) with hkvs
  have hk : ∀ p ∈ kvs, BinnedRow splits p.1.1 := by
    intro p hp
    rw [hkvs] at hp
    obtain ⟨q, hq, rfl⟩ := List.mem_map.mp hp
    clear hjoin hkvs kvs hp c1
    revert hq
    generalize gh.data = g
    intro hq
    induction g with
    | nil => simp [DTable.joinLoop] at hq
    | cons e g ih =>
      unfold DTable.joinLoop at hq
      cases hx : data.data.get? e.1 with
      | none => rw [hx] at hq; exact ih hq
      | some x =>
        rw [hx] at hq
        simp only [List.mem_cons] at hq
        rcases hq with rfl | hq
        · exact hd _ _ hx
        · exact ih hq
  obtain ⟨H0, a1, a2, a3, a4⟩ := batch_okR rnd splits sparse valid hv hz (nodeMapOf ids) hnm hmap kvs hk
  obtain ⟨H, b1, b2, b3, b4⟩ := accumulate_okR rnd H0
  obtain ⟨E0, x1, x2, x3, x4⟩ := batch_okR id splits sparse valid hv hz (nodeMapOf ids) hnm hmap kvs hk
  obtain ⟨E, y1, y2, y3, y4⟩ := accumulate_okR id E0
  have hE : E = HE := by
    have : getHistograms (floats id) splits sparse (some valid) ids data gh = .ok E := by
      unfold getHistograms calculate
      rw [hjoin]
      simp only [bind, Except.bind]
      rw [x1]
      exact y1
    have h2 : getHistograms (floats id) splits sparse (some valid) ids data gh = .ok HE := c1
    rw [this] at h2
    exact Except.ok.inj h2
  subst hE
  refine ⟨H, ?_, ?_, ?_⟩
  · unfold getHistograms calculate
    rw [hjoin]
    simp only [bind, Except.bind]
    rw [a1]
    exact b1
  · rw [b2, a2, nodeMapOf_length ids hids]
  · intro i id hid
    have hi : i < (nodeMapOf ids).length := hmap id i ((nodeMapOf_get? ids hids id i).mpr hid)
    have hfl : (row H i).length = splits.length := by rw [b3, a3 i hi]
    refine ⟨row H i, row_some (by rw [b2, a2]; exact hi), hfl, ?_⟩
    intro f sp hf
    have hff : f < splits.length := by
      by_contra hc
      rw [List.getElem?_eq_none (by omega)] at hf
      cases hf
    refine ⟨row (row H i) f, row_some (by rw [hfl]; exact hff), ?_, ?_⟩
    · intro hdis
      have h1 := (a4 i hi f hff).1
      have h2 := (b4 i f).1
      rw [List.getD_eq_getElem?_getD, hdis] at h1
      rw [h1] at h2
      exact List.length_eq_zero_iff.mp h2
    · intro hen
      have hen' : valid.getD f false = true := by rw [List.getD_eq_getElem?_getD, hen]; rfl
      obtain ⟨h1, h2⟩ := a4 i hi f hff
      obtain ⟨g1, g2⟩ := x4 i hi f hff
      have hlen : (row (row H0 i) f).length = sp.length + 1 := by
        rw [h1, hen']
        simp [hf]
      have hlenE : (row (row E0 i) f).length = sp.length + 1 := by
        rw [g1, hen']
        simp [hf]
      have hlen' : (row (row H i) f).length = sp.length + 1 := by rw [(b4 i f).1, hlen]
      have hbins : sp.length ≤ bins := hb sp (List.mem_of_getElem? hf)
      refine ⟨hlen', ?_⟩
      intro b hbl
      -- the exact cell
      obtain ⟨fh, f1, _, f2⟩ := c3 i id hid
      obtain ⟨bs, f3, _, f4⟩ := f2 f sp hf
      obtain ⟨_, f5⟩ := f4 hen
      have exact : ∀ b ≤ sp.length, at1 (row (row E i) f) b = totals (upToBin sparse f b (atNode data gh id)) := by
        intro b hb'
        have e1 : row E i = fh := by unfold row; rw [f1]; rfl
        have e2 : row fh f = bs := by unfold row; rw [f3]; rfl
        rw [e1, e2]
        unfold at1
        rw [f5 b hb']
        rfl
      have hwf : ∀ r ∈ collectRecords (nodeMapOf ids) kvs, r.features.vec.WF := by
        intro r hr
        obtain ⟨_, st, _, hmem⟩ := collectRecords_mem _ _ r hr
        exact (hk _ hmem).wf
      obtain ⟨m1, m2, m3⟩ := hm id (List.mem_of_getElem? hid)
      have hT0 : 0 ≤ T := le_trans (List.sum_nonneg (by
        intro y hy
        obtain ⟨m, _, rfl⟩ := List.mem_map.mp hy
        exact abs_nonneg _)) m2
      have hat := recSum_atNode ids hids i id hid data gh
      have hops : ∀ b, (∑ b' ∈ Finset.range (b + 1),
          ops sparse valid (nodeMapOf ids) (collectRecords (nodeMapOf ids) kvs) i f b' m) ≤ 3 * m + 2 := by
        intro b
        unfold ops
        rw [Finset.sum_add_distrib]
        have q1 := entries_le valid f hen' (nodeMapOf ids) i b _ hwf
        rw [hat, List.length_map] at q1
        have q2 : (∑ b' ∈ Finset.range (b + 1), if sparse.get? f = some b' then 2 * m + 2 else 0) ≤ 2 * m + 2 := by
          cases hc : sparse.get? f with
          | none => simp
          | some z =>
            simp only [Option.some.injEq]
            rw [Finset.sum_ite_eq]
            split <;> omega
        omega
      have near : ∀ p : HCell Rat → Rat, IsFloat p → ((atNode data gh id).map fun s => |p (s.2.1, s.2.2, 1)|).sum ≤ T →
          (∀ b ≤ sp.length, |p (totals (upToBin sparse f b (atNode data gh id)))| ≤ T) →
          |p (at1 (row (row H i) f) b) - p (totals (upToBin sparse f b (atNode data gh id)))| ≤ (3 * m + bins + 2) * ε := by
        intro p hp hpT hpB
        have hlb : ((sp.length : Nat) : Rat) ≤ bins := by exact_mod_cast hbins
        have hraw : ∀ b < (row (row H0 i) f).length, |p (at1 (row (row H0 i) f) b) - p (at1 (row (row E0 i) f) b)| ≤
            (ops sparse valid (nodeMapOf ids) (collectRecords (nodeMapOf ids) kvs) i f b m : Nat) * ε := by
          intro b _
          have e1 := h2 hen' b
          have e2 := g2 hen' b
          unfold at3 at2 at e1 e2
          rw [e1, e2]
          have hbe : 0 ≤ (bins : Rat) * ε := by positivity
          exact rawCell_near hp hε hr sparse valid (nodeMapOf ids) _ hwf i f b hen' m T
            (by rw [hat, List.length_map]; exact m1)
            (by rw [hat, List.map_map]; exact hpT) (by nlinarith)
        have hs := hops sp.length
        have := accdR_near hp hr _ _ _ _ (b4 i f) (y4 i f) (by rw [hlen, hlenE])
          (fun b => ops sparse valid (nodeMapOf ids) (collectRecords (nodeMapOf ids) kvs) i f b m) hraw T
          (by
            intro b hb'
            rw [hlenE] at hb'
            rw [exact b (by omega)]
            exact hpB b (by omega))
          (by
            rw [hlen]
            have : ((((∑ b ∈ Finset.range (sp.length + 1),
                ops sparse valid (nodeMapOf ids) (collectRecords (nodeMapOf ids) kvs) i f b m) + (sp.length + 1) : Nat)) : Rat) * ε
                ≤ ((3 * m + bins + 3 : Nat) : Rat) * ε := by
              apply mul_le_mul_of_nonneg_right _ hε
              exact_mod_cast (by omega)
            push_cast at this ⊢
            linarith) hε b (by rw [hlen]; omega)
        rw [exact b hbl] at this
        refine this.trans ?_
        have h9 := hops b
        have : ((((∑ b' ∈ Finset.range (b + 1),
            ops sparse valid (nodeMapOf ids) (collectRecords (nodeMapOf ids) kvs) i f b' m) + b : Nat)) : Rat) * ε
            ≤ ((3 * m + bins + 2 : Nat) : Rat) * ε := by
          apply mul_le_mul_of_nonneg_right _ hε
          exact_mod_cast (by omega)
        push_cast at this ⊢
        exact this
      refine ⟨at1 (row (row H i) f) b, ?_, ?_, ?_, ?_⟩
      · unfold at1
        rw [List.getElem?_eq_getElem (by rw [hlen']; omega)]
        rfl
      · exact near (fun c => c.1) isFloat_grad m2 (fun b _ => (totals_bound _ _).1.trans m2)
      · exact near (fun c => c.2.1) isFloat_hess m3 (fun b _ => (totals_bound _ _).2.trans m3)
      · rw [accdR_count rnd _ _ _ _ (b4 i f) (y4 i f) (by rw [hlen, hlenE]) (by
          intro b _
          have e1 := h2 hen' b
          have e2 := g2 hen' b
          unfold at3 at2 at e1 e2
          rw [e1, e2]
          exact rawCell_count rnd _ _ _ _ _ _ _) b (by rw [hlen]; omega), exact b hbl]

end Histogram
end Verif
