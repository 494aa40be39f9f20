import Verif.Lemmas.DTable

/-!
# C03 – filtering partitions a table, mapping keeps its keys, reduce folds
-/

set_option autoImplicit false
set_option linter.unusedSectionVars false

namespace Verif
variable {K V W : Type*} [DecidableEq K]

/-- `t.filter(f)` and `t.subtractByKey(t.filter(f))` split `t` into two disjoint
tables that hold every record exactly once, each on its side of the test. -/
theorem C03_filter_partition (t : DTable K V) (ht : t.WF) (f : K → V → Bool) :
    ∃ yes no, t.filter f = .ok yes ∧ t.subtractByKey yes = .ok no ∧
      (yes.collect ++ no.collect).Perm t.collect ∧
      (∀ p ∈ yes.collect, f p.1 p.2 = true) ∧ (∀ p ∈ no.collect, f p.1 p.2 = false) ∧
      (∀ k, k ∈ yes.data.keys → k ∉ no.data.keys) := by
  have key : ∀ p ∈ t.data,
      (!(Dict.has (t.data.filter fun p => f p.1 p.2) p.1)) = !(f p.1 p.2) := by
    intro p hp
    congr 1
    rw [Bool.eq_iff_iff, Dict.has_iff]
    constructor
    · intro h
      obtain ⟨q, hq, e⟩ := List.mem_map.mp h
      have hq' := List.mem_filter.mp hq
      have e1 := Dict.get?_of_mem ht (k := q.1) (v := q.2) hq'.1
      have e2 := Dict.get?_of_mem ht (k := p.1) (v := p.2) hp
      rw [e] at e1; rw [e1] at e2
      have e3 : q.2 = p.2 := by simpa using e2
      have := hq'.2
      rw [e, e3] at this; exact this
    · intro h
      exact List.mem_map.mpr ⟨p, List.mem_filter.mpr ⟨hp, h⟩, rfl⟩
  have hno := DTable.subtractByKey_ok ht (⟨t.data.filter fun p => f p.1 p.2⟩ : DTable K V)
  rw [List.filter_congr key] at hno
  refine ⟨_, _, DTable.filter_ok ht f, hno, ?_, ?_, ?_, ?_⟩
  · exact List.filter_append_perm (fun p : K × V => f p.1 p.2) t.data
  · intro p hp; exact (List.mem_filter.mp hp).2
  · intro p hp
    have := (List.mem_filter.mp hp).2
    simpa using this
  · intro k hy hn
    obtain ⟨p, hp, e⟩ := List.mem_map.mp hy
    obtain ⟨q, hq, e'⟩ := List.mem_map.mp hn
    have hp' := List.mem_filter.mp hp
    have hq' := List.mem_filter.mp hq
    have e1 := Dict.get?_of_mem ht (k := q.1) (v := q.2) hq'.1
    have e2 := Dict.get?_of_mem ht (k := p.1) (v := p.2) hp'.1
    rw [e'] at e1; rw [e] at e2; rw [e1] at e2
    have e3 : q.2 = p.2 := by simpa using e2
    have h1 := hp'.2; have h2 := hq'.2
    rw [e', e3] at h2; rw [e] at h1
    simp [h1] at h2

example : (⟨[(1, 10), (2, 21), (3, 30)]⟩ : DTable Nat Nat).filter (fun _ v => v % 2 == 0)
    = .ok ⟨[(1, 10), (3, 30)]⟩ := by decide

/-- `t.mapValues(f)` keeps keys, order and count and applies `f` to every value. -/
theorem C03_mapValues (t : DTable K V) (ht : t.WF) (f : V → W) :
    ∃ r, t.mapValues f = .ok r ∧ r.data.keys = t.data.keys ∧ r.count = t.count ∧
      ∀ k, r.data.get? k = (t.data.get? k).map f := by
  refine ⟨_, DTable.mapValues_ok ht f, Dict.keys_map (fun _ v => f v) t.data, ?_, ?_⟩
  · simp [DTable.count]
  · exact Dict.get?_map (fun _ v => f v) t.data

/-- Left fold of a non-empty list, `none` on the empty list. -/
def Spec.fold1 (op : V → V → V) : List V → Option V
  | [] => none
  | v :: vs => some (vs.foldl op v)

/-- A binary operation on values seen as an operation on possibly-`None` values. -/
def Spec.onSome (op : V → V → V) : Option V → Option V → Option V
  | some x, some y => some (op x y)
  | _, _ => none

/-- Reduce on values that are never `None`, with an operation that never yields
`None` on them, is the left fold; on an empty table it is `None`. -/
theorem C03_reduce_fold (t : DTable K (Option V)) (op : V → V → V)
    (vs : List V) (hvs : t.data.values = vs.map some) :
    t.reduce (Spec.onSome op) = Spec.fold1 op vs := by
  unfold DTable.reduce
  rw [hvs]
  have key : ∀ (vs : List V) (r : V),
      DTable.reduceLoop (Spec.onSome op) (some r) (vs.map some) = some (vs.foldl op r) := by
    intro vs
    induction vs with
    | nil => intro r; rfl
    | cons v vs ih =>
      intro r
      simp only [List.map_cons, DTable.reduceLoop, List.foldl_cons, Spec.onSome]; exact ih _
  cases vs with
  | nil => rfl
  | cons v vs => exact key vs v

example : (⟨[(0, some 3), (1, some 4)]⟩ : DTable Nat (Option Nat)).data.values = [3, 4].map some := rfl

/-- With an associative operation the answer does not depend on how the table is cut
into two consecutive parts: reduce of the whole = combination of the parts' reduces.
(`None` plays no role as long as neither values nor results are `None`.) -/
theorem C03_reduce_split (op : V → V → V) (hop : ∀ a b c, op (op a b) c = op a (op b c))
    (t₁ t₂ t : DTable K (Option V)) (xs ys : List V) (hx : xs ≠ []) (hy : ys ≠ [])
    (h₁ : t₁.data.values = xs.map some) (h₂ : t₂.data.values = ys.map some)
    (h : t.data.values = (xs ++ ys).map some) :
    t.reduce (Spec.onSome op) =
      Spec.onSome op (t₁.reduce (Spec.onSome op)) (t₂.reduce (Spec.onSome op)) := by
  rw [C03_reduce_fold t op _ h, C03_reduce_fold t₁ op _ h₁, C03_reduce_fold t₂ op _ h₂]
  cases xs with
  | nil => exact absurd rfl hx
  | cons x xs =>
    cases ys with
    | nil => exact absurd rfl hy
    | cons y ys =>
      simp only [List.cons_append, List.foldl_append, List.foldl_cons, Spec.fold1, Spec.onSome]
      congr 1
      have : ∀ (l : List V) (a b : V), l.foldl op (op a b) = op a (l.foldl op b) := by
        intro l
        induction l with
        | nil => intro a b; rfl
        | cons c l ih => intro a b; simp only [List.foldl_cons]; rw [hop]; exact ih _ _
      exact this ys _ y

example : (∀ a b c : Nat, (a + b) + c = a + (b + c)) := Nat.add_assoc

/-- The `None` convention is observable: when a partial result is `None` the fold
restarts, so a `None`-producing operation is *not* folded over all values.  Here the
operation returns `None` on the first two values and the third is returned as is,
although a fold would have combined it. -/
theorem C03_reduce_none_restarts :
    let f := fun (a b : Option Nat) => if a = some 1 ∧ b = some 2 then none else a.bind fun x => b.map (x + ·)
    (⟨[(0, some 1), (1, some 2), (2, some 7)]⟩ : DTable Nat (Option Nat)).reduce f = some 7 ∧
    [some 2, some 7].foldl f (some 1) = none := by decide

/-- Reduce of an empty table is `None`. -/
theorem C03_reduce_empty (f : Option V → Option V → Option V) :
    (DTable.empty : DTable K (Option V)).reduce f = none := rfl

end Verif
