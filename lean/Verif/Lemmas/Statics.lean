import Verif.Model.Statics
import Verif.Spec.C39
import Verif.Lemmas.Dict
import Mathlib.Tactic.Linarith
import Mathlib.Tactic.Ring
import Mathlib.Tactic.FieldSimp

/-!
# Lemmas on summary statistics
-/

set_option autoImplicit false

namespace Verif
namespace Statics

open Spec (numbers Convertible)

section
variable {V : Type} [DecidableEq V] (float : V → Except PyErr Rat) (abnormal : List V)

/-- Adding one number. -/
def push (s : Summary) (v : Rat) : Summary :=
  { count := s.count + 1
    sum := s.sum + v
    sumSquare := s.sumSquare + v ^ 2
    maxValue := max s.maxValue v
    minValue := min s.minValue v }

theorem addValue_push (s : Summary) (v : V) :
    addValue float abnormal s v =
      if v ∈ abnormal then .ok s
      else match float v with
        | .error .typeError => .ok s
        | .error e => .error e
        | .ok r => .ok (push s r) := by
  unfold addValue push
  by_cases h : v ∈ abnormal
  · simp [h]
  · simp only [h, if_false]
    cases hf : float v with
    | error e => cases e <;> rfl
    | ok r =>
      have hmax : (if r > s.maxValue then r else s.maxValue) = max s.maxValue r := by
        rcases le_or_gt r s.maxValue with h | h
        · rw [max_eq_left h, if_neg (not_lt.2 h)]
        · rw [max_eq_right h.le, if_pos h]
      have hmin : (if r < s.minValue then r else s.minValue) = min s.minValue r := by
        rcases le_or_gt s.minValue r with h | h
        · rw [min_eq_left h, if_neg (not_lt.2 h)]
        · rw [min_eq_right h.le, if_pos h]
      simp only [hmax, hmin]

theorem addAll_append (vs ws : List V) (s : Summary) :
    addAll float abnormal s (vs ++ ws) =
      match addAll float abnormal s vs with
      | .error e => .error e
      | .ok s => addAll float abnormal s ws := by
  induction vs generalizing s with
  | nil => rfl
  | cons v vs ih =>
    simp only [List.cons_append, addAll]
    cases addValue float abnormal s v with
    | error e => rfl
    | ok s' => exact ih s'

/-- The result of adding a list is determined by its numbers. -/
theorem addAll_ok (vs : List V) (s : Summary) (h : Convertible float abnormal vs) :
    addAll float abnormal s vs = .ok ((numbers float abnormal vs).foldl push s) := by
  induction vs generalizing s with
  | nil => rfl
  | cons v vs ih =>
    have hvs : Convertible float abnormal vs := fun w hw => h w (List.mem_cons_of_mem _ hw)
    have hv := h v (List.mem_cons_self ..)
    simp only [addAll, addValue_push, numbers, List.filterMap_cons]
    by_cases ha : v ∈ abnormal
    · simp only [ha, if_true]
      exact ih s hvs
    · simp only [ha, if_false]
      cases hf : float v with
      | error e =>
        have := hv ha e hf
        subst this
        exact ih s hvs
      | ok r => exact ih (push s r) hvs

theorem addAll_convertible (vs : List V) (s t : Summary)
    (h : addAll float abnormal s vs = .ok t) : Convertible float abnormal vs := by
  induction vs generalizing s with
  | nil => intro v hv; cases hv
  | cons v vs ih =>
    simp only [addAll, addValue_push] at h
    have key : ∃ s', addAll float abnormal s' vs = .ok t := by
      by_cases ha : v ∈ abnormal
      · simp only [ha, if_true] at h
        exact ⟨_, h⟩
      · simp only [ha, if_false] at h
        cases hf : float v with
        | error e =>
          rw [hf] at h
          cases e <;> first | exact ⟨_, h⟩ | (simp at h)
        | ok r => rw [hf] at h; exact ⟨_, h⟩
    obtain ⟨s', hs'⟩ := key
    intro w hw hwa e he
    rcases List.mem_cons.1 hw with rfl | hw
    · simp only [hwa, if_false, he] at h
      cases e <;> first | rfl | (simp at h)
    · exact ih s' hs' w hw hwa e he

omit [DecidableEq V] in
theorem foldl_push_count (xs : List Rat) (s : Summary) :
    (xs.foldl push s).count = s.count + xs.length := by
  induction xs generalizing s with
  | nil => rfl
  | cons x xs ih => simp only [List.foldl_cons, ih, push, List.length_cons]; omega

theorem foldl_push_sum (xs : List Rat) (s : Summary) :
    (xs.foldl push s).sum = s.sum + xs.sum := by
  induction xs generalizing s with
  | nil => simp
  | cons x xs ih => simp only [List.foldl_cons, ih, push, List.sum_cons]; ring

theorem foldl_push_sumSquare (xs : List Rat) (s : Summary) :
    (xs.foldl push s).sumSquare = s.sumSquare + (xs.map (· ^ 2)).sum := by
  induction xs generalizing s with
  | nil => simp
  | cons x xs ih => simp only [List.foldl_cons, ih, push, List.map_cons, List.sum_cons]; ring

theorem foldl_push_max (xs : List Rat) (s : Summary) :
    (xs.foldl push s).maxValue = xs.foldl max s.maxValue := by
  induction xs generalizing s with
  | nil => rfl
  | cons x xs ih => simp only [List.foldl_cons, ih, push]

theorem foldl_push_min (xs : List Rat) (s : Summary) :
    (xs.foldl push s).minValue = xs.foldl min s.minValue := by
  induction xs generalizing s with
  | nil => rfl
  | cons x xs ih => simp only [List.foldl_cons, ih, push]

theorem foldl_max_spec (xs : List Rat) (a : Rat) :
    a ≤ xs.foldl max a ∧ (∀ x ∈ xs, x ≤ xs.foldl max a) ∧
      (xs.foldl max a = a ∨ xs.foldl max a ∈ xs) := by
  induction xs generalizing a with
  | nil => simp
  | cons x xs ih =>
    obtain ⟨h1, h2, h3⟩ := ih (max a x)
    simp only [List.foldl_cons]
    refine ⟨le_trans (le_max_left _ _) h1, ?_, ?_⟩
    · intro y hy
      rcases List.mem_cons.1 hy with rfl | hy
      · exact le_trans (le_max_right _ _) h1
      · exact h2 y hy
    · rcases h3 with h3 | h3
      · rcases max_choice a x with hm | hm
        · left; rw [h3, hm]
        · right; rw [h3, hm]; exact List.mem_cons_self ..
      · right; exact List.mem_cons_of_mem _ h3

theorem foldl_min_spec (xs : List Rat) (a : Rat) :
    xs.foldl min a ≤ a ∧ (∀ x ∈ xs, xs.foldl min a ≤ x) ∧
      (xs.foldl min a = a ∨ xs.foldl min a ∈ xs) := by
  induction xs generalizing a with
  | nil => simp
  | cons x xs ih =>
    obtain ⟨h1, h2, h3⟩ := ih (min a x)
    simp only [List.foldl_cons]
    refine ⟨le_trans h1 (min_le_left _ _), ?_, ?_⟩
    · intro y hy
      rcases List.mem_cons.1 hy with rfl | hy
      · exact le_trans h1 (min_le_right _ _)
      · exact h2 y hy
    · rcases h3 with h3 | h3
      · rcases min_choice a x with hm | hm
        · left; rw [h3, hm]
        · right; rw [h3, hm]; exact List.mem_cons_self ..
      · right; exact List.mem_cons_of_mem _ h3

theorem foldl_max_comm (xs : List Rat) (a b : Rat) :
    xs.foldl max (max a b) = max a (xs.foldl max b) := by
  induction xs generalizing a b with
  | nil => rfl
  | cons x xs ih => simp only [List.foldl_cons, max_assoc, ih]

theorem foldl_min_comm (xs : List Rat) (a b : Rat) :
    xs.foldl min (min a b) = min a (xs.foldl min b) := by
  induction xs generalizing a b with
  | nil => rfl
  | cons x xs ih => simp only [List.foldl_cons, min_assoc, ih]

theorem merge_eq (s o : Summary) : merge s o =
    { count := s.count + o.count
      sum := s.sum + o.sum
      sumSquare := s.sumSquare + o.sumSquare
      maxValue := max s.maxValue o.maxValue
      minValue := min s.minValue o.minValue } := by
  unfold merge
  have hmax : (if s.maxValue < o.maxValue then o.maxValue else s.maxValue)
      = max s.maxValue o.maxValue := by
    rcases le_or_gt o.maxValue s.maxValue with h | h
    · rw [max_eq_left h, if_neg (not_lt.2 h)]
    · rw [max_eq_right h.le, if_pos h]
  have hmin : (if s.minValue > o.minValue then o.minValue else s.minValue)
      = min s.minValue o.minValue := by
    rcases le_or_gt s.minValue o.minValue with h | h
    · rw [min_eq_left h, if_neg (not_lt.2 h)]
    · rw [min_eq_right h.le, if_pos h]
  rw [hmax, hmin]

/-- Adding numbers to a summary is merging it with the summary of the numbers, provided the
summary is one of some numbers. -/
theorem foldl_push_merge (xs ys : List Rat) :
    ys.foldl push (xs.foldl push fresh) = merge (xs.foldl push fresh) (ys.foldl push fresh) := by
  rw [merge_eq]
  have hle := (foldl_max_spec xs fresh.maxValue).1
  have hge := (foldl_min_spec xs fresh.minValue).1
  have e1 := foldl_push_count ys (xs.foldl push fresh)
  have e2 := foldl_push_sum ys (xs.foldl push fresh)
  have e3 := foldl_push_sumSquare ys (xs.foldl push fresh)
  have e4 := foldl_push_max ys (xs.foldl push fresh)
  have e5 := foldl_push_min ys (xs.foldl push fresh)
  have hm : max (xs.foldl push fresh).maxValue fresh.maxValue = (xs.foldl push fresh).maxValue := by
    rw [foldl_push_max]; exact max_eq_left hle
  have hn : min (xs.foldl push fresh).minValue fresh.minValue = (xs.foldl push fresh).minValue := by
    rw [foldl_push_min]; exact min_eq_left hge
  have e4' : (ys.foldl push (xs.foldl push fresh)).maxValue
      = max (xs.foldl push fresh).maxValue (ys.foldl push fresh).maxValue := by
    rw [e4, foldl_push_max ys fresh, ← foldl_max_comm, hm]
  have e5' : (ys.foldl push (xs.foldl push fresh)).minValue
      = min (xs.foldl push fresh).minValue (ys.foldl push fresh).minValue := by
    rw [e5, foldl_push_min ys fresh, ← foldl_min_comm, hn]
  generalize ys.foldl push (xs.foldl push fresh) = t at *
  cases t
  simp only [Summary.mk.injEq]
  simp only at e1 e2 e3 e4' e5'
  refine ⟨?_, ?_, e4', e5', ?_⟩
  · rw [e2, foldl_push_sum ys fresh]; simp [fresh]
  · rw [e3, foldl_push_sumSquare ys fresh]; simp [fresh]
  · rw [e1, foldl_push_count ys fresh]; simp [fresh]

theorem numbers_append (vs ws : List V) :
    numbers float abnormal (vs ++ ws) = numbers float abnormal vs ++ numbers float abnormal ws := by
  simp [numbers, List.filterMap_append]

end

/-- The formula used for the variance is the mean squared distance from the mean. -/
theorem variance_formula (xs : List Rat) (h : xs ≠ []) :
    (xs.map (· ^ 2)).sum / xs.length - 2 * xs.sum * Spec.mean xs / xs.length + Spec.mean xs ^ 2
      = Spec.variance xs := by
  have hn : (xs.length : Rat) ≠ 0 := by
    have := List.length_pos_iff.2 h
    positivity
  have expand : ∀ (m : Rat) (l : List Rat),
      (l.map fun x => (x - m) ^ 2).sum = (l.map (· ^ 2)).sum - 2 * m * l.sum + l.length * m ^ 2 := by
    intro m l
    induction l with
    | nil => simp
    | cons x l ih =>
      simp only [List.map_cons, List.sum_cons, List.length_cons, ih]
      push_cast
      ring
  unfold Spec.variance
  rw [expand]
  unfold Spec.mean
  field_simp

theorem variance_nonneg (xs : List Rat) : 0 ≤ Spec.variance xs := by
  unfold Spec.variance
  apply div_nonneg
  · apply List.sum_nonneg
    intro x hx
    obtain ⟨y, _, rfl⟩ := List.mem_map.1 hx
    exact sq_nonneg _
  · exact Nat.cast_nonneg _

/-! ## Columns -/

section
variable {C V : Type} [DecidableEq C] [DecidableEq V] (float : V → Except PyErr Rat)
  (abnormal : List V)

theorem addRow_inv (row : List V) (cols : Dict C Nat) (hc : Dict.WF cols) (d d' : Dict C Summary)
    (h : addRow float abnormal row cols d = .ok d') :
    d'.keys = d.keys ∧ ∀ name,
      (cols.get? name = none → d'.get? name = d.get? name) ∧
      ∀ i, cols.get? name = some i → ∃ v s s', row[i]? = some v ∧ d.get? name = some s ∧
        addValue float abnormal s v = .ok s' ∧ d'.get? name = some s' := by
  induction cols generalizing d with
  | nil =>
    simp only [addRow, Except.ok.injEq] at h
    subst h
    exact ⟨rfl, fun name => ⟨fun _ => rfl, fun i hi => by simp at hi⟩⟩
  | cons c cols ih =>
    obtain ⟨n, i⟩ := c
    have hc' : Dict.WF cols := (List.nodup_cons.1 hc).2
    have hn : n ∉ Dict.keys cols := (List.nodup_cons.1 hc).1
    simp only [addRow] at h
    split at h
    · cases h
    rename_i v hv
    split at h
    · cases h
    rename_i s hs
    split at h
    · cases h
    rename_i s' hs'
    obtain ⟨hk, hget⟩ := ih hc' _ h
    have hnd : n ∈ d.keys := Dict.mem_keys_of_get? hs
    refine ⟨by rw [hk, Dict.keys_set, if_pos hnd], fun name => ?_⟩
    obtain ⟨g1, g2⟩ := hget name
    rw [Dict.get?_set] at g1 g2
    by_cases hname : n = name
    · subst hname
      have hnone : Dict.get? cols n = none := (Dict.get?_eq_none_iff _ _).2 hn
      refine ⟨fun hx => ?_, fun j hj => ?_⟩
      · simp [Dict.get?_cons] at hx
      · simp only [Dict.get?_cons, if_true, Option.some.injEq] at hj
        subst hj
        exact ⟨v, s, s', hv, hs, hs', by rw [g1 hnone, if_pos rfl]⟩
    · simp only [Dict.get?_cons, hname, if_false] at *
      exact ⟨g1, g2⟩

theorem addRow_total (row : List V) (cols : Dict C Nat) (hc : Dict.WF cols) (d : Dict C Summary)
    (h : ∀ name i, cols.get? name = some i → ∃ v s s', row[i]? = some v ∧ d.get? name = some s ∧
      addValue float abnormal s v = .ok s') :
    ∃ d', addRow float abnormal row cols d = .ok d' := by
  induction cols generalizing d with
  | nil => exact ⟨d, rfl⟩
  | cons c cols ih =>
    obtain ⟨n, i⟩ := c
    have hc' : Dict.WF cols := (List.nodup_cons.1 hc).2
    have hn : n ∉ Dict.keys cols := (List.nodup_cons.1 hc).1
    obtain ⟨v, s, s', hv, hs, hs'⟩ := h n i (by simp [Dict.get?_cons])
    simp only [addRow, hv, hs, hs']
    apply ih hc'
    intro name j hj
    have hne : n ≠ name := fun e => hn (e ▸ Dict.mem_keys_of_get? hj)
    rw [Dict.get?_set, if_neg hne]
    exact h name j (by simp [Dict.get?_cons, hne, hj])

theorem addRows_append (cols : Dict C Nat) (A B : List (List V)) (d : Dict C Summary) :
    addRows float abnormal cols (A ++ B) d =
      match addRows float abnormal cols A d with
      | .error e => .error e
      | .ok d => addRows float abnormal cols B d := by
  induction A generalizing d with
  | nil => rfl
  | cons r A ih =>
    simp only [List.cons_append, addRows]
    cases addRow float abnormal r cols d with
    | error e => rfl
    | ok d' => exact ih d'

theorem addRows_inv (cols : Dict C Nat) (hc : Dict.WF cols) (rows : List (List V))
    (d d' : Dict C Summary) (h : addRows float abnormal cols rows d = .ok d') :
    d'.keys = d.keys ∧ ∀ name,
      (cols.get? name = none → d'.get? name = d.get? name) ∧
      ∀ i, cols.get? name = some i → (∀ row ∈ rows, i < row.length) ∧
        ∀ s, d.get? name = some s → ∃ s', addAll float abnormal s (Spec.column rows i) = .ok s' ∧
          d'.get? name = some s' := by
  induction rows generalizing d with
  | nil =>
    simp only [addRows, Except.ok.injEq] at h
    subst h
    exact ⟨rfl, fun name => ⟨fun _ => rfl, fun i hi =>
      ⟨fun r hr => by simp at hr, fun s hs => ⟨s, rfl, hs⟩⟩⟩⟩
  | cons r rows ih =>
    simp only [addRows] at h
    split at h
    · cases h
    rename_i d1 hd1
    obtain ⟨k1, g1⟩ := addRow_inv float abnormal r cols hc d d1 hd1
    obtain ⟨k2, g2⟩ := ih d1 h
    refine ⟨k2.trans k1, fun name => ⟨fun hn => ?_, fun i hi => ?_⟩⟩
    · rw [(g2 name).1 hn, (g1 name).1 hn]
    · obtain ⟨v, s, s', hv, hs, hs', hget⟩ := (g1 name).2 i hi
      obtain ⟨hlen, hrest⟩ := (g2 name).2 i hi
      refine ⟨fun row hrow => ?_, fun s0 hs0 => ?_⟩
      · rcases List.mem_cons.1 hrow with rfl | hrow
        · exact (List.getElem?_eq_some_iff.1 hv).1
        · exact hlen row hrow
      · rw [hs] at hs0
        cases hs0
        obtain ⟨s2, h2, hg2⟩ := hrest s' hget
        refine ⟨s2, ?_, hg2⟩
        simp only [Spec.column, List.filterMap_cons, hv, addAll, hs']
        exact h2

theorem addRows_total (cols : Dict C Nat) (hc : Dict.WF cols) (rows : List (List V))
    (d : Dict C Summary)
    (h : ∀ name i, cols.get? name = some i → (∀ row ∈ rows, i < row.length) ∧
      ∃ s s', d.get? name = some s ∧ addAll float abnormal s (Spec.column rows i) = .ok s') :
    ∃ d', addRows float abnormal cols rows d = .ok d' := by
  induction rows generalizing d with
  | nil => exact ⟨d, rfl⟩
  | cons r rows ih =>
    have hstep : ∀ name i, cols.get? name = some i → ∃ v s s' s2, r[i]? = some v ∧
        d.get? name = some s ∧ addValue float abnormal s v = .ok s' ∧
        addAll float abnormal s' (Spec.column rows i) = .ok s2 := by
      intro name i hi
      obtain ⟨hl, s, s2, hs, hs2⟩ := h name i hi
      have hr := hl r (List.mem_cons_self ..)
      have hv : r[i]? = some r[i] := List.getElem?_eq_getElem hr
      simp only [Spec.column, List.filterMap_cons, hv, addAll] at hs2
      split at hs2
      · cases hs2
      · rename_i s' hs'
        exact ⟨r[i], s, s', s2, hv, hs, hs', hs2⟩
    obtain ⟨d1, hd1⟩ := addRow_total float abnormal r cols hc d (by
      intro name i hi
      obtain ⟨v, s, s', _, a, b, c, _⟩ := hstep name i hi
      exact ⟨v, s, s', a, b, c⟩)
    obtain ⟨_, g1⟩ := addRow_inv float abnormal r cols hc d d1 hd1
    simp only [addRows, hd1]
    apply ih
    intro name i hi
    refine ⟨fun row hrow => (h name i hi).1 row (List.mem_cons_of_mem _ hrow), ?_⟩
    obtain ⟨v, s, s', s2, a, b, c, e⟩ := hstep name i hi
    obtain ⟨v', t, t', a', b', c', e'⟩ := (g1 name).2 i hi
    rw [a] at a'; cases a'
    rw [b] at b'; cases b'
    rw [c] at c'; cases c'
    exact ⟨s', s2, e', e⟩

theorem freshDict_get (cols : Dict C Nat) (name : C) :
    Dict.get? (cols.map fun c => (c.1, fresh)) name = (cols.get? name).map fun _ => fresh :=
  Dict.get?_map (fun _ _ => fresh) cols name

theorem freshDict_keys (cols : Dict C Nat) :
    Dict.keys (cols.map fun c => (c.1, fresh)) = cols.keys :=
  Dict.keys_map (fun _ _ => fresh) cols

theorem aggregate_ok (d1 d2 : Dict C Summary) (h : ∀ name ∈ d1.keys, ∃ o, d2.get? name = some o) :
    ∃ r, aggregate d2 d1 = .ok r ∧ r.keys = d1.keys ∧
      ∀ name, r.get? name = (d1.get? name).bind fun s => (d2.get? name).map (merge s) := by
  induction d1 with
  | nil => exact ⟨[], rfl, rfl, fun _ => rfl⟩
  | cons p d1 ih =>
    obtain ⟨n, s⟩ := p
    obtain ⟨o, ho⟩ := h n (by simp)
    obtain ⟨r, hr, hk, hg⟩ := ih fun name hn => h name (by simp [hn])
    refine ⟨(n, merge s o) :: r, by simp only [aggregate, ho, hr], by simp [hk], fun name => ?_⟩
    by_cases hname : n = name
    · subst hname; simp [Dict.get?_cons, ho]
    · simp only [Dict.get?_cons, hname, if_false, hg]

theorem dict_ext {K W : Type} [DecidableEq K] (a b : Dict K W) (ha : Dict.WF a)
    (hk : a.keys = b.keys) (hg : ∀ k, a.get? k = b.get? k) : a = b := by
  induction a generalizing b with
  | nil =>
    cases b with
    | nil => rfl
    | cons p b => simp at hk
  | cons p a ih =>
    obtain ⟨k, v⟩ := p
    cases b with
    | nil => simp at hk
    | cons q b =>
      obtain ⟨k', v'⟩ := q
      simp only [Dict.keys_cons, List.cons.injEq] at hk
      obtain ⟨rfl, hk⟩ := hk
      have h1 := hg k
      simp only [Dict.get?_cons, if_true, Option.some.injEq] at h1
      subst h1
      have hna : k ∉ Dict.keys a := (List.nodup_cons.1 ha).1
      congr 1
      refine ih b (List.nodup_cons.1 ha).2 hk fun j => ?_
      by_cases hj : k = j
      · subst hj
        rw [(Dict.get?_eq_none_iff _ _).2 hna, (Dict.get?_eq_none_iff _ _).2 (hk ▸ hna)]
      · have := hg j
        simpa only [Dict.get?_cons, hj, if_false] using this

end

end Statics
end Verif
