import Verif.Lemmas.Statics
import Mathlib.Tactic.NormNum

/-!
# C39 Summary statistics are independent of how data are partitioned
-/

set_option autoImplicit false

namespace Verif
open Statics

section
variable {V : Type} [DecidableEq V] (float : V → Except PyErr Rat) (abnormal : List V)

/-- Values can be summarised exactly when every one of them is a number, not a number at all, or
declared abnormal; then the summary holds count and sum of the numbers among them, the mean is the
arithmetic mean (an error if there is no number), the variance is the population variance except
that anything below one millionth is reported as zero, and the standard deviation is its root. -/
theorem C39_definitions (vs : List V) :
    ((∃ s, addAll float abnormal fresh vs = .ok s) ↔ Spec.Convertible float abnormal vs) ∧
    ∀ s, addAll float abnormal fresh vs = .ok s →
      let xs := Spec.numbers float abnormal vs
      s.count = xs.length ∧ s.sum = xs.sum ∧
      (xs = [] → mean s = .error .zeroDivision ∧ variance s = .error .zeroDivision) ∧
      (xs ≠ [] → mean s = .ok (Spec.mean xs) ∧
        variance s = .ok (if Spec.variance xs < 1 / 1000000 then 0 else Spec.variance xs) ∧
        stdVariance s = .ok
          (if Spec.variance xs < 1 / 1000000 then 0 else √(Spec.variance xs : ℝ))) := by
  refine ⟨⟨fun ⟨s, h⟩ => addAll_convertible float abnormal vs _ s h,
    fun h => ⟨_, addAll_ok float abnormal vs fresh h⟩⟩, fun s h => ?_⟩
  have hc := addAll_convertible float abnormal vs _ s h
  rw [addAll_ok float abnormal vs fresh hc, Except.ok.injEq] at h
  intro xs
  have e1 : s.count = xs.length := by rw [← h, foldl_push_count]; simp [fresh, xs]
  have e2 : s.sum = xs.sum := by rw [← h, foldl_push_sum]; simp [fresh, xs]
  have e3 : s.sumSquare = (xs.map (· ^ 2)).sum := by
    rw [← h, foldl_push_sumSquare]; simp [fresh, xs]
  refine ⟨e1, e2, fun hx => ?_, fun hx => ?_⟩
  · have h0 : s.count = 0 := by rw [e1, hx]; rfl
    have hm : mean s = .error .zeroDivision := by unfold mean; rw [if_pos h0]
    exact ⟨hm, by unfold variance; rw [hm]⟩
  · have h0 : s.count ≠ 0 := by
      rw [e1]; exact Nat.pos_iff_ne_zero.1 (List.length_pos_iff.2 hx)
    have hm : mean s = .ok (Spec.mean xs) := by
      unfold mean Spec.mean; rw [if_neg h0, e1, e2]
    have hv : variance s
        = .ok (if Spec.variance xs < 1 / 1000000 then 0 else Spec.variance xs) := by
      unfold variance
      rw [hm]
      simp only [e1, e2, e3, variance_formula xs hx, floatZero, abs_of_nonneg (variance_nonneg xs)]
      split <;> rfl
    refine ⟨hm, hv, ?_⟩
    unfold stdVariance
    rw [hv]
    by_cases hlt : Spec.variance xs < 1 / 1000000
    · simp only [hlt, if_true, abs_zero]
      rw [if_pos (by unfold floatZero; norm_num)]
    · have hnn := variance_nonneg xs
      simp only [hlt, if_false, floatZero, abs_of_nonneg hnn, not_lt.2 hnn]

/-- The full claim for the extremes: the reported maximum and minimum are the greatest and the
least of the numbers.  It holds when all numbers lie between `-2^63` and `2^63 - 1`. -/
theorem C39_extremes_partial (vs : List V) (s : Summary)
    (h : addAll float abnormal fresh vs = .ok s)
    (hx : Spec.numbers float abnormal vs ≠ [])
    (hr : ∀ x ∈ Spec.numbers float abnormal vs,
      -9223372036854775808 ≤ x ∧ x ≤ 9223372036854775807) :
    Spec.IsGreatest (Spec.numbers float abnormal vs) s.maxValue ∧
      Spec.IsLeast (Spec.numbers float abnormal vs) s.minValue := by
  have hc := addAll_convertible float abnormal vs _ s h
  rw [addAll_ok float abnormal vs fresh hc, Except.ok.injEq] at h
  generalize Spec.numbers float abnormal vs = xs at *
  obtain ⟨x, hxm⟩ := List.exists_mem_of_ne_nil xs hx
  subst h
  rw [foldl_push_max, foldl_push_min]
  obtain ⟨m1, m2, m3⟩ := foldl_max_spec xs fresh.maxValue
  obtain ⟨n1, n2, n3⟩ := foldl_min_spec xs fresh.minValue
  refine ⟨⟨?_, m2⟩, ⟨?_, n2⟩⟩
  · rcases m3 with e | e
    · have : x = xs.foldl max fresh.maxValue :=
        le_antisymm (m2 x hxm) (by rw [e]; exact (hr x hxm).1)
      exact this ▸ hxm
    · exact e
  · rcases n3 with e | e
    · have : x = xs.foldl min fresh.minValue :=
        le_antisymm (by rw [e]; exact (hr x hxm).2) (n2 x hxm)
      exact this ▸ hxm
    · exact e

/-- Merging the summaries of two parts gives the summary of the whole. -/
theorem C39_merge (A B : List V) (a b : Summary)
    (ha : addAll float abnormal fresh A = .ok a) (hb : addAll float abnormal fresh B = .ok b) :
    addAll float abnormal fresh (A ++ B) = .ok (merge a b) := by
  have hA := addAll_convertible float abnormal A _ a ha
  have hB := addAll_convertible float abnormal B _ b hb
  rw [addAll_append, ha]
  simp only
  rw [addAll_ok float abnormal B a hB]
  rw [addAll_ok float abnormal A fresh hA, Except.ok.injEq] at ha
  rw [addAll_ok float abnormal B fresh hB, Except.ok.injEq] at hb
  rw [← ha, ← hb, foldl_push_merge]

/-- Any number of parts: the summaries of the parts, merged one after the other, are the summary of
the whole; and the whole can be summarised only if every part can. -/
theorem C39_parts (parts : List (List V)) :
    (∀ ss : List Summary, List.Forall₂ (fun p s => addAll float abnormal fresh p = .ok s) parts ss →
      addAll float abnormal fresh parts.flatten = .ok (ss.foldl merge fresh)) ∧
    ∀ s, addAll float abnormal fresh parts.flatten = .ok s →
      ∀ p ∈ parts, ∃ t, addAll float abnormal fresh p = .ok t := by
  constructor
  · suffices H : ∀ (A : List V) (a : Summary) (ss : List Summary),
        addAll float abnormal fresh A = .ok a →
        List.Forall₂ (fun p s => addAll float abnormal fresh p = .ok s) parts ss →
        addAll float abnormal fresh (A ++ parts.flatten) = .ok (ss.foldl merge a) from
      fun ss h => H [] fresh ss rfl h
    induction parts with
    | nil =>
      intro A a ss ha h
      cases h
      simpa using ha
    | cons p parts ih =>
      intro A a ss ha h
      cases h with
      | cons h1 h2 =>
        have := ih (A ++ p) _ _ (C39_merge float abnormal A p a _ ha h1) h2
        simpa [List.append_assoc] using this
  · intro s h p hp
    have hc := addAll_convertible float abnormal _ _ s h
    exact ⟨_, addAll_ok float abnormal p fresh
      fun v hv => hc v (List.mem_flatten.2 ⟨p, hp, hv⟩)⟩

variable {C : Type} [DecidableEq C]

/-- The summaries of selected columns of a table: they can be computed exactly when every row has
the columns and every column can be summarised, and each is the summary of its column. -/
theorem C39_columns (cols : Dict C Nat) (hc : Dict.WF cols) (rows : List (List V)) :
    ((∃ d, staticInPartition float abnormal cols rows = .ok d) ↔
      ∀ name i, cols.get? name = some i → (∀ row ∈ rows, i < row.length) ∧
        Spec.Convertible float abnormal (Spec.column rows i)) ∧
    ∀ d, staticInPartition float abnormal cols rows = .ok d →
      d.keys = cols.keys ∧
      ∀ name i, cols.get? name = some i →
        ∃ s, d.get? name = some s ∧ addAll float abnormal fresh (Spec.column rows i) = .ok s := by
  have main : ∀ d, staticInPartition float abnormal cols rows = .ok d →
      d.keys = cols.keys ∧
      ∀ name i, cols.get? name = some i → (∀ row ∈ rows, i < row.length) ∧
        ∃ s, d.get? name = some s ∧
          addAll float abnormal fresh (Spec.column rows i) = .ok s := by
    intro d h
    obtain ⟨hk, hg⟩ := addRows_inv float abnormal cols hc rows _ d h
    refine ⟨by rw [hk, freshDict_keys], fun name i hi => ?_⟩
    obtain ⟨hl, hs⟩ := (hg name).2 i hi
    obtain ⟨s, e1, e2⟩ := hs fresh (by rw [freshDict_get, hi]; rfl)
    exact ⟨hl, s, e2, e1⟩
  refine ⟨⟨fun ⟨d, h⟩ name i hi => ?_, fun h => ?_⟩, fun d h => ⟨(main d h).1, fun name i hi =>
    ((main d h).2 name i hi).2⟩⟩
  · obtain ⟨hl, s, _, hs⟩ := (main d h).2 name i hi
    exact ⟨hl, addAll_convertible float abnormal _ _ s hs⟩
  · apply addRows_total float abnormal cols hc rows
    intro name i hi
    obtain ⟨hl, hcv⟩ := h name i hi
    exact ⟨hl, fresh, _, by rw [freshDict_get, hi]; rfl, addAll_ok float abnormal _ _ hcv⟩

/-- Aggregating the summaries of two parts of a table gives the summaries of the whole table. -/
theorem C39_table_parts (cols : Dict C Nat) (hc : Dict.WF cols) (A B : List (List V))
    (a b : Dict C Summary) (ha : staticInPartition float abnormal cols A = .ok a)
    (hb : staticInPartition float abnormal cols B = .ok b) :
    ∃ r, aggregate b a = .ok r ∧ staticInPartition float abnormal cols (A ++ B) = .ok r := by
  obtain ⟨ka, ga⟩ := (C39_columns float abnormal cols hc A).2 a ha
  obtain ⟨kb, gb⟩ := (C39_columns float abnormal cols hc B).2 b hb
  have ta := (C39_columns float abnormal cols hc A).1.1 ⟨a, ha⟩
  have tb := (C39_columns float abnormal cols hc B).1.1 ⟨b, hb⟩
  have colApp : ∀ i, Spec.column (A ++ B) i = Spec.column A i ++ Spec.column B i := by
    intro i; simp [Spec.column, List.filterMap_append]
  obtain ⟨r, hr, hkr, hgr⟩ := aggregate_ok a b (by
    intro name hn
    rw [ka, ← kb] at hn
    exact Dict.exists_get?_of_mem hn)
  obtain ⟨w, hw⟩ := (C39_columns float abnormal cols hc (A ++ B)).1.2 (by
    intro name i hi
    refine ⟨fun row hrow => ?_, ?_⟩
    · rcases List.mem_append.1 hrow with h | h
      · exact (ta name i hi).1 row h
      · exact (tb name i hi).1 row h
    · rw [colApp]
      intro v hv
      rcases List.mem_append.1 hv with h | h
      · exact (ta name i hi).2 v h
      · exact (tb name i hi).2 v h)
  obtain ⟨kw, gw⟩ := (C39_columns float abnormal cols hc (A ++ B)).2 w hw
  refine ⟨r, hr, ?_⟩
  rw [hw]
  congr 1
  refine dict_ext w r (by unfold Dict.WF; rw [kw]; exact hc) (by rw [kw, hkr, ka]) fun name => ?_
  cases hi : cols.get? name with
  | none =>
    have hn := (Dict.get?_eq_none_iff _ _).1 hi
    rw [(Dict.get?_eq_none_iff w name).2 (kw ▸ hn),
      (Dict.get?_eq_none_iff r name).2 (by rw [hkr, ka]; exact hn)]
  | some i =>
    obtain ⟨s, hs, es⟩ := ga name i hi
    obtain ⟨t, ht, et⟩ := gb name i hi
    obtain ⟨u, hu, eu⟩ := gw name i hi
    have := C39_merge float abnormal _ _ s t es et
    rw [colApp, this] at eu
    cases eu
    rw [hgr, hs, ht, hu]
    rfl

end

/-! ## Where the definitions are not met -/

/-- A conversion for plain numbers. -/
def floatRat : Rat → Except PyErr Rat := .ok

/-- The minimum of the single value `10^19` is reported as `2^63 - 1`. -/
theorem C39_extremes_refuted : ∃ (vs : List Rat) (s : Summary),
    addAll floatRat [] fresh vs = .ok s ∧ vs ≠ [] ∧ ¬ Spec.IsLeast vs s.minValue := by
  refine ⟨[10000000000000000000], ?_⟩
  refine ⟨⟨10000000000000000000, 100000000000000000000000000000000000000, 10000000000000000000,
    9223372036854775807, 1⟩, by decide +kernel, by simp, ?_⟩
  intro h
  have := h.1
  revert this
  decide +kernel

/-- The variance of `0` and `1/1000` is reported as zero. -/
theorem C39_variance_refuted : ∃ (vs : List Rat) (s : Summary),
    addAll floatRat [] fresh vs = .ok s ∧ variance s = .ok 0 ∧ Spec.variance vs ≠ 0 := by
  refine ⟨[0, 1 / 1000], ⟨1 / 1000, 1 / 1000000, 1 / 1000, 0, 2⟩, ?_⟩
  decide +kernel

/-! ## Example: numbers, a missing value and a value that is no number -/

namespace DemoStatics

inductive Cell
  | num (q : Rat)
  | text
  | missing
deriving DecidableEq

def float : Cell → Except PyErr Rat
  | .num q => .ok q
  | .text => .error .valueError
  | .missing => .error .typeError

def values : List Cell := [.num 3, .missing, .num (-1), .num 7, .num 99]

/-- 99 stands for an abnormal value. -/
example : Spec.numbers float [.num 99] values = [3, -1, 7] ∧
    Spec.Convertible float [.num 99] values ∧
    addAll float [.num 99] fresh values = .ok ⟨9, 59, 7, -1, 3⟩ ∧
    Spec.mean [3, -1, 7] = 3 ∧ Spec.variance [3, -1, 7] = 32 / 3 ∧
    variance ⟨9, 59, 7, -1, 3⟩ = .ok (32 / 3) := by
  refine ⟨by decide +kernel, ?_, by decide +kernel, by decide +kernel, by decide +kernel,
    by decide +kernel⟩
  intro v hmem _ e he
  cases v with
  | num q => simp [float] at he
  | text => exact absurd hmem (by decide +kernel)
  | missing => simp only [float, Except.error.injEq] at he; exact he.symm

/-- Text is an error. -/
example : addAll float [] fresh [.num 1, .text] = .error .valueError := by decide +kernel

/-- Two columns, two parts. -/
example : ∃ a b r,
    staticInPartition float [] [("u", 0), ("v", 1)] [[.num 1, .num 2], [.num 5, .missing]] = .ok a ∧
    staticInPartition float [] [("u", 0), ("v", 1)] [[.num 4, .num 6]] = .ok b ∧
    aggregate b a = .ok r ∧
    r = [("u", ⟨10, 42, 5, 1, 3⟩), ("v", ⟨8, 40, 6, 2, 2⟩)] := by
  refine ⟨[("u", ⟨6, 26, 5, 1, 2⟩), ("v", ⟨2, 4, 2, 2, 1⟩)],
    [("u", ⟨4, 16, 4, 4, 1⟩), ("v", ⟨6, 36, 6, 6, 1⟩)],
    [("u", ⟨10, 42, 5, 1, 3⟩), ("v", ⟨8, 40, 6, 2, 2⟩)], ?_⟩
  decide +kernel

end DemoStatics

end Verif
