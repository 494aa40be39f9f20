import Verif.Spec.C33
import Verif.Lemmas.Tables
import Mathlib.Data.List.Dedup
import Mathlib.Data.List.NodupEquivFin

/-! # Lemmas on labels -/

set_option autoImplicit false

namespace Verif
namespace Labels

open Histogram (getAt)
open Spec

variable {K T : Type} [DecidableEq K] [LinearOrder T]

theorem addClass_nodup {cs : List (Label T)} (h : (cs.map Label.value).Nodup) (l : Label T) :
    ((addClass cs l).map Label.value).Nodup := by
  unfold addClass
  split
  · exact h
  · rename_i hn
    rw [List.map_append, List.nodup_append]
    refine ⟨h, by simp, ?_⟩
    intro a ha b hb
    simp only [List.map_cons, List.map_nil, List.mem_singleton] at hb
    subst hb
    rintro rfl
    obtain ⟨c, hc, hv⟩ := List.mem_map.mp ha
    exact hn (List.any_eq_true.mpr ⟨c, hc, by simpa using hv⟩)

theorem addClass_mem {cs : List (Label T)} {l c : Label T} (h : c ∈ addClass cs l) :
    c ∈ cs ∨ c = l := by
  unfold addClass at h
  split at h
  · exact .inl h
  · simpa using h

theorem addClass_value (cs : List (Label T)) (l : Label T) (v : Rat ⊕ₗ T) :
    v ∈ (addClass cs l).map Label.value ↔ v ∈ cs.map Label.value ∨ v = l.value := by
  unfold addClass
  split
  · rename_i h
    obtain ⟨c, hc, hv⟩ := List.any_eq_true.mp h
    have hv : c.value = l.value := by simpa using hv
    constructor
    · exact .inl
    · rintro (h | rfl)
      · exact h
      · rw [← hv]; exact List.mem_map_of_mem hc
  · simp

theorem classes_nodup (ls : List (Label T)) : ∀ {cs : List (Label T)}, (cs.map Label.value).Nodup →
    ((ls.foldl addClass cs).map Label.value).Nodup := by
  induction ls with
  | nil => exact fun h => h
  | cons l ls ih => exact fun h => ih (addClass_nodup h l)

theorem classes_mem (ls : List (Label T)) : ∀ {cs : List (Label T)} {c : Label T},
    c ∈ ls.foldl addClass cs → c ∈ cs ∨ c ∈ ls := by
  induction ls with
  | nil => exact fun h => .inl h
  | cons l ls ih =>
    intro cs c h
    rcases ih h with h | h
    · rcases addClass_mem h with h | rfl
      · exact .inl h
      · exact .inr (by simp)
    · exact .inr (by simp [h])

theorem classes_value (ls : List (Label T)) (v : Rat ⊕ₗ T) : ∀ (cs : List (Label T)),
    v ∈ (ls.foldl addClass cs).map Label.value ↔ v ∈ cs.map Label.value ∨ v ∈ ls.map Label.value := by
  induction ls with
  | nil => simp
  | cons l ls ih =>
    intro cs
    show v ∈ (ls.foldl addClass (addClass cs l)).map Label.value ↔ _
    rw [ih, addClass_value, List.map_cons, List.mem_cons, or_assoc]

theorem classes_self (cs : List (Label T)) : ∀ pre : List (Label T),
    ((pre ++ cs).map Label.value).Nodup → cs.foldl addClass pre = pre ++ cs := by
  induction cs with
  | nil => simp
  | cons c cs ih =>
    intro pre h
    have e : addClass pre c = pre ++ [c] := by
      unfold addClass
      rw [if_neg]
      intro hc
      obtain ⟨d, hd, hv⟩ := List.any_eq_true.mp hc
      rw [List.map_append, List.nodup_append] at h
      exact h.2.2 d.value (List.mem_map_of_mem hd) c.value (by simp) (by simpa using hv)
    show cs.foldl addClass (addClass pre c) = _
    rw [e, ih _ (by simpa using h)]
    simp

/-- The classes of a column, in order of appearance. -/
theorem classes_perm (ls : List (Label T)) :
    ((ls.foldl addClass []).map Label.value).Perm (distinct ls) := by
  unfold distinct
  rw [List.perm_ext_iff_of_nodup (classes_nodup ls (by simp)) (List.nodup_dedup _)]
  intro v
  rw [classes_value, List.mem_dedup]
  simp

theorem classes_length (ls : List (Label T)) :
    (ls.foldl addClass []).length = (distinct ls).length := by
  simpa using (classes_perm ls).length_eq

omit [DecidableEq K] in
theorem validateY_eq (y : DTable K (Label T)) :
    validateY y = if (distinct y.data.values).length > 1000 then .error .valueError
      else .ok ((distinct y.data.values).length, y.data.values.foldl addClass []) := by
  have e := classes_self (y.data.values.foldl addClass []) []
    (by simpa using classes_nodup y.data.values (cs := []) (by simp))
  have hl := classes_length y.data.values
  unfold validateY getAllClass maxClassNum
  generalize y.data.values.foldl addClass [] = cs at e hl
  simp only [hl, bind, Except.bind]
  by_cases h : (distinct y.data.values).length > 1000
  · rw [if_pos h, if_pos h]
  · rw [if_neg h, if_neg h]
    simp only [e, List.nil_append, hl, if_neg h]
    rfl

omit [LinearOrder T] in
theorem rangeFromZero_false : ∀ cs : List (Label T), rangeFromZero false cs = false
  | [] => rfl
  | .int z :: cs => by
    unfold rangeFromZero
    rw [rangeFromZero_false cs]
    simp
  | .flt _ :: _ => rfl
  | .str _ :: cs => rangeFromZero_false cs

omit [LinearOrder T] in
theorem rangeFromZero_true : ∀ cs : List (Label T), rangeFromZero true cs = true →
    ∀ c ∈ cs, c = .int 0
  | [] => by simp
  | .int z :: cs => by
    unfold rangeFromZero
    simp only [if_true]
    by_cases hz : 0 ≤ z ∧ z < 1
    · rw [if_pos hz]
      intro h c hc
      rcases List.mem_cons.mp hc with rfl | hc
      · congr 1; omega
      · exact rangeFromZero_true cs h c hc
    · rw [if_neg hz]; simp
  | .flt _ :: _ => by intro h; cases h
  | .str _ :: cs => by
    intro h
    rw [rangeFromZero, rangeFromZero_false] at h
    cases h

/-! ## Sorting -/

theorem sorted_rank {α : Type} [LinearOrder α] : ∀ {vs : List α}, vs.Pairwise (· < ·) →
    ∀ {i : Nat} {v : α}, vs[i]? = some v → (vs.filter fun w => w < v).length = i
  | [], _, i, v, h => by simp at h
  | x :: xs, hp, i, v, h => by
    rw [List.pairwise_cons] at hp
    cases i with
    | zero =>
      simp only [List.getElem?_cons_zero, Option.some.injEq] at h
      subst h
      rw [List.length_eq_zero_iff, List.filter_eq_nil_iff]
      intro w hw
      simp only [decide_eq_true_eq, not_lt]
      rcases List.mem_cons.mp hw with rfl | hw
      · exact le_refl _
      · exact (hp.1 w hw).le
    | succ i =>
      have h : xs[i]? = some v := by simpa using h
      rw [List.filter_cons, if_pos (by simpa using hp.1 v (List.mem_of_getElem? h)), List.length_cons,
        sorted_rank hp.2 h]

theorem sortClasses_ok {cs : List (Label T)} (h : (cs.map Label.value).Nodup) (hc : Comparable cs) :
    ∃ s, sortClasses cs = .ok s ∧ s.Perm cs ∧ (s.map Label.value).Pairwise (· < ·) := by
  refine ⟨_, ?_, List.perm_insertionSort (fun a b : Label T => a.value ≤ b.value) cs, ?_⟩
  · unfold sortClasses
    rw [if_pos]
    rw [Bool.or_eq_true, List.all_eq_true, List.all_eq_true]
    rcases hc with hc | hc
    · exact .inl hc
    · exact .inr fun c hcs => by rw [hc c hcs]; rfl
  · have hp := List.perm_insertionSort (fun a b : Label T => a.value ≤ b.value) cs
    have h1 : ((cs.insertionSort fun a b => a.value ≤ b.value).map Label.value).Nodup :=
      (hp.map _).nodup_iff.mpr h
    have : Std.Total (fun a b : Label T => a.value ≤ b.value) := ⟨fun a b => le_total _ _⟩
    have : IsTrans (Label T) (fun a b : Label T => a.value ≤ b.value) := ⟨fun a b c => le_trans⟩
    have h2 := List.pairwise_insertionSort (fun a b : Label T => a.value ≤ b.value) cs
    rw [List.pairwise_map]
    rw [List.Nodup, List.pairwise_map] at h1
    exact (h2.and h1).imp fun h => lt_of_le_of_ne h.1 h.2

theorem sortClasses_mixed {cs : List (Label T)} (h : ¬ Comparable cs) :
    sortClasses cs = .error .typeError := by
  unfold sortClasses
  rw [if_neg]
  rw [Bool.or_eq_true, List.all_eq_true, List.all_eq_true]
  rintro (hc | hc)
  · exact h (.inl hc)
  · exact h (.inr fun l hl => by simpa using hc l hl)

omit [LinearOrder T] in
theorem isNum_value {a b : Label T} (h : a.value = b.value) : a.isNum = b.isNum := by
  cases a <;> cases b <;> first | rfl | (exfalso; simp [Label.value] at h)

theorem comparable_classes (ls : List (Label T)) :
    Comparable (ls.foldl addClass []) ↔ Comparable ls := by
  have h1 : ∀ c ∈ ls.foldl addClass [], c ∈ ls := fun c hc => by
    rcases classes_mem ls hc with h | h
    · cases h
    · exact h
  have h2 : ∀ l ∈ ls, ∃ c ∈ ls.foldl addClass [], c.isNum = l.isNum := fun l hl => by
    have := (classes_value ls l.value []).mpr (.inr (List.mem_map_of_mem hl))
    obtain ⟨c, hc, hv⟩ := List.mem_map.mp this
    exact ⟨c, hc, isNum_value hv⟩
  constructor
  · rintro (h | h)
    · refine .inl fun l hl => ?_
      obtain ⟨c, hc, e⟩ := h2 l hl
      rw [← e]; exact h c hc
    · refine .inr fun l hl => ?_
      obtain ⟨c, hc, e⟩ := h2 l hl
      rw [← e]; exact h c hc
  · rintro (h | h)
    · exact .inl fun c hc => h c (h1 c hc)
    · exact .inr fun c hc => h c (h1 c hc)

theorem classIndex_ok {cs : List (Label T)} (h : (cs.map Label.value).Pairwise (· < ·)) {l : Label T}
    (hl : l.value ∈ cs.map Label.value) :
    classIndex cs l = .ok (.int ((cs.map Label.value).filter fun v => v < l.value).length) := by
  unfold classIndex
  cases hf : cs.findIdx? fun c => decide (c.value = l.value) with
  | none =>
    obtain ⟨c, hc, hv⟩ := List.mem_map.mp hl
    have := List.findIdx?_eq_none_iff.mp hf c hc
    simp [hv] at this
  | some i =>
    obtain ⟨hi, hv, _⟩ := List.findIdx?_eq_some_iff_getElem.mp hf
    have hv : cs[i].value = l.value := by simpa using hv
    have : (cs.map Label.value)[i]? = some l.value := by
      rw [List.getElem?_map, List.getElem?_eq_getElem hi, Option.map_some, hv]
    rw [sorted_rank h this]

/-- What `check_label` computes. -/
theorem checkLabel_ok {y : DTable K (Label T)} (hy : y.WF) (hc : Comparable y.data.values)
    (hn : (distinct y.data.values).length ≤ 1000) :
    ∃ (cs : List (Label T)) (code : Label T → Label T), checkLabel y = .ok ⟨(distinct y.data.values).length, cs,
        if (distinct y.data.values).length > 2 then (distinct y.data.values).length else 1,
        ⟨y.data.map fun p => (p.1, code p.2)⟩⟩ ∧
      (∀ c ∈ cs, c ∈ y.data.values) ∧ (cs.map Label.value).Pairwise (· < ·) ∧
      (cs.map Label.value).Perm (distinct y.data.values) ∧
      ∀ l ∈ y.data.values, (code l).value = (Label.int (T := T) (rank y.data.values l)).value ∧
        (2 ≤ (distinct y.data.values).length → code l = .int (rank y.data.values l)) := by
  obtain ⟨s, h1, h2, h3⟩ := sortClasses_ok (classes_nodup y.data.values (cs := []) (by simp))
    ((comparable_classes _).mpr hc)
  have hperm : (s.map Label.value).Perm (distinct y.data.values) :=
    (h2.map _).trans (classes_perm _)
  have hmem : ∀ c ∈ s, c ∈ y.data.values := fun c hcs => by
    rcases classes_mem _ (h2.mem_iff.mp hcs) with h | h
    · cases h
    · exact h
  have hrank : ∀ l ∈ y.data.values, ((s.map Label.value).filter fun v => v < l.value).length =
      rank y.data.values l := fun l _ => (hperm.filter _).length_eq
  have hval : ∀ l ∈ y.data.values, l.value ∈ s.map Label.value := fun l hl => by
    rw [hperm.mem_iff]
    unfold distinct
    rw [List.mem_dedup]
    exact List.mem_map_of_mem hl
  cases hr : rangeFromZero true (y.data.values.foldl addClass []) with
  | true =>
    refine ⟨s, id, ?_, hmem, h3, hperm, ?_⟩
    · unfold checkLabel
      simp only [validateY_eq, if_neg (Nat.not_lt.mpr hn), bind, Except.bind, h1, hr]
      simp [pure, Except.pure]
    · have hz := rangeFromZero_true _ hr
      intro l hl
      have h0 : ∀ v ∈ s.map Label.value, v = (Label.int (T := T) 0).value := fun v hv => by
        obtain ⟨c, hcs, rfl⟩ := List.mem_map.mp hv
        rw [hz c (h2.mem_iff.mp hcs)]
      have hl0 := h0 _ (hval l hl)
      have hr0 : rank y.data.values l = 0 := by
        rw [← hrank l hl, List.length_eq_zero_iff, List.filter_eq_nil_iff]
        intro v hv
        rw [h0 v hv, hl0]
        simp
      refine ⟨by rw [hr0]; exact hl0, fun h => ?_⟩
      exfalso
      rw [← hperm.length_eq] at h
      match hs : s.map Label.value, h with
      | a :: b :: r, _ =>
        rw [hs] at h3 h0
        have := (List.pairwise_cons.mp h3).1 b (by simp)
        rw [h0 a (by simp), h0 b (by simp)] at this
        exact lt_irrefl _ this
  | false =>
    refine ⟨s, fun l => .int (rank y.data.values l), ?_, hmem, h3, hperm, fun l _ => ⟨rfl, fun _ => rfl⟩⟩
    unfold checkLabel
    simp only [validateY_eq, if_neg (Nat.not_lt.mpr hn), bind, Except.bind, h1, hr]
    rw [DTable.mapValuesM_ok hy (classIndex s) (fun l => .int (rank y.data.values l)) fun p hp => ?_]
    · rfl
    · have hl : p.2 ∈ y.data.values := List.mem_map_of_mem hp
      rw [classIndex_ok h3 (hval _ hl), hrank _ hl]

/-! ## Prediction -/

variable {P : Type} [LinearOrder P]

theorem argmaxLoop_spec (ps : List P) : ∀ (pre : List P) (b : Nat) (m : P), pre[b]? = some m →
    (∀ (j : Nat) x, pre[j]? = some x → x ≤ m) → (∀ (j : Nat) x, j < b → pre[j]? = some x → x < m) →
    (pre ++ ps)[(argmaxLoop pre.length b m ps).1]? = some (argmaxLoop pre.length b m ps).2 ∧
    (∀ (j : Nat) x, (pre ++ ps)[j]? = some x → x ≤ (argmaxLoop pre.length b m ps).2) ∧
    ∀ (j : Nat) x, j < (argmaxLoop pre.length b m ps).1 → (pre ++ ps)[j]? = some x →
      x < (argmaxLoop pre.length b m ps).2 := by
  induction ps with
  | nil => intro pre b m h1 h2 h3; simpa [argmaxLoop] using ⟨h1, h2, h3⟩
  | cons p ps ih =>
    intro pre b m h1 h2 h3
    have e : pre ++ p :: ps = (pre ++ [p]) ++ ps := by simp
    have hlen : (pre ++ [p]).length = pre.length + 1 := by simp
    have hsplit : ∀ (j : Nat) x, (pre ++ [p])[j]? = some x → pre[j]? = some x ∨ (j = pre.length ∧ x = p) := by
      intro j x hj
      rw [List.getElem?_append] at hj
      split at hj
      · exact .inl hj
      · rename_i hlt
        right
        have : j - pre.length = 0 := by
          by_contra hne
          rw [List.getElem?_eq_none (by simp; omega)] at hj
          cases hj
        rw [this] at hj
        simp only [List.getElem?_cons_zero, Option.some.injEq] at hj
        exact ⟨by omega, hj.symm⟩
    have hb : b < pre.length := (List.getElem?_eq_some_iff.mp h1).1
    rw [e]
    unfold argmaxLoop
    split
    · rename_i hlt
      have := ih (pre ++ [p]) pre.length p (by simp) (fun j x hj => ?_) (fun j x hj hx => ?_)
      · rwa [hlen] at this
      · rcases hsplit j x hj with h | ⟨_, rfl⟩
        · exact ((h2 j x h).trans_lt hlt).le
        · exact le_refl _
      · rcases hsplit j x hx with h | ⟨rfl, _⟩
        · exact (h2 j x h).trans_lt hlt
        · omega
    · rename_i hlt
      have := ih (pre ++ [p]) b m (by rw [List.getElem?_append_left hb]; exact h1) (fun j x hj => ?_)
        (fun j x hj hx => ?_)
      · rwa [hlen] at this
      · rcases hsplit j x hj with h | ⟨_, rfl⟩
        · exact h2 j x h
        · exact not_lt.mp hlt
      · rcases hsplit j x hx with h | ⟨rfl, _⟩
        · exact h3 j x hj h
        · omega

theorem argmax_spec {ps : List P} (h : ps ≠ []) : ∃ i m, argmax ps = .ok (i, m) ∧
    ps[i]? = some m ∧ (∀ x ∈ ps, x ≤ m) ∧ ∀ (j : Nat) x, j < i → ps[j]? = some x → x < m := by
  cases ps with
  | nil => exact absurd rfl h
  | cons p ps =>
    have := argmaxLoop_spec ps [p] 0 p rfl (fun j x hj => ?_) (fun j x hj _ => absurd hj (by omega))
    · refine ⟨_, _, rfl, this.1, fun x hx => ?_, this.2.2⟩
      obtain ⟨j, hj⟩ := List.mem_iff_getElem?.mp hx
      exact this.2.1 j x hj
    · cases j with
      | zero => simp only [List.getElem?_cons_zero, Option.some.injEq] at hj; exact hj.ge
      | succ j => simp at hj

end Labels
end Verif
