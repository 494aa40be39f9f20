import Verif.Model.Quantile
import Mathlib.Tactic.Linarith
import Mathlib.Tactic.Ring
import Mathlib.Tactic.Positivity
import Mathlib.Algebra.BigOperators.Group.List.Basic
import Mathlib.Algebra.Order.BigOperators.Group.List

set_option autoImplicit false

namespace Verif
namespace Quantile

/-- Sum of the stored weights. -/
def gsum (l : List Stat) : Nat := (l.map Stat.g).sum

@[simp] theorem gsum_nil : gsum [] = 0 := rfl
@[simp] theorem gsum_cons (s : Stat) (l : List Stat) : gsum (s :: l) = s.g + gsum l := by
  simp [gsum]
@[simp] theorem gsum_append (a b : List Stat) : gsum (a ++ b) = gsum a + gsum b := by
  simp [gsum]
theorem gsum_perm {a b : List Stat} (h : a.Perm b) : gsum a = gsum b :=
  (h.map Stat.g).sum_eq

def VSorted (l : List Stat) : Prop := l.Pairwise (fun a b => a.value ≤ b.value)

theorem mem_takeWhile {α : Type*} {p : α → Bool} {l : List α} {a : α} (h : a ∈ l.takeWhile p) :
    a ∈ l ∧ p a = true :=
  ⟨List.takeWhile_subset p h, by
    have := List.all_takeWhile (l := l) (p := p); rw [List.all_eq_true] at this; exact this a h⟩

theorem dropWhile_gt {l : List Stat} (h : VSorted l) (x : Rat) :
    ∀ r ∈ l.dropWhile (fun s => s.value ≤ x), x < r.value := by
  induction l with
  | nil => simp
  | cons a l ih =>
    intro r hr
    rw [List.dropWhile_cons] at hr
    by_cases ha : a.value ≤ x
    · simp only [ha, decide_true, if_true] at hr
      exact ih (List.Pairwise.of_cons h) r hr
    · simp only [ha, decide_false, Bool.false_eq_true, if_false] at hr
      rcases List.mem_cons.mp hr with rfl | hr
      · exact not_le.mp ha
      · exact lt_of_lt_of_le (not_le.mp ha) (List.rel_of_pairwise_cons h hr)

theorem dropWhile_mem {l : List Stat} (p : Stat → Bool) {r : Stat} (h : r ∈ l.dropWhile p) : r ∈ l :=
  (List.dropWhile_sublist p).subset h

theorem headLoop_count (err : Rat) (xs : List Rat) (acc rest : List Stat) (cnt : Nat) :
    (headLoop err xs acc rest cnt).2 = cnt + xs.length := by
  induction xs generalizing acc rest cnt with
  | nil => simp [headLoop]
  | cons x xs ih => rw [headLoop]; simp only [ih, List.length_cons]; omega

theorem headLoop_mem (err : Rat) (xs : List Rat) (acc rest : List Stat) (cnt : Nat) :
    ∀ s ∈ (headLoop err xs acc rest cnt).1, s ∈ acc ∨ s ∈ rest ∨ s.value ∈ xs := by
  induction xs generalizing acc rest cnt with
  | nil => intro s hs; left; simpa [headLoop] using hs
  | cons x xs ih =>
    intro s hs
    rw [headLoop] at hs
    rcases ih _ _ _ s hs with h | h | h
    · rw [List.mem_append, List.mem_append, List.mem_singleton] at h
      rcases h with (h | h) | h
      · exact Or.inl h
      · exact Or.inr (Or.inl (mem_takeWhile h).1)
      · right; right; subst h; simp
    · exact Or.inr (Or.inl (dropWhile_mem _ h))
    · right; right; simp [h]

theorem headLoop_pos (err : Rat) (xs : List Rat) (acc rest : List Stat) (cnt : Nat)
    (ha : ∀ s ∈ acc, 1 ≤ s.g) (hr : ∀ s ∈ rest, 1 ≤ s.g) :
    ∀ s ∈ (headLoop err xs acc rest cnt).1, 1 ≤ s.g := by
  induction xs generalizing acc rest cnt with
  | nil => intro s hs; exact ha s (by simpa [headLoop] using hs)
  | cons x xs ih =>
    rw [headLoop]
    apply ih
    · intro s hs
      rw [List.mem_append, List.mem_append, List.mem_singleton] at hs
      rcases hs with (h | h) | h
      · exact ha s h
      · exact hr s (mem_takeWhile h).1
      · subst h; simp
    · intro s hs; exact hr s (dropWhile_mem _ hs)

theorem headLoop_sorted (err : Rat) (xs : List Rat) (acc rest : List Stat) (cnt : Nat)
    (hxs : xs.Pairwise (· ≤ ·)) (hacc : VSorted acc) (hrest : VSorted rest)
    (h1 : ∀ a ∈ acc, ∀ x ∈ xs, a.value ≤ x) (h2 : ∀ a ∈ acc, ∀ r ∈ rest, a.value ≤ r.value) :
    VSorted (headLoop err xs acc rest cnt).1 := by
  induction xs generalizing acc rest cnt with
  | nil => simpa [headLoop] using hacc
  | cons x xs ih =>
    rw [headLoop]
    have hgt := dropWhile_gt hrest x
    have hxx : ∀ y ∈ xs, x ≤ y := fun y hy => List.rel_of_pairwise_cons hxs hy
    apply ih
    · exact hxs.of_cons
    · unfold VSorted
      rw [List.pairwise_append, List.pairwise_append]
      refine ⟨⟨hacc, List.Pairwise.sublist (List.takeWhile_sublist _) hrest, ?_⟩,
        List.pairwise_singleton _ _, ?_⟩
      · intro a ha b hb; exact h2 a ha b (mem_takeWhile hb).1
      · intro a ha b hb
        rw [List.mem_singleton] at hb
        subst hb
        rcases List.mem_append.mp ha with h | h
        · exact h1 a h x (by simp)
        · simpa using (mem_takeWhile h).2
    · exact List.Pairwise.sublist (List.dropWhile_sublist _) hrest
    · intro a ha y hy
      rw [List.mem_append, List.mem_append, List.mem_singleton] at ha
      rcases ha with (h | h) | h
      · exact h1 a h y (by simp [hy])
      · have := (mem_takeWhile h).2
        simp only [decide_eq_true_eq] at this
        exact le_trans this (hxx y hy)
      · subst h; exact hxx y hy
    · intro a ha r hr
      have hxr := hgt r hr
      rw [List.mem_append, List.mem_append, List.mem_singleton] at ha
      rcases ha with (h | h) | h
      · exact h2 a h r (dropWhile_mem _ hr)
      · have := (mem_takeWhile h).2
        simp only [decide_eq_true_eq] at this
        exact le_trans this hxr.le
      · subst h; exact hxr.le

theorem headLoop_gsum_le (err : Rat) (xs : List Rat) (acc rest : List Stat) (cnt : Nat) :
    gsum (headLoop err xs acc rest cnt).1 ≤ gsum acc + gsum rest + xs.length := by
  induction xs generalizing acc rest cnt with
  | nil => simp [headLoop]
  | cons x xs ih =>
    rw [headLoop]
    refine le_trans (ih _ _ _) ?_
    have : gsum rest = gsum (rest.takeWhile fun s => s.value ≤ x) +
        gsum (rest.dropWhile fun s => s.value ≤ x) := by
      rw [← gsum_append, List.takeWhile_append_dropWhile]
    simp only [gsum_append, gsum_cons, gsum_nil, List.length_cons]
    omega

theorem headLoop_gsum_eq (err : Rat) (xs : List Rat) (acc rest : List Stat) (cnt : Nat)
    (hrest : VSorted rest) (h : ∀ r ∈ rest, ∃ x ∈ xs, r.value ≤ x) :
    gsum (headLoop err xs acc rest cnt).1 = gsum acc + gsum rest + xs.length := by
  induction xs generalizing acc rest cnt with
  | nil =>
    have : rest = [] := by
      rcases rest with _ | ⟨r, rest⟩
      · rfl
      · obtain ⟨x, hx, _⟩ := h r (by simp); simp at hx
    subst this
    simp [headLoop]
  | cons x xs ih =>
    rw [headLoop]
    rw [ih]
    · have : gsum rest = gsum (rest.takeWhile fun s => s.value ≤ x) +
          gsum (rest.dropWhile fun s => s.value ≤ x) := by
        rw [← gsum_append, List.takeWhile_append_dropWhile]
      simp only [gsum_append, gsum_cons, gsum_nil, List.length_cons]
      omega
    · exact List.Pairwise.sublist (List.dropWhile_sublist _) hrest
    · intro r hr
      have hgt := dropWhile_gt hrest x r hr
      obtain ⟨y, hy, hry⟩ := h r (dropWhile_mem _ hr)
      rcases List.mem_cons.mp hy with rfl | hy
      · exact absurd hry (not_le.mpr hgt)
      · exact ⟨y, hy, hry⟩

/-! ### Compression as a right fold -/

/-- The compression of everything after the first sample, right to left. -/
def ctail (thr : Rat) : List Stat → List Stat
  | [] => []
  | t :: ts =>
    match ctail thr ts with
    | [] => [t]
    | h :: r =>
      if ((t.g : Int) + h.g + h.delta : Int) < thr then { h with g := h.g + t.g } :: r
      else t :: h :: r

theorem ctail_ne_nil (thr : Rat) (t : Stat) (ts : List Stat) : ctail thr (t :: ts) ≠ [] := by
  rw [ctail]
  split
  · simp
  · split <;> simp

theorem ctail_append_loop (thr : Rat) (down : List Stat) (h : Stat) (res suffix : List Stat)
    (hs : ctail thr suffix = h :: res) :
    ctail thr (down.reverse ++ suffix)
      = (compressLoop thr h down res).1 :: (compressLoop thr h down res).2 := by
  induction down generalizing h res suffix with
  | nil => simpa [compressLoop] using hs
  | cons t ts ih =>
    rw [List.reverse_cons, List.append_assoc, List.singleton_append, compressLoop]
    split
    · rename_i hc
      apply ih
      rw [ctail, hs]
      simp only [hc, if_true]
    · rename_i hc
      apply ih
      rw [ctail, hs]
      simp only [hc, if_false]

theorem compressImmut_cons (thr : Rat) (s0 t : Stat) (ts : List Stat) :
    compressImmut thr (s0 :: t :: ts) =
      match ctail thr (t :: ts) with
      | [] => []
      | h :: r => if s0.value ≤ h.value then s0 :: h :: r else h :: r := by
  unfold compressImmut
  simp only
  have hne : (t :: ts).reverse ≠ [] := by simp
  obtain ⟨last, down, hld⟩ := List.exists_cons_of_ne_nil hne
  rw [hld]
  have htt : t :: ts = down.reverse ++ [last] := by
    have := congrArg List.reverse hld
    simpa using this
  rw [htt, ctail_append_loop thr down last [] [last] (by simp [ctail])]

theorem ctail_spec (thr : Rat) (l : List Stat) (hs : VSorted l) (hp : ∀ s ∈ l, 1 ≤ s.g) :
    gsum (ctail thr l) = gsum l ∧ VSorted (ctail thr l) ∧
    (∀ s ∈ ctail thr l, ∃ s' ∈ l, s'.value = s.value) ∧ (∀ s ∈ ctail thr l, 1 ≤ s.g) ∧
    ((ctail thr l).getLast?.map Stat.value = l.getLast?.map Stat.value) := by
  induction l with
  | nil => simp [ctail, VSorted]
  | cons t ts ih =>
    obtain ⟨i1, i2, i3, i4, i5⟩ := ih hs.of_cons (fun s h => hp s (by simp [h]))
    have hte : ∀ s ∈ ctail thr ts, t.value ≤ s.value := by
      intro s h
      obtain ⟨s', hs', hv⟩ := i3 s h
      rw [← hv]; exact List.rel_of_pairwise_cons hs hs'
    rw [ctail]
    cases hc : ctail thr ts with
    | nil =>
      have hts : ts = [] := by
        cases ts with
        | nil => rfl
        | cons a b => exact absurd hc (ctail_ne_nil thr a b)
      subst hts
      refine ⟨rfl, ?_, ?_, ?_, rfl⟩
      · simp [VSorted]
      · intro s h; exact ⟨s, h, rfl⟩
      · exact hp
    | cons h r =>
      rw [hc] at i1 i2 i3 i4 i5 hte
      have htsne : ts ≠ [] := by rintro rfl; simp [ctail] at hc
      have hlast : (t :: ts).getLast? = ts.getLast? := by
        obtain ⟨a, b, rfl⟩ := List.exists_cons_of_ne_nil htsne
        rw [List.getLast?_cons_cons]
      rw [hlast, ← i5]
      simp only
      by_cases hm : ((t.g : Int) + h.g + h.delta : Int) < thr
      · rw [if_pos hm]
        refine ⟨?_, ?_, ?_, ?_, ?_⟩
        · simp only [gsum_cons] at i1 ⊢; omega
        · unfold VSorted at i2 ⊢
          rw [List.pairwise_cons] at i2 ⊢
          exact i2
        · intro s hs'
          rcases List.mem_cons.mp hs' with rfl | hs'
          · obtain ⟨s', h1, h2⟩ := i3 h (by simp)
            exact ⟨s', by simp [h1], h2⟩
          · obtain ⟨s', h1, h2⟩ := i3 s (by simp [hs'])
            exact ⟨s', by simp [h1], h2⟩
        · intro s hs'
          rcases List.mem_cons.mp hs' with rfl | hs'
          · have := i4 h (by simp); simp only; omega
          · exact i4 s (by simp [hs'])
        · cases r with
          | nil => simp
          | cons a b => simp [List.getLast?_cons_cons]
      · rw [if_neg hm]
        refine ⟨?_, ?_, ?_, ?_, ?_⟩
        · simp only [gsum_cons] at i1 ⊢; omega
        · unfold VSorted at i2 ⊢
          rw [List.pairwise_cons]
          exact ⟨hte, i2⟩
        · intro s hs'
          rcases List.mem_cons.mp hs' with rfl | hs'
          · exact ⟨s, by simp, rfl⟩
          · obtain ⟨s', h1, h2⟩ := i3 s hs'
            exact ⟨s', by simp [h1], h2⟩
        · intro s hs'
          rcases List.mem_cons.mp hs' with rfl | hs'
          · exact hp s (by simp)
          · exact i4 s hs'
        · rw [List.getLast?_cons_cons]

theorem compressImmut_spec (thr : Rat) (l : List Stat) (hs : VSorted l) (hp : ∀ s ∈ l, 1 ≤ s.g) :
    gsum (compressImmut thr l) = gsum l ∧ VSorted (compressImmut thr l) ∧
    (∀ s ∈ compressImmut thr l, ∃ s' ∈ l, s'.value = s.value) ∧
    (∀ s ∈ compressImmut thr l, 1 ≤ s.g) := by
  cases l with
  | nil => simp [compressImmut, VSorted]
  | cons s0 tl =>
    cases tl with
    | nil => simp [compressImmut, VSorted]; exact hp s0 (by simp)
    | cons t ts =>
      rw [compressImmut_cons]
      obtain ⟨i1, i2, i3, i4, _⟩ := ctail_spec thr (t :: ts) hs.of_cons (fun s h => hp s (by simp [h]))
      have hle : ∀ s ∈ ctail thr (t :: ts), s0.value ≤ s.value := by
        intro s h
        obtain ⟨s', hs', hv⟩ := i3 s h
        rw [← hv]; exact List.rel_of_pairwise_cons hs hs'
      cases hc : ctail thr (t :: ts) with
      | nil => exact absurd hc (ctail_ne_nil thr t ts)
      | cons h r =>
        rw [hc] at i1 i2 i3 i4 hle
        simp only
        rw [if_pos (hle h (by simp))]
        refine ⟨?_, ?_, ?_, ?_⟩
        · simp only [gsum_cons] at i1 ⊢; omega
        · exact List.pairwise_cons.mpr ⟨hle, i2⟩
        · intro s hs'
          rcases List.mem_cons.mp hs' with rfl | hs'
          · exact ⟨s, by simp, rfl⟩
          · obtain ⟨s', h1, h2⟩ := i3 s hs'
            exact ⟨s', List.mem_cons_of_mem _ h1, h2⟩
        · intro s hs'
          rcases List.mem_cons.mp hs' with rfl | hs'
          · exact hp s (by simp)
          · exact i4 s hs'

theorem compressImmut_ne_nil (thr : Rat) (l : List Stat) (h : l ≠ []) : compressImmut thr l ≠ [] := by
  rcases l with _ | ⟨s0, _ | ⟨t, ts⟩⟩
  · exact h
  · simp [compressImmut]
  · rw [compressImmut_cons]
    obtain ⟨a, b, hc⟩ := List.exists_cons_of_ne_nil (ctail_ne_nil thr t ts)
    rw [hc]
    simp only
    split <;> simp

theorem mergeSampled_perm (as bs : List Stat) : (mergeSampled as bs).Perm (as ++ bs) := by
  fun_induction mergeSampled as bs with
  | case1 bs => simp
  | case2 as h => simp
  | case3 a as b bs h ih => simpa using ih
  | case4 a as b bs h ih =>
    refine (List.Perm.cons b ih).trans ?_
    exact List.perm_middle.symm

theorem mergeSampled_sorted (as bs : List Stat) (ha : VSorted as) (hb : VSorted bs) :
    VSorted (mergeSampled as bs) := by
  fun_induction mergeSampled as bs with
  | case1 bs => exact hb
  | case2 as h => exact ha
  | case3 a as b bs h ih =>
    refine List.pairwise_cons.mpr ⟨?_, ih ha.of_cons hb⟩
    intro s hs
    have := (mergeSampled_perm as (b :: bs)).mem_iff.mp hs
    rcases List.mem_append.mp this with h' | h'
    · exact List.rel_of_pairwise_cons ha h'
    · rcases List.mem_cons.mp h' with rfl | h'
      · exact h.le
      · exact le_trans h.le (List.rel_of_pairwise_cons hb h')
  | case4 a as b bs h ih =>
    refine List.pairwise_cons.mpr ⟨?_, ih ha hb.of_cons⟩
    intro s hs
    have := (mergeSampled_perm (a :: as) bs).mem_iff.mp hs
    rcases List.mem_append.mp this with h' | h'
    · rcases List.mem_cons.mp h' with rfl | h'
      · exact not_lt.mp h
      · exact le_trans (not_lt.mp h) (List.rel_of_pairwise_cons ha h')
    · exact List.rel_of_pairwise_cons hb h'

end Quantile
end Verif
