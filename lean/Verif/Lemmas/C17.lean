import Verif.Lemmas.C16
import Verif.Spec.C17
import Mathlib.Algebra.Order.Floor.Ring
import Mathlib.Algebra.Order.Floor.Semiring
import Mathlib.Tactic.NormNum

set_option autoImplicit false

namespace Verif
open Quantile Spec
namespace Quantile

/-! ### Counting -/

theorem numLT_mono (d : List Rat) {v w : Rat} (h : v ≤ w) : numLT d v ≤ numLT d w :=
  List.countP_mono_left fun x _ hx => by
    simp only [decide_eq_true_eq] at hx ⊢; exact lt_of_lt_of_le hx h

theorem numLE_mono (d : List Rat) {v w : Rat} (h : v ≤ w) : numLE d v ≤ numLE d w :=
  List.countP_mono_left fun x _ hx => by
    simp only [decide_eq_true_eq] at hx ⊢; exact le_trans hx h

@[simp] theorem numLT_append (a b : List Rat) (v : Rat) :
    numLT (a ++ b) v = numLT a v + numLT b v := List.countP_append
@[simp] theorem numLE_append (a b : List Rat) (v : Rat) :
    numLE (a ++ b) v = numLE a v + numLE b v := List.countP_append

theorem numLT_le (d : List Rat) (v : Rat) : numLT d v ≤ d.length := List.countP_le_length
theorem numLE_le (d : List Rat) (v : Rat) : numLE d v ≤ d.length := List.countP_le_length

theorem numLT_perm {a b : List Rat} (h : a.Perm b) (v : Rat) : numLT a v = numLT b v := h.countP_eq _
theorem numLE_perm {a b : List Rat} (h : a.Perm b) (v : Rat) : numLE a v = numLE b v := h.countP_eq _

theorem numLT_zero {d : List Rat} {v : Rat} (h : ∀ x ∈ d, v ≤ x) : numLT d v = 0 := by
  unfold numLT
  rw [List.countP_eq_zero]
  intro x hx
  simp only [decide_eq_true_eq, not_lt]
  exact h x hx

theorem numLE_all {d : List Rat} {v : Rat} (h : ∀ x ∈ d, x ≤ v) : numLE d v = d.length := by
  unfold numLE
  rw [List.countP_eq_length]
  intro x hx
  simpa using h x hx

/-- Weight and uncertainty of one sample of a summary of `n` values. -/
def Bnd (err : Rat) (n : Nat) (s : Stat) : Prop :=
  0 ≤ s.delta ∧ (s.delta : Rat) ≤ 2 * err * n ∧
    ((((s.g : Int) + s.delta : Int) : Rat) < 2 * err * n ∨ s.g = 1)

theorem Bnd.mono {err : Rat} (herr : 0 ≤ err) {n m : Nat} (h : n ≤ m) {s : Stat} (hb : Bnd err n s) :
    Bnd err m s := by
  have hnm : 2 * err * (n : Rat) ≤ 2 * err * m :=
    mul_le_mul_of_nonneg_left (by exact_mod_cast h) (by linarith)
  refine ⟨hb.1, le_trans hb.2.1 hnm, ?_⟩
  rcases hb.2.2 with h' | h'
  · exact Or.inl (lt_of_lt_of_le h' hnm)
  · exact Or.inr h'

/-- Rank information of the samples, `r` being the weight before the list: the rank interval
given by weights and uncertainty (plus `e`) meets the true rank interval of the value. -/
def Val (e : Rat) (d : List Rat) : Nat → List Stat → Prop
  | _, [] => True
  | r, s :: t => r + s.g ≤ numLE d s.value ∧
      (numLT d s.value : Rat) + 1 ≤ (r : Rat) + s.g + s.delta + e ∧ Val e d (r + s.g) t

theorem Val.mono {e e' : Rat} (h : e ≤ e') {d : List Rat} (r : Nat) (l : List Stat) (hv : Val e d r l) :
    Val e' d r l := by
  induction l generalizing r with
  | nil => trivial
  | cons s t ih => exact ⟨hv.1, by linarith [hv.2.1], ih _ hv.2.2⟩

theorem Val.perm {e : Rat} {d d' : List Rat} (h : d.Perm d') (r : Nat) (l : List Stat)
    (hv : Val e d r l) : Val e d' r l := by
  induction l generalizing r with
  | nil => trivial
  | cons s t ih =>
    refine ⟨?_, ?_, ih _ hv.2.2⟩
    · rw [← numLE_perm h]; exact hv.1
    · rw [← numLT_perm h]; exact hv.2.1

theorem Val.append {e : Rat} {d : List Rat} (r : Nat) (a b : List Stat) :
    Val e d r (a ++ b) ↔ Val e d r a ∧ Val e d (r + gsum a) b := by
  induction a generalizing r with
  | nil => simp [Val]
  | cons s a ih =>
    simp only [List.cons_append, Val, ih, gsum_cons, and_assoc, Nat.add_assoc]

/-- The summary's samples describe the data `d` (all values that left the buffer). -/
structure GK (err e : Rat) (q : QS) (d : List Rat) : Prop where
  cfg : q.cfg.error = err
  count : q.count = d.length
  gs : gsum q.sampled = d.length
  sorted : VSorted q.sampled
  mem : ∀ s ∈ q.sampled, s.value ∈ d
  pos : ∀ s ∈ q.sampled, 1 ≤ s.g
  bnd : ∀ s ∈ q.sampled, Bnd err q.count s
  val : Val e d 0 q.sampled
  first : ∀ s ∈ q.sampled.head?, s.g = 1 ∧ numLT d s.value = 0

/-! ### Flushing the buffer -/

theorem floor_ge {err : Rat} (herr : 0 ≤ err) {n c : Nat} (hnc : n ≤ c) {s : Stat} (hb : Bnd err n s) :
    (s.g : Int) + s.delta - 1 ≤ ⌊2 * err * (c : Rat)⌋ := by
  have hb' := Bnd.mono herr hnc hb
  rw [Int.le_floor]
  rcases hb'.2.2 with h | h
  · push_cast at h ⊢; linarith
  · have := hb'.2.1
    rw [h]; push_cast; linarith

theorem headLoop_bnd {err : Rat} (herr : 0 ≤ err) (N : Nat) (xs : List Rat) (acc rest : List Stat)
    (cnt : Nat) (hN : cnt + xs.length ≤ N) (ha : ∀ s ∈ acc, Bnd err N s) (hr : ∀ s ∈ rest, Bnd err N s) :
    ∀ s ∈ (headLoop err xs acc rest cnt).1, Bnd err N s := by
  induction xs generalizing acc rest cnt with
  | nil => simpa [headLoop] using ha
  | cons x xs ih =>
    rw [headLoop]
    rw [List.length_cons] at hN
    apply ih
    · omega
    · intro s hs
      rw [List.mem_append, List.mem_append, List.mem_singleton] at hs
      rcases hs with (h | h) | h
      · exact ha s h
      · exact hr s (mem_takeWhile h).1
      · subst h
        have hc : 2 * err * ((cnt + 1 : Nat) : Rat) ≤ 2 * err * N :=
          mul_le_mul_of_nonneg_left (by exact_mod_cast (by omega : cnt + 1 ≤ N)) (by linarith)
        have h0 : (0 : Rat) ≤ 2 * err * ((cnt + 1 : Nat) : Rat) := by positivity
        refine ⟨?_, ?_, Or.inr rfl⟩
        · simp only
          split
          · exact le_refl _
          · exact Int.floor_nonneg.mpr h0
        · simp only
          split
          · push_cast; linarith
          · exact le_trans (Int.floor_le _) hc
    · intro s hs; exact hr s (dropWhile_mem _ hs)

/-- Samples moved from the old list keep their rank information. -/
theorem val_pre {e : Rat} {d b : List Rat} {k : Nat} (pre : List Stat) (c : Nat)
    (hv : Val e d c pre)
    (hLT : ∀ s ∈ pre, numLT b s.value ≤ k) (hLE : ∀ s ∈ pre, k ≤ numLE b s.value) :
    Val e (d ++ b) (c + k) pre := by
  induction pre generalizing c with
  | nil => trivial
  | cons s t ih =>
    obtain ⟨h1, h2, h3⟩ := hv
    have l1 := hLT s (by simp)
    have l2 := hLE s (by simp)
    refine ⟨?_, ?_, ?_⟩
    · rw [numLE_append]; omega
    · rw [numLT_append]
      have : (numLT b s.value : Rat) ≤ k := by exact_mod_cast l1
      push_cast
      linarith
    · have := ih (c + s.g) h3 (fun s h => hLT s (by simp [h])) (fun s h => hLE s (by simp [h]))
      rwa [show c + k + s.g = c + s.g + k by omega]

theorem val_last_le {e : Rat} {d : List Rat} {x : Rat} (pre : List Stat) (c : Nat)
    (hv : Val e d c pre) (hx : ∀ s ∈ pre, s.value ≤ x) (hc : c ≤ numLE d x) :
    c + gsum pre ≤ numLE d x := by
  induction pre generalizing c with
  | nil => simpa using hc
  | cons s t ih =>
    obtain ⟨h1, _, h3⟩ := hv
    have := ih (c + s.g) h3 (fun u h => hx u (by simp [h]))
      (le_trans h1 (numLE_mono d (hx s (by simp))))
    simp only [gsum_cons]
    omega

theorem headLoop_val {err e : Rat} (herr : 0 ≤ err) (he : 0 ≤ e) {d b : List Rat} {S : List Stat}
    (hSb : ∀ s ∈ S, Bnd err d.length s)
    (hfirst : ∀ s ∈ S.head?, numLT d s.value = 0)
    (done xs : List Rat) (acc rest : List Stat) (cnt c : Nat)
    (hb : b = done ++ xs) (hbs : b.Pairwise (· ≤ ·))
    (hrestS : ∀ r ∈ rest, r ∈ S) (hrest : VSorted rest)
    (hacc : Val e (d ++ b) 0 acc) (hgacc : gsum acc = c + done.length)
    (hval : Val e d c rest) (hc : c + gsum rest = d.length)
    (hdone : ∀ r ∈ rest, ∀ y ∈ done, y < r.value)
    (hcx : ∀ x ∈ xs, c ≤ numLE d x) (hcnt : cnt = d.length + done.length)
    (haccnil : acc = [] → done = [] ∧ rest = S ∧ c = 0) :
    Val e (d ++ b) 0 (headLoop err xs acc rest cnt).1 := by
  induction xs generalizing done acc rest cnt c with
  | nil => simpa [headLoop] using hacc
  | cons x xs ih =>
    rw [headLoop]
    have hgt := dropWhile_gt hrest x
    have hsplit : rest.takeWhile (fun s => s.value ≤ x) ++ rest.dropWhile (fun s => s.value ≤ x) = rest :=
      List.takeWhile_append_dropWhile
    have htw : ∀ s ∈ rest.takeWhile (fun s => s.value ≤ x), s ∈ rest ∧ s.value ≤ x := by
      intro s hs
      have := mem_takeWhile hs
      simpa using this
    generalize hpre : rest.takeWhile (fun s => s.value ≤ x) = pre at *
    generalize hrst : rest.dropWhile (fun s => s.value ≤ x) = rest' at *
    have hval2 := hval
    rw [← hsplit, Val.append] at hval2
    obtain ⟨hv1, hv2⟩ := hval2
    have hbx : ∀ y ∈ xs, x ≤ y := by
      intro y hy
      rw [hb, List.pairwise_append] at hbs
      exact List.rel_of_pairwise_cons hbs.2.1 hy
    have hdx : ∀ y ∈ done, y ≤ x := by
      intro y hy
      rw [hb, List.pairwise_append] at hbs
      exact hbs.2.2 y hy x (by simp)
    have hgr : gsum rest = gsum pre + gsum rest' := by rw [← hsplit, gsum_append]
    -- counts in the batch
    have hLTx : numLT b x ≤ done.length := by
      rw [hb, numLT_append]
      have : numLT (x :: xs) x = 0 := numLT_zero (by
        intro y hy; rcases List.mem_cons.mp hy with rfl | hy
        · exact le_refl _
        · exact hbx y hy)
      have := numLT_le done x
      omega
    have hLEx : done.length + 1 ≤ numLE b x := by
      rw [hb, show done ++ x :: xs = (done ++ [x]) ++ xs by simp, numLE_append]
      have : numLE (done ++ [x]) x = (done ++ [x]).length := numLE_all (by
        intro y hy; rcases List.mem_append.mp hy with hy | hy
        · exact hdx y hy
        · simp at hy; rw [hy])
      rw [this]; simp
    have hpreV : Val e (d ++ b) (c + done.length) pre := by
      apply val_pre pre c hv1
      · intro s hs
        have h1 := htw s hs
        exact le_trans (numLT_mono b h1.2) hLTx
      · intro s hs
        have h1 := htw s hs
        rw [hb, numLE_append]
        have : numLE done s.value = done.length := numLE_all fun y hy => (hdone s h1.1 y hy).le
        omega
    have hc'x : c + gsum pre ≤ numLE d x :=
      val_last_le pre c hv1 (fun s hs => (htw s hs).2) (hcx x (by simp))
    have hcnt' : d.length ≤ cnt + 1 := by omega
    -- the new sample
    have hLd : (numLT d x : Rat) ≤ (c + gsum pre : Nat) +
        (if acc ++ pre = [] ∨ (rest' = [] ∧ xs = []) then (0 : Int) else ⌊2 * err * ((cnt + 1 : Nat) : Rat)⌋ : Int) + e := by
      split
      · rename_i hcase
        rcases hcase with hnil | ⟨h1, _⟩
        · rw [List.append_eq_nil_iff] at hnil
          obtain ⟨_, hrS, hc0⟩ := haccnil hnil.1
          have hz : numLT d x = 0 := by
            rw [hnil.2, List.nil_append] at hsplit
            cases hS : S with
            | nil =>
              rw [hrS, hS] at hc
              simp only [gsum_nil, hc0] at hc
              have := numLT_le d x
              omega
            | cons s0 S' =>
              have hm : s0 ∈ rest' := by rw [hsplit, hrS, hS]; simp
              have := numLT_mono d (hgt s0 hm).le
              have h0 := hfirst s0 (by rw [hS]; simp)
              omega
          rw [hz]
          push_cast
          positivity
        · subst h1
          simp only [gsum_nil, Nat.add_zero] at hgr
          have := numLT_le d x
          have h2 : (numLT d x : Rat) ≤ (c + gsum pre : Nat) := by
            exact_mod_cast (by omega : numLT d x ≤ c + gsum pre)
          push_cast at h2 ⊢
          linarith
      · have hf0 : 0 ≤ ⌊2 * err * ((cnt + 1 : Nat) : Rat)⌋ := Int.floor_nonneg.mpr (by positivity)
        cases hr' : rest' with
        | nil =>
          rw [hr'] at hgr
          simp only [gsum_nil, Nat.add_zero] at hgr
          have := numLT_le d x
          have h2 : (numLT d x : Rat) ≤ (c + gsum pre : Nat) := by
            exact_mod_cast (by omega : numLT d x ≤ c + gsum pre)
          have h3 : (0 : Rat) ≤ (⌊2 * err * ((cnt + 1 : Nat) : Rat)⌋ : Int) := by exact_mod_cast hf0
          linarith
        | cons w ws =>
          rw [hr'] at hv2 hgt hsplit
          obtain ⟨_, h2, _⟩ := hv2
          have hw := hgt w (by simp)
          have hm : (numLT d x : Rat) ≤ numLT d w.value := by
            exact_mod_cast numLT_mono d hw.le
          have hwS : w ∈ S := hrestS w (by rw [← hsplit]; simp)
          have hfl := floor_ge herr hcnt' (hSb w hwS)
          have hfl' : (w.g : Rat) + w.delta - 1 ≤ (⌊2 * err * ((cnt + 1 : Nat) : Rat)⌋ : Int) := by
            exact_mod_cast hfl
          linarith
    apply ih (done ++ [x]) _ _ _ (c + gsum pre)
    · rw [hb]; simp
    · intro r hr; exact hrestS r (by rw [← hsplit]; simp [hr])
    · rw [← hsplit] at hrest; exact (List.pairwise_append.mp hrest).2.1
    · rw [Val.append, Val.append]
      refine ⟨⟨hacc, ?_⟩, ?_, ?_, trivial⟩
      · rw [Nat.zero_add, hgacc]; exact hpreV
      · simp only [gsum_append, hgacc, numLE_append]; omega
      · simp only [gsum_append, hgacc, numLT_append]
        have : (numLT b x : Rat) ≤ done.length := by exact_mod_cast hLTx
        push_cast at hLd ⊢
        linarith
    · simp only [gsum_append, gsum_cons, gsum_nil, hgacc, List.length_append, List.length_singleton]
      omega
    · exact hv2
    · omega
    · intro r hr y hy
      rcases List.mem_append.mp hy with hy | hy
      · exact lt_of_le_of_lt (hdx y hy) (hgt r hr)
      · simp at hy; rw [hy]; exact hgt r hr
    · intro y hy
      exact le_trans hc'x (numLE_mono d (hbx y hy))
    · simp; omega
    · intro h; simp at h

theorem headLoop_first {err : Rat} {d b : List Rat} {S : List Stat}
    (hfirst : ∀ s ∈ S.head?, s.g = 1 ∧ numLT d s.value = 0)
    (hd : S = [] → d = []) (cnt : Nat) (hbs : b.Pairwise (· ≤ ·)) (hne : b ≠ []) :
    ∀ s ∈ (headLoop err b [] S cnt).1.head?, s.g = 1 ∧ numLT (d ++ b) s.value = 0 := by
  obtain ⟨x, xs, rfl⟩ := List.exists_cons_of_ne_nil hne
  have key : ∀ (l : List Rat) (acc rest : List Stat) (c : Nat), acc ≠ [] →
      (headLoop err l acc rest c).1.head? = acc.head? := by
    intro l
    induction l with
    | nil => intro acc rest c h; rfl
    | cons y l ih =>
      intro acc rest c h
      rw [headLoop, ih _ _ _ (by simp)]
      obtain ⟨a, acc', rfl⟩ := List.exists_cons_of_ne_nil h
      simp
  rw [headLoop]
  simp only [List.nil_append]
  rw [key _ _ _ _ (by simp)]
  have hxb : ∀ y ∈ x :: xs, x ≤ y := by
    intro y hy
    rcases List.mem_cons.mp hy with rfl | hy
    · exact le_refl _
    · exact List.rel_of_pairwise_cons hbs hy
  cases hS' : S with
  | nil =>
    intro s hs
    simp only [List.takeWhile_nil, List.nil_append, List.head?_cons, Option.mem_def,
      Option.some.injEq] at hs
    subst hs
    rw [hd hS', List.nil_append]
    exact ⟨rfl, numLT_zero hxb⟩
  | cons s0 S' =>
    rw [hS'] at hfirst
    obtain ⟨f1, f2⟩ := hfirst s0 (by simp)
    by_cases h0 : s0.value ≤ x
    · intro s hs
      rw [List.takeWhile_cons_of_pos (by simpa using h0)] at hs
      simp only [List.cons_append, List.head?_cons, Option.mem_def, Option.some.injEq] at hs
      subst hs
      refine ⟨f1, ?_⟩
      rw [numLT_append, f2]
      have : numLT (x :: xs) s0.value = 0 := numLT_zero fun y hy => le_trans h0 (hxb y hy)
      omega
    · intro s hs
      rw [List.takeWhile_cons_of_neg (by simpa using h0)] at hs
      simp only [List.nil_append, List.head?_cons, Option.mem_def, Option.some.injEq] at hs
      subst hs
      refine ⟨rfl, ?_⟩
      rw [numLT_append]
      have h1 : numLT d x ≤ numLT d s0.value := numLT_mono d (not_le.mp h0).le
      have h2 : numLT (x :: xs) x = 0 := numLT_zero hxb
      simp only at *
      omega

theorem gk_nil {err e : Rat} {q : QS} {d : List Rat} (h : GK err e q d) (hs : q.sampled = []) : d = [] := by
  have := h.gs
  rw [hs] at this
  exact List.length_eq_zero_iff.mp (by simpa using this.symm)

theorem gk_head {err e : Rat} (herr : 0 ≤ err) (he : 0 ≤ e) {q : QS} {d : List Rat}
    (h : GK err e q d) (hcov : q.head ≠ [] → ∀ s ∈ q.sampled, ∃ x ∈ q.head, s.value ≤ x) :
    ∃ d', d'.Perm (d ++ q.head) ∧ GK err e (insertHeadBuffer q) d' := by
  unfold insertHeadBuffer
  by_cases hne : q.head = []
  · rw [if_pos hne]; exact ⟨d, by rw [hne]; simp, h⟩
  · rw [if_neg hne]
    have hsortd : (q.head.insertionSort (· ≤ ·)).Pairwise (· ≤ ·) :=
      List.pairwise_insertionSort (r := (· ≤ ·)) _
    have hperm : (q.head.insertionSort (· ≤ ·)).Perm q.head := List.perm_insertionSort _ _
    have hbne : q.head.insertionSort (· ≤ ·) ≠ [] := by
      intro h0; rw [h0] at hperm; exact hne (List.nil_perm.mp hperm)
    generalize q.head.insertionSort (· ≤ ·) = b at *
    refine ⟨d ++ b, List.Perm.append_left d hperm, ?_⟩
    have hgs : gsum (headLoop q.cfg.error b [] q.sampled q.count).1 = (d ++ b).length := by
      rw [headLoop_gsum_eq _ _ _ _ _ h.sorted, h.gs]
      · simp
      · intro r hr
        obtain ⟨x, hx, hrx⟩ := hcov hne r hr
        exact ⟨x, hperm.mem_iff.mpr hx, hrx⟩
    refine ⟨h.cfg, ?_, hgs, ?_, ?_, ?_, ?_, ?_, ?_⟩
    · simp only [headLoop_count, h.count, List.length_append]
    · exact headLoop_sorted _ _ _ _ _ hsortd (by simp [VSorted]) h.sorted (by simp) (by simp)
    · intro s hs
      rcases headLoop_mem _ _ _ _ _ s hs with h' | h' | h'
      · simp at h'
      · simp [h.mem s h']
      · simp [h']
    · exact headLoop_pos _ _ _ _ _ (by simp) h.pos
    · simp only [headLoop_count, h.cfg]
      refine headLoop_bnd herr _ _ _ _ _ (le_refl _) (by simp) ?_
      intro s hs
      exact Bnd.mono herr (by omega) (h.bnd s hs)
    · simp only [h.cfg]
      apply headLoop_val (S := q.sampled) herr he ?_ (fun s hs => (h.first s hs).2) [] b [] q.sampled q.count 0
        (by simp) hsortd (fun r hr => hr) h.sorted trivial rfl h.val (by rw [Nat.zero_add, h.gs])
        (by simp) (by simp) (by simp [h.count]) (by simp)
      intro s hs
      rw [← h.count]; exact h.bnd s hs
    · exact headLoop_first h.first (gk_nil h) _ hsortd hbne

/-! ### Compression -/

theorem ctail_bnd {err : Rat} {n : Nat} (l : List Stat) (h : ∀ s ∈ l, Bnd err n s) :
    ∀ s ∈ ctail (2 * err * n) l, Bnd err n s := by
  induction l with
  | nil => simp [ctail]
  | cons t ts ih =>
    have ih' := ih (fun s hs => h s (by simp [hs]))
    rw [ctail]
    cases hc : ctail (2 * err * n) ts with
    | nil => intro s hs; simp at hs; subst hs; exact h s (by simp)
    | cons hd r =>
      rw [hc] at ih'
      simp only
      split
      · rename_i hm
        intro s hs
        rcases List.mem_cons.mp hs with rfl | hs
        · obtain ⟨b1, b2, _⟩ := ih' hd (by simp)
          refine ⟨b1, b2, Or.inl ?_⟩
          push_cast at hm ⊢
          linarith
        · exact ih' s (by simp [hs])
      · intro s hs
        rcases List.mem_cons.mp hs with rfl | hs
        · exact h s (by simp)
        · exact ih' s hs

theorem ctail_val {e thr : Rat} {d : List Rat} (r : Nat) (l : List Stat) (h : Val e d r l) :
    Val e d r (ctail thr l) := by
  induction l generalizing r with
  | nil => trivial
  | cons t ts ih =>
    obtain ⟨h1, h2, h3⟩ := h
    have ih' := ih _ h3
    rw [ctail]
    cases hc : ctail thr ts with
    | nil => exact ⟨h1, h2, trivial⟩
    | cons hd rest =>
      rw [hc] at ih'
      simp only
      split
      · obtain ⟨g1, g2, g3⟩ := ih'
        refine ⟨?_, ?_, ?_⟩
        · simp only; omega
        · simp only; push_cast at g2 ⊢; linarith
        · simp only
          rwa [show r + (hd.g + t.g) = r + t.g + hd.g by omega]
      · exact ⟨h1, h2, ih'⟩

theorem compressImmut_head (thr : Rat) (s0 : Stat) (tl : List Stat) (hs : VSorted (s0 :: tl))
    (hp : ∀ s ∈ tl, 1 ≤ s.g) : compressImmut thr (s0 :: tl) = s0 :: ctail thr tl := by
  cases tl with
  | nil => simp [compressImmut, ctail]
  | cons t ts =>
    rw [compressImmut_cons]
    obtain ⟨_, _, i3, _, _⟩ := ctail_spec thr (t :: ts) hs.of_cons hp
    cases hc : ctail thr (t :: ts) with
    | nil => exact absurd hc (ctail_ne_nil thr t ts)
    | cons h r =>
      rw [hc] at i3
      simp only
      obtain ⟨s', h1, h2⟩ := i3 h (by simp)
      rw [if_pos (by rw [← h2]; exact List.rel_of_pairwise_cons hs h1)]

theorem gk_compress_core {err e : Rat} {q : QS} {d : List Rat} (h : GK err e q d) :
    GK err e { q with sampled := compressImmut (2 * q.cfg.error * q.count) q.sampled } d := by
  obtain ⟨i1, i2, i3, i4⟩ := compressImmut_spec (2 * q.cfg.error * q.count) q.sampled h.sorted h.pos
  cases hq : q.sampled with
  | nil =>
    rw [hq] at i1 i2 i3 i4
    refine ⟨h.cfg, h.count, ?_, i2, ?_, i4, ?_, ?_, ?_⟩ <;> simp_all [compressImmut, Val]
    · rw [← h.gs, hq]; rfl
  | cons s0 tl =>
    have hs := h.sorted
    have hp := h.pos
    have hb := h.bnd
    have hv := h.val
    have hf := h.first
    rw [hq] at hs hp hb hv hf
    have he : compressImmut (2 * q.cfg.error * q.count) (s0 :: tl)
        = s0 :: ctail (2 * q.cfg.error * q.count) tl :=
      compressImmut_head _ s0 tl hs (fun s h => hp s (by simp [h]))
    rw [hq] at i1 i2 i3 i4
    refine ⟨h.cfg, h.count, ?_, i2, ?_, i4, ?_, ?_, ?_⟩
    · simp only [i1]; rw [← hq, h.gs]
    · intro s hs'
      obtain ⟨s', h1, h2⟩ := i3 s hs'
      rw [← h2]; exact h.mem s' (by rw [hq]; exact h1)
    · simp only [he]
      intro s hs'
      rcases List.mem_cons.mp hs' with rfl | hs'
      · exact hb s (by simp)
      · rw [h.cfg] at hs'
        exact ctail_bnd tl (fun s h => hb s (by simp [h])) s hs'
    · simp only [he]
      exact ⟨hv.1, hv.2.1, ctail_val _ _ hv.2.2⟩
    · simp only [he]
      simpa using hf

theorem gk_compress {err e : Rat} (herr : 0 ≤ err) (he : 0 ≤ e) {q : QS} {d : List Rat}
    (h : GK err e q d) (hcov : q.head ≠ [] → ∀ s ∈ q.sampled, ∃ x ∈ q.head, s.value ≤ x) :
    ∃ d', d'.Perm (d ++ q.head) ∧ GK err e (compress q) d' := by
  obtain ⟨d', hp, hg⟩ := gk_head herr he h hcov
  exact ⟨d', hp, gk_compress_core hg⟩

theorem gk_flushed {err e : Rat} (herr : 0 ≤ err) (he : 0 ≤ e) {q : QS} {d : List Rat}
    (h : GK err e q d) (hcov : q.head ≠ [] → ∀ s ∈ q.sampled, ∃ x ∈ q.head, s.value ≤ x) :
    ∃ d', d'.Perm (d ++ q.head) ∧ GK err e (flushed q) d' := by
  unfold flushed
  split
  · rename_i h0; exact ⟨d, by rw [h0]; simp, h⟩
  · exact gk_compress herr he h hcov

/-! ### Merging -/

theorem merge_val {err e1 e2 : Rat} (he1 : 0 ≤ e1) (he2 : 0 ≤ e2) {d1 d2 : List Rat} {M : Rat}
    (hM : 0 ≤ M) (hM1 : 2 * err * d1.length ≤ M) (hM2 : 2 * err * d2.length ≤ M)
    (as bs : List Stat) (c1 c2 : Nat)
    (ha : Val e1 d1 c1 as) (hb : Val e2 d2 c2 bs)
    (sa : VSorted as) (sb : VSorted bs)
    (ba : ∀ s ∈ as, Bnd err d1.length s) (bb : ∀ s ∈ bs, Bnd err d2.length s)
    (ga : c1 + gsum as = d1.length) (gb : c2 + gsum bs = d2.length)
    (ca : ∀ s ∈ as, c2 ≤ numLE d2 s.value) (cb : ∀ s ∈ bs, c1 ≤ numLE d1 s.value) :
    Val (e1 + e2 + M) (d1 ++ d2) (c1 + c2) (mergeSampled as bs) := by
  have gbound : ∀ (n : Nat) (s : Stat), Bnd err n s → 2 * err * (n : Rat) ≤ M →
      (s.g : Rat) + s.delta ≤ M + 1 := by
    intro n s hbnd hn
    rcases hbnd.2.2 with h | h
    · push_cast at h; linarith
    · rw [h]; have := hbnd.2.1; push_cast; linarith
  fun_induction mergeSampled as bs generalizing c1 c2 with
  | case1 bs =>
    simp only [gsum_nil, Nat.add_zero] at ga
    clear bb sb ha sa ba ca
    induction bs generalizing c2 with
    | nil => trivial
    | cons b bs ih =>
      obtain ⟨h1, h2, h3⟩ := hb
      have hc := cb b (by simp)
      refine ⟨?_, ?_, ?_⟩
      · rw [numLE_append]; omega
      · rw [numLT_append]
        have := numLT_le d1 b.value
        have h' : (numLT d1 b.value : Rat) ≤ c1 := by exact_mod_cast (by omega : _ ≤ c1)
        push_cast; linarith
      · have := ih (c2 + b.g) h3 (by simp only [gsum_cons] at gb; omega) (fun s h => cb s (by simp [h]))
        rwa [show c1 + c2 + b.g = c1 + (c2 + b.g) by omega]
  | case2 as h =>
    simp only [gsum_nil, Nat.add_zero] at gb
    clear ba sa hb sb bb cb h
    induction as generalizing c1 with
    | nil => trivial
    | cons a as ih =>
      obtain ⟨h1, h2, h3⟩ := ha
      have hc := ca a (by simp)
      refine ⟨?_, ?_, ?_⟩
      · rw [numLE_append]; omega
      · rw [numLT_append]
        have := numLT_le d2 a.value
        have h' : (numLT d2 a.value : Rat) ≤ c2 := by exact_mod_cast (by omega : _ ≤ c2)
        push_cast; linarith
      · have := ih (c1 + a.g) h3 (by simp only [gsum_cons] at ga; omega) (fun s h => ca s (by simp [h]))
        rwa [show c1 + c2 + a.g = c1 + a.g + c2 by omega]
  | case3 a as b bs h ih =>
    obtain ⟨h1, h2, h3⟩ := ha
    have hc := ca a (by simp)
    have hb2 := hb.2.1
    refine ⟨?_, ?_, ?_⟩
    · rw [numLE_append]; omega
    · rw [numLT_append]
      have h' : (numLT d2 a.value : Rat) ≤ numLT d2 b.value := by
        exact_mod_cast numLT_mono d2 h.le
      have := gbound _ b (bb b (by simp)) hM2
      push_cast; linarith
    · have := ih (c1 + a.g) c2 h3 hb sa.of_cons sb (fun s h => ba s (by simp [h])) bb
        (by simp only [gsum_cons] at ga ⊢; omega) gb (fun s h => ca s (by simp [h]))
        (fun s hs => by
          refine le_trans h1 (numLE_mono d1 ?_)
          rcases List.mem_cons.mp hs with rfl | hs
          · exact h.le
          · exact le_trans h.le (List.rel_of_pairwise_cons sb hs))
      rwa [show c1 + c2 + a.g = c1 + a.g + c2 by omega]
  | case4 a as b bs h ih =>
    obtain ⟨h1, h2, h3⟩ := hb
    have hba := not_lt.mp h
    have hc := cb b (by simp)
    have ha2 := ha.2.1
    refine ⟨?_, ?_, ?_⟩
    · rw [numLE_append]; omega
    · rw [numLT_append]
      have h' : (numLT d1 b.value : Rat) ≤ numLT d1 a.value := by
        exact_mod_cast numLT_mono d1 hba
      have := gbound _ a (ba a (by simp)) hM1
      push_cast; linarith
    · have := ih c1 (c2 + b.g) ha h3 sa sb.of_cons ba (fun s h => bb s (by simp [h])) ga
        (by simp only [gsum_cons] at gb ⊢; omega)
        (fun s hs => by
          refine le_trans h1 (numLE_mono d2 ?_)
          rcases List.mem_cons.mp hs with rfl | hs
          · exact hba
          · exact le_trans hba (List.rel_of_pairwise_cons sa hs))
        (fun s h => cb s (by simp [h]))
      rwa [show c1 + c2 + b.g = c1 + (c2 + b.g) by omega]

theorem val_min {d : List Rat} {s : Stat} (h : numLT d s.value = 0) : ∀ x ∈ d, s.value ≤ x := by
  unfold numLT at h
  rw [List.countP_eq_zero] at h
  intro x hx
  simpa using h x hx

theorem gk_merge {err e1 e2 : Rat} (herr : 0 ≤ err) (he1 : 0 ≤ e1) (he2 : 0 ≤ e2) {q o : QS}
    {d1 d2 : List Rat} (hq : GK err e1 q d1) (ho : GK err e2 o d2)
    (cq : q.head ≠ [] → ∀ s ∈ q.sampled, ∃ x ∈ q.head, s.value ≤ x)
    (co : o.head ≠ [] → ∀ s ∈ o.sampled, ∃ x ∈ o.head, s.value ≤ x) :
    ∃ d', d'.Perm (d1 ++ q.head ++ (d2 ++ o.head)) ∧
      GK err (e1 + e2 + 2 * err * (max (d1 ++ q.head).length (d2 ++ o.head).length : Nat)) (merge q o) d' := by
  obtain ⟨a1, p1, g1⟩ := gk_flushed herr he1 hq cq
  obtain ⟨a2, p2, g2⟩ := gk_flushed herr he2 ho co
  have hM : (0 : Rat) ≤ 2 * err * (max (d1 ++ q.head).length (d2 ++ o.head).length : Nat) := by positivity
  refine ⟨a1 ++ a2, p1.append p2, ?_⟩
  rw [← p1.length_eq, ← p2.length_eq] at hM ⊢
  have hM1 : 2 * err * (a1.length : Rat) ≤ 2 * err * (max a1.length a2.length : Nat) :=
    mul_le_mul_of_nonneg_left (by exact_mod_cast le_max_left _ _) (by linarith)
  have hM2 : 2 * err * (a2.length : Rat) ≤ 2 * err * (max a1.length a2.length : Nat) :=
    mul_le_mul_of_nonneg_left (by exact_mod_cast le_max_right _ _) (by linarith)
  unfold merge
  simp only
  split
  · rename_i h0
    have : a2 = [] := List.length_eq_zero_iff.mp (by rw [← g2.count]; exact h0)
    subst this
    rw [List.append_nil]
    exact { g1 with val := Val.mono (by linarith) _ _ g1.val }
  · split
    · rename_i _ h1
      have : a1 = [] := List.length_eq_zero_iff.mp (by rw [← g1.count]; exact h1)
      subst this
      rw [List.nil_append]
      exact ⟨g1.cfg, g2.count, g2.gs, g2.sorted, g2.mem, g2.pos, g2.bnd,
        Val.mono (by linarith) _ _ g2.val, g2.first⟩
    · rename_i h2 h1
      have hs := mergeSampled_sorted _ _ g1.sorted g2.sorted
      have hperm := mergeSampled_perm (flushed q).sampled (flushed o).sampled
      have hmem : ∀ s ∈ mergeSampled (flushed q).sampled (flushed o).sampled,
          s ∈ (flushed q).sampled ∨ s ∈ (flushed o).sampled := fun s h =>
        List.mem_append.mp (hperm.mem_iff.mp h)
      have hval := merge_val (err := err) he1 he2 hM hM1 hM2 _ _ 0 0 g1.val g2.val g1.sorted g2.sorted
        (by rw [← g1.count]; exact g1.bnd) (by rw [← g2.count]; exact g2.bnd)
        (by rw [Nat.zero_add, g1.gs]) (by rw [Nat.zero_add, g2.gs]) (by simp) (by simp)
      have hc : (flushed q).count + (flushed o).count = (a1 ++ a2).length := by
        rw [g1.count, g2.count, List.length_append]
      have key : GK err (e1 + e2 + 2 * err * (max a1.length a2.length : Nat))
          { (flushed q) with
            count := (flushed q).count + (flushed o).count
            sampled := mergeSampled (flushed q).sampled (flushed o).sampled } (a1 ++ a2) := by
        refine ⟨g1.cfg, hc, ?_, hs, ?_, ?_, ?_, hval, ?_⟩
        · simp only [gsum_perm hperm, gsum_append, g1.gs, g2.gs, List.length_append]
        · intro s h
          rcases hmem s h with h | h
          · simp [g1.mem s h]
          · simp [g2.mem s h]
        · intro s h
          rcases hmem s h with h | h
          · exact g1.pos s h
          · exact g2.pos s h
        · intro s h
          rcases hmem s h with h | h
          · exact Bnd.mono herr (by simp only; omega) (g1.bnd s h)
          · exact Bnd.mono herr (by simp only; omega) (g2.bnd s h)
        · simp only
          have n1 : (flushed q).sampled ≠ [] := fun h => h1 (by rw [g1.count, gk_nil g1 h]; rfl)
          have n2 : (flushed o).sampled ≠ [] := fun h => h2 (by rw [g2.count, gk_nil g2 h]; rfl)
          obtain ⟨a, as, ha⟩ := List.exists_cons_of_ne_nil n1
          obtain ⟨b, bs, hb⟩ := List.exists_cons_of_ne_nil n2
          have fa := g1.first a (by rw [ha]; simp)
          have fb := g2.first b (by rw [hb]; simp)
          have va := val_min fa.2
          have vb := val_min fb.2
          rw [ha, hb, mergeSampled]
          split
          · rename_i hlt
            intro s hs'
            simp only [List.head?_cons, Option.mem_def, Option.some.injEq] at hs'
            subst hs'
            refine ⟨fa.1, numLT_zero ?_⟩
            intro x hx
            rcases List.mem_append.mp hx with hx | hx
            · exact va x hx
            · exact le_trans hlt.le (vb x hx)
          · rename_i hlt
            intro s hs'
            simp only [List.head?_cons, Option.mem_def, Option.some.injEq] at hs'
            subst hs'
            refine ⟨fb.1, numLT_zero ?_⟩
            intro x hx
            rcases List.mem_append.mp hx with hx | hx
            · exact le_trans (not_lt.mp hlt) (va x hx)
            · exact vb x hx
      exact gk_compress_core key

/-! ### Programs -/

theorem gk_append {err e : Rat} {q : QS} {d : List Rat} (h : GK err e q d) (l : List Rat) :
    GK err e { q with head := l } d :=
  ⟨h.cfg, h.count, h.gs, h.sorted, h.mem, h.pos, h.bnd, h.val, h.first⟩

theorem gk_insert {err e : Rat} (herr : 0 ≤ err) (he : 0 ≤ e) {q : QS} {d : List Rat}
    (h : GK err e q d) (x : Rat) (hx : x ∉ q.cfg.abnormal)
    (hcov : ∀ s ∈ q.sampled, s.value ≤ x) :
    ∃ d', (d' ++ (insert q x).head).Perm (d ++ (q.head ++ [x])) ∧ GK err e (insert q x) d' := by
  unfold insert
  simp only [hx, if_false]
  have h' := gk_append h (q.head ++ [x])
  have hc : ∀ s ∈ q.sampled, ∃ y ∈ q.head ++ [x], s.value ≤ y :=
    fun s hs => ⟨x, by simp, hcov s hs⟩
  split
  · obtain ⟨d1, p1, g1⟩ := gk_head herr he h' (fun _ => hc)
    split
    · obtain ⟨d2, p2, g2⟩ := gk_compress herr he g1 (fun h0 => absurd (head_empty _) h0)
      refine ⟨d2, ?_, g2⟩
      rw [head_empty, List.append_nil] at p2
      rw [compress_head, List.append_nil]
      exact p2.trans p1
    · refine ⟨d1, ?_, g1⟩
      rw [head_empty, List.append_nil]; exact p1
  · exact ⟨d, List.Perm.refl _, h'⟩

theorem slack_nonneg {err : Rat} (herr : 0 ≤ err) (p : Prog) : 0 ≤ slack err p := by
  induction p with
  | new => exact le_refl _
  | insert p x ih => exact ih
  | compress p ih => exact ih
  | query p ih => exact ih
  | merge p o ih1 ih2 =>
    have : (0 : Rat) ≤ 2 * err * (max (inserted p).length (inserted o).length : Nat) := by positivity
    simp only [slack]; linarith

theorem gk_eval {err : Rat} (herr : 0 ≤ err) (p : Prog) (hE : ErrorIs err p) (ht : Tame p) :
    ∃ d, (d ++ p.eval.head).Perm (inserted p) ∧ GK err (slack err p) p.eval d := by
  induction p with
  | new cfg =>
    exact ⟨[], by simp [Prog.eval, QS.new, inserted], ⟨hE, rfl, rfl, by simp [Prog.eval, QS.new, VSorted],
      by simp [Prog.eval, QS.new], by simp [Prog.eval, QS.new], by simp [Prog.eval, QS.new], trivial,
      by simp [Prog.eval, QS.new]⟩⟩
  | insert p x ih =>
    obtain ⟨d, hp, hg⟩ := ih hE ht.1
    by_cases hx : x ∈ (cfgOf p).abnormal
    · have he : (Prog.insert p x).eval = p.eval := by
        simp only [Prog.eval]; unfold insert; rw [eval_cfg, if_pos hx]
      rw [he]
      refine ⟨d, ?_, hg⟩
      simp only [inserted, hx, if_true]; exact hp
    · have hx' : x ∉ p.eval.cfg.abnormal := by rw [eval_cfg]; exact hx
      have hcov : ∀ s ∈ p.eval.sampled, s.value ≤ x := by
        intro s hs
        rcases ht.2 with h | h | h
        · exact absurd h hx
        · rw [h] at hs; simp at hs
        · exact h _ ((inv16_eval p).mem s hs)
      obtain ⟨d', hp', hg'⟩ := gk_insert herr (slack_nonneg herr p) hg x hx' hcov
      refine ⟨d', ?_, hg'⟩
      simp only [inserted, hx, if_false]
      refine hp'.trans ?_
      rw [← List.append_assoc]
      exact hp.append_right _
  | compress p ih =>
    obtain ⟨d, hp, hg⟩ := ih hE ht
    obtain ⟨d', hp', hg'⟩ := gk_compress herr (slack_nonneg herr p) hg (full16_eval p ht).cover
    refine ⟨d', ?_, hg'⟩
    simp only [Prog.eval, compress_head, List.append_nil, inserted]
    exact hp'.trans hp
  | query p ih =>
    obtain ⟨d, hp, hg⟩ := ih hE ht
    obtain ⟨d', hp', hg'⟩ := gk_flushed herr (slack_nonneg herr p) hg (full16_eval p ht).cover
    refine ⟨d', ?_, hg'⟩
    simp only [Prog.eval, flushed_head, List.append_nil, inserted]
    exact hp'.trans hp
  | merge p o ih1 ih2 =>
    obtain ⟨d1, hp1, hg1⟩ := ih1 hE.1 ht.1
    obtain ⟨d2, hp2, hg2⟩ := ih2 hE.2 ht.2
    obtain ⟨d', hp', hg'⟩ := gk_merge herr (slack_nonneg herr p) (slack_nonneg herr o) hg1 hg2
      (full16_eval p ht.1).cover (full16_eval o ht.2).cover
    rw [hp1.length_eq, hp2.length_eq] at hg'
    refine ⟨d', ?_, hg'⟩
    have hh : (Prog.merge p o).eval.head = [] := by
      simp only [Prog.eval]
      unfold merge
      simp only
      split
      · exact flushed_head _
      · split <;> exact flushed_head _
    rw [hh, List.append_nil]
    exact hp'.trans (hp1.append hp2)

/-- Weight bounds hold for every program, also when samples were lost. -/
def BInv (err : Rat) (q : QS) : Prop := q.cfg.error = err ∧ ∀ s ∈ q.sampled, Bnd err q.count s

theorem binv_head {err : Rat} (herr : 0 ≤ err) {q : QS} (h : BInv err q) : BInv err (insertHeadBuffer q) := by
  unfold insertHeadBuffer
  split
  · exact h
  · refine ⟨h.1, ?_⟩
    simp only [headLoop_count, h.1]
    refine headLoop_bnd herr _ _ _ _ _ (le_refl _) (by simp) ?_
    intro s hs
    exact Bnd.mono herr (by omega) (h.2 s hs)

theorem binv_compressImmut {err : Rat} {n : Nat} {l : List Stat} (hs : VSorted l)
    (hp : ∀ s ∈ l, 1 ≤ s.g) (h : ∀ s ∈ l, Bnd err n s) :
    ∀ s ∈ compressImmut (2 * err * n) l, Bnd err n s := by
  cases l with
  | nil => simp [compressImmut]
  | cons s0 tl =>
    rw [compressImmut_head _ s0 tl hs (fun s h => hp s (by simp [h]))]
    intro s hs'
    rcases List.mem_cons.mp hs' with rfl | hs'
    · exact h s (by simp)
    · exact ctail_bnd tl (fun s h' => h s (by simp [h'])) s hs'

theorem binv_compress {err : Rat} (herr : 0 ≤ err) {q : QS} {xs : List Rat} (hi : Inv16 q xs)
    (h : BInv err q) : BInv err (compress q) := by
  have h' := binv_head herr h
  have hi' := inv16_head hi
  unfold compress
  refine ⟨h'.1, ?_⟩
  simp only [h'.1]
  exact binv_compressImmut hi'.sorted hi'.pos h'.2

theorem binv_flushed {err : Rat} (herr : 0 ≤ err) {q : QS} {xs : List Rat} (hi : Inv16 q xs)
    (h : BInv err q) : BInv err (flushed q) := by
  unfold flushed
  split
  · exact h
  · exact binv_compress herr hi h

theorem binv_eval {err : Rat} (herr : 0 ≤ err) (p : Prog) (hE : ErrorIs err p) : BInv err p.eval := by
  induction p with
  | new cfg => exact ⟨hE, by simp [Prog.eval, QS.new]⟩
  | insert p x ih =>
    have h := ih hE
    simp only [Prog.eval]
    unfold insert
    split
    · exact h
    · have h' : BInv err { p.eval with head := p.eval.head ++ [x] } := h
      have hi' := inv16_append (inv16_eval p) x
      simp only
      split
      · split
        · exact binv_compress herr (inv16_head hi') (binv_head herr h')
        · exact binv_head herr h'
      · exact h'
  | compress p ih => exact binv_compress herr (inv16_eval p) (ih hE)
  | query p ih => exact binv_flushed herr (inv16_eval p) (ih hE)
  | merge p o ih1 ih2 =>
    have h1 := binv_flushed herr (inv16_eval p) (ih1 hE.1)
    have h2 := binv_flushed herr (inv16_eval o) (ih2 hE.2)
    have i1 := inv16_flushed (inv16_eval p)
    have i2 := inv16_flushed (inv16_eval o)
    simp only [Prog.eval]
    unfold merge
    simp only
    split
    · exact h1
    · split
      · exact ⟨h1.1, h2.2⟩
      · have hs := mergeSampled_sorted _ _ i1.sorted i2.sorted
        have hperm := mergeSampled_perm (flushed p.eval).sampled (flushed o.eval).sampled
        refine ⟨h1.1, ?_⟩
        simp only [h1.1]
        refine binv_compressImmut hs ?_ ?_
        · intro s h
          rcases List.mem_append.mp (hperm.mem_iff.mp h) with h | h
          · exact i1.pos s h
          · exact i2.pos s h
        · intro s h
          rcases List.mem_append.mp (hperm.mem_iff.mp h) with h | h
          · exact Bnd.mono herr (by omega) (h1.2 s h)
          · exact Bnd.mono herr (by omega) (h2.2 s h)

/-! ### The query loop -/

/-- The same search without the upper-rank test, including the last sample. -/
def sel (rank te : Int) : Int → List Stat → Rat
  | _, [] => 0
  | _, [s] => s.value
  | m, s :: s' :: t => if rank ≤ m + s.g + te then s.value else sel rank te (m + s.g) (s' :: t)

def Entry (err : Rat) (n : Nat) (rank te m : Int) : Prop :=
  m + te + 1 ≤ rank ∨ (m = 0 ∧ te ≤ rank ∧ ⌊2 * err * (n : Rat)⌋ + 1 ≤ rank + te)

theorem lower17 {err : Rat} {n : Nat} {rank te m : Int} {s : Stat}
    (hte : err * n ≤ te) (hb : Bnd err n s)
    (hE : Entry err n rank te m) : m + s.g + s.delta - te ≤ rank := by
  obtain ⟨_, hb2, hb3⟩ := hb
  have h2 : s.delta ≤ ⌊2 * err * (n : Rat)⌋ := Int.le_floor.mpr hb2
  have h3 : ⌊2 * err * (n : Rat)⌋ ≤ 2 * te := by
    have : ((⌊2 * err * (n : Rat)⌋ : Int) : Rat) ≤ ((2 * te : Int) : Rat) := by
      have := Int.floor_le (2 * err * (n : Rat))
      push_cast; linarith
    exact_mod_cast this
  have h4 : s.g ≠ 1 → (s.g : Int) + s.delta ≤ 2 * te := by
    intro hg
    rcases hb3 with h | h
    · have : (((s.g : Int) + s.delta : Int) : Rat) ≤ ((2 * te : Int) : Rat) := by
        push_cast at h ⊢; linarith
      exact_mod_cast this
    · exact absurd h hg
  by_cases hg : s.g = 1
  · rw [hg]
    rcases hE with h | ⟨h, h', h''⟩ <;> push_cast <;> omega
  · have := h4 hg
    rcases hE with h | ⟨h, h', h''⟩ <;> omega

theorem queryLoop_sel {err : Rat} {n : Nat} {rank te : Int} (hte : err * n ≤ te) (l : List Stat)
    (hne : l ≠ []) (m : Int) (hb : ∀ s ∈ l, Bnd err n s) (hE : Entry err n rank te m) :
    (queryLoop rank te m l.dropLast).or (l.getLast?.map Stat.value) = some (sel rank te m l) := by
  induction l generalizing m with
  | nil => exact absurd rfl hne
  | cons s l ih =>
    cases l with
    | nil => simp [queryLoop, sel]
    | cons s' t =>
      have hl := lower17 hte (hb s (by simp)) hE
      rw [List.dropLast_cons_cons, queryLoop, sel]
      simp only [hl, true_and, List.getLast?_cons_cons]
      by_cases hu : rank ≤ m + s.g + te
      · rw [if_pos hu, if_pos hu]; rfl
      · rw [if_neg hu, if_neg hu]
        exact ih (by simp) (m + s.g) (fun s h => hb s (by simp [h])) (Or.inl (by omega))

theorem sel_rank {err e : Rat} {d : List Rat} {rank te : Int} (herr : 0 ≤ err)
    (hte : err * d.length ≤ te) (l : List Stat) (hne : l ≠ [])
    (m : Int) (r : Nat) (hr : (r : Int) = m + 1)
    (hb : ∀ s ∈ l, Bnd err d.length s) (hv : Val e d r l) (hg : r + gsum l = d.length)
    (hE : Entry err d.length rank te m) (hrn : rank ≤ d.length) :
    ∃ s ∈ l, sel rank te m l = s.value ∧ (numLT d s.value : Rat) ≤ rank + te + e ∧
      rank - te ≤ numLE d s.value := by
  have hte0 : (0 : Int) ≤ te := by
    have hte1 : (0 : Rat) ≤ te := le_trans (by positivity) hte
    exact_mod_cast hte1
  induction l generalizing m r with
  | nil => exact absurd rfl hne
  | cons s l ih =>
    have hl := lower17 hte (hb s (by simp)) hE
    have hl' : (m : Rat) + s.g + s.delta - te ≤ rank := by exact_mod_cast hl
    have hr' : (r : Rat) = m + 1 := by exact_mod_cast hr
    obtain ⟨v1, v2, v3⟩ := hv
    have hup : (numLT d s.value : Rat) ≤ rank + te + e := by rw [hr'] at v2; linarith
    cases l with
    | nil =>
      refine ⟨s, by simp, rfl, hup, ?_⟩
      simp only [gsum_cons, gsum_nil, Nat.add_zero] at hg
      omega
    | cons s' t =>
      rw [sel]
      by_cases hu : rank ≤ m + s.g + te
      · rw [if_pos hu]
        exact ⟨s, by simp, rfl, hup, by omega⟩
      · rw [if_neg hu]
        obtain ⟨u, hu1, hu2⟩ := ih (by simp) (m + s.g) (r + s.g) (by push_cast; omega)
          (fun s h => hb s (by simp [h])) v3 (by simp only [gsum_cons] at hg ⊢; omega)
          (Or.inl (by omega))
        exact ⟨u, List.mem_cons_of_mem _ hu1, hu2⟩

theorem sel_mem (rank te m : Int) (l : List Stat) (hne : l ≠ []) :
    ∃ s ∈ l, sel rank te m l = s.value := by
  induction l generalizing m with
  | nil => exact absurd rfl hne
  | cons s l ih =>
    cases l with
    | nil => exact ⟨s, by simp, rfl⟩
    | cons s' t =>
      rw [sel]
      split
      · exact ⟨s, by simp, rfl⟩
      · obtain ⟨u, hu, he⟩ := ih (m + s.g) (by simp)
        exact ⟨u, List.mem_cons_of_mem _ hu, he⟩

theorem sel_mono (rank rank' te m : Int) (hrr : rank ≤ rank') (l : List Stat) (hs : VSorted l) :
    sel rank te m l ≤ sel rank' te m l := by
  induction l generalizing m with
  | nil => simp [sel]
  | cons s l ih =>
    cases l with
    | nil => simp [sel]
    | cons s' t =>
      rw [sel, sel]
      by_cases hu : rank' ≤ m + s.g + te
      · rw [if_pos hu, if_pos (by omega)]
      · rw [if_neg hu]
        split
        · obtain ⟨u, hu, he⟩ := sel_mem rank' te (m + s.g) (s' :: t) (by simp)
          rw [he]
          exact List.rel_of_pairwise_cons hs hu
        · exact ih _ hs.of_cons

/-- The answer of a query on a non-empty flushed summary. -/
def answer (q : QS) (s0 : Stat) (t : List Stat) (p : Rat) : Rat :=
  if p ≤ q.cfg.error then s0.value
  else if 1 - q.cfg.error ≤ p then (t.getLastD s0).value
  else if t = [] then s0.value
  else sel ⌈p * q.count⌉ ⌈q.cfg.error * q.count⌉ 0 t

theorem entry17 {err p : Rat} {n : Nat} (hn : 1 ≤ n) (h1 : err < p) :
    Entry err n ⌈p * (n : Rat)⌉ ⌈err * (n : Rat)⌉ 0 := by
  have hn' : (0 : Rat) < n := by exact_mod_cast hn
  have hlt : err * (n : Rat) < p * n := by nlinarith
  refine Or.inr ⟨rfl, Int.ceil_le_ceil hlt.le, ?_⟩
  have h2 : ((⌊2 * err * (n : Rat)⌋ : Int) : Rat) < ((⌈p * (n : Rat)⌉ + ⌈err * (n : Rat)⌉ : Int) : Rat) := by
    have a := Int.floor_le (2 * err * (n : Rat))
    have b := Int.le_ceil (p * (n : Rat))
    have c := Int.le_ceil (err * (n : Rat))
    push_cast; linarith
  have := Int.cast_lt.mp h2
  omega

theorem queryFlushed_answer {err : Rat} {q : QS} (hb : BInv err q) (hc : q.count ≠ 0)
    {s0 : Stat} {t : List Stat} (hs : q.sampled = s0 :: t) {p : Rat} (hp0 : 0 ≤ p) (hp1 : p ≤ 1) :
    queryFlushed q p = .ok (answer q s0 t p) := by
  unfold queryFlushed answer
  rw [if_neg (by rw [not_or]; constructor <;> linarith), if_neg hc, hs]
  have hlast : (s0 :: t).getLast? = some (t.getLastD s0) := by
    rw [List.getLast?_cons, List.getLastD_eq_getLast?]
  rw [hlast]
  simp only [List.head?_cons, List.tail_cons]
  by_cases h1 : p ≤ q.cfg.error
  · simp [h1]
  · by_cases h2 : 1 - q.cfg.error ≤ p
    · simp [h1, h2]
    · simp only [h1, h2, if_false]
      cases t with
      | nil => simp [queryLoop]
      | cons a b =>
        rw [if_neg (by simp)]
        have hE := entry17 (Nat.one_le_iff_ne_zero.mpr hc) (not_le.mp h1)
        have hb' : ∀ s ∈ a :: b, Bnd q.cfg.error q.count s := by
          intro s h; rw [hb.1]; exact hb.2 s (by rw [hs]; exact List.mem_cons_of_mem _ h)
        have := queryLoop_sel (Int.le_ceil (q.cfg.error * (q.count : Rat))) (a :: b) (by simp) 0 hb' hE
        cases hq : queryLoop ⌈p * (q.count : Rat)⌉ ⌈q.cfg.error * (q.count : Rat)⌉ 0
            (a :: b).dropLast with
        | some v =>
          rw [hq] at this
          simp only [Option.some_or, Option.some.injEq] at this
          simp [this]
        | none =>
          rw [hq] at this
          simp only [Option.none_or] at this
          rw [List.getLast?_cons] at this
          simp only [Option.map_some, Option.some.injEq] at this
          rw [List.getLastD_cons, List.getLastD_eq_getLast?, this]

theorem getLastD_mem (t : List Stat) (s0 : Stat) : t.getLastD s0 ∈ s0 :: t := by
  cases t with
  | nil => simp
  | cons a b =>
    rw [List.getLastD_cons, List.getLastD_eq_getLast?]
    cases h : b.getLast? with
    | none => simp
    | some z => simp [List.mem_of_getLast? h]

theorem vsorted_last (t : List Stat) (s0 : Stat) (h : VSorted (s0 :: t)) :
    ∀ s ∈ s0 :: t, s.value ≤ (t.getLastD s0).value := by
  induction t generalizing s0 with
  | nil => intro s hs; simp at hs; simp [hs]
  | cons a b ih =>
    intro s hs
    rw [List.getLastD_cons]
    rcases List.mem_cons.mp hs with rfl | hs
    · exact le_trans (List.rel_of_pairwise_cons h (by simp)) (ih a h.of_cons a (by simp))
    · exact ih a h.of_cons s hs

theorem answer_mem (q : QS) (s0 : Stat) (t : List Stat) (p : Rat) :
    ∃ s ∈ s0 :: t, answer q s0 t p = s.value := by
  unfold answer
  split
  · exact ⟨s0, by simp, rfl⟩
  · split
    · exact ⟨_, getLastD_mem t s0, rfl⟩
    · split
      · exact ⟨s0, by simp, rfl⟩
      · rename_i hne
        obtain ⟨s, hs, he⟩ := sel_mem ⌈p * q.count⌉ ⌈q.cfg.error * q.count⌉ 0 t hne
        exact ⟨s, by simp [hs], he⟩

theorem answer_mono (q : QS) (s0 : Stat) (t : List Stat) (hs : VSorted (s0 :: t))
    {p p' : Rat} (hpp : p ≤ p') : answer q s0 t p ≤ answer q s0 t p' := by
  have hfirst : ∀ s ∈ s0 :: t, s0.value ≤ s.value := by
    intro s h
    rcases List.mem_cons.mp h with rfl | h
    · exact le_refl _
    · exact List.rel_of_pairwise_cons hs h
  have hlast := vsorted_last t s0 hs
  by_cases h1 : p ≤ q.cfg.error
  · obtain ⟨s, hm, he⟩ := answer_mem q s0 t p'
    rw [he]
    unfold answer
    rw [if_pos h1]; exact hfirst s hm
  · by_cases h2 : 1 - q.cfg.error ≤ p'
    · obtain ⟨s, hm, he⟩ := answer_mem q s0 t p
      rw [he]
      unfold answer
      rw [if_neg (by linarith), if_pos h2]; exact hlast s hm
    · unfold answer
      rw [if_neg h1, if_neg (by linarith : ¬ 1 - q.cfg.error ≤ p),
        if_neg (by linarith : ¬ p' ≤ q.cfg.error), if_neg h2]
      by_cases ht : t = []
      · rw [if_pos ht, if_pos ht]
      rw [if_neg ht, if_neg ht]
      exact sel_mono _ _ _ _
        (Int.ceil_le_ceil (mul_le_mul_of_nonneg_right hpp (Nat.cast_nonneg _))) t hs.of_cons

theorem answer_rank {err e : Rat} (herr : 0 ≤ err) (he : 0 ≤ e) {q : QS} {d : List Rat} (h : GK err e q d)
    (hd : d ≠ []) {s0 : Stat} {t : List Stat} (hs : q.sampled = s0 :: t) {p : Rat}
    (hp0 : 0 ≤ p) (hp1 : p ≤ 1) :
    (numLT d (answer q s0 t p) : Rat) < p * d.length + err * d.length + 2 + e ∧
      p * d.length - err * d.length - 1 < numLE d (answer q s0 t p) := by
  have hn : 1 ≤ d.length := List.length_pos_iff.mpr hd
  have hn' : (1 : Rat) ≤ d.length := by exact_mod_cast hn
  have hen : 0 ≤ err * (d.length : Rat) := by positivity
  have hpn : 0 ≤ p * (d.length : Rat) := by positivity
  have hpn1 : p * (d.length : Rat) ≤ d.length := by nlinarith
  obtain ⟨f1, f2⟩ := h.first s0 (by rw [hs]; simp)
  have hsort := h.sorted
  rw [hs] at hsort
  have hv := h.val
  rw [hs] at hv
  have hgs := h.gs
  rw [hs, gsum_cons, f1] at hgs
  unfold answer
  rw [h.cfg, h.count]
  by_cases h1 : p ≤ err
  · rw [if_pos h1, f2]
    have : p * (d.length : Rat) ≤ err * d.length := by nlinarith
    constructor
    · push_cast; linarith
    · have : (0 : Rat) ≤ numLE d s0.value := by positivity
      linarith
  · rw [if_neg h1]
    by_cases h2 : 1 - err ≤ p
    · rw [if_pos h2]
      have h3 : (d.length : Rat) - err * d.length ≤ p * d.length := by nlinarith
      have hle : (numLT d (t.getLastD s0).value : Rat) ≤ d.length := by exact_mod_cast numLT_le _ _
      have hall : d.length ≤ numLE d (t.getLastD s0).value := by
        have := val_last_le (e := e) (x := (t.getLastD s0).value) (s0 :: t) 0 hv
          (vsorted_last t s0 hsort) (Nat.zero_le _)
        simp only [gsum_cons, f1] at this
        omega
      have hall' : (d.length : Rat) ≤ numLE d (t.getLastD s0).value := by exact_mod_cast hall
      constructor <;> linarith
    · rw [if_neg h2]
      by_cases ht : t = []
      · rw [if_pos ht, f2]
        subst ht
        simp only [gsum_nil] at hgs
        have hlen : (d.length : Rat) = 1 := by exact_mod_cast (by omega : d.length = 1)
        have hv1 : (1 : Rat) ≤ numLE d s0.value := by
          have := hv.1; rw [f1] at this; exact_mod_cast (by omega : 1 ≤ numLE d s0.value)
        constructor
        · push_cast; linarith
        · linarith
      · rw [if_neg ht]
        have hE := entry17 hn (not_le.mp h1)
        have hrn : ⌈p * (d.length : Rat)⌉ ≤ (d.length : Int) := by
          rw [Int.ceil_le]; exact_mod_cast hpn1
        have hv3 := hv.2.2
        rw [f1] at hv3
        obtain ⟨s, _, he', hlo, hhi⟩ := sel_rank (e := e) herr (Int.le_ceil (err * (d.length : Rat))) t ht 0 1
          (by simp) (by
            intro s hs'
            have := h.bnd s (by rw [hs]; exact List.mem_cons_of_mem _ hs')
            rw [h.count] at this; exact this) hv3 hgs hE hrn
        rw [he']
        have c1 := Int.le_ceil (p * (d.length : Rat))
        have c2 := Int.ceil_lt_add_one (p * (d.length : Rat))
        have c3 := Int.ceil_lt_add_one (err * (d.length : Rat))
        have hhi' : ((⌈p * (d.length : Rat)⌉ : Int) : Rat) - ⌈err * (d.length : Rat)⌉ ≤ numLE d s.value := by
          exact_mod_cast hhi
        constructor <;> linarith

theorem flushed_flushed (q : QS) : flushed (flushed q) = flushed q := by
  generalize hg : flushed q = q'
  have h : q'.head = [] := by rw [← hg]; exact flushed_head q
  unfold flushed
  rw [if_pos h]

end Quantile
end Verif
