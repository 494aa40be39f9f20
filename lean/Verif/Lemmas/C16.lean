import Verif.Spec.C16
import Verif.Lemmas.Quantile

set_option autoImplicit false

namespace Verif
open Quantile Spec
namespace Quantile

/-- What holds of every summary that received the values `xs`. -/
structure Inv16 (q : QS) (xs : List Rat) : Prop where
  sorted : VSorted q.sampled
  mem : ∀ s ∈ q.sampled, s.value ∈ xs
  headMem : ∀ x ∈ q.head, x ∈ xs
  pos : ∀ s ∈ q.sampled, 1 ≤ s.g
  count : q.count + q.head.length = xs.length
  le : gsum q.sampled ≤ q.count
  ne : q.sampled = [] ↔ q.count = 0

/-- What holds in addition when no sample was lost. -/
structure Full16 (q : QS) : Prop where
  eq : gsum q.sampled = q.count
  cover : q.head ≠ [] → ∀ s ∈ q.sampled, ∃ h ∈ q.head, s.value ≤ h

theorem inv16_head {q : QS} {xs : List Rat} (h : Inv16 q xs) : Inv16 (insertHeadBuffer q) xs := by
  unfold insertHeadBuffer
  split
  · exact h
  · rename_i hne
    have hsortd : (q.head.insertionSort (· ≤ ·)).Pairwise (· ≤ ·) :=
      List.pairwise_insertionSort (r := (· ≤ ·)) _
    have hperm : (q.head.insertionSort (· ≤ ·)).Perm q.head := List.perm_insertionSort _ _
    have hmem := headLoop_mem q.cfg.error (q.head.insertionSort (· ≤ ·)) [] q.sampled q.count
    refine ⟨?_, ?_, by simp, ?_, ?_, ?_, ?_⟩
    · exact headLoop_sorted _ _ _ _ _ hsortd (by simp [VSorted]) h.sorted (by simp) (by simp)
    · intro s hs
      rcases hmem s hs with h' | h' | h'
      · simp at h'
      · exact h.mem s h'
      · exact h.headMem _ (hperm.mem_iff.mp h')
    · exact headLoop_pos _ _ _ _ _ (by simp) h.pos
    · simp only [headLoop_count, List.length_nil, Nat.add_zero, hperm.length_eq]
      exact h.count
    · simp only [headLoop_count]
      refine le_trans (headLoop_gsum_le _ _ _ _ _) ?_
      have := h.le
      simp only [gsum_nil]; omega
    · simp only [headLoop_count, hperm.length_eq]
      constructor
      · intro hnil
        exfalso
        obtain ⟨x, l, hl⟩ := List.exists_cons_of_ne_nil (l := q.head.insertionSort (· ≤ ·))
          (by intro h0; rw [h0] at hperm; exact hne (List.nil_perm.mp hperm))
        rw [hl, headLoop] at hnil
        have key : ∀ (l : List Rat) (acc rest : List Stat) (c : Nat), acc ≠ [] →
            (headLoop q.cfg.error l acc rest c).1 ≠ [] := by
          intro l
          induction l with
          | nil => intro acc rest c h; simpa [headLoop] using h
          | cons y l ih => intro acc rest c h; rw [headLoop]; exact ih _ _ _ (by simp)
        exact key _ _ _ _ (by simp) hnil
      · intro h0
        have : q.head.length = 0 := by omega
        exact absurd (List.length_eq_zero_iff.mp this) hne

theorem full16_head {q : QS} {xs : List Rat} (hi : Inv16 q xs) (h : Full16 q) :
    Full16 (insertHeadBuffer q) := by
  unfold insertHeadBuffer
  split
  · exact h
  · rename_i hne
    have hperm : (q.head.insertionSort (· ≤ ·)).Perm q.head := List.perm_insertionSort _ _
    refine ⟨?_, by simp⟩
    simp only [headLoop_count]
    rw [headLoop_gsum_eq _ _ _ _ _ hi.sorted, h.eq]
    · simp
    · intro r hr
      obtain ⟨x, hx, hrx⟩ := h.cover hne r hr
      exact ⟨x, hperm.mem_iff.mpr hx, hrx⟩

theorem head_empty (q : QS) : (insertHeadBuffer q).head = [] := by
  unfold insertHeadBuffer
  split
  · assumption
  · rfl

theorem head_cfg (q : QS) : (insertHeadBuffer q).cfg = q.cfg := by
  unfold insertHeadBuffer; split <;> rfl

theorem inv16_compress {q : QS} {xs : List Rat} (h : Inv16 q xs) : Inv16 (compress q) xs := by
  have hh := inv16_head h
  have := compressImmut_spec (2 * (insertHeadBuffer q).cfg.error * (insertHeadBuffer q).count)
    (insertHeadBuffer q).sampled hh.sorted hh.pos
  obtain ⟨i1, i2, i3, i4⟩ := this
  unfold compress
  refine ⟨i2, ?_, hh.headMem, i4, hh.count, ?_, ?_⟩
  · intro s hs
    obtain ⟨s', h1, h2⟩ := i3 s hs
    rw [← h2]; exact hh.mem s' h1
  · simp only [i1]; exact hh.le
  · simp only
    rw [← hh.ne]
    constructor
    · intro h0; by_contra hne; exact compressImmut_ne_nil _ _ hne h0
    · intro h0; rw [h0]; rfl

theorem full16_compress {q : QS} {xs : List Rat} (hi : Inv16 q xs) (h : Full16 q) :
    Full16 (compress q) := by
  have hh := inv16_head hi
  have hf := full16_head hi h
  have := compressImmut_spec (2 * (insertHeadBuffer q).cfg.error * (insertHeadBuffer q).count)
    (insertHeadBuffer q).sampled hh.sorted hh.pos
  unfold compress
  refine ⟨?_, ?_⟩
  · simp only [this.1]; exact hf.eq
  · intro hne; exact absurd (head_empty q) hne

theorem compress_head (q : QS) : (compress q).head = [] := head_empty q
theorem compress_cfg (q : QS) : (compress q).cfg = q.cfg := head_cfg q

theorem inv16_flushed {q : QS} {xs : List Rat} (h : Inv16 q xs) : Inv16 (flushed q) xs := by
  unfold flushed; split
  · exact h
  · exact inv16_compress h

theorem full16_flushed {q : QS} {xs : List Rat} (hi : Inv16 q xs) (h : Full16 q) :
    Full16 (flushed q) := by
  unfold flushed; split
  · exact h
  · exact full16_compress hi h

theorem flushed_head (q : QS) : (flushed q).head = [] := by
  unfold flushed; split
  · assumption
  · exact compress_head q

theorem flushed_cfg (q : QS) : (flushed q).cfg = q.cfg := by
  unfold flushed; split
  · rfl
  · exact compress_cfg q

theorem inv16_append {q : QS} {xs : List Rat} (h : Inv16 q xs) (x : Rat) :
    Inv16 { q with head := q.head ++ [x] } (xs ++ [x]) :=
  ⟨h.sorted, fun s hs => by simp [h.mem s hs], fun y hy => by
    rcases List.mem_append.mp hy with hy | hy
    · simp [h.headMem y hy]
    · simp_all, h.pos, by simp [← h.count]; omega, h.le, h.ne⟩

theorem inv16_insert {q : QS} {xs : List Rat} (h : Inv16 q xs) (x : Rat) :
    Inv16 (insert q x) (if x ∈ q.cfg.abnormal then xs else xs ++ [x]) := by
  unfold insert
  by_cases ha : x ∈ q.cfg.abnormal
  · simp only [ha, if_true]; exact h
  · simp only [ha, if_false]
    have h' := inv16_append h x
    split
    · split
      · exact inv16_compress (inv16_head h')
      · exact inv16_head h'
    · exact h'

theorem insert_cfg (q : QS) (x : Rat) : (insert q x).cfg = q.cfg := by
  unfold insert
  split
  · rfl
  · simp only
    split
    · split
      · rw [compress_cfg, head_cfg]
      · rw [head_cfg]
    · rfl

theorem full16_insert {q : QS} {xs : List Rat} (hi : Inv16 q xs) (h : Full16 q) (x : Rat)
    (hx : x ∈ q.cfg.abnormal ∨ q.sampled = [] ∨ ∀ y ∈ xs, y ≤ x) : Full16 (insert q x) := by
  unfold insert
  by_cases ha : x ∈ q.cfg.abnormal
  · simp only [ha, if_true]; exact h
  · simp only [ha, if_false]
    have h' := inv16_append hi x
    have hf : Full16 { q with head := q.head ++ [x] } := by
      refine ⟨h.eq, fun _ s hs => ⟨x, by simp, ?_⟩⟩
      rcases hx with hx | hx | hx
      · exact absurd hx ha
      · simp only at hs; rw [hx] at hs; simp at hs
      · exact hx _ (hi.mem s hs)
    split
    · split
      · exact full16_compress (inv16_head h') (full16_head h' hf)
      · exact full16_head h' hf
    · exact hf

theorem merge_cfg (q o : QS) : (merge q o).cfg = q.cfg := by
  unfold merge
  simp only
  split
  · exact flushed_cfg q
  · split
    · exact flushed_cfg q
    · exact flushed_cfg q

theorem inv16_merge {q o : QS} {xs ys : List Rat} (hq : Inv16 q xs) (ho : Inv16 o ys) :
    Inv16 (merge q o) (xs ++ ys) := by
  have hq' := inv16_flushed hq
  have ho' := inv16_flushed ho
  have hqh := flushed_head q
  have hoh := flushed_head o
  unfold merge
  simp only
  split
  · rename_i h0
    have : ys = [] := by
      have := ho'.count; rw [h0, hoh] at this
      exact List.length_eq_zero_iff.mp (by simpa using this.symm)
    subst this
    simpa using hq'
  · rename_i h0
    split
    · rename_i h1
      have : xs = [] := by
        have := hq'.count; rw [h1, hqh] at this
        exact List.length_eq_zero_iff.mp (by simpa using this.symm)
      subst this
      refine ⟨ho'.sorted, by simpa using ho'.mem, by simp [hqh], ho'.pos, ?_, ho'.le, ho'.ne⟩
      have := ho'.count
      simp only [hoh, hqh] at this ⊢
      simpa using this
    · rename_i h1
      have hs := mergeSampled_sorted _ _ hq'.sorted ho'.sorted
      have hperm := mergeSampled_perm (flushed q).sampled (flushed o).sampled
      have hpos : ∀ s ∈ mergeSampled (flushed q).sampled (flushed o).sampled, 1 ≤ s.g := by
        intro s h
        rcases List.mem_append.mp (hperm.mem_iff.mp h) with h | h
        · exact hq'.pos s h
        · exact ho'.pos s h
      obtain ⟨i1, i2, i3, i4⟩ := compressImmut_spec
        (2 * (flushed q).cfg.error * ((flushed q).count + (flushed o).count : Nat)) _ hs hpos
      refine ⟨i2, ?_, by simp [hqh], i4, ?_, ?_, ?_⟩
      · intro s h
        obtain ⟨s', h1, h2⟩ := i3 s h
        rw [← h2]
        rcases List.mem_append.mp (hperm.mem_iff.mp h1) with h | h
        · simp [hq'.mem s' h]
        · simp [ho'.mem s' h]
      · have c1 := hq'.count
        have c2 := ho'.count
        simp only [hqh, hoh] at c1 c2 ⊢
        simp only [List.length_append, List.length_nil] at *
        omega
      · simp only [i1, gsum_perm hperm, gsum_append]
        exact Nat.add_le_add hq'.le ho'.le
      · simp only
        constructor
        · intro hnil
          exfalso
          have hne : mergeSampled (flushed q).sampled (flushed o).sampled ≠ [] := by
            intro h0'
            rw [h0'] at hperm
            have := List.nil_perm.mp hperm
            rw [List.append_eq_nil_iff] at this
            exact h1 (hq'.ne.mp this.1)
          exact compressImmut_ne_nil _ _ hne hnil
        · intro h; omega

theorem full16_merge {q o : QS} {xs ys : List Rat} (hq : Inv16 q xs) (ho : Inv16 o ys)
    (fq : Full16 q) (fo : Full16 o) : Full16 (merge q o) := by
  have hq' := inv16_flushed hq
  have ho' := inv16_flushed ho
  have fq' := full16_flushed hq fq
  have fo' := full16_flushed ho fo
  have hqh := flushed_head q
  unfold merge
  simp only
  split
  · exact fq'
  · split
    · exact ⟨fo'.eq, fun h => absurd hqh h⟩
    · have hs := mergeSampled_sorted _ _ hq'.sorted ho'.sorted
      have hperm := mergeSampled_perm (flushed q).sampled (flushed o).sampled
      have hpos : ∀ s ∈ mergeSampled (flushed q).sampled (flushed o).sampled, 1 ≤ s.g := by
        intro s h
        rcases List.mem_append.mp (hperm.mem_iff.mp h) with h | h
        · exact hq'.pos s h
        · exact ho'.pos s h
      have := compressImmut_spec
        (2 * (flushed q).cfg.error * ((flushed q).count + (flushed o).count : Nat)) _ hs hpos
      refine ⟨?_, fun h => absurd hqh h⟩
      simp only [this.1, gsum_perm hperm, gsum_append, fq'.eq, fo'.eq]

theorem eval_cfg (p : Prog) : p.eval.cfg = cfgOf p := by
  induction p with
  | new cfg => rfl
  | insert p x ih => simp [Prog.eval, insert_cfg, ih, cfgOf]
  | compress p ih => simp [Prog.eval, compress_cfg, ih, cfgOf]
  | merge p o ih1 _ => simp [Prog.eval, merge_cfg, ih1, cfgOf]
  | query p ih => simp [Prog.eval, flushed_cfg, ih, cfgOf]

theorem inv16_eval (p : Prog) : Inv16 p.eval (inserted p) := by
  induction p with
  | new cfg => exact ⟨by simp [Prog.eval, QS.new, VSorted], by simp [Prog.eval, QS.new],
      by simp [Prog.eval, QS.new], by simp [Prog.eval, QS.new], by simp [Prog.eval, QS.new, inserted],
      by simp [Prog.eval, QS.new], by simp [Prog.eval, QS.new]⟩
  | insert p x ih =>
    have := inv16_insert ih x
    rw [eval_cfg] at this
    exact this
  | compress p ih => exact inv16_compress ih
  | merge p o ih1 ih2 => exact inv16_merge ih1 ih2
  | query p ih => exact inv16_flushed ih

theorem full16_eval (p : Prog) (h : Tame p) : Full16 p.eval := by
  induction p with
  | new cfg => exact ⟨rfl, by simp [Prog.eval, QS.new]⟩
  | insert p x ih =>
    apply full16_insert (inv16_eval p) (ih h.1)
    rw [eval_cfg]; exact h.2
  | compress p ih => exact full16_compress (inv16_eval p) (ih h)
  | merge p o ih1 ih2 => exact full16_merge (inv16_eval p) (inv16_eval o) (ih1 h.1) (ih2 h.2)
  | query p ih => exact full16_flushed (inv16_eval p) (ih h)

end Quantile
end Verif
