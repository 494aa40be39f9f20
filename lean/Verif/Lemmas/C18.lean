import Verif.Lemmas.C17
import Mathlib.Tactic.FieldSimp
import Mathlib.Algebra.Order.Field.Basic

set_option autoImplicit false

namespace Verif
open Quantile Spec
namespace Quantile

/-- The program that inserts a list of values. -/
def progOf (cfg : Config) (data : List Rat) : Prog := data.foldl Prog.insert (.new cfg)

theorem progOf_append (cfg : Config) (data : List Rat) (x : Rat) :
    progOf cfg (data ++ [x]) = .insert (progOf cfg data) x := by
  simp [progOf, List.foldl_append]

theorem insertAll_append (q : QS) (xs : List Rat) (x : Rat) :
    insertAll q (xs ++ [x]) = insert (insertAll q xs) x := by
  simp [insertAll, List.foldl_append]

theorem progOf_spec (cfg : Config) (data : List Rat) :
    (progOf cfg data).eval = insertAll (.new cfg) data ∧ cfgOf (progOf cfg data) = cfg ∧
    inserted (progOf cfg data) = data.filter (· ∉ cfg.abnormal) ∧
    ErrorIs cfg.error (progOf cfg data) ∧ MergeFree (progOf cfg data) := by
  induction data using List.reverseRecOn with
  | nil => exact ⟨rfl, rfl, rfl, rfl, trivial⟩
  | append_singleton data x ih =>
    obtain ⟨h1, h2, h3, h4, h5⟩ := ih
    rw [progOf_append, insertAll_append]
    refine ⟨by rw [Prog.eval, h1], by rw [cfgOf, h2], ?_, h4, h5⟩
    rw [inserted, h2, h3]
    by_cases hx : x ∈ cfg.abnormal <;> simp [hx]

theorem query_ok {err : Rat} (herr : 0 ≤ err) (p : Prog) (hE : ErrorIs err p) {q : Rat} (h0 : 0 ≤ q)
    (h1 : q ≤ 1) :
    ∃ v, query p.eval q = .ok v ∧ (inserted p = [] → v = 0) ∧ (inserted p ≠ [] → v ∈ inserted p) := by
  have hb := binv_flushed herr (inv16_eval p) (binv_eval herr p hE)
  have hi := inv16_flushed (inv16_eval p)
  have hc := hi.count
  rw [flushed_head, List.length_nil, Nat.add_zero] at hc
  unfold query
  by_cases hn : inserted p = []
  · refine ⟨0, ?_, fun _ => rfl, fun h => absurd hn h⟩
    unfold queryFlushed
    rw [if_neg (by rw [not_or]; constructor <;> linarith), if_pos (by rw [hc, hn]; rfl)]
  · have hc0 : (flushed p.eval).count ≠ 0 := by
      rw [hc]; intro h; exact hn (List.length_eq_zero_iff.mp h)
    have hne : (flushed p.eval).sampled ≠ [] := fun h => hc0 (hi.ne.mp h)
    obtain ⟨s0, t, hs⟩ := List.exists_cons_of_ne_nil hne
    refine ⟨_, queryFlushed_answer hb hc0 hs h0 h1, fun h => absurd h hn, fun _ => ?_⟩
    obtain ⟨s, hm, he⟩ := answer_mem (flushed p.eval) s0 t q
    rw [he]; exact hi.mem s (by rw [hs]; exact hm)

theorem query_mono {err : Rat} (herr : 0 ≤ err) (p : Prog) (hE : ErrorIs err p) {q q' : Rat} (h0 : 0 ≤ q)
    (hqq : q ≤ q') (h1 : q' ≤ 1) {v v' : Rat} (hv : query p.eval q = .ok v)
    (hv' : query p.eval q' = .ok v') : v ≤ v' := by
  have hb := binv_flushed herr (inv16_eval p) (binv_eval herr p hE)
  have hi := inv16_flushed (inv16_eval p)
  unfold query at hv hv'
  by_cases hc0 : (flushed p.eval).count = 0
  · unfold queryFlushed at hv hv'
    rw [if_neg (by rw [not_or]; constructor <;> linarith), if_pos hc0] at hv hv'
    cases hv; cases hv'; exact le_refl _
  · have hne : (flushed p.eval).sampled ≠ [] := fun h => hc0 (hi.ne.mp h)
    obtain ⟨s0, t, hs⟩ := List.exists_cons_of_ne_nil hne
    rw [queryFlushed_answer hb hc0 hs h0 (by linarith)] at hv
    rw [queryFlushed_answer hb hc0 hs (by linarith) h1] at hv'
    cases hv; cases hv'
    exact answer_mono _ _ _ (by rw [← hs]; exact hi.sorted) hqq

/-! ### Split points from a monotone query -/

theorem splitLoop_spec (ask : Rat → Except PyErr Rat) (f : Rat → Rat) (qs acc : List Rat)
    (hask : ∀ q ∈ qs, ask q = .ok (f q)) (hmono : ∀ a ∈ qs, ∀ b ∈ qs, a ≤ b → f a ≤ f b)
    (hqs : qs.Pairwise (· ≤ ·)) (hacc : acc.Pairwise (· < ·)) (hle : ∀ a ∈ acc, ∀ q ∈ qs, a ≤ f q) :
    ∃ sps, splitLoop ask qs acc = .ok sps ∧ sps.Pairwise (· < ·) ∧
      ∀ v, v ∈ sps ↔ v ∈ acc ∨ ∃ q ∈ qs, f q = v := by
  induction qs generalizing acc with
  | nil => exact ⟨acc, rfl, hacc, by simp⟩
  | cons q qs ih =>
    rw [splitLoop, hask q (by simp)]
    simp only [bind, Except.bind]
    have hq : ∀ y ∈ qs, f q ≤ f y := fun y hy =>
      hmono q (by simp) y (by simp [hy]) (List.rel_of_pairwise_cons hqs hy)
    obtain ⟨sps, h1, h2, h3⟩ := ih (if f q ∈ acc then acc else acc ++ [f q])
      (fun y hy => hask y (by simp [hy]))
      (fun a ha b hb => hmono a (by simp [ha]) b (by simp [hb])) hqs.of_cons
      (by
        split
        · exact hacc
        · rename_i hn
          rw [List.pairwise_append]
          refine ⟨hacc, List.pairwise_singleton _ _, fun a ha b hb => ?_⟩
          simp at hb; subst hb
          exact lt_of_le_of_ne (hle a ha q (by simp)) (fun h => hn (h ▸ ha)))
      (by
        intro a ha y hy
        split at ha
        · exact hle a ha y (by simp [hy])
        · rcases List.mem_append.mp ha with ha | ha
          · exact hle a ha y (by simp [hy])
          · simp at ha; subst ha; exact hq y hy)
    refine ⟨sps, h1, h2, fun v => ?_⟩
    rw [h3]
    constructor
    · rintro (h | ⟨y, hy, he⟩)
      · split at h
        · exact Or.inl h
        · rcases List.mem_append.mp h with h | h
          · exact Or.inl h
          · simp at h; exact Or.inr ⟨q, by simp, h.symm⟩
      · exact Or.inr ⟨y, by simp [hy], he⟩
    · rintro (h | ⟨y, hy, he⟩)
      · left; split
        · exact h
        · simp [h]
      · rcases List.mem_cons.mp hy with rfl | hy
        · left; split
          · rename_i hm; rw [← he]; exact hm
          · simp [he]
        · exact Or.inr ⟨y, hy, he⟩

theorem percentiles_spec (n : Nat) (hn : 1 ≤ n) :
    (percentiles n).Pairwise (· ≤ ·) ∧ ∀ q ∈ percentiles n, 0 < q ∧ q < 1 := by
  have hn' : (0 : Rat) < n := by exact_mod_cast hn
  constructor
  · unfold percentiles
    rw [List.pairwise_map]
    refine List.Pairwise.imp ?_ (List.pairwise_lt_range (n := n - 1))
    intro a b hab
    apply mul_le_mul_of_nonneg_right
    · exact_mod_cast (by omega : a + 1 ≤ b + 1)
    · positivity
  · intro q hq
    unfold percentiles at hq
    rw [List.mem_map] at hq
    obtain ⟨i, hi, rfl⟩ := hq
    rw [List.mem_range] at hi
    constructor
    · apply mul_pos
      · exact_mod_cast Nat.succ_pos i
      · positivity
    · rw [mul_one_div, div_lt_one hn']
      exact_mod_cast (by omega : i + 1 < n)

theorem splitLoop_total (ask : Rat → Except PyErr Rat) (qs acc : List Rat)
    (hok : ∀ q ∈ qs, ∃ v, ask q = .ok v) : ∃ sps, splitLoop ask qs acc = .ok sps := by
  induction qs generalizing acc with
  | nil => exact ⟨acc, rfl⟩
  | cons q qs ih =>
    obtain ⟨v, hv⟩ := hok q (by simp)
    rw [splitLoop, hv]
    exact ih _ (fun p hp => hok p (List.mem_cons_of_mem _ hp))

theorem splitPoints_total (ask : Rat → Except PyErr Rat) (n : Nat) (hn : 1 ≤ n)
    (hok : ∀ q, 0 ≤ q → q ≤ 1 → ∃ v, ask q = .ok v) : ∃ sps, splitPoints ask n = .ok sps := by
  unfold splitPoints
  rw [if_neg (by omega)]
  exact splitLoop_total ask _ _ fun q hq =>
    hok q ((percentiles_spec n hn).2 q hq).1.le ((percentiles_spec n hn).2 q hq).2.le

/-- Strictly increasing split points from a monotone total query. -/
theorem splitPoints_increasing (ask : Rat → Except PyErr Rat) (n : Nat) (hn : 1 ≤ n)
    (hok : ∀ q, 0 ≤ q → q ≤ 1 → ∃ v, ask q = .ok v)
    (hmono : ∀ q q' v v', 0 ≤ q → q ≤ q' → q' ≤ 1 → ask q = .ok v → ask q' = .ok v' → v ≤ v') :
    ∃ sps, splitPoints ask n = .ok sps ∧ sps.Pairwise (· < ·) ∧
      ∀ v, v ∈ sps ↔ ∃ i : Nat, 1 ≤ i ∧ i < n ∧ ask ((i : Rat) / n) = .ok v := by
  classical
  obtain ⟨hs, hr⟩ := percentiles_spec n hn
  let f : Rat → Rat := fun q => match ask q with | .ok v => v | .error _ => 0
  have hf : ∀ q ∈ percentiles n, ask q = .ok (f q) := by
    intro q hq
    obtain ⟨v, hv⟩ := hok q (hr q hq).1.le (hr q hq).2.le
    simp only [f, hv]
  obtain ⟨sps, h1, h2, h3⟩ := splitLoop_spec ask f (percentiles n) [] hf
    (fun a ha b hb hab => hmono a b _ _ (hr a ha).1.le hab (hr b hb).2.le (hf a ha) (hf b hb))
    hs (by simp) (by simp)
  refine ⟨sps, by unfold splitPoints; rw [if_neg (by omega), h1], h2, fun v => ?_⟩
  rw [h3]
  have hmem : ∀ q, q ∈ percentiles n ↔ ∃ i : Nat, 1 ≤ i ∧ i < n ∧ q = (i : Rat) / n := by
    intro q
    unfold percentiles
    rw [List.mem_map]
    constructor
    · rintro ⟨i, hi, rfl⟩
      rw [List.mem_range] at hi
      exact ⟨i + 1, by omega, by omega, by rw [mul_one_div]⟩
    · rintro ⟨i, h1, h2, rfl⟩
      refine ⟨i - 1, by rw [List.mem_range]; omega, ?_⟩
      rw [mul_one_div, Nat.sub_add_cancel h1]
  constructor
  · rintro (h | ⟨q, hq, he⟩)
    · simp at h
    · obtain ⟨i, h1, h2, rfl⟩ := (hmem q).mp hq
      exact ⟨i, h1, h2, by rw [hf _ hq, he]⟩
  · rintro ⟨i, h1, h2, he⟩
    right
    have hq := (hmem ((i : Rat) / n)).mpr ⟨i, h1, h2, rfl⟩
    refine ⟨_, hq, ?_⟩
    have := hf _ hq
    rw [he] at this
    exact (Except.ok.inj this).symm

/-! ### Sparse summaries -/

theorem sparse_foldl (cfg : Config) (data : List Rat) :
    (data.foldl Sparse.insert (Sparse.new cfg)).qs = insertAll (.new cfg) data ∧
    (data.foldl Sparse.insert (Sparse.new cfg)).smaller = data.countP (· < floatZero) ∧
    (data.foldl Sparse.insert (Sparse.new cfg)).bigger = data.countP (floatZero ≤ ·) := by
  induction data using List.reverseRecOn with
  | nil => exact ⟨rfl, rfl, rfl⟩
  | append_singleton data x ih =>
    obtain ⟨h1, h2, h3⟩ := ih
    rw [List.foldl_append, insertAll_append]
    simp only [List.foldl_cons, List.foldl_nil, List.countP_append]
    generalize data.foldl Sparse.insert (Sparse.new cfg) = S at *
    unfold Sparse.insert
    by_cases hx : x < floatZero
    · rw [if_pos hx]
      refine ⟨by rw [h1], ?_, ?_⟩
      · simp [h2, hx]
      · simp [h3, hx]
    · rw [if_neg hx]
      refine ⟨by rw [h1], ?_, ?_⟩
      · simp [h2, hx]
      · simp [h3, not_lt.mp hx]

/-- What the sparse query computes, for data without abnormal values. -/
theorem sparse_facts (cfg : Config) (data : List Rat) (total : Nat) (hab : ∀ x ∈ data, x ∉ cfg.abnormal) :
    let s := sparseOf cfg data total
    s.qs = (Prog.compress (progOf cfg data)).eval ∧ s.total = total ∧
    s.smaller = data.countP (· < floatZero) ∧ s.bigger = data.countP (floatZero ≤ ·) ∧
    s.smaller + s.bigger = data.length ∧ s.qs.count = data.length := by
  obtain ⟨h1, h2, h3⟩ := sparse_foldl cfg data
  have hp := progOf_spec cfg data
  have hq : (sparseOf cfg data total).qs = (Prog.compress (progOf cfg data)).eval := by
    simp only [sparseOf, Sparse.setTotal, Sparse.compress, Prog.eval, h1, hp.1]
  have hlen : data.countP (· < floatZero) + data.countP (floatZero ≤ ·) = data.length := by
    rw [List.length_eq_countP_add_countP (fun x => decide (x < floatZero)) (l := data)]
    congr 1
    apply List.countP_congr
    intro x _
    simp
  refine ⟨hq, rfl, h2, h3, ?_, ?_⟩
  · simp only [sparseOf, Sparse.setTotal, Sparse.compress, h2, h3]; exact hlen
  · rw [hq]
    have := (inv16_eval (Prog.compress (progOf cfg data))).count
    have hh : (Prog.compress (progOf cfg data)).eval.head = [] := by
      simp only [Prog.eval]; exact compress_head _
    rw [hh, List.length_nil, Nat.add_zero] at this
    rw [this, inserted, hp.2.2.1, List.filter_eq_self.mpr]
    intro x hx
    simpa using hab x hx

/-- The three regions of a sparse query. -/
theorem sparse_query (s : Sparse) (ht : 1 ≤ s.total) (hc : s.qs.count = s.smaller + s.bigger)
    (hle : s.smaller + s.bigger ≤ s.total) (q : Rat) (h0 : 0 ≤ q) (h1 : q ≤ 1) :
    ((s.smaller : Rat) ≤ q * s.total ∧ q * s.total ≤ (s.total : Rat) - s.bigger → s.query q = .ok 0) ∧
    (q * s.total < s.smaller → s.query q = Quantile.query s.qs (q * s.total / (s.smaller + s.bigger : Nat))) ∧
    ((s.total : Rat) - s.bigger < q * s.total →
      s.query q = Quantile.query s.qs
        ((q * s.total - (s.total - s.smaller - s.bigger)) / (s.smaller + s.bigger : Nat))) := by
  have hT : (0 : Rat) < s.total := by exact_mod_cast ht
  have hT0 : (s.total : Rat) ≠ 0 := ne_of_gt hT
  have hle' : (s.smaller : Rat) + s.bigger ≤ s.total := by exact_mod_cast hle
  have hlow : s.zeroLower = .ok ((s.smaller : Rat) / s.total) := by
    unfold Sparse.zeroLower pyDiv
    by_cases h : s.smaller = 0
    · simp [h]
    · simp [h, hT0]
  have hqT : q * s.total ≤ s.total := by nlinarith
  refine ⟨?_, ?_, ?_⟩
  · rintro ⟨ha, hb⟩
    unfold Sparse.query
    rw [hlow]
    simp only [bind, Except.bind]
    rw [if_pos (by rw [div_le_iff₀ hT]; exact ha)]
    unfold Sparse.zeroUpper pyDiv
    by_cases hbig : s.bigger = 0
    · simp only [hbig, if_true]
      have : q ≤ (s.total : Rat) := le_trans h1 (by exact_mod_cast ht)
      simp [this]
    · simp only [hbig, if_false, hT0]
      have : q ≤ (((s.smaller : Int) + ((s.total : Int) - s.smaller - s.bigger) : Int) : Rat) / s.total := by
        rw [le_div_iff₀ hT]; push_cast; linarith
      simp only [this, decide_true, if_true]
  · intro ha
    have hsm : s.smaller ≠ 0 := by
      intro h; rw [h] at ha; push_cast at ha; nlinarith
    have hcpos : (0 : Rat) < (s.smaller + s.bigger : Nat) := by
      exact_mod_cast (by omega : 0 < s.smaller + s.bigger)
    unfold Sparse.query
    rw [hlow]
    simp only [bind, Except.bind]
    have hlt : ¬ (s.smaller : Rat) / s.total ≤ q := by
      rw [div_le_iff₀ hT, not_le]; exact ha
    rw [if_neg hlt]
    simp only [Bool.false_eq_true, if_false]
    unfold Sparse.convert
    simp only [hlow, bind, Except.bind, hc]
    by_cases hz : (s.total : Int) - ((s.smaller + s.bigger : Nat) : Int) = 0
    · rw [if_pos hz]
      have : (s.total : Rat) = (s.smaller + s.bigger : Nat) := by
        exact_mod_cast (by omega : s.total = s.smaller + s.bigger)
      rw [this]
      rw [mul_div_cancel_right₀ _ (ne_of_gt hcpos)]
    · rw [if_neg hz, if_pos (not_le.mp hlt)]
      unfold pyDiv
      rw [if_neg (ne_of_gt hcpos)]
      simp only
      congr 1
      rw [mul_comm q, mul_div_right_comm]
  · intro ha
    have hbig : s.bigger ≠ 0 := by
      intro h; rw [h] at ha; push_cast at ha; linarith
    have hcpos : (0 : Rat) < (s.smaller + s.bigger : Nat) := by
      exact_mod_cast (by omega : 0 < s.smaller + s.bigger)
    have hup : s.zeroUpper = .ok (((s.total : Rat) - s.bigger) / s.total) := by
      unfold Sparse.zeroUpper pyDiv
      simp only [hbig, if_false, hT0]
      congr 2
      push_cast; ring
    have hge : (s.smaller : Rat) / s.total ≤ q := by rw [div_le_iff₀ hT]; linarith
    have hnu : ¬ q ≤ ((s.total : Rat) - s.bigger) / s.total := by
      rw [le_div_iff₀ hT, not_le]; exact ha
    unfold Sparse.query
    rw [hlow]
    simp only [bind, Except.bind]
    rw [if_pos hge, hup]
    simp only [hnu, decide_false, Bool.false_eq_true, if_false]
    unfold Sparse.convert
    simp only [hlow, hup, bind, Except.bind, hc]
    by_cases hz : (s.total : Int) - ((s.smaller + s.bigger : Nat) : Int) = 0
    · rw [if_pos hz]
      have : (s.total : Rat) = (s.smaller + s.bigger : Nat) := by
        exact_mod_cast (by omega : s.total = s.smaller + s.bigger)
      simp only
      congr 1
      rw [eq_div_iff (ne_of_gt hcpos), this]; push_cast; ring
    · rw [if_neg hz, if_neg (not_lt.mpr hge)]
      unfold pyDiv
      have hden : 1 - ((s.total : Rat) - s.bigger) / s.total + (s.smaller : Rat) / s.total
          = (s.smaller + s.bigger : Nat) / s.total := by
        push_cast; field_simp; ring
      have hden0 : 1 - ((s.total : Rat) - s.bigger) / s.total + (s.smaller : Rat) / s.total ≠ 0 := by
        rw [hden]; positivity
      rw [if_neg hden0]
      simp only
      congr 1
      rw [hden]
      push_cast at hcpos ⊢
      field_simp
      ring

end Quantile
end Verif
