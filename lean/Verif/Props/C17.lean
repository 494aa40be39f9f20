import Verif.Lemmas.C18

/-!
# C17 – quantile queries respect the promised rank error

With `n` inserted values and quantile `q`, the answer `v` is an inserted value such that
fewer than `q n + ε n + 2` values are smaller than `v`, and more than `q n - ε n - 1` values
are at most `v`: the rank of `v` is off by at most `ε n` plus rounding, within the
documented `2 ε n` plus rounding.  Proved for every program of insertions, compressions and
queries that does not lose samples (`Tame`, see C16).  Merging does not adjust the stored
uncertainties, so each merge adds its own term (`slack`).  When samples are lost the claim is
false (`C17_lost_samples_refuted`).
-/

set_option autoImplicit false

namespace Verif
open Quantile Spec

/-- General form: tame programs including merges. -/
theorem C17_rank_error_partial (err : Rat) (herr : 0 ≤ err) (p : Prog) (hE : ErrorIs err p)
    (ht : Tame p) (hne : inserted p ≠ []) (q : Rat) (h0 : 0 ≤ q) (h1 : q ≤ 1) :
    ∃ v, query p.eval q = .ok v ∧ v ∈ inserted p ∧
      (numLT (inserted p) v : Rat) < q * (inserted p).length + err * (inserted p).length + 2 + slack err p ∧
      q * (inserted p).length - err * (inserted p).length - 1 < numLE (inserted p) v := by
  obtain ⟨v, hv, _, hm⟩ := query_ok herr p hE h0 h1
  obtain ⟨d, hp, hg⟩ := gk_eval herr p hE ht
  obtain ⟨d', hp', hg'⟩ := gk_flushed herr (slack_nonneg herr p) hg (full16_eval p ht).cover
  have hperm := hp'.trans hp
  have hd : d' ≠ [] := by rintro rfl; exact hne (List.nil_perm.mp hperm)
  have hb := binv_flushed herr (inv16_eval p) (binv_eval herr p hE)
  have hc0 : (flushed p.eval).count ≠ 0 := by
    rw [hg'.count]; intro h; exact hd (List.length_eq_zero_iff.mp h)
  have hsn : (flushed p.eval).sampled ≠ [] := fun h => hd (gk_nil hg' h)
  obtain ⟨s0, t, hs⟩ := List.exists_cons_of_ne_nil hsn
  have hans := queryFlushed_answer hb hc0 hs h0 h1
  have hrank := answer_rank herr (slack_nonneg herr p) hg' hd hs h0 h1
  unfold query at hv
  rw [hans] at hv
  have hveq := Except.ok.inj hv
  refine ⟨v, by unfold query; rw [hans, hveq], hm hne, ?_⟩
  rw [← hveq, ← hperm.length_eq, ← numLT_perm hperm, ← numLE_perm hperm]
  exact hrank

/-- Without merges (how the binning code builds its summaries). -/
theorem C17_promise_partial (err : Rat) (herr : 0 ≤ err) (p : Prog) (hE : ErrorIs err p)
    (ht : Tame p) (hm : MergeFree p) (hne : inserted p ≠ []) (q : Rat) (h0 : 0 ≤ q) (h1 : q ≤ 1) :
    ∃ v, query p.eval q = .ok v ∧ v ∈ inserted p ∧
      (numLT (inserted p) v : Rat) < q * (inserted p).length + err * (inserted p).length + 2 ∧
      q * (inserted p).length - err * (inserted p).length - 1 < numLE (inserted p) v := by
  have hz : slack err p = 0 := by
    clear hE ht hne
    induction p with
    | new => rfl
    | insert p x ih => exact ih hm
    | compress p ih => exact ih hm
    | query p ih => exact ih hm
    | merge p o => exact hm.elim
  have := C17_rank_error_partial err herr p hE ht hne q h0 h1
  rwa [hz, add_zero] at this

/-- One column of at most `head_size` values, as the dense binning code summarises it. -/
theorem C17_column_partial (cfg : Config) (herr : 0 ≤ cfg.error) (data : List Rat)
    (hab : ∀ x ∈ data, x ∉ cfg.abnormal) (hlen : data.length < cfg.headSize)
    (hne : data ≠ []) (q : Rat) (h0 : 0 ≤ q) (h1 : q ≤ 1) :
    ∃ v, query (denseOf cfg data) q = .ok v ∧ v ∈ data ∧
      (numLT data v : Rat) < q * data.length + cfg.error * data.length + 2 ∧
      q * data.length - cfg.error * data.length - 1 < numLE data v := by
  obtain ⟨e1, e2, e3, e4, e5⟩ := progOf_spec cfg data
  have hf : inserted (progOf cfg data) = data := by
    rw [e3, List.filter_eq_self.mpr]
    intro x hx; simpa using hab x hx
  have key : ∀ l : List Rat, l.length < cfg.headSize → Tame (progOf cfg l) ∧ (progOf cfg l).eval.sampled = []
      ∧ (progOf cfg l).eval.head.length ≤ l.length := by
    intro l
    induction l using List.reverseRecOn with
    | nil => intro _; exact ⟨trivial, rfl, by simp [progOf, Prog.eval, QS.new]⟩
    | append_singleton l x ih =>
      intro hl
      rw [List.length_append, List.length_singleton] at hl
      obtain ⟨a, b, c⟩ := ih (by omega)
      rw [progOf_append]
      refine ⟨⟨a, Or.inr (Or.inl b)⟩, ?_, ?_⟩
      · simp only [Prog.eval]
        unfold Quantile.insert
        split
        · exact b
        · rw [eval_cfg, (progOf_spec cfg l).2.1]
          simp only [List.length_append, List.length_singleton]
          rw [if_neg (by omega)]
          exact b
      · simp only [Prog.eval]
        unfold Quantile.insert
        split
        · simp; omega
        · rw [eval_cfg, (progOf_spec cfg l).2.1]
          simp only [List.length_append, List.length_singleton]
          rw [if_neg (by omega)]
          simp; omega
  have := C17_promise_partial cfg.error herr (.compress (progOf cfg data)) e4 (key data hlen).1 e5
    (by simp only [inserted]; rw [hf]; exact hne) q h0 h1
  simp only [inserted, hf, Prog.eval, e1] at this
  exact this

/-- A quantile outside `[0, 1]` is rejected, whatever the summary. -/
theorem C17_rejected (p : Prog) (q : Rat) (h : q < 0 ∨ 1 < q) : query p.eval q = .error .valueError := by
  unfold query queryFlushed
  rw [if_pos h]

/-- An empty summary answers 0. -/
theorem C17_empty (err : Rat) (herr : 0 ≤ err) (p : Prog) (hE : ErrorIs err p) (hne : inserted p = [])
    (q : Rat) (h0 : 0 ≤ q) (h1 : q ≤ 1) : query p.eval q = .ok 0 := by
  obtain ⟨v, hv, hz, _⟩ := query_ok herr p hE h0 h1
  rw [hv, hz hne]

/-- When samples are lost the promise is broken: of the five values 5, 4, 3, 2, 1 (buffer of
one value, error 1/1000) the maximum is reported to be 1. -/
theorem C17_lost_samples_refuted :
    let p := progOf ⟨100, 1, 1 / 1000, []⟩ [5, 4, 3, 2, 1]
    query p.eval 1 = .ok 1 ∧ inserted p = [5, 4, 3, 2, 1] ∧
      ¬ ((1 : Rat) * 5 - 1 / 1000 * 5 - 1 < numLE (inserted p) 1) := by
  decide +kernel

/-- Non-vacuity: a tame program with two flushes and a compression in between. -/
example : let p := Prog.insert (.insert (.compress (progOf ⟨4, 3, 1 / 5, []⟩ [4, 1, 3])) 4) 9
    inserted p = [4, 1, 3, 4, 9] ∧ query p.eval (1 / 2) = .ok 4 ∧ ErrorIs (1 / 5) p := by
  refine ⟨by decide +kernel, by decide +kernel, rfl⟩

example : let p := Prog.insert (.insert (.compress (progOf ⟨4, 3, 1 / 5, []⟩ [4, 1, 3])) 4) 9
    Tame p ∧ MergeFree p := by
  refine ⟨⟨⟨⟨⟨⟨trivial, Or.inr (Or.inl ?_)⟩, Or.inr (Or.inl ?_)⟩, Or.inr (Or.inl ?_)⟩,
    Or.inr (Or.inr ?_)⟩, Or.inr (Or.inr ?_)⟩, trivial⟩ <;> decide +kernel

end Verif
