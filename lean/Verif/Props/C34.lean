import Verif.Lemmas.BoostStop
import Verif.Examples.DemoBoost

/-!
# C34: boosting stops exactly at the first converged round
-/

set_option autoImplicit false

namespace Verif

open DTree Spec

variable {K : Type} [DecidableEq K] {α L : Type}

/-- **When boosting stops.**  For every run that ends without an exception: there is one loss per
performed round and `dim` trees; with early stopping, no two consecutive losses before the last
round differ by less than the tolerance; and the run performs all rounds unless early stopping is
on and the last two losses differ by less than the tolerance (so it never stops after the first
round). -/
theorem C34_stop (B : Boost K α L) (y : DTable K L) (init : List Rat) (st : BoostState K)
    (h : boost B init y = .ok st) :
    st.losses.length ≤ B.rounds ∧ st.trees.length = st.losses.length * B.dim ∧
    (B.early = true → ∀ j, j + 2 < st.losses.length → ¬ Converged B.tol st.losses j) ∧
    (st.losses.length = B.rounds ∨ (B.early = true ∧ 2 ≤ st.losses.length ∧
      Converged B.tol st.losses (st.losses.length - 2))) := by
  have hf := boost_stop h
  refine ⟨hf.le, hf.trees, hf.first, ?_⟩
  by_cases hlt : st.losses.length < B.rounds
  · exact Or.inr (hf.last hlt)
  · exact Or.inl (by have := hf.le; omega)

/-- **Hosts perform the same rounds.**  A host with the same settings that is sent the guest's
flags performs as many rounds as the guest, and has used every flag at the end. -/
theorem C34_hosts (B : Boost K α L) (y : DTable K L) (init : List Rat) (st : BoostState K)
    (h : boost B init y = .ok st) :
    hostRounds B.early B.rounds st.flags = .ok (st.losses.length, []) := by
  have hf := boost_stop h
  cases he : B.early with
  | false =>
    rw [hf.late he, hostRounds_late]
    by_cases hlt : st.losses.length < B.rounds
    · have := (hf.last hlt).1
      rw [he] at this; cases this
    · have : st.losses.length = B.rounds := by have := hf.le; omega
      rw [this]
  | true =>
    rcases hf.early he with ⟨h1, h2⟩ | ⟨h1, h2⟩
    · rw [h1, h2, hostRounds_all]
    · rw [h2]
      have hle := hf.le
      have := hostRounds_stop (st.losses.length - 1) B.rounds (by omega)
      rw [this]
      congr 2
      omega

/-- **What the losses are.**  The loss of a round is the loss of the scores after that round: the
initial score plus the learning rate times the weights of all trees so far. -/
theorem C34_losses (B : Boost K α L) (y : DTable K L) (hsame : SameData B y)
    (hd : 1 ≤ B.base.maxDepth) (init : List Rat) (hdim : init.length = B.dim) (st : BoostState K)
    (h : boost B init y = .ok st) :
    ∃ fits : List (Fitted K), List.Forall₂ (fun F P => save F = .ok P) fits st.trees ∧
      ∀ (i : Nat) l, st.losses[i]? = some l → ∃ s : DTable K (List Rat), B.loss y s = .ok l ∧
        (∀ k, k ∈ s.data.keys ↔ k ∈ y.data.keys) ∧
        ∀ k ∈ y.data.keys, s.data.get? k =
          some (scoreAfter init B.rate B.dim (weightIn fits k) ((i + 1) * B.dim)) := by
  obtain ⟨fits, h1, h2⟩ := boost_losses hd hsame hdim h
  refine ⟨fits, h1, fun i l hl => ?_⟩
  obtain ⟨s, a, b⟩ := h2 i l hl
  refine ⟨s, a, fun k => ⟨fun hk => ?_, fun hk => ?_⟩, fun k hk => by rw [b, if_pos hk]⟩
  · obtain ⟨v, hv⟩ := Dict.exists_get?_of_mem hk
    rw [b] at hv
    by_contra hc
    rw [if_neg hc] at hv; cases hv
  · exact Dict.mem_keys_of_get? (by rw [b, if_pos hk])

/-- A run that performs all its rounds, and one that stops after two of five. -/
example : ∃ st st', boost DemoBoost.clear [0, 1] DemoBoost.labels = .ok st ∧ st.losses.length = 2 ∧
    boost { DemoBoost.clear with rounds := 5, tol := 10 } [0, 1] DemoBoost.labels = .ok st' ∧
    st'.losses.length = 2 ∧ st'.flags = [false, true] := by
  refine ⟨DemoBoost.final, (match boost { DemoBoost.clear with rounds := 5, tol := 10 } [0, 1] DemoBoost.labels with
    | .ok st => st
    | .error _ => DemoBoost.final), DemoBoost.final_ok, by decide +kernel, by decide +kernel, by decide +kernel,
    by decide +kernel⟩

end Verif
