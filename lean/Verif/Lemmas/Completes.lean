import Verif.Lemmas.ProtocolPredict

/-! # From one execution to all executions -/

set_option autoImplicit false

namespace Verif

open DTree Spec Network

variable {K : Type} [DecidableEq K] {α : Type}

omit [DecidableEq K] in
/-- A party that has failed stays so. -/
theorem fail_stays {R : Type} {n : Nat} {c d : Net (Option Nat) (Msg K α) R} {p : Option Nat}
    {e : PyErr} (h : Run true n c d) (hc : c.state p = .fail e) : d.state p = .fail e := by
  induction h with
  | nil c => exact hc
  | cons n q c d _ st t ih =>
    refine ih ?_
    by_cases hq : p = q
    · subst hq
      cases st with
      | send q m k h => rw [hc] at h; cases h
      | wait q k h _ => rw [hc] at h; cases h
      | recv q k m ms h _ => rw [hc] at h; cases h
    · cases st with
      | send q m k h => simpa [Function.update_of_ne hq] using hc
      | wait q k h _ => simpa [Function.update_of_ne hq] using hc
      | recv q k m ms h _ => simpa [Function.update_of_ne hq] using hc

omit [DecidableEq K] in
/-- One strict execution to the end decides all executions. -/
theorem completes_of_leads {R : Type} {c f : Net (Option Nat) (Msg K α) R}
    {out : Option Nat → R} (h : Leads c f) (hs : ∀ p, f.state p = .done (out p))
    (hc : ∀ x, f.chan x = []) : Completes c out := by
  obtain ⟨n, h⟩ := h
  have hf : f.Finished := fun p => ⟨_, hs p⟩
  refine ⟨⟨n, ?_⟩, ?_, ?_⟩
  · intro b m d hr
    obtain ⟨n', rfl, _⟩ := strict_of_run hf h hr
    omega
  · intro b m d p e hr hfail
    obtain ⟨n', _, h'⟩ := strict_of_run hf h hr
    have := fail_stays h' hfail
    rw [hs p] at this
    cases this
  · intro b m d hr
    obtain ⟨n', _, h'⟩ := strict_of_run hf h hr
    cases h' with
    | nil => exact .inl ⟨hs, hc⟩
    | cons n p _ e _ st t => exact .inr ⟨p, e, st⟩

omit [DecidableEq K] in
theorem completes_system {G H : Type} {g : Prog K α G} {hs : List (Prog K α H)} {r : G}
    {rs : List H}
    (h : Leads (system g hs) (lock .absent (.done (.guest r)) (rs.map fun h => .done (.host h)))) :
    Completes (system g hs) (results r rs) := by
  refine completes_of_leads h (fun p => ?_) fun _ => rfl
  match p with
  | none => rfl
  | some i =>
    show ((rs.map fun h => (Proc.done (Outcome.host h) : Prog K α (Outcome G H)))[i]?).getD _ = _
    rw [List.getElem?_map, results]
    cases rs[i]? <;> rfl

end Verif
