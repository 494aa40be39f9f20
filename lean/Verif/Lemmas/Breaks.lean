import Verif.Lemmas.ProtocolPredict

/-!
# Executions in which a party raises

If some execution of the parties reaches an exception, every execution does: no execution ends with
all parties returning.
-/

set_option autoImplicit false

namespace Verif
namespace Network

section
variable {P M R : Type} [DecidableEq P]

theorem not_step_of_fail {b : Bool} {p : P} {c d : Net P M R} {x : PyErr} (h : c.state p = .fail x)
    (hs : Step b p c d) : False := by
  cases hs with
  | send q m k h' => rw [h] at h'; cases h'
  | wait q k h' _ => rw [h] at h'; cases h'
  | recv q k m ms h' _ => rw [h] at h'; cases h'

theorem fail_step {b : Bool} {p q : P} {c d : Net P M R} {x : PyErr} (h : c.state p = .fail x)
    (hs : Step b q c d) : d.state p = .fail x := by
  by_cases hq : p = q
  · subst hq
    exact (not_step_of_fail h hs).elim
  · cases hs with
    | send r m k h' => simpa [Function.update_of_ne hq] using h
    | wait r k h' _ => simpa [Function.update_of_ne hq] using h
    | recv r k m ms h' _ => simpa [Function.update_of_ne hq] using h

/-- A strict execution to an exception is still possible after any step. -/
theorem breaks_step {n : Nat} {b : Bool} {p q : P} {c d f : Net P M R} {x : PyErr}
    (h : Run true n c f) (hf : f.state p = .fail x) (hs : Step b q c d) :
    ∃ n' f', Run true n' d f' ∧ f'.state p = .fail x := by
  induction n generalizing c d with
  | zero =>
    cases h
    exact ⟨0, d, .nil d, fail_step hf hs⟩
  | succ n ih =>
    cases h with
    | cons _ p0 _ c1 _ h t =>
      by_cases hp : p0 = q
      · subst hp
        rw [step_unique hs h]
        exact ⟨n, f, t, hf⟩
      · obtain ⟨e, h1, h2⟩ := step_comm hp h hs
        obtain ⟨n', f', h3, h4⟩ := ih t h1
        exact ⟨n' + 1, f', .cons _ _ _ _ _ h2 h3, h4⟩

/-- Some execution reaches an exception. -/
def Breaks (c : Net P M R) : Prop := ∃ d p x, Leads c d ∧ d.state p = .fail x

theorem Breaks.of_leads {c d : Net P M R} (h : Leads c d) (hb : Breaks d) : Breaks c := by
  obtain ⟨f, p, x, h', hf⟩ := hb
  exact ⟨f, p, x, h.trans h', hf⟩

/-- After any execution the exception is still ahead, or has happened. -/
theorem Breaks.run {b : Bool} {m : Nat} {c d : Net P M R} (hb : Breaks c) (h : Run b m c d) :
    Breaks d := by
  induction h with
  | nil c => exact hb
  | cons n p c d e hs t ih =>
    obtain ⟨f, q, x, ⟨m, h'⟩, hf⟩ := hb
    obtain ⟨n', f', h1, h2⟩ := breaks_step h' hf hs
    exact ih ⟨f', q, x, ⟨n', h1⟩, h2⟩

theorem Breaks.not_finished {c : Net P M R} (hb : Breaks c) : ¬ c.Finished := by
  intro hc
  obtain ⟨f, q, x, ⟨m, h'⟩, hf⟩ := hb
  cases h' with
  | nil =>
    obtain ⟨r, hr⟩ := hc q
    rw [hr] at hf
    cases hf
  | cons n p _ d _ hs t => exact not_step_of_finished hc hs

/-- Where nobody can go on, somebody has raised. -/
theorem Breaks.stuck {c : Net P M R} (hb : Breaks c) (h : ∀ p d, ¬ Step true p c d) :
    ∃ p x, c.state p = .fail x := by
  obtain ⟨f, q, x, ⟨m, h'⟩, hf⟩ := hb
  cases h' with
  | nil => exact ⟨q, x, hf⟩
  | cons n p _ d _ hs t => exact (h p d hs).elim

end

variable {K α R X β : Type} {idle : R}

theorem breaks_guest (x : PyErr) (hs : List (Prog K α R)) : Breaks (lock idle (.fail x) hs) :=
  ⟨_, none, x, Leads.refl _, rfl⟩

theorem breaks_host {x : PyErr} {g : Prog K α R} {hs : List (Prog K α R)} (h : .fail x ∈ hs) :
    Breaks (lock idle g hs) := by
  obtain ⟨i, hi⟩ := List.getElem?_of_mem h
  exact ⟨_, some i, x, Leads.refl _, by simp [lock, hi]⟩

/-- The guest computes: an exception, or it goes on with the result. -/
theorem breaks_lift {r : Except PyErr β} {k : β → Prog K α R} {hs : List (Prog K α R)}
    (h : ∀ v, r = .ok v → Breaks (lock idle (k v) hs)) : Breaks (lock idle (lift r >>= k) hs) := by
  cases r with
  | ok v => exact h v rfl
  | error x => exact breaks_guest x hs

/-- The hosts compute: an exception of one of them, or they go on with the results. -/
theorem breaks_lifts (d : β) {g : Prog K α R} {xs : List X} (r : X → Except PyErr β)
    (k : X → β → Prog K α R)
    (h : (∀ x ∈ xs, r x = .ok (okOr d (r x))) →
      Breaks (lock idle g (xs.map fun x => k x (okOr d (r x))))) :
    Breaks (lock idle g (xs.map fun x => lift (r x) >>= k x)) := by
  by_cases hx : ∃ x ∈ xs, ∃ e, r x = .error e
  · obtain ⟨x, hx, e, he⟩ := hx
    refine breaks_host (x := e) (List.mem_map.mpr ⟨x, hx, ?_⟩)
    rw [he]
    rfl
  · have hok : ∀ x ∈ xs, r x = .ok (okOr d (r x)) := by
      intro x h'
      cases e : r x with
      | ok v => rfl
      | error e' => exact (hx ⟨x, h', e', e⟩).elim
    have : (xs.map fun x => lift (r x) >>= k x) = xs.map fun x => k x (okOr d (r x)) := by
      refine List.map_congr_left fun x h' => ?_
      have := hok x h'
      generalize okOr d (r x) = v at this ⊢
      rw [this]
      rfl
    rw [this]
    exact h hok

end Network
end Verif
