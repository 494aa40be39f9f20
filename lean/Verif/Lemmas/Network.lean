import Verif.Model.Network

/-!
# Executions of message-passing parties

Steps of different parties commute, so one strict execution that ends decides all executions.
-/

set_option autoImplicit false

namespace Verif
namespace Network

variable {P M R R' R'' : Type} [DecidableEq P]

omit [DecidableEq P] in
theorem bind_assoc' (p : Proc P M R) (f : R → Proc P M R') (g : R' → Proc P M R'') :
    (p.bind f).bind g = p.bind fun r => (f r).bind g := by
  induction p with
  | done r => rfl
  | fail e => rfl
  | send q m k ih => simp [Proc.bind, ih]
  | wait q k ih => simp [Proc.bind, ih]
  | recv q k ih => simp [Proc.bind, ih]

theorem step_unique {b b' : Bool} {p : P} {c d e : Net P M R} (h : Step b p c d)
    (h' : Step b' p c e) : d = e := by
  cases h with
  | send q m k h =>
    cases h' with
    | send _ _ _ h' => rw [h] at h'; cases h'; rfl
    | wait _ _ h' _ => rw [h] at h'; cases h'
    | recv _ _ _ _ h' _ => rw [h] at h'; cases h'
  | wait q k h _ =>
    cases h' with
    | send _ _ _ h' => rw [h] at h'; cases h'
    | wait _ _ h' _ => rw [h] at h'; cases h'; rfl
    | recv _ _ _ _ h' _ => rw [h] at h'; cases h'
  | recv q k m ms h hm =>
    cases h' with
    | send _ _ _ h' => rw [h] at h'; cases h'
    | wait _ _ h' _ => rw [h] at h'; cases h'
    | recv _ _ _ _ h' hm' =>
      rw [h] at h'; cases h'
      rw [hm] at hm'; cases hm'; rfl

/-- Steps of different parties commute and stay strict. -/
theorem step_comm {b b' : Bool} {p p' : P} {c d e : Net P M R} (hp : p ≠ p') (h : Step b p c d)
    (h' : Step b' p' c e) : ∃ f, Step b' p' d f ∧ Step b p e f := by
  cases h with
  | send q m k h =>
    cases h' with
    | send q' m' k' h' =>
      have n1 : (p, q) ≠ (p', q') := fun x => hp (Prod.ext_iff.mp x).1
      refine ⟨⟨Function.update (Function.update c.state p (.wait q k)) p' (.wait q' k'),
        Function.update (Function.update c.chan (p, q) (c.chan (p, q) ++ [m])) (p', q') (c.chan (p', q') ++ [m'])⟩, ?_, ?_⟩
      · have := Step.send (strict := b') (p := p')
          (c := ⟨Function.update c.state p (.wait q k), Function.update c.chan (p, q) (c.chan (p, q) ++ [m])⟩)
          q' m' k' (by simp [Function.update_of_ne hp.symm, h'])
        simpa [Function.update_of_ne n1.symm] using this
      · have := Step.send (strict := b) (p := p)
          (c := ⟨Function.update c.state p' (.wait q' k'), Function.update c.chan (p', q') (c.chan (p', q') ++ [m'])⟩)
          q m k (by simp [Function.update_of_ne hp, h])
        rw [Function.update_comm hp, Function.update_comm n1]
        simpa [Function.update_of_ne n1] using this
    | wait q' k' h' hb' =>
      have n1 : (p, q) ≠ (p', q') := fun x => hp (Prod.ext_iff.mp x).1
      refine ⟨⟨Function.update (Function.update c.state p (.wait q k)) p' k',
        Function.update c.chan (p, q) (c.chan (p, q) ++ [m])⟩, ?_, ?_⟩
      · exact Step.wait (strict := b') (p := p')
          (c := ⟨Function.update c.state p (.wait q k), Function.update c.chan (p, q) (c.chan (p, q) ++ [m])⟩)
          q' k' (by simp [Function.update_of_ne hp.symm, h'])
          (fun hb => by simp [Function.update_of_ne n1.symm, hb' hb])
      · have := Step.send (strict := b) (p := p) (c := ⟨Function.update c.state p' k', c.chan⟩)
          q m k (by simp [Function.update_of_ne hp, h])
        rw [Function.update_comm hp]
        exact this
    | recv q' k' m' ms' h' hm' =>
      refine ⟨⟨Function.update (Function.update c.state p (.wait q k)) p' (k' m'),
        Function.update (Function.update c.chan (q', p') ms') (p, q)
          (Function.update c.chan (q', p') ms' (p, q) ++ [m])⟩, ?_, ?_⟩
      · by_cases n1 : (p, q) = (q', p')
        · have := Step.recv (strict := b') (p := p')
            (c := ⟨Function.update c.state p (.wait q k), Function.update c.chan (p, q) (c.chan (p, q) ++ [m])⟩)
            q' k' m' (ms' ++ [m]) (by simp [Function.update_of_ne hp.symm, h'])
            (by simp only [← n1, Function.update_self]; rw [n1, hm']; rfl)
          rw [n1]
          rw [n1] at this
          simpa using this
        · have := Step.recv (strict := b') (p := p')
            (c := ⟨Function.update c.state p (.wait q k), Function.update c.chan (p, q) (c.chan (p, q) ++ [m])⟩)
            q' k' m' ms' (by simp [Function.update_of_ne hp.symm, h'])
            (by simp [Function.update_of_ne (Ne.symm n1), hm'])
          rw [Function.update_comm (Ne.symm n1), Function.update_of_ne n1]
          exact this
      · rw [Function.update_comm hp]
        exact Step.send (strict := b) (p := p)
          (c := ⟨Function.update c.state p' (k' m'), Function.update c.chan (q', p') ms'⟩)
          q m k (by simp [Function.update_of_ne hp, h])
  | wait q k h hb =>
    cases h' with
    | send q' m' k' h' =>
      have n1 : (p, q) ≠ (p', q') := fun x => hp (Prod.ext_iff.mp x).1
      refine ⟨⟨Function.update (Function.update c.state p k) p' (.wait q' k'),
        Function.update c.chan (p', q') (c.chan (p', q') ++ [m'])⟩, ?_, ?_⟩
      · exact Step.send (strict := b') (p := p') (c := ⟨Function.update c.state p k, c.chan⟩)
          q' m' k' (by simp [Function.update_of_ne hp.symm, h'])
      · rw [Function.update_comm hp]
        exact Step.wait (strict := b) (p := p)
          (c := ⟨Function.update c.state p' (.wait q' k'), Function.update c.chan (p', q') (c.chan (p', q') ++ [m'])⟩)
          q k (by simp [Function.update_of_ne hp, h])
          (fun x => by simp [Function.update_of_ne n1, hb x])
    | wait q' k' h' hb' =>
      refine ⟨⟨Function.update (Function.update c.state p k) p' k', c.chan⟩, ?_, ?_⟩
      · exact Step.wait (strict := b') (p := p') (c := ⟨Function.update c.state p k, c.chan⟩)
          q' k' (by simp [Function.update_of_ne hp.symm, h']) hb'
      · rw [Function.update_comm hp]
        exact Step.wait (strict := b) (p := p) (c := ⟨Function.update c.state p' k', c.chan⟩)
          q k (by simp [Function.update_of_ne hp, h]) hb
    | recv q' k' m' ms' h' hm' =>
      refine ⟨⟨Function.update (Function.update c.state p k) p' (k' m'),
        Function.update c.chan (q', p') ms'⟩, ?_, ?_⟩
      · exact Step.recv (strict := b') (p := p') (c := ⟨Function.update c.state p k, c.chan⟩)
          q' k' m' ms' (by simp [Function.update_of_ne hp.symm, h']) hm'
      · rw [Function.update_comm hp]
        refine Step.wait (strict := b) (p := p)
          (c := ⟨Function.update c.state p' (k' m'), Function.update c.chan (q', p') ms'⟩)
          q k (by simp [Function.update_of_ne hp, h]) (fun x => ?_)
        have n1 : (p, q) ≠ (q', p') := by
          intro e
          have := hb x
          rw [e, hm'] at this
          cases this
        simp [Function.update_of_ne n1, hb x]
  | recv q k m ms h hm =>
    cases h' with
    | send q' m' k' h' =>
      refine ⟨⟨Function.update (Function.update c.state p (k m)) p' (.wait q' k'),
        Function.update (Function.update c.chan (q, p) ms) (p', q')
          (Function.update c.chan (q, p) ms (p', q') ++ [m'])⟩, ?_, ?_⟩
      · exact Step.send (strict := b') (p := p')
          (c := ⟨Function.update c.state p (k m), Function.update c.chan (q, p) ms⟩)
          q' m' k' (by simp [Function.update_of_ne hp.symm, h'])
      · rw [Function.update_comm hp]
        by_cases n1 : (p', q') = (q, p)
        · have := Step.recv (strict := b) (p := p)
            (c := ⟨Function.update c.state p' (.wait q' k'), Function.update c.chan (p', q') (c.chan (p', q') ++ [m'])⟩)
            q k m (ms ++ [m']) (by simp [Function.update_of_ne hp, h])
            (by simp only [← n1, Function.update_self]; rw [n1, hm]; rfl)
          rw [n1]
          rw [n1] at this
          simpa using this
        · have := Step.recv (strict := b) (p := p)
            (c := ⟨Function.update c.state p' (.wait q' k'), Function.update c.chan (p', q') (c.chan (p', q') ++ [m'])⟩)
            q k m ms (by simp [Function.update_of_ne hp, h])
            (by simp [Function.update_of_ne (Ne.symm n1), hm])
          rw [Function.update_comm (Ne.symm n1), Function.update_of_ne n1]
          exact this
    | wait q' k' h' hb' =>
      refine ⟨⟨Function.update (Function.update c.state p (k m)) p' k',
        Function.update c.chan (q, p) ms⟩, ?_, ?_⟩
      · refine Step.wait (strict := b') (p := p')
          (c := ⟨Function.update c.state p (k m), Function.update c.chan (q, p) ms⟩)
          q' k' (by simp [Function.update_of_ne hp.symm, h']) (fun x => ?_)
        have n1 : (p', q') ≠ (q, p) := by
          intro e
          have := hb' x
          rw [e, hm] at this
          cases this
        simp [Function.update_of_ne n1, hb' x]
      · rw [Function.update_comm hp]
        exact Step.recv (strict := b) (p := p) (c := ⟨Function.update c.state p' k', c.chan⟩)
          q k m ms (by simp [Function.update_of_ne hp, h]) hm
    | recv q' k' m' ms' h' hm' =>
      have n1 : (q, p) ≠ (q', p') := fun x => hp (Prod.ext_iff.mp x).2
      refine ⟨⟨Function.update (Function.update c.state p (k m)) p' (k' m'),
        Function.update (Function.update c.chan (q, p) ms) (q', p') ms'⟩, ?_, ?_⟩
      · exact Step.recv (strict := b') (p := p')
          (c := ⟨Function.update c.state p (k m), Function.update c.chan (q, p) ms⟩)
          q' k' m' ms' (by simp [Function.update_of_ne hp.symm, h'])
          (by simp [Function.update_of_ne n1.symm, hm'])
      · rw [Function.update_comm hp, Function.update_comm n1]
        exact Step.recv (strict := b) (p := p)
          (c := ⟨Function.update c.state p' (k' m'), Function.update c.chan (q', p') ms'⟩)
          q k m ms (by simp [Function.update_of_ne hp, h])
          (by simp [Function.update_of_ne n1, hm])

theorem not_step_of_finished {b : Bool} {p : P} {c d : Net P M R} (hc : c.Finished)
    (h : Step b p c d) : False := by
  obtain ⟨r, hr⟩ := hc p
  cases h with
  | send q m k h => rw [hr] at h; cases h
  | wait q k h _ => rw [hr] at h; cases h
  | recv q k m ms h _ => rw [hr] at h; cases h

/-- Any step leaves a strict execution to the same end, one step shorter. -/
theorem strict_of_step {n : Nat} {b : Bool} {p : P} {c d f : Net P M R} (hf : f.Finished)
    (h : Run true n c f) (hs : Step b p c d) : ∃ n', n = n' + 1 ∧ Run true n' d f := by
  induction n generalizing c d with
  | zero =>
    cases h
    exact (not_step_of_finished hf hs).elim
  | succ n ih =>
    cases h with
    | cons _ p0 _ c1 _ h t =>
      by_cases hp : p0 = p
      · subst hp
        rw [step_unique hs h]
        exact ⟨n, rfl, t⟩
      · obtain ⟨e, h1, h2⟩ := step_comm hp h hs
        obtain ⟨n', rfl, h3⟩ := ih t h1
        exact ⟨n' + 1, rfl, .cons _ _ _ _ _ h2 h3⟩

/-- Any execution leaves a strict execution to the same end. -/
theorem strict_of_run {n m : Nat} {b : Bool} {c d f : Net P M R} (hf : f.Finished)
    (h : Run true n c f) (hr : Run b m c d) : ∃ n', n = n' + m ∧ Run true n' d f := by
  induction hr generalizing n with
  | nil c => exact ⟨n, rfl, h⟩
  | cons m p c d e hs t ih =>
    obtain ⟨n1, rfl, h1⟩ := strict_of_step hf h hs
    obtain ⟨n2, rfl, h2⟩ := ih h1
    exact ⟨n2, by omega, h2⟩

theorem run_trans {b : Bool} {n m : Nat} {c d e : Net P M R} (h : Run b n c d) (h' : Run b m d e) :
    Run b (n + m) c e := by
  induction h with
  | nil c => simpa using h'
  | cons n p c d _ hs t ih =>
    have := ih h'
    rw [show n + 1 + m = (n + m) + 1 by omega]
    exact .cons _ _ _ _ _ hs this

end Network
end Verif
