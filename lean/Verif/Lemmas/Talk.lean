import Verif.Spec.C30
import Verif.Lemmas.Lockstep
import Verif.Lemmas.Tables
import Verif.Lemmas.Sites

/-! # Programs that keep to certain messages, programs that talk alike -/

set_option autoImplicit false

namespace Verif
namespace Network

open Spec

section general

variable {P M R R' S S' : Type}

/-- A program that sends only messages in `Q` as long as it receives only such messages, and
returns a result in `T`. -/
inductive Keeps (Q : M → Prop) (T : R → Prop) : Proc P M R → Prop
  | done (r : R) (h : T r) : Keeps Q T (.done r)
  | fail (e : PyErr) : Keeps Q T (.fail e)
  | send (q : P) (m : M) (k : Proc P M R) (hm : Q m) (h : Keeps Q T k) : Keeps Q T (.send q m k)
  | wait (q : P) (k : Proc P M R) (h : Keeps Q T k) : Keeps Q T (.wait q k)
  | recv (q : P) (k : M → Proc P M R) (h : ∀ m, Q m → Keeps Q T (k m)) : Keeps Q T (.recv q k)

theorem Keeps.bind {Q : M → Prop} {T : R → Prop} {U : S → Prop} {p : Proc P M R}
    {f : R → Proc P M S} (h : Keeps Q T p) (hf : ∀ r, T r → Keeps Q U (f r)) :
    Keeps Q U (p >>= f) := by
  induction h with
  | done r h => exact hf r h
  | fail e => exact .fail e
  | send q m k hm _ ih => exact .send q m _ hm ih
  | wait q k _ ih => exact .wait q _ ih
  | recv q k _ ih => exact .recv q _ ih

theorem Keeps.pure {Q : M → Prop} {T : R → Prop} {r : R} (h : T r) :
    Keeps Q T (pure r : Proc P M R) := .done r h

theorem Keeps.lift {Q : M → Prop} {T : R → Prop} {x : Except PyErr R} (h : ∀ r, x = .ok r → T r) :
    Keeps Q T (lift x : Proc P M R) := by
  cases x with
  | error e => exact .fail e
  | ok r => exact .done r (h r rfl)

theorem Keeps.mono {Q : M → Prop} {T U : R → Prop} {p : Proc P M R} (h : Keeps Q T p)
    (hT : ∀ r, T r → U r) : Keeps Q U p := by
  induction h with
  | done r h => exact .done r (hT r h)
  | fail e => exact .fail e
  | send q m k hm _ ih => exact .send q m _ hm ih
  | wait q k _ ih => exact .wait q _ ih
  | recv q k _ ih => exact .recv q _ ih

/-- Parties that keep to `Q` never have another message on their way. -/
theorem keeps_run [DecidableEq P] {Q : M → Prop} {b : Bool} {n : Nat} {c d : Net P M R}
    (h : Run b n c d) (hs : ∀ p, Keeps Q (fun _ => True) (c.state p))
    (hc : ∀ x, ∀ m ∈ c.chan x, Q m) : ∀ x, ∀ m ∈ d.chan x, Q m := by
  induction h with
  | nil c => exact hc
  | cons n p c d e st _ ih =>
    cases st with
    | send q m k h =>
      have hp := hs p
      rw [h] at hp
      cases hp with
      | send _ _ _ hm hk =>
        refine ih (fun p' => ?_) fun x m' hm' => ?_
        · by_cases hp' : p' = p
          · subst hp'; simpa using Keeps.wait q k hk
          · simpa [Function.update_of_ne hp'] using hs p'
        · by_cases hx : x = (p, q)
          · subst hx
            simp only [Function.update_self, List.mem_append, List.mem_singleton] at hm'
            rcases hm' with hm' | rfl
            · exact hc _ _ hm'
            · exact hm
          · simp only [Function.update_of_ne hx] at hm'
            exact hc _ _ hm'
    | wait q k h hb =>
      have hp := hs p
      rw [h] at hp
      cases hp with
      | wait _ _ hk =>
        refine ih (fun p' => ?_) hc
        by_cases hp' : p' = p
        · subst hp'; simpa using hk
        · simpa [Function.update_of_ne hp'] using hs p'
    | recv q k m ms h hm =>
      have hp := hs p
      rw [h] at hp
      cases hp with
      | recv _ _ hk =>
        have hmem := hc (q, p)
        rw [hm] at hmem
        refine ih (fun p' => ?_) fun x m' hm' => ?_
        · by_cases hp' : p' = p
          · subst hp'; simpa using hk m (hmem m (by simp))
          · simpa [Function.update_of_ne hp'] using hs p'
        · by_cases hx : x = (q, p)
          · subst hx
            simp only [Function.update_self] at hm'
            exact hmem m' (by simp [hm'])
          · simp only [Function.update_of_ne hx] at hm'
            exact hc _ _ hm'

theorem Alike.bind {Q : R → R' → Prop} {U : S → S' → Prop} {p : Proc P M R} {p' : Proc P M R'}
    {f : R → Proc P M S} {f' : R' → Proc P M S'} (h : Alike Q p p')
    (hf : ∀ r r', Q r r' → Alike U (f r) (f' r')) : Alike U (p >>= f) (p' >>= f') := by
  induction h with
  | done r r' h => exact hf r r' h
  | fail e => exact .fail e
  | send q m k k' _ ih => exact .send q m _ _ ih
  | wait q k k' _ ih => exact .wait q _ _ ih
  | recv q k k' _ ih => exact .recv q _ _ ih

theorem Alike.refl {Q : R → R → Prop} (hQ : ∀ r, Q r r) (p : Proc P M R) : Alike Q p p := by
  induction p with
  | done r => exact .done r r (hQ r)
  | fail e => exact .fail e
  | send q m k ih => exact .send q m _ _ ih
  | wait q k ih => exact .wait q _ _ ih
  | recv q k ih => exact .recv q _ _ ih

/-- The same computation first. -/
theorem Alike.after {U : S → S' → Prop} (p : Proc P M R) {f : R → Proc P M S}
    {f' : R → Proc P M S'} (hf : ∀ r, Alike U (f r) (f' r)) : Alike U (p >>= f) (p >>= f') :=
  Alike.bind (Q := Eq) (Alike.refl (fun _ => rfl) p) fun r _ h => h ▸ hf r

theorem Alike.mono {Q U : R → R' → Prop} {p : Proc P M R} {p' : Proc P M R'} (h : Alike Q p p')
    (hQ : ∀ r r', Q r r' → U r r') : Alike U p p' := by
  induction h with
  | done r r' h => exact .done r r' (hQ r r' h)
  | fail e => exact .fail e
  | send q m k k' _ ih => exact .send q m _ _ ih
  | wait q k k' _ ih => exact .wait q _ _ ih
  | recv q k k' _ ih => exact .recv q _ _ ih

/-- Executions of systems that differ in programs which talk alike. -/
theorem alike_run [DecidableEq P] {Q : R → R → Prop} {b : Bool} {n : Nat} {c d : Net P M R}
    (h : Run b n c d) : ∀ (p : P) (pr : Proc P M R), Alike Q (c.state p) pr →
      ∃ pr', Alike Q (d.state p) pr' ∧ Run b n (swap c p pr) (swap d p pr') := by
  induction h with
  | nil c => exact fun p pr h => ⟨pr, h, .nil _⟩
  | cons n p c d e st _ ih =>
    intro q pr hq
    have swap_other : ∀ (x : Proc P M R) (ch : P × P → List M), q ≠ p →
        swap ⟨Function.update c.state p x, ch⟩ q pr = ⟨Function.update (swap c q pr).state p x, ch⟩ := by
      intro x ch hne
      simp only [swap, Net.mk.injEq, and_true]
      exact Function.update_comm hne.symm _ _ _
    have swap_same : ∀ (x y : Proc P M R) (ch : P × P → List M),
        swap ⟨Function.update c.state p x, ch⟩ p y = ⟨Function.update (swap c p pr).state p y, ch⟩ := by
      intro x y ch
      simp [swap]
    by_cases hne : q = p
    · subst hne
      cases st with
      | send r m k h =>
        rw [h] at hq
        cases hq with
        | send _ _ _ k' hk =>
          obtain ⟨pr', h1, h2⟩ := ih q (.wait r k') (by simpa using Alike.wait r k k' hk)
          refine ⟨pr', h1, .cons n q _ _ _ ?_ h2⟩
          rw [swap_same]
          exact .send r m k' (by simp [swap])
      | wait r k h hb =>
        rw [h] at hq
        cases hq with
        | wait _ _ k' hk =>
          obtain ⟨pr', h1, h2⟩ := ih q k' (by simpa using hk)
          refine ⟨pr', h1, .cons n q _ _ _ ?_ h2⟩
          rw [swap_same]
          exact .wait r k' (by simp [swap]) hb
      | recv r k m ms h hm =>
        rw [h] at hq
        cases hq with
        | recv _ _ k' hk =>
          obtain ⟨pr', h1, h2⟩ := ih q (k' m) (by simpa using hk m)
          refine ⟨pr', h1, .cons n q _ _ _ ?_ h2⟩
          rw [swap_same]
          exact .recv r k' m ms (by simp [swap]) hm
    · cases st with
      | send r m k h =>
        obtain ⟨pr', h1, h2⟩ := ih q pr (by simpa [Function.update_of_ne hne] using hq)
        refine ⟨pr', h1, .cons n p _ _ _ ?_ h2⟩
        rw [swap_other _ _ hne]
        exact .send r m k (by simp [swap, Function.update_of_ne (Ne.symm hne), h])
      | wait r k h hb =>
        obtain ⟨pr', h1, h2⟩ := ih q pr (by simpa [Function.update_of_ne hne] using hq)
        refine ⟨pr', h1, .cons n p _ _ _ ?_ h2⟩
        rw [swap_other _ _ hne]
        exact .wait r k (by simp [swap, Function.update_of_ne (Ne.symm hne), h]) hb
      | recv r k m ms h hm =>
        obtain ⟨pr', h1, h2⟩ := ih q pr (by simpa [Function.update_of_ne hne] using hq)
        refine ⟨pr', h1, .cons n p _ _ _ ?_ h2⟩
        rw [swap_other _ _ hne]
        exact .recv r k m ms (by simp [swap, Function.update_of_ne (Ne.symm hne), h]) hm

end general

end Network
end Verif
