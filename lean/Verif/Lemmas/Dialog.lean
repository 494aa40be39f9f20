import Verif.Model.Closing
import Mathlib.Logic.Hydra
import Mathlib.Tactic.Abel

/-!
# Dialogs

What two parties say to each other over one connection, whatever they compute and whatever happens
on other connections.
-/

set_option autoImplicit false

namespace Verif
namespace Network

/-- A dialog from the view of one side. -/
inductive Dialog (M : Type) where
  | over
  | give (f : M → Dialog M)
  | take (f : M → Dialog M)

variable {P M R R' : Type}

/-- The view of the other side. -/
def Dialog.dual : Dialog M → Dialog M
  | .over => .over
  | .give f => .take fun m => (f m).dual
  | .take f => .give fun m => (f m).dual

theorem Dialog.dual_dual : ∀ d : Dialog M, d.dual.dual = d
  | .over => rfl
  | .give f => by simp only [dual]; congr; funext m; exact dual_dual (f m)
  | .take f => by simp only [dual]; congr; funext m; exact dual_dual (f m)

/-- Hearing messages. -/
def Dialog.hear : Dialog M → List M → Option (Dialog M)
  | d, [] => some d
  | .take f, m :: ms => (f m).hear ms
  | _, _ :: _ => none

theorem Dialog.hear_append : ∀ (d : Dialog M) (ms ms' : List M) (e : Dialog M), d.hear ms = some e →
    d.hear (ms ++ ms') = e.hear ms'
  | d, [], ms', e, h => by
    have : d = e := by cases d <;> simpa [hear] using h
    rw [this]; rfl
  | .take f, m :: ms, ms', e, h => by
    simp only [hear] at h
    simpa [hear] using hear_append (f m) ms ms' e h
  | .over, m :: ms, _, _, h => by simp [hear] at h
  | .give _, m :: ms, _, _, h => by simp [hear] at h

@[simp] theorem Dialog.hear_nil (d : Dialog M) : d.hear [] = some d := by cases d <;> rfl

section
variable [DecidableEq P]

/-- On its connection to `q` the program keeps to the dialog; it may end at any time. -/
def Follows (q : P) : Proc P M R → Dialog M → Prop
  | .done _, _ => True
  | .fail _, _ => True
  | .send q' m k, d => if q' = q then ∃ f, d = .give f ∧ Follows q k (f m) else Follows q k d
  | .wait _ k, d => Follows q k d
  | .recv q' k, d => if q' = q then ∃ f, d = .take f ∧ ∀ m, Follows q (k m) (f m) else ∀ m, Follows q (k m) d

/-- What is on the way, and what the sides expect, fit together. -/
def Agree (ms ms' : List M) (d d' : Dialog M) : Prop :=
  (ms' = [] ∧ d'.hear ms = some d.dual) ∨ (ms = [] ∧ d.hear ms' = some d'.dual)

theorem Agree.symm {ms ms' : List M} {d d' : Dialog M} (h : Agree ms ms' d d') : Agree ms' ms d' d := by
  rcases h with h | h
  · exact Or.inr h
  · exact Or.inl h

theorem Agree.give {ms ms' : List M} {f : M → Dialog M} {d' : Dialog M} (m : M)
    (h : Agree ms ms' (.give f) d') : Agree (ms ++ [m]) ms' (f m) d' := by
  have key : ms' = [] ∧ d'.hear ms = some (Dialog.give f).dual := by
    rcases h with h | ⟨h1, h2⟩
    · exact h
    · cases ms' with
      | nil =>
        simp only [Dialog.hear_nil, Option.some.injEq] at h2
        refine ⟨rfl, ?_⟩
        rw [h1, h2, Dialog.dual_dual, Dialog.hear_nil]
      | cons a l => simp [Dialog.hear] at h2
  refine Or.inl ⟨key.1, ?_⟩
  rw [Dialog.hear_append d' ms [m] _ key.2]
  simp [Dialog.dual, Dialog.hear]

theorem Agree.take {ms ms' : List M} {f : M → Dialog M} {d' : Dialog M} {m : M}
    (h : Agree ms (m :: ms') (.take f) d') : Agree ms ms' (f m) d' := by
  rcases h with ⟨h, _⟩ | ⟨h1, h2⟩
  · cases h
  · exact Or.inr ⟨h1, by simpa [Dialog.hear] using h2⟩

theorem agree_start (d : Dialog M) : Agree [] [] d d.dual := Or.inl ⟨rfl, by simp⟩

/-- Every pair of parties keeps to a dialog; those in `S` do not talk to each other. -/
structure KeepsTo (S : P × P → Prop) (c : Net P M R) (D : P × P → Dialog M) : Prop where
  silent : ∀ x, S x → D x = .over
  self : ∀ p, S (p, p)
  follows : ∀ p q, Follows q (c.state p) (D (p, q))
  agree : ∀ p q, Agree (c.chan (p, q)) (c.chan (q, p)) (D (p, q)) (D (q, p))

theorem KeepsTo.step {strict : Bool} {p : P} {c c' : Net P M R} {D : P × P → Dialog M}
    {S : P × P → Prop} (h : KeepsTo S c D) (st : CStep strict p c c') : ∃ D', KeepsTo S c' D' := by
  cases st with
  | closed q e _ _ =>
    refine ⟨D, h.silent, h.self, fun p' q' => ?_, h.agree⟩
    by_cases hp : p' = p
    · subst hp; simp [Follows]
    · simpa [Function.update_of_ne hp] using h.follows p' q'
  | live d st =>
    cases st with
    | send q m k e =>
      have hf := h.follows p q
      rw [e] at hf
      simp only [Follows, if_true] at hf
      obtain ⟨f, hd, hk⟩ := hf
      have hpq : p ≠ q := by
        intro heq; subst heq; rw [h.silent _ (h.self p)] at hd; cases hd
      refine ⟨Function.update D (p, q) (f m), fun x hx => ?_, h.self, fun p' q' => ?_, fun p' q' => ?_⟩
      · have : x ≠ (p, q) := by intro he; subst he; rw [h.silent _ hx] at hd; cases hd
        rw [Function.update_of_ne this]; exact h.silent x hx
      · by_cases hp : p' = p
        · subst hp
          by_cases hq : q' = q
          · subst hq; simpa [Follows] using hk
          · have := h.follows p' q'
            rw [e] at this
            simp only [Follows, if_neg (Ne.symm hq)] at this
            simp only [Function.update_self, Follows]
            rw [Function.update_of_ne (by simp [hq])]
            exact this
        · simp only [Function.update_of_ne hp]
          rw [Function.update_of_ne (by simp [hp])]
          exact h.follows p' q'
      · dsimp only
        have ha := h.agree p q
        rw [hd] at ha
        have ha := ha.give m
        have n1 : (q, p) ≠ (p, q) := by simp; intro a _; exact hpq a.symm
        by_cases h1 : (p', q') = (p, q)
        · obtain ⟨rfl, rfl⟩ := Prod.mk.inj h1
          rw [Function.update_self, Function.update_self, Function.update_of_ne n1, Function.update_of_ne n1]
          exact ha
        · by_cases h2 : (q', p') = (p, q)
          · obtain ⟨rfl, rfl⟩ := Prod.mk.inj h2
            rw [Function.update_self, Function.update_self, Function.update_of_ne n1, Function.update_of_ne n1]
            exact ha.symm
          · rw [Function.update_of_ne h1, Function.update_of_ne h1, Function.update_of_ne h2,
              Function.update_of_ne h2]
            exact h.agree p' q'
    | wait q k e _ =>
      refine ⟨D, h.silent, h.self, fun p' q' => ?_, h.agree⟩
      by_cases hp : p' = p
      · subst hp
        have := h.follows p' q'
        rw [e] at this
        simpa [Follows] using this
      · simpa [Function.update_of_ne hp] using h.follows p' q'
    | recv q k m ms e hm =>
      have hf := h.follows p q
      rw [e] at hf
      simp only [Follows, if_true] at hf
      obtain ⟨f, hd, hk⟩ := hf
      have hpq : p ≠ q := by
        intro heq; subst heq; rw [h.silent _ (h.self p)] at hd; cases hd
      refine ⟨Function.update D (p, q) (f m), fun x hx => ?_, h.self, fun p' q' => ?_, fun p' q' => ?_⟩
      · have : x ≠ (p, q) := by intro he; subst he; rw [h.silent _ hx] at hd; cases hd
        rw [Function.update_of_ne this]; exact h.silent x hx
      · by_cases hp : p' = p
        · subst hp
          by_cases hq : q' = q
          · subst hq; simpa using hk m
          · have := h.follows p' q'
            rw [e] at this
            simp only [Follows, if_neg (Ne.symm hq)] at this
            simp only [Function.update_self]
            rw [Function.update_of_ne (by simp [hq])]
            exact this m
        · simp only [Function.update_of_ne hp]
          rw [Function.update_of_ne (by simp [hp])]
          exact h.follows p' q'
      · dsimp only
        have ha := h.agree p q
        rw [hd, hm] at ha
        have ha := ha.take
        have n1 : (q, p) ≠ (p, q) := by simp; intro a _; exact hpq a.symm
        by_cases h1 : (p', q') = (p, q)
        · obtain ⟨rfl, rfl⟩ := Prod.mk.inj h1
          rw [Function.update_self, Function.update_self, Function.update_of_ne n1, Function.update_of_ne n1.symm]
          exact ha
        · by_cases h2 : (q', p') = (p, q)
          · obtain ⟨rfl, rfl⟩ := Prod.mk.inj h2
            rw [Function.update_self, Function.update_self, Function.update_of_ne n1, Function.update_of_ne n1.symm]
            exact ha.symm
          · have h1' : (p', q') ≠ (q, p) := by
              intro he; obtain ⟨rfl, rfl⟩ := Prod.mk.inj he; exact h2 rfl
            have h2' : (q', p') ≠ (q, p) := by
              intro he; obtain ⟨rfl, rfl⟩ := Prod.mk.inj he; exact h1 rfl
            rw [Function.update_of_ne h1, Function.update_of_ne h1', Function.update_of_ne h2,
              Function.update_of_ne h2']
            exact h.agree p' q'

theorem KeepsTo.run {n : Nat} {c c' : Net P M R} {D : P × P → Dialog M}
    {S : P × P → Prop} (h : KeepsTo S c D) (t : CRun n c c') : ∃ D', KeepsTo S c' D' := by
  induction t with
  | nil c => exact ⟨D, h⟩
  | snoc n p c d e _ st ih =>
    obtain ⟨D', h'⟩ := ih h
    exact h'.step st

end

/-! ## Stars -/

/-- Hosts talk to the guest only. -/
def Apart : Option Nat × Option Nat → Prop
  | (none, none) => True
  | (some _, some _) => True
  | _ => False

/-- In a star nobody waits for ever: if a party has not ended, a step is possible that relies
neither on buffers nor on luck. -/
theorem KeepsTo.progress {c : Net (Option Nat) M R} {D : Option Nat × Option Nat → Dialog M}
    (h : KeepsTo Apart c D) (hn : ∃ p, ¬ (c.state p).Ended) : ∃ p d, CStep true p c d := by
  by_contra hstuck
  push Not at hstuck
  -- a party that has not ended is in a call on a connection
  have call : ∀ p, ¬ (c.state p).Ended → ∃ q, (c.state p).At q ∧ ¬ (c.state q).Ended := by
    intro p hp
    have : ∃ q, (c.state p).At q := by
      cases e : c.state p with
      | done r => rw [e] at hp; exact absurd trivial hp
      | fail r => rw [e] at hp; exact absurd trivial hp
      | send q m k => exact ⟨q, rfl⟩
      | wait q k => exact ⟨q, rfl⟩
      | recv q k => exact ⟨q, rfl⟩
    obtain ⟨q, hq⟩ := this
    exact ⟨q, hq, fun hqe => hstuck p _ (.closed q .exception hq hqe)⟩
  have waits : ∀ p q k, c.state p = .wait q k → c.chan (p, q) ≠ [] := fun p q k e hc =>
    hstuck p _ (.live _ (.wait q k e fun _ => hc))
  have recvs : ∀ p q k, c.state p = .recv q k → c.chan (q, p) = [] := by
    intro p q k e
    cases hc : c.chan (q, p) with
    | nil => rfl
    | cons m ms => exact absurd (.live _ (.recv q k m ms e hc)) (hstuck p _)
  have cases' : ∀ p q, (c.state p).At q → (∃ k, c.state p = .wait q k) ∨ (∃ k, c.state p = .recv q k) := by
    intro p q hq
    cases e : c.state p with
    | done r => rw [e] at hq; exact hq.elim
    | fail r => rw [e] at hq; exact hq.elim
    | send q' m k => exact absurd (.live _ (.send q' m k e)) (hstuck p _)
    | wait q' k => rw [e] at hq; cases hq; exact Or.inl ⟨k, rfl⟩
    | recv q' k => rw [e] at hq; cases hq; exact Or.inr ⟨k, rfl⟩
  have talk : ∀ p q, (c.state p).At q → ¬ Apart (p, q) := by
    intro p q hq hap
    have hap' : Apart (q, p) := by cases p <;> cases q <;> simp_all [Apart]
    rcases cases' p q hq with ⟨k, e⟩ | ⟨k, e⟩
    · refine waits p q k e ?_
      have := h.agree p q
      rw [h.silent _ hap, h.silent _ hap'] at this
      rcases this with ⟨_, h2⟩ | ⟨h1, _⟩
      · cases hc : c.chan (p, q) with
        | nil => rfl
        | cons m ms => rw [hc] at h2; simp [Dialog.hear] at h2
      · exact h1
    · have hf := h.follows p q
      rw [h.silent _ hap, e] at hf
      simp [Follows] at hf
  have pair : ∃ j, (c.state none).At (some j) ∧ (c.state (some j)).At none := by
    have host : ∀ j, ¬ (c.state (some j)).Ended → (c.state (some j)).At none ∧ ¬ (c.state none).Ended := by
      intro j hj
      obtain ⟨q, h1, h2⟩ := call _ hj
      cases q with
      | none => exact ⟨h1, h2⟩
      | some i => exact absurd trivial (talk _ _ h1)
    have guest : ¬ (c.state none).Ended := by
      obtain ⟨p, hp⟩ := hn
      cases p with
      | none => exact hp
      | some j => exact (host j hp).2
    obtain ⟨q, h1, h2⟩ := call _ guest
    cases q with
    | none => exact absurd trivial (talk _ _ h1)
    | some j => exact ⟨j, h1, (host j h2).1⟩
  obtain ⟨j, hg, hh⟩ := pair
  have ha := h.agree none (some j)
  rcases cases' _ _ hg with ⟨k, e⟩ | ⟨k, e⟩ <;> rcases cases' _ _ hh with ⟨k', e'⟩ | ⟨k', e'⟩
  · have h1 := waits _ _ _ e
    have h2 := waits _ _ _ e'
    rcases ha with ⟨h3, _⟩ | ⟨h3, _⟩
    · exact h2 h3
    · exact h1 h3
  · exact waits _ _ _ e (recvs _ _ _ e')
  · exact waits _ _ _ e' (recvs _ _ _ e)
  · have h1 := h.follows none (some j)
    have h2 := h.follows (some j) none
    rw [e] at h1
    rw [e'] at h2
    simp only [Follows, if_true] at h1 h2
    obtain ⟨f, h1, _⟩ := h1
    obtain ⟨f', h2, _⟩ := h2
    rw [recvs _ _ _ e, recvs _ _ _ e', h1, h2] at ha
    rcases ha with ⟨_, h3⟩ | ⟨_, h3⟩ <;> simp [Dialog.dual] at h3

/-! ## Executions are finite -/

/-- `k` is what may be left of a program after a step. -/
inductive After : Proc P M R → Proc P M R → Prop
  | send (q : P) (m : M) (k : Proc P M R) : After (.wait q k) (.send q m k)
  | wait (q : P) (k : Proc P M R) : After k (.wait q k)
  | recv (q : P) (k : M → Proc P M R) (m : M) : After (k m) (.recv q k)
  | closed (q : P) (e : PyErr) (p : Proc P M R) (h : p.At q) : After (.fail e) p

theorem after_wf : WellFounded (After (P := P) (M := M) (R := R)) := by
  have hfail : ∀ e, Acc (After (P := P) (M := M) (R := R)) (.fail e) := by
    intro e
    refine ⟨_, fun k h => ?_⟩
    cases h with
    | closed q e' p h => exact h.elim
  refine ⟨fun p => ?_⟩
  have hwait : ∀ q (k : Proc P M R), Acc After k → Acc After (.wait q k) := by
    intro q k hk
    refine ⟨_, fun k' h => ?_⟩
    cases h with
    | wait => exact hk
    | closed q e p h => exact hfail e
  induction p with
  | done r =>
    refine ⟨_, fun k h => ?_⟩
    cases h with
    | closed q e p h => exact h.elim
  | fail e => exact hfail e
  | send q m k ih =>
    refine ⟨_, fun k' h => ?_⟩
    cases h with
    | send => exact hwait q k ih
    | closed q e p h => exact hfail e
  | wait q k ih => exact hwait q k ih
  | recv q k ih =>
    refine ⟨_, fun k' h => ?_⟩
    cases h with
    | recv q k m => exact ih m
    | closed q e p h => exact hfail e

variable [DecidableEq P]

theorem CStep.after {strict : Bool} {p : P} {c d : Net P M R} (h : CStep strict p c d) :
    ∃ k, d.state = Function.update c.state p k ∧ After k (c.state p) := by
  cases h with
  | closed q e h _ => exact ⟨_, rfl, .closed q e _ h⟩
  | live d h =>
    cases h with
    | send q m k e => exact ⟨_, rfl, by rw [e]; exact .send q m k⟩
    | wait q k e _ => exact ⟨_, rfl, by rw [e]; exact .wait q k⟩
    | recv q k m ms e _ => exact ⟨_, rfl, by rw [e]; exact .recv q k m⟩

omit [DecidableEq P] in
private theorem no_descent {A : Type} {r : A → A → Prop} (h : WellFounded r) (f : Nat → A)
    (hf : ∀ n, r (f (n + 1)) (f n)) : False := by
  have key : ∀ a, ∀ n, f n = a → False := by
    intro a
    induction a using h.induction with
    | _ a ih => intro n hn; exact ih (f (n + 1)) (hn ▸ hf n) (n + 1) rfl
  exact key _ 0 rfl

/-- If all but finitely many parties have ended, there is no infinite execution. -/
theorem no_infinite (parties : Finset P) (strict : Bool) (run : Nat → Net P M R)
    (hstart : ∀ p, p ∉ parties → ((run 0).state p).Ended)
    (hstep : ∀ n, ∃ p, CStep strict p (run n) (run (n + 1))) : False := by
  have hend : ∀ n p, p ∉ parties → ((run n).state p).Ended := by
    intro n
    induction n with
    | zero => exact hstart
    | succ n ih =>
      intro p hp
      obtain ⟨q, h⟩ := hstep n
      obtain ⟨k, h1, h2⟩ := h.after
      have hq : q ≠ p := by
        intro hq
        subst hq
        have := ih q hp
        cases e : (run n).state q <;> rw [e] at this h2 <;> first | exact this.elim | skip
        all_goals
          cases h2 with
          | closed q e p h => exact h.elim
      rw [h1, Function.update_of_ne hq.symm]
      exact ih p hp
  have hcut := (after_wf (P := P) (M := M) (R := R)).cutExpand
  refine no_descent hcut (fun n => parties.val.map (run n).state) fun n => ?_
  obtain ⟨q, h⟩ := hstep n
  obtain ⟨k, h1, h2⟩ := h.after
  have hq : q ∈ parties := by
    by_contra hq
    have := hend n q hq
    cases e : (run n).state q <;> rw [e] at this h2 <;> first | exact this.elim | skip
    all_goals
      cases h2 with
      | closed q e p h => exact h.elim
  refine ⟨{k}, (run n).state q, fun a ha => by rw [Multiset.mem_singleton] at ha; rw [ha]; exact h2, ?_⟩
  obtain ⟨t, ht⟩ := Multiset.exists_cons_of_mem (s := parties.val) hq
  have hnd := parties.nodup
  rw [ht, Multiset.nodup_cons] at hnd
  have hsame : t.map (run (n + 1)).state = t.map (run n).state := by
    refine Multiset.map_congr rfl fun x hx => ?_
    rw [h1, Function.update_of_ne]
    intro he; subst he; exact hnd.1 hx
  rw [ht, Multiset.map_cons, Multiset.map_cons, hsame, h1, Function.update_self]
  simp only [← Multiset.singleton_add]
  abel

end Network
end Verif
