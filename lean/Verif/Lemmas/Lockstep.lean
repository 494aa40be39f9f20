import Verif.Lemmas.Network
import Verif.Model.Protocol

/-!
# Guest and hosts in lockstep

Strict executions of the communication patterns: one message to a host, one from a host, a message
to all hosts, a message from all hosts.
-/

set_option autoImplicit false

namespace Verif
namespace Network

variable {K α R R' R'' : Type}

/-! ## Sequencing -/

section
variable {P M : Type}

theorem send_bind (q : P) (m : M) (k : Proc P M R) (f : R → Proc P M R') :
    (Proc.send q m k >>= f) = Proc.send q m (k >>= f) := rfl

theorem recv_bind (q : P) (k : M → Proc P M R) (f : R → Proc P M R') :
    (Proc.recv q k >>= f) = Proc.recv q (fun m => k m >>= f) := rfl

theorem done_bind (r : R) (f : R → Proc P M R') : (Proc.done r >>= f) = f r := rfl

theorem pure_bind' (r : R) (f : R → Proc P M R') : ((pure r : Proc P M R) >>= f) = f r := rfl

theorem lift_ok (r : R) (f : R → Proc P M R') : ((lift (.ok r) : Proc P M R) >>= f) = f r := rfl

theorem lift_error (e : PyErr) (f : R → Proc P M R') :
    ((lift (.error e) : Proc P M R) >>= f) = .fail e := rfl

theorem bind_bind (p : Proc P M R) (f : R → Proc P M R') (g : R' → Proc P M R'') :
    ((p >>= f) >>= g) = (p >>= fun r => f r >>= g) := bind_assoc' p f g

theorem bind_pure' (p : Proc P M R) : (p >>= fun r => (pure r : Proc P M R)) = p := by
  induction p with
  | done r => rfl
  | fail e => rfl
  | send q m k ih => rw [send_bind, ih]
  | wait q k ih =>
    show Proc.wait q (k >>= fun r => pure r) = _
    rw [ih]
  | recv q k ih =>
    rw [recv_bind]
    simp only [ih]

end

theorem sendTo_bind (q : Option Nat) (m : Msg K α) (f : Unit → Prog K α R) :
    (sendTo q m >>= f) = .send q m (f ()) := rfl

theorem recvAs_bind {β : Type} (q : Option Nat) (dec : Msg K α → Except PyErr β)
    (f : β → Prog K α R) : (recvAs q dec >>= f) = .recv q fun m => lift (dec m) >>= f := rfl

/-! ## Executions -/

/-- There is a strict execution from `c` to `d`. -/
def Leads {P M : Type} [DecidableEq P] (c d : Net P M R) : Prop := ∃ n, Run true n c d

theorem Leads.refl {P M : Type} [DecidableEq P] (c : Net P M R) : Leads c c := ⟨0, .nil c⟩

theorem Leads.trans {P M : Type} [DecidableEq P] {c d e : Net P M R} (h : Leads c d)
    (h' : Leads d e) : Leads c e := by
  obtain ⟨n, h⟩ := h
  obtain ⟨m, h'⟩ := h'
  exact ⟨n + m, run_trans h h'⟩

theorem getElem?_set_self' {β : Type} {l : List β} {i : Nat} {a b : β} (h : l[i]? = some a) :
    (l.set i b)[i]? = some b := by
  obtain ⟨hi, _⟩ := List.getElem?_eq_some_iff.mp h
  simp [hi]

/-- A message from the guest to one host. -/
theorem leads_to_host {idle : R} {i : Nat} {m : Msg K α} {k : Prog K α R} {hs : List (Prog K α R)}
    {f : Msg K α → Prog K α R} (h : hs[i]? = some (.recv none f)) :
    Leads (lock idle (.send (some i) m k) hs) (lock idle k (hs.set i (f m))) := by
  let c0 := lock idle (.send (some i) m k) hs
  let c1 : Net (Option Nat) (Msg K α) R := ⟨Function.update c0.state none (.wait (some i) k),
    Function.update c0.chan (none, some i) [m]⟩
  let c2 : Net (Option Nat) (Msg K α) R := ⟨Function.update c1.state (some i) (f m),
    Function.update c1.chan (none, some i) []⟩
  let c3 : Net (Option Nat) (Msg K α) R := ⟨Function.update c2.state none k, c2.chan⟩
  have s1 : Step true none c0 c1 := Step.send (some i) m k rfl
  have s2 : Step true (some i) c1 c2 := Step.recv none f m [] (by simp [c1, c0, lock, h])
    (by simp [c1])
  have s3 : Step true none c2 c3 := Step.wait (some i) k (by simp [c2, c1]) (fun _ => by simp [c2])
  have e : c3 = lock idle k (hs.set i (f m)) := by
    have hst : c3.state = (lock idle k (hs.set i (f m))).state := by
      funext p
      cases p with
      | none => simp [c3, lock]
      | some j =>
        by_cases hj : j = i
        · subst hj
          simp [c3, c2, lock, getElem?_set_self' h]
        · simp [c3, c2, c1, c0, lock, hj, List.getElem?_set_ne (Ne.symm hj)]
    have hch : c3.chan = (lock idle k (hs.set i (f m))).chan := by
      funext p
      by_cases hp : p = (none, some i)
      · subst hp
        simp [c3, c2, lock]
      · simp [c3, c2, c1, c0, lock, hp]
    cases hc : c3 with
    | mk st ch =>
      rw [hc] at hst hch
      cases hl : lock idle k (hs.set i (f m)) with
      | mk st' ch' =>
        rw [hl] at hst hch
        simp only at hst hch
        rw [hst, hch]
  rw [← e]
  exact ⟨3, .cons _ _ _ _ _ s1 (.cons _ _ _ _ _ s2 (.cons _ _ _ _ _ s3 (.nil _)))⟩

/-- A message from one host to the guest. -/
theorem leads_from_host {idle : R} {i : Nat} {m : Msg K α} {k : Prog K α R}
    {hs : List (Prog K α R)} {f : Msg K α → Prog K α R} (h : hs[i]? = some (.send none m k)) :
    Leads (lock idle (.recv (some i) f) hs) (lock idle (f m) (hs.set i k)) := by
  let c0 := lock idle (.recv (some i) f) hs
  let c1 : Net (Option Nat) (Msg K α) R := ⟨Function.update c0.state (some i) (.wait none k),
    Function.update c0.chan (some i, none) [m]⟩
  let c2 : Net (Option Nat) (Msg K α) R := ⟨Function.update c1.state none (f m),
    Function.update c1.chan (some i, none) []⟩
  let c3 : Net (Option Nat) (Msg K α) R := ⟨Function.update c2.state (some i) k, c2.chan⟩
  have s1 : Step true (some i) c0 c1 := Step.send none m k (by simp [c0, lock, h])
  have s2 : Step true none c1 c2 := Step.recv (some i) f m [] (by simp [c1, c0, lock])
    (by simp [c1])
  have s3 : Step true (some i) c2 c3 := Step.wait none k (by simp [c2, c1]) (fun _ => by simp [c2])
  have e : c3 = lock idle (f m) (hs.set i k) := by
    have hst : c3.state = (lock idle (f m) (hs.set i k)).state := by
      funext p
      cases p with
      | none => simp [c3, c2, lock]
      | some j =>
        by_cases hj : j = i
        · subst hj
          simp [c3, lock, getElem?_set_self' h]
        · simp [c3, c2, c1, c0, lock, hj, List.getElem?_set_ne (Ne.symm hj)]
    have hch : c3.chan = (lock idle (f m) (hs.set i k)).chan := by
      funext p
      by_cases hp : p = (some i, none)
      · subst hp
        simp [c3, c2, lock]
      · simp [c3, c2, c1, c0, lock, hp]
    cases hc : c3 with
    | mk st ch =>
      rw [hc] at hst hch
      cases hl : lock idle (f m) (hs.set i k) with
      | mk st' ch' =>
        rw [hl] at hst hch
        simp only at hst hch
        rw [hst, hch]
  rw [← e]
  exact ⟨3, .cons _ _ _ _ _ s1 (.cons _ _ _ _ _ s2 (.cons _ _ _ _ _ s3 (.nil _)))⟩

theorem set_at_append {β : Type} (pre : List β) (a b : β) (l : List β) :
    (pre ++ a :: l).set pre.length b = pre ++ b :: l := by
  simp

/-- One message to all hosts. -/
theorem leads_sendAll {X β : Type} {idle : R} (xs : List X) (m : Msg K α) (v : β)
    (dec : Msg K α → Except PyErr β) (hd : dec m = .ok v) (k : Prog K α R)
    (cont : X → β → Prog K α R) (n : Nat) (hn : n = xs.length) :
    Leads (lock idle (sendAll m (List.range n) >>= fun _ => k)
        (xs.map fun x => recvAs none dec >>= cont x))
      (lock idle k (xs.map fun x => cont x v)) := by
  subst hn
  rw [List.range_eq_range']
  suffices h : ∀ (pre : List (Prog K α R)),
      Leads (lock idle (sendAll m (List.range' pre.length xs.length) >>= fun _ => k)
          (pre ++ xs.map fun x => recvAs none dec >>= cont x))
        (lock idle k (pre ++ xs.map fun x => cont x v)) from h []
  induction xs with
  | nil => exact fun pre => Leads.refl _
  | cons x xs ih =>
    intro pre
    rw [List.length_cons, List.range'_succ, sendAll, bind_bind, sendTo_bind]
    refine Leads.trans (leads_to_host (f := fun m => lift (dec m) >>= cont x) ?_) ?_
    · simp [recvAs_bind]
    · rw [List.map_cons, set_at_append, hd, lift_ok]
      have := ih (pre ++ [cont x v])
      simpa using this

/-- One message from every host. -/
theorem leads_recvAll {X β : Type} {idle : R} (xs : List X) (msg : X → Msg K α) (v : X → β)
    (dec : Msg K α → Except PyErr β) (hd : ∀ x ∈ xs, dec (msg x) = .ok (v x))
    (k : List β → Prog K α R) (cont : X → Prog K α R) (n : Nat) (hn : n = xs.length) :
    Leads (lock idle (recvAll dec (List.range n) >>= k)
        (xs.map fun x => sendTo none (msg x) >>= fun _ => cont x))
      (lock idle (k (xs.map v)) (xs.map cont)) := by
  subst hn
  rw [List.range_eq_range']
  suffices h : ∀ (pre : List (Prog K α R)) (k : List β → Prog K α R),
      Leads (lock idle (recvAll dec (List.range' pre.length xs.length) >>= k)
          (pre ++ xs.map fun x => sendTo none (msg x) >>= fun _ => cont x))
        (lock idle (k (xs.map v)) (pre ++ xs.map cont)) from h [] k
  induction xs with
  | nil => exact fun pre k => Leads.refl _
  | cons x xs ih =>
    intro pre k
    rw [List.length_cons, List.range'_succ, recvAll, bind_bind, recvAs_bind]
    refine Leads.trans (leads_from_host (m := msg x) (k := cont x) ?_) ?_
    · simp [sendTo_bind]
    · rw [List.map_cons, set_at_append, hd x List.mem_cons_self, lift_ok, bind_bind]
      have := ih (fun y hy => hd y (List.mem_cons_of_mem _ hy)) (pre ++ [cont x])
        (fun vs => (pure (v x :: vs) : Prog K α _) >>= k)
      simpa [pure_bind'] using this

end Network
end Verif
