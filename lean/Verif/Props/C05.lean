import Verif.Lemmas.Transport

/-!
# C05 – messages go to the host that was addressed
-/

set_option autoImplicit false

namespace Verif
open Transport

variable {M : Type*}

/-- Is host `i` addressed by `index`? -/
def Spec.addressed (index : Int) (i : Nat) : Bool := index == -1 || index == i

/-- Is `index` a legal host index for `n` hosts? -/
def Spec.validIndex (n : Nat) (index : Int) : Prop := index = -1 ∨ (0 ≤ index ∧ index < n)

/-- Sending succeeds exactly for legal indices; then every addressed host gets the
message appended once, and no other connection changes in any way. -/
theorem C05_send (conns : List (Conn M)) (data : M) (index : Int) :
    (Spec.validIndex conns.length index →
      ∃ conns', sendToHosts conns data index = .ok conns' ∧ conns'.length = conns.length ∧
        ∀ (i : Nat) (c : Conn M), conns[i]? = some c → conns'[i]? =
          some { c with sent := if Spec.addressed index i then c.sent ++ [data] else c.sent }) ∧
    (¬ Spec.validIndex conns.length index → sendToHosts conns data index = .error .valueError) := by
  constructor
  · intro h
    unfold sendToHosts
    by_cases h1 : index = -1
    · subst h1
      refine ⟨_, if_pos rfl, by simp, ?_⟩
      intro i c hc
      simp [hc, Spec.addressed]
    · have h2 : index < conns.length ∧ index ≥ 0 := by
        rcases h with h | h
        · exact absurd h h1
        · exact ⟨h.2, h.1⟩
      rw [if_neg h1, if_pos h2]
      refine ⟨_, rfl, by simp, ?_⟩
      intro i c hc
      rw [List.getElem?_modify, hc]
      by_cases hi : index.toNat = i
      · have : index = (i : Int) := by omega
        simp [Spec.addressed, this]
      · have : ¬ index = (i : Int) := by omega
        simp [hi, Spec.addressed, this, h1]
  · intro h
    unfold sendToHosts Spec.validIndex at *
    rw [if_neg (fun h1 => h (Or.inl h1)), if_neg (fun h1 => h (Or.inr ⟨h1.2, h1.1⟩))]

example : Spec.validIndex 3 (-1) ∧ Spec.validIndex 3 2 ∧ ¬ Spec.validIndex 3 3 ∧
    ¬ Spec.validIndex 3 (-2) := by unfold Spec.validIndex; omega
example : sendToHosts [⟨[], []⟩, ⟨["a"], []⟩] "m" 1 = .ok [⟨[], []⟩, ⟨["a", "m"], []⟩] := by decide

/-- Messages host `i` must see after a history of sends. -/
def Spec.inboxOf (history : List (M × Int)) (i : Nat) : List M :=
  (history.filter fun p => Spec.addressed p.2 i).map Prod.fst

/-- A history of sends (each one legal). -/
def sendHistory (conns : List (Conn M)) : List (M × Int) → Except PyErr (List (Conn M))
  | [] => .ok conns
  | (m, idx) :: rest =>
    match sendToHosts conns m idx with
    | .ok conns' => sendHistory conns' rest
    | .error e => .error e

/-- After any history of sends, host `i` has been sent exactly the messages addressed
to it (individually or by broadcast), in order, each once. -/
theorem C05_history (conns : List (Conn M)) (history : List (M × Int))
    (h : ∀ p ∈ history, Spec.validIndex conns.length p.2) :
    ∃ conns', sendHistory conns history = .ok conns' ∧ conns'.length = conns.length ∧
      ∀ (i : Nat) (c : Conn M), conns[i]? = some c →
        conns'[i]? = some { c with sent := c.sent ++ Spec.inboxOf history i } := by
  induction history generalizing conns with
  | nil => exact ⟨conns, rfl, rfl, by intro i c hc; simp [Spec.inboxOf, hc]⟩
  | cons p history ih =>
    obtain ⟨m, idx⟩ := p
    obtain ⟨conns1, h1, hl1, hc1⟩ := (C05_send conns m idx).1 (h (m, idx) (by simp))
    obtain ⟨conns2, h2, hl2, hc2⟩ := ih conns1 (by
      intro p hp; rw [hl1]; exact h p (by simp [hp]))
    refine ⟨conns2, ?_, by omega, ?_⟩
    · simp only [sendHistory, h1, h2]
    · intro i c hc
      have := hc2 i _ (hc1 i c hc)
      rw [this]
      by_cases ha : Spec.addressed idx i
      · simp [Spec.inboxOf, ha]
      · simp [Spec.inboxOf, ha]

example : ∀ p ∈ [("a", (-1 : Int)), ("b", 0)], Spec.validIndex 2 p.2 := by
  unfold Spec.validIndex; simp

/-- Receiving with a single legal index returns the oldest unread message of that
host and leaves all other connections untouched; on an empty inbox it blocks. -/
theorem C05_recv_one (conns : List (Conn M)) (i : Nat) (c : Conn M) (hc : conns[i]? = some c) :
    (∀ m ms, c.inbox = m :: ms → ∃ conns', recvFromHosts conns (i : Int) = .got (.one m) conns' ∧
        conns'[i]? = some { c with inbox := ms } ∧ ∀ j, j ≠ i → conns'[j]? = conns[j]?) ∧
    (c.inbox = [] → recvFromHosts conns (i : Int) = .blocked) := by
  have hi : i < conns.length := by
    rcases Nat.lt_or_ge i conns.length with h | h
    · exact h
    · rw [List.getElem?_eq_none h] at hc; cases hc
  have hneg : ¬ ((i : Int) = -1) := by omega
  have hok : (i : Int) < conns.length ∧ (i : Int) ≥ 0 := by omega
  have ht : ((i : Int)).toNat = i := by omega
  constructor
  · intro m ms hm
    refine ⟨conns.set i { c with inbox := ms }, ?_, ?_, ?_⟩
    · unfold recvFromHosts
      rw [if_neg hneg, if_pos hok, ht, hc]
      simp only [hm]
    · simp [hi]
    · intro j hj
      rw [List.getElem?_set_ne (fun e => hj e.symm)]
  · intro hm
    unfold recvFromHosts
    rw [if_neg hneg, if_pos hok, ht, hc]
    simp only [hm]

/-- Receiving with index -1 returns exactly one message per host, in host order, the
oldest unread one of each; it blocks as soon as some host has sent nothing. -/
theorem C05_recv_all (conns : List (Conn M)) :
    ((∀ c ∈ conns, c.inbox ≠ []) →
      ∃ ds conns', recvFromHosts conns (-1) = .got (.all ds) conns' ∧
        ds.map some = conns.map (fun c => c.inbox.head?) ∧
        conns' = conns.map (fun c => { c with inbox := c.inbox.tail })) ∧
    ((∃ c ∈ conns, c.inbox = []) → recvFromHosts conns (-1) = .blocked) := by
  refine ⟨?_, ?_⟩
  · intro h
    suffices ∃ ds, recvAllLoop conns = some (ds, conns.map (fun c => { c with inbox := c.inbox.tail })) ∧
        ds.map some = conns.map (fun c => c.inbox.head?) by
      obtain ⟨ds, h1, h2⟩ := this
      refine ⟨ds, _, ?_, h2, rfl⟩
      unfold recvFromHosts
      rw [if_pos rfl, h1]
    induction conns with
    | nil => exact ⟨[], rfl, rfl⟩
    | cons c conns ih =>
      obtain ⟨ds, h1, h2⟩ := ih (fun c hc => h c (by simp [hc]))
      have hc := h c (by simp)
      cases hin : c.inbox with
      | nil => exact absurd hin hc
      | cons m ms =>
        refine ⟨m :: ds, ?_, ?_⟩
        · simp only [recvAllLoop, hin, h1, List.map_cons, List.tail_cons]
        · simp [h2, hin]
  · intro h
    suffices recvAllLoop conns = none by
      unfold recvFromHosts
      rw [if_pos rfl, this]
    induction conns with
    | nil => obtain ⟨c, hc, _⟩ := h; simp at hc
    | cons c conns ih =>
      unfold recvAllLoop
      cases hin : c.inbox with
      | nil => rfl
      | cons m ms =>
        simp only
        have : ∃ c ∈ conns, c.inbox = [] := by
          obtain ⟨c', hc', he⟩ := h
          rcases List.mem_cons.mp hc' with e | e
          · subst e; rw [hin] at he; cases he
          · exact ⟨c', e, he⟩
        rw [ih this]

/-- Any other index is rejected, nothing is consumed. -/
theorem C05_recv_invalid (conns : List (Conn M)) (index : Int)
    (h : ¬ Spec.validIndex conns.length index) :
    recvFromHosts conns index = .raised .valueError := by
  unfold recvFromHosts Spec.validIndex at *
  rw [if_neg (fun h1 => h (Or.inl h1)), if_neg (fun h1 => h (Or.inr ⟨h1.2, h1.1⟩))]

end Verif
