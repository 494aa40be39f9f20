import Verif.Lemmas.TransportClosed
import Verif.Lemmas.ProtocolDialog
import Verif.Lemmas.ProtocolPartners
import Verif.Examples.DemoProgram

/-! # C66: when one program ends early, the others end too -/

set_option autoImplicit false

namespace Verif

open Network Program Transport
open Data (Cell)

variable {α P : Type}

/-! ## One connection -/

/-- **A connection that ends between two messages** is reported: the next `recv_data` raises
`ValueError`. -/
theorem C66_between {M : Type} (loads : List Byte → M) (c : Nat) (σ : Nat → Nat) (fuel : Nat) :
    recvDataClosed loads c σ fuel [] = .raised .valueError := by
  unfold recvDataClosed
  simp [recv, parseInt, strip]

/-- **What was sent before the connection ended can be read**, if the header arrives in one piece:
whole messages are received as on an open connection. -/
theorem C66_whole {M : Type} (loads : List Byte → M) (c : Nat) (σ : Nat → Nat) (fuel : Nat)
    (body rest : List Byte) (hc : 16 ≤ c) (hlen : body.length < 10 ^ 16) (hf : body.length ≤ fuel) :
    recvDataClosed loads c σ fuel (frame body ++ rest) = .ok (loads body) rest := by
  have hh := header_length body.length hlen
  have e : recv c 16 (frame body ++ rest) = (header body.length, body ++ rest) := by
    unfold recv frame
    rw [show min (max 1 c) 16 = 16 by omega, List.append_assoc,
      List.take_left' hh, List.drop_left' hh]
  unfold recvDataClosed
  rw [e]
  simp only [parseInt_header _ hlen]
  rw [bodyLoopClosed_ok σ body.length fuel 0 [] body rest (by simp) hf]
  simp

/-- **A connection that ends within a message is not reported.**  If any proper part of a message
has arrived when the connection ends, `recv_data` never returns and raises nothing: its loop is
still running after any number of turns. -/
theorem C66_within_refuted {M : Type} (loads : List Byte → M) (c : Nat) (σ : Nat → Nat) (fuel : Nat)
    (body : List Byte) (k : Nat) (hc : 16 ≤ c) (hlen : body.length < 10 ^ 16) (hb : body ≠ [])
    (h0 : 0 < k) (hk : k < (frame body).length) :
    recvDataClosed loads c σ fuel ((frame body).take k) = .hang := by
  have hh := header_length body.length hlen
  have hpos : 0 < body.length := List.length_pos_iff.mpr hb
  unfold recvDataClosed
  by_cases hk16 : k ≤ 16
  · have e : recv c 16 ((frame body).take k) = ((header body.length).take k, []) := by
      unfold recv frame
      rw [show min (max 1 c) 16 = 16 by omega, List.take_take, show min 16 k = k by omega,
        List.take_append_of_le_length (by omega), List.drop_eq_nil_of_le (by simp; omega)]
    rw [e]
    obtain ⟨v, hv, hvp⟩ := parseInt_piece body.length k hpos h0 hk16
    simp only [hv]
    rw [bodyLoopClosed_short σ v fuel 0 [] [] (by simpa using hvp)]
  · have e : recv c 16 ((frame body).take k) = (header body.length, body.take (k - 16)) := by
      unfold recv frame
      rw [show min (max 1 c) 16 = 16 by omega, List.take_append, hh,
        List.take_of_length_le (show (header body.length).length ≤ k by omega),
        List.take_left' hh, List.drop_left' hh]
    rw [e]
    simp only [parseInt_header _ hlen]
    unfold frame at hk
    rw [List.length_append, hh] at hk
    rw [bodyLoopClosed_short σ body.length fuel 0 [] _ (by simp; omega)]

example : recvDataClosed id 16 (fun _ => 1) 1000 ((frame [7, 8, 9]).take 18) = .hang :=
  C66_within_refuted id 16 _ 1000 [7, 8, 9] 18 (by decide) (by decide) (by decide) (by decide) (by decide)

/-! ## All programs -/

section
variable [LinearOrder P] [One P] [Sub P]

private theorem only_guest {S : Settings α P} {parse : Cell → Option Rat} {draw : Nat → Nat → Nat}
    {text : List Char} {scaled : Nat → Rat} {conns : Nat} :
    Only (Conn conns) (guestProcess S parse draw text scaled conns) := by
  unfold guestProcess
  refine only_bind (only_lift _) fun _ => only_bind (only_lift _) fun _ => only_bind (only_lift _) fun _ =>
    only_bind (only_lift _) fun R => only_bind (only_guestBoost (B := guestPart S conns _ R)) fun _ =>
    only_bind (only_lift _) fun _ => only_bind only_guestPredict fun _ => only_bind (only_lift _) fun _ =>
    only_bind (only_lift _) fun _ => only_bind (only_lift _) fun _ => only_pure _

omit [LinearOrder P] [One P] [Sub P] in
private theorem only_host {S : Settings α P} {parse : Cell → Option Rat} {draw : Nat → Nat → Nat}
    {j : Nat} {h : HostArgs} : Only (· = none) (hostProcess S parse draw j h) := by
  unfold hostProcess
  exact only_bind (only_lift _) fun _ => only_bind (only_lift _) fun _ => only_bind only_hostBoost fun _ =>
    only_bind (only_lift _) fun _ => only_hostPredict

private theorem guest_follows {S : Settings α P} {parse : Cell → Option Rat} {draw : Nat → Nat → Nat}
    {text : List Char} {scaled : Nat → Rat} {conns j : Nat} (hj : j < conns) {R : Type}
    {k : GuestEnd P → Prog Nat α R} (h : ∀ r, Follows (some j) (k r) .over) :
    Follows (some j) (guestProcess S parse draw text scaled conns >>= k)
      (runD S.maxDepth S.maxSplitNodes S.early S.rounds S.fuel) := by
  unfold guestProcess guestBoost runD
  refine follows_assoc (follows_lift fun g _ => ?_)
  refine follows_assoc (follows_lift fun party _ => ?_)
  refine follows_assoc (follows_lift fun y _ => ?_)
  refine follows_assoc (follows_lift fun Rc _ => ?_)
  refine follows_assoc (follows_assoc (follows_lift fun scores _ => ?_))
  refine follows_assoc (follows_sendAll List.nodup_range (List.mem_range.mpr hj) ?_)
  refine follows_guestLoop (B := guestPart S conns party Rc) hj (d := predictD S.fuel Rc.dim) fun st => ?_
  refine follows_assoc (follows_lift fun rows _ => ?_)
  refine follows_assoc (follows_guestPredict hj fun T => ?_)
  refine follows_assoc (follows_lift fun given _ => ?_)
  refine follows_assoc (follows_lift fun res _ => ?_)
  exact follows_assoc (follows_lift fun a _ => h _)

omit [LinearOrder P] [One P] [Sub P] in
private theorem host_follows {S : Settings α P} {parse : Cell → Option Rat} {draw : Nat → Nat → Nat}
    {j : Nat} {a : HostArgs} {R : Type} {k : Unit → Prog Nat α R} (h : Follows none (k ()) .over) :
    Follows none (hostProcess S parse draw j a >>= k)
      (runD S.maxDepth S.maxSplitNodes S.early S.rounds S.fuel).dual := by
  unfold hostProcess hostBoost runD
  refine follows_assoc (follows_lift fun t _ => ?_)
  refine follows_assoc (follows_lift fun party _ => ?_)
  refine follows_assoc (follows_assoc (follows_recvAs fun m v hv => ?_))
  cases m <;> cases hv
  refine follows_assoc (follows_hostLoop (B := hostPart S j party) (d := predictD S.fuel _) fun ts => ?_)
  refine follows_assoc (follows_lift fun rows _ => ?_)
  exact follows_hostPredict h

private theorem keeps (S : Settings α P) (parse : Cell → Option Rat) (draw : Nat → Nat → Nat)
    (text : List Char) (scaled : Nat → Rat) (hosts : List HostArgs) :
    ∃ D, KeepsTo Apart (programs S parse draw text scaled hosts) D := by
  set T : Dialog (Msg Nat α) := runD S.maxDepth S.maxSplitNodes S.early S.rounds S.fuel with hT
  let D : Option Nat × Option Nat → Dialog (Msg Nat α) := fun
    | (none, some j) => if j < hosts.length then T else .over
    | (some j, none) => if j < hosts.length then T.dual else .over
    | _ => .over
  have hstate : ∀ j, (programs S parse draw text scaled hosts).state (some j) =
      match hosts[j]? with
      | some a => hostProcess S parse draw j a >>= fun r => pure (.host r)
      | none => .done .absent := by
    intro j
    show (((hosts.mapIdx fun j a => hostProcess S parse draw j a).map fun h => h >>= fun r =>
      (pure (Network.Outcome.host r) : Prog Nat α _))[j]?).getD _ = _
    rw [List.getElem?_map, List.getElem?_mapIdx]
    cases hosts[j]? <;> rfl
  refine ⟨D, fun x hx => ?_, fun p => ?_, fun p q => ?_, fun p q => ?_⟩
  · obtain ⟨p, q⟩ := x
    cases p <;> cases q <;> first | rfl | exact hx.elim
  · cases p <;> trivial
  · cases p with
    | none =>
      have ho : Only (Conn hosts.length) ((programs S parse draw text scaled hosts).state none) :=
        only_bind only_guest fun _ => only_pure _
      cases q with
      | none => exact only_follows (by exact id) ho
      | some j =>
        show Follows _ _ (if j < hosts.length then T else .over)
        split
        · rename_i hj
          exact guest_follows hj fun r => trivial
        · rename_i hj
          exact only_follows (T := Network.Conn hosts.length) (q := some j) hj ho
    | some j =>
      rw [hstate]
      cases hj : hosts[j]? with
      | none => trivial
      | some a =>
        have hlt : j < hosts.length := (List.getElem?_eq_some_iff.mp hj).1
        cases q with
        | none =>
          show Follows _ _ (if j < hosts.length then T.dual else .over)
          rw [if_pos hlt]
          exact host_follows trivial
        | some i => exact only_follows (T := (· = none)) (by simp) (only_bind only_host fun _ => only_pure _)
  · show Agree [] [] (D (p, q)) (D (q, p))
    cases p with
    | none =>
      cases q with
      | none => exact agree_start .over
      | some j =>
        show Agree [] [] (if j < hosts.length then T else .over) (if j < hosts.length then T.dual else .over)
        split
        · exact agree_start T
        · exact agree_start .over
    | some j =>
      cases q with
      | some i => exact agree_start .over
      | none =>
        show Agree [] [] (if j < hosts.length then T.dual else .over) (if j < hosts.length then T else .over)
        split
        · exact (agree_start T).symm
        · exact agree_start .over

/-- **Nobody waits for ever.**  For all files and settings, suitable or not: however the programs
have been executed and whichever of them have ended early with whatever exceptions, either all
programs have ended or a step is possible that depends on nothing (no buffer space, no further
input). -/
theorem C66_no_deadlock (S : Settings α P) (parse : Cell → Option Rat) (draw : Nat → Nat → Nat)
    (text : List Char) (scaled : Nat → Rat) (hosts : List HostArgs) (n : Nat)
    (c : Net (Option Nat) (Msg Nat α) (Network.Outcome (GuestEnd P) Unit))
    (h : CRun n (programs S parse draw text scaled hosts) c) :
    (∀ p, (c.state p).Ended) ∨ ∃ p d, CStep true p c d := by
  obtain ⟨D, hD⟩ := keeps S parse draw text scaled hosts
  obtain ⟨D', hD'⟩ := hD.run h
  by_cases he : ∀ p, (c.state p).Ended
  · exact Or.inl he
  · push Not at he
    exact Or.inr (hD'.progress he)

/-- **Every execution is finite**, for all files and settings. -/
theorem C66_finite (S : Settings α P) (parse : Cell → Option Rat) (draw : Nat → Nat → Nat)
    (text : List Char) (scaled : Nat → Rat) (hosts : List HostArgs)
    (run : Nat → Net (Option Nat) (Msg Nat α) (Network.Outcome (GuestEnd P) Unit))
    (h : run 0 = programs S parse draw text scaled hosts) :
    ¬ ∀ n, ∃ p, CStep false p (run n) (run (n + 1)) := by
  intro hs
  refine no_infinite (insert none ((Finset.range hosts.length).image some)) false run ?_ hs
  intro p hp
  cases p with
  | none => simp at hp
  | some j =>
    have hj : hosts.length ≤ j := by simpa using hp
    rw [h]
    show Proc.Ended ((((hosts.mapIdx fun j a => hostProcess S parse draw j a).map fun h => h >>= fun r =>
      (pure (Network.Outcome.host r) : Prog Nat α _))[j]?).getD _)
    rw [List.getElem?_eq_none (by simpa using hj)]
    trivial

end

/-- A host with an empty file fails at once; the guest is still running then and has sent nothing. -/
example : ∃ e, (programs DemoProgram.clear DemoProgram.parse DemoProgram.draw DemoProgram.guestText
      DemoProgram.scaled [⟨1, DemoProgram.hostText1, DemoProgram.scaled⟩, ⟨2, [], DemoProgram.scaled⟩]).state
        (some 1) = .fail e := by
  have h : (hostTables DemoProgram.parse [] DemoProgram.scaled DemoProgram.draw).toOption = none := by
    decide +kernel
  cases e : hostTables DemoProgram.parse [] DemoProgram.scaled DemoProgram.draw with
  | ok t => rw [e] at h; cases h
  | error x =>
    refine ⟨x, ?_⟩
    show ((hostProcess _ _ _ 1 ⟨2, [], DemoProgram.scaled⟩ >>= fun r =>
      (pure (Network.Outcome.host r) : Prog Nat Rat _))) = _
    unfold hostProcess
    rw [e]
    rfl

end Verif
