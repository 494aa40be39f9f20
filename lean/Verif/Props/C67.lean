import Verif.Lemmas.ProcessBreaks
import Verif.Lemmas.Dialog
import Verif.Props.C31
import Verif.Props.C65

/-! # C67: the parties never all end normally when the computation has failed -/

set_option autoImplicit false

namespace Verif

open DTree Spec Network Program Labels
open Data (Cell)

variable {K : Type} [DecidableEq K] {α L P : Type}

omit [DecidableEq K] in
private theorem ends {R : Type} {c : Net (Option Nat) (Msg K α) R} {out : Option Nat → R}
    (h : Completes c out) {b : Bool} {m : Nat} {d : Net (Option Nat) (Msg K α) R} (hr : Run b m c d)
    (hd : d.Finished) : ∀ p, d.state p = .done (out p) := by
  rcases h.progress b m d hr with h' | ⟨p, e, hs⟩
  · exact h'.1
  · exact (not_step_of_finished hd hs).elim

omit [DecidableEq K] in
private theorem reaches {R : Type} {c : Net (Option Nat) (Msg K α) R} {out : Option Nat → R}
    (h : Completes c out) : ∃ m d, Run true m c d ∧ d.Finished := by
  obtain ⟨n, hn⟩ := h.bounded
  have : ∀ k, (∃ m d, Run true m c d ∧ d.Finished) ∨ ∃ d, Run true k c d := by
    intro k
    induction k with
    | zero => exact .inr ⟨c, .nil c⟩
    | succ k ih =>
      rcases ih with ih | ⟨d, hd⟩
      · exact .inl ih
      · rcases h.progress true k d hd with h' | ⟨p, e, hs⟩
        · exact .inl ⟨k, d, hd, fun p => ⟨_, h'.1 p⟩⟩
        · exact .inr ⟨e, run_trans hd (.cons 0 p d e e hs (.nil e))⟩
  rcases this (n + 1) with h' | ⟨d, hd⟩
  · exact h'
  · have := hn true (n + 1) d hd
    omega

/-- **One tree.**  If guest and hosts, each running its own program, all return from training a
tree, then growing the tree raises no exception, and they have returned its parts. -/
theorem C67_tree (S : Setup K α) (b : Bool) (m : Nat)
    (d : Net (Option Nat) (Msg K α) (Network.Outcome (GuestTree K) (List Node × Dict Nat Rat)))
    (h : Run b m (system (guestFit (guestIn S)) (S.hosts.map fun H => hostFit (hostIn S H))) d)
    (hd : d.Finished) :
    ∃ F, fit S = .ok F ∧ ∀ p, d.state p = .done
      (results ⟨F.tree, F.guestMask, F.weights, F.imps⟩ (F.hostMasks.map fun m => (F.tree, m)) p) := by
  cases hf : fit S with
  | ok F => exact ⟨F, rfl, ends (C31_tree S F hf).2 h hd⟩
  | error e =>
    exfalso
    have hb := breaks_fit (idle := Network.Outcome.absent) S id S.hosts (by simp) e hf
      (fun T => pure (.guest T)) (fun _ T => pure (.host T))
    unfold system at h
    rw [List.map_map] at h
    exact (Breaks.run hb h).not_finished hd

/-- **Training.** -/
theorem C67_training (B : Boost K α L) (init : List Rat) (y : DTable K L) (b : Bool) (m : Nat)
    (d : Net (Option Nat) (Msg K α)
      (Network.Outcome (GuestBoostState K) (Nat × List (List NodeParam × Dict Nat Rat))))
    (h : Run b m (system (guestBoost (guestBoostIn B) init y)
        (B.base.hosts.mapIdx fun j H => hostBoost (hostBoostIn B j H))) d)
    (hd : d.Finished) :
    ∃ st, boost B init y = .ok st ∧ ∀ p, d.state p = .done
      (results (gpart st) (B.base.hosts.mapIdx fun j _ => (B.dim, hpart j st.trees)) p) := by
  cases hf : boost B init y with
  | ok st => exact ⟨st, rfl, ends (C31_training B init y st hf) h hd⟩
  | error e =>
    exfalso
    have hb := breaks_boost (idle := Network.Outcome.absent) B init y e hf
      (fun T => pure (.guest T)) (fun _ T => pure (.host T))
    unfold system at h
    simp only [List.mapIdx_eq_zipIdx_map, List.map_map] at h
    exact (Breaks.run hb h).not_finished hd

/-- **Prediction**, for trees that have the thresholds of every host. -/
theorem C67_prediction (hosts : List (Party K)) (rate : Rate) (dim : Nat) (init : List Rat)
    (trees : List Saved) (guest : DTable K (List Rat)) (tables : Nat → DTable K (List Rat))
    (hm : ∀ P ∈ trees, P.hostMasks.length = hosts.length) (fuel : Nat) (b : Bool) (m : Nat)
    (d : Net (Option Nat) (Msg K α) (Network.Outcome (DTable K (List Rat)) Unit))
    (h : Run b m (system
        (guestPredict hosts.length rate dim init (trees.map fun P => (P.nodes, P.guestMask)) guest fuel)
        (hosts.mapIdx fun j H => hostPredict H.idx dim (hpart j trees) (tables j) fuel)) d)
    (hd : d.Finished) :
    ∃ T, predictScores hosts rate dim init trees guest ((List.range hosts.length).map tables) fuel = .ok T ∧
      ∀ p, d.state p = .done (results T (hosts.map fun _ => ()) p) := by
  cases hf : predictScores hosts rate dim init trees guest ((List.range hosts.length).map tables) fuel with
  | ok T => exact ⟨T, rfl, ends (C31_prediction hosts rate dim init trees guest tables hm fuel T hf) h hd⟩
  | error e =>
    exfalso
    have hb := breaks_predict (α := α) (idle := Network.Outcome.absent) hosts rate dim init trees guest _
      (by simp) hm fuel e hf (fun T => pure (.guest T)) (fun _ => pure (.host ()))
    have hz : hosts.zipIdx.zip ((List.range hosts.length).map tables)
        = hosts.zipIdx.map fun x => (x, tables x.2) := by
      refine List.ext_getElem (by simp) ?_
      intro i h1 h2
      simp
    rw [hz] at hb
    unfold system at h
    simp only [List.mapIdx_eq_zipIdx_map, List.map_map] at h hb
    exact (Breaks.run hb h).not_finished hd

section
variable [LinearOrder P] [One P] [Sub P]

omit [DecidableEq K] in
private theorem fail_crun {R : Type} {n : Nat} {c d : Net (Option Nat) (Msg K α) R} (h : CRun n c d)
    (hd : d.Finished) : Run false n c d := by
  have stays : ∀ {p q : Option Nat} {c d : Net (Option Nat) (Msg K α) R} {x : PyErr},
      c.state p = .fail x → CStep false q c d → d.state p = .fail x ∨ q = p := by
    intro p q c d x hp hs
    by_cases hq : q = p
    · exact .inr hq
    · cases hs with
      | live _ h => exact .inl (fail_step hp h)
      | closed r e _ _ => exact .inl (by simp [Function.update_of_ne (Ne.symm hq), hp])
  suffices H : ∀ {n : Nat} {c d : Net (Option Nat) (Msg K α) R}, CRun n c d →
      Run false n c d ∨ ∃ p x, d.state p = .fail x by
    rcases H h with h' | ⟨p, x, hx⟩
    · exact h'
    · obtain ⟨r, hr⟩ := hd p
      rw [hr] at hx
      cases hx
  intro n c d h
  induction h with
  | nil c => exact .inl (.nil c)
  | snoc n p c d e t hs ih =>
    rcases ih with ih | ⟨q, x, hx⟩
    · cases hs with
      | live _ h => exact .inl (run_trans ih (.cons 0 p d e e h (.nil e)))
      | closed r y _ _ => exact .inr ⟨p, y, by simp⟩
    · rcases stays hx hs with h' | rfl
      · exact .inr ⟨q, x, h'⟩
      · exfalso
        cases hs with
        | live _ h => exact not_step_of_fail hx h
        | closed r y ha _ =>
          rw [hx] at ha
          exact ha

/-- **The programs.**  For all files and settings, suitable or not, and for every execution of the
separate programs, connections to programs that have ended included: if all of them end normally, the
composed computation ends normally too, and the guest ends with its model, predictions and
accuracy. -/
theorem C67_programs (S : Settings α P) (parse : Cell → Option Rat) (draw : Nat → Nat → Nat)
    (text : List Char) (scaled : Nat → Rat) (hosts : List HostArgs) (n : Nat)
    (d : Net (Option Nat) (Msg Nat α) (Network.Outcome (GuestEnd P) Unit))
    (h : CRun n (programs S parse draw text scaled hosts) d) (hd : d.Finished) :
    ∃ out, program S parse draw text scaled hosts = .ok out ∧ ∀ p, d.state p = .done
      (results (⟨gpart out.state, out.result, out.accuracy⟩ : GuestEnd P) (hosts.map fun _ => ()) p) := by
  have hr := fail_crun h hd
  cases hf : program S parse draw text scaled hosts with
  | ok out => exact ⟨out, rfl, ends (C65_processes S parse draw text scaled hosts out hf) hr hd⟩
  | error e => exact ((breaks_programs S parse draw text scaled hosts e hf).run hr).not_finished hd |>.elim

/-- **The composed computation is the programs.**  It ends normally exactly when there is an
execution of the separate programs in which all of them end normally. -/
theorem C67_agree (S : Settings α P) (parse : Cell → Option Rat) (draw : Nat → Nat → Nat)
    (text : List Char) (scaled : Nat → Rat) (hosts : List HostArgs) :
    (∃ out, program S parse draw text scaled hosts = .ok out) ↔
      ∃ b m d, Run b m (programs S parse draw text scaled hosts) d ∧ d.Finished := by
  constructor
  · rintro ⟨out, h⟩
    obtain ⟨m, d, hr, hd⟩ := reaches (C65_processes S parse draw text scaled hosts out h)
    exact ⟨true, m, d, hr, hd⟩
  · rintro ⟨b, m, d, hr, hd⟩
    cases hf : program S parse draw text scaled hosts with
    | ok out => exact ⟨out, rfl⟩
    | error e => exact (((breaks_programs S parse draw text scaled hosts e hf).run hr).not_finished hd).elim

/-- **A failure shows.**  If the composed computation raises, then whatever the programs have done
so far without anyone noticing a closed connection, they can be executed further, without relying on
buffers, until one of them raises; and where nobody can go on, one of them has raised. -/
theorem C67_failure (S : Settings α P) (parse : Cell → Option Rat) (draw : Nat → Nat → Nat)
    (text : List Char) (scaled : Nat → Rat) (hosts : List HostArgs) (e : PyErr)
    (h : program S parse draw text scaled hosts = .error e) (b : Bool) (m : Nat)
    (d : Net (Option Nat) (Msg Nat α) (Network.Outcome (GuestEnd P) Unit))
    (hr : Run b m (programs S parse draw text scaled hosts) d) :
    (∃ n d' p x, Run true n d d' ∧ d'.state p = .fail x) ∧
      ((∀ p d', ¬ Step true p d d') → ∃ p x, d.state p = .fail x) := by
  have hb := (breaks_programs S parse draw text scaled hosts e h).run hr
  refine ⟨?_, hb.stuck⟩
  obtain ⟨f, p, x, ⟨n, h1⟩, h2⟩ := hb
  exact ⟨n, f, p, x, h1, h2⟩

end

/-- The computation on the three files of the example ends normally, so some execution of the
programs does; with an empty file for one host it fails. -/
example : (program DemoProgram.clear DemoProgram.parse DemoProgram.draw DemoProgram.guestText
      DemoProgram.scaled DemoProgram.hosts).toOption.isSome = true ∧
    (program DemoProgram.clear DemoProgram.parse DemoProgram.draw DemoProgram.guestText
      DemoProgram.scaled [⟨1, DemoProgram.hostText1, DemoProgram.scaled⟩, ⟨2, [], DemoProgram.scaled⟩]).toOption.isSome
        = false := by
  constructor <;> decide +kernel

/-- A proportion of one leaves a host nothing to predict: training succeeds, prediction fails. -/
example : ∃ e, program DemoProgram.clear DemoProgram.parse DemoProgram.draw DemoProgram.guestText
      (fun n => n) [⟨1, DemoProgram.hostText1, fun n => n⟩, ⟨2, DemoProgram.hostText2, fun n => n⟩] = .error e := by
  have h : (program DemoProgram.clear DemoProgram.parse DemoProgram.draw DemoProgram.guestText
      (fun n => n) [⟨1, DemoProgram.hostText1, fun n => n⟩, ⟨2, DemoProgram.hostText2, fun n => n⟩]).toOption.isSome
        = false := by decide +kernel
  generalize program DemoProgram.clear DemoProgram.parse DemoProgram.draw DemoProgram.guestText
      (fun n => (n : Rat)) [⟨1, DemoProgram.hostText1, fun n => n⟩, ⟨2, DemoProgram.hostText2, fun n => n⟩] = r at h
  cases r with
  | ok v => cases h
  | error e => exact ⟨e, rfl⟩

end Verif
