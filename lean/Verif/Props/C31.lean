import Verif.Lemmas.Completes
import Verif.Lemmas.ProtocolPredict
import Verif.Props.C53

/-!
# C31: guest and hosts never deadlock and never mistake one message for another
-/

set_option autoImplicit false

namespace Verif

open DTree Spec Network

variable {K : Type} [DecidableEq K] {α L : Type}

/-- **One tree.**  If growing the tree raises no exception, guest and hosts, each running its own
program, complete under every order of steps, and each ends with its part of that tree. -/
theorem C31_tree (S : Setup K α) (F : Fitted K) (h : fit S = .ok F) :
    F.hostMasks.length = S.hosts.length ∧
    Completes (system (guestFit (guestIn S)) (S.hosts.map fun H => hostFit (hostIn S H)))
      (results ⟨F.tree, F.guestMask, F.weights, F.imps⟩ (F.hostMasks.map fun m => (F.tree, m))) := by
  obtain ⟨l, c⟩ := leads_fit (idle := Outcome.absent) S id S.hosts (by simp) F h
    (fun T => pure (.guest T)) (fun _ T => pure (.host T))
  refine ⟨l, completes_system ?_⟩
  unfold system
  rw [List.map_map]
  refine Leads.trans c ?_
  have : ((S.hosts.zip F.hostMasks).map fun z => (pure (.host (F.tree, z.2)) :
        Prog K α (Outcome (GuestTree K) (List Node × Dict Nat Rat))))
      = (F.hostMasks.map fun m => (F.tree, m)).map fun h => .done (.host h) := by
    rw [List.map_map, ← List.map_snd_zip (l₁ := S.hosts) (l₂ := F.hostMasks) (by omega), List.map_map]
    rw [List.map_snd_zip (by omega)]
    rfl
  rw [this]
  exact Leads.refl _

/-- **Training.**  If boosting raises no exception, the parties complete under every order of
steps: the guest with the scores, trees, importances and losses of `st`, each host with the same
trees and its own thresholds.  This covers every point at which training may stop early. -/
theorem C31_training (B : Boost K α L) (init : List Rat) (y : DTable K L) (st : BoostState K)
    (h : boost B init y = .ok st) :
    Completes (system (guestBoost (guestBoostIn B) init y)
        (B.base.hosts.mapIdx fun j H => hostBoost (hostBoostIn B j H)))
      (results (gpart st) (B.base.hosts.mapIdx fun j _ => (B.dim, hpart j st.trees))) := by
  obtain ⟨_, c⟩ := leads_boost (idle := Outcome.absent) B init y st h
    (fun T => pure (.guest T)) (fun _ T => pure (.host T))
  refine completes_system ?_
  unfold system
  simp only [List.mapIdx_eq_zipIdx_map, List.map_map]
  exact c

/-- Every tree of a trained ensemble has the thresholds of every host. -/
theorem C31_thresholds (B : Boost K α L) (init : List Rat) (y : DTable K L) (st : BoostState K)
    (h : boost B init y = .ok st) : ∀ P ∈ st.trees, P.hostMasks.length = B.base.hosts.length :=
  (leads_boost (R := Unit) (idle := ()) B init y st h (fun _ => pure ()) (fun _ _ => pure ())).1

private theorem zip_tables {β γ : Type} (l : List β) (f : Nat → γ) :
    l.zipIdx.zip ((List.range l.length).map f) = l.zipIdx.map fun x => (x, f x.2) := by
  refine List.ext_getElem (by simp) ?_
  intro i h1 h2
  simp

/-- **Prediction.**  Likewise for trees that have the thresholds of every host. -/
theorem C31_prediction (hosts : List (Party K)) (rate : Rate) (dim : Nat) (init : List Rat)
    (trees : List Saved) (guest : DTable K (List Rat)) (tables : Nat → DTable K (List Rat))
    (hm : ∀ P ∈ trees, P.hostMasks.length = hosts.length) (fuel : Nat) (T : DTable K (List Rat))
    (h : predictScores hosts rate dim init trees guest ((List.range hosts.length).map tables) fuel
      = .ok T) :
    Completes (system (α := α)
        (guestPredict hosts.length rate dim init (trees.map fun P => (P.nodes, P.guestMask)) guest fuel)
        (hosts.mapIdx fun j H => hostPredict H.idx dim (hpart j trees) (tables j) fuel))
      (results T (hosts.map fun _ => ())) := by
  have c := leads_predict (α := α) (idle := Outcome.absent) hosts rate dim init trees guest _ (by simp) hm fuel T h
    (fun T => pure (.guest T)) (fun _ => pure (.host ()))
  refine completes_system ?_
  unfold system
  rw [zip_tables] at c
  simp only [List.mapIdx_eq_zipIdx_map, List.map_map] at c ⊢
  refine Leads.trans c ?_
  have : (hosts.zipIdx.map ((fun _ => (pure (.host ()) : Prog K α (Outcome (DTable K (List Rat)) Unit))) ∘
        fun x => (x, tables x.2)))
      = hosts.map ((fun h => .done (.host h)) ∘ fun _ => ()) := by
    refine List.ext_getElem (by simp) ?_
    intro i h1 h2
    simp
    rfl
  rw [this]
  exact Leads.refl _

/-- **A whole run.**  Under the conditions of C53, which can be checked before the run, training
followed by prediction on the training rows completes under every order of the parties' steps, for
any number of hosts, samples, features, rounds and components, and the guest ends with exactly the
scores it has trained. -/
theorem C31_run (p q : Nat) (sk : Paillier.PrivKey) (lo hi : Int) (m gmax hmax eg eh : Rat)
    (G : Rat × Rat → Prop) (B : Boost K Histogram.Num L) [B.base.cfg.Exact] (y : DTable K L)
    (rows : Option Nat → DTable K (List Rat))
    (hb : PaillierBoost p q sk lo hi m gmax hmax eg eh G B y rows) (init : List Rat)
    (hdim : init.length = B.dim) (hpos : 0 < B.dim) :
    ∃ scores fuel T,
      Completes (system
          (do
            let st ← guestBoost (guestBoostIn B) init y
            let T ← guestPredict B.base.hosts.length B.rate B.dim init st.trees (rows none) fuel
            pure (st.scores, T))
          (B.base.hosts.mapIdx fun j H => do
            let t ← hostBoost (hostBoostIn B j H)
            hostPredict H.idx t.1 t.2 (rows (some j)) fuel))
        (results (scores, T) (B.base.hosts.map fun _ => ())) ∧
      (∀ k, k ∈ scores.data.keys ↔ k ∈ y.data.keys) ∧
      ∀ k, T.data.get? k = scores.data.get? k := by
  obtain ⟨st, fuel, T, h1, h2, h3, h4⟩ := C53_run p q sk lo hi m gmax hmax eg eh G B y rows hb init hdim hpos
  refine ⟨st.scores, fuel, T, completes_system ?_, h2, h4⟩
  obtain ⟨hm, c1⟩ := leads_boost (idle := Outcome.absent) B init y st h1
    (fun s => guestPredict B.base.hosts.length B.rate B.dim init s.trees (rows none) fuel >>= fun T =>
      pure (.guest (s.scores, T)))
    (fun x t => hostPredict x.1.idx t.1 t.2 (rows (some x.2)) fuel >>= fun _ => pure (.host ()))
  have c2 := leads_predict (α := Histogram.Num) (idle := Outcome.absent) B.base.hosts B.rate B.dim init st.trees
    (rows none) _ (by simp [hostRows]) hm fuel T h3
    (fun T => pure (.guest (st.scores, T))) (fun _ => pure (.host ()))
  rw [hostRows, zip_tables] at c2
  unfold system
  simp only [List.mapIdx_eq_zipIdx_map, List.map_map, bind_bind, pure_bind', Function.comp_def] at c1 c2 ⊢
  refine Leads.trans c1 (Leads.trans c2 ?_)
  have : (B.base.hosts.zipIdx.map fun _ => (pure (.host ()) :
        Prog K Histogram.Num (Outcome (DTable K (List Rat) × DTable K (List Rat)) Unit)))
      = B.base.hosts.map fun _ => .done (.host ()) := by
    refine List.ext_getElem (by simp) ?_
    intro i h1 h2
    simp
    rfl
  rw [this]
  exact Leads.refl _

/-- Three parties grow a tree. -/
example : ∃ F, fit Demo.setup = .ok F ∧ Demo.setup.hosts.length = 2 ∧ 1 < F.tree.length :=
  ⟨_, Demo.fit_ok, by decide, by decide +kernel⟩

/-- Three parties boost, with early stopping switched on, and predict. -/
example : ∃ st, boost DemoBoost.clear [0, 1] DemoBoost.labels = .ok st ∧
    DemoBoost.clear.early = true ∧ DemoBoost.clear.base.hosts.length = 2 ∧ st.trees.length = 4 ∧
    (predictScores DemoBoost.clear.base.hosts ⟨1 / 2, id⟩ 2 [0, 1] st.trees (DemoRaw.rows none)
      ((List.range 2).map fun j => DemoRaw.rows (some j)) 20).toOption.isSome = true :=
  ⟨_, DemoBoost.final_ok, rfl, by decide, by decide +kernel, by decide +kernel⟩

/-- The hypotheses of the last theorem are met by a run of three parties. -/
example : ∃ p q sk lo hi m gmax hmax G, ∃ B : Boost Nat Histogram.Num Rat,
    PaillierBoost p q sk lo hi m gmax hmax 0 0 G B DemoBoost.labels DemoRaw.rows ∧ B.dim = 2 ∧
    B.rounds = 3 ∧ B.base.hosts.length = 2 := by
  obtain ⟨sk, h1, h2⟩ := DemoPaillier.key
  exact ⟨_, _, sk, _, _, _, _, _, _, DemoBoost.secure sk, DemoBoost.run h1 h2, rfl, rfl, rfl⟩

end Verif
