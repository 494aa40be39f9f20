import Verif.Lemmas.RenameBoost
import Verif.Examples.DemoBoost

/-!
# C73: sample identifiers and host numbers are only names

`host.py` takes the number of the host (`run_time_idx`) from the command line; `DTable` uses the
identifiers of the samples as keys.  Training and prediction under other identifiers and other
distinct numbers do the same, exceptions included.  With equal numbers they do not, and nothing
checks that the numbers differ.
-/

set_option autoImplicit false

namespace Verif

open DTree Spec

variable {K K' : Type} [DecidableEq K] [DecidableEq K'] {α L : Type}

/-- **A tree trained under other names is the same tree under other names**; if training raises,
it raises the same exception. -/
theorem C73_tree (σ : Nat → Nat) (κ : K → K') (hσ : Function.Injective σ) (hκ : Function.Injective κ)
    (S : Setup K α) : fit (renSetup σ κ S) = (fit S).map (renFitted σ κ) :=
  fit_ren hσ hκ S

/-- **So is a whole training run**: scores, trees, importances, losses and stop flags. -/
theorem C73_run (σ : Nat → Nat) (κ : K → K') (hσ : Function.Injective σ) (hκ : Function.Injective κ)
    {B : Boost K α L} {B' : Boost K' α L} (h : Renamed σ κ B B') (init : List Rat) (y : DTable K L) :
    boost B' init (renTable κ id y) = (boost B init y).map (renResult σ κ) :=
  boost_ren hσ hκ h init y

/-- **Predictions under other names are the same scores.** -/
theorem C73_prediction (σ : Nat → Nat) (κ : K → K') (hσ : Function.Injective σ)
    (hκ : Function.Injective κ) (hosts : List (Party K)) (rate : Rate) (dim : Nat) (init : List Rat)
    (trees : List Saved) (guest : DTable K (List Rat)) (tables : List (DTable K (List Rat)))
    (fuel : Nat) :
    predictScores (hosts.map (renParty σ κ)) rate dim init (trees.map (renSaved σ))
      (renTable κ id guest) (tables.map (renTable κ id)) fuel =
      (predictScores hosts rate dim init trees guest tables fuel).map (renTable κ id) :=
  predictScores_ren hσ hκ hosts rate dim init trees guest tables fuel

/-- The setup with the given host numbers. -/
def withNumbers (S : Setup K α) (ns : List Nat) : Setup K α :=
  { S with hosts := List.zipWith (fun n H => { H with idx := n }) ns S.hosts }

/-- Distinct numbers can be exchanged for other distinct numbers by a one-to-one function. -/
theorem exists_renumbering : ∀ (l ns : List Nat), l.Nodup → ns.Nodup → ns.length = l.length →
    ∃ σ : Nat → Nat, Function.Injective σ ∧ l.map σ = ns := by
  intro l ns hl hn hlen
  obtain ⟨N, hN⟩ : ∃ N, ∀ n ∈ ns, n < N := by
    refine ⟨ns.sum + 1, fun n h => ?_⟩
    have := List.le_sum_of_mem h
    omega
  refine ⟨fun x => if h : l.idxOf x < ns.length then ns[l.idxOf x] else N + x, ?_, ?_⟩
  · intro a b hab
    simp only at hab
    split at hab <;> split at hab
    · rename_i ha hb
      have h1 : l.idxOf a = l.idxOf b := (hn.getElem_inj_iff).mp hab
      rw [hlen] at ha hb
      have e1 := List.getElem_idxOf ha
      have e2 := List.getElem_idxOf hb
      rw [← e1, ← e2]
      simp only [h1]
    · rename_i ha hb
      have := hN _ (List.getElem_mem ha)
      omega
    · rename_i ha hb
      have := hN _ (List.getElem_mem hb)
      omega
    · omega
  · refine List.ext_getElem (by simp [hlen]) fun i h1 h2 => ?_
    have h3 : i < l.length := by simpa using h1
    simp only [List.getElem_map]
    have : l.idxOf l[i] = i := hl.idxOf_getElem i h3
    rw [dif_pos (by omega)]
    simp only [this]

/-- **Any distinct numbers give the same tree**: if training ends with one choice of distinct host
numbers it ends with any other, with the same thresholds at every party, the same weight for every
sample and the same nodes up to the names of the hosts. -/
theorem C73_numbers (S : Setup K α) (ns : List Nat) (h1 : (S.hosts.map Party.idx).Nodup)
    (h2 : ns.Nodup) (hlen : ns.length = S.hosts.length) (F : Fitted K) (h : fit S = .ok F) :
    ∃ F', fit (withNumbers S ns) = .ok F' ∧ F'.weights = F.weights ∧ F'.guestMask = F.guestMask ∧
      F'.hostMasks = F.hostMasks ∧
      F'.tree.map (fun n => { n with site := .guest }) = F.tree.map (fun n => { n with site := .guest }) ∧
      ∀ (i : Nat) (n : Node), F.tree[i]? = some n → ∃ n' : Node, F'.tree[i]? = some n' ∧
        (n.site = .guest ↔ n'.site = .guest) ∧
        ∀ (j : Nat) (H : Party K) (m : Nat), S.hosts[j]? = some H → ns[j]? = some m →
          (n.site = .host H.idx ↔ n'.site = .host m) := by
  obtain ⟨σ, hσ, hm⟩ := exists_renumbering (S.hosts.map Party.idx) ns h1 h2 (by simpa using hlen)
  have hid : ∀ {V : Type} (t : DTable K V), renTable id id t = t := by
    intro V t; simp [renTable]
  have hS : withNumbers S ns = renSetup σ id S := by
    unfold withNumbers renSetup
    have hg : renParty id id S.guest = S.guest := by simp [renParty, hid]
    rw [hg, hid, hid]
    congr 1
    rw [← hm]
    refine List.ext_getElem? fun j => ?_
    rw [List.getElem?_zipWith, List.getElem?_map, List.getElem?_map, List.getElem?_map]
    cases S.hosts[j]? with
    | none => rfl
    | some H => simp [renParty, hid]
  have hF := fit_ren hσ (κ := id) Function.injective_id S
  rw [h] at hF
  refine ⟨renFitted σ id F, by rw [hS]; exact hF, ?_, rfl, rfl, ?_, ?_⟩
  · show F.weights.map (renTable id id) = F.weights
    cases F.weights with
    | none => rfl
    | some w => simp [hid]
  · simp [renFitted, renNode, List.map_map, Function.comp_def]
  · intro i n hn
    refine ⟨renNode σ n, by simp [renFitted, hn], ?_, ?_⟩
    · cases hs : n.site <;> simp [renNode, hs, renSite]
    · intro j H m hH hmj
      rw [← hm, List.getElem?_map, List.getElem?_map, hH] at hmj
      simp only [Option.map_some, Option.some.injEq] at hmj
      rw [← hmj]
      show n.site = .host H.idx ↔ renSite σ n.site = renSite σ (.host H.idx)
      exact (renSite_inj hσ).eq_iff.symm

/-- **With equal numbers, which nothing rejects, training fails or gives other weights.**  Both
hosts then answer the questions meant for one of them, each with its own bins. -/
theorem C73_equal_numbers_refuted :
    (∃ F, fit DemoRaw.setup = .ok F) ∧
    fit (withNumbers DemoRaw.setup [0, 0]) = .error .valueError ∧
    (∃ F F', fit { DemoRaw.setup with maxDepth := 2 } = .ok F ∧
      fit { withNumbers DemoRaw.setup [0, 0] with maxDepth := 2 } = .ok F' ∧
      trainedWeight F 2 = some (-50 / 41) ∧ trainedWeight F' 2 = some (160 / 21)) := by
  refine ⟨⟨_, DemoRaw.fit_ok⟩, by decide +kernel, ?_⟩
  have h1 : (fit { DemoRaw.setup with maxDepth := 2 }).map (fun F => trainedWeight F 2) =
      .ok (some (-50 / 41)) := by decide +kernel
  have h2 : (fit { withNumbers DemoRaw.setup [0, 0] with maxDepth := 2 }).map
      (fun F => trainedWeight F 2) = .ok (some (160 / 21)) := by decide +kernel
  cases e1 : fit { DemoRaw.setup with maxDepth := 2 } with
  | error e => rw [e1] at h1; cases h1
  | ok F =>
    cases e2 : fit { withNumbers DemoRaw.setup [0, 0] with maxDepth := 2 } with
    | error e => rw [e2] at h2; cases h2
    | ok F' =>
      rw [e1] at h1
      rw [e2] at h2
      exact ⟨F, F', rfl, rfl, Except.ok.inj h1, Except.ok.inj h2⟩

/-- The hypotheses of `C73_numbers` hold for the numbers 7 and 0. -/
example : (DemoRaw.setup.hosts.map Party.idx).Nodup ∧ [7, 0].Nodup ∧
    [7, 0].length = DemoRaw.setup.hosts.length ∧ fit DemoRaw.setup = .ok DemoRaw.fitted := by
  refine ⟨by decide +kernel, by decide, by decide, DemoRaw.fit_ok⟩

/-- A run with the identifiers increased by ten and the hosts numbered one higher. -/
def demoShifted : Boost Nat Rat Rat :=
  { DemoBoost.clear with
    base := renSetup (· + 1) (· + 10) DemoBoost.clear.base
    loss := fun y s => DemoBoost.loss (renTable (· - 10) id y) (renTable (· - 10) id s) }

/-- It is the run of `DemoBoost` under other names. -/
example : Renamed (· + 1) (· + 10) DemoBoost.clear demoShifted ∧
    ∃ R, boost DemoBoost.clear [0, 0] DemoBoost.labels = .ok R ∧
      boost demoShifted [0, 0] (renTable (· + 10) id DemoBoost.labels) =
        .ok (renResult (· + 1) (· + 10) R) := by
  have hr : Renamed (· + 1) (· + 10) DemoBoost.clear demoShifted := by
    refine ⟨rfl, rfl, rfl, fun _ _ _ => rfl, rfl, fun y s => ?_, rfl, rfl, rfl, rfl, rfl⟩
    have hid : ∀ {V : Type} (t : DTable Nat V),
        renTable (fun n : Nat => n - 10) id (renTable (fun n : Nat => n + 10) id t) = t := by
      intro V t; simp [renTable, List.map_map, Function.comp_def]
    show DemoBoost.loss _ _ = DemoBoost.loss _ _
    rw [hid, hid]
  refine ⟨hr, ?_⟩
  obtain ⟨R, hR⟩ : ∃ R, boost DemoBoost.clear [0, 0] DemoBoost.labels = .ok R := by
    have : (boost DemoBoost.clear [0, 0] DemoBoost.labels).map (fun _ => ()) = .ok () := by
      decide +kernel
    cases h : boost DemoBoost.clear [0, 0] DemoBoost.labels with
    | error e => rw [h] at this; cases this
    | ok R => exact ⟨R, rfl⟩
  refine ⟨R, hR, ?_⟩
  rw [C73_run (· + 1) (· + 10) (fun a b h => by simpa using h) (fun a b h => by simpa using h) hr, hR]
  rfl

end Verif
