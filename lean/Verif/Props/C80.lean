import Verif.Lemmas.Meta
import Verif.Props.C41
import Verif.Examples.DemoBoost

/-!
# C80: the settings stored with a model

The full claim: every configuration that passes the check can be stored with a trained model and is read
back unchanged.  It fails (`C80_accepted_refuted`): the check does not look at the size of whole numbers
and at the criterion parameters after the first.  The theorems say which configurations can be stored, and
that with any other one the training ends with an error after its first tree.
-/

set_option autoImplicit false

namespace Verif

open Params Meta Spec DTree

variable {lower : String → String} {rnd : Int → Rat}

/-- **What can be stored.**  Of the settings that pass the check, the guest can store exactly those whose
whole numbers fit into 32 bits and whose criterion parameters are all numbers; a host does not store the
criterion and needs the former only. -/
theorem C80_storable (t t' : DecisionTree) (h : checkTree lower t = .ok t') :
    ((∃ m, guestMeta rnd t' = .ok m) ↔ SettingsFit t') ∧ ((∃ m, hostMeta rnd t' = .ok m) ↔ LimitsFit t') := by
  have ht : TreeOk lower t := ((C41_tree lower t).1).1 ⟨t', h⟩
  obtain ⟨hsame, _⟩ := (C41_tree lower t).2.2 t' h
  have hm : t'.criterionMethod = .str "xgboost" := by rw [hsame]
  have hp : t'.criterionParams = t.criterionParams := by rw [hsame]
  have e1 : t'.maxDepth = t.maxDepth := by rw [hsame]
  have e2 : t'.minSampleSplit = t.minSampleSplit := by rw [hsame]
  have e3 : t'.minImpuritySplit = t.minImpuritySplit := by rw [hsame]
  have e4 : t'.minLeafNode = t.minLeafNode := by rw [hsame]
  have hlim : ∀ s ps, (∃ m, limits rnd t' s ps = .ok m) ↔ LimitsFit t' := by
    intro s ps
    have k := limits_iff (rnd := rnd) ht s ps
    have k1 : limits rnd t' s ps = limits rnd t s ps := by unfold limits; rw [e1, e2, e3, e4]
    have k2 : LimitsFit t' ↔ LimitsFit t :=
      ⟨fun ⟨a, b, c, d⟩ => ⟨e1 ▸ a, e2 ▸ b, e3 ▸ c, e4 ▸ d⟩, fun ⟨a, b, c, d⟩ => ⟨e1 ▸ a, e2 ▸ b, e3 ▸ c, e4 ▸ d⟩⟩
    rw [k1, k2]; exact k
  refine ⟨?_, hlim _ _⟩
  have hd := doubles_iff (rnd := rnd) ht
  rw [← hp] at hd
  constructor
  · rintro ⟨m, hm'⟩
    obtain ⟨s, ps, _, h2, h3⟩ := guestMeta_ok.1 hm'
    exact ⟨(hlim s ps).1 ⟨m, h3⟩, hd.1 ⟨ps, h2⟩⟩
  · rintro ⟨h1, h2⟩
    obtain ⟨ps, hps⟩ := hd.2 h2
    obtain ⟨m, hm'⟩ := (hlim "xgboost" ps).2 h1
    exact ⟨m, guestMeta_ok.2 ⟨_, ps, by rw [hm]; rfl, hps, hm'⟩⟩

/-- **Stored settings are read back.**  Whatever the settings of the object that loads them were: the
guest gets the criterion's name and parameters and all limits, as numbers of the same value; a host gets
the limits and keeps its criterion.  Whole numbers among the parameters must have exact floats. -/
theorem C80_read_back (hr : ∀ z : Int, |z| ≤ 2 ^ 53 → rnd z = z) (t t' u : DecisionTree) (h : checkTree lower t = .ok t')
    (hi : Small t'.minImpuritySplit) :
    (∀ m ps, guestMeta rnd t' = .ok m → t'.criterionParams = .list ps → (∀ p ∈ ps, Small p) →
      ReadBack t' (setGuest u m) ∧ (setGuest u m).criterionMethod = t'.criterionMethod ∧
      ∃ qs, (setGuest u m).criterionParams = .list qs ∧ List.Forall₂ SameNumber ps qs) ∧
    (∀ m, hostMeta rnd t' = .ok m → ReadBack t' (setHost u m) ∧
      (setHost u m).criterionMethod = u.criterionMethod ∧ (setHost u m).criterionParams = u.criterionParams) := by
  have ht : TreeOk lower t := ((C41_tree lower t).1).1 ⟨t', h⟩
  obtain ⟨hsame, _⟩ := (C41_tree lower t).2.2 t' h
  have hm : t'.criterionMethod = .str "xgboost" := by rw [hsame]
  have i1 : IsInt t'.maxDepth := by
    obtain ⟨d, hd, _⟩ := ht.depth
    rw [hsame]; exact ⟨d, hd⟩
  have i2 : IsInt t'.minSampleSplit := by rw [hsame]; exact ht.sampleSplit
  have i4 : IsInt t'.minLeafNode := by rw [hsame]; exact ht.leaf
  have key : ∀ m s ps, limits rnd t' s ps = .ok m → ReadBack t' (setHost u m) := by
    intro m s ps hl
    obtain ⟨_, _, h1, h2, h3, h4⟩ := limits_ok.1 hl
    exact ⟨(toInt32_eq i1 h1).symm, (toInt32_eq i2 h2).symm, toDouble_same hr hi h3, (toInt32_eq i4 h4).symm⟩
  refine ⟨fun m ps hg hps hsm => ?_, fun m hg => ⟨key m _ _ hg, rfl, rfl⟩⟩
  obtain ⟨s, qs, h1, h2, h3⟩ := guestMeta_ok.1 hg
  have k := key m s qs h3
  obtain ⟨r1, r2, _⟩ := limits_ok.1 h3
  refine ⟨⟨k.depth, k.sample, k.impurity, k.leaf⟩, ?_, _, rfl, ?_⟩
  · rw [hm] at h1 ⊢
    cases h1
    show PyVal.str m.method = _
    rw [r1]
  · rw [hps] at h2
    rw [r2, List.forall₂_map_right_iff]
    have hall := evalList_forall h2
    clear h2 h3 r2 hps hg k
    induction hall with
    | nil => exact .nil
    | cons hx _ ih =>
      exact .cons (toDouble_same hr (hsm _ List.mem_cons_self) hx) (ih fun p hp => hsm p (List.mem_cons_of_mem _ hp))

variable {K : Type} [DecidableEq K] {α L : Type}

/-- **With settings that can be stored**, storing them changes nothing: the run is the run of the other
theorems. -/
theorem C80_training (t : DecisionTree) (m : Stored) (h : guestMeta rnd t = .ok m) (B : Boost K α L) (init : List Rat)
    (y : DTable K L) : storedBoost rnd t B init y = boost B init y := by
  simp only [storedBoost, boost, h, storedLoop_ok]

/-- **With settings that cannot be stored** a run with at least one round and one tree in it never
succeeds; and if its first tree grows, it fails with the error of storing the settings. -/
theorem C80_training_fails (t : DecisionTree) (e : PyErr) (h : guestMeta rnd t = .error e) (B : Boost K α L)
    (hr : 0 < B.rounds) (hd : 0 < B.dim) (init : List Rat) (y : DTable K L) :
    (∃ e', storedBoost rnd t B init y = .error e') ∧
    (FirstGrows B init y → storedBoost rnd t B init y = .error e) := by
  obtain ⟨r, hr'⟩ : ∃ r, B.rounds = r + 1 := ⟨B.rounds - 1, by omega⟩
  obtain ⟨d, hd'⟩ : ∃ d, B.dim = d + 1 := ⟨B.dim - 1, by omega⟩
  constructor
  · cases h0 : y.mapValues (fun _ => init) with
    | error e0 => exact ⟨e0, by simp [storedBoost, h0, bind, Except.bind]⟩
    | ok s0 =>
      cases h1 : y.joinM s0 B.gradHess with
      | error e1 => exact ⟨e1, by simp [storedBoost, storedLoop, storedRound, h0, h1, hr', bind, Except.bind]⟩
      | ok gh =>
        obtain ⟨e', he⟩ := storedTree_error (B := B) e gh 0 0 ⟨s0, [], [], [], none, []⟩
        exact ⟨e', by simp [storedBoost, storedLoop, storedRound, storedTrees, h, h0, h1, hr', hd', he, bind, Except.bind]⟩
  · rintro ⟨s0, gh, g, c, F, h0, h1, h2, h3, h4⟩
    simp [storedBoost, storedLoop, storedRound, storedTrees, storedTree, h, h0, h1, h2, h3, h4, hr', hd', bind, Except.bind]

/-- The default settings, `boosting_tree_param.py` 103-106. -/
private def defaults : DecisionTree :=
  ⟨.str "xgboost", .list [.flt (.fin (1 / 10))], .int 5, .int 2, .flt (.fin (1 / 1000)), .int 1, .int 65536, .str "split",
    .bool true, .flt (.fin (1 / 1000))⟩

/-- **Refuted: all accepted settings can be stored.**  A depth limit of `2^31` and a second criterion
parameter that is a string are accepted; storing the first is a `ValueError`, the second a `TypeError`. -/
theorem C80_accepted_refuted : ∃ t u : DecisionTree, checkTree id t = .ok t ∧ checkTree id u = .ok u ∧
    (∀ rnd, guestMeta rnd t = .error .valueError) ∧ (∀ rnd, guestMeta rnd u = .error .typeError) := by
  refine ⟨{ defaults with maxDepth := .int (2 ^ 31) }, { defaults with criterionParams := .list [.flt (.fin 1), .str "a"] }, rfl, rfl,
    fun rnd => ?_, fun rnd => ?_⟩
  · simp [guestMeta, defaults, toText, toDoubles, evalList, toDouble, limits, toInt32, int32, bind, Except.bind, pure, Except.pure]
  · simp [guestMeta, defaults, toText, toDoubles, evalList, toDouble, bind, Except.bind]

/-- The default settings are accepted, stored and read back by an object with other settings. -/
example : checkTree id defaults = .ok defaults ∧ SettingsFit defaults ∧
    guestMeta (fun z => z) defaults = .ok ⟨"xgboost", [.fin (1 / 10)], 5, 2, .fin (1 / 1000), 1⟩ ∧
    setGuest { defaults with maxDepth := .int 9, criterionParams := .none } ⟨"xgboost", [.fin (1 / 10)], 5, 2, .fin (1 / 1000), 1⟩ =
      defaults := by
  have h : guestMeta (fun z => z) defaults = .ok ⟨"xgboost", [.fin (1 / 10)], 5, 2, .fin (1 / 1000), 1⟩ := by
    simp [guestMeta, defaults, toText, toDoubles, evalList, toDouble, limits, toInt32, int32, bind, Except.bind, pure, Except.pure]
  exact ⟨rfl, ((C80_storable (lower := id) (rnd := fun z => z) defaults defaults rfl).1).1 ⟨_, h⟩, h, rfl⟩

private theorem of_isOk {β : Type} {x : Except PyErr β}
    (h : (match x with | .ok _ => true | .error _ => false) = true) : ∃ a, x = .ok a := by
  cases x with
  | error e => cases h
  | ok a => exact ⟨a, rfl⟩

/-- A run whose first tree grows, with settings that are not stored. -/
example : FirstGrows DemoBoost.clear [0, 0] DemoBoost.labels ∧ 0 < DemoBoost.clear.rounds ∧ 0 < DemoBoost.clear.dim := by
  refine ⟨?_, by decide, by decide⟩
  have h : ∃ F, (do
      let s0 ← DemoBoost.labels.mapValues (fun _ => [0, 0])
      let gh ← DemoBoost.labels.joinM s0 DemoBoost.clear.gradHess
      let g ← gh.mapValuesM (component 0)
      let e ← DemoBoost.clear.enc 0 0 g
      fit (treeSetup DemoBoost.clear 0 0 g e)) = .ok F := by
    refine of_isOk ?_
    decide +kernel
  obtain ⟨F, h⟩ := h
  simp only [bind_ok] at h
  obtain ⟨s0, h0, gh, h1, g, h2, e, h3, h4⟩ := h
  exact ⟨s0, gh, g, e, F, h0, h1, h2, h3, h4⟩

end Verif
