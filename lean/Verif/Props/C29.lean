import Verif.Lemmas.Predict
import Verif.Lemmas.LeafSite
import Verif.Props.C28

/-!
# C29: federated prediction walks the tree
-/

set_option autoImplicit false

namespace Verif

open DTree Spec

variable {K : Type} [DecidableEq K] {α : Type}

/-- **Prediction = tree walk.**  For every tree that can be used for prediction, any number of
hosts and any rows of the same samples: prediction ends after at most as many rounds (and steps
within a round) as the tree has nodes, raises no exception, returns every sample exactly once and
no other, with the weight of the only leaf the sample comes to when the tree is walked with the
raw rows of all parties. -/
theorem C29_prediction_is_walk (S : Setup K α) (F : Fitted K) (hu : UsableTree S F)
    (rows : Option Nat → DTable K (List Rat)) (hr : SameSamples S rows) (fuel : Nat)
    (hfuel : F.tree.length ≤ fuel) :
    ∃ T, predictRows S F (rows none) (hostRows S rows) fuel = .ok T ∧ T.WF ∧
      (∀ k, k ∈ T.data.keys ↔ k ∈ (rows none).data.keys) ∧
      ∀ k ∈ (rows none).data.keys, ∃ i n, F.tree[i]? = some n ∧ n.isLeaf = true ∧
        Reaches S F rows k i ∧ T.data.get? k = some n.weight ∧
        ∀ i' n', F.tree[i']? = some n' → n'.isLeaf = true → Reaches S F rows k i' → i' = i := by
  obtain ⟨T, h1, h2, h3, h4⟩ := predictRows_ok hu hr hfuel
  refine ⟨T, h1, h2, fun k => ⟨fun h => ?_, fun h => ?_⟩, fun k hk => ?_⟩
  · obtain ⟨w, hw⟩ := Dict.exists_get?_of_mem h
    exact (h3 k w hw).1
  · obtain ⟨w, hw⟩ := h4 k h
    exact Dict.mem_keys_of_get? hw
  · obtain ⟨w, hw⟩ := h4 k hk
    obtain ⟨i, n, a1, a2, a3, rfl⟩ := (h3 k w hw).2
    exact ⟨i, n, a2, a3, a1, hw, fun i' n' e1 e2 e3 => reaches_unique hu.names e3 a1 e1 e2 a2 a3⟩

/-- Every tree that training returns can be used for prediction, on any data. -/
theorem C29_trained_usable (S : Setup K α) (hd : 1 ≤ S.maxDepth)
    (hidx : (S.hosts.map Party.idx).Nodup) (F : Fitted K) (h : fit S = .ok F) : UsableTree S F := by
  refine ⟨C26_well_formed S hd F h, fun i n hn hl => (fit_leafSites h n (List.mem_of_getElem? hn) hl).1,
    fun i n hn hl => ?_, fit_masks h, hidx⟩
  rcases C26_decided S hd F h i n hn with ⟨hc, _⟩ | ⟨j, P, f, sp, t, _, _, _, hs⟩
  · rw [hl] at hc; cases hc
  · exact ⟨j, f, t, hs⟩

/-- **Predicting the training data** gives back the weights recorded in training, for every run
with Paillier encryption and the usual settings. -/
theorem C29_training_data (p q : Nat) (sk : Paillier.PrivKey) (lo hi : Int) (m eg eh : Rat)
    (S : Setup K Histogram.Num) [S.cfg.Exact] (rows : Option Nat → DTable K (List Rat)) (hr : RawRun S rows)
    (hu : Usual S m) (hp : PaillierRun p q sk lo hi m eg eh S) :
    ∃ F T, fit S = .ok F ∧
      predictRows S F (rows none) (hostRows S rows) F.tree.length = .ok T ∧
      ∀ k, T.data.get? k = trainedWeight F k := by
  obtain ⟨F, hf, hw⟩ := C28_run p q sk lo hi m eg eh S rows hr hu hp
  have hkeys : ∀ j P, partyAt S j = some P → ∀ k, k ∈ (rows j).data.keys ↔ k ∈ (rows none).data.keys :=
    fun j P hP k => ((hr.parties j P hP).2.2 k).trans ((hr.parties none S.guest rfl).2.2 k).symm
  have hsame : SameSamples S rows := by
    refine ⟨fun j P hP => ?_, hkeys, ?_⟩
    · obtain ⟨_, _, _, _, _, _, _, h, _⟩ := (hr.parties j P hP).1
      exact h
    · obtain ⟨_, _, _, _, _, _, _, _, h, _⟩ := (hr.parties none S.guest rfl).1
      exact h
  obtain ⟨T, t1, t2, t3, t4⟩ := C29_prediction_is_walk S F
    (C29_trained_usable S hu.depth hr.names F hf) rows hsame F.tree.length (le_refl _)
  refine ⟨F, T, hf, t1, fun k => ?_⟩
  by_cases hk : k ∈ (rows none).data.keys
  · obtain ⟨i, n, a1, a2, a3, a4, _⟩ := hw k hk
    obtain ⟨i', n', b1, b2, b3, b4, _⟩ := t4 k hk
    have := reaches_unique hr.names b3 a3 b1 b2 a1 a2
    subst this
    rw [a1, Option.some.injEq] at b1
    subst b1
    rw [a4, b4]
  · have h1 : T.data.get? k = none := by
      rw [Dict.get?_eq_none_iff]
      exact fun h => hk ((t3 k).mp h)
    rw [h1]
    have hbin := RawRun.binned hr none S.guest rfl
    have hSK : ∀ H ∈ S.hosts, ∀ k row, S.guest.data.data.get? k = some row →
        ∃ row', H.data.data.get? k = some row' := by
      intro H hH k row hrow
      obtain ⟨j, hj⟩ := List.mem_iff_getElem?.mp hH
      have hH' := RawRun.binned hr (some j) H hj
      apply Dict.exists_get?_of_mem
      rw [hH'.keys, hkeys (some j) H hj, ← hbin.keys]
      exact Dict.mem_keys_of_get? hrow
    have := (C28_every_sample_once S hu.depth hSK hr.names F hf).1 k (by
      rw [Dict.get?_eq_none_iff, hbin.keys]; exact hk)
    rw [this]

/-- A sample that one of the hosts does not have is silently left out of the predictions, even if
that host decides no node of the tree (here: the first host lacks sample 2). -/
theorem C29_missing_sample_dropped : ∃ (S : Setup Nat Rat) (F : Fitted Nat)
    (guest : DTable Nat (List Rat)) (hosts : List (DTable Nat (List Rat))) (T : DTable Nat Rat),
    UsableTree S F ∧ hosts.length = S.hosts.length ∧ 2 ∈ guest.data.keys ∧
    (∀ n ∈ F.tree, n.site ≠ .host 1) ∧
    predictRows S F guest hosts F.tree.length = .ok T ∧ 2 ∉ T.data.keys ∧ 3 ∈ T.data.keys := by
  refine ⟨DemoRaw.setup, DemoRaw.fitted, DemoRaw.guestRows,
    [⟨[(5, [1]), (4, [7]), (3, [0]), (1, [5]), (0, [2])]⟩, DemoRaw.hostRows2],
    ⟨[(0, -20 / 21), (1, 160 / 21), (3, -50 / 11), (4, 160 / 21), (5, -20 / 21)]⟩,
    C29_trained_usable _ (by decide) (by decide +kernel) _ DemoRaw.fit_ok, rfl, by decide,
    by decide +kernel, by decide +kernel, by decide, by decide⟩

/-- The tree of `DemoRaw` can be used; its samples, and another table, meet the hypotheses. -/
example : UsableTree DemoRaw.setup DemoRaw.fitted ∧ SameSamples DemoRaw.setup DemoRaw.rows ∧
    predictRows DemoRaw.setup DemoRaw.fitted (DemoRaw.rows none) (hostRows DemoRaw.setup DemoRaw.rows) 7 =
      .ok ⟨[(0, -20 / 21), (1, 160 / 21), (2, 20 / 11), (3, -50 / 11), (4, 160 / 21), (5, -20 / 21)]⟩ := by
  refine ⟨C29_trained_usable _ (by decide) (by decide +kernel) _ DemoRaw.fit_ok, ⟨?_, ?_, by decide⟩,
    by decide +kernel⟩
  · intro j P hP
    match j with
    | none => unfold DTable.WF Dict.WF; decide
    | some 0 => unfold DTable.WF Dict.WF; decide
    | some (j + 1) => show DemoRaw.hostRows2.WF; unfold DTable.WF Dict.WF; decide
  · intro j P hP k
    match j with
    | none => rfl
    | some 0 =>
      have h1 : (DemoRaw.rows (some 0)).data.keys = [5, 4, 3, 2, 1, 0] := by decide
      have h2 : (DemoRaw.rows none).data.keys = [0, 1, 2, 3, 4, 5] := by decide
      rw [h1, h2]; simp; omega
    | some (j + 1) =>
      have h1 : (DemoRaw.rows (some (j + 1))).data.keys = [0, 1, 2, 3, 4, 5] := by
        show DemoRaw.hostRows2.data.keys = _; decide
      have h2 : (DemoRaw.rows none).data.keys = [0, 1, 2, 3, 4, 5] := by decide
      rw [h1, h2]

/-- A key for which a run over three parties meets the hypotheses of `C29_training_data`. -/
example : ∃ p q sk lo hi m, ∃ S : Setup Nat Histogram.Num, RawRun S DemoRaw.rows ∧ Usual S m ∧
    PaillierRun p q sk lo hi m 0 0 S ∧ S.hosts.length = 2 := by
  obtain ⟨sk, h1, h2⟩ := DemoPaillier.key
  exact ⟨_, _, sk, 12, 13, 11 / 10, DemoPaillier.setup sk, DemoPaillier.raw sk,
    DemoPaillier.usual sk, DemoPaillier.run h1 h2, rfl⟩

end Verif
