import Verif.Lemmas.RawWalk
import Verif.Props.C26
import Verif.Examples.DemoRaw
import Verif.Examples.DemoPaillier
import Verif.Lemmas.PaillierGreedy

/-!
# C28: the leaf found in training is the leaf found by prediction
-/

set_option autoImplicit false

namespace Verif

open DTree Spec

variable {K : Type} [DecidableEq K] {α : Type}

/-- Every sample of the guest, and no other, has a weight after training: the weight of a leaf.
The number of hosts, the encryption and the split decisions are arbitrary. -/
theorem C28_every_sample_once (S : Setup K α) (hd : 1 ≤ S.maxDepth)
    (hkeys : ∀ H ∈ S.hosts, ∀ k row, S.guest.data.data.get? k = some row →
      ∃ row', H.data.data.get? k = some row')
    (hidx : (S.hosts.map Party.idx).Nodup) (F : Fitted K) (h : fit S = .ok F) :
    (∀ k, S.guest.data.data.get? k = none → trainedWeight F k = none) ∧
    ∀ k row, S.guest.data.data.get? k = some row → ∃ (i : Nat) (n : Node), F.tree[i]? = some n ∧
      n.isLeaf = true ∧ trainedWeight F k = some n.weight := by
  obtain ⟨st, _, _, _, _, _, a, b⟩ := fit_track hkeys hidx hd h
  refine ⟨a, fun k row hk => ?_⟩
  obtain ⟨i, n, b1, b2, b3, _⟩ := b k row hk
  exact ⟨i, n, b1, b2, b3⟩

/-- **Training leaf = walked leaf**, for features whose split points increase: every party has
prepared its own raw rows, the parties have the same samples; then the weight that training has
recorded for a sample is that of the only leaf the sample comes to when the finished tree is
walked with the raw rows of all parties. -/
theorem C28_increasing (S : Setup K α) (hd : 1 ≤ S.maxDepth)
    (rows : Option Nat → DTable K (List Rat))
    (hraw : ∀ j P, partyAt S j = some P → FromRaw P (rows j))
    (hsame : ∀ j P, partyAt S j = some P → ∀ k, k ∈ (rows j).data.keys ↔ k ∈ (rows none).data.keys)
    (hinc : ∀ j P, partyAt S j = some P → ∀ sp ∈ P.splits, sp.Pairwise (· < ·))
    (hidx : (S.hosts.map Party.idx).Nodup) (F : Fitted K) (h : fit S = .ok F)
    (k : K) (hk : k ∈ (rows none).data.keys) :
    ∃ i n, F.tree[i]? = some n ∧ n.isLeaf = true ∧ Reaches S F rows k i ∧
      trainedWeight F k = some n.weight ∧
      ∀ i' n', F.tree[i']? = some n' → n'.isLeaf = true → Reaches S F rows k i' → i' = i := by
  have hb : ∀ j P, partyAt S j = some P → Binned P (rows j) := fun j P hP => binned_of_fromRaw (hraw j P hP)
  have hg := hb none S.guest rfl
  have hkeys : SameKeys S := by
    intro H hH k row hrow
    obtain ⟨j, hj⟩ := List.mem_iff_getElem?.mp hH
    have hH' := hb (some j) H hj
    apply Dict.exists_get?_of_mem
    rw [hH'.keys, hsame (some j) H hj, ← hg.keys]
    exact Dict.mem_keys_of_get? hrow
  obtain ⟨st, _, h2, _, h4, h5, _, h7⟩ := fit_track hkeys hidx hd h
  rw [← hg.keys] at hk
  obtain ⟨v, hv⟩ := Dict.exists_get?_of_mem hk
  obtain ⟨i, n, c1, c2, c3, c4⟩ := h7 k v hv
  obtain ⟨lev, sums, dep, num, _, _, hi, _⟩ := fit_ready hd h
  have hnd : (F.tree.map Node.id).Nodup := by
    have := hi.ids
    simp only [List.append_nil] at this
    rw [this]; exact List.nodup_range
  have hr := reaches_of_binReach (rows := rows) hnd hi.number.2 h2 h4 h5 hb (by
    intro i n j P m f b sp t _ _ hP _ _ _ _ hsp ht v
    exact C20_bin_test_iff_threshold_test sp (hinc j P hP sp (List.mem_of_getElem? hsp)) v b t ht) c4
  exact ⟨i, n, c1, c2, hr, c3, fun i' n' e1 e2 e3 => reaches_unique hidx e3 hr e1 e2 c1 c2⟩

/-- **Training leaf = walked leaf**, for runs with Paillier encryption and the usual settings: no
condition on the split points.  Training completes, and the weight it has recorded for a sample is
that of the only leaf the sample comes to when the finished tree is walked with the raw rows of
all parties. -/
theorem C28_run (p q : Nat) (sk : Paillier.PrivKey) (lo hi : Int) (m eg eh : Rat)
    (S : Setup K Histogram.Num) [S.cfg.Exact] (rows : Option Nat → DTable K (List Rat)) (hr : RawRun S rows)
    (hu : Usual S m) (hp : PaillierRun p q sk lo hi m eg eh S) :
    ∃ F, fit S = .ok F ∧ ∀ k ∈ (rows none).data.keys,
      ∃ i n, F.tree[i]? = some n ∧ n.isLeaf = true ∧ Reaches S F rows k i ∧
        trainedWeight F k = some n.weight ∧
        ∀ i' n', F.tree[i']? = some n' → n'.isLeaf = true → Reaches S F rows k i' → i' = i := by
  obtain ⟨_, _, F, lev, mem, g⟩ := paillier_grown hr hu hp
  refine ⟨F, g.fit, fun k hk => ?_⟩
  obtain ⟨i, n, h1, h2, h3, h4⟩ := g.ends k (((hr.parties none S.guest rfl).2.2 k).mp hk)
  exact ⟨i, n, h1, h2, h3, h4, fun i' n' e1 e2 e3 => reaches_unique hr.names e3 h3 e1 e2 h1 h2⟩

/-- A key for which a run over three parties meets the hypotheses of `C28_run`. -/
example : ∃ p q sk lo hi m, ∃ S : Setup Nat Histogram.Num, RawRun S DemoRaw.rows ∧ Usual S m ∧
    PaillierRun p q sk lo hi m 0 0 S ∧ S.hosts.length = 2 := by
  obtain ⟨sk, h1, h2⟩ := DemoPaillier.key
  exact ⟨_, _, sk, 12, 13, 11 / 10, DemoPaillier.setup sk, DemoPaillier.raw sk,
    DemoPaillier.usual sk, DemoPaillier.run h1 h2, rfl⟩

/-- The run of `DemoRaw` meets the hypotheses. -/
example : (∀ j P, partyAt DemoRaw.setup j = some P → FromRaw P (DemoRaw.rows j)) ∧
    (∀ j P, partyAt DemoRaw.setup j = some P →
      ∀ k, k ∈ (DemoRaw.rows j).data.keys ↔ k ∈ (DemoRaw.rows none).data.keys) ∧
    (∀ j P, partyAt DemoRaw.setup j = some P → ∀ sp ∈ P.splits, sp.Pairwise (· < ·)) ∧
    (DemoRaw.setup.hosts.map Party.idx).Nodup ∧ fit DemoRaw.setup = .ok DemoRaw.fitted ∧
    trainedWeight DemoRaw.fitted 3 = some (-50 / 11) := by
  have hpart : ∀ (Q : Option Nat → Party Nat → Prop), Q none DemoRaw.setup.guest →
      Q (some 0) (DemoRaw.party 1 ["c"] DemoRaw.hostRows1) →
      Q (some 1) (DemoRaw.party 2 ["d"] DemoRaw.hostRows2) →
      ∀ j P, partyAt DemoRaw.setup j = some P → Q j P := by
    intro Q h0 h1 h2 j P hP
    match j with
    | none => cases hP; exact h0
    | some 0 => cases hP; exact h1
    | some 1 => cases hP; exact h2
    | some (j + 2) => simp [partyAt, DemoRaw.setup] at hP
  have hwidth : ∀ (t : DTable Nat (List Rat)) (n : Nat), (∀ p ∈ t.data, p.2.length = n) →
      ∀ k row, t.data.get? k = some row → row.length = n :=
    fun t n h k row hk => h (k, row) (Dict.get?_mem hk)
  refine ⟨hpart _ ?_ ?_ ?_, hpart _ ?_ ?_ ?_, hpart _ ?_ ?_ ?_, by decide +kernel, DemoRaw.fit_ok, by decide +kernel⟩
  · exact ⟨DemoRaw.qcfg, 4, ["a", "b"], by decide +kernel, rfl, by decide, by decide, by unfold DTable.WF Dict.WF; decide,
      by decide, hwidth _ 2 (by decide +kernel), by decide +kernel⟩
  · exact ⟨DemoRaw.qcfg, 4, ["c"], by decide +kernel, rfl, by decide, by decide, by unfold DTable.WF Dict.WF; decide,
      by decide, hwidth _ 1 (by decide +kernel), by decide +kernel⟩
  · exact ⟨DemoRaw.qcfg, 4, ["d"], by decide +kernel, rfl, by decide, by decide, by unfold DTable.WF Dict.WF; decide,
      by decide, hwidth _ 1 (by decide +kernel), by decide +kernel⟩
  · intro k; rfl
  · intro k
    have h1 : (DemoRaw.rows (some 0)).data.keys = [5, 4, 3, 2, 1, 0] := by decide
    have h2 : (DemoRaw.rows none).data.keys = [0, 1, 2, 3, 4, 5] := by decide
    rw [h1, h2]; simp; omega
  · intro k
    have h1 : (DemoRaw.rows (some 1)).data.keys = [0, 1, 2, 3, 4, 5] := by decide
    have h2 : (DemoRaw.rows none).data.keys = [0, 1, 2, 3, 4, 5] := by decide
    rw [h1, h2]
  · decide +kernel
  · decide +kernel
  · decide +kernel

end Verif
