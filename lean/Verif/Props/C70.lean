import Verif.Lemmas.RoundSame
import Verif.Props.C69
import Verif.Lemmas.OfferList

/-!
# C70: the tree does not depend on rounding, keys and draws where the decisions are clear
-/

set_option autoImplicit false

namespace Verif

open DTree Spec

variable {K : Type} [DecidableEq K]

/-- **Two runs on the same data grow the same tree** up to small differences of sums and weights, although
their floats are rounded differently, their keys, random draws and encodings are different, and they treat
the nodes in batches of different sizes; provided that every decision in the first tree is clear by
the accuracy of both runs.  In particular every sample gets nearly the same weight. -/
theorem C70_same_tree (p q : Nat) (sk : Paillier.PrivKey) (lo hi : Int) (eg eh : Rat) (bins : Nat) (M ε : Rat)
    (p' q' : Nat) (sk' : Paillier.PrivKey) (lo' hi' : Int) (eg' eh' : Rat) (bins' : Nat) (M' ε' : Rat) (m : Rat)
    (S : Setup K Histogram.Num) (rnd : Rat → Rat) (kind : ImpType) (batch : Nat)
    (cipher : Nat → Nat → Cipher Histogram.Num) (encGh : DTable K (Histogram.Num × Histogram.Num))
    (rows : Option Nat → DTable K (List Rat)) (hr : RawRun S rows) (hu : Usual S m)
    (hu' : Usual (variant S rnd kind batch cipher encGh) m)
    (hrun : RoundedRun p q sk lo hi m eg eh bins M ε S)
    (hrun' : RoundedRun p' q' sk' lo' hi' m eg' eh' bins' M' ε' (variant S rnd kind batch cipher encGh))
    (hinc : ∀ j P, partyAt S j = some P → ∀ sp ∈ P.splits, sp.Pairwise (· < ·)) :
    ∃ F F', fit S = .ok F ∧ fit (variant S rnd kind batch cipher encGh) = .ok F' ∧
      (ClearTree S (max (tolerance S bins m ε eg eh) (tolerance S bins' m ε' eg' eh')) F rows →
        TreesAgree S rows (S.maxDepth * (sumError S bins ε eg + sumError S bins' ε' eg'))
          (S.maxDepth * (sumError S bins ε eh + sumError S bins' ε' eh'))
          (weightError S bins m ε eg eh + weightError S bins' m ε' eg' eh') F F') := by
  have hr' : RawRun (variant S rnd kind batch cipher encGh) rows := ⟨hr.1, hr.2, hr.3⟩
  obtain ⟨F, lev, mem, g⟩ := round_grown hr hu hrun hinc
  obtain ⟨F', lev', mem', g'⟩ := round_grown hr' hu' hrun' hinc
  refine ⟨F, F', g.fit, g'.fit, fun hclear => ?_⟩
  have n1 := nearRun hu hrun g (δ := max (tolerance S bins m ε eg eh) (tolerance S bins' m ε' eg' eh')) (le_max_left _ _)
  have n2 := nearRun hu' hrun' g' (δ := max (tolerance S bins m ε eg eh) (tolerance S bins' m ε' eg' eh')) (le_max_right _ _)
  have n3 : NearRun S rows (max (tolerance S bins m ε eg eh) (tolerance S bins' m ε' eg' eh')) F' lev' mem' :=
    ⟨n2.1, n2.2, n2.3⟩
  have hal := alike hr hinc n1 n3 hclear
  have hnode : ∀ (i : Nat) n n', F.tree[i]? = some n → F'.tree[i]? = some n' →
      n'.id = n.id ∧ n'.isLeaf = n.isLeaf ∧ n'.left = n.left ∧ n'.right = n.right ∧
      |n.sumGrad - n'.sumGrad| ≤ S.maxDepth * (sumError S bins ε eg + sumError S bins' ε' eg') ∧
      |n.sumHess - n'.sumHess| ≤ S.maxDepth * (sumError S bins ε eh + sumError S bins' ε' eh') ∧
      |n.weight - n'.weight| ≤ weightError S bins m ε eg eh + weightError S bins' m ε' eg' eh' := by
    intro i n n' hn hn'
    obtain ⟨e1, e2, e3⟩ := (hal i).node n n' hn hn'
    have hil := (List.getElem?_eq_some_iff.mp hn).1
    have hA := g.lists i hil
    have hA' : Lists (mem i) fun k => k ∈ S.gh.data.keys ∧ Reaches (variant S rnd kind batch cipher encGh) F' rows k i := by
      refine ⟨hA.1, fun k => (hA.2 k).trans ⟨?_, ?_⟩⟩
      · rintro ⟨h1, h2⟩; exact ⟨h1, ((hal i).reach k h1).mp h2⟩
      · rintro ⟨h1, h2⟩; exact ⟨h1, ((hal i).reach k h1).mpr h2⟩
    obtain ⟨_, a1, a2, a3, _⟩ := C69_nearly_greedy p q sk lo hi m eg eh bins M ε S rows hr hu hrun hinc F g.fit i n hn _ hA
    obtain ⟨_, b1, b2, b3, _⟩ := C69_nearly_greedy p' q' sk' lo' hi' m eg' eh' bins' M' ε' _ rows hr' hu' hrun' hinc F' g'.fit
      i n' hn' _ hA'
    obtain ⟨_, _, _, _, hinv⟩ := n1.inv
    obtain ⟨_, _, _, _, hinv'⟩ := n2.inv
    refine ⟨by rw [hinv.number.2 i n hn, hinv'.number.2 i n' hn'], e1, e2, e3, ?_, ?_, ?_⟩
    · rw [abs_sub_comm] at b1
      rw [mul_add]
      exact (abs_sub_le _ _ _).trans (add_le_add a1 b1)
    · rw [abs_sub_comm] at b2
      rw [mul_add]
      exact (abs_sub_le _ _ _).trans (add_le_add a2 b2)
    · rw [abs_sub_comm] at b3
      exact (abs_sub_le _ _ _).trans (add_le_add a3 b3)
  refine ⟨?_, hnode, fun k hk i => (hal i).reach k hk, fun k hk => ?_⟩
  · rcases Nat.lt_trichotomy F.tree.length F'.tree.length with h | h | h
    · have := (hal F.tree.length).exists_iff.mpr h; omega
    · exact h
    · have := (hal F'.tree.length).exists_iff.mp h; omega
  · obtain ⟨i, n, h1, h2, h3, h4⟩ := g.ends k hk
    obtain ⟨i', n', h1', h2', h3', h4'⟩ := g'.ends k hk
    have hl := (hal i').exists_iff.mpr (List.getElem?_eq_some_iff.mp h1').1
    have hn0 := List.getElem?_eq_getElem hl
    have hleaf : (F.tree[i']).isLeaf = true := by
      rw [← ((hal i').node _ n' hn0 h1').1]; exact h2'
    obtain rfl := reaches_unique hr.names h3 (((hal i').reach k hk).mpr h3') h1 h2 hn0 hleaf
    exact ⟨n.weight, n'.weight, h4, h4', (hnode i n n' h1 h1').2.2.2.2.2.2⟩

/-- The data of `DemoRounded` in the clear. -/
private def plain : Setup Nat Rat := { DemoRaw.setup with cfg := ⟨1/10, 1/1000, 5, 1, id⟩ }

private theorem plain_clear : ∀ B ∈ [0, 1, 2, 3, 4, 5].sublists, ClearSides plain.cfg.minImpurity (1 / 10 ^ 5) (sideList plain B) := by decide +kernel

private theorem tolerance_le (sk : Paillier.PrivKey) (rnd : Rat → Rat) (kind : ImpType) (batch : Nat) :
    tolerance (DemoRounded.setup sk rnd 5 kind batch) 4 (11 / 10) (1 / 2 ^ 60) 0 0 ≤ 1 / 10 ^ 5 := by
  have ht : FP.tiny ≤ 1 / 10 ^ 8 := by decide +kernel
  unfold tolerance roundedError roundedShift
  rw [DemoRounded.sum_error, DemoRounded.grad_range, DemoRounded.depth]
  have := DemoRounded.gain_range sk rnd 5 kind batch
  have h2 : gainRange (DemoRounded.setup sk rnd 5 kind batch) 4 (11 / 10) (1 / 2 ^ 60) 0 / 2 ^ 50 ≤ 4000 / 2 ^ 50 :=
    div_le_div_of_nonneg_right this (by norm_num)
  norm_num at *
  linarith

/-- Two runs over three parties with different rounding and batches that meet all hypotheses: the decisions are
clear for all sets of samples. -/
example : ∃ (p q : Nat) (sk : Paillier.PrivKey) (lo hi : Int) (bins : Nat) (m M ε : Rat) (S : Setup Nat Histogram.Num)
    (rnd : Rat → Rat) (kind : ImpType) (batch : Nat) (cipher : Nat → Nat → Cipher Histogram.Num)
    (encGh : DTable Nat (Histogram.Num × Histogram.Num)),
    RawRun S DemoRaw.rows ∧ Usual S m ∧ Usual (variant S rnd kind batch cipher encGh) m ∧
    RoundedRun p q sk lo hi m 0 0 bins M ε S ∧
    RoundedRun p q sk lo hi m 0 0 bins M ε (variant S rnd kind batch cipher encGh) ∧
    (∀ j P, partyAt S j = some P → ∀ sp ∈ P.splits, sp.Pairwise (· < ·)) ∧
    (∀ F, ClearTree S (max (tolerance S bins m ε 0 0) (tolerance S bins m ε 0 0)) F DemoRaw.rows) ∧
    S.cfg.rnd (1 / 3) ≠ rnd (1 / 3) ∧ batch ≠ S.maxSplitNodes ∧
    (∃ x ∈ sideList plain [0, 1, 2, 3, 4, 5], 1 < x.2) := by
  obtain ⟨sk, h1, h2⟩ := DemoPaillier.key
  have hid : RoundsWithin id 10000 (1 / 2 ^ 60) := fun x _ => by simp
  refine ⟨_, _, sk, 12, 13, 4, 11 / 10, 10000, 1 / 2 ^ 60, DemoRounded.setup sk DemoRounded.fine 5 .split 1, id, .gain, 3,
    _, _, DemoRounded.raw _ _ _ _ _, DemoRounded.usual _ _ _ (by decide) (by decide),
    DemoRounded.usual sk id 5 (kind := .gain) (batch := 3) (by decide) (by decide),
    DemoRounded.run h1 h2 (DemoRounded.fine_accurate _) _ _ _, DemoRounded.run h1 h2 hid 5 .gain 3,
    DemoRounded.increasing _ _ _ _ _, ?_, ?_, ?_, ?_⟩
  · intro F i d _ _ A hA
    rw [max_self]
    have hk : ∀ k ∈ A, k ∈ [0, 1, 2, 3, 4, 5] := fun k hk => by
      have := ((hA.2 k).mp hk).1
      have e : (DemoRounded.setup sk DemoRounded.fine 5 .split 1).gh.data.keys = [0, 1, 2, 3, 4, 5] := by
        show Demo.gh.data.keys = _
        decide
      rwa [e] at this
    have hc : ClearAt plain (1 / 10 ^ 5) A := clear_of_sublists (by decide) hA.1 hk plain_clear
    have hc' : ClearAt (DemoRounded.setup sk DemoRounded.fine 5 .split 1) (1 / 10 ^ 5) A := hc
    exact clear_mono (tolerance_le _ _ _ _) hc'
  · show DemoRounded.fine (1 / 3) ≠ 1 / 3
    decide +kernel
  · show 3 ≠ 1
    decide
  · decide +kernel

end Verif
