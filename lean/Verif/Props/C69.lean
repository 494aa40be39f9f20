import Verif.Lemmas.RoundSteady
import Verif.Lemmas.Lossless
import Verif.Examples.DemoRounded

/-!
# C69: training with rounded floats

Every float operation is rounded, and the hosts compute on Paillier ciphertexts that are off.  The
run still completes, and the tree is the greedy one up to the errors.
-/

set_option autoImplicit false

namespace Verif

open DTree Spec

variable {K : Type} [DecidableEq K]

/-- **The run completes**: no party fails, and every sample ends in a leaf whose weight it gets. -/
theorem C69_completes (p q : Nat) (sk : Paillier.PrivKey) (lo hi : Int) (m eg eh : Rat) (bins : Nat) (M ε : Rat)
    (S : Setup K Histogram.Num) (rows : Option Nat → DTable K (List Rat)) (hr : RawRun S rows)
    (hu : Usual S m) (hrun : RoundedRun p q sk lo hi m eg eh bins M ε S)
    (hinc : ∀ j P, partyAt S j = some P → ∀ sp ∈ P.splits, sp.Pairwise (· < ·)) :
    ∃ F, fit S = .ok F ∧ ∀ k ∈ S.gh.data.keys, ∃ i n, F.tree[i]? = some n ∧ n.isLeaf = true ∧
      Reaches S F rows k i ∧ trainedWeight F k = some n.weight := by
  obtain ⟨F, lev, mem, g⟩ := round_grown hr hu hrun hinc
  exact ⟨F, g.fit, g.ends⟩

/-- **The tree is nearly the greedy one.**  `A` lists the samples that reach a node.  The sums that
the node holds and its weight are those of `A` up to small errors.  A leaf is at the depth limit, or
no party has a split of `A` with a gain noticeably above the minimum.  An inner node splits `A` at a
threshold of a party, with a gain not noticeably below the minimum which no admissible split of any
party exceeds noticeably.  All gains are exact, of the true gradients and hessians. -/
theorem C69_nearly_greedy (p q : Nat) (sk : Paillier.PrivKey) (lo hi : Int) (m eg eh : Rat) (bins : Nat) (M ε : Rat)
    (S : Setup K Histogram.Num) (rows : Option Nat → DTable K (List Rat)) (hr : RawRun S rows)
    (hu : Usual S m) (hrun : RoundedRun p q sk lo hi m eg eh bins M ε S)
    (hinc : ∀ j P, partyAt S j = some P → ∀ sp ∈ P.splits, sp.Pairwise (· < ·))
    (F : Fitted K) (hf : fit S = .ok F) (i : Nat) (n : Node) (hn : F.tree[i]? = some n) (A : List K)
    (hA : Lists A fun k => k ∈ S.gh.data.keys ∧ Reaches S F rows k i) :
    A ≠ [] ∧ |n.sumGrad - (sumKeys S.gh A).1| ≤ S.maxDepth * sumError S bins ε eg ∧
    |n.sumHess - (sumKeys S.gh A).2| ≤ S.maxDepth * sumError S bins ε eh ∧
    |n.weight - -(sumKeys S.gh A).1 / (S.cfg.regLambda + (sumKeys S.gh A).2)| ≤ weightError S bins m ε eg eh ∧
    ∃ d, DepthAt F.tree i d ∧ d ≤ S.maxDepth ∧
      ((n.isLeaf = true ∧ (d = S.maxDepth ∨
          NoSplit S (2 / 10 ^ 6 + roundedShift S bins m ε eg eh + roundedError S bins m ε eg + 2 * ε) A)) ∨
       (n.isLeaf = false ∧ d < S.maxDepth ∧ ∃ j P f b l sp t, partyAt S j = some P ∧
          P.splits[f]? = some sp ∧ sp[b]? = some t ∧ SplitAt S F i j f t ∧
          NearlyBest S (1 / 10 ^ 6 + 2 * roundedShift S bins m ε eg eh + 2 * roundedError S bins m ε eg + ε)
            (roundedShift S bins m ε eg eh) A j f b l)) := by
  obtain ⟨F', lev, mem, g⟩ := round_grown hr hu hrun hinc
  have := g.fit
  rw [hf, Except.ok.injEq] at this
  subst this
  have hprep := RawRun.prepared hr
  obtain ⟨sums, dep, num, hdep, hinv⟩ := g.inv
  obtain ⟨hlen, hnum⟩ := hinv.number
  have hid := hnum i n hn
  have hil : i < F.tree.length := by
    by_contra hge
    rw [List.getElem?_eq_none (by omega)] at hn; cases hn
  have hm := List.mem_of_getElem? hn
  have hperm : (mem i).Perm A := Lists.perm (g.lists i hil) hA fun _ => Iff.rfl
  have hmk : ∀ k ∈ mem i, k ∈ S.gh.data.keys := fun k hk => (((g.lists i hil).2 k).mp hk).1
  obtain ⟨s1, s0, n1, n2⟩ := g.sums n hm
  obtain ⟨d, hd⟩ := depth_exists hinv.wellFormed i hil
  have hlev := hinv.depth i d hd
  have hmax := g.lev_le hu.depth hm
  have hw := hinv.weight n (by simpa using hm)
  have hnodes := g.nodes n hm
  unfold LeafBy at hnodes
  rw [hid] at s1 s0 n1 n2 hmax hnodes
  obtain ⟨w1, w2, _, _⟩ := RoundedRun.nonneg hrun
  have hε := hrun.eps
  have hc : ((lev i - 1 : Nat) : Rat) + 1 ≤ S.maxDepth := by
    have : lev i - 1 + 1 ≤ S.maxDepth := by have := hu.depth; omega
    exact_mod_cast this
  have y1 : (((lev i - 1 : Nat) : Rat) + 1) * sumError S bins ε eg ≤ S.maxDepth * sumError S bins ε eg :=
    mul_le_mul_of_nonneg_right hc (by linarith)
  have y2 : (((lev i - 1 : Nat) : Rat) + 1) * sumError S bins ε eh ≤ S.maxDepth * sumError S bins ε eh :=
    mul_le_mul_of_nonneg_right hc (by linarith)
  have m1 := n1.trans y1
  have m2 := n2.trans y2
  obtain ⟨w, hw', hwn⟩ := weight_near hprep hu hrun (c := S.maxDepth) (by positivity) (by linarith) s0 hmk s1 m1 m2
  rw [sumKeys_perm hperm] at m1 m2 hwn
  refine ⟨?_, m1, m2, ?_, d, hd, by omega, ?_⟩
  · rintro rfl
    exact s1 hperm.eq_nil
  · have : n.weight = w := by
      rw [hw', Except.ok.injEq] at hw
      exact hw.symm
    rw [this]
    exact hwn
  · rcases hnodes with ⟨hl, hd'⟩ | ⟨hl, j, P, f, b, l, sp, t, h1, h2, h3, h4, l0, h5, _⟩
    · left
      refine ⟨hl, ?_⟩
      rcases Nat.lt_or_ge d S.maxDepth with hlt | hge
      · right
        have h := hd'.resolve_left (by omega)
        exact (noSplit_perm hperm).mp h
      · left; omega
    · right
      have hlt : d < S.maxDepth := by
        rcases hinv.wellFormed.shape i n hn with ⟨hc, _⟩ | ⟨_, c, _, e1, _, _, _, _, e2, _⟩
        · rw [hl] at hc; cases hc
        · have hc1 := hinv.depth c (d + 1) (.child hd ⟨n, hn, Or.inl e1⟩)
          have hc2 := g.lev_le hu.depth (List.getElem_mem e2)
          rw [hnum c _ (List.getElem?_eq_getElem e2)] at hc2
          omega
      refine ⟨hl, hlt, j, P, f, b, l0, sp, t, h1, h2, h3, h4, ?_⟩
      obtain ⟨b1, b2, b3⟩ := h5
      rw [offerAt_perm hperm] at b1 b3
      rw [sumKeys_perm hperm] at b2 b3
      exact ⟨b1, b2, b3⟩

/-- A key for which a run over three parties meets the hypotheses; the rounding is not exact. -/
example : ∃ p q sk lo hi m bins M ε, ∃ S : Setup Nat Histogram.Num, RawRun S DemoRaw.rows ∧ Usual S m ∧
    RoundedRun p q sk lo hi m 0 0 bins M ε S ∧
    (∀ j P, partyAt S j = some P → ∀ sp ∈ P.splits, sp.Pairwise (· < ·)) ∧
    S.hosts.length = 2 ∧ S.cfg.rnd (1 / 3) ≠ 1 / 3 := by
  obtain ⟨sk, h1, h2⟩ := DemoPaillier.key
  refine ⟨_, _, sk, 12, 13, 11 / 10, 4, 10000, 1 / 2 ^ 60, DemoRounded.setup sk DemoRounded.fine 2 .split 1,
    DemoRounded.raw _ _ _ _ _, DemoRounded.usual _ _ _ (by decide) (by decide),
    DemoRounded.run h1 h2 (DemoRounded.fine_accurate _) _ _ _, DemoRounded.increasing _ _ _ _ _, rfl, ?_⟩
  show DemoRounded.fine (1 / 3) ≠ 1 / 3
  decide +kernel

end Verif
