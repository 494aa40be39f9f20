import Verif.Lemmas.Levels
import Verif.Spec.C48
import Verif.Examples.Demo
import Verif.Examples.DemoPaillier
import Verif.Lemmas.NearGreedy

/-! # C48: the statistics of children add up to their parent's -/

set_option autoImplicit false

namespace Verif

open DTree Spec

variable {K : Type} [DecidableEq K] {α : Type}

/-- The left child of an inner node has the sums of the split; those of the right child are the
difference to the node's, rounded. -/
theorem C48_right_child (S : Setup K α) (hd : 1 ≤ S.maxDepth) (F : Fitted K) (h : fit S = .ok F)
    (i : Nat) (n : Node) (hn : F.tree[i]? = some n) (hl : n.isLeaf = false) :
    ∃ l r a b, n.left = some l ∧ n.right = some r ∧ F.tree[l]? = some a ∧ F.tree[r]? = some b ∧
      b.sumGrad = S.cfg.rnd (n.sumGrad - a.sumGrad) ∧
      b.sumHess = S.cfg.rnd (n.sumHess - a.sumHess) := by
  obtain ⟨lev, sums, dep, num, _, _, hi, _⟩ := fit_ready hd h
  obtain ⟨hlen, hnum⟩ := hi.number
  rcases hi.shape n (List.mem_of_getElem? hn) with ⟨hc, _⟩ | ⟨_, l, h1, h2, h3, h4, _, _, h5, h6⟩
  · rw [hl] at hc; cases hc
  have hll : l < F.tree.length := by omega
  have hlr : l + 1 < F.tree.length := by omega
  refine ⟨l, l + 1, F.tree[l], F.tree[l + 1], h1, h2, List.getElem?_eq_getElem hll,
    List.getElem?_eq_getElem hlr, ?_⟩
  have s0 := hi.sumOf n (by simpa using List.mem_of_getElem? hn)
  have s1 := hi.sumOf F.tree[l] (by simp)
  have s2 := hi.sumOf F.tree[l + 1] (by simp)
  rw [hnum l _ (List.getElem?_eq_getElem hll)] at s1
  rw [hnum (l + 1) _ (List.getElem?_eq_getElem hlr)] at s2
  rw [s0, s1, s2] at h5 h6
  exact ⟨h5, h6⟩

/-- The sums of the two children of an inner node add up to those of the node. -/
theorem C48_children (S : Setup K α) [S.cfg.Exact] (hd : 1 ≤ S.maxDepth) (F : Fitted K)
    (h : fit S = .ok F) (i : Nat) (n : Node) (hn : F.tree[i]? = some n) (hl : n.isLeaf = false) :
    ∃ l r a b, n.left = some l ∧ n.right = some r ∧ F.tree[l]? = some a ∧ F.tree[r]? = some b ∧
      a.sumGrad + b.sumGrad = n.sumGrad ∧ a.sumHess + b.sumHess = n.sumHess := by
  obtain ⟨l, r, a, b, h1, h2, h3, h4, h5, h6⟩ := C48_right_child S hd F h i n hn hl
  simp only [Config.rnd_apply] at h5 h6
  exact ⟨l, r, a, b, h1, h2, h3, h4, by linarith, by linarith⟩

private theorem reduce_sums (l : List (Rat × Rat)) (acc : Rat × Rat) :
    DTable.reduceLoop (addGh id) (some acc) (l.map some) =
    some (acc.1 + (l.map Prod.fst).sum, acc.2 + (l.map Prod.snd).sum) := by
  induction l generalizing acc with
  | nil => simp [DTable.reduceLoop]
  | cons p l ih =>
    rw [List.map_cons, DTable.reduceLoop, show addGh id (some acc) (some p) = some (acc.1 + p.1, acc.2 + p.2) from rfl, ih]
    simp [add_assoc]

/-- The root holds the sums of the whole data set. -/
theorem C48_root (S : Setup K α) [S.cfg.Exact] (hd : 1 ≤ S.maxDepth) (F : Fitted K) (h : fit S = .ok F) :
    ∃ n, F.tree[0]? = some n ∧ (n.sumGrad, n.sumHess) = allSums S.gh := by
  obtain ⟨lev, sums, dep, num, _, hsum, hi, _⟩ := fit_ready hd h
  obtain ⟨hlen, hnum⟩ := hi.number
  have h0 : 0 < F.tree.length := by omega
  refine ⟨F.tree[0], List.getElem?_eq_getElem h0, ?_⟩
  have s1 := hi.sumOf F.tree[0] (by simp)
  rw [hnum 0 _ (List.getElem?_eq_getElem h0)] at s1
  rw [← s1]
  rw [Config.Exact.rnd_eq] at hsum
  unfold gradHessSum at hsum
  unfold allSums
  cases hgh : S.gh.data with
  | nil => rw [hgh] at hsum; simp [Dict.values, DTable.reduceLoop] at hsum
  | cons p l =>
    have e : Dict.values (p :: l) = p.2 :: l.map Prod.snd := rfl
    rw [hgh, e, List.map_cons, DTable.reduceLoop, reduce_sums] at hsum
    simp only [Except.ok.injEq] at hsum
    rw [← hsum]
    simp [List.map_map, Function.comp_def]

private theorem leaf_sum (s : Nat → Rat) (num : Nat) (tree : List Node)
    (hids : tree.map Node.id = List.range (num + 1))
    (hk : tree.flatMap Node.children = List.range' 1 num)
    (hshape : ∀ n ∈ tree, (n.isLeaf = true ∧ n.children = []) ∨
      (n.isLeaf = false ∧ (n.children.map s).sum = s n.id)) :
    ((tree.filter fun n => n.isLeaf).map fun n => s n.id).sum = s 0 := by
  have h1 : (tree.map fun n => s n.id).sum =
      ((tree.filter fun n => n.isLeaf).map fun n => s n.id).sum +
      ((tree.flatMap Node.children).map s).sum := by
    clear hids hk
    induction tree with
    | nil => simp
    | cons n t ih =>
      have := ih fun m hm => hshape m (by simp [hm])
      rcases hshape n (by simp) with ⟨hl, hc⟩ | ⟨hl, hc⟩
      · rw [List.map_cons, List.sum_cons, List.filter_cons_of_pos (by simpa using hl), List.map_cons,
          List.sum_cons, List.flatMap_cons, hc, this, List.nil_append]
        ring
      · rw [List.map_cons, List.sum_cons, List.filter_cons_of_neg (by simpa using hl),
          List.flatMap_cons, List.map_append, List.sum_append, hc, this]
        ring
  have h2 : (tree.map fun n => s n.id) = (List.range (num + 1)).map s := by
    rw [← hids, List.map_map]; rfl
  rw [h2, hk, List.range_eq_range', List.range'_succ] at h1
  simp only [List.map_cons, List.sum_cons, Nat.zero_add] at h1
  linarith

/-- The sums of all leaves add up to the sums of the data set. -/
theorem C48_leaves (S : Setup K α) [S.cfg.Exact] (hd : 1 ≤ S.maxDepth) (F : Fitted K) (h : fit S = .ok F) :
    ((leaves F.tree).map Node.sumGrad).sum = (allSums S.gh).1 ∧
    ((leaves F.tree).map Node.sumHess).sum = (allSums S.gh).2 := by
  obtain ⟨r, hr, hsum⟩ := C48_root S hd F h
  obtain ⟨lev, sums, dep, num, _, _, hi, _⟩ := fit_ready hd h
  obtain ⟨hlen, hnum⟩ := hi.number
  have hids := hi.ids
  have h0 := hi.sumOf r (by simpa using List.mem_of_getElem? hr)
  rw [hnum 0 r hr] at h0
  simp only [List.append_nil] at hids
  rw [← hsum]
  have hsh : ∀ (p : Rat × Rat → Rat), (p = Prod.fst ∨ p = Prod.snd) → ∀ n ∈ F.tree,
      (n.isLeaf = true ∧ n.children = []) ∨
      (n.isLeaf = false ∧ (n.children.map fun i => p (sums i)).sum = p (sums n.id)) := by
    intro p hp n hn
    rcases hi.shape n hn with ⟨a, b, c⟩ | ⟨a, l, b, c, _, _, _, _, e1, e2⟩
    · exact Or.inl ⟨a, by simp [Node.children, b, c]⟩
    · refine Or.inr ⟨a, ?_⟩
      rcases hp with rfl | rfl <;> simp [Node.children, b, c, e1, e2]
  have hm : ∀ n ∈ leaves F.tree, sums n.id = (n.sumGrad, n.sumHess) := fun n hn =>
    hi.sumOf n (by simpa using (List.mem_filter.mp hn).1)
  constructor
  · have := leaf_sum (fun i => (sums i).1) num F.tree hids hi.kids (hsh _ (Or.inl rfl))
    rw [h0] at this
    rw [← this]
    congr 1
    exact List.map_congr_left fun n hn => by rw [hm n hn]
  · have := leaf_sum (fun i => (sums i).2) num F.tree hids hi.kids (hsh _ (Or.inr rfl))
    rw [h0] at this
    rw [← this]
    congr 1
    exact List.map_congr_left fun n hn => by rw [hm n hn]

/-- The run of `Demo` has inner nodes of three parties. -/
example : ∃ F, fit Demo.setup = .ok F ∧ F.tree.length = 7 ∧ (leaves F.tree).length = 4 :=
  ⟨Demo.fitted, Demo.fit_ok, by decide +kernel, by decide +kernel⟩

/-- **The sums of a node are those of its samples**: in a run with Paillier encryption without
encoding errors and the usual settings, every node, at any depth, holds the exact gradient and hessian sums of the samples
that come to it when the finished tree is walked with the raw rows of all parties. -/
theorem C48_samples (p q : Nat) (sk : Paillier.PrivKey) (lo hi : Int) (m : Rat)
    (S : Setup K Histogram.Num) [S.cfg.Exact] (rows : Option Nat → DTable K (List Rat)) (hr : RawRun S rows)
    (hu : Usual S m) (hp : PaillierRun p q sk lo hi m 0 0 S) :
    ∃ F, fit S = .ok F ∧ ∀ i n, F.tree[i]? = some n → ∃ A, A ≠ [] ∧
      Lists A (fun k => k ∈ S.gh.data.keys ∧ Reaches S F rows k i) ∧
      n.sumGrad = (A.map fun k => (ghOf S.gh k).1).sum ∧
      n.sumHess = (A.map fun k => (ghOf S.gh k).2).sum := by
  obtain ⟨F, lev, mem, g⟩ := paillier_greedy hr hu hp
  obtain ⟨sums, dep, num, _, hinv⟩ := g.inv
  refine ⟨F, g.fit, fun i n hn => ?_⟩
  obtain ⟨s1, s2⟩ := g.sums n (List.mem_of_getElem? hn)
  rw [hinv.number.2 i n hn] at s1 s2
  obtain ⟨e1, e2⟩ := Prod.mk.inj s2
  refine ⟨mem i, s1, g.lists i ?_, e1, e2⟩
  by_contra hge
  rw [List.getElem?_eq_none (by omega)] at hn; cases hn

/-- **Encoding errors do not build up**: if the encrypted gradients and hessians are off by at most
`eg` and `eh`, then the sums of every node are those of its samples up to depth × samples × error. -/
theorem C48_samples_encoded (p q : Nat) (sk : Paillier.PrivKey) (lo hi : Int) (m eg eh : Rat)
    (S : Setup K Histogram.Num) [S.cfg.Exact] (rows : Option Nat → DTable K (List Rat)) (hr : RawRun S rows)
    (hu : Usual S m) (hp : PaillierRun p q sk lo hi m eg eh S) :
    ∃ F, fit S = .ok F ∧ ∀ i n, F.tree[i]? = some n → ∃ A, A ≠ [] ∧
      Lists A (fun k => k ∈ S.gh.data.keys ∧ Reaches S F rows k i) ∧
      |n.sumGrad - (A.map fun k => (ghOf S.gh k).1).sum| ≤ S.maxDepth * (S.gh.data.length * eg) ∧
      |n.sumHess - (A.map fun k => (ghOf S.gh k).2).sum| ≤ S.maxDepth * (S.gh.data.length * eh) := by
  obtain ⟨gh', hc, F, lev, mem, g⟩ := paillier_grown hr hu hp
  obtain ⟨sums, dep, num, _, hinv⟩ := g.inv
  refine ⟨F, g.fit, fun i n hn => ?_⟩
  have hm := List.mem_of_getElem? hn
  obtain ⟨s1, s2⟩ := g.near hu.depth hc.nonneg hm
  have s0 := (g.sums n hm).1
  rw [hinv.number.2 i n hn] at s0 s1 s2
  refine ⟨mem i, s0, g.lists i ?_, s1, s2⟩
  by_contra hge
  rw [List.getElem?_eq_none (by omega)] at hn; cases hn

/-- A key for which a run over three parties meets the hypotheses of `C48_samples`. -/
example : ∃ p q sk lo hi m, ∃ S : Setup Nat Histogram.Num, RawRun S DemoRaw.rows ∧ Usual S m ∧
    PaillierRun p q sk lo hi m 0 0 S ∧ S.hosts.length = 2 := by
  obtain ⟨sk, h1, h2⟩ := DemoPaillier.key
  exact ⟨_, _, sk, 12, 13, 11 / 10, DemoPaillier.setup sk, DemoPaillier.raw sk,
    DemoPaillier.usual sk, DemoPaillier.run h1 h2, rfl⟩

end Verif
