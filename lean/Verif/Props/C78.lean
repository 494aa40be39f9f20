import Verif.Lemmas.Reorder
import Verif.Props.C75
import Verif.Examples.DemoReorder

/-!
# C78: the order of the rows does not matter, while a table fits into the buffer of a summary
-/

set_option autoImplicit false

namespace Verif

open DTree Spec

variable {K : Type} [DecidableEq K]

/-- **The same split points and bins from reordered rows**: preparing a table of fewer than `head_size`
rows in another order gives the same split points and bins of zero, and the same binned rows in the new
order. -/
theorem C78_prepare (cfg : Quantile.Config) (binNum : Nat) (header : List String) (hn : header.Nodup)
    (rows rows' : DTable K (List Rat)) (hwf : rows.WF) (hp : rows'.data.Perm rows.data)
    (hw : ∀ p ∈ rows.data, p.2.length = header.length) (hsize : rows.data.length < cfg.headSize)
    (t : DTable K (Binning.SparseVec Binning.Cell)) (S : List (List Rat)) (sb : Dict Nat Nat)
    (h : Binning.prepare cfg binNum header rows = .ok (t, S, sb)) :
    ∃ t', Binning.prepare cfg binNum header rows' = .ok (t', S, sb) ∧ t'.data.Perm t.data :=
  Binning.prepare_perm cfg binNum header hn hwf hp hw hsize h

/-- **The same answers from a summary** of reordered values, for dense and sparse columns. -/
theorem C78_summary (cfg : Quantile.Config) (data data' : List Rat) (hp : data'.Perm data)
    (hsize : data.length < cfg.headSize) (total : Nat) (q : Rat) :
    Quantile.query (Quantile.denseOf cfg data') q = Quantile.query (Quantile.denseOf cfg data) q ∧
    (Quantile.sparseOf cfg data' total).query q = (Quantile.sparseOf cfg data total).query q := by
  rw [Quantile.denseOf_perm cfg hp (by rw [hp.length_eq]; exact hsize),
    Quantile.sparseOf_perm cfg hp total (by rw [hp.length_eq]; exact hsize)]
  exact ⟨rfl, rfl⟩

private theorem get?_perm {V : Type} {d d' : Dict K V} (hd : d.WF) (hd' : d'.WF) (hp : d'.Perm d) (k : K) :
    d'.get? k = d.get? k := by
  apply Option.ext
  intro v
  rw [Dict.get?_eq_some_iff hd', Dict.get?_eq_some_iff hd]
  exact hp.mem_iff

private theorem partner {α : Type} {S S' : Setup K α} (h : S'.hosts.length = S.hosts.length) {j : Option Nat} {P : Party K}
    (hP : partyAt S j = some P) : ∃ P', partyAt S' j = some P' := by
  match j with
  | none => exact ⟨_, rfl⟩
  | some j =>
    have hlt : j < S'.hosts.length := by
      rw [h]; exact (List.getElem?_eq_some_iff.mp hP).1
    exact ⟨_, List.getElem?_eq_getElem hlt⟩

/-- Two runs on reordered rows have the same columns, so everything said in C75 applies. -/
theorem C78_columns {α : Type} (S S' : Setup K α) (rows rows' : Option Nat → DTable K (List Rat))
    (hr : RawRun S rows) (hr' : RawRun S' rows') (h : Reordered S rows S' rows') :
    Redistributed S rows S' rows' := by
  have hcol : ∀ j P P', partyAt S j = some P → partyAt S' j = some P' →
      P'.splits = P.splits ∧ P'.valid = P.valid ∧ ∀ k, (rows' j).data.get? k = (rows j).data.get? k := by
    intro j P P' hP hP'
    obtain ⟨hv, hp, cfg, binNum, header, hn, hw, hsize, e1, e2⟩ := h.parties j P P' hP hP'
    obtain ⟨⟨_, _, _, _, _, _, _, w1, _⟩, _⟩ := hr.parties j P hP
    obtain ⟨⟨_, _, _, _, _, _, _, w2, _⟩, _⟩ := hr'.parties j P' hP'
    obtain ⟨t', e3, _⟩ := Binning.prepare_perm cfg binNum header hn w1 hp hw hsize e1
    rw [e2] at e3
    simp only [Except.ok.injEq, Prod.mk.injEq] at e3
    exact ⟨e3.2.1, hv, get?_perm w1 w2 hp⟩
  refine ⟨h.lam, h.impurity, h.sample, h.leaf, h.depth, h.gh, ?_, ?_⟩
  · intro j P hP f hf
    obtain ⟨P', hP'⟩ := partner h.hosts hP
    obtain ⟨c1, c2, c3⟩ := hcol j P P' hP hP'
    refine ⟨j, P', f, hP', by rw [c1], by rw [c2], fun k _ row row' e e' => ?_⟩
    rw [c3, e] at e'
    cases e'
    rfl
  · intro j P' hP' f hf
    obtain ⟨P, hP⟩ := partner h.hosts.symm hP'
    obtain ⟨c1, c2, c3⟩ := hcol j P P' hP hP'
    refine ⟨j, P, f, hP, by rw [c1], by rw [c2], fun k _ row row' e e' => ?_⟩
    rw [c3, e'] at e
    cases e
    rfl

/-- **The same tree from reordered rows.**  Every party's rows and the guest's gradients are put into
other orders, and everything else that C75 allows is changed too: if every decision in the first tree is
clear by the accuracy of both runs, the trees are the same up to small differences of sums and weights,
and every sample goes the same way. -/
theorem C78_same_tree (p q : Nat) (sk : Paillier.PrivKey) (lo hi : Int) (eg eh : Rat) (bins : Nat) (M ε : Rat)
    (p' q' : Nat) (sk' : Paillier.PrivKey) (lo' hi' : Int) (eg' eh' : Rat) (bins' : Nat) (M' ε' : Rat) (m m' : Rat)
    (S S' : Setup K Histogram.Num) (rows rows' : Option Nat → DTable K (List Rat))
    (hr : RawRun S rows) (hr' : RawRun S' rows') (hd : Reordered S rows S' rows')
    (hu : Usual S m) (hu' : Usual S' m')
    (hrun : RoundedRun p q sk lo hi m eg eh bins M ε S)
    (hrun' : RoundedRun p' q' sk' lo' hi' m' eg' eh' bins' M' ε' S')
    (hinc : ∀ j P, partyAt S j = some P → ∀ sp ∈ P.splits, sp.Pairwise (· < ·))
    (hinc' : ∀ j P, partyAt S' j = some P → ∀ sp ∈ P.splits, sp.Pairwise (· < ·)) :
    ∃ F F', fit S = .ok F ∧ fit S' = .ok F' ∧
      (ClearTree S (max (tolerance S bins m ε eg eh) (tolerance S' bins' m' ε' eg' eh')) F rows →
        TreesMatch S rows S' rows' (S.maxDepth * (sumError S bins ε eg + sumError S' bins' ε' eg'))
          (S.maxDepth * (sumError S bins ε eh + sumError S' bins' ε' eh'))
          (weightError S bins m ε eg eh + weightError S' bins' m' ε' eg' eh') F F') :=
  C75_same_tree p q sk lo hi eg eh bins M ε p' q' sk' lo' hi' eg' eh' bins' M' ε' m m' S S' rows rows' hr hr'
    (C78_columns S S' rows rows' hr hr' hd) hu hu' hrun hrun' hinc hinc'

/-- **A table that does not fit into the buffer is a different matter**: with a buffer of three values,
four rows in ascending and in descending order give different split points. -/
theorem C78_buffer_refuted : ∃ (cfg : Quantile.Config) (rows rows' : DTable Nat (List Rat))
    (t t' : DTable Nat (Binning.SparseVec Binning.Cell)) (S S' : List (List Rat)) (sb sb' : Dict Nat Nat),
    rows'.data.Perm rows.data ∧ rows.WF ∧ rows.data.length = cfg.headSize + 1 ∧
    Binning.prepare cfg 2 ["x"] rows = .ok (t, S, sb) ∧ Binning.prepare cfg 2 ["x"] rows' = .ok (t', S', sb') ∧
    S = [[2]] ∧ S' = [[1]] := by
  refine ⟨⟨10000, 3, 1 / 1000, []⟩, ⟨[(0, [1]), (1, [2]), (2, [3]), (3, [4])]⟩, ⟨[(3, [4]), (2, [3]), (1, [2]), (0, [1])]⟩,
    ⟨[(0, ⟨[(0, .bin 0)], 1⟩), (1, ⟨[(0, .bin 0)], 1⟩), (2, ⟨[(0, .bin 1)], 1⟩), (3, ⟨[(0, .bin 1)], 1⟩)]⟩,
    ⟨[(3, ⟨[(0, .bin 1)], 1⟩), (2, ⟨[(0, .bin 1)], 1⟩), (1, ⟨[(0, .bin 1)], 1⟩), (0, ⟨[(0, .bin 0)], 1⟩)]⟩,
    [[2]], [[1]], [(0, 0)], [(0, 0)], by decide, by unfold DTable.WF Dict.WF; decide, rfl, by decide +kernel, by decide +kernel,
    rfl, rfl⟩

/-- The hypotheses of `C78_same_tree` are met by runs with all tables in other orders (that decisions are
clear in the first one is shown beside `C75_same_tree`). -/
example : ∃ (p q : Nat) (sk : Paillier.PrivKey) (lo hi : Int) (bins : Nat) (m M ε : Rat) (S S' : Setup Nat Histogram.Num)
    (rows rows' : Option Nat → DTable Nat (List Rat)),
    RawRun S rows ∧ RawRun S' rows' ∧ Reordered S rows S' rows' ∧ Usual S m ∧ Usual S' m ∧
    RoundedRun p q sk lo hi m 0 0 bins M ε S ∧ RoundedRun p q sk lo hi m 0 0 bins M ε S' ∧
    (∀ j P, partyAt S j = some P → ∀ sp ∈ P.splits, sp.Pairwise (· < ·)) ∧
    (∀ j P, partyAt S' j = some P → ∀ sp ∈ P.splits, sp.Pairwise (· < ·)) ∧
    (rows none).data.keys ≠ (rows' none).data.keys := by
  obtain ⟨sk, h1, h2⟩ := DemoPaillier.key
  have hid : RoundsWithin id 10000 (1 / 2 ^ 60) := fun x _ => by simp
  exact ⟨_, _, sk, 12, 13, 4, 11 / 10, 10000, 1 / 2 ^ 60, DemoRounded.setup sk DemoRounded.fine 5 .split 1,
    DemoReorder.setup sk id 5 .gain 3, DemoRaw.rows, DemoReorder.rows,
    DemoRounded.raw _ _ _ _ _, DemoReorder.raw _ _ _ _ _, DemoReorder.reordered _ _ _ _ _ _ _ _ _,
    DemoRounded.usual _ _ _ (by decide) (by decide), DemoReorder.usual _ _ _ (by decide) (by decide),
    DemoRounded.run h1 h2 (DemoRounded.fine_accurate _) _ _ _, DemoReorder.run h1 h2 hid _ _ _,
    DemoRounded.increasing _ _ _ _ _, DemoReorder.increasing _ _ _ _ _, by decide⟩

end Verif
