import Verif.Lemmas.OrderRun
import Verif.Examples.DemoTwins

/-!
# C82: only the order of the values in a column matters
-/

set_option autoImplicit false

namespace Verif

open DTree Spec

variable {K : Type} [DecidableEq K] {α L : Type}

/-- **Binning**: tables in the same order give the same binned rows and bins of zero, equally many split
points in every column, and split points that are corresponding values. -/
theorem C82_prepare (cfg : Quantile.Config) (ha : cfg.abnormal = []) (binNum : Nat) (header : List String) (hn : header.Nodup)
    (rows rows' : DTable K (List Rat)) (hw : ∀ p ∈ rows.data, p.2.length ≤ header.length) (hs : SameLayout rows rows')
    (ho : SameOrder rows rows' rows rows') (t : DTable K (Binning.SparseVec Binning.Cell)) (S : List (List Rat)) (sb : Dict Nat Nat)
    (h : Binning.prepare cfg binNum header rows = .ok (t, S, sb)) :
    ∃ S', Binning.prepare cfg binNum header rows' = .ok (t, S', sb) ∧ S'.map List.length = S.map List.length ∧
      ∀ (f b : Nat) sp sp' x y, S[f]? = some sp → S'[f]? = some sp' → sp[b]? = some x → sp'[b]? = some y →
        PairOf rows rows' rows rows' f x y := by
  obtain ⟨S', e1, e2⟩ := Binning.prepare_rel (orders_of ho) ha binNum hn (width_rel (rawRel_rows rows rows' hs) hw) h
  refine ⟨S', e1, e2.lengths.symm, fun f b sp sp' x y h1 h2 h3 h4 => ?_⟩
  have h5 := e2.2 f sp sp' h1 h2
  obtain ⟨l1, rfl⟩ := List.getElem?_eq_some_iff.mp h3
  obtain ⟨l2, rfl⟩ := List.getElem?_eq_some_iff.mp h4
  exact h5.get l1 l2

/-- **One tree**: tree training on recoded tables gives the same nodes (with the same splits, sums and
weights), the same weights of the samples and the same importances; the thresholds are corresponding
values. -/
theorem C82_tree (S S' : Setup K α) (rows new rows' new' : Option Nat → DTable K (List Rat)) (hd : 1 ≤ S.maxDepth)
    (hr : RecodedSetup S rows new S' rows' new') (F : Fitted K) (hF : fit S = .ok F) :
    ∃ F', fit S' = .ok F' ∧ F'.tree = F.tree ∧ F'.weights = F.weights ∧ F'.imps = F.imps ∧
      ∀ j i f x, SplitAt S F i j f x → ∃ y, SplitAt S' F' i j f y ∧ PairOf (rows j) (rows' j) (new j) (new' j) f x y := by
  have hrel := setupRel_of hr
  obtain ⟨F', e1, e2⟩ := fit_rel hrel hd hF
  refine ⟨F', e1, e2.tree, e2.weights, e2.imps, ?_⟩
  rintro j i f x ⟨n, P, d, h1, h2, h3, h4, h5, h6, h7⟩
  have key : ∃ P' d', partyAt S' j = some P' ∧ P'.idx = P.idx ∧ thresholds F' j = some d' ∧
      MaskRel (pairs rows new rows' new' j) F.tree d d' := by
    match j with
    | none =>
      cases h4; cases h6
      exact ⟨_, _, rfl, hrel.guest.idx, rfl, e2.guest⟩
    | some j =>
      obtain ⟨P', p1, p2⟩ := IdxRel.at 0 _ _ hrel.hosts j P h4
      obtain ⟨d', q1, q2⟩ := IdxRel.at 0 _ _ e2.hosts j d h6
      rw [Nat.zero_add] at q2
      exact ⟨P', d', p1, p2.idx, q1, q2⟩
  obtain ⟨P', d', p1, p2, p3, p4⟩ := key
  rcases DictRel.get? p4 i with ⟨c1, _⟩ | ⟨u, v, c1, c2, c3⟩
  · rw [c1] at h7; cases h7
  rw [c1] at h7
  cases h7
  obtain ⟨f', g1, g2⟩ := c3 n h1
  rw [h3] at g1
  simp only [Option.some.injEq, Nat.cast_inj] at g1
  subst g1
  refine ⟨v, ⟨n, P', d', by rw [e2.tree]; exact h1, h2, h3, p1, ?_, p3, c2⟩, g2⟩
  rw [h5]
  cases j with
  | none => rfl
  | some j => unfold siteName; rw [p2]

/-- **Whole runs**: training on recoded tables gives the same scores, losses, stop flags, importances and
nodes, and predictions for recoded new samples are the same.  Nothing is assumed about encryption,
rounding, or ties. -/
theorem C82_run (B B' : Boost K α L) (rows new rows' new' : Option Nat → DTable K (List Rat)) (hd : 1 ≤ B.base.maxDepth)
    (hr : RecodedRun B rows new B' rows' new') (init : List Rat) (y : DTable K L) (fin : BoostState K)
    (hb : boost B init y = .ok fin) :
    ∃ fin', boost B' init y = .ok fin' ∧ fin'.scores = fin.scores ∧ fin'.losses = fin.losses ∧ fin'.flags = fin.flags ∧
      fin'.imps = fin.imps ∧ fin'.trees.map Saved.nodes = fin.trees.map Saved.nodes ∧
      ∀ fuel, predictScores B'.base.hosts B'.rate B'.dim init fin'.trees (new' none) (hostRows B'.base new') fuel =
        predictScores B.base.hosts B.rate B.dim init fin.trees (new none) (hostRows B.base new) fuel := by
  have hr' : RecodedRun B (cut B.base.hosts.length rows) (cut B.base.hosts.length new) B' (cut B.base.hosts.length rows')
      (cut B.base.hosts.length new') := ⟨hr.1, recoded_cut hr.2⟩
  have hrel := boostRel_of hr'
  obtain ⟨fin', e1, e2⟩ := boost_rel hrel hd init y hb
  refine ⟨fin', e1, e2.scores, e2.losses, e2.flags, e2.imps, ?_, fun fuel => ?_⟩
  · have : ∀ {l m : List Saved}, List.Forall₂ (SavedRel (pairs (cut B.base.hosts.length rows) (cut B.base.hosts.length new)
        (cut B.base.hosts.length rows') (cut B.base.hosts.length new'))) l m → m.map Saved.nodes = l.map Saved.nodes := by
      intro l m h
      induction h with
      | nil => rfl
      | cons hab _ ih => simp only [List.map_cons, hab.nodes, ih]
    exact this e2.trees
  · obtain ⟨r1, r2⟩ := rows_cut hr.2
    rw [hrel.rate, hrel.dim]
    exact predictScores_rel (orders_cut hr.2) (idx_rel hr.2) r1 r2 e2.trees B.rate B.dim init fuel

/-- **Changes of scale**: if every column is put on another scale (strictly increasing, zero stays, the
same values count as zero), there is a run on the rescaled tables, and it is recoded in the sense of
`C82_run`. -/
theorem C82_rescaled (B : Boost K α L) (rows new : Option Nat → DTable K (List Rat))
    (hp : ∀ j P, partyAt B.base j = some P → PreparedFrom P (rows j)) (φ : Option Nat → Nat → Rat → Rat)
    (h : ∀ j f, Scale (φ j f)) (ht : ∀ j P, partyAt B.base j = some P → Visible (φ j) (rows j) ∧ Visible (φ j) (new j)) :
    ∃ B', RecodedRun B rows new B' (fun j => rescale (φ j) (rows j)) fun j => rescale (φ j) (new j) :=
  rescale_run B rows new hp φ h ht

/-- **A shift is not a change of scale**: adding 5 to the values 0, 1, 2, 3 gives split points that do not
correspond (zeros are counted apart from other values), and other bins. -/
theorem C82_shift_refuted : ∃ (rows rows' : DTable Nat (List Rat)) (t t' : DTable Nat (Binning.SparseVec Binning.Cell))
    (sb sb' : Dict Nat Nat),
    rows = ⟨[(0, [0]), (1, [1]), (2, [2]), (3, [3])]⟩ ∧ rows' = ⟨[(0, [5]), (1, [6]), (2, [7]), (3, [8])]⟩ ∧
    Binning.prepare DemoRaw.qcfg 4 ["x"] rows = .ok (t, [[0, 2]], sb) ∧
    Binning.prepare DemoRaw.qcfg 4 ["x"] rows' = .ok (t', [[6, 7]], sb') ∧
    (t.data.get? 1).map (fun r => (r.getData 0 (.bin 0)).val) = some 1 ∧
    (t'.data.get? 1).map (fun r => (r.getData 0 (.bin 0)).val) = some 0 := by
  refine ⟨_, _, ⟨[(0, ⟨[], 1⟩), (1, ⟨[(0, .bin 1)], 1⟩), (2, ⟨[(0, .bin 1)], 1⟩), (3, ⟨[(0, .bin 2)], 1⟩)]⟩,
    ⟨[(0, ⟨[(0, .bin 0)], 1⟩), (1, ⟨[(0, .bin 0)], 1⟩), (2, ⟨[(0, .bin 1)], 1⟩), (3, ⟨[(0, .bin 2)], 1⟩)]⟩,
    [(0, 0)], [(0, 0)], rfl, rfl, by decide +kernel, by decide +kernel, by decide +kernel, by decide +kernel⟩

/-- The hypotheses of `C82_rescaled`, `C82_run` and `C82_prepare` are met by a run and the run with all
values multiplied by 1000. -/
example : ∃ B', RecodedRun DemoTwins.run DemoTwins.rows DemoTwins.new B'
      (fun j => rescale (fun _ x => 1000 * x) (DemoTwins.rows j)) (fun j => rescale (fun _ x => 1000 * x) (DemoTwins.new j)) ∧
    boost DemoTwins.run [0] DemoTwins.labels = .ok DemoTwins.final ∧ 1 ≤ DemoTwins.run.base.maxDepth ∧
    DemoTwins.final.trees ≠ [] ∧ rescale (fun _ x => 1000 * x) (DemoTwins.rows none) ≠ DemoTwins.rows none := by
  have hv : ∀ t : DTable Nat (List Rat), t = DemoTwins.train ∨ t = DemoTwins.small ∨ t = DemoTwins.large →
      Visible (fun _ x => 1000 * x) t := by
    intro t ht p hp f x hx
    have hx' : x = 1 ∨ x = 2 := by
      have hmem := List.mem_of_getElem? hx
      rcases ht with rfl | rfl | rfl
      · have : ∀ p ∈ DemoTwins.train.data, ∀ x ∈ p.2, x = 1 ∨ x = 2 := by decide +kernel
        exact this p hp x hmem
      · have : ∀ p ∈ DemoTwins.small.data, ∀ x ∈ p.2, x = 1 ∨ x = 2 := by decide +kernel
        exact this p hp x hmem
      · have : ∀ p ∈ DemoTwins.large.data, ∀ x ∈ p.2, x = 1 ∨ x = 2 := by decide +kernel
        exact this p hp x hmem
    rcases hx' with rfl | rfl <;> norm_num
  obtain ⟨B', hB⟩ := C82_rescaled DemoTwins.run DemoTwins.rows DemoTwins.new (fun j P hP => by
      have hw : ∀ p ∈ (DemoTwins.rows j).data, p.2.length ≤ 1 := by
        show ∀ p ∈ DemoTwins.train.data, p.2.length ≤ 1
        decide
      rcases DemoTwins.parties hP with ⟨rfl, rfl⟩ | ⟨rfl, rfl⟩
      · exact ⟨DemoRaw.qcfg, 4, ["a"], rfl, by decide, hw, by decide +kernel⟩
      · exact ⟨DemoRaw.qcfg, 4, ["b"], rfl, by decide, hw, by decide +kernel⟩)
    (fun _ _ x => 1000 * x) (fun _ _ => ⟨fun x y h => by linarith, by norm_num⟩) (fun j P _ => by
      refine ⟨hv _ (.inl rfl), hv _ ?_⟩
      cases j
      · exact .inr (.inl rfl)
      · exact .inr (.inr rfl))
  exact ⟨B', hB, DemoTwins.final_ok, by decide, by decide +kernel, by decide +kernel⟩

/-- The hypotheses of `C82_prepare`, and what it says: the values 0, 2, -1, 3 and 0, 20, -1/2, 30. -/
example : ∃ (rows rows' : DTable Nat (List Rat)) (t : DTable Nat (Binning.SparseVec Binning.Cell)) (sb : Dict Nat Nat),
    SameLayout rows rows' ∧ SameOrder rows rows' rows rows' ∧
    Binning.prepare DemoRaw.qcfg 4 ["x"] rows = .ok (t, [[0, 2]], sb) ∧
    Binning.prepare DemoRaw.qcfg 4 ["x"] rows' = .ok (t, [[0, 20]], sb) := by
  let φ : Nat → Rat → Rat := fun _ x => if x < 0 then x / 2 else 10 * x
  let rows : DTable Nat (List Rat) := ⟨[(0, [0]), (1, [2]), (2, [-1]), (3, [3])]⟩
  have hv : Visible φ rows := by
    have : ∀ p ∈ rows.data, ∀ x ∈ p.2, (|φ 0 x| < 1 / 10 ^ 6 ↔ |x| < 1 / 10 ^ 6) := by decide +kernel
    intro p hp f x hx
    exact this p hp x (List.mem_of_getElem? hx)
  have hs : ∀ f, Scale (φ f) := fun f => ⟨fun x y h => by
    show (if x < 0 then x / 2 else 10 * x) < if y < 0 then y / 2 else 10 * y
    split <;> split <;> linarith, by decide +kernel⟩
  exact ⟨rows, rescale φ rows,
    ⟨[(0, ⟨[], 1⟩), (1, ⟨[(0, .bin 1)], 1⟩), (2, ⟨[(0, .bin 0)], 1⟩), (3, ⟨[(0, .bin 2)], 1⟩)]⟩, [(0, 0)],
    rescale_shape φ rows, rescale_order hs hv hv, by decide +kernel, by decide +kernel⟩

end Verif
