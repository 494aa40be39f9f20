import Verif.Lemmas.HistogramSum
import Verif.Lemmas.HistogramAgg
import Verif.Props.C20
import Verif.Props.C21

/-!
# C22 – plaintext histograms are the true sums

`getHistograms` is what a party computes for a batch of nodes: it joins samples with their
gradients, sums per node, feature and bin, corrects for entries that are not stored, and
accumulates over bins.
-/

set_option autoImplicit false

namespace Verif
open Histogram Spec
open Binning (Cell SparseVec)

variable {K : Type} [DecidableEq K]

/-- **Every cell is a sum over samples**: cell (node, feature, bin) holds gradient sum, hessian
sum and number of the samples at that node whose bin for the feature is at most that bin. -/
theorem C22_histogram (splits : List (List Rat)) (sparse : Dict Nat Nat) (valid : List Bool)
    (hv : valid.length = splits.length) (hz : ZeroBins splits sparse) (ids : List Nat)
    (hids : ids.Nodup) (hne : ids ≠ []) (data : DTable K (SparseVec Cell × Nat × Nat))
    (hd : ∀ k x, data.data.get? k = some x → BinnedRow splits x.1)
    (gh : DTable K (Rat × Rat)) (hg : gh.WF) :
    ∃ H, getHistograms plain splits sparse (some valid) ids data gh = .ok H ∧
      H.length = ids.length ∧
      ∀ (i : Nat) (id : Nat), ids[i]? = some id → ∃ fh, H[i]? = some fh ∧ fh.length = splits.length ∧
        ∀ (f : Nat) (sp : List Rat), splits[f]? = some sp → ∃ bins, fh[f]? = some bins ∧
          (valid[f]? = some false → bins = []) ∧
          (valid[f]? = some true → bins.length = sp.length + 1 ∧
            ∀ b ≤ sp.length, bins[b]? = some (totals (upToBin sparse f b (atNode data gh id)))) := by
  have hmap : ∀ id n, (nodeMapOf ids).get? id = some n → n < (nodeMapOf ids).length := by
    intro id n h
    rw [nodeMapOf_get? ids hids] at h
    rw [nodeMapOf_length ids hids]
    by_contra hc
    rw [List.getElem?_eq_none (by omega)] at h
    cases h
  have hnm : nodeMapOf ids ≠ [] := by
    intro h
    have := nodeMapOf_length ids hids
    rw [h] at this
    exact hne (List.length_eq_zero_iff.mp this.symm)
  have hjoin := DTable.join_ok data hg (fun v w => (v, w))
  set kvs := Dict.values (DTable.joinLoop data.data (fun v w => (v, w)) gh.data) with hkvs
  have hk : ∀ p ∈ kvs, BinnedRow splits p.1.1 := by
    intro p hp
    rw [hkvs] at hp
    obtain ⟨q, hq, rfl⟩ := List.mem_map.mp hp
    clear hjoin hkvs kvs hp
    revert hq
    generalize gh.data = g
    intro hq
    induction g with
    | nil => simp [DTable.joinLoop] at hq
    | cons e g ih =>
      unfold DTable.joinLoop at hq
      cases hx : data.data.get? e.1 with
      | none => rw [hx] at hq; exact ih hq
      | some x =>
        rw [hx] at hq
        simp only [List.mem_cons] at hq
        rcases hq with rfl | hq
        · exact hd _ _ hx
        · exact ih hq
  obtain ⟨H0, a1, a2, a3, a4⟩ := batch_ok splits sparse valid hv hz (nodeMapOf ids) hnm hmap kvs hk
  obtain ⟨H, b1, b2, b3, b4⟩ := accumulate_ok H0
  refine ⟨H, ?_, ?_, ?_⟩
  · unfold getHistograms calculate
    rw [hjoin]
    simp only [bind, Except.bind]
    rw [a1]
    exact b1
  · rw [b2, a2, nodeMapOf_length ids hids]
  · intro i id hid
    have hi : i < (nodeMapOf ids).length := hmap id i ((nodeMapOf_get? ids hids id i).mpr hid)
    have hfl : (row H i).length = splits.length := by rw [b3, a3 i hi]
    refine ⟨row H i, row_some (by rw [b2, a2]; exact hi), hfl, ?_⟩
    intro f sp hf
    have hff : f < splits.length := by
      by_contra hc
      rw [List.getElem?_eq_none (by omega)] at hf
      cases hf
    refine ⟨row (row H i) f, row_some (by rw [hfl]; exact hff), ?_, ?_⟩
    · intro hdis
      have h1 := (a4 i hi f hff).1
      have h2 := (b4 i f).1
      rw [List.getD_eq_getElem?_getD, hdis] at h1
      rw [h1] at h2
      exact List.length_eq_zero_iff.mp h2
    · intro hen
      have hen' : valid.getD f false = true := by rw [List.getD_eq_getElem?_getD, hen]; rfl
      obtain ⟨h1, h2⟩ := a4 i hi f hff
      have hlen : (row (row H0 i) f).length = sp.length + 1 := by
        rw [h1, hen']
        simp [hf]
      have hlen' : (row (row H i) f).length = sp.length + 1 := by rw [(b4 i f).1, hlen]
      refine ⟨hlen', ?_⟩
      intro b hb
      have hacc := accd_sum (collectRecords (nodeMapOf ids) kvs) (fun r => natBin sparse f r.features)
        (fun r => ind ((nodeMapOf ids).get? r.nodeId = some i) (amount r)) _ _ (b4 i f) (by
          intro b
          have := h2 hen' b
          unfold at3 at2 at this
          rw [this]
          congr 1
          apply List.map_congr_left
          intro r hr
          obtain ⟨_, st, _, hmem⟩ := collectRecords_mem _ _ r hr
          rw [binOf_natBin splits sparse f _ (hk _ hmem)]
          simp only [ind, Nat.cast_inj]
          split <;> split <;> rfl) b (by rw [hlen]; omega)
      have hcell : (row (row H i) f)[b]? = some (at1 (row (row H i) f) b) := by
        unfold at1
        rw [List.getElem?_eq_getElem (by rw [hlen']; omega)]
        rfl
      rw [hcell, hacc]
      congr 1
      unfold upToBin
      rw [← records_samples ids hids i id hid data (fun v => binOf sparse f v ≤ b) gh]
      congr 1
      apply List.map_congr_left
      intro r hr
      obtain ⟨_, st, _, hmem⟩ := collectRecords_mem _ _ r hr
      simp only [binOf_natBin splits sparse f _ (hk _ hmem)]
      simp only [ind, Nat.cast_le]
      split <;> split <;> rfl

/-- The last bin of every enabled feature holds the totals of the node. -/
theorem C22_last_bin (splits : List (List Rat)) (sparse : Dict Nat Nat) (hz : ZeroBins splits sparse)
    (f : Nat) (sp : List Rat) (hf : splits[f]? = some sp)
    (data : DTable K (SparseVec Cell × Nat × Nat))
    (hd : ∀ k x, data.data.get? k = some x → BinnedRow splits x.1)
    (gh : DTable K (Rat × Rat)) (id : Nat) :
    totals (upToBin sparse f sp.length (atNode data gh id)) = totals (atNode data gh id) := by
  congr 1
  unfold upToBin
  rw [List.filter_eq_self]
  intro s hs
  unfold atNode at hs
  obtain ⟨p, _, hp⟩ := List.mem_filterMap.mp hs
  cases hx : data.data.get? p.1 with
  | none => rw [hx] at hp; cases hp
  | some x =>
    obtain ⟨v, st, nid⟩ := x
    rw [hx] at hp
    simp only at hp
    split at hp
    · simp only [Option.some.injEq] at hp
      subst hp
      have := natBin_le splits sparse hz f sp hf v (hd _ _ hx)
      simp only [decide_eq_true_eq]
      rw [binOf_natBin splits sparse f v (hd _ _ hx)]
      exact_mod_cast this
    · cases hp

/-- **In terms of the raw data**: prepare a table of dense rows, assign samples to nodes, and
compute histograms.  If the split points of a feature increase, the cell of a bin holds the
sums over the samples at the node whose (near-zero-cleaned) value is at most the split point. -/
theorem C22_thresholds (cfg : Quantile.Config) (herr : 0 ≤ cfg.error)
    (hab : cfg.abnormal = []) (binNum : Nat) (hb : 1 ≤ binNum) (header : List String)
    (hn : header.Nodup) (rows : DTable K (List Rat)) (hwf : rows.WF) (hrne : rows.data ≠ [])
    (hw : ∀ k row, rows.data.get? k = some row → row.length = header.length)
    (nodes : DTable K (Nat × Nat)) (hnodes : nodes.WF) (gh : DTable K (Rat × Rat)) (hg : gh.WF)
    (valid : List Bool) (hv : valid.length = header.length)
    (ids : List Nat) (hids : ids.Nodup) (hne : ids ≠ [])
    (table : DTable K (SparseVec Cell)) (splits : List (List Rat)) (sparse : Dict Nat Nat)
    (hprep : Binning.prepare cfg binNum header rows = .ok (table, splits, sparse))
    (data : DTable K (SparseVec Cell × Nat × Nat)) (hdata : table.join nodes (fun v s => (v, s)) = .ok data)
    (raw : DTable K (List Rat × Nat × Nat)) (hraw : rows.join nodes (fun v s => (v, s)) = .ok raw) :
    ∃ H, getHistograms plain splits sparse (some valid) ids data gh = .ok H ∧
      ∀ (i id f b : Nat) (sp : List Rat) (t : Rat), ids[i]? = some id → valid[f]? = some true →
        splits[f]? = some sp → sp.Pairwise (· < ·) → sp[b]? = some t →
        ∃ fh bins, H[i]? = some fh ∧ fh[f]? = some bins ∧
          bins[b]? = some (totals ((atNode raw gh id).filter
            fun s => decide (snap ((s.1[f]?).getD 0) ≤ t))) := by
  obtain ⟨table', S, sb, p1, p2, p3, p4, p5, p6, p7⟩ :=
    C21_table cfg herr hab binNum hb header hn rows hwf hrne hw
  rw [hprep] at p1
  simp only [Except.ok.injEq, Prod.mk.injEq] at p1
  obtain ⟨rfl, rfl, rfl⟩ := p1
  have hjd : ∀ k, data.data.get? k = (nodes.data.get? k).bind fun s => (table.data.get? k).map fun v => (v, s) := by
    rw [DTable.join_ok table hnodes] at hdata
    simp only [Except.ok.injEq] at hdata
    subst hdata
    intro k
    rw [DTable.joinLoop_get?]
    cases nodes.data.get? k <;> cases Dict.get? _ k <;> rfl
  have hjr : ∀ k, raw.data.get? k = (nodes.data.get? k).bind fun s => (rows.data.get? k).map fun v => (v, s) := by
    rw [DTable.join_ok rows hnodes] at hraw
    simp only [Except.ok.injEq] at hraw
    subst hraw
    intro k
    rw [DTable.joinLoop_get?]
    cases nodes.data.get? k <;> cases Dict.get? _ k <;> rfl
  have hrow : ∀ k v, table.data.get? k = some v → ∃ row, rows.data.get? k = some row ∧ BinnedRow splits v ∧
      ∀ (j : Nat) (x : Rat) (sp : List Rat), row[j]? = some x → splits[j]? = some sp →
          ∃ zb, sparse.get? j = some zb ∧ v.getData j (.bin zb) = .bin (Binning.getBinNum (snap x) sp) := by
    intro k v hk
    have : k ∈ rows.data.keys := by rw [← p5]; exact Dict.mem_keys_of_get? hk
    obtain ⟨row, hr⟩ := Dict.exists_get?_of_mem this
    obtain ⟨v', v1, v2, v3⟩ := p7 k row hr
    rw [hk] at v1
    obtain rfl := Option.some.inj v1
    exact ⟨row, hr, v2, v3⟩
  obtain ⟨H, h1, _, h3⟩ := C22_histogram splits sparse valid (by rw [hv, p3]) p6 ids hids hne data (by
    intro k x hx
    rw [hjd] at hx
    cases hs : nodes.data.get? k with
    | none => rw [hs] at hx; cases hx
    | some s =>
      rw [hs] at hx
      cases ht : table.data.get? k with
      | none => rw [ht] at hx; cases hx
      | some v =>
        rw [ht] at hx
        simp only [Option.bind_some, Option.map_some, Option.some.injEq] at hx
        subst hx
        obtain ⟨_, _, h, _⟩ := hrow k v ht
        exact h) gh hg
  refine ⟨H, h1, ?_⟩
  intro i id f b sp t hid hval hf hinc ht
  obtain ⟨fh, f1, _, f3⟩ := h3 i id hid
  obtain ⟨bins, g1, _, g3⟩ := f3 f sp hf
  obtain ⟨_, g5⟩ := g3 hval
  have hbl : b < sp.length := by
    by_contra hc
    rw [List.getElem?_eq_none (by omega)] at ht
    cases ht
  refine ⟨fh, bins, f1, g1, ?_⟩
  rw [g5 b (by omega)]
  congr 1
  unfold upToBin
  apply totals_congr data raw gh id (fun v => decide (binOf sparse f v ≤ b))
    (fun r => decide (snap ((r[f]?).getD 0) ≤ t))
  intro k
  rw [hjd, hjr]
  cases hs : nodes.data.get? k with
  | none => rfl
  | some s =>
    cases htk : table.data.get? k with
    | none =>
      have : rows.data.get? k = none := by
        rw [Dict.get?_eq_none_iff, ← p5, ← Dict.get?_eq_none_iff]
        exact htk
      rw [this]
      rfl
    | some v =>
      obtain ⟨r, r1, r2, r3⟩ := hrow k v htk
      rw [r1]
      simp only [Option.bind_some, Option.map_some, Option.some.injEq, Prod.mk.injEq, and_true]
      have hfr : f < r.length := by
        rw [hw k r r1, ← p3]
        by_contra hc
        rw [List.getElem?_eq_none (by omega)] at hf
        cases hf
      obtain ⟨zb, z1, z2⟩ := r3 f r[f] sp (List.getElem?_eq_getElem hfr) hf
      have hbin : binOf sparse f v = (Binning.getBinNum (snap r[f]) sp : Nat) := by
        unfold binOf
        rw [z1]
        simp only [Option.getD_some]
        rw [z2]
        rfl
      rw [hbin, List.getElem?_eq_getElem hfr]
      simp only [Option.getD_some, Nat.cast_le, decide_eq_decide]
      exact C20_bin_test_iff_threshold_test sp hinc (snap r[f]) b t ht

/-- **Partitioning does not matter**: adding the histograms of two parts of the data gives the
histogram of all of it. -/
theorem C22_aggregate (splits : List (List Rat)) (sparse : Dict Nat Nat) (valid : List Bool)
    (hv : valid.length = splits.length) (hz : ZeroBins splits sparse) (ids : List Nat)
    (hids : ids.Nodup) (hne : ids ≠ []) (k1 k2 : List ((SparseVec Cell × Nat × Nat) × Rat × Rat))
    (h1 : ∀ p ∈ k1, BinnedRow splits p.1.1) (h2 : ∀ p ∈ k2, BinnedRow splits p.1.1) :
    ∃ H1 H2 H, batch plain splits sparse (some valid) (nodeMapOf ids) k1 = .ok H1 ∧
      batch plain splits sparse (some valid) (nodeMapOf ids) k2 = .ok H2 ∧
      aggregate plain H1 H2 = .ok H ∧
      batch plain splits sparse (some valid) (nodeMapOf ids) (k1 ++ k2) = .ok H := by
  apply batch_aggregate splits sparse valid hv hz (nodeMapOf ids) ?_ ?_ k1 k2 h1 h2
  · intro h
    have := nodeMapOf_length ids hids
    rw [h] at this
    exact hne (List.length_eq_zero_iff.mp this.symm)
  · intro id n h
    rw [nodeMapOf_get? ids hids] at h
    rw [nodeMapOf_length ids hids]
    by_contra hc
    rw [List.getElem?_eq_none (by omega)] at h
    cases h

/-- Without a feature mask (`valid_features=None`, the default of the public function) the
entries that are not stored are left out: the only sample below is missing from every bin. -/
theorem C22_no_mask_refuted :
    getHistograms plain [[5]] [(0, 0)] none [7]
      (⟨[(1, (⟨[], 1⟩, 1, 7))]⟩ : DTable Nat (SparseVec Cell × Nat × Nat)) ⟨[(1, (2, 3))]⟩ =
      .ok [[[(0, 0, 0), (0, 0, 0)]]] ∧
    totals (atNode (⟨[(1, (⟨[], 1⟩, 1, 7))]⟩ : DTable Nat (SparseVec Cell × Nat × Nat))
      ⟨[(1, (2, 3))]⟩ 7) = (2, 3, 1) := by
  constructor <;> decide +kernel

/-- Without any node to split the call fails (a variable is read before assignment). -/
theorem C22_no_nodes (splits : List (List Rat)) (sparse : Dict Nat Nat) (valid : List Bool)
    (hv : valid.length = splits.length) (data : DTable K (SparseVec Cell × Nat × Nat))
    (gh : DTable K (Rat × Rat)) (hg : gh.WF) :
    getHistograms plain splits sparse (some valid) [] data gh = .error .nameError := by
  obtain ⟨t, t1, _⟩ := template_ok valid 0 splits (by omega)
  unfold getHistograms calculate
  rw [DTable.join_ok data hg]
  simp only [bind, Except.bind]
  unfold batch
  rw [t1]
  rfl

/-- Three samples, two nodes, two features, one of them disabled. -/
example : getHistograms plain [[5, 8], [1]] [(0, 0), (1, 0)] (some [true, false]) [3, 4]
    (⟨[(1, (⟨[(0, .bin 1)], 2⟩, 1, 3)), (2, (⟨[(1, .bin 1)], 2⟩, 1, 3)), (9, (⟨[(0, .bin 2)], 2⟩, 1, 4))]⟩ :
      DTable Nat (SparseVec Cell × Nat × Nat))
    ⟨[(9, (1, 1)), (2, (2, 5)), (1, (10, 20))]⟩ =
    .ok [[[(2, 5, 1), (12, 25, 2), (12, 25, 2)], []], [[(0, 0, 0), (0, 0, 0), (1, 1, 1)], []]] := by
  decide +kernel

end Verif
