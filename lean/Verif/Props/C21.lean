import Verif.Lemmas.Fit
import Verif.Spec.C20
import Verif.Spec.C22
import Verif.Props.C19

/-!
# C21 – sparse storage does not change the binned data

Rows are made sparse by dropping entries below 1e-6 in absolute value; only stored entries are
binned; a missing entry is later read as the bin of zero.  The result is the bin of the
original value, with near-zero values read as zero (`snap`).
-/

set_option autoImplicit false

namespace Verif
open Binning Spec

private theorem floatZero_eq : Quantile.floatZero = 1 / 10 ^ 6 := rfl

private theorem snapped (x : Rat) (sp : List Rat) :
    (Option.map (fun x => Cell.bin (getBinNum x sp)) (if |x| < Quantile.floatZero then none else some x)).getD
      (Cell.bin (getBinNum 0 sp)) = Cell.bin (getBinNum (snap x) sp) := by
  unfold snap
  by_cases hx : |x| < Quantile.floatZero
  · have hx' : |x| < 1 / 10 ^ 6 := hx
    rw [if_pos hx, if_pos hx']; rfl
  · have hx' : ¬ |x| < 1 / 10 ^ 6 := hx
    rw [if_neg hx, if_neg hx']; rfl

/-- One row: reading any column of the binned sparse row gives the bin of the (snapped) dense
value. -/
theorem C21_row (header : List String) (sps : Dict String (List Rat)) (S : Nat → List Rat)
    (hS : ∀ (j : Nat) (name : String), header[j]? = some name → sps.get? name = some (S j))
    (row : List Rat) (hw : row.length = header.length) :
    ∃ v sb, convertSparse (List.range header.length) sps header (dataFormatTransform row) = .ok v ∧
      getSparseBin (List.range header.length) sps header = .ok sb ∧
      ∀ (j : Nat) (x : Rat), row[j]? = some x → ∃ zb, sb.get? j = some zb ∧
        v.getData j (.bin zb) = .bin (getBinNum (snap x) (S j)) := by
  have hlk : ∀ c < header.length, lookupSplits header sps c = .ok (S c) := by
    intro c hc
    exact lookupSplits_ok header sps c header[c] (S c) (List.getElem?_eq_getElem hc)
      (hS c _ (List.getElem?_eq_getElem hc))
  obtain ⟨w1, w2⟩ := dataFormatTransform_wf row
  refine ⟨_, _, convertSparse_all _ sps header S _ w1 ?_ ?_, getSparseBin_ok sps header S _ hlk, ?_⟩
  · intro k hk; rw [List.mem_range, ← hw]; exact w2 k hk
  · intro k hk; exact hlk k (by rw [← hw]; exact w2 k hk)
  · intro j x hj
    have hjl : j < header.length := by
      rw [← hw]
      by_contra hc
      rw [List.getElem?_eq_none (by omega)] at hj
      cases hj
    refine ⟨getBinNum 0 (S j), by rw [get?_map_range, if_pos hjl], ?_⟩
    unfold SparseVec.getData
    simp only
    rw [Dict.get?_map (fun k x => Cell.bin (getBinNum x (S k))), dataFormatTransform_get?, hj]
    exact snapped x (S j)

/-- The same row binned without going through sparse storage gives the same cells. -/
theorem C21_agrees_with_dense (header : List String) (sps : Dict String (List Rat)) (S : Nat → List Rat)
    (hS : ∀ (j : Nat) (name : String), header[j]? = some name → sps.get? name = some (S j))
    (row : List Rat) (hw : row.length = header.length) :
    ∃ v sb cells, convertSparse (List.range header.length) sps header (dataFormatTransform row) = .ok v ∧
      getSparseBin (List.range header.length) sps header = .ok sb ∧
      convertDense (List.range header.length) sps header (row.map snap) = .ok cells ∧
      cells.length = row.length ∧
      ∀ (j : Nat) (c : Cell), cells[j]? = some c →
        ∃ zb, sb.get? j = some zb ∧ v.getData j (.bin zb) = c := by
  obtain ⟨v, sb, h1, h2, h3⟩ := C21_row header sps S hS row hw
  obtain ⟨cells, c1, c2, c3⟩ := convertDenseLoop_all (List.range header.length) sps header S 0 (row.map snap) (by
    intro k _ hk
    rw [List.length_map, hw] at hk
    refine ⟨List.mem_range.mpr (by omega), ?_⟩
    have hk' : k < header.length := by omega
    exact lookupSplits_ok header sps k header[k] (S k) (List.getElem?_eq_getElem hk')
      (hS k _ (List.getElem?_eq_getElem hk')))
  refine ⟨v, sb, cells, h1, h2, c1, by rw [c2, List.length_map], ?_⟩
  intro j c hj
  have hjl : j < row.length := by
    by_contra hc
    rw [List.getElem?_eq_none (by rw [c2, List.length_map]; omega)] at hj
    cases hj
  have hx : row[j]? = some row[j] := List.getElem?_eq_getElem hjl
  obtain ⟨zb, z1, z2⟩ := h3 j row[j] hx
  refine ⟨zb, z1, ?_⟩
  have := c3 j (snap row[j]) (by simp [hx])
  rw [Nat.zero_add] at this
  rw [z2]
  rw [hj] at this
  exact (Option.some.inj this).symm

/-- **Whole table**: making a table of dense rows sparse, fitting split points and binning
never fails; every column gets the split points fitted to its non-zero values, and every cell
of the result reads as the bin of the original value. -/
theorem C21_table {K : Type} [DecidableEq K] (cfg : Quantile.Config) (herr : 0 ≤ cfg.error)
    (hab : cfg.abnormal = []) (binNum : Nat) (hb : 1 ≤ binNum) (header : List String)
    (hn : header.Nodup) (rows : DTable K (List Rat)) (hwf : rows.WF) (hne : rows.data ≠ [])
    (hw : ∀ k row, rows.data.get? k = some row → row.length = header.length) :
    ∃ table S sb, prepare cfg binNum header rows = .ok (table, S, sb) ∧ table.WF ∧
      S.length = header.length ∧
      (∀ (j : Nat) (sp : List Rat), S[j]? = some sp →
        Quantile.splitPoints (Quantile.sparseOf cfg
          (rows.data.values.filterMap fun row => (row[j]?).filter fun x => decide (1 / 10 ^ 6 ≤ |x|))
          rows.count).query binNum = .ok sp) ∧
      table.data.keys = rows.data.keys ∧ ZeroBins S sb ∧
      ∀ k row, rows.data.get? k = some row → ∃ v, table.data.get? k = some v ∧ BinnedRow S v ∧
        ∀ (j : Nat) (x : Rat) (sp : List Rat), row[j]? = some x → S[j]? = some sp →
          ∃ zb, sb.get? j = some zb ∧ v.getData j (.bin zb) = .bin (getBinNum (snap x) sp) := by
  -- the sparse table
  set sparse : DTable K (SparseVec Rat) := ⟨rows.data.map fun p => (p.1, dataFormatTransform p.2)⟩ with hsparse
  have h1 : rows.mapValues dataFormatTransform = .ok sparse := DTable.mapValues_ok hwf _
  have hkeys : sparse.data.keys = rows.data.keys :=
    Dict.keys_map (fun _ r => dataFormatTransform r) rows.data
  have hswf : sparse.WF := by unfold DTable.WF Dict.WF; rw [hkeys]; exact hwf
  have hvals : sparse.data.values = rows.data.values.map dataFormatTransform := by
    simp [hsparse, Dict.values, List.map_map, Function.comp]
  have hcount : sparse.count = rows.count := by simp [DTable.count, hsparse]
  have hrow : ∀ row ∈ rows.data.values, row.length = header.length := by
    intro row hr
    unfold Dict.values at hr
    obtain ⟨p, hp, rfl⟩ := List.mem_map.mp hr
    exact hw p.1 p.2 (Dict.get?_of_mem hwf hp)
  -- columns
  have hcol1 : ∀ (j : Nat) (row : List Rat), colEntries j (dataFormatTransform row).vec =
      ((row[j]?).filter fun x => decide (1 / 10 ^ 6 ≤ |x|)).toList := by
    intro j row
    have hg := dataFormatTransform_get? row j
    have hwf' := (dataFormatTransform_wf row).1
    have hce : ∀ (d : Dict Nat Rat), d.WF → colEntries j d = (d.get? j).toList := by
      intro d
      induction d with
      | nil => intro _; rfl
      | cons p d ih =>
        obtain ⟨k0, v0⟩ := p
        intro hd
        have hd' : k0 ∉ Dict.keys d ∧ Dict.WF d := by
          unfold Dict.WF at hd ⊢; simpa using hd
        have ih' := ih hd'.2
        unfold colEntries at ih' ⊢
        rw [Dict.get?_cons]
        by_cases h : k0 = j
        · subst h
          have : Dict.get? d k0 = none := (Dict.get?_eq_none_iff _ _).mpr hd'.1
          rw [this] at ih'
          simp at ih'
          simp
          exact ih'
        · have hb : (k0 == j) = false := by simp [h]
          simp only [List.filter_cons, hb, if_neg h]
          exact ih'
    rw [hce _ hwf', hg]
    cases row[j]? with
    | none => rfl
    | some x =>
      simp only [Option.filter]
      by_cases hx : |x| < Quantile.floatZero
      · rw [if_pos hx, if_neg (by rw [floatZero_eq] at hx; simpa using hx)]
      · rw [if_neg hx, if_pos (by rw [floatZero_eq] at hx; simpa using hx)]
  have hcol : ∀ j, column j sparse = rows.data.values.filterMap fun row =>
      (row[j]?).filter fun x => decide (1 / 10 ^ 6 ≤ |x|) := by
    intro j
    unfold column
    rw [hvals]
    generalize rows.data.values = vs
    induction vs with
    | nil => rfl
    | cons r vs ih =>
      rw [List.map_cons, List.flatMap_cons, ih, List.filterMap_cons, hcol1]
      cases (Option.filter (fun x => decide (1 / 10 ^ 6 ≤ |x|)) r[j]?) <;> rfl
  have hcolnz : ∀ j, ∀ x ∈ column j sparse, 1 / 10 ^ 6 ≤ |x| := by
    intro j x hx
    rw [hcol] at hx
    obtain ⟨r, _, hr⟩ := List.mem_filterMap.mp hx
    rw [Option.filter_eq_some_iff] at hr
    simpa using hr.2
  have hcollen : ∀ j, (column j sparse).length ≤ sparse.count := by
    intro j
    rw [hcol, hcount]
    refine le_trans (List.length_filterMap_le _ _) ?_
    simp [Dict.values, DTable.count]
  have hpos : 1 ≤ sparse.count := by
    rw [hcount]
    exact List.length_pos_iff.mpr hne
  obtain ⟨sps, f1, f2, f3⟩ := fitSplitPoints_ok cfg binNum header sparse hn (by
      intro r hr p hp
      rw [hvals] at hr
      obtain ⟨row, hrow', rfl⟩ := List.mem_map.mp hr
      have := (dataFormatTransform_wf row).2 p.1 (List.mem_map.mpr ⟨p, hp, rfl⟩)
      rwa [hrow row hrow'] at this)
    (by
      intro j hj
      have hok : ∀ q, 0 ≤ q → q ≤ 1 →
          ∃ v, (Quantile.sparseOf cfg (column j sparse) sparse.count).query q = .ok v := by
        intro q h0 h1
        obtain ⟨v, hv, _⟩ := C19_zero_iff cfg herr (column j sparse) sparse.count (by simp [hab])
          (hcolnz j) hpos (hcollen j) q h0 h1
        exact ⟨v, hv⟩
      exact Quantile.splitPoints_total _ binNum hb hok)
  -- split point array
  choose! S' hS' using fun (name : String) (h : ∃ sp, sps.get? name = some sp) => h
  have hget : ∀ (j : Nat) (name : String), header[j]? = some name →
      sps.get? name = some ((header[j]?.map S').getD []) := by
    intro j name hj
    obtain ⟨sp, s1, _⟩ := f3 j name hj
    rw [hj]
    simpa using hS' name ⟨sp, s1⟩
  have harr : splitArray header sps = header.map S' := by
    unfold splitArray
    have : ∀ name ∈ header, sps.get? name = some (S' name) := by
      intro name hm
      obtain ⟨j, hj, hjn⟩ := List.getElem_of_mem hm
      have := hget j name (by rw [List.getElem?_eq_getElem hj, hjn])
      rwa [List.getElem?_eq_getElem hj, hjn] at this
    rw [List.filterMap_congr (g := fun n => some (S' n)) this]
    simp
  set S : Nat → List Rat := fun j => (header[j]?.map S').getD [] with hSdef
  have hlk : ∀ c < header.length, lookupSplits header sps c = .ok (S c) := fun c hc =>
    lookupSplits_ok header sps c header[c] (S c) (List.getElem?_eq_getElem hc)
      (hget c _ (List.getElem?_eq_getElem hc))
  have hconv : ∀ p ∈ sparse.data, convertSparse (List.range header.length) sps header p.2 =
      .ok ⟨p.2.vec.map (fun q => (q.1, Cell.bin (getBinNum q.2 (S q.1)))), p.2.shape⟩ := by
    intro p hp
    have hv : p.2 ∈ sparse.data.values := List.mem_map.mpr ⟨p, hp, rfl⟩
    rw [hvals] at hv
    obtain ⟨row, hr, hpr⟩ := List.mem_map.mp hv
    rw [← hpr]
    obtain ⟨w1, w2⟩ := dataFormatTransform_wf row
    have hl := hrow row hr
    apply convertSparse_all _ sps header S _ w1
    · intro k hk; rw [List.mem_range, ← hl]; exact w2 k hk
    · intro k hk; exact hlk k (by rw [← hl]; exact w2 k hk)
  have hmap := DTable.mapValuesM_ok hswf (convertSparse (List.range header.length) sps header)
    (fun f => ⟨f.vec.map (fun q => (q.1, Cell.bin (getBinNum q.2 (S q.1)))), f.shape⟩) hconv
  set table : DTable K (SparseVec Cell) := ⟨sparse.data.map fun p =>
    (p.1, ⟨p.2.vec.map (fun q => (q.1, Cell.bin (getBinNum q.2 (S q.1)))), p.2.shape⟩)⟩ with htable
  have htk : table.data.keys = rows.data.keys := by
    rw [← hkeys]
    exact Dict.keys_map (fun _ f => (⟨f.vec.map (fun q => (q.1, Cell.bin (getBinNum q.2 (S q.1)))), f.shape⟩ :
      SparseVec Cell)) sparse.data
  refine ⟨table, splitArray header sps, (List.range header.length).map fun c => (c, getBinNum 0 (S c)),
    ?_, ?_, ?_, ?_, htk, ?_, ?_⟩
  · unfold prepare
    rw [h1]
    simp only
    rw [f1]
    simp only
    unfold convertFeatureToBin
    rw [hmap, getSparseBin_ok sps header S _ hlk]
  · unfold DTable.WF Dict.WF; rw [htk]; exact hwf
  · rw [harr, List.length_map]
  · intro j sp hj
    rw [harr, List.getElem?_map] at hj
    cases hh : header[j]? with
    | none => rw [hh] at hj; simp at hj
    | some name =>
      rw [hh] at hj
      simp only [Option.map_some, Option.some.injEq] at hj
      obtain ⟨sp', s1, s2⟩ := f3 j name hh
      rw [hS' name ⟨sp', s1⟩] at s1
      rw [Option.some.inj s1] at hj
      rw [← hj, ← hcol, ← hcount]
      exact s2
  · intro f sp hf
    rw [harr, List.getElem?_map] at hf
    have hfl : f < header.length := by
      by_contra hc
      rw [List.getElem?_eq_none (by omega)] at hf
      cases hf
    refine ⟨getBinNum 0 (S f), by rw [get?_map_range, if_pos hfl], ?_⟩
    rw [List.getElem?_eq_getElem hfl] at hf
    simp only [Option.map_some, Option.some.injEq] at hf
    have : S f = sp := by
      simp only [hSdef, List.getElem?_eq_getElem hfl, Option.map_some, Option.getD_some]
      exact hf
    rw [this]
    exact getBinNum_le _ _
  · intro k row hk
    have hsk : sparse.data.get? k = some (dataFormatTransform row) := by
      have := Dict.get?_map (fun _ r => dataFormatTransform r) rows.data k
      rw [hsparse]
      rw [this, hk]
      rfl
    refine ⟨⟨(dataFormatTransform row).vec.map (fun q => (q.1, Cell.bin (getBinNum q.2 (S q.1)))),
      (dataFormatTransform row).shape⟩, ?_, ⟨?_, ?_⟩, ?_⟩
    · rw [htable]
      have := Dict.get?_map (fun _ (f : SparseVec Rat) => (⟨f.vec.map (fun q => (q.1, Cell.bin (getBinNum q.2 (S q.1)))),
        f.shape⟩ : SparseVec Cell)) sparse.data k
      rw [this, hsk]
      rfl
    · unfold Dict.WF
      have := Dict.keys_map (fun k x => Cell.bin (getBinNum x (S k))) (dataFormatTransform row).vec
      rw [this]
      exact (dataFormatTransform_wf row).1
    · intro f c hc
      rw [Dict.get?_map (fun k x => Cell.bin (getBinNum x (S k)))] at hc
      cases hx : Dict.get? (dataFormatTransform row).vec f with
      | none => rw [hx] at hc; simp at hc
      | some x =>
        rw [hx] at hc
        simp only [Option.map_some, Option.some.injEq] at hc
        have hfl : f < header.length := by
          rw [← hw k row hk]
          exact (dataFormatTransform_wf row).2 f (Dict.mem_keys_of_get? hx)
        refine ⟨getBinNum x (S f), S f, hc.symm, ?_, getBinNum_le _ _⟩
        rw [harr, List.getElem?_map, List.getElem?_eq_getElem hfl]
        simp only [hSdef, List.getElem?_eq_getElem hfl, Option.map_some, Option.getD_some]
    · intro j x sp hj hsp
      have hjl : j < header.length := by
        rw [← hw k row hk]
        by_contra hc
        rw [List.getElem?_eq_none (by omega)] at hj
        cases hj
      have hspS : sp = S j := by
        rw [harr, List.getElem?_map, List.getElem?_eq_getElem hjl] at hsp
        simp only [Option.map_some, Option.some.injEq] at hsp
        simp only [hSdef, List.getElem?_eq_getElem hjl, Option.map_some, Option.getD_some]
        exact hsp.symm
      refine ⟨getBinNum 0 (S j), by rw [get?_map_range, if_pos hjl], ?_⟩
      unfold SparseVec.getData
      simp only
      rw [Dict.get?_map (fun k x => Cell.bin (getBinNum x (S k))), dataFormatTransform_get?, hj, hspS]
      exact snapped x (S j)

/-- Concrete table with three rows and two columns. -/
example : prepare ⟨10000, 10000, 1 / 1000, []⟩ 3 ["a", "b"]
    (⟨[(1, [0, 5]), (2, [7, 1 / 10 ^ 7]), (3, [2, 6])]⟩ : DTable Nat (List Rat)) =
    .ok (⟨[(1, ⟨[(1, .bin 1)], 2⟩), (2, ⟨[(0, .bin 1)], 2⟩), (3, ⟨[(0, .bin 1), (1, .bin 1)], 2⟩)]⟩,
      [[0, 7], [0, 6]], [(0, 0), (1, 0)]) := by
  decide +kernel

end Verif
