import Verif.Lemmas.Selected
import Verif.Props.C18
import Verif.Props.C19
import Verif.Spec.C39

/-!
# C77 – binning of selected columns

A binning object with a list of column indices, used on dense or sparse rows: which columns get
split points, which are converted, what is returned, and what repeated calls do.
-/

set_option autoImplicit false

namespace Verif
open Binning Selected Spec
open Quantile (Config)

/-- **Dense rows**: exactly the picked columns are fitted, each to its own values; converting any
later table (under the header of the first one) replaces the values of the requested columns by
their bins and leaves every other value as it is.  A column picked by a negative index is fitted
but not converted.  The returned split points are those of the picked columns, packed. -/
theorem C77_dense {K : Type} [DecidableEq K] (cfg : Config) (herr : 0 ≤ cfg.error) (binNum : Nat)
    (hb : 1 ≤ binNum) (header : List String) (hn : header.Nodup) (sel : List Int) (hs : sel ≠ [])
    (hr : InRange sel header.length) (rows : DTable K (List Rat)) (hne : rows.data ≠ [])
    (hw : ∀ r ∈ rows.data.values, r.length = header.length) :
    ∃ o S, fit (Obj.new cfg binNum (some (sel.map some))) header (.dense rows) = .ok o ∧
      (∀ j < header.length, Picked sel header.length j → Quantile.splitPoints (Quantile.query
        (Quantile.denseOf cfg (Spec.column rows.data.values j))) binNum = .ok (S j)) ∧
      ∀ (header2 : List String) (rows2 : DTable K (List Rat)), rows2.WF → rows2.data ≠ [] →
        ∀ t cols, ((t = .all ∧ cols = sel) ∨ (t = .list cols ∧ ∀ c ∈ cols, c ∈ sel)) →
        ∃ new zero, convert o header2 (.dense rows2) t none = .ok (.converted (.dense new)
            (((List.range header.length).filter fun j => decide (Picked sel header.length j)).map S)
            zero, o) ∧
          new.data.keys = rows2.data.keys ∧
          (∀ k row, rows2.data.get? k = some row → ∃ cells, new.data.get? k = some cells ∧
            cells.length = row.length ∧ ∀ (j : Nat) (x : Rat), row[j]? = some x → cells[j]? =
              some (if (j : Int) ∈ cols then .bin (getBinNum x (S j)) else .raw x)) ∧
          (∀ j : Nat, (j : Int) ∈ cols → zero.get? (j : Int) = some (getBinNum 0 (S j))) := by
  obtain ⟨o, S, h1, h2, h3⟩ := fit_dense cfg binNum hb header hn sel hr rows hne hw (fun j _ => by
    obtain ⟨sps, h, _⟩ := C18_split_points_increasing cfg herr
      (rows.data.values.filterMap fun r => r[j]?) binNum hb
    exact ⟨sps, h⟩)
  refine ⟨o, S, h1, h3, ?_⟩
  intro header2 rows2 hwf2 hne2 t cols ht
  have hcm := Fitted.transformCols_mem ht
  obtain ⟨z, z1, z2⟩ := h2.convert hs hr header2 (.dense rows2) hne2 t cols ht _
    (fun sps hS => convertRows_dense header S sel cols hcm rows2 hwf2 sps hS)
  refine ⟨_, z, z1, ?_, ?_, ?_⟩
  · exact Dict.keys_map (fun _ (r : List Rat) => (r.zipIdx 0).map fun (q : Rat × Nat) =>
      if q.2 ∈ colNumbers cols then Cell.bin (getBinNum q.1 (S q.2)) else Cell.raw q.1) rows2.data
  · intro k row hk
    refine ⟨(row.zipIdx 0).map fun (q : Rat × Nat) =>
      if q.2 ∈ colNumbers cols then Cell.bin (getBinNum q.1 (S q.2)) else Cell.raw q.1, ?_, ?_, ?_⟩
    · have := Dict.get?_map (fun _ (r : List Rat) => (r.zipIdx 0).map fun (q : Rat × Nat) =>
        if q.2 ∈ colNumbers cols then Cell.bin (getBinNum q.1 (S q.2)) else Cell.raw q.1) rows2.data k
      rw [hk] at this
      exact this
    · simp
    · intro j x hj
      simp [List.getElem?_map, List.getElem?_zipIdx, hj, mem_colNumbers]
  · intro j hj
    rw [z2, if_pos hj, pos_ofNat]

/-- **Sparse rows** that store values in picked columns only: the same, with split points fitted
to the stored values and the number of rows. -/
theorem C77_sparse {K : Type} [DecidableEq K] (cfg : Config) (herr : 0 ≤ cfg.error)
    (hab : cfg.abnormal = []) (binNum : Nat)
    (hb : 1 ≤ binNum) (header : List String) (hn : header.Nodup) (sel : List Int) (hs : sel ≠ [])
    (hr : InRange sel header.length) (rows : DTable K (SparseVec Rat)) (hne : rows.data ≠ [])
    (hv : ∀ p ∈ rows.data, p.2.vec.WF)
    (hnz : ∀ p ∈ rows.data, ∀ q ∈ p.2.vec, 1 / 10 ^ 6 ≤ |q.2|)
    (hl : ∀ p ∈ rows.data, ∀ q ∈ p.2.vec, q.1 < header.length ∧ Picked sel header.length q.1) :
    ∃ o S, fit (Obj.new cfg binNum (some (sel.map some))) header (.sparse rows) = .ok o ∧
      (∀ j < header.length, Picked sel header.length j → Quantile.splitPoints
        (Quantile.sparseOf cfg (rows.data.values.filterMap fun r => r.vec.get? j) rows.count).query
          binNum = .ok (S j)) ∧
      ∀ (header2 : List String) (rows2 : DTable K (SparseVec Rat)), rows2.WF → rows2.data ≠ [] →
        (∀ p ∈ rows2.data, p.2.vec.WF) →
        ∀ t cols, ((t = .all ∧ cols = sel) ∨ (t = .list cols ∧ ∀ c ∈ cols, c ∈ sel)) →
        ∃ new zero, convert o header2 (.sparse rows2) t none = .ok (.converted (.sparse new)
            (((List.range header.length).filter fun j => decide (Picked sel header.length j)).map S)
            zero, o) ∧
          new.data.keys = rows2.data.keys ∧
          (∀ k row, rows2.data.get? k = some row → ∃ cells, new.data.get? k = some cells ∧
            cells.shape = row.shape ∧ ∀ j : Nat, cells.vec.get? j = (row.vec.get? j).map fun x =>
              if (j : Int) ∈ cols then .bin (getBinNum x (S j)) else .raw x) ∧
          (∀ j : Nat, (j : Int) ∈ cols → zero.get? (j : Int) = some (getBinNum 0 (S j))) := by
  have hval : ∀ r ∈ rows.data.values, ∃ p ∈ rows.data, p.2 = r := fun r hr => by
    obtain ⟨p, hp, h⟩ := List.mem_map.mp hr
    exact ⟨p, hp, h⟩
  obtain ⟨o, S, h1, h2, h3⟩ := fit_sparse cfg binNum hb header hn sel hr rows hne
    (fun r hr' q hq => by obtain ⟨p, hp, rfl⟩ := hval r hr'; exact hl p hp q hq)
    (fun j _ => by
      have hcol := column_get rows hv j
      have hnz' : ∀ x ∈ Binning.column j rows, 1 / 10 ^ 6 ≤ |x| := by
        rw [hcol]
        intro x hx
        obtain ⟨r, hr', hx⟩ := List.mem_filterMap.mp hx
        obtain ⟨p, hp, rfl⟩ := hval r hr'
        have := hnz p hp (j, x) (Dict.get?_mem hx)
        exact this
      have hpos : 1 ≤ rows.count := List.length_pos_iff.mpr hne
      have hlen : (Binning.column j rows).length ≤ rows.count := by
        rw [hcol]
        refine le_trans (List.length_filterMap_le _ _) ?_
        simp [Dict.values, DTable.count]
      have hok : ∀ q, 0 ≤ q → q ≤ 1 →
          ∃ v, (Quantile.sparseOf cfg (Binning.column j rows) rows.count).query q = .ok v := by
        intro q h0 h1
        obtain ⟨v, hv', _⟩ := C19_zero_iff cfg herr (Binning.column j rows) rows.count
          (by simp [hab]) hnz' hpos hlen q h0 h1
        exact ⟨v, hv'⟩
      exact Quantile.splitPoints_total _ binNum hb hok)
  refine ⟨o, S, h1, fun j hj hp => by rw [← column_get rows hv j]; exact h3 j hj hp, ?_⟩
  intro header2 rows2 hwf2 hne2 hv2 t cols ht
  have hcm := Fitted.transformCols_mem ht
  obtain ⟨z, z1, z2⟩ := h2.convert hs hr header2 (.sparse rows2) hne2 t cols ht _
    (fun sps hS => convertRows_sparse header S sel cols hcm rows2 hwf2 hv2 sps hS)
  refine ⟨_, z, z1, ?_, ?_, ?_⟩
  · exact Dict.keys_map (fun _ (f : SparseVec Rat) => (⟨f.vec.map fun q => (q.1,
      if q.1 ∈ colNumbers cols then Cell.bin (getBinNum q.2 (S q.1)) else Cell.raw q.2), f.shape⟩ :
      SparseVec Cell)) rows2.data
  · intro k row hk
    refine ⟨⟨row.vec.map fun q => (q.1,
        if q.1 ∈ colNumbers cols then Cell.bin (getBinNum q.2 (S q.1)) else Cell.raw q.2), row.shape⟩,
      ?_, ?_, ?_⟩
    · have := Dict.get?_map (fun _ (f : SparseVec Rat) => (⟨f.vec.map fun q => (q.1,
        if q.1 ∈ colNumbers cols then Cell.bin (getBinNum q.2 (S q.1)) else Cell.raw q.2), f.shape⟩ :
        SparseVec Cell)) rows2.data k
      rw [hk] at this
      exact this
    · rfl
    · intro j
      have := Dict.get?_map (fun c x =>
        if c ∈ colNumbers cols then Cell.bin (getBinNum x (S c)) else Cell.raw x) row.vec j
      rw [this]
      simp [mem_colNumbers]
  · intro j hj
    rw [z2, if_pos hj, pos_ofNat]

/-- **Sparse rows and a real selection do not go together**: one stored value in a column that is
not picked, and fitting ends with `KeyError`. -/
theorem C77_sparse_unpicked {K : Type} [DecidableEq K] (cfg : Config) (binNum : Nat)
    (hb : 1 ≤ binNum) (header : List String) (hn : header.Nodup) (sel : List Int)
    (hr : InRange sel header.length) (rows : DTable K (SparseVec Rat))
    (hl : ∀ p ∈ rows.data, ∀ q ∈ p.2.vec, q.1 < header.length)
    (hbad : ∃ p ∈ rows.data, ∃ q ∈ p.2.vec, ¬ Picked sel header.length q.1) :
    fit (Obj.new cfg binNum (some (sel.map some))) header (.sparse rows) = .error .keyError := by
  apply fit_sparse_fails cfg binNum hb header hn sel hr rows
  · intro r hr' q hq
    obtain ⟨p, hp, rfl⟩ := List.mem_map.mp hr'
    exact hl p hp q hq
  · obtain ⟨p, hp, q, hq, h⟩ := hbad
    exact ⟨p.2, List.mem_map.mpr ⟨p, hp, rfl⟩, q, hq, h⟩

/-- **All columns**: the setting `-1` is the selection of every column number. -/
theorem C77_all {K : Type} [DecidableEq K] (cfg : Config) (binNum : Nat) (header : List String)
    (rows : Rows K) (t : Transform) (given : Option (Dict String (List Rat))) :
    fit (Obj.new cfg binNum none) header rows =
      fit (Obj.new cfg binNum
        (some ((List.range header.length).map fun (i : Nat) => some (i : Int)))) header rows ∧
    convert (Obj.new cfg binNum none) header rows t given =
      convert (Obj.new cfg binNum
        (some ((List.range header.length).map fun (i : Nat) => some (i : Int)))) header rows t given := by
  constructor
  · unfold fit; rw [initCols_all]
  · unfold Selected.convert; rw [initCols_all]

/-- **A second fit changes nothing**: an object that knows its columns keeps its split points,
whatever table and header it is given. -/
theorem C77_refit {K L : Type} [DecidableEq K] [DecidableEq L] (cfg : Config) (binNum : Nat)
    (cols : Option (List (Option Int))) (header header2 : List String) (rows : Rows K)
    (rows2 : Rows L) (o : Obj) (h : fit (Obj.new cfg binNum cols) header rows = .ok o)
    (hk : o.splits ≠ some []) (hne : rows2.nonempty) : fit o header2 rows2 = .ok o := by
  apply fit_again _ o header header2 rows rows2 h _ hne
  intro hd
  apply hk
  unfold fit at h
  split at h
  · cases h
  rename_i o1 h1
  split at h
  · cases h
  split at h
  · cases h
  split at h
  · cases h
  rename_i s hs
  split at h
  · cases h
  rename_i sps hsps
  cases h
  simp only at hd ⊢
  have hsum : o1.summaries = none := by
    unfold initCols Obj.new at h1
    simp only [ne_eq, not_true_eq_false, if_false] at h1
    split at h1
    · cases h1; rfl
    · split at h1
      · cases h1
      · cases h1; rfl
  simp only [summariesOf, hsum, hd] at hs
  cases rows with
  | dense t =>
    simp only [summarize, Dict.keys, List.map_nil, freshDense, List.foldl_nil] at hs
    have hz : ∀ l : List (List Rat), insertDenseRows [] l [] = .ok [] := by
      intro l; induction l with
      | nil => rfl
      | cons r l ih => simp only [insertDenseRows, insertDenseRow, ih]
    rw [hz] at hs
    cases hs
    cases hsps
    rfl
  | sparse t =>
    simp only [summarize, Dict.keys, List.map_nil, freshSummaries, List.foldl_nil] at hs
    split at hs
    · cases hs
    · rename_i d hd'
      have hz : ∀ (l : List (SparseVec Rat)) (d : Dict String Quantile.Sparse),
          insertRows o1.header l [] = .ok d → d = [] := by
        intro l
        induction l with
        | nil => intro d h; cases h; rfl
        | cons r l ih =>
          intro d h
          simp only [insertRows] at h
          split at h
          · cases h
          · rename_i d1 h1
            have : Dict.keys d1 = [] := insertRow_keys _ _ _ _ h1
            have : d1 = [] := by simpa [Dict.keys] using this
            subst this
            exact ih d h
      cases hz _ _ hd'
      cases hs
      cases hsps
      rfl

/-- **Wrong indices**: an index that is no int or lies beyond the last column is a `ValueError`,
one before the first column an `IndexError`; the indices before it are in order. -/
theorem C77_bad_index {K : Type} [DecidableEq K] (cfg : Config) (binNum : Nat) (header : List String)
    (rows : Rows K) (good : List Int) (hg : InRange good header.length) (bad : Option Int)
    (rest : List (Option Int)) :
    (bad = none ∨ (∃ i : Int, bad = some i ∧ (header.length : Int) ≤ i) →
      fit (Obj.new cfg binNum (some (good.map some ++ bad :: rest))) header rows = .error .valueError) ∧
    ((∃ i : Int, bad = some i ∧ i < -(header.length : Int)) →
      fit (Obj.new cfg binNum (some (good.map some ++ bad :: rest))) header rows = .error .indexError) := by
  obtain ⟨h1, h2⟩ := selectLoop_bad header good bad rest hg
  constructor
  · intro h
    have := h1 h
    simp [fit, initCols, Obj.new, this]
  · intro h
    have := h2 h
    simp [fit, initCols, Obj.new, this]

/-- **Refused conversions**: before any fit the attribute `split_points` does not exist – and
giving split points does not help; a column outside the selection is a `RuntimeError`; `None`
returns the table as it is. -/
theorem C77_refused {K : Type} [DecidableEq K] (cfg : Config) (binNum : Nat) (header : List String)
    (hh : header ≠ []) (sel : List Int) (hr : InRange sel header.length) (rows : Rows K)
    (given : Option (Dict String (List Rat))) :
    (∀ r, convert (Obj.new cfg binNum (some (sel.map some))) header rows .all given ≠ .ok r) ∧
    convert (Obj.new cfg binNum (some (sel.map some))) header rows .all none = .error .attributeError ∧
    (∀ cols, (∃ c ∈ cols, c ∉ sel) →
      convert (Obj.new cfg binNum (some (sel.map some))) header rows (.list cols) given =
        .error .exception) ∧
    ∃ o, convert (Obj.new cfg binNum (some (sel.map some))) header rows .nothing given =
      .ok (.same, o) := by
  obtain ⟨cols, c1, c2, c3⟩ := initCols_sel cfg binNum header sel hr
  refine ⟨?_, ?_, ?_, ?_⟩
  · intro r h
    unfold Selected.convert at h
    rw [c3] at h
    simp only [transformCols, Option.getD_some, toInts_ok] at h
    cases hg : convertWith
      ⟨cfg, binNum, some (sel.map some), colsDictOf header cols, header, none, none⟩ rows sel given with
    | error e => rw [hg] at h; cases h
    | ok r' =>
      unfold convertWith at hg
      cases given with
      | none => cases hg
      | some s =>
        simp only at hg
        split at hg
        · cases hg
        split at hg
        · cases hg
        split at hg
        · cases hg
        rw [if_neg hh] at hg
        cases hg
  · unfold Selected.convert
    rw [c3]
    simp [transformCols, toInts_ok, convertWith]
  · intro cols' ⟨c, hc, hcs⟩
    unfold Selected.convert
    rw [c3]
    simp only [transformCols, Option.getD_some]
    rw [if_neg]
    intro hall
    rw [List.all_eq_true] at hall
    have := hall c hc
    simp at this
    exact hcs this
  · unfold Selected.convert
    rw [c3]
    exact ⟨_, rfl⟩

/-- **The tree code's calls**: with all columns on sparse rows this is `fitSplitPoints` followed
by `convertFeatureToBin` of `Model/Binning.lean` (C21). -/
theorem C77_tree_calls {K : Type} [DecidableEq K] (cfg : Config) (binNum : Nat) (hb : 1 ≤ binNum)
    (header : List String) (hn : header.Nodup) (hh : header ≠ []) (rows : DTable K (SparseVec Rat))
    (hne : rows.data ≠ []) (sps : Dict String (List Rat))
    (h : fitSplitPoints cfg binNum header rows = .ok sps) :
    ∃ o, fit (Obj.new cfg binNum none) header (.sparse rows) = .ok o ∧ o.splits = some sps ∧
      ∀ (rows2 : DTable K (SparseVec Rat)) new S sb, rows2.data ≠ [] →
        convertFeatureToBin header sps rows2 = .ok (new, S, sb) →
        ∃ zero, convert o header (.sparse rows2) .all none = .ok (.converted (.sparse new) S zero, o) ∧
          ∀ j : Nat, zero.get? (j : Int) = sb.get? j := by
  have hkeys : Dict.keys (colsDictOf header header) = header := by
    have : colsDictOf header header = header.map fun n => (n, header.idxOf n) := by
      unfold colsDictOf
      suffices hx : ∀ (l : List String) (d : Dict String Nat), (Dict.keys d ++ l).Nodup →
          l.foldl (fun d col => Dict.set d col (header.idxOf col)) d =
            d ++ l.map fun n => (n, header.idxOf n) by
        rw [hx header [] (by simpa using hn)]; rfl
      intro l
      induction l with
      | nil => intro d _; simp
      | cons a l ih =>
        intro d hd
        have ha : a ∉ Dict.keys d := by
          intro h
          rw [List.nodup_append] at hd
          exact hd.2.2 a h a (by simp) rfl
        rw [List.foldl_cons, Dict.set_of_not_mem d a _ ha, ih]
        · simp
        · simpa using hd
    rw [this]
    unfold Dict.keys
    simp [List.map_map, Function.comp_def]
  have hcd : colsDictOf header header ≠ [] := by
    intro h0
    rw [h0] at hkeys
    exact hh hkeys.symm
  unfold fitSplitPoints at h
  split at h
  · cases h
  rename_i d hd
  obtain ⟨v, hv⟩ := first_some rows hne
  refine ⟨⟨cfg, binNum, some ((List.range header.length).map fun (i : Nat) => some (i : Int)),
    colsDictOf header header, header,
    some (.sparse (d.map fun p => (p.1, p.2.compress.setTotal rows.count))), some sps⟩, ?_, rfl, ?_⟩
  · unfold fit
    have : initCols (Obj.new cfg binNum none) header = .ok ⟨cfg, binNum,
        some ((List.range header.length).map fun (i : Nat) => some (i : Int)),
        colsDictOf header header, header, none, none⟩ := by
      unfold initCols Obj.new
      simp
    rw [this]
    simp only [if_neg (show binNum ≠ 0 by omega), isSparse, hv, summariesOf, summarize, hkeys, hd,
      splitsOf, h]
  · intro rows2 new S sb hne2 hc
    unfold convertFeatureToBin at hc
    split at hc
    · cases hc
    rename_i nd hnd
    split at hc
    · cases hc
    rename_i sb' hsb
    cases hc
    obtain ⟨v2, hv2⟩ := first_some rows2 hne2
    have hnum : colNumbers ((List.range header.length).map fun (i : Nat) => (i : Int)) =
        List.range header.length := by
      unfold colNumbers
      rw [List.filterMap_map]
      simp
    have hints : toInts ((List.range header.length).map fun (i : Nat) => some (i : Int)) =
        .ok ((List.range header.length).map fun (i : Nat) => (i : Int)) := by
      have := toInts_ok ((List.range header.length).map fun (i : Nat) => (i : Int))
      rwa [List.map_map] at this
    have hz : ∀ (l : List Nat) (acc : Dict Nat Nat) (acc' : Dict Int Nat) (r : Dict Nat Nat),
        sparseBinLoop sps header l acc = .ok r → (∀ j : Nat, acc'.get? (j : Int) = acc.get? j) →
        ∃ z, zeroBins sps header (l.map fun (i : Nat) => (i : Int)) acc' = .ok z ∧
          ∀ j : Nat, z.get? (j : Int) = r.get? j := by
      intro l
      induction l with
      | nil => intro acc acc' r hr ha; cases hr; exact ⟨acc', rfl, ha⟩
      | cons c l ih =>
        intro acc acc' r hr ha
        simp only [sparseBinLoop] at hr
        split at hr
        · cases hr
        rename_i s hs
        obtain ⟨z, z1, z2⟩ := ih _ (acc'.set (c : Int) (getBinNum 0 s)) r hr (by
          intro j
          rw [Dict.get?_set, Dict.get?_set, ha]
          by_cases e : c = j
          · simp [e]
          · have : ¬ (c : Int) = j := by omega
            simp [e])
        refine ⟨z, ?_, z2⟩
        unfold lookupSplits at hs
        split at hs
        · cases hs
        rename_i name hname
        split at hs
        · cases hs
        rename_i s' hs'
        cases hs
        have hlt := (List.getElem?_eq_some_iff.mp hname).1
        have hna : nameAt header (c : Int) = .ok name := by
          rw [nameAt_ok header c (by omega)]
          congr 1
          have := (List.getElem?_eq_some_iff.mp hname).2
          simpa [pos_ofNat] using this
        simp only [List.map_cons, zeroBins, hna, hs']
        exact z1
    obtain ⟨z, z1, z2⟩ := hz _ [] [] sb hsb (by simp)
    refine ⟨z, ?_, z2⟩
    unfold Selected.convert
    have : ∀ o : Obj, o.colsDict ≠ [] → initCols o header = .ok o := by
      intro o ho
      unfold initCols
      rw [if_pos ho]
    rw [this _ hcd]
    simp only [transformCols, Option.getD_some, hints, convertWith, isSparse, hv2, hnum, convertRows,
      hnd, z1]

/-- Three columns, the last picked by `-1` and the first by `0`: both are fitted, the first is
converted. -/
example :
    (match fit (Obj.new ⟨10000, 10000, 1 / 1000, []⟩ 2 (some [some 0, some (-1)])) ["a", "b", "c"]
        (.dense (⟨[(7, [1, 2, 3]), (8, [4, 5, 6])]⟩ : DTable Nat (List Rat))) with
      | .error _ => none
      | .ok o => o.splits) = some [("a", [4]), ("c", [6])] := by decide +kernel

example :
    (match fit (Obj.new ⟨10000, 10000, 1 / 1000, []⟩ 2 (some [some 0, some (-1)])) ["a", "b", "c"]
        (.dense (⟨[(7, [1, 2, 3]), (8, [4, 5, 6])]⟩ : DTable Nat (List Rat))) with
      | .error _ => none
      | .ok o =>
        match convert o [] (.dense (⟨[(9, [5, 5, 7])]⟩ : DTable Nat (List Rat))) .all none with
        | .ok (.converted (.dense t) S _, _) => some (t, S)
        | _ => none) =
    some (⟨[(9, [.bin 1, .raw 5, .raw 7])]⟩, [[4], [6]]) := by decide +kernel

/-- The same rows, stored sparsely: an unpicked column has stored values. -/
example : (match fit (Obj.new ⟨10000, 10000, 1 / 1000, []⟩ 2 (some [some 0])) ["a", "b"]
    (.sparse (⟨[(7, ⟨[(0, 1), (1, 2)], 2⟩)]⟩ : DTable Nat (SparseVec Rat))) with
      | .error e => some e
      | .ok _ => none) = some .keyError := by decide +kernel

end Verif
