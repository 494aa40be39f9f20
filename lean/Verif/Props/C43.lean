import Verif.Model.Alias
import Verif.Props.C21
import Verif.Lemmas.Tables
import Verif.Lemmas.Statics
import Verif.Examples.DemoRaw

/-!
# C43 Training leaves the caller's data usable

The full claim: training does not change the feature values in the table the caller passed, so
prediction on the training table uses the raw values.  It is false: training overwrites the
features of the caller's row objects with bin numbers (`C43_overwritten_refuted`), and prediction
on that table then gives other weights (`C43_prediction_refuted`).  What holds: rows that are not
shared with the training table are untouched (`C43_separate_partial`), and prediction only changes
the representation of the rows (`C43_prediction_partial`).
-/

set_option autoImplicit false

namespace Verif
open Binning Alias Spec

variable {K : Type} [DecidableEq K]

/-- The row objects of table `t` hold the arrays in `rows`. -/
def Spec.Holds (h : Heap) (t : DTable K Nat) (rows : DTable K (List Rat)) : Prop :=
  rows.data.keys = t.data.keys ∧
    ∀ k r, t.data.get? k = some r → ∃ xs, rows.data.get? k = some xs ∧ h r = .dense xs

/-- No two samples share a row object. -/
def Spec.Distinct (t : DTable K Nat) : Prop := t.WF ∧ t.data.values.Nodup

theorem numVec_rawVec (v : SparseVec Rat) : numVec (rawVec v) = v := by
  obtain ⟨vec, n⟩ := v
  simp [numVec, rawVec, Function.comp_def, Cell.val]

theorem format_format (f : Feat) : format (format f) = format f := by
  cases f <;> rfl

theorem foldl_formatRow (rs : List Nat) (h : Heap) :
    rs.foldl formatRow h = fun r => if r ∈ rs then format (h r) else h r := by
  induction rs generalizing h with
  | nil => simp
  | cons a rs ih =>
    rw [List.foldl_cons, ih]
    funext r
    unfold formatRow Heap.assign
    by_cases ha : r = a
    · subst ha
      simp [format_format]
    · simp [ha]

theorem convertRows_ok (cols : List Nat) (sps : Dict String (List Rat)) (header : List String)
    (rs : List Nat) (h : Heap) (w : Nat → SparseVec Cell) (hn : rs.Nodup)
    (hw : ∀ r ∈ rs, ∃ v, readSparse h r = .ok v ∧ convertSparse cols sps header v = .ok (w r)) :
    convertRows cols sps header h rs = .ok (fun r => if r ∈ rs then .sparse (w r) else h r) := by
  induction rs generalizing h with
  | nil => simp [convertRows]
  | cons a rs ih =>
    obtain ⟨v, h1, h2⟩ := hw a (by simp)
    rw [List.nodup_cons] at hn
    unfold convertRows convertRow
    simp only [h1, h2]
    rw [ih _ hn.2]
    · congr 1
      funext r
      unfold Heap.assign
      by_cases ha : r = a
      · subst ha; simp [hn.1]
      · simp [ha]
    · intro r hr
      have hra : r ≠ a := fun e => hn.1 (e ▸ hr)
      obtain ⟨v, h1, h2⟩ := hw r (by simp [hr])
      refine ⟨v, ?_, h2⟩
      unfold readSparse Heap.assign at *
      simpa [hra] using h1

theorem mem_values_of_get? {V : Type} {d : Dict K V} {k : K} {v : V} (h : d.get? k = some v) :
    v ∈ d.values :=
  List.mem_map.mpr ⟨(k, v), Dict.get?_mem h, rfl⟩

/-- Reading the aligned rows of a table. -/
theorem readTable_align {h : Heap} {t : DTable K Nat} {rows : DTable K (List Rat)} (hd : t.WF)
    (hh : Holds h t rows) :
    readTable (fun r => if r ∈ t.data.values then format (h r) else h r) t
      = .ok ⟨rows.data.map fun p => (p.1, dataFormatTransform p.2)⟩ := by
  obtain ⟨g, hg⟩ : ∃ g : Nat → SparseVec Rat, ∀ r xs, h r = .dense xs → g r = dataFormatTransform xs :=
    ⟨fun r => match h r with
      | .dense xs => dataFormatTransform xs
      | .sparse v => numVec v, fun r xs e => by simp only [e]⟩
  have h1 : ∀ p ∈ t.data, readSparse (fun r => if r ∈ t.data.values then format (h r) else h r) p.2
      = .ok (g p.2) := by
    intro p hp
    obtain ⟨xs, _, hx⟩ := hh.2 p.1 p.2 (Dict.get?_of_mem hd hp)
    have hm : p.2 ∈ t.data.values := List.mem_map.mpr ⟨p, hp, rfl⟩
    unfold readSparse
    simp only [hm, if_true, hx, format, numVec_rawVec, hg _ _ hx]
  unfold readTable
  rw [DTable.mapValuesM_ok hd _ g h1]
  congr 2
  have hk : Dict.keys (t.data.map fun p => (p.1, g p.2)) = t.data.keys :=
    Dict.keys_map (fun _ r => g r) t.data
  have hk' : Dict.keys (rows.data.map fun p => (p.1, dataFormatTransform p.2)) = rows.data.keys :=
    Dict.keys_map (fun _ r => dataFormatTransform r) rows.data
  apply Statics.dict_ext
  · unfold Dict.WF; rw [hk]; exact hd
  · rw [hk, hk', hh.1]
  · intro k
    have e1 := Dict.get?_map (fun _ r => g r) t.data k
    have e2 := Dict.get?_map (fun _ r => dataFormatTransform r) rows.data k
    rw [e1, e2]
    cases hr : t.data.get? k with
    | none =>
      have : rows.data.get? k = none := by
        rw [Dict.get?_eq_none_iff, hh.1, ← Dict.get?_eq_none_iff]; exact hr
      rw [this]; rfl
    | some r =>
      obtain ⟨xs, hx, hd⟩ := hh.2 k r hr
      rw [hx]
      simp [hg _ _ hd]

theorem holds_wf {h : Heap} {t : DTable K Nat} {rows : DTable K (List Rat)} (hd : t.WF)
    (hh : Holds h t rows) : rows.WF := by
  unfold DTable.WF Dict.WF; rw [hh.1]; exact hd

theorem holds_ne {h : Heap} {t : DTable K Nat} {rows : DTable K (List Rat)}
    (hh : Holds h t rows) (hne : t.data ≠ []) : rows.data ≠ [] := by
  intro e
  have := hh.1
  rw [e] at this
  cases ht : t.data with
  | nil => exact hne ht
  | cons p l => rw [ht] at this; simp at this

/-- On distinct row objects, training computes what `Binning.prepare` computes on their values,
and stores the result in the same objects. -/
theorem prepareRows_ok (cfg : Quantile.Config) (binNum : Nat) (header : List String) (h : Heap)
    (t : DTable K Nat) (rows : DTable K (List Rat)) (hd : Distinct t) (hh : Holds h t rows)
    (hne : t.data ≠ []) (table : DTable K (SparseVec Cell)) (S : List (List Rat)) (sb : Dict Nat Nat)
    (hp : prepare cfg binNum header rows = .ok (table, S, sb)) :
    ∃ h' sps, prepareRows cfg binNum header h t = .ok (h', S, sb) ∧ (∀ r ∉ t.data.values, h' r = h r) ∧
      ∀ k r xs, t.data.get? k = some r → rows.data.get? k = some xs → ∃ v, h' r = .sparse v ∧
        table.data.get? k = some v ∧
        convertSparse (List.range header.length) sps header (dataFormatTransform xs) = .ok v := by
  have hwf := holds_wf hd.1 hh
  unfold prepare at hp
  rw [DTable.mapValues_ok hwf] at hp
  simp only at hp
  cases hs : fitSplitPoints cfg binNum header
      (⟨rows.data.map fun p => (p.1, dataFormatTransform p.2)⟩ : DTable K (SparseVec Rat)) with
  | error e => rw [hs] at hp; cases hp
  | ok sps =>
    rw [hs] at hp
    simp only at hp
    unfold convertFeatureToBin at hp
    cases hc : (⟨rows.data.map fun p => (p.1, dataFormatTransform p.2)⟩ : DTable K (SparseVec Rat)).mapValuesM
        (convertSparse (List.range header.length) sps header) with
    | error e => rw [hc] at hp; cases hp
    | ok new =>
      rw [hc] at hp
      simp only at hp
      cases hb : getSparseBin (List.range header.length) sps header with
      | error e => rw [hb] at hp; cases hp
      | ok sb' =>
        rw [hb] at hp
        simp only [Except.ok.injEq, Prod.mk.injEq] at hp
        obtain ⟨rfl, rfl, rfl⟩ := hp
        -- what is stored for a row object
        have hrow : ∀ k r xs, t.data.get? k = some r → rows.data.get? k = some xs →
            ∃ v, convertSparse (List.range header.length) sps header (dataFormatTransform xs) = .ok v ∧
              new.data.get? k = some v := by
          intro k r xs hr hx
          refine DTable.mapValuesM_total hc k (dataFormatTransform xs) ?_
          have := Dict.get?_map (fun _ r => dataFormatTransform r) rows.data k
          simp only [this, hx, Option.map_some]
        obtain ⟨w, hw⟩ : ∃ w : Nat → SparseVec Cell, ∀ r xs v, h r = .dense xs →
            convertSparse (List.range header.length) sps header (dataFormatTransform xs) = .ok v → w r = v := by
          refine ⟨fun r => match h r with
            | .dense xs => match convertSparse (List.range header.length) sps header (dataFormatTransform xs) with
              | .ok v => v
              | .error _ => ⟨[], 0⟩
            | .sparse v => v, fun r xs v e1 e2 => ?_⟩
          simp only [e1, e2]
        have hne' : t.data.isEmpty = false := by
          cases ht : t.data with
          | nil => exact absurd ht hne
          | cons p l => rfl
        have hconv := convertRows_ok (List.range header.length) sps header t.data.values
          (fun r => if r ∈ t.data.values then format (h r) else h r) w hd.2 (by
            intro r hr
            obtain ⟨p, hp, rfl⟩ := List.mem_map.mp hr
            have hk := Dict.get?_of_mem hd.1 hp
            obtain ⟨xs, hx, hx'⟩ := hh.2 p.1 p.2 hk
            obtain ⟨v, hv, _⟩ := hrow _ _ _ hk hx
            refine ⟨dataFormatTransform xs, ?_, ?_⟩
            · unfold readSparse
              simp only [hr, if_true, hx', format, numVec_rawVec]
            · rw [hw _ _ _ hx' hv]; exact hv)
        refine ⟨fun r => if r ∈ t.data.values then .sparse (w r)
          else if r ∈ t.data.values then format (h r) else h r, sps, ?_, ?_, ?_⟩
        · unfold prepareRows align
          simp only [hne', Bool.false_eq_true, if_false, foldl_formatRow, readTable_align hd.1 hh, hs,
            hconv, hb]
        · intro r hr
          simp only [hr, if_false]
        · intro k r xs hr hx
          obtain ⟨xs', hx', hx''⟩ := hh.2 k r hr
          rw [hx] at hx'
          cases hx'
          obtain ⟨v, hv, hv'⟩ := hrow k r xs hr hx
          refine ⟨v, ?_, hv', hv⟩
          have hm := mem_values_of_get? hr
          simp only [hm, if_true, hw _ _ _ hx'' hv]


theorem convertLoop_fst (cols : List Nat) (sps : Dict String (List Rat)) (header : List String)
    (l : List (Nat × Rat)) (r : List Nat × List Cell) (h : convertLoop cols sps header l = .ok r) :
    r.1 = l.map Prod.fst ∧ r.2.length = l.length := by
  induction l generalizing r with
  | nil => cases h; exact ⟨rfl, rfl⟩
  | cons p l ih =>
    obtain ⟨i, x⟩ := p
    unfold convertLoop at h
    by_cases hi : i ∈ cols
    · rw [if_pos hi] at h
      split at h
      · cases h
      · split at h
        · cases h
        · rename_i r' hr'
          cases h
          obtain ⟨a, b⟩ := ih r' hr'
          simp [a, b]
    · rw [if_neg hi] at h
      split at h
      · cases h
      · rename_i r' hr'
        cases h
        obtain ⟨a, b⟩ := ih r' hr'
        simp [a, b]

/-- Conversion stores an entry for exactly the columns that had one. -/
theorem convertSparse_keys (cols : List Nat) (sps : Dict String (List Rat)) (header : List String)
    (v : SparseVec Rat) (w : SparseVec Cell) (hv : v.vec.WF)
    (h : convertSparse cols sps header v = .ok w) : Dict.keys w.vec = Dict.keys v.vec := by
  unfold convertSparse at h
  split at h
  · cases h
  · rename_i r hr
    cases h
    obtain ⟨a, b⟩ := convertLoop_fst _ _ _ _ _ hr
    have hz : (r.1.zip r.2).map Prod.fst = Dict.keys v.vec := by
      rw [a]
      exact List.map_fst_zip (by rw [List.length_map, b])
    simp only [SparseVec.ofLists]
    rw [foldl_set_eq]
    · exact hz
    · simp only [Dict.keys_nil, List.nil_append]
      rw [hz]; exact hv

/-- **Training overwrites the caller's rows.**  For every table of distinct row objects and all
usual settings: after training, the object the caller passed for a sample holds, for every feature
that is not near zero, the number of its bin instead of the value, and nothing for the others.  So
a value is kept only if it happens to equal its bin number. -/
theorem C43_overwritten_refuted (cfg : Quantile.Config) (herr : 0 ≤ cfg.error)
    (hab : cfg.abnormal = []) (binNum : Nat) (hb : 1 ≤ binNum) (header : List String)
    (hn : header.Nodup) (h : Heap) (t : DTable K Nat) (rows : DTable K (List Rat)) (hd : Distinct t)
    (hh : Holds h t rows) (hne : t.data ≠ [])
    (hw : ∀ k row, rows.data.get? k = some row → row.length = header.length) :
    ∃ h' S sb, prepareRows cfg binNum header h t = .ok (h', S, sb) ∧ S.length = header.length ∧
      ∀ k r xs, t.data.get? k = some r → rows.data.get? k = some xs →
        h r = .dense xs ∧ ∃ v, h' r = .sparse v ∧
        ∀ (j : Nat) (x : Rat) (sp : List Rat), xs[j]? = some x → S[j]? = some sp →
          v.vec.get? j = if |x| < 1 / 10 ^ 6 then none else some (.bin (getBinNum x sp)) := by
  obtain ⟨table, S, sb, p1, _, p3, _, _, _, p7⟩ := C21_table cfg herr hab binNum hb header hn rows
    (holds_wf hd.1 hh) (holds_ne hh hne) hw
  obtain ⟨h', sps, q1, _, q3⟩ := prepareRows_ok cfg binNum header h t rows hd hh hne table S sb p1
  refine ⟨h', S, sb, q1, p3, fun k r xs hr hx => ?_⟩
  obtain ⟨xs', e1, e2⟩ := hh.2 k r hr
  rw [hx] at e1
  cases e1
  obtain ⟨v, v1, v2, v3⟩ := q3 k r xs hr hx
  refine ⟨e2, v, v1, fun j x sp hj hsp => ?_⟩
  obtain ⟨v', v1', _, v3'⟩ := p7 k xs hx
  rw [v2] at v1'
  cases v1'
  obtain ⟨zb, _, hz⟩ := v3' j x sp hj hsp
  have hkeys := convertSparse_keys _ _ _ _ _ (dataFormatTransform_wf xs).1 v3
  have hget := dataFormatTransform_get? xs j
  rw [hj] at hget
  have hf : Quantile.floatZero = 1 / 10 ^ 6 := rfl
  simp only [hf] at hget
  by_cases hxz : |x| < 1 / 10 ^ 6
  · rw [if_pos hxz] at hget ⊢
    rw [Dict.get?_eq_none_iff, hkeys, ← Dict.get?_eq_none_iff]
    exact hget
  · rw [if_neg hxz] at hget ⊢
    have hm : j ∈ Dict.keys v.vec := by
      rw [hkeys]; exact Dict.mem_keys_of_get? hget
    obtain ⟨c, hc⟩ := Dict.exists_get?_of_mem hm
    unfold SparseVec.getData at hz
    rw [hc] at hz
    have hs : snap x = x := by unfold snap; rw [if_neg hxz]
    rw [hs] at hz
    rw [hc]
    exact congrArg some hz

/-- **Rows not shared with the training table** are as the caller left them, and prediction reads
exactly what it reads from fresh rows.  (Missing: the training table itself.) -/
theorem C43_separate_partial (cfg : Quantile.Config) (herr : 0 ≤ cfg.error)
    (hab : cfg.abnormal = []) (binNum : Nat) (hb : 1 ≤ binNum) (header : List String)
    (hn : header.Nodup) (h : Heap) (t : DTable K Nat) (rows : DTable K (List Rat)) (hd : Distinct t)
    (hh : Holds h t rows) (hne : t.data ≠ [])
    (hw : ∀ k row, rows.data.get? k = some row → row.length = header.length)
    (u : DTable K Nat) (hu : u.WF) (hune : u.data ≠ []) (other : DTable K (List Rat))
    (ho : Holds h u other) (hdis : ∀ r ∈ u.data.values, r ∉ t.data.values) :
    ∃ h' S sb h'' fresh, prepareRows cfg binNum header h t = .ok (h', S, sb) ∧ Holds h' u other ∧
      predictionRows h' u = .ok (h'', fresh) ∧ DTree.alignRows other = .ok fresh := by
  obtain ⟨table, S, sb, p1, _⟩ := C21_table cfg herr hab binNum hb header hn rows
    (holds_wf hd.1 hh) (holds_ne hh hne) hw
  obtain ⟨h', sps, q1, q2, _⟩ := prepareRows_ok cfg binNum header h t rows hd hh hne table S sb p1
  have ho' : Holds h' u other := by
    refine ⟨ho.1, fun k r hr => ?_⟩
    obtain ⟨xs, e1, e2⟩ := ho.2 k r hr
    exact ⟨xs, e1, by rw [q2 r (hdis r (mem_values_of_get? hr)), e2]⟩
  have hne' : u.data.isEmpty = false := by
    cases ht : u.data with
    | nil => exact absurd ht hune
    | cons p l => rfl
  have hne'' : other.data.isEmpty = false := by
    cases ht : other.data with
    | nil => exact absurd ht (holds_ne ho hune)
    | cons p l => rfl
  refine ⟨h', S, sb, fun r => if r ∈ u.data.values then format (h' r) else h' r,
    ⟨other.data.map fun p => (p.1, dataFormatTransform p.2)⟩, q1, ho', ?_, ?_⟩
  · unfold predictionRows align
    simp only [hne', Bool.false_eq_true, if_false, foldl_formatRow, readTable_align hu ho']
  · unfold DTree.alignRows
    simp only [hne'', Bool.false_eq_true, if_false]
    exact DTable.mapValues_ok (holds_wf hu ho) _

/-- **Prediction keeps the values.**  It may turn the arrays of the caller's row objects into
sparse vectors; each feature then reads as before (up to values below 1e-6, which read as 0), and
predicting again changes nothing more.  Other objects are untouched. -/
theorem C43_prediction_partial (h : Heap) (t : DTable K Nat) (ht : t.WF) (rows : DTable K (List Rat))
    (hh : Holds h t rows) (hne : t.data ≠ []) :
    ∃ h' fresh, predictionRows h t = .ok (h', fresh) ∧ predictionRows h' t = .ok (h', fresh) ∧
      (∀ r ∉ t.data.values, h' r = h r) ∧
      ∀ k xs, rows.data.get? k = some xs → ∃ v, fresh.data.get? k = some v ∧
        ∀ (j : Nat) (x : Rat), xs[j]? = some x → v.getData j 0 = snap x := by
  have hne' : t.data.isEmpty = false := by
    cases ht : t.data with
    | nil => exact absurd ht hne
    | cons p l => rfl
  refine ⟨fun r => if r ∈ t.data.values then format (h r) else h r,
    ⟨rows.data.map fun p => (p.1, dataFormatTransform p.2)⟩, ?_, ?_, ?_, ?_⟩
  · unfold predictionRows align
    simp only [hne', Bool.false_eq_true, if_false, foldl_formatRow, readTable_align ht hh]
  · have e : (fun r => if r ∈ t.data.values then
          format (if r ∈ t.data.values then format (h r) else h r)
        else if r ∈ t.data.values then format (h r) else h r)
        = fun r => if r ∈ t.data.values then format (h r) else h r := by
      funext r
      by_cases hr : r ∈ t.data.values <;> simp [hr, format_format]
    unfold predictionRows align
    simp only [hne', Bool.false_eq_true, if_false, foldl_formatRow]
    rw [e, readTable_align ht hh]
  · intro r hr
    simp only [hr, if_false]
  · intro k xs hx
    refine ⟨dataFormatTransform xs, ?_, fun j x hj => ?_⟩
    · have := Dict.get?_map (fun _ r => dataFormatTransform r) rows.data k
      simp only [this, hx, Option.map_some]
    · unfold SparseVec.getData
      rw [dataFormatTransform_get?, hj]
      have hf : Quantile.floatZero = 1 / 10 ^ 6 := rfl
      simp only [hf]
      unfold snap
      by_cases hxz : |x| < 1 / 10 ^ 6
      · simp only [if_pos hxz]; rfl
      · simp only [if_neg hxz]; rfl

/-! ## Example: prediction on the training table -/

namespace DemoAlias

open DTree

/-- One row object per sample, and the table a caller builds from them. -/
def heap (rows : DTable Nat (List Rat)) : Heap := fun r => .dense ((rows.data.get? r).getD [])

def table (rows : DTable Nat (List Rat)) : DTable Nat Nat := ⟨rows.data.map fun p => (p.1, p.1)⟩

/-- What prediction reads from a party's training table, before and after training. -/
def before (rows : DTable Nat (List Rat)) : Except PyErr (DTable Nat (SparseVec Rat)) :=
  (predictionRows (heap rows) (table rows)).map Prod.snd

def after (header : List String) (rows : DTable Nat (List Rat)) :
    Except PyErr (DTable Nat (SparseVec Rat)) :=
  match prepareRows DemoRaw.qcfg 4 header (heap rows) (table rows) with
  | .error e => .error e
  | .ok (h, _, _) => (predictionRows h (table rows)).map Prod.snd

/-- Prediction with the trained tree on what was read. -/
def predict (g h1 h2 : Except PyErr (DTable Nat (SparseVec Rat))) : Except PyErr (DTable Nat Rat) := do
  let g ← g
  let h1 ← h1
  let h2 ← h2
  predictTree DemoRaw.fitted.tree DemoRaw.fitted.guestMask g
    (predHosts DemoRaw.setup.hosts DemoRaw.fitted.hostMasks [h1, h2]) 7

theorem demo_distinct : Distinct (table DemoRaw.guestRows) :=
  ⟨by unfold DTable.WF Dict.WF; decide, by decide⟩

end DemoAlias

/-- **Prediction on the training table goes wrong**: a run whose tree sends sample 0 to the leaf of
weight -20/21 in training and when predicting on unused rows, but to another one when predicting on
the table used for training. -/
theorem C43_prediction_refuted :
    DTree.fit DemoRaw.setup = .ok DemoRaw.fitted ∧
    ((DemoAlias.predict (DemoAlias.before DemoRaw.guestRows) (DemoAlias.before DemoRaw.hostRows1)
      (DemoAlias.before DemoRaw.hostRows2)).map fun T => T.data.get? 0)
        = .ok (DemoRaw.fitted.weights.bind fun w => w.data.get? 0) ∧
    ((DemoAlias.predict (DemoAlias.after ["a", "b"] DemoRaw.guestRows)
      (DemoAlias.after ["c"] DemoRaw.hostRows1) (DemoAlias.after ["d"] DemoRaw.hostRows2)).map
        fun T => T.data.get? 0)
        ≠ .ok (DemoRaw.fitted.weights.bind fun w => w.data.get? 0) := by
  refine ⟨DemoRaw.fit_ok, by decide +kernel, by decide +kernel⟩

/-- **What the trees read**: if no two samples share a row object, the trees find in the row objects, for
every sample, exactly what binning computes from the values: the overwriting does no harm to training. -/
theorem C43_trees_read (cfg : Quantile.Config) (herr : 0 ≤ cfg.error)
    (hab : cfg.abnormal = []) (binNum : Nat) (hb : 1 ≤ binNum) (header : List String)
    (hn : header.Nodup) (h : Heap) (t : DTable K Nat) (rows : DTable K (List Rat)) (hd : Distinct t)
    (hh : Holds h t rows) (hne : t.data ≠ [])
    (hw : ∀ k row, rows.data.get? k = some row → row.length = header.length) :
    ∃ h' table S sb, prepareRows cfg binNum header h t = .ok (h', S, sb) ∧
      prepare cfg binNum header rows = .ok (table, S, sb) ∧
      ∀ k r, t.data.get? k = some r → ∃ v, readCells h' r = .ok v ∧ table.data.get? k = some v := by
  obtain ⟨table, S, sb, p1, _⟩ := C21_table cfg herr hab binNum hb header hn rows
    (holds_wf hd.1 hh) (holds_ne hh hne) hw
  obtain ⟨h', sps, q1, _, q3⟩ := prepareRows_ok cfg binNum header h t rows hd hh hne table S sb p1
  refine ⟨h', table, S, sb, q1, p1, fun k r hr => ?_⟩
  obtain ⟨xs, e1, _⟩ := hh.2 k r hr
  obtain ⟨v, v1, v2, _⟩ := q3 k r xs hr e1
  exact ⟨v, by unfold readCells; rw [v1], v2⟩

/-- **An empty table is rejected** by training and by prediction, and no row object changes. -/
theorem C43_empty (cfg : Quantile.Config) (binNum : Nat) (header : List String) (h : Heap)
    (t : DTable K Nat) (ht : t.data = []) :
    prepareRows cfg binNum header h t = .error .valueError ∧
      predictionRows h t = .error .valueError := by
  simp [prepareRows, predictionRows, align, ht]

/-- **Shared row objects are binned twice**: when two samples share a row object, training does not
see the bins of its values. -/
theorem C43_shared_refuted :
    ∃ (h : Heap) (t : DTable Nat Nat) (rows : DTable Nat (List Rat)), Holds h t rows ∧ t.WF ∧
      (prepare DemoRaw.qcfg 4 ["a"] rows).map (fun p => p.1.data.get? 0) = .ok (some ⟨[(0, .bin 2)], 1⟩) ∧
      (prepareRows DemoRaw.qcfg 4 ["a"] h t).map (fun p => p.1 0) = .ok (.sparse ⟨[(0, .bin 0)], 1⟩) := by
  refine ⟨fun r => if r = 0 then .dense [20] else if r = 1 then .dense [10] else
    if r = 2 then .dense [5] else .dense [3], ⟨[(0, 0), (1, 0), (2, 1), (3, 2), (4, 3)]⟩,
    ⟨[(0, [20]), (1, [20]), (2, [10]), (3, [5]), (4, [3])]⟩, ⟨rfl, ?_⟩, by unfold DTable.WF Dict.WF; decide, ?_, ?_⟩
  · intro k r hr
    have := Dict.get?_mem hr
    simp at this
    rcases this with ⟨rfl, rfl⟩ | ⟨rfl, rfl⟩ | ⟨rfl, rfl⟩ | ⟨rfl, rfl⟩ | ⟨rfl, rfl⟩ <;> exact ⟨_, rfl, rfl⟩
  · decide +kernel
  · decide +kernel

/-- The hypotheses are met by the rows of the example. -/
example : Distinct (DemoAlias.table DemoRaw.guestRows) ∧
    Holds (DemoAlias.heap DemoRaw.guestRows) (DemoAlias.table DemoRaw.guestRows) DemoRaw.guestRows := by
  refine ⟨DemoAlias.demo_distinct, by decide +kernel, fun k r hr => ?_⟩
  have hm := Dict.get?_mem hr
  obtain ⟨p, hp, e⟩ := List.mem_map.mp hm
  simp only [Prod.mk.injEq] at e
  obtain ⟨rfl, rfl⟩ := e
  have hk : DemoRaw.guestRows.data.get? p.1 = some p.2 :=
    Dict.get?_of_mem (by unfold Dict.WF; decide) hp
  exact ⟨p.2, hk, by unfold DemoAlias.heap; rw [hk]; rfl⟩

end Verif
