import Verif.Props.C77

/-!
# C77, given split points and empty tables
-/

set_option autoImplicit false

namespace Verif

open Selected Binning Spec
open Quantile (Config QS)

/-- **Split points given to the conversion** are used for the rows and for the bins of zero; the split
points returned beside them are still those of the fit. -/
theorem C77_given {K : Type} [DecidableEq K] (cfg : Config) (herr : 0 ≤ cfg.error) (binNum : Nat)
    (hb : 1 ≤ binNum) (header : List String) (hn : header.Nodup) (sel : List Int) (hs : sel ≠ [])
    (hr : InRange sel header.length) (rows : DTable K (List Rat)) (hne : rows.data ≠ [])
    (hw : ∀ r ∈ rows.data.values, r.length = header.length) :
    ∃ o S, fit (Obj.new cfg binNum (some (sel.map some))) header (.dense rows) = .ok o ∧
      (∀ j < header.length, Picked sel header.length j → Quantile.splitPoints (Quantile.query
        (Quantile.denseOf cfg (Spec.column rows.data.values j))) binNum = .ok (S j)) ∧
      ∀ (header2 : List String) (rows2 : DTable K (List Rat)), rows2.WF → rows2.data ≠ [] →
        ∀ (given : Dict String (List Rat)) (G : Nat → List Rat),
        (∀ j name, header[j]? = some name → Picked sel header.length j → given.get? name = some (G j)) →
        ∀ t cols, ((t = .all ∧ cols = sel) ∨ (t = .list cols ∧ ∀ c ∈ cols, c ∈ sel)) →
        ∃ new zero, convert o header2 (.dense rows2) t (some given) = .ok (.converted (.dense new)
            (((List.range header.length).filter fun j => decide (Picked sel header.length j)).map S)
            zero, o) ∧
          new.data.keys = rows2.data.keys ∧
          (∀ k row, rows2.data.get? k = some row → ∃ cells, new.data.get? k = some cells ∧
            cells.length = row.length ∧ ∀ (j : Nat) (x : Rat), row[j]? = some x → cells[j]? =
              some (if (j : Int) ∈ cols then .bin (getBinNum x (G j)) else .raw x)) ∧
          (∀ j : Nat, (j : Int) ∈ cols → zero.get? (j : Int) = some (getBinNum 0 (G j))) := by
  obtain ⟨o, S, h1, h2, h3⟩ := fit_dense cfg binNum hb header hn sel hr rows hne hw (fun j _ => by
    obtain ⟨sps, h, _⟩ := C18_split_points_increasing cfg herr
      (rows.data.values.filterMap fun r => r[j]?) binNum hb
    exact ⟨sps, h⟩)
  refine ⟨o, S, h1, h3, ?_⟩
  intro header2 rows2 hwf2 hne2 given G hG t cols ht
  have hcm := Fitted.transformCols_mem ht
  obtain ⟨own, e1, e2⟩ := h2.splits
  have hlook : ∀ c : Nat, (c : Int) ∈ sel → lookupSplits header given c = .ok (G c) := by
    intro c hc
    have hlt : c < header.length := by have := (hr c hc).2; omega
    exact lookupSplits_ok header given c _ _ (List.getElem?_eq_getElem hlt)
      (hG c _ (List.getElem?_eq_getElem hlt) (.inl hc))
  obtain ⟨z, z1, z2⟩ := zeroBins_ok given header G cols [] (by
    intro c hm
    have hi := hr c (hcm c hm)
    exact ⟨_, nameAt_ok header c hi,
      hG _ _ (List.getElem?_eq_getElem (pos_lt hi)) (picked_of_mem hr (hcm c hm))⟩)
  obtain ⟨b, hb'⟩ := isSparse_ok (.dense rows2) hne2
  have hcr := convertRows_dense header G sel cols hcm rows2 hwf2 given hlook
  have htc := h2.cols t cols ht
  refine ⟨⟨rows2.data.map fun p => (p.1, (p.2.zipIdx 0).map fun q =>
    if q.2 ∈ colNumbers cols then Cell.bin (getBinNum q.1 (G q.2)) else Cell.raw q.1)⟩, z, ?_, ?_, ?_, ?_⟩
  · have hcw : convertWith o (.dense rows2) cols (some given) = .ok (.converted
        (.dense ⟨rows2.data.map fun p => (p.1, (p.2.zipIdx 0).map fun q =>
          if q.2 ∈ colNumbers cols then Cell.bin (getBinNum q.1 (G q.2)) else Cell.raw q.1)⟩)
        (((List.range header.length).filter fun j => decide (Picked sel header.length j)).map S) z) := by
      unfold convertWith
      simp only [e1, hb', h2.header_eq, hcr, z1, Fitted.array e2]
    unfold Selected.convert
    rw [h2.init hs]
    simp only
    cases t with
    | nothing => rcases ht with ⟨h, _⟩ | ⟨h, _⟩ <;> cases h
    | other => rcases ht with ⟨h, _⟩ | ⟨h, _⟩ <;> cases h
    | all => simp only [htc, hcw]
    | list c => simp only [htc, hcw]
  · exact Dict.keys_map (fun _ (r : List Rat) => (r.zipIdx 0).map fun (q : Rat × Nat) =>
      if q.2 ∈ colNumbers cols then Cell.bin (getBinNum q.1 (G q.2)) else Cell.raw q.1) rows2.data
  · intro k row hk
    refine ⟨(row.zipIdx 0).map fun (q : Rat × Nat) =>
      if q.2 ∈ colNumbers cols then Cell.bin (getBinNum q.1 (G q.2)) else Cell.raw q.1, ?_, ?_, ?_⟩
    · have := Dict.get?_map (fun _ (r : List Rat) => (r.zipIdx 0).map fun (q : Rat × Nat) =>
        if q.2 ∈ colNumbers cols then Cell.bin (getBinNum q.1 (G q.2)) else Cell.raw q.1) rows2.data k
      rw [hk] at this
      exact this
    · simp
    · intro j x hj
      simp [List.getElem?_map, List.getElem?_zipIdx, hj, mem_colNumbers]
  · intro j hj
    rw [z2, if_pos hj, pos_ofNat]

private theorem isSparse_empty {K : Type} [DecidableEq K] (rows : Rows K) (h : ¬ rows.nonempty) :
    isSparse rows = .error .attributeError := by
  cases rows with
  | dense t =>
    obtain ⟨d⟩ := t
    have : d = [] := by simpa [Rows.nonempty] using h
    subst this
    rfl
  | sparse t =>
    obtain ⟨d⟩ := t
    have : d = [] := by simpa [Rows.nonempty] using h
    subst this
    rfl

/-- **Empty tables and no bins.**  Fitting with zero bins is a `ZeroDivisionError` for every table; fitting
an empty table is an `AttributeError`, and so is converting one with a fitted object, whatever split points
are given. -/
theorem C77_empty {K L : Type} [DecidableEq K] [DecidableEq L] (cfg : Config) (binNum : Nat)
    (header : List String) (sel : List Int) (hs : sel ≠ []) (hr : InRange sel header.length) :
    (∀ rows : Rows K, fit (Obj.new cfg 0 (some (sel.map some))) header rows = .error .zeroDivision) ∧
    (∀ rows : Rows K, ¬ rows.nonempty → 1 ≤ binNum →
      fit (Obj.new cfg binNum (some (sel.map some))) header rows = .error .attributeError) ∧
    (∀ (rows : Rows K) o, fit (Obj.new cfg binNum (some (sel.map some))) header rows = .ok o →
      ∀ (header2 : List String) (rows2 : Rows L), ¬ rows2.nonempty →
      ∀ given, convert o header2 rows2 .all given = .error .attributeError) := by
  refine ⟨fun rows => ?_, fun rows he hb => ?_, fun rows o h header2 rows2 he given => ?_⟩
  · obtain ⟨cols, _, _, c3⟩ := initCols_sel cfg 0 header sel hr
    unfold fit
    rw [c3]
    rfl
  · obtain ⟨cols, _, _, c3⟩ := initCols_sel cfg binNum header sel hr
    unfold fit
    rw [c3]
    simp only [if_neg (show binNum ≠ 0 by omega), isSparse_empty rows he]
  · obtain ⟨cols, _, c2, c3⟩ := initCols_sel cfg binNum header sel hr
    have hk := colsDictOf_ne header sel cols hr c2 hs
    unfold fit at h
    rw [c3] at h
    simp only at h
    split at h
    · cases h
    split at h
    · cases h
    split at h
    · cases h
    split at h
    · cases h
    rename_i sps _
    cases h
    unfold Selected.convert initCols
    simp only [if_pos hk, transformCols, Option.getD_some, toInts_ok, convertWith]
    cases given <;> simp only [isSparse_empty rows2 he]

/-- Split points given for one column: `5` is in the bin of the given points, the points returned are
those of the fit. -/
example :
    (match fit (Obj.new ⟨10000, 10000, 1 / 1000, []⟩ 2 (some [some 0])) ["a", "b"]
        (.dense (⟨[(7, [1, 2]), (8, [4, 5])]⟩ : DTable Nat (List Rat))) with
      | .error _ => none
      | .ok o =>
        match convert o [] (.dense (⟨[(9, [5, 5])]⟩ : DTable Nat (List Rat))) .all (some [("a", [1, 2, 9])]) with
        | .ok (.converted (.dense t) S _, _) => some (t, S)
        | _ => none) =
    some (⟨[(9, [.bin 2, .raw 5])]⟩, [[4]]) := by decide +kernel

example : ¬ (Rows.dense (⟨[]⟩ : DTable Nat (List Rat))).nonempty ∧ InRange [0, -1] 2 := by
  refine ⟨fun h => h rfl, ?_⟩
  unfold InRange
  decide

end Verif
