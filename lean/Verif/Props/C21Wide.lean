import Verif.Props.C21

/-!
# C21, errors: rows with more values than the header has names
-/

set_option autoImplicit false

namespace Verif
open Binning

private theorem insertRow_wide (header : List String) : ∀ (es : List (Nat × Rat)) (d : Dict String Quantile.Sparse),
    (∀ n ∈ header, d.get? n ≠ none) →
    ((∃ p ∈ es, header.length ≤ p.1) → insertRow header es d = .error .indexError) ∧
    ((¬ ∃ p ∈ es, header.length ≤ p.1) → ∃ d', insertRow header es d = .ok d' ∧ ∀ n ∈ header, d'.get? n ≠ none)
  | [], d, hd => ⟨fun h => by simp at h, fun _ => ⟨d, rfl, hd⟩⟩
  | (i, x) :: es, d, hd => by
    simp only [insertRow]
    by_cases hi : header.length ≤ i
    · rw [List.getElem?_eq_none hi]
      exact ⟨fun _ => rfl, fun h => absurd ⟨(i, x), List.mem_cons_self .., hi⟩ h⟩
    · have hlt : i < header.length := by omega
      rw [List.getElem?_eq_getElem hlt]
      simp only
      cases hg : d.get? header[i] with
      | none => exact absurd hg (hd _ (List.getElem_mem hlt))
      | some s =>
        simp only
        have ih := insertRow_wide header es (d.set header[i] (s.insert x)) fun n hn => by
          rw [Dict.get?_set]
          split
          · simp
          · exact hd n hn
        refine ⟨fun h => ih.1 ?_, fun h => ih.2 ?_⟩
        · obtain ⟨p, hp, hl⟩ := h
          rcases List.mem_cons.mp hp with rfl | hp
          · exact absurd hl hi
          · exact ⟨p, hp, hl⟩
        · rintro ⟨p, hp, hl⟩
          exact h ⟨p, List.mem_cons_of_mem _ hp, hl⟩

private theorem insertRows_wide (header : List String) : ∀ (rs : List (SparseVec Rat)) (d : Dict String Quantile.Sparse),
    (∀ n ∈ header, d.get? n ≠ none) → (∃ r ∈ rs, ∃ p ∈ r.vec, header.length ≤ p.1) →
    insertRows header rs d = .error .indexError
  | [], _, _, h => by simp at h
  | r :: rs, d, hd, h => by
    simp only [insertRows, SparseVec.allData]
    obtain ⟨h1, h2⟩ := insertRow_wide header r.vec d hd
    by_cases hr : ∃ p ∈ r.vec, header.length ≤ p.1
    · rw [h1 hr]
    · obtain ⟨d', e, hd'⟩ := h2 hr
      rw [e]
      refine insertRows_wide header rs d' hd' ?_
      obtain ⟨r', hr', hp⟩ := h
      rcases List.mem_cons.mp hr' with rfl | hr'
      · exact absurd hp hr
      · exact ⟨r', hr', hp⟩

private theorem fresh_has (cfg : Quantile.Config) (header : List String) : ∀ n ∈ header, (freshSummaries cfg header).get? n ≠ none := by
  unfold freshSummaries
  suffices h : ∀ (l : List String) (d : Dict String Quantile.Sparse) (n : String), n ∈ l ∨ d.get? n ≠ none →
      (l.foldl (fun d name => Dict.set d name (Quantile.Sparse.new cfg)) d).get? n ≠ none from
    fun n hn => h header [] n (.inl hn)
  intro l
  induction l with
  | nil => intro d n h; simpa using h
  | cons a l ih =>
    intro d n h
    simp only [List.foldl_cons]
    apply ih
    by_cases hn : n ∈ l
    · exact .inl hn
    · right
      rw [Dict.get?_set]
      split
      · simp
      · rename_i hne
        rcases h with h | h
        · rcases List.mem_cons.mp h with rfl | h
          · exact absurd rfl hne
          · exact absurd h hn
        · exact h

/-- **Rows that are too long**: if some row has a value of at least 1e-6 beyond the names of the header,
preparation raises `IndexError`. -/
theorem C21_wide_row {K : Type} [DecidableEq K] (cfg : Quantile.Config) (binNum : Nat) (header : List String)
    (rows : DTable K (List Rat)) (hwf : rows.WF) (k : K) (row : List Rat) (hr : rows.data.get? k = some row)
    (j : Nat) (x : Rat) (hj : header.length ≤ j) (hx : row[j]? = some x) (hb : 1 / 10 ^ 6 ≤ |x|) :
    prepare cfg binNum header rows = .error .indexError := by
  unfold prepare
  rw [DTable.mapValues_ok hwf]
  simp only
  unfold fitSplitPoints
  rw [insertRows_wide header _ _ (fresh_has cfg header)]
  refine ⟨dataFormatTransform row, ?_, (j, x), ?_, hj⟩
  · unfold Dict.values
    rw [List.map_map]
    exact List.mem_map.mpr ⟨(k, row), (Dict.get?_eq_some_iff hwf _ _).mp hr, rfl⟩
  · apply (Dict.get?_eq_some_iff (dataFormatTransform_wf row).1 _ _).mp
    rw [dataFormatTransform_get?, hx]
    exact if_neg (not_lt.mpr hb)

/-- **Columns that do not exist**: asking for the bin of zero of a column beyond the header, after columns
that have split points, raises `IndexError`. -/
theorem C21_no_such_column (header : List String) (sps : Dict String (List Rat)) (before after : List Nat) (c : Nat)
    (hb : ∀ i ∈ before, ∃ name s, header[i]? = some name ∧ sps.get? name = some s) (hc : header.length ≤ c) :
    getSparseBin (before ++ c :: after) sps header = .error .indexError := by
  unfold getSparseBin
  generalize ([] : Dict Nat Nat) = acc
  induction before generalizing acc with
  | nil =>
    simp only [List.nil_append, sparseBinLoop, lookupSplits]
    rw [List.getElem?_eq_none hc]
  | cons i is ih =>
    obtain ⟨name, s, h1, h2⟩ := hb i (List.mem_cons_self ..)
    simp only [List.cons_append, sparseBinLoop, lookupSplits]
    rw [h1]
    simp only
    rw [h2]
    exact ih (fun i hi => hb i (List.mem_cons_of_mem _ hi)) _

/-- The hypotheses are met by a table with a row of two values and one name. -/
example : ∃ (rows : DTable Nat (List Rat)) (row : List Rat), rows.WF ∧ rows.data.get? 0 = some row ∧ row[1]? = some 2 ∧
    prepare ⟨10000, 10000, 1 / 1000, []⟩ 4 ["x"] rows = .error .indexError :=
  ⟨⟨[(0, [1, 2])]⟩, [1, 2], by unfold DTable.WF Dict.WF; decide, by decide, by decide, by decide +kernel⟩

example : getSparseBin [0, 1] [("x", [3])] ["x"] = .error .indexError :=
  C21_no_such_column ["x"] [("x", [3])] [0] [] 1 (by simp [Dict.get?]) (by decide)

end Verif
