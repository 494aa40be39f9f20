import Verif.Lemmas.DTable

/-!
# C01 – a table built from records holds exactly those records
-/

set_option autoImplicit false

namespace Verif
variable {K V : Type*} [DecidableEq K]

/-- `DTable(True, pairs)` succeeds exactly when no key is repeated. -/
theorem C01_build_iff (ps : List (K × V)) :
    (∃ t, DTable.ofPairs ps = .ok t) ↔ (ps.map Prod.fst).Nodup := by
  rw [DTable.ofPairs_eq]
  by_cases h : (ps.map Prod.fst).Nodup
  · simp [h]
  · simp [h]

example : ((([(1, 'a'), (2, 'b'), (3, 'a')] : List (Nat × Char)).map Prod.fst).Nodup) := by decide

/-- A repeated key is reported as `ValueError`, whatever the rest of the list. -/
theorem C01_duplicate_rejected (ps : List (K × V)) (h : ¬ (ps.map Prod.fst).Nodup) :
    DTable.ofPairs ps = .error .valueError := by
  rw [DTable.ofPairs_eq, if_neg h]

example : ¬ ((([(1, 'a'), (2, 'b'), (1, 'c')] : List (Nat × Char)).map Prod.fst).Nodup) := by decide

/-- When building succeeds, collecting, counting, taking and reading the first
record give back the supplied pairs in the supplied order. -/
theorem C01_contents (ps : List (K × V)) (t : DTable K V) (h : DTable.ofPairs ps = .ok t) :
    t.collect = ps ∧ t.count = ps.length ∧ (∀ n : Int, t.take n = ps.take n.toNat) ∧
      t.first = ps.head?.map Prod.snd ∧ t.WF := by
  have hnd : (ps.map Prod.fst).Nodup := (C01_build_iff ps).mp ⟨t, h⟩
  rw [DTable.ofPairs_ok hnd] at h
  cases h
  refine ⟨rfl, rfl, ?_, ?_, hnd⟩
  · intro n
    unfold DTable.take
    rw [DTable.takeLoop_eq ps n 0 ps [] [] rfl hnd]
    simp
  · cases ps with
    | nil => rfl
    | cons p ps => obtain ⟨k, v⟩ := p; simp [DTable.first, Dict.get?_cons]

example : DTable.ofPairs [(5, 'x'), (3, 'y')] = .ok ⟨[(5, 'x'), (3, 'y')]⟩ := by decide

/-- A list element that is not a 2-tuple makes the constructor raise, wherever it is. -/
theorem C01_non_pair_rejected (items : List (Item K V)) (h : Item.other ∈ items) :
    ∃ e, DTable.ofItems (.list items) = .error e ∧ (e = .typeError ∨ e = .valueError) := by
  unfold DTable.ofItems
  suffices ∀ acc : Dict K V, ∃ e, DTable.ctorLoop acc items = .error e ∧
      (e = .typeError ∨ e = .valueError) by
    obtain ⟨e, he, h'⟩ := this []
    exact ⟨e, by simp only [he]; rfl, h'⟩
  intro acc
  induction items generalizing acc with
  | nil => simp at h
  | cons it items ih =>
    cases it with
    | other => exact ⟨.typeError, rfl, Or.inl rfl⟩
    | pair k v =>
      have hm : Item.other ∈ items := by simpa using h
      simp only [DTable.ctorLoop]
      split
      · exact ⟨.valueError, rfl, Or.inr rfl⟩
      · exact ih hm _

example : Item.other ∈ ([.pair 1 'a', .other] : List (Item Nat Char)) := by decide

/-- `DTable(False, values)` always succeeds on a list and numbers the values
`0, 1, …, n-1` in order. -/
theorem C01_values (vs : List V) :
    ∃ t, DTable.ofValues (.list vs) = .ok t ∧ t.count = vs.length ∧ t.WF ∧
      t.data.keys = List.range vs.length ∧ t.data.values = vs ∧
      ∀ i : Nat, t.data.get? i = vs[i]? := by
  have he : DTable.enumLoop 0 [] vs = (vs.zipIdx 0).map (fun p => (p.2, p.1)) := by
    simpa using DTable.enumLoop_eq (V := V) 0 [] vs (by simp)
  have hk : Dict.keys ((vs.zipIdx 0).map (fun p => (p.2, p.1))) = List.range vs.length := by
    unfold Dict.keys
    rw [List.map_map]
    rw [List.range_eq_range']; exact List.zipIdx_map_snd 0 vs
  have hwf : Dict.WF ((vs.zipIdx 0).map (fun p => (p.2, p.1))) := by
    unfold Dict.WF; rw [hk]; exact List.nodup_range
  refine ⟨⟨DTable.enumLoop 0 [] vs⟩, rfl, ?_, ?_, ?_, ?_, ?_⟩
  · simp [DTable.count, he]
  · unfold DTable.WF; rw [he]; exact hwf
  · rw [he]; exact hk
  · simp only [he, Dict.values, List.map_map]
    exact List.zipIdx_map_fst 0 vs
  · intro i
    simp only [he]
    cases hv : vs[i]? with
    | none =>
      rw [Dict.get?_eq_none_iff, hk]
      simp at hv ⊢; exact hv
    | some v =>
      rw [Dict.get?_eq_some_iff hwf]
      refine List.mem_map.mpr ⟨(v, i), ?_, rfl⟩
      exact List.mk_mem_zipIdx_iff_getElem?.mpr hv

example : DTable.ofValues (.list ['p', 'q']) = .ok ⟨[(0, 'p'), (1, 'q')]⟩ := by rfl

/-- Anything that is not a list is rejected with `TypeError` by both forms. -/
theorem C01_not_list_rejected :
    DTable.ofItems (K := K) (V := V) .notList = .error .typeError ∧
    DTable.ofValues (V := V) .notList = .error .typeError := ⟨rfl, rfl⟩

end Verif
