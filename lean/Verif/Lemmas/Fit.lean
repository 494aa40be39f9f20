import Verif.Lemmas.Binning
import Verif.Lemmas.C18

set_option autoImplicit false
set_option linter.unusedSectionVars false

namespace Verif
namespace Binning

/-- The stored values of one column in a list of entries. -/
def colEntries (j : Nat) (l : List (Nat × Rat)) : List Rat :=
  (l.filter fun p => p.1 == j).map Prod.snd

/-- Name of column `j`. -/
theorem insertRow_ok (header : List String) (hn : header.Nodup) (l : List (Nat × Rat))
    (hl : ∀ p ∈ l, p.1 < header.length) (F : Nat → Quantile.Sparse) (d : Dict String Quantile.Sparse)
    (hk : Dict.keys d = header)
    (hd : ∀ j name, header[j]? = some name → Dict.get? d name = some (F j)) :
    ∃ d', insertRow header l d = .ok d' ∧ Dict.keys d' = header ∧
      ∀ j name, header[j]? = some name →
        Dict.get? d' name = some ((colEntries j l).foldl Quantile.Sparse.insert (F j)) := by
  induction l generalizing F d with
  | nil => exact ⟨d, rfl, hk, hd⟩
  | cons p l ih =>
    obtain ⟨i, x⟩ := p
    have hi : i < header.length := hl (i, x) (by simp)
    have hhi : header[i]? = some header[i] := List.getElem?_eq_getElem hi
    have hg := hd i _ hhi
    simp only [insertRow, hhi, hg]
    have hmem : header[i] ∈ Dict.keys d := by rw [hk]; exact List.getElem_mem hi
    obtain ⟨d', h1, h2, h3⟩ := ih (fun q hq => hl q (List.mem_cons_of_mem _ hq))
      (fun j => if j = i then (F i).insert x else F j) (Dict.set d header[i] ((F i).insert x))
      (by rw [Dict.keys_set, if_pos hmem, hk])
      (by
        intro j name hj
        rw [Dict.get?_set]
        by_cases hji : j = i
        · subst hji
          rw [hhi] at hj
          cases hj
          simp
        · have : header[i] ≠ name := by
            intro h
            have hj' : j < header.length := by
              by_contra hc
              rw [List.getElem?_eq_none (by omega)] at hj
              cases hj
            rw [List.getElem?_eq_getElem hj'] at hj
            have heq : header[i] = header[j] := by rw [h]; exact (Option.some.inj hj).symm
            exact hji ((List.Nodup.getElem_inj_iff hn).mp heq).symm
          rw [if_neg this, if_neg hji]
          exact hd j name hj)
    refine ⟨d', h1, h2, ?_⟩
    intro j name hj
    rw [h3 j name hj]
    by_cases hji : j = i
    · subst hji
      simp [colEntries]
    · have hij : (i == j) = false := by simp; exact fun h => hji h.symm
      simp [colEntries, hji, hij]

theorem insertRows_ok (header : List String) (hn : header.Nodup) (rows : List (SparseVec Rat))
    (hl : ∀ r ∈ rows, ∀ p ∈ r.vec, p.1 < header.length) (F : Nat → Quantile.Sparse)
    (d : Dict String Quantile.Sparse) (hk : Dict.keys d = header)
    (hd : ∀ j name, header[j]? = some name → Dict.get? d name = some (F j)) :
    ∃ d', insertRows header rows d = .ok d' ∧ Dict.keys d' = header ∧
      ∀ j name, header[j]? = some name →
        Dict.get? d' name =
          some ((rows.flatMap fun r => colEntries j r.vec).foldl Quantile.Sparse.insert (F j)) := by
  induction rows generalizing F d with
  | nil => exact ⟨d, rfl, hk, hd⟩
  | cons r rows ih =>
    obtain ⟨d1, a1, a2, a3⟩ := insertRow_ok header hn r.vec (hl r (by simp)) F d hk hd
    obtain ⟨d', b1, b2, b3⟩ := ih (fun q hq => hl q (List.mem_cons_of_mem _ hq)) _ d1 a2 a3
    refine ⟨d', ?_, b2, ?_⟩
    · simp only [insertRows, SparseVec.allData, a1]
      exact b1
    · intro j name hj
      rw [b3 j name hj, List.flatMap_cons, List.foldl_append]

theorem freshSummaries_ok (cfg : Quantile.Config) (header : List String) (hn : header.Nodup) :
    freshSummaries cfg header = header.map fun n => (n, Quantile.Sparse.new cfg) := by
  unfold freshSummaries
  suffices h : ∀ (l : List String) (d : Dict String Quantile.Sparse), (Dict.keys d ++ l).Nodup →
      l.foldl (fun d name => Dict.set d name (Quantile.Sparse.new cfg)) d =
        d ++ l.map fun n => (n, Quantile.Sparse.new cfg) by
    rw [h header [] (by simpa using hn)]
    rfl
  intro l
  induction l with
  | nil => intro d _; simp
  | cons a l ih =>
    intro d hd
    have ha : a ∉ Dict.keys d := by
      intro h
      rw [List.nodup_append] at hd
      exact hd.2.2 a h a (by simp) rfl
    rw [List.foldl_cons, Dict.set_of_not_mem d a _ ha, ih]
    · simp
    · simpa using hd

theorem allSplits_ok (binNum : Nat) (d : Dict String Quantile.Sparse) (hwf : d.WF)
    (h : ∀ name s, d.get? name = some s → ∃ sp, Quantile.splitPoints s.query binNum = .ok sp) :
    ∃ r, allSplits binNum d = .ok r ∧ Dict.keys r = Dict.keys d ∧
      ∀ name s, d.get? name = some s →
        ∃ sp, Dict.get? r name = some sp ∧ Quantile.splitPoints s.query binNum = .ok sp := by
  induction d with
  | nil => exact ⟨[], rfl, rfl, by simp⟩
  | cons p d ih =>
    obtain ⟨n0, s0⟩ := p
    have hwf' : (n0 ∉ Dict.keys d) ∧ Dict.WF d := by
      unfold Dict.WF at hwf ⊢
      simpa using hwf
    obtain ⟨sp0, h0⟩ := h n0 s0 (by simp [Dict.get?_cons])
    obtain ⟨r, r1, r2, r3⟩ := ih hwf'.2 (by
      intro name s hs
      apply h name s
      rw [Dict.get?_cons, if_neg]
      · exact hs
      · rintro rfl
        exact hwf'.1 (Dict.mem_keys_of_get? hs))
    refine ⟨(n0, sp0) :: r, by simp only [allSplits, h0, r1], by simp [r2], ?_⟩
    intro name s hs
    rw [Dict.get?_cons] at hs ⊢
    split at hs
    · cases hs
      exact ⟨sp0, by simp [*], h0⟩
    · rename_i hne
      rw [if_neg hne]
      exact r3 name s hs

/-- Column `j` of a table of sparse rows: its stored values in row order. -/
def column {K : Type} (j : Nat) (rows : DTable K (SparseVec Rat)) : List Rat :=
  rows.data.values.flatMap fun r => colEntries j r.vec

theorem fitSplitPoints_ok {K : Type} (cfg : Quantile.Config) (binNum : Nat) (header : List String)
    (rows : DTable K (SparseVec Rat)) (hn : header.Nodup)
    (hl : ∀ r ∈ rows.data.values, ∀ p ∈ r.vec, p.1 < header.length)
    (hsp : ∀ j < header.length,
      ∃ sp, Quantile.splitPoints (Quantile.sparseOf cfg (column j rows) rows.count).query binNum = .ok sp) :
    ∃ sps, fitSplitPoints cfg binNum header rows = .ok sps ∧ Dict.keys sps = header ∧
      ∀ j name, header[j]? = some name →
        ∃ sp, Dict.get? sps name = some sp ∧
          Quantile.splitPoints (Quantile.sparseOf cfg (column j rows) rows.count).query binNum = .ok sp := by
  unfold fitSplitPoints
  have hfk : Dict.keys (header.map fun n => (n, Quantile.Sparse.new cfg)) = header := by
    unfold Dict.keys
    rw [List.map_map]
    have : (Prod.fst ∘ fun n => (n, Quantile.Sparse.new cfg)) = (id : String → String) := rfl
    rw [this, List.map_id]
  obtain ⟨d, d1, d2, d3⟩ := insertRows_ok header hn rows.data.values hl (fun _ => Quantile.Sparse.new cfg)
    (header.map fun n => (n, Quantile.Sparse.new cfg)) hfk (by
      intro j name hj
      have hmem : name ∈ header := List.mem_of_getElem? hj
      have hw : Dict.WF (header.map fun n => (n, Quantile.Sparse.new cfg)) := by
        unfold Dict.WF; rw [hfk]; exact hn
      exact Dict.get?_of_mem hw (List.mem_map.mpr ⟨name, hmem, rfl⟩))
  rw [freshSummaries_ok cfg header hn, d1]
  simp only
  have hdw : Dict.WF d := by unfold Dict.WF; rw [d2]; exact hn
  set d' : Dict String Quantile.Sparse := d.map fun p => (p.1, p.2.compress.setTotal rows.count) with hd'
  have hk' : Dict.keys d' = header := by
    rw [hd', ← d2]
    exact Dict.keys_map (fun _ v => Quantile.Sparse.setTotal (Quantile.Sparse.compress v) rows.count) d
  have hg' : ∀ j name, header[j]? = some name →
      Dict.get? d' name = some (Quantile.sparseOf cfg (column j rows) rows.count) := by
    intro j name hj
    have := Dict.get?_map (fun _ v => Quantile.Sparse.setTotal (Quantile.Sparse.compress v) rows.count) d name
    rw [hd', this, d3 j name hj]
    rfl
  have hw' : Dict.WF d' := by unfold Dict.WF; rw [hk']; exact hn
  obtain ⟨r, r1, r2, r3⟩ := allSplits_ok binNum d' hw' (by
    intro name s hs
    have hmem := Dict.mem_keys_of_get? hs
    rw [hk'] at hmem
    obtain ⟨j, hj, hjn⟩ := List.getElem_of_mem hmem
    have hj' : header[j]? = some name := by rw [List.getElem?_eq_getElem hj, hjn]
    rw [hg' j name hj'] at hs
    cases hs
    exact hsp j hj)
  refine ⟨r, r1, by rw [r2, hk'], ?_⟩
  intro j name hj
  exact r3 name _ (hg' j name hj)

end Binning
end Verif
