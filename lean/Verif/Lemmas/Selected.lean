import Verif.Model.Selected
import Verif.Lemmas.Fit
import Verif.Lemmas.DTableM
import Verif.Spec.C77

set_option autoImplicit false
set_option linter.unusedSectionVars false

namespace Verif
namespace Selected

open Binning Spec
open Quantile (Config QS)

/-! ### Selection of columns -/

/-- The position a Python index stands for. -/
def pos (n : Nat) (i : Int) : Nat := (if i < 0 then i + n else i).toNat

theorem pos_lt {n : Nat} {i : Int} (h : -(n : Int) ≤ i ∧ i < n) : pos n i < n := by
  unfold pos; split <;> omega

theorem pos_ofNat (n j : Nat) : pos n (j : Int) = j := by
  unfold pos; split <;> omega

theorem nameAt_ok (header : List String) (i : Int)
    (h : -(header.length : Int) ≤ i ∧ i < header.length) :
    nameAt header i = .ok (header[pos header.length i]'(pos_lt h)) := by
  have hp := pos_lt h
  unfold nameAt
  simp only
  rw [if_neg (by split <;> omega)]
  have : header[(if i < 0 then i + (header.length : Int) else i).toNat]? =
      some (header[pos header.length i]) := List.getElem?_eq_getElem hp
  rw [this]

theorem selectLoop_ok (header : List String) (sel : List Int) (h : InRange sel header.length) :
    ∃ cols, selectLoop header (sel.map some) = .ok cols ∧
      ∀ name, name ∈ cols ↔ ∃ i ∈ sel, header[pos header.length i]? = some name := by
  induction sel with
  | nil => exact ⟨[], rfl, by simp⟩
  | cons i sel ih =>
    have hi := h i (by simp)
    obtain ⟨cols, c1, c2⟩ := ih (fun k hk => h k (List.mem_cons_of_mem _ hk))
    refine ⟨header[pos header.length i]'(pos_lt hi) :: cols, ?_, ?_⟩
    · simp only [List.map_cons, selectLoop, nameAt_ok header i hi, c1]
      rw [if_neg (by omega)]
    · intro name
      simp only [List.mem_cons, c2, exists_eq_or_imp, List.getElem?_eq_getElem (pos_lt hi),
        Option.some.injEq]
      constructor <;> rintro (h | h)
      · exact .inl h.symm
      · exact .inr h
      · exact .inl h.symm
      · exact .inr h

/-- Out-of-range and unreadable indices. -/
theorem selectLoop_bad (header : List String) (good : List Int) (bad : Option Int)
    (rest : List (Option Int)) (hg : InRange good header.length) :
    (bad = none ∨ (∃ i : Int, bad = some i ∧ (header.length : Int) ≤ i) →
      selectLoop header (good.map some ++ bad :: rest) = .error .valueError) ∧
    ((∃ i : Int, bad = some i ∧ i < -(header.length : Int)) →
      selectLoop header (good.map some ++ bad :: rest) = .error .indexError) := by
  induction good with
  | nil =>
    refine ⟨?_, ?_⟩
    · rintro (rfl | ⟨i, rfl, hi⟩)
      · rfl
      · simp [selectLoop, hi]
    · rintro ⟨i, rfl, hi⟩
      have h1 : ¬ (header.length : Int) ≤ i := by omega
      have h2 : i < 0 := by omega
      have h3 : i + (header.length : Int) < 0 := by omega
      simp [selectLoop, nameAt, h1, h2, h3]
  | cons i good ih =>
    have hi := hg i (by simp)
    have ih := ih (fun k hk => hg k (List.mem_cons_of_mem _ hk))
    have h1 : ¬ (header.length : Int) ≤ i := by omega
    refine ⟨fun h => ?_, fun h => ?_⟩
    · simp only [List.map_cons, List.cons_append, selectLoop, nameAt_ok header i hi, ih.1 h, if_neg h1]
    · simp only [List.map_cons, List.cons_append, selectLoop, nameAt_ok header i hi, ih.2 h, if_neg h1]

theorem colsDictOf_ok (header cols : List String) :
    (colsDictOf header cols).WF ∧
    ∀ name, Dict.get? (colsDictOf header cols) name =
      if name ∈ cols then some (header.idxOf name) else none := by
  unfold colsDictOf
  suffices h : ∀ (cols : List String) (d : Dict String Nat), d.WF →
      (∀ name i, d.get? name = some i → i = header.idxOf name) →
      (cols.foldl (fun d col => Dict.set d col (header.idxOf col)) d).WF ∧
      ∀ name, Dict.get? (cols.foldl (fun d col => Dict.set d col (header.idxOf col)) d) name =
        if name ∈ cols then some (header.idxOf name) else d.get? name from
    h cols [] (by simp [Dict.WF]) (by simp)
  intro cols
  induction cols with
  | nil => intro d hd _; exact ⟨hd, by simp⟩
  | cons c cols ih =>
    intro d hd hi
    obtain ⟨a, b⟩ := ih (Dict.set d c (header.idxOf c)) (hd.set _ _) (by
      intro name i h
      rw [Dict.get?_set] at h
      split at h
      · subst_vars; exact (Option.some.inj h).symm
      · exact hi name i h)
    refine ⟨a, fun name => ?_⟩
    rw [List.foldl_cons, b, Dict.get?_set]
    by_cases h1 : name ∈ cols
    · simp [h1]
    · by_cases h2 : c = name
      · simp [h2]
      · have : ¬ name = c := fun e => h2 e.symm
        simp [h1, h2, this]

/-- The columns known after initialisation: the picked ones, under their names. -/
theorem colsDict_picked (header : List String) (hn : header.Nodup) (sel : List Int)
    (cols : List String) (hr : InRange sel header.length)
    (hc : ∀ name, name ∈ cols ↔ ∃ i ∈ sel, header[pos header.length i]? = some name)
    (j : Nat) (name : String) (hj : header[j]? = some name) :
    Dict.get? (colsDictOf header cols) name = if Picked sel header.length j then some j else none := by
  rw [(colsDictOf_ok header cols).2]
  have hjl : j < header.length := (List.getElem?_eq_some_iff.mp hj).1
  have hidx : header.idxOf name = j := by
    have : header[j] = name := by
      rw [List.getElem?_eq_getElem hjl] at hj; exact Option.some.inj hj
    rw [← this]
    exact List.Nodup.idxOf_getElem hn j hjl
  have hiff : name ∈ cols ↔ Picked sel header.length j := by
    rw [hc]
    unfold Picked
    constructor
    · rintro ⟨i, hi, hp⟩
      have hrange := hr i hi
      have hlt := pos_lt hrange
      have : pos header.length i = j := by
        rw [← hidx]
        rw [List.getElem?_eq_getElem hlt] at hp
        rw [← Option.some.inj hp]
        exact (List.Nodup.idxOf_getElem hn _ hlt).symm
      unfold pos at this
      split at this
      · right
        have : (j : Int) - header.length = i := by omega
        rwa [this]
      · left
        have : (j : Int) = i := by omega
        rwa [this]
    · rintro (h | h)
      · exact ⟨j, h, by rw [pos_ofNat]; exact hj⟩
      · refine ⟨_, h, ?_⟩
        have : pos header.length ((j : Int) - header.length) = j := by
          unfold pos; split <;> omega
        rw [this]; exact hj
  by_cases h : Picked sel header.length j
  · rw [if_pos h, if_pos (hiff.mpr h), hidx]
  · rw [if_neg h, if_neg (fun x => h (hiff.mp x))]

/-- Every known column is a column of the header. -/
theorem colsDict_names (header : List String) (sel : List Int) (cols : List String)
    (hc : ∀ name, name ∈ cols ↔ ∃ i ∈ sel, header[pos header.length i]? = some name)
    (name : String) (h : name ∈ Dict.keys (colsDictOf header cols)) :
    ∃ j : Nat, header[j]? = some name := by
  by_contra hcon
  have : name ∉ cols := by
    intro hm
    obtain ⟨i, _, hi⟩ := (hc name).mp hm
    exact hcon ⟨_, hi⟩
  have hg := (colsDictOf_ok header cols).2 name
  rw [if_neg this] at hg
  exact (Dict.get?_eq_none_iff _ _).mp hg h

/-! ### Summaries of dense rows -/

theorem foldl_set_const {V : Type} (names : List String) (hn : names.Nodup) (v : V) :
    names.foldl (fun d name => Dict.set d name v) [] = names.map fun n => (n, v) := by
  suffices h : ∀ (l : List String) (d : Dict String V), (Dict.keys d ++ l).Nodup →
      l.foldl (fun d name => Dict.set d name v) d = d ++ l.map fun n => (n, v) by
    rw [h names [] (by simpa using hn)]
    rfl
  intro l
  induction l with
  | nil => intro d _; simp
  | cons a l ih =>
    intro d hd
    have ha : a ∉ Dict.keys d := by
      intro h
      rw [List.nodup_append] at hd
      exact hd.2.2 a h a (by simp) rfl
    rw [List.foldl_cons, Dict.set_of_not_mem d a _ ha, ih]
    · simp
    · simpa using hd

theorem insertDenseRow_ok (colsDict : Dict String Nat) (idx : String → Nat) (features : List Rat)
    (d : Dict String QS)
    (h : ∀ name ∈ Dict.keys d, colsDict.get? name = some (idx name) ∧ idx name < features.length) :
    insertDenseRow colsDict features d =
      .ok (d.map fun p => (p.1, Quantile.insert p.2 (features.getD (idx p.1) 0))) := by
  induction d with
  | nil => rfl
  | cons p d ih =>
    obtain ⟨name, q⟩ := p
    obtain ⟨h1, h2⟩ := h name (by simp)
    have ih := ih (fun n hn => h n (by simp only [Dict.keys_cons, List.mem_cons]; exact .inr hn))
    simp only [insertDenseRow, h1, List.getElem?_eq_getElem h2, ih, List.map_cons]
    simp [h2]

theorem insertDenseRows_ok (colsDict : Dict String Nat) (idx : String → Nat) (rows : List (List Rat))
    (d : Dict String QS)
    (h : ∀ name ∈ Dict.keys d, colsDict.get? name = some (idx name) ∧
      ∀ r ∈ rows, idx name < r.length) :
    insertDenseRows colsDict rows d =
      .ok (d.map fun p => (p.1, Quantile.insertAll p.2 (rows.filterMap fun r => r[idx p.1]?))) := by
  induction rows generalizing d with
  | nil => simp [insertDenseRows, Quantile.insertAll]
  | cons r rows ih =>
    have h0 := insertDenseRow_ok colsDict idx r d (fun n hn => ⟨(h n hn).1, (h n hn).2 r (by simp)⟩)
    simp only [insertDenseRows, h0]
    rw [ih]
    · rw [List.map_map]
      congr 1
      apply List.map_congr_left
      intro p hp
      have hlt := (h p.1 (List.mem_map.mpr ⟨p, hp, rfl⟩)).2 r (by simp)
      simp [Function.comp, Quantile.insertAll, hlt]
    · intro name hname
      have hk : name ∈ Dict.keys d := by
        rwa [Dict.keys_map (fun n q => Quantile.insert q (r.getD (idx n) 0)) d] at hname
      exact ⟨(h name hk).1, fun r' hr' => (h name hk).2 r' (List.mem_cons_of_mem _ hr')⟩

theorem allSplitsDense_ok (binNum : Nat) (d : Dict String QS) (hwf : d.WF)
    (h : ∀ name s, d.get? name = some s → ∃ sp, Quantile.splitPoints (Quantile.query s) binNum = .ok sp) :
    ∃ r, allSplitsDense binNum d = .ok r ∧ Dict.keys r = Dict.keys d ∧
      ∀ name s, d.get? name = some s →
        ∃ sp, Dict.get? r name = some sp ∧ Quantile.splitPoints (Quantile.query s) binNum = .ok sp := by
  induction d with
  | nil => exact ⟨[], rfl, rfl, by simp⟩
  | cons p d ih =>
    obtain ⟨n0, s0⟩ := p
    have hwf' : (n0 ∉ Dict.keys d) ∧ Dict.WF d := by
      unfold Dict.WF at hwf ⊢
      simpa using hwf
    obtain ⟨sp0, h0⟩ := h n0 s0 (by simp [Dict.get?_cons])
    obtain ⟨r, r1, r2, r3⟩ := ih hwf'.2 (by
      intro name s hs
      apply h name s
      rw [Dict.get?_cons, if_neg]
      · exact hs
      · rintro rfl
        exact hwf'.1 (Dict.mem_keys_of_get? hs))
    refine ⟨(n0, sp0) :: r, by simp only [allSplitsDense, h0, r1], by simp [r2], ?_⟩
    intro name s hs
    rw [Dict.get?_cons] at hs ⊢
    split at hs
    · cases hs
      exact ⟨sp0, by simp [*], h0⟩
    · rename_i hne
      rw [if_neg hne]
      exact r3 name s hs

/-! ### Summaries of sparse rows -/

theorem insertRow_sel (header : List String) (hn : header.Nodup) (l : List (Nat × Rat))
    (F : Nat → Quantile.Sparse) (d : Dict String Quantile.Sparse)
    (hl : ∀ p ∈ l, ∃ name, header[p.1]? = some name ∧ name ∈ Dict.keys d)
    (hd : ∀ j name, header[j]? = some name → name ∈ Dict.keys d → Dict.get? d name = some (F j)) :
    ∃ d', insertRow header l d = .ok d' ∧ Dict.keys d' = Dict.keys d ∧
      ∀ j name, header[j]? = some name → name ∈ Dict.keys d →
        Dict.get? d' name = some ((colEntries j l).foldl Quantile.Sparse.insert (F j)) := by
  induction l generalizing F d with
  | nil => exact ⟨d, rfl, rfl, hd⟩
  | cons p l ih =>
    obtain ⟨i, x⟩ := p
    obtain ⟨ni, hhi, hmem⟩ := hl (i, x) (by simp)
    simp only at hhi
    have hg := hd i _ hhi hmem
    simp only [insertRow, hhi, hg]
    have hks : Dict.keys (Dict.set d ni ((F i).insert x)) = Dict.keys d := by
      rw [Dict.keys_set, if_pos hmem]
    obtain ⟨d', h1, h2, h3⟩ := ih (fun j => if j = i then (F i).insert x else F j)
      (Dict.set d ni ((F i).insert x))
      (fun q hq => by rw [hks]; exact hl q (List.mem_cons_of_mem _ hq))
      (by
        intro j name hj hm
        rw [hks] at hm
        rw [Dict.get?_set]
        by_cases hji : j = i
        · subst hji
          rw [hhi] at hj
          cases hj
          simp
        · have : ni ≠ name := by
            intro h
            subst h
            obtain ⟨hj', hj⟩ := List.getElem?_eq_some_iff.mp hj
            obtain ⟨hi', hi⟩ := List.getElem?_eq_some_iff.mp hhi
            exact hji ((List.Nodup.getElem_inj_iff hn).mp (hj.trans hi.symm))
          rw [if_neg this, if_neg hji]
          exact hd j name hj hm)
    refine ⟨d', h1, by rw [h2, hks], ?_⟩
    intro j name hj hm
    rw [h3 j name hj (by rw [hks]; exact hm)]
    by_cases hji : j = i
    · subst hji
      simp [colEntries]
    · have hij : (i == j) = false := by simp; exact fun h => hji h.symm
      simp [colEntries, hji, hij]

theorem insertRows_sel (header : List String) (hn : header.Nodup) (rows : List (SparseVec Rat))
    (F : Nat → Quantile.Sparse) (d : Dict String Quantile.Sparse)
    (hl : ∀ r ∈ rows, ∀ p ∈ r.vec, ∃ name, header[p.1]? = some name ∧ name ∈ Dict.keys d)
    (hd : ∀ j name, header[j]? = some name → name ∈ Dict.keys d → Dict.get? d name = some (F j)) :
    ∃ d', insertRows header rows d = .ok d' ∧ Dict.keys d' = Dict.keys d ∧
      ∀ j name, header[j]? = some name → name ∈ Dict.keys d →
        Dict.get? d' name =
          some ((rows.flatMap fun r => colEntries j r.vec).foldl Quantile.Sparse.insert (F j)) := by
  induction rows generalizing F d with
  | nil => exact ⟨d, rfl, rfl, hd⟩
  | cons r rows ih =>
    obtain ⟨d1, a1, a2, a3⟩ := insertRow_sel header hn r.vec F d (hl r (by simp)) hd
    obtain ⟨d', b1, b2, b3⟩ := ih _ d1
      (fun q hq => by rw [a2]; exact hl q (List.mem_cons_of_mem _ hq))
      (fun j name hj hm => a3 j name hj (by rwa [a2] at hm))
    refine ⟨d', ?_, by rw [b2, a2], ?_⟩
    · simp only [insertRows, SparseVec.allData, a1]
      exact b1
    · intro j name hj hm
      rw [b3 j name hj (by rw [a2]; exact hm), List.flatMap_cons, List.foldl_append]

theorem insertRow_fails (header : List String) (l : List (Nat × Rat))
    (d : Dict String Quantile.Sparse) (hl : ∀ p ∈ l, p.1 < header.length)
    (hbad : ∃ p ∈ l, ∃ name, header[p.1]? = some name ∧ name ∉ Dict.keys d) :
    insertRow header l d = .error .keyError := by
  induction l generalizing d with
  | nil => obtain ⟨p, hp, _⟩ := hbad; cases hp
  | cons p l ih =>
    obtain ⟨i, x⟩ := p
    have hi : i < header.length := hl (i, x) (by simp)
    have hhi : header[i]? = some header[i] := List.getElem?_eq_getElem hi
    simp only [insertRow, hhi]
    cases hg : Dict.get? d header[i] with
    | none => rfl
    | some s =>
      simp only
      have hmem := Dict.mem_keys_of_get? hg
      have hks : Dict.keys (Dict.set d header[i] (s.insert x)) = Dict.keys d := by
        rw [Dict.keys_set, if_pos hmem]
      apply ih _ (fun q hq => hl q (List.mem_cons_of_mem _ hq))
      rw [hks]
      obtain ⟨q, hq, name, h1, h2⟩ := hbad
      rcases List.mem_cons.mp hq with rfl | hq
      · simp only at h1
        rw [hhi] at h1
        cases h1
        exact absurd hmem h2
      · exact ⟨q, hq, name, h1, h2⟩

theorem insertRow_keys (header : List String) (l : List (Nat × Rat))
    (d d' : Dict String Quantile.Sparse) (h : insertRow header l d = .ok d') :
    Dict.keys d' = Dict.keys d := by
  induction l generalizing d with
  | nil => cases h; rfl
  | cons p l ih =>
    obtain ⟨i, x⟩ := p
    simp only [insertRow] at h
    split at h
    · cases h
    · split at h
      · cases h
      · rename_i s hs
        rw [ih _ h, Dict.keys_set, if_pos (Dict.mem_keys_of_get? hs)]

theorem insertRows_fails (header : List String) (rows : List (SparseVec Rat))
    (d : Dict String Quantile.Sparse) (hl : ∀ r ∈ rows, ∀ p ∈ r.vec, p.1 < header.length)
    (hbad : ∃ r ∈ rows, ∃ p ∈ r.vec, ∃ name, header[p.1]? = some name ∧ name ∉ Dict.keys d) :
    insertRows header rows d = .error .keyError := by
  induction rows generalizing d with
  | nil => obtain ⟨r, hr, _⟩ := hbad; cases hr
  | cons r rows ih =>
    simp only [insertRows, SparseVec.allData]
    by_cases hr : ∃ p ∈ r.vec, ∃ name, header[p.1]? = some name ∧ name ∉ Dict.keys d
    · rw [insertRow_fails header r.vec d (hl r (by simp)) hr]
    · cases h1 : insertRow header r.vec d with
      | error e =>
        exfalso
        have hgood : ∀ (l : List (Nat × Rat)) (d : Dict String Quantile.Sparse),
            (∀ p ∈ l, ∃ name, header[p.1]? = some name ∧ name ∈ Dict.keys d) →
            ∀ e, insertRow header l d ≠ .error e := by
          intro l
          induction l with
          | nil => intro d _ e h; cases h
          | cons q l ih =>
            intro d h e he
            obtain ⟨name, a, b⟩ := h q (by simp)
            obtain ⟨i, x⟩ := q
            simp only at a
            have : ∃ s, Dict.get? d name = some s := by
              cases hg : Dict.get? d name with
              | none => exact absurd b ((Dict.get?_eq_none_iff _ _).mp hg)
              | some s => exact ⟨s, rfl⟩
            obtain ⟨s, hs⟩ := this
            simp only [insertRow, a, hs] at he
            refine ih _ (fun p hp => ?_) e he
            rw [Dict.keys_set, if_pos b]
            exact h p (List.mem_cons_of_mem _ hp)
        refine hgood r.vec d (fun p hp => ?_) e h1
        have hlt := hl r (by simp) p hp
        refine ⟨header[p.1], List.getElem?_eq_getElem hlt, ?_⟩
        by_contra hc
        exact hr ⟨p, hp, _, List.getElem?_eq_getElem hlt, hc⟩
      | ok d1 =>
        simp only
        apply ih _ (fun q hq => hl q (List.mem_cons_of_mem _ hq))
        rw [insertRow_keys header r.vec d d1 h1]
        obtain ⟨q, hq, hq'⟩ := hbad
        rcases List.mem_cons.mp hq with rfl | hq
        · exact absurd hq' hr
        · exact ⟨q, hq, hq'⟩

/-! ### Conversion -/

theorem convertDenseLoop_sel (cols : List Nat) (sps : Dict String (List Rat)) (header : List String)
    (S : Nat → List Rat) (i : Nat) (l : List Rat)
    (hS : ∀ k, i ≤ k → k < i + l.length → k ∈ cols → lookupSplits header sps k = .ok (S k)) :
    convertDenseLoop cols sps header i l =
      .ok ((l.zipIdx i).map fun p =>
        if p.2 ∈ cols then Cell.bin (getBinNum p.1 (S p.2)) else Cell.raw p.1) := by
  induction l generalizing i with
  | nil => rfl
  | cons x l ih =>
    have ih := ih (i + 1) (fun k h1 h2 h3 => hS k (by omega) (by simp only [List.length_cons]; omega) h3)
    simp only [convertDenseLoop, ih, List.zipIdx_cons, List.map_cons]
    by_cases h : i ∈ cols
    · simp only [if_pos h, hS i le_rfl (by simp) h]
    · simp only [if_neg h]

theorem convertLoop_sel (cols : List Nat) (sps : Dict String (List Rat)) (header : List String)
    (S : Nat → List Rat) (l : List (Nat × Rat))
    (hS : ∀ p ∈ l, p.1 ∈ cols → lookupSplits header sps p.1 = .ok (S p.1)) :
    convertLoop cols sps header l =
      .ok (l.map Prod.fst, l.map fun p =>
        if p.1 ∈ cols then Cell.bin (getBinNum p.2 (S p.1)) else Cell.raw p.2) := by
  induction l with
  | nil => rfl
  | cons p l ih =>
    obtain ⟨i, x⟩ := p
    have ih := ih (fun q hq => hS q (List.mem_cons_of_mem _ hq))
    simp only [convertLoop, ih, List.map_cons]
    by_cases h : i ∈ cols
    · have h1 : lookupSplits header sps i = .ok (S i) := hS (i, x) (by simp) h
      simp only [if_pos h, h1]
    · simp only [if_neg h]

theorem convertSparse_sel (cols : List Nat) (sps : Dict String (List Rat)) (header : List String)
    (S : Nat → List Rat) (f : SparseVec Rat) (hwf : f.vec.WF)
    (hS : ∀ k ∈ Dict.keys f.vec, k ∈ cols → lookupSplits header sps k = .ok (S k)) :
    convertSparse cols sps header f =
      .ok ⟨f.vec.map (fun p => (p.1,
        if p.1 ∈ cols then Cell.bin (getBinNum p.2 (S p.1)) else Cell.raw p.2)), f.shape⟩ := by
  unfold convertSparse SparseVec.allData
  rw [convertLoop_sel cols sps header S f.vec
    (fun p hp => hS p.1 (List.mem_map.mpr ⟨p, hp, rfl⟩))]
  simp only [SparseVec.ofLists]
  rw [List.zip_map', foldl_set_eq]
  · rfl
  · unfold Dict.WF Dict.keys at hwf
    simpa [List.map_map, Function.comp_def] using hwf

theorem zeroBins_ok (sps : Dict String (List Rat)) (header : List String) (S : Nat → List Rat)
    (cols : List Int) (acc : Dict Int Nat)
    (h : ∀ c ∈ cols, ∃ name, nameAt header c = .ok name ∧
      sps.get? name = some (S (pos header.length c))) :
    ∃ z, zeroBins sps header cols acc = .ok z ∧
      ∀ c, z.get? c = if c ∈ cols then some (getBinNum 0 (S (pos header.length c))) else acc.get? c := by
  induction cols generalizing acc with
  | nil => exact ⟨acc, rfl, by simp⟩
  | cons c cols ih =>
    obtain ⟨name, h1, h2⟩ := h c (by simp)
    obtain ⟨z, z1, z2⟩ := ih (acc.set c (getBinNum 0 (S (pos header.length c))))
      (fun k hk => h k (List.mem_cons_of_mem _ hk))
    refine ⟨z, by simp only [zeroBins, h1, h2]; exact z1, fun k => ?_⟩
    rw [z2, Dict.get?_set]
    by_cases a : k ∈ cols
    · simp [a]
    · by_cases b : c = k
      · simp [b]
      · have : ¬ k = c := fun e => b e.symm
        simp [a, b, this]

theorem mem_colNumbers (cols : List Int) (j : Nat) : j ∈ colNumbers cols ↔ (j : Int) ∈ cols := by
  unfold colNumbers
  rw [List.mem_filterMap]
  constructor
  · rintro ⟨c, hc, h⟩
    split at h
    · have : (j : Int) = c := by
        have := Option.some.inj h
        omega
      rwa [this]
    · cases h
  · intro h
    exact ⟨j, h, by simp⟩

theorem toInts_ok (sel : List Int) : toInts (sel.map some) = .ok sel := by
  induction sel with
  | nil => rfl
  | cons i sel ih => simp only [List.map_cons, toInts, ih]

/-! ### Fitted objects -/

/-- What `fit_split_points` leaves in the object. -/
structure Fitted (o : Obj) (header : List String) (sel : List Int) (S : Nat → List Rat) : Prop where
  header_eq : o.header = header
  cols_eq : o.colsIndex = some (sel.map some)
  known : sel ≠ [] → o.colsDict ≠ []
  splits : ∃ sps, o.splits = some sps ∧ (∀ j name, header[j]? = some name →
    sps.get? name = if Picked sel header.length j then some (S j) else none)

theorem first_some {K V : Type} [DecidableEq K] (t : DTable K V) (hne : t.data ≠ []) :
    ∃ v, t.first = some v := by
  unfold DTable.first
  obtain ⟨d⟩ := t
  cases d with
  | nil => exact absurd rfl hne
  | cons p d => obtain ⟨k, v⟩ := p; exact ⟨v, by simp [Dict.get?_cons]⟩

/-- The table of `rows` is not empty. -/
def Rows.nonempty {K : Type} : Rows K → Prop
  | .dense t => t.data ≠ []
  | .sparse t => t.data ≠ []

theorem isSparse_ok {K : Type} [DecidableEq K] (rows : Rows K) (h : rows.nonempty) :
    ∃ b, isSparse rows = .ok b := by
  cases rows with
  | dense t => obtain ⟨v, hv⟩ := first_some t h; exact ⟨false, by simp [isSparse, hv]⟩
  | sparse t => obtain ⟨v, hv⟩ := first_some t h; exact ⟨true, by simp [isSparse, hv]⟩

theorem initCols_sel (cfg : Config) (binNum : Nat) (header : List String) (sel : List Int)
    (hr : InRange sel header.length) :
    ∃ cols, selectLoop header (sel.map some) = .ok cols ∧
      (∀ name, name ∈ cols ↔ ∃ i ∈ sel, header[pos header.length i]? = some name) ∧
      initCols (Obj.new cfg binNum (some (sel.map some))) header =
        .ok ⟨cfg, binNum, some (sel.map some), colsDictOf header cols, header, none, none⟩ := by
  obtain ⟨cols, c1, c2⟩ := selectLoop_ok header sel hr
  refine ⟨cols, c1, c2, ?_⟩
  unfold initCols Obj.new
  simp [c1]

theorem colsDictOf_ne (header : List String) (sel : List Int) (cols : List String)
    (hr : InRange sel header.length)
    (hc : ∀ name, name ∈ cols ↔ ∃ i ∈ sel, header[pos header.length i]? = some name)
    (hs : sel ≠ []) : colsDictOf header cols ≠ [] := by
  obtain ⟨i, hi⟩ := List.exists_mem_of_ne_nil sel hs
  have hp := pos_lt (hr i hi)
  have hm : header[pos header.length i] ∈ cols := (hc _).mpr ⟨i, hi, List.getElem?_eq_getElem hp⟩
  intro h
  have := (colsDictOf_ok header cols).2 header[pos header.length i]
  rw [if_pos hm, h] at this
  cases this

theorem fit_dense {K : Type} [DecidableEq K] (cfg : Config) (binNum : Nat) (hb : 1 ≤ binNum)
    (header : List String) (hn : header.Nodup) (sel : List Int) (hr : InRange sel header.length)
    (rows : DTable K (List Rat)) (hne : rows.data ≠ [])
    (hw : ∀ r ∈ rows.data.values, r.length = header.length)
    (hsp : ∀ j < header.length, ∃ sp, Quantile.splitPoints (Quantile.query
      (Quantile.denseOf cfg (rows.data.values.filterMap fun r => r[j]?))) binNum = .ok sp) :
    ∃ o S, fit (Obj.new cfg binNum (some (sel.map some))) header (.dense rows) = .ok o ∧
      Fitted o header sel S ∧ ∀ j < header.length, Picked sel header.length j →
        Quantile.splitPoints (Quantile.query
          (Quantile.denseOf cfg (rows.data.values.filterMap fun r => r[j]?))) binNum = .ok (S j) := by
  obtain ⟨cols, c1, c2, c3⟩ := initCols_sel cfg binNum header sel hr
  choose! S hS using hsp
  set cd := colsDictOf header cols with hcd
  have hwf : cd.WF := (colsDictOf_ok header cols).1
  have hidx : ∀ name ∈ Dict.keys cd, cd.get? name = some (header.idxOf name) ∧
      header.idxOf name < header.length := by
    intro name hm
    obtain ⟨j, hj⟩ := colsDict_names header sel cols c2 name hm
    have hg := (colsDictOf_ok header cols).2 name
    have hmc : name ∈ cols := by
      by_contra hcon
      rw [if_neg hcon] at hg
      exact (Dict.get?_eq_none_iff _ _).mp hg hm
    rw [if_pos hmc] at hg
    exact ⟨hg, List.idxOf_lt_length_of_mem (List.mem_of_getElem? hj)⟩
  have hfresh : freshDense cfg (Dict.keys cd) = (Dict.keys cd).map fun n => (n, QS.new cfg) :=
    foldl_set_const _ hwf _
  have hfk : Dict.keys ((Dict.keys cd).map fun n => (n, QS.new cfg)) = Dict.keys cd := by
    unfold Dict.keys; simp [List.map_map, Function.comp_def]
  have hins := insertDenseRows_ok cd header.idxOf rows.data.values
    ((Dict.keys cd).map fun n => (n, QS.new cfg)) (by
      intro name hm
      rw [hfk] at hm
      exact ⟨(hidx name hm).1, fun r hr' => by rw [hw r hr']; exact (hidx name hm).2⟩)
  set d1 : Dict String QS := ((Dict.keys cd).map fun n => (n, QS.new cfg)).map fun p =>
    (p.1, Quantile.insertAll p.2 (rows.data.values.filterMap fun r => r[header.idxOf p.1]?)) with hd1
  set d2 : Dict String QS := d1.map fun p => (p.1, Quantile.compress p.2) with hd2
  have hd2' : d2 = (Dict.keys cd).map fun n =>
      (n, Quantile.denseOf cfg (rows.data.values.filterMap fun r => r[header.idxOf n]?)) := by
    simp only [hd2, hd1, List.map_map, Function.comp_def]
    rfl
  have hk2 : Dict.keys d2 = Dict.keys cd := by
    rw [hd2']; unfold Dict.keys; simp [List.map_map, Function.comp_def]
  have hw2 : d2.WF := by unfold Dict.WF; rw [hk2]; exact hwf
  have hg2 : ∀ name s, d2.get? name = some s → name ∈ Dict.keys cd ∧
      s = Quantile.denseOf cfg (rows.data.values.filterMap fun r => r[header.idxOf name]?) := by
    intro name s hs
    have hm : name ∈ Dict.keys cd := by rw [← hk2]; exact Dict.mem_keys_of_get? hs
    have : d2.get? name = some (Quantile.denseOf cfg
        (rows.data.values.filterMap fun r => r[header.idxOf name]?)) := by
      apply Dict.get?_of_mem hw2
      rw [hd2']
      exact List.mem_map.mpr ⟨name, hm, rfl⟩
    rw [this] at hs
    exact ⟨hm, (Option.some.inj hs).symm⟩
  obtain ⟨sps, r1, r2, r3⟩ := allSplitsDense_ok binNum d2 hw2 (by
    intro name s hs
    obtain ⟨hm, rfl⟩ := hg2 name s hs
    exact ⟨_, hS _ (hidx name hm).2⟩)
  obtain ⟨v, hv⟩ := first_some rows hne
  refine ⟨⟨cfg, binNum, some (sel.map some), cd, header, some (.dense d2), some sps⟩, S, ?_, ?_, ?_⟩
  · unfold fit
    rw [c3]
    simp only [if_neg (show binNum ≠ 0 by omega), isSparse, hv, summariesOf, summarize,
      hfresh, hins, splitsOf]
    rw [← hd2, r1]
  · refine ⟨rfl, rfl, fun hs => colsDictOf_ne header sel cols hr c2 hs, sps, rfl, ?_⟩
    intro j name hj
    have hp := colsDict_picked header hn sel cols hr c2 j name hj
    have hjl : j < header.length := (List.getElem?_eq_some_iff.mp hj).1
    by_cases h : Picked sel header.length j
    · rw [if_pos h] at hp ⊢
      have hm : name ∈ Dict.keys cd := Dict.mem_keys_of_get? hp
      have hi : header.idxOf name = j := by
        have := (hidx name hm).1
        rw [hp] at this
        exact (Option.some.inj this).symm
      have hgs : d2.get? name = some (Quantile.denseOf cfg
          (rows.data.values.filterMap fun r => r[j]?)) := by
        apply Dict.get?_of_mem hw2
        rw [hd2']
        exact List.mem_map.mpr ⟨name, hm, by rw [hi]⟩
      obtain ⟨sp, s1, s2⟩ := r3 name _ hgs
      rw [hS j hjl] at s2
      rw [s1]
      cases s2
      rfl
    · rw [if_neg h] at hp ⊢
      rw [Dict.get?_eq_none_iff, r2, hk2]
      exact (Dict.get?_eq_none_iff _ _).mp hp
  · intro j hj _
    exact hS j hj

theorem fit_sparse {K : Type} [DecidableEq K] (cfg : Config) (binNum : Nat) (hb : 1 ≤ binNum)
    (header : List String) (hn : header.Nodup) (sel : List Int) (hr : InRange sel header.length)
    (rows : DTable K (SparseVec Rat)) (hne : rows.data ≠ [])
    (hl : ∀ r ∈ rows.data.values, ∀ p ∈ r.vec, p.1 < header.length ∧ Picked sel header.length p.1)
    (hsp : ∀ j < header.length, ∃ sp, Quantile.splitPoints
      (Quantile.sparseOf cfg (column j rows) rows.count).query binNum = .ok sp) :
    ∃ o S, fit (Obj.new cfg binNum (some (sel.map some))) header (.sparse rows) = .ok o ∧
      Fitted o header sel S ∧ ∀ j < header.length, Picked sel header.length j →
        Quantile.splitPoints
          (Quantile.sparseOf cfg (column j rows) rows.count).query binNum = .ok (S j) := by
  obtain ⟨cols, c1, c2, c3⟩ := initCols_sel cfg binNum header sel hr
  choose! S hS using hsp
  set cd := colsDictOf header cols with hcd
  have hwf : cd.WF := (colsDictOf_ok header cols).1
  have hpk : ∀ j name, header[j]? = some name → (name ∈ Dict.keys cd ↔ Picked sel header.length j) := by
    intro j name hj
    have hp := colsDict_picked header hn sel cols hr c2 j name hj
    by_cases h : Picked sel header.length j
    · rw [if_pos h] at hp
      exact ⟨fun _ => h, fun _ => Dict.mem_keys_of_get? hp⟩
    · rw [if_neg h] at hp
      exact ⟨fun hm => absurd hm ((Dict.get?_eq_none_iff _ _).mp hp), fun h' => absurd h' h⟩
  have hfresh := freshSummaries_ok cfg (Dict.keys cd) hwf
  have hfk : Dict.keys ((Dict.keys cd).map fun n => (n, Quantile.Sparse.new cfg)) = Dict.keys cd := by
    unfold Dict.keys; simp [List.map_map, Function.comp_def]
  obtain ⟨d, d1, d2, d3⟩ := insertRows_sel header hn rows.data.values (fun _ => Quantile.Sparse.new cfg)
    ((Dict.keys cd).map fun n => (n, Quantile.Sparse.new cfg))
    (by
      intro r hr' p hp
      obtain ⟨h1, h2⟩ := hl r hr' p hp
      refine ⟨header[p.1], List.getElem?_eq_getElem h1, ?_⟩
      rw [hfk]
      exact (hpk p.1 _ (List.getElem?_eq_getElem h1)).mpr h2)
    (by
      intro j name hj hm
      rw [hfk] at hm
      have hw : Dict.WF ((Dict.keys cd).map fun n => (n, Quantile.Sparse.new cfg)) := by
        unfold Dict.WF; rw [hfk]; exact hwf
      exact Dict.get?_of_mem hw (List.mem_map.mpr ⟨name, hm, rfl⟩))
  rw [hfk] at d2
  set d' : Dict String Quantile.Sparse := d.map fun p => (p.1, p.2.compress.setTotal rows.count) with hd'
  have hk' : Dict.keys d' = Dict.keys cd := by
    rw [hd', ← d2]
    exact Dict.keys_map (fun _ v => Quantile.Sparse.setTotal (Quantile.Sparse.compress v) rows.count) d
  have hg' : ∀ j name, header[j]? = some name → name ∈ Dict.keys cd →
      Dict.get? d' name = some (Quantile.sparseOf cfg (column j rows) rows.count) := by
    intro j name hj hm
    have := Dict.get?_map (fun _ v => Quantile.Sparse.setTotal (Quantile.Sparse.compress v) rows.count) d name
    rw [hd', this, d3 j name hj (by rw [hfk]; exact hm)]
    rfl
  have hw' : Dict.WF d' := by unfold Dict.WF; rw [hk']; exact hwf
  obtain ⟨sps, r1, r2, r3⟩ := allSplits_ok binNum d' hw' (by
    intro name s hs
    have hmem := Dict.mem_keys_of_get? hs
    rw [hk'] at hmem
    obtain ⟨j, hj⟩ := colsDict_names header sel cols c2 name hmem
    rw [hg' j name hj hmem] at hs
    cases hs
    exact ⟨_, hS j (List.getElem?_eq_some_iff.mp hj).1⟩)
  obtain ⟨v, hv⟩ := first_some rows hne
  refine ⟨⟨cfg, binNum, some (sel.map some), cd, header, some (.sparse d'), some sps⟩, S, ?_, ?_, ?_⟩
  · unfold fit
    rw [c3]
    simp only [if_neg (show binNum ≠ 0 by omega), isSparse, hv, summariesOf, summarize,
      hfresh, d1, splitsOf]
    rw [← hd', r1]
  · refine ⟨rfl, rfl, fun hs => colsDictOf_ne header sel cols hr c2 hs, sps, rfl, ?_⟩
    intro j name hj
    have hjl : j < header.length := (List.getElem?_eq_some_iff.mp hj).1
    by_cases h : Picked sel header.length j
    · rw [if_pos h]
      obtain ⟨sp, s1, s2⟩ := r3 name _ (hg' j name hj ((hpk j name hj).mpr h))
      rw [hS j hjl] at s2
      rw [s1]
      cases s2
      rfl
    · rw [if_neg h, Dict.get?_eq_none_iff, r2, hk']
      exact fun hm => h ((hpk j name hj).mp hm)
  · intro j hj _
    exact hS j hj

theorem fit_sparse_fails {K : Type} [DecidableEq K] (cfg : Config) (binNum : Nat) (hb : 1 ≤ binNum)
    (header : List String) (hn : header.Nodup) (sel : List Int) (hr : InRange sel header.length)
    (rows : DTable K (SparseVec Rat))
    (hl : ∀ r ∈ rows.data.values, ∀ p ∈ r.vec, p.1 < header.length)
    (hbad : ∃ r ∈ rows.data.values, ∃ p ∈ r.vec, ¬ Picked sel header.length p.1) :
    fit (Obj.new cfg binNum (some (sel.map some))) header (.sparse rows) = .error .keyError := by
  obtain ⟨cols, c1, c2, c3⟩ := initCols_sel cfg binNum header sel hr
  have hwf := (colsDictOf_ok header cols).1
  have hfk : Dict.keys ((Dict.keys (colsDictOf header cols)).map fun n => (n, Quantile.Sparse.new cfg)) =
      Dict.keys (colsDictOf header cols) := by
    unfold Dict.keys; simp [List.map_map, Function.comp_def]
  have hf := insertRows_fails header rows.data.values
    (freshSummaries cfg (Dict.keys (colsDictOf header cols))) hl (by
      obtain ⟨r, hr', p, hp, h⟩ := hbad
      have hlt := hl r hr' p hp
      refine ⟨r, hr', p, hp, header[p.1], List.getElem?_eq_getElem hlt, ?_⟩
      rw [freshSummaries_ok cfg _ hwf, hfk]
      have := colsDict_picked header hn sel cols hr c2 p.1 _ (List.getElem?_eq_getElem hlt)
      rw [if_neg h] at this
      exact (Dict.get?_eq_none_iff _ _).mp this)
  have hne : rows.data ≠ [] := by
    obtain ⟨r, hr', _⟩ := hbad
    intro h
    rw [h] at hr'
    cases hr'
  obtain ⟨v, hv⟩ := first_some rows hne
  unfold fit
  rw [c3]
  simp only [if_neg (show binNum ≠ 0 by omega), isSparse, hv, summariesOf, summarize, hf]

/-! ### Conversion with a fitted object -/

theorem Fitted.init {o : Obj} {header : List String} {sel : List Int} {S : Nat → List Rat}
    (h : Fitted o header sel S) (hs : sel ≠ []) (header2 : List String) :
    initCols o header2 = .ok o := by
  unfold initCols
  rw [if_pos (h.known hs)]

theorem Fitted.cols {o : Obj} {header : List String} {sel : List Int} {S : Nat → List Rat}
    (h : Fitted o header sel S) (t : Transform) (cols : List Int)
    (ht : (t = .all ∧ cols = sel) ∨ (t = .list cols ∧ ∀ c ∈ cols, c ∈ sel)) :
    transformCols o t = .ok cols := by
  rcases ht with ⟨rfl, rfl⟩ | ⟨rfl, hc⟩
  · simp only [transformCols, h.cols_eq, Option.getD_some, toInts_ok]
  · simp only [transformCols, h.cols_eq, Option.getD_some]
    rw [if_pos]
    rw [List.all_eq_true]
    intro c hm
    simpa using hc c hm

theorem picked_of_mem {sel : List Int} {n : Nat} {c : Int} (hr : InRange sel n) (h : c ∈ sel) :
    Picked sel n (pos n c) := by
  have := hr c h
  unfold Picked pos
  split
  · right
    have : ((c + (n : Int)).toNat : Int) - n = c := by omega
    rwa [this]
  · left
    have : (c.toNat : Int) = c := by omega
    rwa [this]

theorem Fitted.lookup {header : List String} {sel : List Int} {S : Nat → List Rat}
    {sps : Dict String (List Rat)}
    (hsps : ∀ j name, header[j]? = some name →
      sps.get? name = if Picked sel header.length j then some (S j) else none)
    (hr : InRange sel header.length) (c : Nat) (hc : (c : Int) ∈ sel) :
    lookupSplits header sps c = .ok (S c) := by
  have hlt : c < header.length := by have := (hr c hc).2; omega
  have := hsps c _ (List.getElem?_eq_getElem hlt)
  rw [if_pos (.inl hc)] at this
  exact lookupSplits_ok header sps c _ _ (List.getElem?_eq_getElem hlt) this

theorem Fitted.zero {header : List String} {sel : List Int} {S : Nat → List Rat}
    {sps : Dict String (List Rat)}
    (hsps : ∀ j name, header[j]? = some name →
      sps.get? name = if Picked sel header.length j then some (S j) else none)
    (hr : InRange sel header.length) (cols : List Int) (hc : ∀ c ∈ cols, c ∈ sel) :
    ∃ z, zeroBins sps header cols [] = .ok z ∧
      ∀ c, z.get? c = if c ∈ cols then some (getBinNum 0 (S (pos header.length c))) else none := by
  obtain ⟨z, z1, z2⟩ := zeroBins_ok sps header S cols [] (by
    intro c hm
    have hi := hr c (hc c hm)
    refine ⟨_, nameAt_ok header c hi, ?_⟩
    have := hsps _ _ (List.getElem?_eq_getElem (pos_lt hi))
    rw [if_pos (picked_of_mem hr (hc c hm))] at this
    exact this)
  exact ⟨z, z1, by simpa using z2⟩

theorem Fitted.array {header : List String} {sel : List Int} {S : Nat → List Rat}
    {sps : Dict String (List Rat)}
    (hsps : ∀ j name, header[j]? = some name →
      sps.get? name = if Picked sel header.length j then some (S j) else none) :
    splitArray header sps =
      ((List.range header.length).filter fun j => decide (Picked sel header.length j)).map S := by
  unfold splitArray
  have h1 : header = (List.range header.length).map fun j => header.getD j "" := by
    apply List.ext_getElem (by simp)
    intro i h1 h2
    simp [h1]
  conv_lhs => rw [h1]
  rw [List.filterMap_map, ← List.filterMap_eq_map, ← List.filterMap_eq_filter, List.filterMap_filterMap]
  apply List.filterMap_congr
  intro j hj
  have hlt := List.mem_range.mp hj
  have := hsps j _ (List.getElem?_eq_getElem hlt)
  simp only [Function.comp, List.getD_eq_getElem?_getD, List.getElem?_eq_getElem hlt, Option.getD_some, this]
  by_cases h : Picked sel header.length j <;> simp [h, Option.guard]

theorem Fitted.transformCols_mem {sel cols : List Int} {t : Transform}
    (ht : (t = .all ∧ cols = sel) ∨ (t = .list cols ∧ ∀ c ∈ cols, c ∈ sel)) : ∀ c ∈ cols, c ∈ sel := by
  rcases ht with ⟨_, rfl⟩ | ⟨_, h⟩
  · exact fun _ h => h
  · exact h

theorem Fitted.convert {K : Type} [DecidableEq K] {o : Obj} {header : List String} {sel : List Int}
    {S : Nat → List Rat} (h : Fitted o header sel S) (hs : sel ≠ []) (hr : InRange sel header.length)
    (header2 : List String) (rows : Rows K) (hne : rows.nonempty) (t : Transform) (cols : List Int)
    (ht : (t = .all ∧ cols = sel) ∨ (t = .list cols ∧ ∀ c ∈ cols, c ∈ sel)) (new : Binned K)
    (hnew : ∀ sps, (∀ c : Nat, (c : Int) ∈ sel → lookupSplits header sps c = .ok (S c)) →
      convertRows (colNumbers cols) sps header rows = .ok new) :
    ∃ z, Selected.convert o header2 rows t none = .ok (.converted new
        (((List.range header.length).filter fun j => decide (Picked sel header.length j)).map S) z, o) ∧
      ∀ c, z.get? c = if c ∈ cols then some (getBinNum 0 (S (pos header.length c))) else none := by
  obtain ⟨sps, e1, e2⟩ := h.splits
  obtain ⟨z, z1, z2⟩ := Fitted.zero e2 hr cols (Fitted.transformCols_mem ht)
  obtain ⟨b, hb⟩ := isSparse_ok rows hne
  refine ⟨z, ?_, z2⟩
  have hcw : convertWith o rows cols none = .ok (.converted new
        (((List.range header.length).filter fun j => decide (Picked sel header.length j)).map S) z) := by
    unfold convertWith
    simp only [e1, hb, h.header_eq, hnew sps (fun c hc => Fitted.lookup e2 hr c hc), z1,
      Fitted.array e2]
  have htc := h.cols t cols ht
  unfold Selected.convert
  rw [h.init hs]
  simp only
  cases t with
  | nothing => rcases ht with ⟨h, _⟩ | ⟨h, _⟩ <;> cases h
  | other => rcases ht with ⟨h, _⟩ | ⟨h, _⟩ <;> cases h
  | all => simp only [htc, hcw]
  | list c => simp only [htc, hcw]

theorem convertRows_dense {K : Type} [DecidableEq K] (header : List String) (S : Nat → List Rat)
    (sel cols : List Int) (hc : ∀ c ∈ cols, c ∈ sel) (rows : DTable K (List Rat)) (hwf : rows.WF)
    (sps : Dict String (List Rat))
    (hS : ∀ c : Nat, (c : Int) ∈ sel → lookupSplits header sps c = .ok (S c)) :
    convertRows (colNumbers cols) sps header (.dense rows) =
      .ok (.dense ⟨rows.data.map fun p => (p.1, (p.2.zipIdx 0).map fun q =>
        if q.2 ∈ colNumbers cols then Cell.bin (getBinNum q.1 (S q.2)) else Cell.raw q.1)⟩) := by
  have := DTable.mapValuesM_ok hwf (convertDense (colNumbers cols) sps header)
    (fun (r : List Rat) => (r.zipIdx 0).map fun (q : Rat × Nat) =>
        if q.2 ∈ colNumbers cols then Cell.bin (getBinNum q.1 (S q.2)) else Cell.raw q.1)
    (fun p _ => convertDenseLoop_sel _ sps header S 0 p.2 (fun k _ _ hk =>
      hS k (hc _ ((mem_colNumbers cols k).mp hk))))
  simp only [convertRows, this]

theorem convertRows_sparse {K : Type} [DecidableEq K] (header : List String) (S : Nat → List Rat)
    (sel cols : List Int) (hc : ∀ c ∈ cols, c ∈ sel) (rows : DTable K (SparseVec Rat)) (hwf : rows.WF)
    (hv : ∀ p ∈ rows.data, p.2.vec.WF)
    (sps : Dict String (List Rat))
    (hS : ∀ c : Nat, (c : Int) ∈ sel → lookupSplits header sps c = .ok (S c)) :
    convertRows (colNumbers cols) sps header (.sparse rows) =
      .ok (.sparse ⟨rows.data.map fun p => (p.1, ⟨p.2.vec.map fun q => (q.1,
        if q.1 ∈ colNumbers cols then Cell.bin (getBinNum q.2 (S q.1)) else Cell.raw q.2), p.2.shape⟩)⟩) := by
  have := DTable.mapValuesM_ok hwf (convertSparse (colNumbers cols) sps header)
    (fun (f : SparseVec Rat) => ⟨f.vec.map fun q => (q.1,
        if q.1 ∈ colNumbers cols then Cell.bin (getBinNum q.2 (S q.1)) else Cell.raw q.2), f.shape⟩)
    (fun p hp => convertSparse_sel _ sps header S p.2 (hv p hp) (fun k _ hk =>
      hS k (hc _ ((mem_colNumbers cols k).mp hk))))
  simp only [convertRows, this]

theorem column_get {K : Type} (rows : DTable K (SparseVec Rat)) (hv : ∀ p ∈ rows.data, p.2.vec.WF)
    (j : Nat) : column j rows = rows.data.values.filterMap fun r => r.vec.get? j := by
  have hce : ∀ (d : Dict Nat Rat), d.WF → colEntries j d = (d.get? j).toList := by
    intro d
    induction d with
    | nil => intro _; rfl
    | cons p d ih =>
      obtain ⟨k0, v0⟩ := p
      intro hd
      have hd' : k0 ∉ Dict.keys d ∧ Dict.WF d := by
        unfold Dict.WF at hd ⊢; simpa using hd
      have ih' := ih hd'.2
      unfold colEntries at ih' ⊢
      rw [Dict.get?_cons]
      by_cases h : k0 = j
      · subst h
        have : Dict.get? d k0 = none := (Dict.get?_eq_none_iff _ _).mpr hd'.1
        rw [this] at ih'
        simp at ih'
        simp
        exact ih'
      · have hb : (k0 == j) = false := by simp [h]
        simp only [List.filter_cons, hb, if_neg h]
        exact ih'
  unfold column
  have hv' : ∀ r ∈ rows.data.values, r.vec.WF := by
    intro r hr
    obtain ⟨p, hp, rfl⟩ := List.mem_map.mp hr
    exact hv p hp
  generalize rows.data.values = vs at hv'
  induction vs with
  | nil => rfl
  | cons r vs ih =>
    rw [List.flatMap_cons, ih (fun q hq => hv' q (List.mem_cons_of_mem _ hq)), List.filterMap_cons,
      hce _ (hv' r (by simp))]
    cases Dict.get? r.vec j <;> rfl

/-! ### Repeated calls and all columns -/

theorem fit_again {K L : Type} [DecidableEq K] [DecidableEq L] (o o' : Obj) (header header2 : List String)
    (rows : Rows K) (rows2 : Rows L) (h : fit o header rows = .ok o') (hk : o'.colsDict ≠ [])
    (hne : rows2.nonempty) : fit o' header2 rows2 = .ok o' := by
  unfold fit at h
  split at h
  · cases h
  rename_i o1 h1
  split at h
  · cases h
  rename_i hb
  split at h
  · cases h
  split at h
  · cases h
  rename_i s hs
  split at h
  · cases h
  rename_i sps hsps
  cases h
  obtain ⟨b, hb2⟩ := isSparse_ok rows2 hne
  unfold fit
  have : initCols { o1 with summaries := some s, splits := some sps } header2 =
      .ok { o1 with summaries := some s, splits := some sps } := by
    unfold initCols
    rw [if_pos hk]
  rw [this]
  simp only [if_neg hb, hb2, summariesOf, hsps]

theorem selectLoop_range (header : List String) :
    selectLoop header ((List.range header.length).map fun (i : Nat) => some (i : Int)) = .ok header := by
  suffices h : ∀ (pre post : List String), header = pre ++ post →
      selectLoop header ((List.range' pre.length post.length).map fun (i : Nat) => some (i : Int)) =
        .ok post by
    have := h [] header rfl
    rwa [List.length_nil, ← List.range_eq_range'] at this
  intro pre post
  induction post generalizing pre with
  | nil => intro _; rfl
  | cons a post ih =>
    intro hh
    have hlen : header.length = pre.length + (post.length + 1) := by rw [hh]; simp
    have hin : -(header.length : Int) ≤ (pre.length : Int) ∧ (pre.length : Int) < header.length := by omega
    have hih := ih (pre ++ [a]) (by rw [hh]; simp)
    rw [List.length_append, List.length_singleton] at hih
    simp only [List.length_cons, List.range'_succ, List.map_cons, selectLoop, nameAt_ok header _ hin, hih]
    rw [if_neg (by omega)]
    congr 2
    simp [pos_ofNat, hh]

theorem initCols_all (cfg : Config) (binNum : Nat) (header : List String) :
    initCols (Obj.new cfg binNum none) header =
      initCols (Obj.new cfg binNum
        (some ((List.range header.length).map fun (i : Nat) => some (i : Int)))) header := by
  unfold initCols Obj.new
  simp [selectLoop_range]

end Selected
end Verif
