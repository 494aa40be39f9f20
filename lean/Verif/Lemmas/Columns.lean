import Verif.Spec.C54
import Verif.Lemmas.RawRun

/-! # Columns of several parties side by side -/

set_option autoImplicit false

namespace Verif
namespace DTree

open Spec
open Binning (getBinNum)

variable {K : Type} [DecidableEq K] {α : Type}

theorem flatMap_at {β γ : Type} (w : β → Nat) (g : β → List γ) :
    ∀ (l : List β), (∀ x ∈ l, (g x).length = w x) → ∀ (j : Nat) (x : β), l[j]? = some x →
      ∀ f < w x, (l.flatMap g)[((l.take j).map w).sum + f]? = (g x)[f]?
  | [], _, j, x, h, _, _ => by simp at h
  | y :: l, hw, 0, x, h, f, hf => by
    simp only [List.getElem?_cons_zero, Option.some.injEq] at h
    subst h
    have := hw y (by simp)
    simp [List.flatMap_cons, List.getElem?_append_left (by omega : f < (g y).length)]
  | y :: l, hw, j + 1, x, h, f, hf => by
    have hy := hw y (by simp)
    have ih := flatMap_at w g l (fun z hz => hw z (by simp [hz])) j x (by simpa using h) f hf
    rw [List.flatMap_cons, List.getElem?_append_right (by simp; omega), ← ih]
    congr 1
    simp [hy]
    omega

theorem flatMap_split {β : Type} (w : β → Nat) :
    ∀ (l : List β) (c : Nat), c < (l.map w).sum →
      ∃ (j : Nat) (x : β) (f : Nat), l[j]? = some x ∧ f < w x ∧ c = ((l.take j).map w).sum + f
  | [], c, h => by simp at h
  | y :: l, c, h => by
    by_cases hc : c < w y
    · exact ⟨0, y, c, rfl, hc, by simp⟩
    · simp only [List.map_cons, List.sum_cons] at h
      obtain ⟨j, x, f, h1, h2, h3⟩ := flatMap_split w l (c - w y) (by omega)
      refine ⟨j + 1, x, f, by simpa using h1, h2, ?_⟩
      simp only [List.take_succ_cons, List.map_cons, List.sum_cons]
      omega

theorem take_sum_le {β : Type} (w : β → Nat) : ∀ (l : List β) (i j : Nat) (x : β), l[i]? = some x →
    i < j → ((l.take i).map w).sum + w x ≤ ((l.take j).map w).sum
  | [], i, j, x, h, _ => by simp at h
  | y :: l, 0, 0, x, h, hij => by omega
  | y :: l, 0, j + 1, x, h, hij => by
    simp only [List.getElem?_cons_zero, Option.some.injEq] at h
    subst h
    simp
  | y :: l, i + 1, 0, x, h, hij => by omega
  | y :: l, i + 1, j + 1, x, h, hij => by
    have := take_sum_le w l i j x (by simpa using h) (by omega)
    simp only [List.take_succ_cons, List.map_cons, List.sum_cons]
    omega

/-- Number of all columns. -/
def totalCols (S : Setup K α) : Nat := S.guest.splits.length + (S.hosts.map fun H => H.splits.length).sum

omit [DecidableEq K] in
theorem range_zip {β : Type} (S : Setup K α) (g : Option Nat → List β) :
    (List.range S.hosts.length).flatMap (fun j => g (some j)) =
      S.hosts.zipIdx.flatMap fun p => g (some p.2) := by
  rw [List.flatMap_def, List.flatMap_def]
  congr 1
  apply List.ext_getElem?
  intro i
  rw [List.getElem?_map, List.getElem?_map, List.getElem?_zipIdx]
  by_cases h : i < S.hosts.length
  · rw [List.getElem?_range h, List.getElem?_eq_getElem h]
    simp
  · rw [List.getElem?_eq_none (by simpa using h), List.getElem?_eq_none (by omega)]
    rfl

omit [DecidableEq K] in
theorem take_zip (S : Setup K α) (j : Nat) :
    ((S.hosts.zipIdx.take j).map fun p => p.1.splits.length).sum =
      ((S.hosts.take j).map fun H => H.splits.length).sum := by
  congr 1
  apply List.ext_getElem?
  intro i
  rw [List.getElem?_map, List.getElem?_map, List.getElem?_take, List.getElem?_take, List.getElem?_zipIdx]
  split
  · cases S.hosts[i]? <;> rfl
  · rfl

omit [DecidableEq K] in
theorem side_at {β : Type} {S : Setup K α} {g : Option Nat → List β}
    (hg : ∀ j P, partyAt S j = some P → (g j).length = P.splits.length) {j : Option Nat} {P : Party K}
    (hP : partyAt S j = some P) {f : Nat} (hf : f < P.splits.length) :
    (sideBySide S g)[offset S j + f]? = (g j)[f]? := by
  have h0 := hg none S.guest rfl
  unfold sideBySide
  cases j with
  | none =>
    simp only [partyAt, Option.some.injEq] at hP
    subst hP
    rw [List.getElem?_append_left (by simp [offset]; omega)]
    simp [offset]
  | some j =>
    have hP' : S.hosts[j]? = some P := hP
    rw [List.getElem?_append_right (by simp [offset]; omega), range_zip]
    have := flatMap_at (fun p : Party K × Nat => p.1.splits.length) (fun p => g (some p.2)) S.hosts.zipIdx
      (by
        rintro ⟨H, i⟩ hm
        rw [List.mem_zipIdx_iff_getElem?] at hm
        exact hg (some i) H hm) j (P, j) (by rw [List.getElem?_zipIdx, hP']; simp) f hf
    rw [take_zip] at this
    rw [← this]
    congr 1
    simp [offset, h0]
    omega

omit [DecidableEq K] in
theorem side_length {β : Type} {S : Setup K α} {g : Option Nat → List β}
    (hg : ∀ j P, partyAt S j = some P → (g j).length = P.splits.length) :
    (sideBySide S g).length = totalCols S := by
  have h0 := hg none S.guest rfl
  unfold sideBySide totalCols
  rw [List.length_append, h0, List.length_flatMap]
  congr 2
  apply List.ext_getElem?
  intro i
  rw [List.getElem?_map, List.getElem?_map]
  by_cases h : i < S.hosts.length
  · rw [List.getElem?_range h, List.getElem?_eq_getElem h]
    simp only [Option.map_some, Option.some.injEq]
    exact hg (some i) _ (List.getElem?_eq_getElem h)
  · rw [List.getElem?_eq_none (by simpa using h), List.getElem?_eq_none (by omega)]
    rfl

omit [DecidableEq K] in
theorem col_split (S : Setup K α) {c : Nat} (hc : c < totalCols S) :
    ∃ j P f, partyAt S j = some P ∧ f < P.splits.length ∧ c = offset S j + f := by
  unfold totalCols at hc
  by_cases h : c < S.guest.splits.length
  · exact ⟨none, S.guest, c, rfl, h, by simp [offset]⟩
  · obtain ⟨j, x, f, h1, h2, h3⟩ := flatMap_split (fun H : Party K => H.splits.length) S.hosts
      (c - S.guest.splits.length) (by omega)
    exact ⟨some j, x, f, h1, h2, by simp only [offset]; omega⟩

omit [DecidableEq K] in
theorem col_lt (S : Setup K α) {j : Option Nat} {P : Party K} (hP : partyAt S j = some P) {f : Nat}
    (hf : f < P.splits.length) : offset S j + f < totalCols S := by
  unfold totalCols
  cases j with
  | none =>
    simp only [partyAt, Option.some.injEq] at hP
    subst hP
    simp only [offset]
    omega
  | some j =>
    have hP' : S.hosts[j]? = some P := hP
    have := take_sum_le (fun H : Party K => H.splits.length) S.hosts j S.hosts.length P hP'
      (List.getElem?_eq_some_iff.mp hP').1
    rw [List.take_length] at this
    simp only [offset]
    omega

omit [DecidableEq K] in
theorem offset_earlier (S : Setup K α) {i j : Option Nat} {P : Party K} (hP : partyAt S i = some P)
    (h : Earlier i j) {f : Nat} (hf : f < P.splits.length) : offset S i + f < offset S j := by
  cases i with
  | none =>
    simp only [partyAt, Option.some.injEq] at hP
    subst hP
    cases j with
    | none => exact h.elim
    | some j => simp only [offset]; omega
  | some i =>
    cases j with
    | none => exact h.elim
    | some j =>
      have hP' : S.hosts[i]? = some P := hP
      have := take_sum_le (fun H : Party K => H.splits.length) S.hosts i j P hP' h
      simp only [offset]
      omega

theorem earlier_total (i j : Option Nat) (h : i ≠ j) : Earlier i j ∨ Earlier j i := by
  cases i with
  | none =>
    cases j with
    | none => exact absurd rfl h
    | some j => exact .inl trivial
  | some i =>
    cases j with
    | none => exact .inr trivial
    | some j =>
      rcases Nat.lt_trichotomy i j with h' | h' | h'
      · exact .inl h'
      · exact absurd (congrArg some h') h
      · exact .inr h'

omit [DecidableEq K] in
theorem col_unique (S : Setup K α) {i j : Option Nat} {P Q : Party K} (hP : partyAt S i = some P)
    (hQ : partyAt S j = some Q) {f g : Nat} (hf : f < P.splits.length) (hg : g < Q.splits.length)
    (h : offset S i + f = offset S j + g) : i = j ∧ f = g := by
  by_cases hij : i = j
  · subst hij
    exact ⟨rfl, by omega⟩
  · rcases earlier_total i j hij with he | he
    · have := offset_earlier S hP he hf
      omega
    · have := offset_earlier S hQ he hg
      omega

/-- A cell of a joined row. -/
theorem joined_value {S : Setup K α} {rows : Option Nat → DTable K (List Rat)}
    {all : DTable K (List Rat)} (h : JoinedRows S rows all) {k : K} {row : List Rat}
    (hk : all.data.get? k = some row) {j : Option Nat} {P : Party K} (hP : partyAt S j = some P) :
    ∃ r, (rows j).data.get? k = some r ∧ ∀ f < P.splits.length, row[offset S j + f]? = r[f]? := by
  have hex : ∀ j P, partyAt S j = some P → ∃ r, (rows j).data.get? k = some r := fun j P hP =>
    Dict.exists_get?_of_mem ((h.keys j P hP k).mpr (Dict.mem_keys_of_get? hk))
  obtain ⟨r, hr⟩ := hex j P hP
  refine ⟨r, hr, fun f hf => ?_⟩
  rw [h.cells k row hk, side_at (fun j P hP => by
    obtain ⟨r, hr⟩ := hex j P hP
    rw [hr]
    exact h.width j P hP k r hr) hP hf, hr]
  rfl

theorem joined_width {S : Setup K α} {rows : Option Nat → DTable K (List Rat)}
    {all : DTable K (List Rat)} (h : JoinedRows S rows all) {k : K} {row : List Rat}
    (hk : all.data.get? k = some row) : row.length = totalCols S := by
  rw [h.cells k row hk, side_length fun j P hP => by
    obtain ⟨r, hr⟩ := Dict.exists_get?_of_mem ((h.keys j P hP k).mpr (Dict.mem_keys_of_get? hk))
    rw [hr]
    exact h.width j P hP k r hr]

theorem values_keys {V : Type} {d : Dict K V} (hw : d.WF) :
    d.values = d.keys.filterMap fun k => d.get? k := by
  unfold Dict.values Dict.keys
  rw [List.filterMap_map]
  have : ∀ p ∈ d, (fun k => Dict.get? d k) (Prod.fst p) = some (Prod.snd p) := fun p hp => Dict.get?_of_mem hw hp
  rw [List.filterMap_congr (g := fun p : K × V => some p.2) (by
    intro p hp
    exact this p hp)]
  simp

/-- The split points of a joined column are those of the party's column. -/
theorem central_splits {S : Setup K α} {rows : Option Nat → DTable K (List Rat)} {C : Central K}
    {all : DTable K (List Rat)} (hr : RawRun S rows) (hc : Centralised S rows C all) :
    FromRaw C.party all ∧ C.party.splits.length = totalCols S ∧
    ∀ j P f sp, partyAt S j = some P → P.splits[f]? = some sp →
      C.party.splits[offset S j + f]? = some sp := by
  obtain ⟨cfg, binNum, header, h1, h2, h3, h4, h5, h6⟩ := hc.bins
  have hhead : (sideBySide S header).length = totalCols S := side_length fun j P hP => (h5 j P hP).1
  have hwf : ∀ j P, partyAt S j = some P → (rows j).WF ∧ (rows j).data ≠ [] := by
    intro j P hP
    obtain ⟨_, _, _, _, _, _, _, a, b, _⟩ := (hr.parties j P hP).1
    exact ⟨a, b⟩
  have hne : all.data ≠ [] := by
    have e := hc.order none S.guest rfl
    intro hn
    rw [hn] at e
    apply (hwf none S.guest rfl).2
    simpa [Dict.keys] using e
  have hw : ∀ k row, all.data.get? k = some row → row.length = (sideBySide S header).length := by
    intro k row hk
    rw [hhead]
    exact joined_width hc.joined hk
  have hraw : FromRaw C.party all := ⟨cfg, binNum, _, h1, h2, h3, h4, hc.joined.wf, hne, hw, h6⟩
  obtain ⟨tA, sA, bA, a1, _, a3, a4, _⟩ := C21_table cfg h1 h2 binNum h3 _ h4 all hc.joined.wf hne hw
  rw [h6] at a1
  simp only [Except.ok.injEq, Prod.mk.injEq] at a1
  obtain ⟨_, rfl, _⟩ := a1
  refine ⟨hraw, by rw [a3, hhead], fun j P f sp hP hf => ?_⟩
  have hfl : f < P.splits.length := (List.getElem?_eq_some_iff.mp hf).1
  have hnd : (header j).Nodup := by
    unfold sideBySide at h4
    rw [List.nodup_append] at h4
    cases j with
    | none => exact h4.1
    | some j =>
      rw [List.nodup_flatMap] at h4
      have hP' : S.hosts[j]? = some P := hP
      exact h4.2.1.1 j (List.mem_range.mpr (List.getElem?_eq_some_iff.mp hP').1)
  obtain ⟨tB, sB, bB, b1, _, b3, b4, _⟩ := C21_table cfg h1 h2 binNum h3 (header j) hnd (rows j)
    (hwf j P hP).1 (hwf j P hP).2 (by
      intro k row hk
      rw [(h5 j P hP).1]
      exact hc.joined.width j P hP k row hk)
  rw [(h5 j P hP).2] at b1
  simp only [Except.ok.injEq, Prod.mk.injEq] at b1
  obtain ⟨_, rfl, _⟩ := b1
  have hcl : offset S j + f < C.party.splits.length := by
    rw [a3, hhead]; exact col_lt S hP hfl
  have hA := a4 _ _ (List.getElem?_eq_getElem hcl)
  have hB := b4 f sp hf
  have hcount : all.count = (rows j).count := by
    have e := hc.order j P hP
    unfold DTable.count
    have : (Dict.keys (rows j).data).length = (Dict.keys all.data).length := by rw [e]
    simpa [Dict.keys] using this.symm
  have hcolumn : (all.data.values.filterMap fun row =>
        (row[offset S j + f]?).filter fun x => decide (1 / 10 ^ 6 ≤ |x|)) =
      (rows j).data.values.filterMap fun row => (row[f]?).filter fun x => decide (1 / 10 ^ 6 ≤ |x|) := by
    rw [values_keys hc.joined.wf, values_keys (hwf j P hP).1, hc.order j P hP, List.filterMap_filterMap,
      List.filterMap_filterMap]
    apply List.filterMap_congr
    intro k hk
    obtain ⟨row, hrow⟩ := Dict.exists_get?_of_mem hk
    obtain ⟨r, r1, r2⟩ := joined_value hc.joined hrow hP
    simp only [hrow, r1, Option.bind_some, r2 f hfl]
  rw [hcolumn, hcount, hB] at hA
  rw [List.getElem?_eq_getElem hcl]
  exact congrArg some (Except.ok.inj hA).symm

end DTree
end Verif
