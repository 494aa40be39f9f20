import Verif.Model.DTableM
import Verif.Lemmas.DTable

set_option autoImplicit false
set_option linter.unusedSectionVars false

namespace Verif
namespace DTable

variable {K V W X : Type} [DecidableEq K]

theorem evalRecords_ok (f : V → Except PyErr W) (g : V → W) (l : List (K × V))
    (h : ∀ p ∈ l, f p.2 = .ok (g p.2)) :
    evalRecords f l = .ok (l.map fun p => (p.1, g p.2)) := by
  induction l with
  | nil => rfl
  | cons p l ih =>
    obtain ⟨k, v⟩ := p
    have h1 := h (k, v) (by simp)
    simp only at h1
    simp only [evalRecords, h1, ih (fun q hq => h q (List.mem_cons_of_mem _ hq)), List.map_cons]

/-- Every successful evaluation has the same keys and pointwise results. -/
theorem evalRecords_inv (f : V → Except PyErr W) (l : List (K × V)) (r : List (K × W))
    (h : evalRecords f l = .ok r) :
    r.map Prod.fst = l.map Prod.fst ∧
      ∀ k, ∀ w, Dict.get? r k = some w ↔ ∃ v, Dict.get? l k = some v ∧ f v = .ok w := by
  induction l generalizing r with
  | nil => cases h; exact ⟨rfl, by intro k w; simp⟩
  | cons p l ih =>
    obtain ⟨k0, v0⟩ := p
    simp only [evalRecords] at h
    cases hf : f v0 with
    | error e => rw [hf] at h; cases h
    | ok w0 =>
      rw [hf] at h
      cases hr : evalRecords f l with
      | error e => rw [hr] at h; cases h
      | ok ws =>
        rw [hr] at h
        cases h
        obtain ⟨i1, i2⟩ := ih ws hr
        refine ⟨by simp [i1], ?_⟩
        intro k w
        simp only [Dict.get?_cons]
        by_cases hk : k0 = k
        · simp only [hk, if_true, Option.some.injEq]
          constructor
          · rintro rfl; exact ⟨v0, rfl, hf⟩
          · rintro ⟨v, rfl, hv⟩; rw [hf] at hv; cases hv; rfl
        · simp only [hk, if_false]; exact i2 k w

theorem mapValuesM_ok {t : DTable K V} (ht : t.WF) (f : V → Except PyErr W) (g : V → W)
    (h : ∀ p ∈ t.data, f p.2 = .ok (g p.2)) :
    t.mapValuesM f = .ok ⟨t.data.map fun p => (p.1, g p.2)⟩ := by
  unfold mapValuesM
  rw [evalRecords_ok f g _ h]
  simp only [Except.bind]
  apply ofPairs_ok
  rw [List.map_map]
  exact ht

theorem joinM_ok (t : DTable K V) {o : DTable K W} (ho : o.WF) (f : V → W → Except PyErr X)
    (g : V → W → X)
    (h : ∀ k v w, t.data.get? k = some v → o.data.get? k = some w → f v w = .ok (g v w)) :
    t.joinM o f = .ok ⟨joinLoop t.data g o.data⟩ := by
  unfold joinM
  have hmap : ∀ l : List (K × W), (joinLoop t.data Prod.mk l).map (fun p => (p.1, g p.2.1 p.2.2)) =
      joinLoop t.data g l := by
    intro l
    induction l with
    | nil => rfl
    | cons p l ih =>
      obtain ⟨k, w⟩ := p
      simp only [joinLoop]
      cases t.data.get? k with
      | none => exact ih
      | some v => simp [ih]
  rw [evalRecords_ok _ (fun p : V × W => g p.1 p.2), hmap]
  · exact ofPairs_ok (joinLoop_WF _ _ ho)
  · intro p hp
    obtain ⟨k, v, w⟩ := p
    have hw := joinLoop_WF t.data Prod.mk ho
    have hg := Dict.get?_of_mem hw hp
    rw [joinLoop_get?] at hg
    cases hv : t.data.get? k with
    | none => rw [hv] at hg; simp at hg
    | some v' =>
      cases hw' : o.data.get? k with
      | none => rw [hv, hw'] at hg; simp at hg
      | some w' =>
        rw [hv, hw'] at hg
        simp only [Option.some.injEq, Prod.mk.injEq] at hg
        obtain ⟨rfl, rfl⟩ := hg
        exact h k v' w' hv hw'

end DTable
end Verif
