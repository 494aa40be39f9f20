import Verif.Lemmas.DTable
import Verif.Lemmas.DTableM

/-! # What a successful table operation returns -/

set_option autoImplicit false

namespace Verif
namespace DTable

variable {K V W X : Type} [DecidableEq K]

theorem ofPairs_inv {ps : List (K × V)} {r : DTable K V} (h : ofPairs ps = .ok r) :
    r.data = ps ∧ r.WF := by
  rw [ofPairs_eq] at h
  by_cases hn : (ps.map Prod.fst).Nodup
  · rw [if_pos hn] at h; cases h; exact ⟨rfl, hn⟩
  · rw [if_neg hn] at h; cases h

theorem mapValuesM_inv {t : DTable K V} {f : V → Except PyErr W} {r : DTable K W}
    (h : t.mapValuesM f = .ok r) :
    r.WF ∧ ∀ k w, r.data.get? k = some w ↔ ∃ v, t.data.get? k = some v ∧ f v = .ok w := by
  unfold mapValuesM at h
  cases h1 : evalRecords f t.data with
  | error e => rw [h1] at h; cases h
  | ok l =>
    rw [h1] at h
    obtain ⟨e, hw⟩ := ofPairs_inv h
    refine ⟨hw, ?_⟩
    rw [e]
    exact (evalRecords_inv f t.data l h1).2

/-- Every record has been evaluated. -/
theorem mapValuesM_total {t : DTable K V} {f : V → Except PyErr W} {r : DTable K W}
    (h : t.mapValuesM f = .ok r) (k : K) (v : V) (hk : t.data.get? k = some v) :
    ∃ w, f v = .ok w ∧ r.data.get? k = some w := by
  have h' := h
  unfold mapValuesM at h
  cases h1 : evalRecords f t.data with
  | error e => rw [h1] at h; cases h
  | ok l =>
    rw [h1] at h
    obtain ⟨e, hw⟩ := ofPairs_inv h
    obtain ⟨i1, i2⟩ := evalRecords_inv f t.data l h1
    have hmem : k ∈ Dict.keys l := by
      show k ∈ l.map Prod.fst
      rw [i1]; exact Dict.mem_keys_of_get? hk
    obtain ⟨w, hw'⟩ := Dict.exists_get?_of_mem hmem
    obtain ⟨v', h2, h3⟩ := (i2 k w).mp hw'
    rw [hk] at h2; cases h2
    exact ⟨w, h3, by rw [e]; exact hw'⟩

theorem mapValues_inv {t : DTable K V} {f : V → W} {r : DTable K W} (h : t.mapValues f = .ok r) :
    r.WF ∧ ∀ k, r.data.get? k = (t.data.get? k).map f := by
  obtain ⟨e, hw⟩ := ofPairs_inv h
  refine ⟨hw, fun k => ?_⟩
  rw [e]
  exact Dict.get?_map (fun _ v => f v) t.data k

theorem join_inv {t : DTable K V} {o : DTable K W} {f : V → W → X} {r : DTable K X}
    (h : t.join o f = .ok r) :
    r.WF ∧ ∀ k x, r.data.get? k = some x ↔
      ∃ v w, t.data.get? k = some v ∧ o.data.get? k = some w ∧ f v w = x := by
  obtain ⟨e, hw⟩ := ofPairs_inv h
  refine ⟨hw, fun k x => ?_⟩
  rw [e, joinLoop_get?]
  cases t.data.get? k <;> cases o.data.get? k <;> simp

theorem joinM_inv {t : DTable K V} {o : DTable K W} {f : V → W → Except PyErr X} {r : DTable K X}
    (h : t.joinM o f = .ok r) :
    r.WF ∧ (∀ k x, r.data.get? k = some x ↔
      ∃ v w, t.data.get? k = some v ∧ o.data.get? k = some w ∧ f v w = .ok x) ∧
    ∀ k v w, t.data.get? k = some v → o.data.get? k = some w →
      ∃ x, f v w = .ok x ∧ r.data.get? k = some x := by
  unfold joinM at h
  cases h1 : evalRecords (fun p : V × W => f p.1 p.2) (joinLoop t.data Prod.mk o.data) with
  | error e => rw [h1] at h; cases h
  | ok l =>
    rw [h1] at h
    obtain ⟨e, hw⟩ := ofPairs_inv h
    obtain ⟨i1, i2⟩ := evalRecords_inv _ _ l h1
    have hiff : ∀ k x, r.data.get? k = some x ↔
        ∃ v w, t.data.get? k = some v ∧ o.data.get? k = some w ∧ f v w = .ok x := by
      intro k x
      rw [e, i2 k x, joinLoop_get?]
      constructor
      · rintro ⟨⟨v, w⟩, h2, h3⟩
        cases hv : t.data.get? k with
        | none => rw [hv] at h2; simp at h2
        | some v' =>
          cases hw' : o.data.get? k with
          | none => rw [hv, hw'] at h2; simp at h2
          | some w' =>
            rw [hv, hw'] at h2
            simp only [Option.some.injEq, Prod.mk.injEq] at h2
            obtain ⟨rfl, rfl⟩ := h2
            exact ⟨_, _, rfl, rfl, h3⟩
      · rintro ⟨v, w, h2, h3, h4⟩
        exact ⟨(v, w), by rw [h2, h3], h4⟩
    refine ⟨hw, hiff, fun k v w hv hw' => ?_⟩
    have hg : Dict.get? (joinLoop t.data Prod.mk o.data) k = some (v, w) := by
      rw [joinLoop_get?, hv, hw']
    have hmem : k ∈ Dict.keys l := by
      show k ∈ l.map Prod.fst
      rw [i1]; exact Dict.mem_keys_of_get? hg
    obtain ⟨x, hx⟩ := Dict.exists_get?_of_mem hmem
    obtain ⟨p, h2, h3⟩ := (i2 k x).mp hx
    rw [hg] at h2; cases h2
    exact ⟨x, h3, by rw [e]; exact hx⟩

theorem filter_inv {t : DTable K V} (ht : t.WF) {f : K → V → Bool} {r : DTable K V}
    (h : t.filter f = .ok r) :
    r.WF ∧ ∀ k v, r.data.get? k = some v ↔ t.data.get? k = some v ∧ f k v = true := by
  rw [filter_ok ht] at h
  cases h
  have hw : DTable.WF (⟨t.data.filter fun p => f p.1 p.2⟩ : DTable K V) := Dict.WF.filter ht _
  refine ⟨hw, fun k v => ?_⟩
  rw [Dict.get?_eq_some_iff hw, Dict.get?_eq_some_iff ht]
  exact List.mem_filter

theorem subtractByKey_inv {t : DTable K V} (ht : t.WF) {o : DTable K W} {r : DTable K V}
    (h : t.subtractByKey o = .ok r) :
    r.WF ∧ ∀ k v, r.data.get? k = some v ↔ t.data.get? k = some v ∧ o.data.get? k = none := by
  rw [subtractByKey_ok ht] at h
  cases h
  have hw : DTable.WF (⟨t.data.filter fun p => !(o.data.has p.1)⟩ : DTable K V) := Dict.WF.filter ht _
  refine ⟨hw, fun k v => ?_⟩
  rw [Dict.get?_eq_some_iff hw, Dict.get?_eq_some_iff ht, List.mem_filter]
  simp [Dict.has_false_iff, Dict.get?_eq_none_iff]

theorem union_inv {t o : DTable K V} (ho : o.WF) {r : DTable K V}
    (h : t.union o = .ok r) :
    r.WF ∧ ∀ k, r.data.get? k = (t.data.get? k).or (o.data.get? k) := by
  obtain ⟨e, hw⟩ := ofPairs_inv h
  refine ⟨hw, fun k => ?_⟩
  rw [e, unionLoop_get? _ _ ho]
  cases t.data.get? k <;> cases o.data.get? k <;> rfl

end DTable
end Verif
