import Verif.Model.DTable
import Verif.Lemmas.Dict

set_option autoImplicit false
set_option linter.unusedSectionVars false

namespace Verif
namespace DTable

variable {K V W X : Type*} [DecidableEq K]

theorem ctorLoop_pairs (acc : Dict K V) (ps : List (K × V)) (hacc : acc.WF) :
    ctorLoop acc (ps.map fun p => .pair p.1 p.2) =
      if (acc.keys ++ ps.map Prod.fst).Nodup then .ok (acc ++ ps) else .error .valueError := by
  induction ps generalizing acc with
  | nil =>
    have : (acc.keys).Nodup := hacc
    simp [ctorLoop, this]
  | cons p ps ih =>
    obtain ⟨k, v⟩ := p
    simp only [List.map_cons, ctorLoop]
    by_cases hk : k ∈ acc.keys
    · rw [if_pos ((Dict.has_iff acc k).mpr hk), if_neg]
      intro h
      rw [List.nodup_append] at h
      exact h.2.2 k hk k (by simp) rfl
    · have hk' : ¬ (acc.has k = true) := fun h => hk ((Dict.has_iff acc k).mp h)
      rw [if_neg hk', Dict.set_of_not_mem acc k v hk, ih]
      · simp
      · have := hacc.set k v
        rwa [Dict.set_of_not_mem acc k v hk] at this

theorem ofPairs_eq (ps : List (K × V)) :
    ofPairs ps = if (ps.map Prod.fst).Nodup then .ok ⟨ps⟩ else .error .valueError := by
  unfold ofPairs ofItems
  simp only
  have h0 := ctorLoop_pairs [] ps (by simp [Dict.WF])
  by_cases h : (ps.map Prod.fst).Nodup
  · rw [if_pos h, h0, if_pos (by simpa using h)]; rfl
  · rw [if_neg h, h0, if_neg (by simpa using h)]; rfl

theorem ofPairs_ok {ps : List (K × V)} (h : (ps.map Prod.fst).Nodup) : ofPairs ps = .ok ⟨ps⟩ := by
  rw [ofPairs_eq, if_pos h]

theorem enumLoop_eq (i : Nat) (acc : Dict Nat V) (vs : List V) (h : ∀ k ∈ acc.keys, k < i) :
    enumLoop i acc vs = acc ++ (vs.zipIdx i).map (fun p => (p.2, p.1)) := by
  induction vs generalizing i acc with
  | nil => simp [enumLoop]
  | cons v vs ih =>
    have hi : i ∉ acc.keys := fun hm => Nat.lt_irrefl _ (h i hm)
    rw [enumLoop, Dict.set_of_not_mem acc i v hi, ih]
    · simp
    · intro k hk
      simp at hk
      rcases hk with hk | hk
      · exact Nat.lt_succ_of_lt (h k hk)
      · omega

theorem takeLoop_eq (d : Dict K V) (n : Int) (i : Nat) (ps pre acc : List (K × V))
    (hd : d = pre ++ ps) (hwf : d.WF) :
    takeLoop d n i (Dict.keys ps) acc = acc ++ ps.take (n - i).toNat := by
  induction ps generalizing i pre acc with
  | nil => simp [takeLoop]
  | cons p ps ih =>
    obtain ⟨k, v⟩ := p
    simp only [Dict.keys_cons, takeLoop]
    by_cases hi : (i : Int) ≥ n
    · rw [if_pos hi]
      have : (n - i).toNat = 0 := by omega
      simp [this]
    · rw [if_neg hi]
      have hm : (k, v) ∈ d := by rw [hd]; simp
      rw [Dict.get?_of_mem hwf hm]
      simp only
      rw [ih (i + 1) (pre ++ [(k, v)]) (acc ++ [(k, v)]) (by simp [hd])]
      have : (n - (i : Int)).toNat = (n - ((i + 1 : Nat) : Int)).toNat + 1 := by omega
      rw [this]
      simp

theorem mapValues_ok {t : DTable K V} (h : t.WF) (f : V → W) :
    t.mapValues f = .ok ⟨t.data.map fun p => (p.1, f p.2)⟩ := by
  unfold mapValues
  apply ofPairs_ok
  rw [List.map_map]
  exact h

theorem map_ok {t : DTable K V} (h : t.WF) (f : K → V → W) :
    t.map f = .ok ⟨t.data.map fun p => (p.1, f p.1 p.2)⟩ := by
  unfold map
  apply ofPairs_ok
  rw [List.map_map]
  exact h

theorem filter_ok {t : DTable K V} (h : t.WF) (f : K → V → Bool) :
    t.filter f = .ok ⟨t.data.filter fun p => f p.1 p.2⟩ := by
  unfold filter
  simp only [beq_true]
  exact ofPairs_ok (Dict.WF.filter h _)

theorem subtractByKey_ok {t : DTable K V} (h : t.WF) (o : DTable K W) :
    t.subtractByKey o = .ok ⟨t.data.filter fun p => !(o.data.has p.1)⟩ :=
  ofPairs_ok (Dict.WF.filter h _)

theorem joinLoop_keys (d : Dict K V) (f : V → W → X) (e : Dict K W) :
    Dict.keys (joinLoop d f e) = (Dict.keys e).filter fun k => d.has k := by
  induction e with
  | nil => rfl
  | cons p e ih =>
    obtain ⟨k, w⟩ := p
    simp only [joinLoop, Dict.keys_cons, List.filter_cons, Dict.has]
    cases hg : d.get? k with
    | none => simpa [Dict.has] using ih
    | some v => simpa [Dict.has] using ih

theorem joinLoop_get? (d : Dict K V) (f : V → W → X) (e : Dict K W) (k : K) :
    Dict.get? (joinLoop d f e) k =
      match d.get? k, e.get? k with
      | some v, some w => some (f v w)
      | _, _ => none := by
  induction e with
  | nil => cases d.get? k <;> rfl
  | cons p e ih =>
    obtain ⟨k0, w⟩ := p
    simp only [joinLoop]
    by_cases h : k0 = k
    · subst h
      simp only [Dict.get?_cons, if_true]
      cases hg : d.get? k0 with
      | none => simp only [hg] at ih ⊢; exact ih
      | some v => simp [Dict.get?_cons]
    · cases hg : d.get? k0 with
      | none => simp only [Dict.get?_cons, h, if_false]; exact ih
      | some v => simp only [Dict.get?_cons, h, if_false]; exact ih

theorem joinLoop_WF (d : Dict K V) (f : V → W → X) {e : Dict K W} (he : e.WF) :
    Dict.WF (joinLoop d f e) := by
  unfold Dict.WF
  rw [joinLoop_keys]
  exact List.Nodup.sublist List.filter_sublist he

theorem join_ok (t : DTable K V) {o : DTable K W} (h : o.WF) (f : V → W → X) :
    t.join o f = .ok ⟨joinLoop t.data f o.data⟩ :=
  ofPairs_ok (joinLoop_WF t.data f h)

theorem unionLoop_WF (f : V → V → V) {d : Dict K V} (hd : d.WF) (e : Dict K V) :
    Dict.WF (unionLoop f d e) := by
  induction e generalizing d with
  | nil => exact hd
  | cons p e ih =>
    obtain ⟨k, v⟩ := p
    simp only [unionLoop]
    split
    · exact ih (hd.set _ _)
    · exact ih (hd.set _ _)

theorem unionLoop_get? (f : V → V → V) (d : Dict K V) {e : Dict K V} (he : e.WF) (k : K) :
    Dict.get? (unionLoop f d e) k =
      match d.get? k, e.get? k with
      | some v, some w => some (f v w)
      | some v, none => some v
      | none, some w => some w
      | none, none => none := by
  induction e generalizing d with
  | nil => simp only [unionLoop, Dict.get?_nil]; cases d.get? k <;> rfl
  | cons p e ih =>
    obtain ⟨k0, v0⟩ := p
    have he' : k0 ∉ Dict.keys e ∧ (Dict.keys e).Nodup := List.nodup_cons.mp he
    have hnone : Dict.get? e k0 = none := (Dict.get?_eq_none_iff e k0).mpr he'.1
    simp only [unionLoop]
    by_cases h : k0 = k
    · subst h
      cases hg : d.get? k0 with
      | none => simp [ih _ he'.2, Dict.get?_set, hnone, Dict.get?_cons]
      | some v => simp [ih _ he'.2, Dict.get?_set, hnone, Dict.get?_cons]
    · cases hg : d.get? k0 with
      | none => simp [ih _ he'.2, Dict.get?_set, Dict.get?_cons, h]
      | some v => simp [ih _ he'.2, Dict.get?_set, Dict.get?_cons, h]

theorem unionLoop_keys (f : V → V → V) (d : Dict K V) {e : Dict K V} (he : e.WF) :
    Dict.keys (unionLoop f d e) = d.keys ++ e.keys.filter fun k => !(d.has k) := by
  induction e generalizing d with
  | nil => simp [unionLoop]
  | cons p e ih =>
    obtain ⟨k0, v0⟩ := p
    have he' : k0 ∉ Dict.keys e ∧ (Dict.keys e).Nodup := List.nodup_cons.mp he
    have key : ∀ w : V, ∀ k ∈ Dict.keys e,
        (!(Dict.has (d.set k0 w) k)) = (!(d.has k)) := by
      intro w k hk
      have hne : k0 ≠ k := fun e' => he'.1 (e' ▸ hk)
      simp [Dict.has, Dict.get?_set, hne]
    simp only [unionLoop]
    cases hg : d.get? k0 with
    | none =>
      have hk : k0 ∉ d.keys := (Dict.get?_eq_none_iff d k0).mp hg
      simp only
      rw [ih _ he'.2, List.filter_congr (key v0), Dict.keys_set, if_neg hk]
      simp [Dict.has, hg]
    | some v =>
      have hk : k0 ∈ d.keys := Dict.mem_keys_of_get? hg
      simp only
      rw [ih _ he'.2, List.filter_congr (key _), Dict.keys_set, if_pos hk]
      simp [Dict.has, hg]

theorem union_ok {t : DTable K V} (ht : t.WF) (o : DTable K V) (f : V → V → V) :
    t.union o f = .ok ⟨unionLoop f t.data o.data⟩ :=
  ofPairs_ok (unionLoop_WF f ht o.data)

end DTable
end Verif
