import Verif.Spec.C51
import Verif.Lemmas.Tables

/-! # The samples at a node as a list of keys -/

set_option autoImplicit false

namespace Verif
namespace DTree

open Spec
open Binning (Cell SparseVec)

variable {K : Type} [DecidableEq K] {α : Type}

/-- The position says "at node `id`". -/
def isAt (pos : DTable K (Nat × Nat)) (id : Nat) (k : K) : Bool :=
  match pos.data.get? k with
  | some (s, n) => decide (s ≠ 0 ∧ n = id)
  | none => false

theorem isAt_iff (pos : DTable K (Nat × Nat)) (id : Nat) (k : K) :
    isAt pos id k = true ↔ ∃ s, s ≠ 0 ∧ pos.data.get? k = some (s, id) := by
  unfold isAt
  cases h : pos.data.get? k with
  | none => simp
  | some p =>
    obtain ⟨s, n⟩ := p
    simp only [decide_eq_true_eq, Option.some.injEq, Prod.mk.injEq]
    constructor
    · rintro ⟨h1, rfl⟩; exact ⟨s, h1, rfl, rfl⟩
    · rintro ⟨s', h1, rfl, rfl⟩; exact ⟨h1, rfl⟩

/-- The samples at a node, in the order of the gradients. -/
def membersOf (gh : DTable K (Rat × Rat)) (pos : DTable K (Nat × Nat)) (id : Nat) : List K :=
  gh.data.keys.filter (isAt pos id)

def rowOf (P : Party K) (k : K) : SparseVec Cell := (P.data.data.get? k).getD ⟨[], 0⟩

theorem atNode_members {P : Party K} {gh : DTable K (Rat × Rat)} (hw : gh.WF)
    (hkeys : ∀ k ∈ gh.data.keys, k ∈ P.data.data.keys) {pos : DTable K (Nat × Nat)}
    {data : DTable K (SparseVec Cell × Nat × Nat)}
    (hj : P.data.join pos (fun v p => (v, p)) = .ok data) (id : Nat) :
    atNode data gh id = (membersOf gh pos id).map fun k => (rowOf P k, ghOf gh k) := by
  obtain ⟨_, h2⟩ := DTable.join_inv hj
  unfold membersOf
  have key : ∀ l : List (K × Rat × Rat), (∀ p ∈ l, gh.data.get? p.1 = some p.2) →
      atNode data ⟨l⟩ id =
      ((Dict.keys l).filter (isAt pos id)).map fun k => (rowOf P k, ghOf gh k) := by
    intro l
    induction l with
    | nil => intro _; rfl
    | cons p l ih =>
      intro hp
      have hg := hp p (by simp)
      have ih := ih fun q hq => hp q (by simp [hq])
      obtain ⟨v, hv⟩ := Dict.exists_get?_of_mem (hkeys p.1 (Dict.mem_keys_of_get? hg))
      unfold atNode at ih ⊢
      rw [List.filterMap_cons, show Dict.keys (p :: l) = p.1 :: Dict.keys l from rfl, List.filter_cons]
      cases hpos : pos.data.get? p.1 with
      | none =>
        have hd : data.data.get? p.1 = none := by
          cases hc : data.data.get? p.1 with
          | none => rfl
          | some x =>
            obtain ⟨_, w, _, e, _⟩ := (h2 p.1 x).mp hc
            rw [hpos] at e; cases e
        have : isAt pos id p.1 = false := by unfold isAt; rw [hpos]
        rw [hd, this]
        simpa using ih
      | some w =>
        obtain ⟨s, n⟩ := w
        have hd : data.data.get? p.1 = some (v, s, n) := (h2 p.1 _).mpr ⟨v, (s, n), hv, hpos, rfl⟩
        rw [hd]
        have he : isAt pos id p.1 = decide (s ≠ 0 ∧ n = id) := by unfold isAt; rw [hpos]
        rw [he]
        by_cases hc : s ≠ 0 ∧ n = id
        · simp only [if_pos hc, decide_eq_true hc, if_true, List.map_cons]
          rw [ih]
          unfold rowOf ghOf
          rw [hv, hg]
          rfl
        · simp only [if_neg hc, decide_eq_false hc]
          simpa using ih
  exact key gh.data fun p hp => Dict.get?_of_mem hw hp

theorem membersOf_lists {gh : DTable K (Rat × Rat)} (hw : gh.WF) (pos : DTable K (Nat × Nat))
    (id : Nat) : Lists (membersOf gh pos id) fun k =>
      k ∈ gh.data.keys ∧ ∃ s, s ≠ 0 ∧ pos.data.get? k = some (s, id) := by
  refine ⟨List.Nodup.filter _ hw, fun k => ?_⟩
  unfold membersOf
  rw [List.mem_filter, isAt_iff]

omit [DecidableEq K] in
theorem Lists.perm {A B : List K} {p q : K → Prop} (hA : Lists A p) (hB : Lists B q)
    (h : ∀ k, p k ↔ q k) : A.Perm B := by
  rw [List.perm_ext_iff_of_nodup hA.1 hB.1]
  intro k
  rw [hA.2, hB.2, h]

omit [DecidableEq K] in
theorem Lists.congr {A : List K} {p q : K → Prop} (hA : Lists A p) (h : ∀ k, p k ↔ q k) : Lists A q :=
  ⟨hA.1, fun k => by rw [hA.2, h]⟩

theorem sumKeys_perm {gh : DTable K (Rat × Rat)} {A B : List K} (h : A.Perm B) :
    sumKeys gh A = sumKeys gh B := by
  unfold sumKeys
  rw [(h.map _).sum_eq, (h.map fun k => (ghOf gh k).2).sum_eq]

theorem offerAt_perm {S : Setup K α} {A B : List K} (h : A.Perm B) : OfferAt S A = OfferAt S B := by
  funext j f b l
  unfold OfferAt
  simp only [h.length_eq]
  have e1 := fun P : Party K => (h.filter fun k => decide (binAt P f k ≤ (b : Rat))).length_eq
  have e2 := fun P : Party K => (h.filter fun k => decide ((b : Rat) < binAt P f k)).length_eq
  have e3 := fun P : Party K => sumKeys_perm (gh := S.gh) (h.filter fun k => decide (binAt P f k ≤ (b : Rat)))
  simp only [e1, e2, e3]

theorem sumsOf_members (gh : DTable K (Rat × Rat)) (P : Party K) (A : List K) :
    sumsOf (A.map fun k => (rowOf P k, ghOf gh k)) = sumKeys gh A := by
  unfold sumsOf sumKeys
  simp [List.map_map, Function.comp_def]

theorem binOf_rowOf (P : Party K) (f : Nat) (k : K) (h : k ∈ P.data.data.keys) :
    binOf P.sparse f (rowOf P k) = binAt P f k := by
  obtain ⟨v, hv⟩ := Dict.exists_get?_of_mem h
  unfold rowOf binAt
  rw [hv]
  rfl

/-- What a party offers, in terms of keys. -/
theorem offeredOn_members (S : Setup K α) (P : Party K) (A : List K)
    (gh : DTable K (Rat × Rat)) (hA : ∀ k ∈ A, k ∈ P.data.data.keys) (f b : Nat) (l : Rat × Rat) :
    OfferedOn S.cfg P.valid P.splits P.sparse (A.map fun k => (rowOf P k, ghOf gh k)) f b l ↔
    ∃ sp, P.valid[f]? = some true ∧ P.splits[f]? = some sp ∧ b ≤ sp.length ∧
      S.cfg.minSample ≤ A.length ∧
      S.cfg.minLeaf ≤ (A.filter fun k => decide (binAt P f k ≤ (b : Rat))).length ∧
      S.cfg.minLeaf ≤ (A.filter fun k => decide ((b : Rat) < binAt P f k)).length ∧
      l = sumKeys gh (A.filter fun k => decide (binAt P f k ≤ (b : Rat))) := by
  have e1 : upToBin P.sparse f b (A.map fun k => (rowOf P k, ghOf gh k)) =
      (A.filter fun k => decide (binAt P f k ≤ (b : Rat))).map fun k => (rowOf P k, ghOf gh k) := by
    unfold upToBin
    rw [List.filter_map]
    congr 1
    apply List.filter_congr
    intro k hk
    simp only [Function.comp_apply, binOf_rowOf P f k (hA k hk)]
  have e2 : (A.map fun k => (rowOf P k, ghOf gh k)).filter
      (fun s => decide ((b : Rat) < binOf P.sparse f s.1)) =
      (A.filter fun k => decide ((b : Rat) < binAt P f k)).map fun k => (rowOf P k, ghOf gh k) := by
    rw [List.filter_map]
    congr 1
    apply List.filter_congr
    intro k hk
    simp only [Function.comp_apply, binOf_rowOf P f k (hA k hk)]
  unfold OfferedOn
  rw [e1, e2, sumsOf_members]
  simp only [List.length_map]
  constructor
  · rintro ⟨h1, ⟨sp, h2, h3⟩, h4⟩; exact ⟨sp, h1, h2, h3, h4⟩
  · rintro ⟨sp, h1, h2, h3, h4⟩; exact ⟨h1, ⟨sp, h2, h3⟩, h4⟩

end DTree
end Verif
