import Verif.Spec.C54
import Verif.Spec.C70
import Verif.Lemmas.Members
import Mathlib.Data.List.Sublists
import Mathlib.Tactic.Linarith

/-! # Listing the possible splits, to check that the choice is clear -/

set_option autoImplicit false

namespace Verif
namespace DTree

open Spec

variable {K : Type} [DecidableEq K] {α : Type}

/-- The parties with their positions. -/
def partyList (S : Setup K α) : List (Option Nat × Party K) :=
  (none, S.guest) :: S.hosts.zipIdx.map fun x => (some x.2, x.1)

/-- The possible splits of a set of samples. -/
def offerList (S : Setup K α) (A : List K) : List (Option Nat × Nat × Nat × (Rat × Rat)) :=
  (partyList S).flatMap fun p => p.2.splits.zipIdx.flatMap fun x =>
    ((List.range (x.1.length + 1)).filter fun (b : Nat) => decide (p.2.valid[x.2]? = some true ∧
      S.cfg.minSample ≤ A.length ∧
      S.cfg.minLeaf ≤ (A.filter fun k => decide (binAt p.2 x.2 k ≤ (b : Rat))).length ∧
      S.cfg.minLeaf ≤ (A.filter fun k => decide ((b : Rat) < binAt p.2 x.2 k)).length)).map fun b =>
    (p.1, x.2, b, sumKeys S.gh (A.filter fun k => decide (binAt p.2 x.2 k ≤ (b : Rat))))

omit [DecidableEq K] in
theorem mem_partyList {S : Setup K α} {j : Option Nat} {P : Party K} :
    (j, P) ∈ partyList S ↔ partyAt S j = some P := by
  unfold partyList
  match j with
  | none => simp [partyAt, eq_comm]
  | some j => simp [partyAt, List.mem_zipIdx_iff_getElem?]

theorem mem_offerList {S : Setup K α} {A : List K} {j : Option Nat} {f b : Nat} {l : Rat × Rat} :
    (j, f, b, l) ∈ offerList S A ↔ OfferAt S A j f b l := by
  unfold offerList OfferAt
  simp only [List.mem_flatMap, List.mem_map, List.mem_filter, List.mem_range, decide_eq_true_eq,
    Prod.exists, Prod.mk.injEq, List.mem_zipIdx_iff_getElem?, mem_partyList]
  constructor
  · rintro ⟨j', P, hP, sp, f', hf, b', ⟨h1, h2, h3, h4, h5⟩, rfl, rfl, rfl, rfl⟩
    exact ⟨P, sp, hP, h2, hf, by omega, h3, h4, h5, rfl⟩
  · rintro ⟨P, sp, hP, h2, hf, h1, h3, h4, h5, rfl⟩
    exact ⟨j, P, hP, sp, f, hf, b, ⟨by omega, h2, h3, h4, h5⟩, rfl, rfl, rfl, rfl⟩

/-- The gains of the possible splits, with the party. -/
def gainList (S : Setup K α) (A : List K) : List (Option Nat × Rat) :=
  (offerList S A).map fun x => (x.1, gain S.cfg.regLambda (sumKeys S.gh A) x.2.2.2)

/-- The check of `Decisive` on the list of gains. -/
def DecisiveGains (minImpurity : Rat) (L : List (Option Nat × Rat)) : Prop :=
  (∀ x ∈ L, x.2 ≤ minImpurity ∨ minImpurity + 5 / 10 ^ 6 < x.2) ∧
  ∀ x ∈ L, ∀ y ∈ L, x.1 ≠ y.1 → (∀ z ∈ L, z.2 ≤ x.2) → y.2 = x.2 ∨ y.2 + 5 / 10 ^ 6 < x.2

instance (m : Rat) (L : List (Option Nat × Rat)) : Decidable (DecisiveGains m L) := by
  unfold DecisiveGains; infer_instance

theorem decisive_of_list {S : Setup K α} {A : List K} (h : DecisiveGains S.cfg.minImpurity (gainList S A)) :
    Decisive S A := by
  have hm : ∀ {j f b l}, OfferAt S A j f b l →
      (j, gain S.cfg.regLambda (sumKeys S.gh A) l) ∈ gainList S A := fun ho =>
    List.mem_map.mpr ⟨_, mem_offerList.mpr ho, rfl⟩
  refine ⟨fun j f b l ho => h.1 _ (hm ho), fun j f b l j' f' b' l' h1 h2 hne hmax => ?_⟩
  refine h.2 _ (hm h1) _ (hm h2) hne ?_
  intro z hz
  obtain ⟨⟨j'', f'', b'', l''⟩, hx, rfl⟩ := List.mem_map.mp hz
  exact hmax j'' f'' b'' l'' (mem_offerList.mp hx)

theorem decisive_perm {S : Setup K α} {A B : List K} (h : A.Perm B) (hd : Decisive S A) : Decisive S B := by
  unfold Decisive at hd ⊢
  rw [offerAt_perm h, sumKeys_perm h] at hd
  exact hd

/-- It is enough to check all sublists of the samples. -/
theorem decisive_of_sublists {S : Setup K α} {keys A : List K} (hk : keys.Nodup) (hA : A.Nodup)
    (hs : ∀ k ∈ A, k ∈ keys)
    (h : ∀ B ∈ keys.sublists, DecisiveGains S.cfg.minImpurity (gainList S B)) : Decisive S A := by
  have hB : (keys.filter fun k => decide (k ∈ A)).Perm A := by
    apply (List.perm_ext_iff_of_nodup (hk.filter _) hA).mpr
    intro k
    simp only [List.mem_filter, decide_eq_true_eq]
    exact ⟨fun h => h.2, fun h => ⟨hs k h, h⟩⟩
  exact decisive_perm hB (decisive_of_list (h _ (List.mem_sublists.mpr List.filter_sublist)))

/-- The samples that a split sends to the left. -/
def leftSide (S : Setup K α) (A : List K) (x : Option Nat × Nat × Nat × (Rat × Rat)) : List K :=
  match partyAt S x.1 with
  | some P => A.filter fun k => decide (binAt P x.2.1 k ≤ (x.2.2.1 : Rat))
  | none => []

/-- The left sides of the possible splits, with the gains. -/
def sideList (S : Setup K α) (A : List K) : List (List K × Rat) :=
  (offerList S A).map fun x => (leftSide S A x, gain S.cfg.regLambda (sumKeys S.gh A) x.2.2.2)

/-- The check of `ClearAt` on this list. -/
def ClearSides (minImpurity δ : Rat) (L : List (List K × Rat)) : Prop :=
  ((∀ x ∈ L, x.2 ≤ minImpurity - δ) ∨ ∃ x ∈ L, minImpurity + δ < x.2) ∧
  ∀ x ∈ L, (∀ z ∈ L, z.2 ≤ x.2 + δ) → ∀ y ∈ L, (∀ z ∈ L, z.2 ≤ y.2 + δ) → x.1 = y.1

instance (m δ : Rat) (L : List (List K × Rat)) : Decidable (ClearSides m δ L) := by
  unfold ClearSides; infer_instance

theorem clear_of_list {S : Setup K α} {δ : Rat} {A : List K} (h : ClearSides S.cfg.minImpurity δ (sideList S A)) :
    ClearAt S δ A := by
  have hm : ∀ {j f b l}, OfferAt S A j f b l →
      (leftSide S A (j, f, b, l), gain S.cfg.regLambda (sumKeys S.gh A) l) ∈ sideList S A := fun ho =>
    List.mem_map.mpr ⟨_, mem_offerList.mpr ho, rfl⟩
  have hn : ∀ {l}, NearTop S δ A l → ∀ z ∈ sideList S A, z.2 ≤ gain S.cfg.regLambda (sumKeys S.gh A) l + δ := by
    intro l hl z hz
    obtain ⟨⟨j, f, b, l'⟩, hx, rfl⟩ := List.mem_map.mp hz
    exact hl j f b l' (mem_offerList.mp hx)
  refine ⟨h.1.imp (fun h j f b l ho => h _ (hm ho)) ?_, ?_⟩
  · rintro ⟨x, hx, h2⟩
    obtain ⟨⟨j, f, b, l⟩, hx', rfl⟩ := List.mem_map.mp hx
    exact ⟨j, f, b, l, mem_offerList.mp hx', h2⟩
  · intro j P f b l j' P' f' b' l' h1 h2 h3 h4 hP hP' k hk
    have := h.2 _ (hm h1) (hn h3) _ (hm h2) (hn h4)
    unfold leftSide at this
    simp only [hP, hP'] at this
    have hm : ∀ (P : Party K) (f b : Nat), k ∈ (A.filter fun k => decide (binAt P f k ≤ (b : Rat))) ↔
        binAt P f k ≤ (b : Rat) := fun P f b => by simp [List.mem_filter, hk]
    rw [← hm P f b, ← hm P' f' b', this]

theorem clear_perm {S : Setup K α} {δ : Rat} {A B : List K} (h : A.Perm B) (hd : ClearAt S δ A) : ClearAt S δ B := by
  unfold ClearAt NearTop at hd ⊢
  rw [offerAt_perm h, sumKeys_perm h] at hd
  exact ⟨hd.1, fun j P f b l j' P' f' b' l' h1 h2 h3 h4 h5 h6 k hk =>
    hd.2 j P f b l j' P' f' b' l' h1 h2 h3 h4 h5 h6 k (h.mem_iff.mpr hk)⟩

theorem clear_mono {S : Setup K α} {δ δ' : Rat} (h : δ ≤ δ') {A : List K} (hd : ClearAt S δ' A) : ClearAt S δ A := by
  have hn : ∀ l, NearTop S δ A l → NearTop S δ' A l := fun l hl j f b l' ho => (hl j f b l' ho).trans (by linarith)
  refine ⟨hd.1.imp (fun h' j f b l ho => (h' j f b l ho).trans (by linarith)) ?_, ?_⟩
  · rintro ⟨j, f, b, l, h1, h2⟩
    exact ⟨j, f, b, l, h1, by linarith⟩
  · intro j P f b l j' P' f' b' l' h1 h2 h3 h4
    exact hd.2 j P f b l j' P' f' b' l' h1 h2 (hn l h3) (hn l' h4)

/-- It is enough to check all sublists of the samples. -/
theorem clear_of_sublists {S : Setup K α} {δ : Rat} {keys A : List K} (hk : keys.Nodup) (hA : A.Nodup)
    (hs : ∀ k ∈ A, k ∈ keys) (h : ∀ B ∈ keys.sublists, ClearSides S.cfg.minImpurity δ (sideList S B)) : ClearAt S δ A := by
  have hB : (keys.filter fun k => decide (k ∈ A)).Perm A := by
    apply (List.perm_ext_iff_of_nodup (hk.filter _) hA).mpr
    intro k
    simp only [List.mem_filter, decide_eq_true_eq]
    exact ⟨fun h => h.2, fun h => ⟨hs k h, h⟩⟩
  exact clear_perm hB (clear_of_list (h _ (List.mem_sublists.mpr List.filter_sublist)))

end DTree
end Verif
