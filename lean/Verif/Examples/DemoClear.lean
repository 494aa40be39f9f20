import Verif.Examples.DemoMovedBoost
import Verif.Lemmas.OfferList
import Verif.Lemmas.MovedPredict

/-!
# Clear decisions in the runs of `DemoMovedBoost`

All trees of these runs have the same gradients, so it is enough to look at the first.
-/

set_option autoImplicit false

namespace Verif
namespace DemoClear

open DTree Spec

/-- The first tree's data in the clear. -/
def plain : Setup Nat Rat := { DemoRaw.setup with cfg := ⟨1/10, 1/1000, 5, 1, id⟩ }

theorem plain_clear : ∀ B ∈ [0, 1, 2, 3, 4, 5].sublists, ClearSides plain.cfg.minImpurity (1 / 10 ^ 5) (sideList plain B) := by
  decide +kernel

theorem sums_of {gh gh' : DTable Nat (Rat × Rat)} (h : ∀ k, gh'.data.get? k = gh.data.get? k) :
    sumKeys gh' = sumKeys gh := by
  have : ghOf gh' = ghOf gh := by
    funext k; unfold ghOf; rw [h]
  funext A
  unfold sumKeys
  rw [this]

theorem party_valid {P : Party Nat} {v : List Bool} (h : P.valid = v) : { P with valid := v } = P := by
  subst h; rfl

theorem offer_congr {α β : Type} {S : Setup Nat α} {S' : Setup Nat β} {A : List Nat} (hc : S'.cfg = S.cfg)
    (hp : ∀ j, partyAt S' j = partyAt S j) (hg : sumKeys S'.gh = sumKeys S.gh) : OfferAt S' A = OfferAt S A := by
  unfold OfferAt
  simp only [hc, hp, hg]

theorem clear_congr {α β : Type} {S : Setup Nat α} {S' : Setup Nat β} {δ : Rat} {A : List Nat} (hc : S'.cfg = S.cfg)
    (hp : ∀ j, partyAt S' j = partyAt S j) (hg : sumKeys S'.gh = sumKeys S.gh) (h : ClearAt S δ A) : ClearAt S' δ A := by
  have ho := offer_congr (A := A) hc hp hg
  unfold ClearAt NearTop at h ⊢
  simp only [ho, hc, hp, hg]
  exact h

theorem clearFor_congr {α β : Type} {S : Setup Nat α} {S' : Setup Nat β} {δ : Rat} {A : List Nat} (hc : S'.cfg = S.cfg)
    (hp : ∀ j, partyAt S' j = partyAt S j) (hg : sumKeys S'.gh = sumKeys S.gh) {new : Option Nat → DTable Nat (List Rat)}
    {k : Nat} (h : ClearFor S δ A new k) : ClearFor S' δ A new k := by
  have ho := offer_congr (A := A) hc hp hg
  unfold ClearFor NearTop at h ⊢
  simp only [ho, hc, hp, hg]
  exact h

/-- The gradients and hessians of every tree are the labels. -/
theorem sums_labels {α : Type} {B : Boost Nat α (Rat × Rat)} (hB : B.gradHess = DemoMovedBoost.gradHess)
    {y : DTable Nat (Rat × Rat)} {init : List Rat} {fits : List (Fitted Nat)} {n : Nat} {gh : DTable Nat (Rat × Rat)}
    (hg : GradientsFor B y init fits n gh) : sumKeys gh = sumKeys y := by
  apply sums_of
  intro k
  cases hl : y.data.get? k with
  | none =>
    rw [Dict.get?_eq_none_iff] at hl ⊢
    exact fun h => hl ((hg.2.1 k).mp h)
  | some l =>
    obtain ⟨g, h, a, b, e1, e2, e3, e4⟩ := hg.2.2 k l hl
    rw [e4]
    rw [hB] at e1
    cases e1
    rw [List.getElem?_map] at e2 e3
    cases hx : (scoreAfter init B.rate B.dim (weightIn fits k) (n / B.dim * B.dim))[n % B.dim]? with
    | none => rw [hx] at e2; cases e2
    | some x =>
      rw [hx] at e2 e3
      simp only [Option.map_some, Option.some.injEq] at e2 e3
      rw [← e2, ← e3]

theorem sums {sk : Paillier.PrivKey} {init : List Rat} {fits : List (Fitted Nat)} {n : Nat} {gh : DTable Nat (Rat × Rat)}
    (hg : GradientsFor (DemoMovedBoost.first sk) DemoMovedBoost.labels init fits n gh) : sumKeys gh = sumKeys plain.gh :=
  sums_labels rfl hg

theorem parties (sk : Paillier.PrivKey) (i t : Nat) (gh : DTable Nat (Rat × Rat)) (egh) (j : Option Nat) :
    partyAt (treeSetup (DemoMovedBoost.first sk) i t gh egh) j = partyAt plain j := by
  rw [treeSetup_party]
  match j with
  | none => exact congrArg some (party_valid (by show DemoRaw.setup.guest.valid = [true, true]; decide +kernel))
  | some 0 => exact congrArg some (party_valid (P := DemoRaw.party 1 ["c"] DemoRaw.hostRows1)
      (by show _ = [true]; decide +kernel))
  | some 1 => exact congrArg some (party_valid (P := DemoRaw.party 2 ["d"] DemoRaw.hostRows2)
      (by show _ = [true]; decide +kernel))
  | some (j + 2) => rfl

theorem run_clear (sk : Paillier.PrivKey) (init : List Rat) (fits : List (Fitted Nat)) :
    ClearRun (DemoMovedBoost.first sk) DemoMovedBoost.labels init (5 / 10 ^ 6) DemoRaw.rows fits := by
  intro n F gh egh _ hg i d _ _ A hA
  have hk : DemoMovedBoost.labels.data.keys = [0, 1, 2, 3, 4, 5] := by decide
  have hsub : ∀ k ∈ A, k ∈ [0, 1, 2, 3, 4, 5] := fun k hk' => by
    have := (hg.2.1 k).mp ((hA.2 k).mp hk').1
    rwa [hk] at this
  exact clear_mono (by norm_num) (clear_congr (S := plain) rfl (parties sk _ _ gh egh)
    (sums hg) (clear_of_sublists (by decide) hA.1 hsub plain_clear))

/-- Rows of two new samples, for the parties of the first run. -/
def new : Option Nat → DTable Nat (List Rat)
  | none => ⟨[(10, [1 / 4, 4]), (11, [5 / 2, 3])]⟩
  | some 0 => ⟨[(11, [9]), (10, [2])]⟩
  | some _ => ⟨[(10, [-2]), (11, [-1 / 4])]⟩

/-- Rows of the same samples, for the parties of the second run. -/
def newMoved : Option Nat → DTable Nat (List Rat)
  | none => ⟨[(10, [2]), (11, [9])]⟩
  | some _ => ⟨[(11, [3, -1 / 4, 5 / 2]), (10, [4, -2, 1 / 4])]⟩

/-- Where a split sends a new sample. -/
def below (S : Setup Nat Rat) (new : Option Nat → DTable Nat (List Rat)) (x : Option Nat × Nat × Nat × (Rat × Rat))
    (k : Nat) : Option Bool := do
  let P ← partyAt S x.1
  let sp ← P.splits[x.2.1]?
  let t ← sp[x.2.2.1]?
  let row ← (new x.1).data.get? k
  return decide (value row x.2.1 ≤ t)

/-- The check of `ClearFor` on the list of possible splits. -/
def ClearNew (S : Setup Nat Rat) (δ : Rat) (new : Option Nat → DTable Nat (List Rat)) (keys : List Nat) (A : List Nat) : Prop :=
  ∀ x ∈ offerList S A, (∀ z ∈ sideList S A, z.2 ≤ gain S.cfg.regLambda (sumKeys S.gh A) x.2.2.2 + δ) →
    ∀ y ∈ offerList S A, (∀ z ∈ sideList S A, z.2 ≤ gain S.cfg.regLambda (sumKeys S.gh A) y.2.2.2 + δ) →
      ∀ k ∈ keys, below S new x k = below S new y k

instance (S : Setup Nat Rat) (δ : Rat) (new : Option Nat → DTable Nat (List Rat)) (keys A : List Nat) :
    Decidable (ClearNew S δ new keys A) := by
  unfold ClearNew; infer_instance

theorem clear_new : ∀ B ∈ [0, 1, 2, 3, 4, 5].sublists, ClearNew plain (5 / 10 ^ 6) new [10, 11] B := by decide +kernel

theorem clearFor_of_list {S : Setup Nat Rat} {δ : Rat} {new : Option Nat → DTable Nat (List Rat)} {keys A : List Nat}
    (h : ClearNew S δ new keys A) {k : Nat} (hk : k ∈ keys) : ClearFor S δ A new k := by
  have hn : ∀ {l}, NearTop S δ A l → ∀ z ∈ sideList S A, z.2 ≤ gain S.cfg.regLambda (sumKeys S.gh A) l + δ := by
    intro l hl z hz
    obtain ⟨⟨j, f, b, l'⟩, hx, rfl⟩ := List.mem_map.mp hz
    exact hl j f b l' (mem_offerList.mp hx)
  intro j P f b l sp t j' P' f' b' l' sp' t' h1 h2 h3 h4 hP hf hb hP' hf' hb' row row' e e'
  have := h _ (mem_offerList.mpr h1) (hn h3) _ (mem_offerList.mpr h2) (hn h4) k hk
  unfold below at this
  simp only [hP, hf, hb, e, hP', hf', hb', e', Option.bind_eq_bind, Option.bind_some, Option.pure_def, Option.some.injEq,
    decide_eq_decide] at this
  exact this

theorem clearFor_perm {S : Setup Nat Rat} {δ : Rat} {new : Option Nat → DTable Nat (List Rat)} {A B : List Nat} (h : A.Perm B)
    {k : Nat} (hd : ClearFor S δ A new k) : ClearFor S δ B new k := by
  unfold ClearFor NearTop at hd ⊢
  rw [offerAt_perm h, sumKeys_perm h] at hd
  exact hd

theorem clearFor_of_sublists {S : Setup Nat Rat} {δ : Rat} {new : Option Nat → DTable Nat (List Rat)} {keys all A : List Nat}
    (hk : all.Nodup) (hA : A.Nodup) (hs : ∀ k ∈ A, k ∈ all) (h : ∀ B ∈ all.sublists, ClearNew S δ new keys B) {k : Nat}
    (hm : k ∈ keys) : ClearFor S δ A new k := by
  have hB : (all.filter fun k => decide (k ∈ A)).Perm A := by
    apply (List.perm_ext_iff_of_nodup (hk.filter _) hA).mpr
    intro k
    simp only [List.mem_filter, decide_eq_true_eq]
    exact ⟨fun h => h.2, fun h => ⟨hs k h, h⟩⟩
  exact clearFor_perm hB (clearFor_of_list (h _ (List.mem_sublists.mpr List.filter_sublist)) hm)

theorem new_keys {j : Option Nat} {k : Nat} {row : List Rat} (h : (new j).data.get? k = some row) : k ∈ [10, 11] := by
  have h := Dict.mem_keys_of_get? h
  match j, h with
  | none, h => exact h
  | some 0, h =>
    have h : k ∈ [11, 10] := h
    simpa [or_comm] using h
  | some (_ + 1), h => exact h

theorem run_new (sk : Paillier.PrivKey) (init : List Rat) (fits : List (Fitted Nat)) :
    ClearRunForNew (DemoMovedBoost.first sk) DemoMovedBoost.labels init (5 / 10 ^ 6) DemoRaw.rows new fits := by
  intro n F gh egh _ hg i d _ _ A hA k _
  have hk : DemoMovedBoost.labels.data.keys = [0, 1, 2, 3, 4, 5] := by decide
  have hsub : ∀ k ∈ A, k ∈ [0, 1, 2, 3, 4, 5] := fun k hk' => by
    have := (hg.2.1 k).mp ((hA.2 k).mp hk').1
    rwa [hk] at this
  by_cases hm : k ∈ [10, 11]
  · exact clearFor_congr (S := plain) (S' := treeSetup (DemoMovedBoost.first sk) (n / 2) (n % 2) gh egh) rfl (parties sk _ _ gh egh) (sums hg)
      (clearFor_of_sublists (by decide) hA.1 hsub clear_new hm)
  · intro j P f b l sp t j' P' f' b' l' sp' t' _ _ _ _ _ _ _ _ _ _ row row' e _
    exact absurd (new_keys e) hm

theorem new_columns (sk : Paillier.PrivKey) : ColumnsWith DemoMovedBoost.labels.data.keys (DemoMovedBoost.second sk)
    DemoMoved.rows newMoved (DemoMovedBoost.first sk) DemoRaw.rows new := by
  have hk : ∀ {j : Option Nat} {k : Nat} {row : List Rat}, (newMoved j).data.get? k = some row → k ∈ [10, 11] := by
    intro j k row h
    have h := Dict.mem_keys_of_get? h
    match j, h with
    | none, h => exact h
    | some _, h =>
      have h : k ∈ [11, 10] := h
      simpa [or_comm] using h
  have col : ∀ {j : Option Nat} {P : Party Nat} {f : Nat} (j' : Option Nat) (P' : Party Nat) (f' : Nat),
      partyAt (DemoMovedBoost.first sk).base j' = some P' → P'.splits[f']? = P.splits[f]? →
      (∀ i t, ((DemoMovedBoost.first sk).valid i t j')[f']? = ((DemoMovedBoost.second sk).valid i t j)[f]?) →
      (∀ k ∈ [0, 1, 2, 3, 4, 5], value (((DemoRaw.rows j').data.get? k).getD []) f' =
        value (((DemoMoved.rows j).data.get? k).getD []) f) →
      (∀ k ∈ [10, 11], value (((new j').data.get? k).getD []) f' = value (((newMoved j).data.get? k).getD []) f) →
      ∃ j' P' f', partyAt (DemoMovedBoost.first sk).base j' = some P' ∧ P'.splits[f']? = P.splits[f]? ∧
        (∀ i t, ((DemoMovedBoost.first sk).valid i t j')[f']? = ((DemoMovedBoost.second sk).valid i t j)[f]?) ∧
        (∀ k ∈ DemoMovedBoost.labels.data.keys, ∀ row row', (DemoMoved.rows j).data.get? k = some row →
          (DemoRaw.rows j').data.get? k = some row' → value row' f' = value row f) ∧
        ∀ k row row', (newMoved j).data.get? k = some row → (new j').data.get? k = some row' →
          value row' f' = value row f := by
    intro j P f j' P' f' h1 h2 h3 h4 h5
    refine ⟨j', P', f', h1, h2, h3, fun k hk row row' e e' => ?_, fun k row row' e e' => ?_⟩
    · have hl : DemoMovedBoost.labels.data.keys = [0, 1, 2, 3, 4, 5] := by decide
      have := h4 k (hl ▸ hk)
      rw [e, e'] at this
      exact this
    · have := h5 k (hk e)
      rw [e, e'] at this
      exact this
  refine DemoMovedBoost.cases ?_ ?_
  · intro f hf
    have hl : DemoMoved.guest.splits.length = 1 := by decide +kernel
    have hf : f < 1 := hl ▸ hf
    match f, hf with
    | 0, _ => exact (col (some 0) (DemoRaw.party 1 ["c"] DemoRaw.hostRows1) 0 rfl (by decide +kernel) (fun _ _ => rfl)
        (by decide +kernel) (by decide +kernel))
  · intro f hf
    have hl : DemoMoved.host.splits.length = 3 := by decide +kernel
    have hf : f < 3 := hl ▸ hf
    match f, hf with
    | 0, _ => exact (col none (DemoRaw.party 0 ["a", "b"] DemoRaw.guestRows) 1 rfl (by decide +kernel) (fun _ _ => rfl)
        (by decide +kernel) (by decide +kernel))
    | 1, _ => exact (col (some 1) (DemoRaw.party 2 ["d"] DemoRaw.hostRows2) 0 rfl (by decide +kernel) (fun _ _ => rfl)
        (by decide +kernel) (by decide +kernel))
    | 2, _ => exact (col none (DemoRaw.party 0 ["a", "b"] DemoRaw.guestRows) 0 rfl (by decide +kernel) (fun _ _ => rfl)
        (by decide +kernel) (by decide +kernel))

theorem same (sk : Paillier.PrivKey) : SameSamples (DemoMovedBoost.first sk).base new := by
  refine ⟨fun j P hP => ?_, fun j P hP k => ?_, by decide⟩
  · unfold DTable.WF Dict.WF
    match j with
    | none => decide
    | some 0 => decide
    | some (j + 1) => show [10, 11].Nodup; decide
  · match j with
    | none => rfl
    | some 0 =>
      show k ∈ [11, 10] ↔ k ∈ [10, 11]
      simp [or_comm]
    | some (j + 1) => exact Iff.rfl

theorem same_moved (sk : Paillier.PrivKey) : SameSamples (DemoMovedBoost.second sk).base newMoved := by
  refine ⟨fun j P hP => ?_, fun j P hP k => ?_, by decide⟩
  · unfold DTable.WF Dict.WF
    match j with
    | none => decide
    | some j => show [11, 10].Nodup; decide
  · match j with
    | none => rfl
    | some j =>
      show k ∈ [11, 10] ↔ k ∈ [10, 11]
      simp [or_comm]

end DemoClear
end Verif
