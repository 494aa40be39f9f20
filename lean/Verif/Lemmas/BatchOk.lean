import Verif.Lemmas.Rules

/-! # All batches of a level together -/

set_option autoImplicit false

namespace Verif
namespace DTree

open Spec
open Binning (Cell SparseVec)

variable {K : Type} [DecidableEq K] {α : Type}

theorem Follows.congr {S : Setup K α} {R : Rules K} {A : List K} {node : Rat × Rat}
    {bidAt bidAt' : Nat → Option Int} {s : SplitInfo (Option Rat) Rat}
    (h : Follows S R A node bidAt s) (he : ∀ j, bidAt' j = bidAt j) : Follows S R A node bidAt' s := by
  have : bidAt' = bidAt := funext he
  rw [this]; exact h

theorem batchLoop_ok {S : Setup K α} {R : Rules K} (hc : ChoosesBy S R) (hb : S.maxSplitNodes ≠ 0)
    {dep : Nat} (hdep : dep < S.maxDepth)
    {pos : DTable K (Nat × Nat)} {dataPos : DTable K (SparseVec Cell × Nat × Nat)} (hpos : pos.WF)
    (hj : S.guest.data.join pos (fun v p => (v, p)) = .ok dataPos) :
    ∀ (fuel batch : Nat) (nodes : List Node) (masks : List (Dict Nat Int)), nodes.length ≤ fuel →
      (nodes.map Node.id).Nodup → S.hosts.length = masks.length →
      (∀ n ∈ nodes, R.near dep (membersOf S.gh pos n.id) (n.sumGrad, n.sumHess)) →
      ∃ ss masks', batchLoop S dep dataPos pos fuel batch nodes masks = .ok (ss, masks') ∧
        ss.length = nodes.length ∧
        ∀ (idx : Nat) n s, nodes[idx]? = some n → ss[idx]? = some s →
          Follows S R (membersOf S.gh pos n.id) (n.sumGrad, n.sumHess)
            (fun j => masks'[j]?.bind fun m => Dict.get? m n.id) s
  | fuel, batch, [], masks, _, _, _, _ => ⟨[], masks, by unfold batchLoop; rfl, rfl, by simp⟩
  | 0, _, _ :: _, _, hf, _, _, _ => by simp at hf
  | fuel + 1, batch, n :: ns, masks, hf, hnd, hlen, hs => by
    have happ : (n :: ns).take S.maxSplitNodes ++ (n :: ns).drop S.maxSplitNodes = n :: ns :=
      List.take_append_drop _ _
    have hnd' := hnd
    rw [← happ, List.map_append, List.nodup_append] at hnd'
    obtain ⟨nd1, nd2, ndx⟩ := hnd'
    have htake : (n :: ns).take S.maxSplitNodes ≠ [] := by
      cases hm : S.maxSplitNodes with
      | zero => exact absurd hm hb
      | succ m => simp
    obtain ⟨ss1, masks1, a1, a2, a3⟩ := hc dep batch pos dataPos _ masks hpos hj htake nd1 hlen hdep
      fun m hm => hs m (List.mem_of_mem_take hm)
    have fr1 := (batchSplits_inv hlen a1).2
    obtain ⟨ss2, masks2, b1, b2, b3⟩ := batchLoop_ok hc hb hdep hpos hj fuel (batch + 1)
      ((n :: ns).drop S.maxSplitNodes) masks1 (by
        rw [List.length_drop]
        simp only [List.length_cons] at hf ⊢
        omega) nd2 (by rw [hlen]; exact fr1.length_eq)
      fun m hm => hs m (List.mem_of_mem_drop hm)
    have fr2 := (batchLoop_inv fuel (batch + 1) _ masks1 masks2 ss2
      (by rw [hlen]; exact fr1.length_eq) b1).2
    refine ⟨ss1 ++ ss2, masks2, ?_, ?_, ?_⟩
    · unfold batchLoop
      simp only [bind, Except.bind, a1]
      rw [b1]
      rfl
    · rw [List.length_append, a2, b2, ← List.length_append, happ]
    · intro idx m s h1 h2
      by_cases hidx : idx < ((n :: ns).take S.maxSplitNodes).length
      · rw [← happ, List.getElem?_append_left hidx] at h1
        rw [List.getElem?_append_left (by rw [a2]; exact hidx)] at h2
        refine Follows.congr (a3 idx m s h1 h2) fun j => ?_
        have hm : m.id ∉ ((n :: ns).drop S.maxSplitNodes).map Node.id := fun hc =>
          ndx m.id (List.mem_map.mpr ⟨m, List.mem_of_getElem? h1, rfl⟩) m.id hc rfl
        rw [List.forall₂_iff_get] at fr2
        by_cases hjl : j < masks1.length
        · have hjl' : j < masks2.length := by rw [← fr2.1]; exact hjl
          have := fr2.2 j hjl hjl' m.id hm
          simp only [List.get_eq_getElem] at this
          rw [List.getElem?_eq_getElem hjl, List.getElem?_eq_getElem hjl']
          simpa using this
        · have := fr2.1
          rw [List.getElem?_eq_none (by omega), List.getElem?_eq_none (by omega)]
      · rw [← happ, List.getElem?_append_right (by omega)] at h1
        rw [List.getElem?_append_right (by rw [a2]; omega), a2] at h2
        exact b3 _ m s h1 h2

end DTree
end Verif
