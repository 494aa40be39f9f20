import Verif.Lemmas.Sites
import Verif.Spec.C29
import Verif.Props.C26

/-! # A trained tree can be used for prediction -/

set_option autoImplicit false

namespace Verif
namespace DTree

open Spec

variable {K : Type} [DecidableEq K] {α : Type}

/-- Leaves carry the guest's name and no feature, and so do nodes that are still open. -/
def LeafSites (tree queue : List Node) : Prop :=
  (∀ n ∈ tree, n.isLeaf = true → n.site = .guest ∧ n.fid = none) ∧
    ∀ n ∈ queue, n.isLeaf = false ∧ n.site = .guest ∧ n.fid = none

theorem updateLoop_leafSites {cfg : Config} {kind : ImpType} {reach : Bool} :
    ∀ (ns : List Node) (ss : List (SplitInfo (Option Rat) Rat)) (g g' : Grow),
      updateLoop cfg kind reach ns ss g = .ok g' → (∀ n ∈ ns, n.isLeaf = false ∧ n.site = .guest ∧ n.fid = none) →
      LeafSites g.tree g.queue → LeafSites g'.tree g'.queue
  | [], ss, g, g', h, _, hi => by unfold updateLoop at h; cases h; exact hi
  | n :: ns, ss, g, g', h, hn, hi => by
    have hleaf : LeafSites (g.tree ++ [{ n with isLeaf := true }]) g.queue := by
      refine ⟨fun m hm hl => ?_, hi.2⟩
      rcases List.mem_append.mp hm with hm | hm
      · exact hi.1 m hm hl
      · rw [List.mem_singleton] at hm; subst hm
        exact (hn n (by simp)).2
    unfold updateLoop at h
    split at h
    · exact updateLoop_leafSites ns _ _ g' h (fun m hm => hn m (by simp [hm])) hleaf
    · split at h
      · cases h
      · rename_i s ss
        split at h
        · exact updateLoop_leafSites ns _ _ g' h (fun m hm => hn m (by simp [hm])) hleaf
        · split at h
          · cases h
          · rename_i g1 hg
            obtain ⟨gl, hl, wl, wr, bid, imps, _, _, _, _, _, _, _, ht, hq, _⟩ := splitNode_inv hg
            refine updateLoop_leafSites ns _ _ g' h (fun m hm => hn m (by simp [hm])) ⟨?_, ?_⟩
            · intro m hm hlm
              rw [ht] at hm
              rcases List.mem_append.mp hm with hm | hm
              · exact hi.1 m hm hlm
              · rw [List.mem_singleton] at hm; subst hm
                simp only [(hn n (by simp)).1] at hlm
                cases hlm
            · intro m hm
              rw [hq] at hm
              simp only [List.mem_append, List.mem_cons, List.not_mem_nil, or_false] at hm
              rcases hm with hm | rfl | rfl
              · exact hi.2 m hm
              · exact ⟨rfl, rfl, rfl⟩
              · exact ⟨rfl, rfl, rfl⟩

theorem fit_leafSites {S : Setup K α} {F : Fitted K} (h : fit S = .ok F) :
    ∀ n ∈ F.tree, n.isLeaf = true → n.site = .guest ∧ n.fid = none := by
  obtain ⟨st0, st, h1, h2, _, _, ht, _⟩ := fit_inv h
  obtain ⟨g, hs, w, disp, a1, a2, a3, rfl⟩ := initState_inv h1
  obtain ⟨dep, _, b⟩ := levels_induct
    (fun _ st => LeafSites st.grow.tree st.grow.queue)
    (by
      rintro dep reach st st' c _ hl
      obtain ⟨_, _, ss, _, _, _, _, h4, _⟩ := level_inv hl
      exact updateLoop_leafSites _ _ _ _ h4 c.2 ⟨c.1, by simp⟩)
    _ 0 _ st ⟨by simp, by
      intro n hn
      simp only [List.mem_singleton] at hn
      subst hn
      exact ⟨rfl, rfl, rfl⟩⟩ h2
  rw [ht]
  exact b.1

theorem fit_masks {S : Setup K α} {F : Fitted K} (h : fit S = .ok F) :
    F.hostMasks.length = S.hosts.length := by
  obtain ⟨st0, st, h1, h2, _, h4, _⟩ := fit_inv h
  obtain ⟨g, hs, w, disp, a1, a2, a3, rfl⟩ := initState_inv h1
  obtain ⟨dep, _, b1, b2⟩ := levels_induct
    (fun _ st => S.hosts.length = st.masks.length ∧ ∀ n ∈ st.grow.tree, SiteOk S.hosts n)
    (by
      rintro dep reach st st' ⟨c1, c2⟩ _ hl
      obtain ⟨d1, d2, _⟩ := level_sites c1 c2 hl
      exact ⟨d1, d2⟩)
    _ 0 _ st ⟨by simp, by simp⟩ h2
  exact (convertHosts_inv _ _ _ b1 h4).1

/-- Thresholds are kept for nodes of the tree only. -/
theorem fit_maskKeys {S : Setup K α} (hd : 1 ≤ S.maxDepth) {F : Fitted K} (h : fit S = .ok F) :
    (∀ i ∈ F.guestMask.keys, i < F.tree.length) ∧
      ∀ m ∈ F.hostMasks, ∀ i ∈ Dict.keys m, i < F.tree.length := by
  have hwf := C26_well_formed S hd F h
  obtain ⟨st0, st, h1, h2, h3, h4, ht, _⟩ := fit_inv h
  obtain ⟨g, hs, w, disp, a1, a2, a3, rfl⟩ := initState_inv h1
  obtain ⟨dep, _, b1, b2⟩ := levels_induct
    (fun _ st => S.hosts.length = st.masks.length ∧ ∀ n ∈ st.grow.tree, SiteOk S.hosts n)
    (by
      rintro dep reach st st' ⟨c1, c2⟩ _ hl
      obtain ⟨d1, d2, _⟩ := level_sites c1 c2 hl
      exact ⟨d1, d2⟩)
    _ 0 _ st ⟨by simp, by simp⟩ h2
  rw [← ht] at h3 h4
  have hnd : (F.tree.map Node.id).Nodup := by
    have : F.tree.map Node.id = List.range F.tree.length := by
      apply List.ext_getElem?
      intro i
      rw [List.getElem?_map]
      by_cases hi : i < F.tree.length
      · rw [List.getElem?_eq_getElem hi, List.getElem?_range hi, Option.map_some,
          hwf.number i _ (List.getElem?_eq_getElem hi)]
      · rw [List.getElem?_eq_none (by omega), List.getElem?_eq_none (by simp; omega)]; rfl
    rw [this]; exact List.nodup_range
  have key : ∀ (site : Site) (splits : List (List Rat)) (mask : Dict Nat Int) (d : Dict Nat Rat),
      convert site splits mask F.tree [] = .ok d → ∀ i ∈ d.keys, i < F.tree.length := by
    intro site splits mask d hc i hi
    by_contra hlt
    have := (convert_inv F.tree [] d hnd hc).2 i (by
      rintro n hn rfl
      obtain ⟨j, hj⟩ := List.mem_iff_getElem?.mp hn
      have hl := (List.getElem?_eq_some_iff.mp hj).1
      rw [hwf.number j n hj] at hlt
      exact absurd hl hlt)
    obtain ⟨v, hv⟩ := Dict.exists_get?_of_mem hi
    rw [hv] at this
    cases this
  refine ⟨key _ _ _ _ h3, fun m hm => ?_⟩
  obtain ⟨j, hj⟩ := List.mem_iff_getElem?.mp hm
  obtain ⟨e1, e2⟩ := convertHosts_inv _ _ _ b1 h4
  have hjl := (List.getElem?_eq_some_iff.mp hj).1
  obtain ⟨d, d1, d2⟩ := e2 j _ _ (List.getElem?_eq_getElem (by omega))
    (List.getElem?_eq_getElem (by omega))
  rw [hj, Option.some.injEq] at d1
  subst d1
  exact key _ _ _ _ d2

end DTree
end Verif
