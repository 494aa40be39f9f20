import Verif.Lemmas.Levels
import Verif.Examples.Demo

/-! # C27: depth and size of a tree are bounded by the configuration -/

set_option autoImplicit false

namespace Verif

open DTree Spec

variable {K : Type} [DecidableEq K] {α : Type}

/-- A path from the root has at most `maxDepth` nodes. -/
theorem C27_depth (S : Setup K α) (hd : 1 ≤ S.maxDepth) (F : Fitted K) (h : fit S = .ok F)
    (i d : Nat) (hi : DepthAt F.tree i d) : i < F.tree.length ∧ d ≤ S.maxDepth := by
  obtain ⟨lev, sums, dep, num, hle, _, hinv, hlev, _⟩ := fit_ready hd h
  have hwf := hinv.wellFormed
  have hlt : i < F.tree.length := by
    cases hi with
    | root => exact List.length_pos_of_ne_nil hwf.root
    | child hp hc =>
      obtain ⟨n, hn, hc⟩ := hc
      rcases hwf.shape _ n hn with ⟨_, h1, h2⟩ | ⟨_, l, r, h1, h2, _, _, _, h3, h4⟩
      · rw [h1, h2] at hc; simp at hc
      · rw [h1, h2, Option.some.injEq, Option.some.injEq] at hc
        rcases hc with rfl | rfl <;> assumption
  refine ⟨hlt, ?_⟩
  have e := hinv.depth i d hi
  have hn := hinv.number.2 i _ (List.getElem?_eq_getElem hlt)
  have := hlev _ (List.getElem_mem hlt)
  rw [hn, e] at this
  omega

/-- The tree has at most `2 ^ maxDepth - 1` nodes. -/
theorem C27_size (S : Setup K α) (hd : 1 ≤ S.maxDepth) (F : Fitted K) (h : fit S = .ok F) :
    F.tree.length ≤ 2 ^ S.maxDepth - 1 := by
  obtain ⟨lev, sums, dep, num, hle, _, _, _, hs⟩ := fit_ready hd h
  have := Nat.pow_le_pow_right (n := 2) (by omega) hle
  omega

/-- With maximum depth 0, which the parameter check does not admit (C41), the tree is empty. -/
theorem C27_depth_zero (S : Setup K α) (hd : S.maxDepth = 0) (F : Fitted K) (h : fit S = .ok F) :
    F.tree = [] := by
  obtain ⟨st0, st, h1, h2, _, _, ht, _⟩ := fit_inv h
  obtain ⟨g, hs, w, disp, _, _, _, rfl⟩ := initState_inv h1
  rw [hd] at h2
  unfold levels at h2
  cases h2
  exact ht

/-- The run of `Demo`: depth 4 is used, with 7 nodes. -/
example : ∃ F, fit Demo.setup = .ok F ∧ Demo.setup.maxDepth = 4 ∧ DepthAt F.tree 6 4 ∧
    F.tree.length = 7 := by
  refine ⟨Demo.fitted, Demo.fit_ok, rfl, ?_, by decide +kernel⟩
  have h1 : ChildOf Demo.fitted.tree 0 1 := ⟨Demo.fitted.tree[0]'(by decide +kernel), List.getElem?_eq_getElem _, by decide +kernel⟩
  have h2 : ChildOf Demo.fitted.tree 1 3 := ⟨Demo.fitted.tree[1]'(by decide +kernel), List.getElem?_eq_getElem _, by decide +kernel⟩
  have h3 : ChildOf Demo.fitted.tree 3 6 := ⟨Demo.fitted.tree[3]'(by decide +kernel), List.getElem?_eq_getElem _, by decide +kernel⟩
  exact .child (.child (.child .root h1) h2) h3

end Verif
