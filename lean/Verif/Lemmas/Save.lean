import Verif.Model.Save
import Verif.Spec.C29

/-! # A tree that is saved and loaded -/

set_option autoImplicit false

namespace Verif
namespace DTree

open Spec Binning

/-- What is left of a node. -/
def norm (n : Node) : Node :=
  { n with fid := some (n.fid.getD 0), bid := some (n.bid.getD 0), sumGrad := 0, sumHess := 0 }

theorem int32_inv {z w : Int} (h : int32 z = .ok w) : w = z ∧ -2147483648 ≤ z ∧ z ≤ 2147483647 := by
  unfold int32 at h
  split at h
  · cases h; exact ⟨rfl, by assumption⟩
  · cases h

theorem saveNode_load {n : Node} {p : NodeParam} (h : saveNode n = .ok p) : loadNode p = norm n := by
  unfold saveNode at h
  simp only [bind, Except.bind] at h
  split at h
  · cases h
  rename_i a ha
  split at h
  · cases h
  rename_i b hb
  split at h
  · cases h
  rename_i c hc
  split at h
  · cases h
  rename_i d hd
  cases h
  obtain ⟨rfl, _⟩ := int32_inv ha
  obtain ⟨rfl, _⟩ := int32_inv hb
  obtain ⟨rfl, _⟩ := int32_inv hc
  obtain ⟨rfl, _⟩ := int32_inv hd
  unfold loadNode norm
  have hk : ∀ o : Option Nat, (if childId o < 0 then none else some (childId o).toNat) = o := by
    intro o
    cases o with
    | none => rfl
    | some l => exact if_neg (not_lt.mpr (Int.natCast_nonneg l))
  simp [hk]

theorem saveMask_inv {d e : Dict Nat Rat} (h : saveMask d = .ok e) : e = d := by
  induction d generalizing e with
  | nil => cases h; rfl
  | cons p d ih =>
    unfold saveMask at h
    simp only [bind, Except.bind] at h
    split at h
    · cases h
    split at h
    · cases h
    rename_i r hr
    cases h
    rw [ih hr]

theorem evalList_map {β γ δ : Type} {f : β → Except PyErr γ} (g : γ → δ) (k : β → δ)
    (hf : ∀ x y, f x = .ok y → g y = k x) : ∀ {xs : List β} {ys : List γ},
    evalList f xs = .ok ys → ys.map g = xs.map k
  | [], ys, h => by cases h; rfl
  | x :: xs, ys, h => by
    unfold evalList at h
    simp only [bind, Except.bind] at h
    split at h
    · cases h
    rename_i y hy
    split at h
    · cases h
    rename_i ys' hys
    cases h
    simp [hf x y hy, evalList_map g k hf hys]

theorem save_load {K : Type} {F : Fitted K} {P : Saved} (h : save F = .ok P) :
    (load P : Fitted K) = ⟨F.tree.map norm, F.guestMask, F.hostMasks, none, []⟩ := by
  unfold save at h
  simp only [bind, Except.bind] at h
  split at h
  · cases h
  rename_i a ha
  split at h
  · cases h
  rename_i b hb
  split at h
  · cases h
  rename_i c hc
  cases h
  unfold load
  have e1 := evalList_map loadNode norm (fun _ _ h => saveNode_load h) ha
  have e2 := evalList_map (fun x => x) (fun x => x) (fun _ _ h => saveMask_inv h) hc
  simp only [List.map_id'] at e2
  simp only [e1, saveMask_inv hb, e2]

theorem int32_ok {z : Int} (h : -2147483648 ≤ z ∧ z ≤ 2147483647) : int32 z = .ok z := if_pos h

theorem saveMask_ok : ∀ (d : Dict Nat Rat), (∀ k ∈ d.keys, k < 2147483648) → saveMask d = .ok d
  | [], _ => rfl
  | (k, v) :: d, h => by
    unfold saveMask
    have hk := h k (by simp [Dict.keys])
    have hd := saveMask_ok d (fun k' hk' => h k' (by
      simp only [Dict.keys, List.map_cons, List.mem_cons]; exact Or.inr hk'))
    rw [int32_ok (by omega), hd]
    rfl

theorem evalList_total {β γ : Type} {f : β → Except PyErr γ} : ∀ {xs : List β},
    (∀ x ∈ xs, ∃ y, f x = .ok y) → ∃ ys, evalList f xs = .ok ys
  | [], _ => ⟨[], rfl⟩
  | x :: xs, h => by
    obtain ⟨y, hy⟩ := h x (by simp)
    obtain ⟨ys, hys⟩ := evalList_total (f := f) (xs := xs) (fun x hx => h x (by simp [hx]))
    exact ⟨y :: ys, by unfold evalList; rw [hy, hys]; rfl⟩

theorem saveNode_ok {n : Node} (h1 : n.id < 2147483648) (h2 : 0 ≤ n.fid.getD 0 ∧ n.fid.getD 0 < 2147483648)
    (h3 : ∀ l, n.left = some l → l < 2147483648) (h4 : ∀ l, n.right = some l → l < 2147483648) :
    ∃ p, saveNode n = .ok p := by
  unfold saveNode
  have hc : ∀ o : Option Nat, (∀ l, o = some l → l < 2147483648) → int32 (childId o) = .ok (childId o) := by
    intro o ho
    apply int32_ok
    cases o with
    | none => simp [childId]
    | some l => have := ho l rfl; simp only [childId]; omega
  rw [int32_ok (by omega), int32_ok (by omega), hc _ h3, hc _ h4]
  exact ⟨_, rfl⟩

/-- Walks only look at what saving keeps, if every inner node has a feature and every leaf is the
guest's. -/
structure Walkable (tree : List Node) : Prop where
  fid : ∀ n ∈ tree, n.isLeaf = false → n.fid ≠ none
  leaf : ∀ n ∈ tree, n.isLeaf = true → n.site = .guest

theorem norm_get (tree : List Node) (i : Nat) : (tree.map norm)[i]? = (tree[i]?).map norm := by
  simp

theorem norm_fid {n : Node} (h : n.fid ≠ none) : (norm n).fid = n.fid := by
  unfold norm
  cases hf : n.fid with
  | none => exact absurd hf h
  | some f => rfl

theorem walkGuest_norm {tree : List Node} (hw : Walkable tree) (mask : Dict Nat Rat)
    (row : SparseVec Rat) : ∀ fuel nid,
    walkGuest (tree.map norm) mask row fuel nid = walkGuest tree mask row fuel nid
  | 0, _ => rfl
  | fuel + 1, nid => by
    unfold walkGuest
    rw [norm_get]
    cases hn : tree[nid]? with
    | none => rfl
    | some n =>
      have hm := List.mem_of_getElem? hn
      simp only [Option.map_some]
      have e1 : (norm n).site = n.site := rfl
      have e2 : (norm n).isLeaf = n.isLeaf := rfl
      have e3 : (norm n).weight = n.weight := rfl
      have e4 : kids (norm n) = kids n := rfl
      rw [e1, e2, e3, e4]
      split
      · rfl
      · cases hl : n.isLeaf with
        | true => rfl
        | false =>
          rw [norm_fid (hw.fid n hm hl)]
          simp only [walkGuest_norm hw mask row fuel]

theorem walkHost_norm {tree : List Node} (hw : Walkable tree) (mask : Dict Nat Rat) {site : Site}
    (hs : site ≠ .guest) (row : SparseVec Rat) : ∀ fuel nid,
    walkHost (tree.map norm) mask site row fuel nid = walkHost tree mask site row fuel nid
  | 0, _ => rfl
  | fuel + 1, nid => by
    unfold walkHost
    rw [norm_get]
    cases hn : tree[nid]? with
    | none => rfl
    | some n =>
      have hm := List.mem_of_getElem? hn
      simp only [Option.map_some]
      have e1 : (norm n).site = n.site := rfl
      have e4 : kids (norm n) = kids n := rfl
      rw [e1, e4]
      by_cases hsite : n.site = site
      · have hl : n.isLeaf = false := by
          cases hl : n.isLeaf with
          | false => rfl
          | true => exact absurd ((hsite.symm.trans (hw.leaf n hm hl))) hs
        rw [norm_fid (hw.fid n hm hl)]
        simp only [walkHost_norm hw mask hs row fuel]
      · rw [if_pos hsite, if_pos hsite]

theorem traverseGuest_norm {tree : List Node} (hw : Walkable tree) (mask : Dict Nat Rat) (fuel : Nat) :
    traverseGuest (tree.map norm) mask fuel = traverseGuest tree mask fuel := by
  funext s row
  cases s with
  | weight w => rfl
  | node nid tag => exact walkGuest_norm hw mask row fuel nid

theorem traverseHost_norm {tree : List Node} (hw : Walkable tree) (mask : Dict Nat Rat) (j fuel : Nat) :
    traverseHost (tree.map norm) mask (.host j) fuel = traverseHost tree mask (.host j) fuel := by
  funext s row
  cases s with
  | weight w => rfl
  | node nid tag =>
    unfold traverseHost
    simp only [norm_get]
    cases hn : tree[nid]? with
    | none => rfl
    | some n =>
      simp only [Option.map_some]
      have e1 : (norm n).site = n.site := rfl
      rw [e1, walkHost_norm hw mask (by simp) row fuel nid]

variable {K : Type} [DecidableEq K]

theorem hostWalks_norm {tree : List Node} (hw : Walkable tree) (fuel : Nat) (todo : DTable K PState) :
    ∀ Hs : List (PredHost K), hostWalks (tree.map norm) fuel todo Hs = hostWalks tree fuel todo Hs
  | [] => rfl
  | H :: Hs => by
    unfold hostWalks
    rw [traverseHost_norm hw, hostWalks_norm hw fuel todo Hs]

theorem predictLoop_norm {tree : List Node} (hw : Walkable tree) (mask : Dict Nat Rat)
    (rows : DTable K (SparseVec Rat)) (hosts : List (PredHost K)) (fuel : Nat) :
    ∀ r todo result, predictLoop (tree.map norm) mask rows hosts fuel r todo result =
      predictLoop tree mask rows hosts fuel r todo result
  | 0, _, _ => rfl
  | r + 1, todo, result => by
    unfold predictLoop
    simp only [traverseGuest_norm hw, hostWalks_norm hw, predictLoop_norm hw mask rows hosts fuel r]

theorem predictTree_norm {tree : List Node} (hw : Walkable tree) (mask : Dict Nat Rat)
    (rows : DTable K (SparseVec Rat)) (hosts : List (PredHost K)) (fuel : Nat) :
    predictTree (tree.map norm) mask rows hosts fuel = predictTree tree mask rows hosts fuel := by
  unfold predictTree
  simp only [predictLoop_norm hw]

omit [DecidableEq K] in
theorem walkable {α : Type} {S : Setup K α} {F : Fitted K} (hu : UsableTree S F) : Walkable F.tree := by
  constructor
  · intro n hn hl
    obtain ⟨i, hi⟩ := List.mem_iff_getElem?.mp hn
    obtain ⟨j, f, t, n', P, d, h1, _, h3, _⟩ := hu.split i n hi hl
    rw [hi, Option.some.injEq] at h1
    subst h1
    rw [h3]; simp
  · intro n hn hl
    obtain ⟨i, hi⟩ := List.mem_iff_getElem?.mp hn
    exact hu.leaf i n hi hl

omit [DecidableEq K] in
theorem save_ok {α : Type} {S : Setup K α} {F : Fitted K} (hu : UsableTree S F)
    (hsize : F.tree.length ≤ 2147483648) (hfid : ∀ n ∈ F.tree, ∀ f, n.fid = some f → 0 ≤ f ∧ f < 2147483648)
    (hg : ∀ i ∈ F.guestMask.keys, i < F.tree.length)
    (hh : ∀ m ∈ F.hostMasks, ∀ i ∈ Dict.keys m, i < F.tree.length) : ∃ P, save F = .ok P := by
  obtain ⟨a, ha⟩ : ∃ a, evalList saveNode F.tree = .ok a := by
    apply evalList_total
    intro n hn
    obtain ⟨i, hi⟩ := List.mem_iff_getElem?.mp hn
    have hlt := (List.getElem?_eq_some_iff.mp hi).1
    have hid := hu.wf.number i n hi
    have hkid : ∀ l, (n.left = some l ∨ n.right = some l) → l < F.tree.length := by
      intro l hl
      rcases hu.wf.shape i n hi with ⟨_, h1, h2⟩ | ⟨_, l', r', h1, h2, _, _, _, h5, h6⟩
      · rw [h1, h2] at hl; simp at hl
      · rw [h1, h2, Option.some.injEq, Option.some.injEq] at hl
        rcases hl with rfl | rfl <;> assumption
    apply saveNode_ok
    · omega
    · cases hf : n.fid with
      | none => simp
      | some f => exact hfid n hn f hf
    · intro l hl; have := hkid l (Or.inl hl); omega
    · intro l hl; have := hkid l (Or.inr hl); omega
  have hb := saveMask_ok F.guestMask (fun k hk => by have := hg k hk; omega)
  obtain ⟨c, hc⟩ : ∃ c, evalList saveMask F.hostMasks = .ok c := by
    apply evalList_total
    intro m hm
    exact ⟨m, saveMask_ok m (fun k hk => by have := hh m hm k hk; omega)⟩
  exact ⟨⟨a, F.guestMask, c⟩, by unfold save; simp only [ha, hb, hc, bind, Except.bind]; rfl⟩

end DTree
end Verif
