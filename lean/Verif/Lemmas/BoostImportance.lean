import Verif.Lemmas.BoostStop
import Verif.Lemmas.Importance

/-! # Feature importances of a whole run -/

set_option autoImplicit false

namespace Verif
namespace DTree

open Spec

variable {K : Type} [DecidableEq K] {α L : Type}

/-- The trees behind a state. -/
structure FitsOf (B : Boost K α L) (st : BoostState K) (fits : List (Fitted K)) : Prop where
  saved : List.Forall₂ (fun F P => save F = .ok P) fits st.trees
  fit : ∀ F ∈ fits, ∃ i t gh egh, DTree.fit (treeSetup B i t gh egh) = .ok F
  imps : st.imps = fits.foldl (fun a F => addImportances a F.imps) []

theorem boostTree_fits {B : Boost K α L} {gh : DTable K (List Rat × List Rat)} {i t : Nat}
    {st st' : BoostState K} {fits : List (Fitted K)} (hf : FitsOf B st fits)
    (h : boostTree B gh i t st = .ok st') : ∃ F, FitsOf B st' (fits ++ [F]) := by
  unfold boostTree at h
  simp only [bind, Except.bind] at h
  split at h; · cases h
  rename_i g h1
  split at h; · cases h
  rename_i e h2
  split at h; · cases h
  rename_i F h3
  split at h; · cases h
  rename_i P h4
  split at h; · cases h
  cases h
  refine ⟨F, List.rel_append hf.saved (.cons h4 .nil), fun F' hF' => ?_, ?_⟩
  · rcases List.mem_append.mp hF' with hF' | hF'
    · exact hf.fit F' hF'
    · rw [List.mem_singleton] at hF'; subst hF'
      exact ⟨i, t, g, e, h3⟩
  · rw [List.foldl_append, ← hf.imps]; rfl

theorem boostTrees_fits {B : Boost K α L} {gh : DTable K (List Rat × List Rat)} {i : Nat} :
    ∀ (r t : Nat) (st st' : BoostState K) (fits : List (Fitted K)), FitsOf B st fits →
      boostTrees B gh i r t st = .ok st' → ∃ more, FitsOf B st' more
  | 0, t, st, st', fits, hf, h => by cases h; exact ⟨fits, hf⟩
  | r + 1, t, st, st', fits, hf, h => by
    unfold boostTrees at h
    simp only [bind, Except.bind] at h
    split at h; · cases h
    rename_i st1 h1
    obtain ⟨F, hF⟩ := boostTree_fits hf h1
    exact boostTrees_fits r (t + 1) st1 st' _ hF h

theorem boostRound_fits {B : Boost K α L} {y : DTable K L} {i : Nat} {st st' : BoostState K}
    {fits : List (Fitted K)} (hf : FitsOf B st fits) (h : boostRound B y i st = .ok st') :
    ∃ more, FitsOf B st' more := by
  unfold boostRound at h
  simp only [bind, Except.bind] at h
  split at h; · cases h
  split at h; · cases h
  rename_i st1 h1
  split at h; · cases h
  cases h
  obtain ⟨more, hm⟩ := boostTrees_fits _ _ _ _ _ hf h1
  exact ⟨more, hm.saved, hm.fit, hm.imps⟩

theorem boostLoop_fits {B : Boost K α L} {y : DTable K L} :
    ∀ (r i : Nat) (st st' : BoostState K) (fits : List (Fitted K)), FitsOf B st fits →
      boostLoop B y r i st = .ok st' → ∃ more, FitsOf B st' more
  | 0, i, st, st', fits, hf, h => by cases h; exact ⟨fits, hf⟩
  | r + 1, i, st, st', fits, hf, h => by
    unfold boostLoop at h
    simp only [bind, Except.bind] at h
    split at h; · cases h
    rename_i st1 h1
    obtain ⟨more, hm⟩ := boostRound_fits hf h1
    obtain ⟨s1, s2, s3, s4⟩ := stopTest_keeps B st1
    have hm' : FitsOf B (stopTest B st1).2 more := ⟨by rw [s2]; exact hm.saved, hm.fit, by rw [s3]; exact hm.imps⟩
    by_cases hs : (stopTest B st1).1 = true
    · rw [if_pos hs] at h
      cases h
      exact ⟨more, hm'⟩
    · rw [if_neg hs] at h
      exact boostLoop_fits r (i + 1) _ st' more hm' h

theorem boost_fits {B : Boost K α L} {y : DTable K L} {init : List Rat} {st : BoostState K}
    (h : boost B init y = .ok st) : ∃ fits, FitsOf B st fits := by
  unfold boost at h
  simp only [bind, Except.bind] at h
  split at h; · cases h
  exact boostLoop_fits B.rounds 0 _ st [] ⟨.nil, by simp, rfl⟩ h

theorem addImportances_get (a : Dict (Site × Option Int) Rat) (key : Site × Option Int) :
    ∀ (e : Dict (Site × Option Int) Rat), Dict.WF e →
      (addImportances a e).get? key = match e.get? key with
        | none => a.get? key
        | some v => some ((a.get? key).getD 0 + v) := by
  intro e
  induction e generalizing a with
  | nil => intro _; rfl
  | cons p e ih =>
    obtain ⟨f, v⟩ := p
    intro hw
    unfold Dict.WF at hw
    simp only [Dict.keys_cons, List.nodup_cons] at hw
    unfold addImportances
    rw [ih _ hw.2, Dict.get?_set]
    by_cases hk : f = key
    · subst hk
      rw [(Dict.get?_eq_none_iff _ _).mpr hw.1, Dict.get?_cons]
      simp
    · rw [Dict.get?_cons]
      simp [hk]

theorem addImportances_sum (a : Dict (Site × Option Int) Rat) :
    ∀ (e : Dict (Site × Option Int) Rat), (addImportances a e).values.sum = a.values.sum + e.values.sum := by
  intro e
  induction e generalizing a with
  | nil => simp [addImportances, Dict.values]
  | cons p e ih =>
    obtain ⟨f, v⟩ := p
    unfold addImportances
    rw [ih, values_sum_set]
    simp only [Dict.values, List.map_cons, List.sum_cons]
    ring

theorem addImportances_wf (a : Dict (Site × Option Int) Rat) (ha : Dict.WF a) :
    ∀ (e : Dict (Site × Option Int) Rat), Dict.WF (addImportances a e) := by
  intro e
  induction e generalizing a with
  | nil => exact ha
  | cons p e ih => exact ih _ (ha.set _ _)

theorem total_snoc (xs : List Rat) (x : Rat) :
    total (xs ++ [x]) id = some ((total xs id).getD 0 + x) := total_append xs x id

omit [DecidableEq K] in
/-- Entries of the trees, added up. -/
theorem imps_get (key : Site × Option Int) (fits : List (Fitted K)) (hw : ∀ F ∈ fits, Dict.WF F.imps) :
    (fits.foldl (fun a F => addImportances a F.imps) []).get? key =
      total (fits.filterMap fun F => F.imps.get? key) id := by
  induction fits using List.reverseRecOn with
  | nil => rfl
  | append_singleton fits F ih =>
    rw [List.foldl_append, List.foldl_cons, List.foldl_nil, addImportances_get _ _ _ (hw F (by simp)),
      ih fun F hF => hw F (by simp [hF]), List.filterMap_append]
    cases hF : F.imps.get? key with
    | none => simp [hF]
    | some v => simp only [List.filterMap_cons, hF, List.filterMap_nil]; rw [total_snoc]

omit [DecidableEq K] in
theorem imps_sum (fits : List (Fitted K)) :
    (fits.foldl (fun a F => addImportances a F.imps) []).values.sum =
      (fits.map fun F => F.imps.values.sum).sum := by
  induction fits using List.reverseRecOn with
  | nil => rfl
  | append_singleton fits F ih =>
    rw [List.foldl_append, List.foldl_cons, List.foldl_nil, addImportances_sum, ih]
    simp

omit [DecidableEq K] in
theorem imps_wf (fits : List (Fitted K)) :
    Dict.WF (fits.foldl (fun a F => addImportances a F.imps) []) := by
  induction fits using List.reverseRecOn with
  | nil => unfold Dict.WF; simp
  | append_singleton fits F ih =>
    rw [List.foldl_append, List.foldl_cons, List.foldl_nil]
    exact addImportances_wf _ ih _

theorem saveNode_fields {n : Node} {p : NodeParam} (h : saveNode n = .ok p) :
    (p.isLeaf, p.site, p.fid) = (n.isLeaf, n.site, n.fid.getD 0) := by
  unfold saveNode at h
  simp only [bind, Except.bind] at h
  split at h; · cases h
  split at h; · cases h
  rename_i b hb
  split at h; · cases h
  split at h; · cases h
  cases h
  rw [(int32_inv hb).1]

omit [DecidableEq K] in
/-- Counting in the saved tree is counting in the tree. -/
theorem savedOn_length {F : Fitted K} {P : Saved} (h : save F = .ok P)
    (hf : ∀ n ∈ F.tree, n.isLeaf = false → n.fid ≠ none) (site : Site) (f : Int) :
    (savedOn P site f).length = (splitsOn F.tree (site, some f)).length ∧
    (P.nodes.filter fun n => !n.isLeaf).length = (F.tree.filter fun n => !n.isLeaf).length := by
  unfold save at h
  simp only [bind, Except.bind] at h
  split at h; · cases h
  rename_i nodes hn
  split at h; · cases h
  split at h; · cases h
  cases h
  have he := evalList_map (fun p : NodeParam => (p.isLeaf, p.site, p.fid))
    (fun n : Node => (n.isLeaf, n.site, n.fid.getD 0)) (fun _ _ h => saveNode_fields h) hn
  unfold savedOn splitsOn
  simp only [← List.countP_eq_length_filter]
  constructor
  · have h1 : nodes.countP (fun n => !n.isLeaf && decide (n.site = site ∧ n.fid = f)) =
        (nodes.map fun p : NodeParam => (p.isLeaf, p.site, p.fid)).countP
          (fun x => !x.1 && decide (x.2.1 = site ∧ x.2.2 = f)) := by
      rw [List.countP_map]; rfl
    rw [h1, he, List.countP_map]
    apply List.countP_congr
    intro n hn
    cases hl : n.isLeaf with
    | true => simp [hl]
    | false =>
      have := hf n hn hl
      cases hff : n.fid with
      | none => exact absurd hff this
      | some g => simp [hl, hff]
  · have h1 : nodes.countP (fun n => !n.isLeaf) =
        (nodes.map fun p : NodeParam => (p.isLeaf, p.site, p.fid)).countP (fun x => !x.1) := by
      rw [List.countP_map]; rfl
    rw [h1, he, List.countP_map]
    rfl

end DTree
end Verif
