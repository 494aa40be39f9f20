import Verif.Lemmas.Lossless
import Verif.Props.C29

/-! # Tree, weights and predictions of the federated and of the centralised run -/

set_option autoImplicit false

namespace Verif
namespace DTree

open Spec
open Binning (SparseVec dataFormatTransform)

variable {K : Type} [DecidableEq K] {α : Type}

theorem centralPredict_ok {S : Setup K α} {F : Fitted K} (hu : UsableTree S F)
    (hs : ∀ n ∈ F.tree, n.site = .guest) {rows : Option Nat → DTable K (List Rat)}
    (hw : (rows none).WF) (hne : (rows none).data ≠ []) {fuel : Nat} (hfuel : F.tree.length ≤ fuel)
    {weights : Option (DTable K Rat)} {imps : Dict (Site × Option Int) Rat} :
    ∃ W, centralPredictRows ⟨F.tree, F.guestMask, weights, imps⟩ (rows none) fuel = .ok W ∧
      (∀ k w, W.data.get? k = some w → k ∈ (rows none).data.keys ∧ LeafWeight S F rows k w) ∧
      ∀ k ∈ (rows none).data.keys, ∃ w, W.data.get? k = some w := by
  obtain ⟨al, ha, haw, hag⟩ := alignRows_ok hw hne
  have htodo := DTable.mapValues_ok haw (fun _ : SparseVec Rat => PState.node 0 1)
  set todo : DTable K PState := ⟨al.data.map fun p => (p.1, PState.node 0 1)⟩ with htd
  obtain ⟨_, htg⟩ := DTable.mapValues_inv htodo
  have hwalk : ∀ k row, (rows none).data.get? k = some row → ∃ w,
      walkGuest F.tree F.guestMask (dataFormatTransform row) fuel 0 = .ok (.weight w) ∧
        LeafWeight S F rows k w := by
    intro k row hrow
    rcases walkGuest_ok hu hrow fuel 0 (List.length_pos_of_ne_nil hu.wf.root) (by omega) .refl with h | ⟨i, n, _, _, _, h1, _, h2⟩
    · exact h
    · exact absurd (hs n (List.mem_of_getElem? h1)) h2
  have hstep : ∀ k v row, todo.data.get? k = some v → al.data.get? k = some row →
      ∃ w, traverseGuest F.tree F.guestMask fuel v row = .ok (.weight w) ∧
        k ∈ (rows none).data.keys ∧ LeafWeight S F rows k w := by
    intro k v row hv hrow
    rw [htg, hrow] at hv
    cases hv
    rw [hag] at hrow
    cases hg : (rows none).data.get? k with
    | none => rw [hg] at hrow; cases hrow
    | some r =>
      rw [hg] at hrow
      cases hrow
      obtain ⟨w, h1, h2⟩ := hwalk k r hg
      exact ⟨w, h1, Dict.mem_keys_of_get? hg, h2⟩
  obtain ⟨moved, hm⟩ := DTable.joinM_succeeds todo haw (traverseGuest F.tree F.guestMask fuel)
    fun k v row h1 h2 => by
      obtain ⟨w, h, _⟩ := hstep k v row h1 h2
      exact ⟨_, h⟩
  obtain ⟨mw, m1, m2⟩ := DTable.joinM_inv hm
  have hmoved : ∀ k x, moved.data.get? k = some x → ∃ w, x = .weight w ∧
      k ∈ (rows none).data.keys ∧ LeafWeight S F rows k w := by
    intro k x hx
    obtain ⟨v, row, h1, h2, h3⟩ := (m1 k x).mp hx
    obtain ⟨w, e1, e2, e3⟩ := hstep k v row h1 h2
    rw [e1] at h3
    cases h3
    exact ⟨w, rfl, e2, e3⟩
  have hf := DTable.filter_ok mw (fun _ s => s.isWeight)
  set leaf : DTable K PState := ⟨moved.data.filter fun p => p.2.isWeight⟩ with hleaf
  obtain ⟨lw, l1⟩ := DTable.filter_inv mw hf
  have hv := DTable.mapValues_ok lw PState.getWeight
  set leafW : DTable K Rat := ⟨leaf.data.map fun p => (p.1, p.2.getWeight)⟩ with hleafW
  obtain ⟨vw, v1⟩ := DTable.mapValues_inv hv
  have hs := DTable.subtractByKey_ok mw leaf
  set rest : DTable K PState := ⟨moved.data.filter fun p => !(leaf.data.has p.1)⟩ with hrest
  obtain ⟨rw', r1⟩ := DTable.subtractByKey_inv mw hs
  have hzero : rest.count = 0 := by
    unfold DTable.count
    cases hr : rest.data with
    | nil => rfl
    | cons p l =>
      exfalso
      have hg : rest.data.get? p.1 = some p.2 :=
        Dict.get?_of_mem rw' (by rw [hr]; exact List.mem_cons_self)
      obtain ⟨h1, h2⟩ := (r1 _ _).mp hg
      obtain ⟨w, e, _⟩ := hmoved _ _ h1
      have := (l1 p.1 p.2).mpr ⟨h1, by rw [e]; rfl⟩
      rw [this] at h2
      cases h2
  refine ⟨leafW, ?_, ?_, ?_⟩
  · unfold centralPredictRows centralPredict
    simp only [bind, Except.bind, ha, htodo, hm, hf, hv, hs, hzero, if_true]
    rfl
  · intro k w h
    rw [v1] at h
    cases hx : leaf.data.get? k with
    | none => rw [hx] at h; cases h
    | some x =>
      rw [hx] at h
      obtain ⟨q1, _⟩ := (l1 k x).mp hx
      obtain ⟨w', e1, e2, e3⟩ := hmoved k x q1
      subst e1
      cases h
      exact ⟨e2, e3⟩
  · intro k hk
    obtain ⟨row, hrow⟩ := Dict.exists_get?_of_mem hk
    have h1 : al.data.get? k = some (dataFormatTransform row) := by rw [hag, hrow]; rfl
    obtain ⟨x, _, h3⟩ := m2 k (.node 0 1) _ (by rw [htg, h1]; rfl) h1
    obtain ⟨w, rfl, _⟩ := hmoved k x h3
    exact ⟨w, by rw [v1, (l1 k _).mpr ⟨h3, rfl⟩]; rfl⟩

/-- The leaf weights of a walk are the same in both trees, for any joined rows. -/
theorem leafWeight_same {S : Setup K α} {C : Central K} {D : Party K} {F F' : Fitted K}
    {lev lev' : Nat → Nat} (hidx : (S.hosts.map Party.idx).Nodup) (hw : WellFormed F.tree)
    (hw' : WellFormed F'.tree) (h : ∀ a, SameAt S C D F F' lev lev' a)
    {rows rows' : Option Nat → DTable K (List Rat)} (hj : JoinedRows S rows (rows' none)) {k : K}
    (hk : k ∈ (rows' none).data.keys) {w w' : Rat} (h1 : LeafWeight S F rows k w)
    (h2 : LeafWeight (duo C D) F' rows' k w') : w = w' := by
  obtain ⟨i, n, a1, a2, a3, rfl⟩ := h1
  obtain ⟨i', n', b1, b2, b3, rfl⟩ := h2
  have hr' := (reaches_same hidx hw hw' (fun a _ => h a) hj hk).mp a1
  have hi := (h i).exists_iff.mp (List.getElem?_eq_some_iff.mp a2).1
  have hn := List.getElem?_eq_getElem hi
  obtain ⟨_, e1, _, _, _, _, e2⟩ := (h i).node n _ a2 hn
  have := reaches_unique (by simp [duo]) b1 hr' b2 b3 hn (by rw [e1]; exact a3)
  subst this
  rw [hn, Option.some.injEq] at b2
  rw [← b2, e2]

theorem trained_none {S : Setup K α} {rows : Option Nat → DTable K (List Rat)} {m : Rat}
    (hr : RawRun S rows) (hu : Usual S m) {F : Fitted K} (hf : fit S = .ok F) {k : K}
    (hk : k ∉ S.gh.data.keys) : trainedWeight F k = none := by
  have hbin := RawRun.binned hr none S.guest rfl
  refine (C28_every_sample_once S hu.depth ?_ hr.names F hf).1 k ?_
  · intro H hH k row hrow
    obtain ⟨j, hj⟩ := List.mem_iff_getElem?.mp hH
    have hH' := RawRun.binned hr (some j) H hj
    apply Dict.exists_get?_of_mem
    rw [hH'.keys, (hr.parties (some j) H hj).2.2, ← (hr.parties none S.guest rfl).2.2, ← hbin.keys]
    exact Dict.mem_keys_of_get? hrow
  · rw [Dict.get?_eq_none_iff, hbin.keys, (hr.parties none S.guest rfl).2.2]
    exact hk

/-- **The federated run and its centralised counterpart** end with the same tree, and the same
predictions. -/
theorem lossless {S : Setup K α} [S.cfg.Exact] {rows : Option Nat → DTable K (List Rat)} {C : Central K}
    {all : DTable K (List Rat)} {m δ : Rat} (hr : RawRun S rows) (hu : Usual S m)
    (hc : Centralised S rows C all) (hδ : 0 ≤ δ) (hδ' : δ ≤ 1 / 10 ^ 6) (hch : Chooses S (exactView S) δ) :
    ∃ F T, fit S = .ok F ∧ centralFit C = .ok T ∧ (DecisiveTree S F rows →
      SameTree S F T ∧ ∀ (new : Option Nat → DTable K (List Rat)) (newAll : DTable K (List Rat))
        (fuel : Nat), SameSamples S new → JoinedRows S new newAll → F.tree.length ≤ fuel →
        ∃ W W', predictRows S F (new none) (hostRows S new) fuel = .ok W ∧
          centralPredictRows T newAll fuel = .ok W' ∧ ∀ k, W.data.get? k = W'.data.get? k) := by
  haveI : C.cfg.Exact := by rw [hc.cfg]; infer_instance
  obtain ⟨F, lev, mem, g⟩ := greedyRun hr hu hδ hch
  have hkeys : ∀ k, k ∈ all.data.keys ↔ k ∈ S.gh.data.keys := by
    intro k
    rw [← hc.joined.keys none S.guest rfl k]
    exact (hr.parties none S.guest rfl).2.2 k
  have hne : all.data ≠ [] := by
    obtain ⟨_, _, _, _, _, _, _, _, h, _⟩ := (central_splits hr hc).1
    exact h
  obtain ⟨D, dummy, d1, d2, d3, d4⟩ := exists_dummy all hc.joined.wf hne
  have hr' := duo_raw hr hc d1 d2 d3 d4
  have hu' : Usual (duo C D) m := duo_usual hu hc
  have hch' := duo_chooses (RawRun.prepared hr') hu'
  obtain ⟨F', lev', mem', g'⟩ := greedyRun hr' hu' (le_refl 0) hch'
  have hcf := fit_solo d2 (RawRun.prepared hr') hu' hch' g'.fit
  refine ⟨F, _, g.fit, hcf, fun hdec => ?_⟩
  have hsame := same_nodes hr hu hc d2 hδ' g g' hdec
  obtain ⟨sums, dep, num, _, hinv⟩ := g.inv
  obtain ⟨sums', dep', num', _, hinv'⟩ := g'.inv
  have hw := hinv.wellFormed
  have hw' := hinv'.wellFormed
  have hus := C29_trained_usable S hu.depth hr.names F g.fit
  have hus' := C29_trained_usable (duo C D) hu'.depth hr'.names F' g'.fit
  have hsite : ∀ n ∈ F'.tree, n.site = .guest := by
    intro n hn
    obtain ⟨i, hi⟩ := List.mem_iff_getElem?.mp hn
    have hid := hinv'.number.2 i n hi
    rcases g'.nodes n hn with h | ⟨hl, j, P, f, b, l, sp, t, a1, a2, a3, a4, a5⟩
    · exact hus'.leaf i n hi h.1
    · have := solo_site d2 (V := exactView (duo C D)) (by rw [offerWith_exact]; exact a5.1)
      subst this
      obtain ⟨n1, P1, d, c1, _, _, c4, c5, _⟩ := a4
      rw [hid, hi, Option.some.injEq] at c1
      subst c1
      exact c5
  refine ⟨⟨?_, ?_, ?_, ?_⟩, ?_⟩
  · have h1 := (hsame F.tree.length).exists_iff
    have h2 := (hsame F'.tree.length).exists_iff
    show F.tree.length = F'.tree.length
    omega
  · intro i n n' h1 h2
    exact (hsame i).node n n' h1 h2
  · intro i n n' h1 h2 hl
    obtain ⟨j, P, f, t, _, _, a3, a4⟩ := (hsame i).split n h1 hl
    obtain ⟨n1, P1, d, c1, _, c3, c4, c5, c6, c7⟩ := a4
    have h2' : F'.tree[i]? = some n' := h2
    rw [h2', Option.some.injEq] at c1
    subst c1
    refine ⟨j, f, t, a3, c5, c3, ?_⟩
    simp only [thresholds, Option.some.injEq] at c6
    subst c6
    exact c7
  · intro k
    show trainedWeight F' k = trainedWeight F k
    by_cases hk : k ∈ S.gh.data.keys
    · obtain ⟨i, n, a1, a2, a3, a4⟩ := g.ends k hk
      obtain ⟨i', n', b1, b2, b3, b4⟩ := g'.ends k (by show k ∈ C.gh.data.keys; rw [central_keys hc]; exact hk)
      rw [a4, b4, leafWeight_same (rows' := duoRows all dummy) hr.names hw hw' hsame hc.joined
        ((hkeys k).mpr hk) ⟨i, n, a3, a1, a2, rfl⟩ ⟨i', n', b3, b1, b2, rfl⟩]
    · rw [trained_none hr hu g.fit hk, trained_none hr' hu' g'.fit
        (by show k ∉ C.gh.data.keys; rw [central_keys hc]; exact hk)]
  · intro new newAll fuel hs hj hfuel
    obtain ⟨W, w1, _, w3, w4⟩ := predictRows_ok hus hs hfuel
    have hnk : ∀ k, k ∈ (new none).data.keys ↔ k ∈ newAll.data.keys := hj.keys none S.guest rfl
    have hnne : newAll.data ≠ [] := by
      intro h
      have := hs.some
      cases hd : (new none).data with
      | nil => exact this hd
      | cons p l =>
        have := (hnk p.1).mp (by rw [hd]; simp [Dict.keys])
        rw [h] at this
        simp [Dict.keys] at this
    have hlen : F'.tree.length ≤ fuel := by
      have h1 := (hsame F.tree.length).exists_iff
      omega
    obtain ⟨W', v1, v3, v4⟩ := centralPredict_ok (rows := duoRows newAll newAll) hus' hsite hj.wf hnne hlen
      (weights := F'.weights) (imps := F'.imps)
    refine ⟨W, W', w1, v1, fun k => ?_⟩
    by_cases hk : k ∈ newAll.data.keys
    · obtain ⟨w, hwk⟩ := w4 k ((hnk k).mpr hk)
      obtain ⟨w', hwk'⟩ := v4 k hk
      rw [hwk, hwk', leafWeight_same (rows' := duoRows newAll newAll) hr.names hw hw' hsame hj hk
        (w3 k w hwk).2 (v3 k w' hwk').2]
    · have h1 : W.data.get? k = none := by
        cases h : W.data.get? k with
        | none => rfl
        | some w => exact absurd ((hnk k).mp (w3 k w h).1) hk
      have h2 : W'.data.get? k = none := by
        cases h : W'.data.get? k with
        | none => rfl
        | some w => exact absurd (v3 k w h).1 hk
      rw [h1, h2]

end DTree
end Verif
