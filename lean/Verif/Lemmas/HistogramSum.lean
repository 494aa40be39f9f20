import Verif.Lemmas.Histogram
import Verif.Spec.C22

/-! # The histogram code on plain numbers computes sums over samples -/

set_option autoImplicit false

namespace Verif
namespace Histogram

open Binning (Cell SparseVec)
open Spec

/-! ### Start values -/

theorem template_ok (v : List Bool) : ∀ (fid : Nat) (splits : List (List Rat)),
    v.length = fid + splits.length →
    ∃ t, template plain (some v) fid splits = .ok t ∧ t.length = splits.length ∧
      ∀ i < splits.length, row t i =
        if v.getD (fid + i) false then List.replicate ((splits.getD i []).length + 1) 0 else [] := by
  intro fid splits
  induction splits generalizing fid with
  | nil => intro _; exact ⟨[], rfl, rfl, by simp⟩
  | cons sp splits ih =>
    intro hv
    simp only [List.length_cons] at hv
    obtain ⟨t, t1, t2, t3⟩ := ih (fid + 1) (by omega)
    refine ⟨(if !v.getD fid false then [] else List.replicate (sp.length + 1) 0) :: t, ?_, ?_, ?_⟩
    · unfold template
      rw [isDisabled_some v fid (by omega), t1]
      simp only [bind, Except.bind, pure, Except.pure, zeroCell_plain]
    · simp [t2]
    · intro i hi
      cases i with
      | zero =>
        simp only [row, List.getElem?_cons_zero, Option.getD_some, Nat.add_zero]
        cases v.getD fid false <;> simp
      | succ i =>
        have := t3 i (by simpa using hi)
        have e : fid + (i + 1) = fid + 1 + i := by omega
        rw [e]
        simp only [row, List.getElem?_cons_succ] at this ⊢
        rw [this]
        simp

theorem at1_replicate (k b : Nat) : at1 (List.replicate k 0) b = 0 := by
  unfold at1
  rw [List.getElem?_replicate]
  split <;> rfl

theorem at1_nil (b : Nat) : at1 [] b = 0 := rfl

theorem row_replicate {β : Type} (k n : Nat) (r : List β) :
    row (List.replicate k r) n = if n < k then r else [] := by
  unfold row
  rw [List.getElem?_replicate]
  split <;> rfl

/-! ### One record -/

theorem entrySum_eq (v : List Bool) (d : HCell Rat) (f b : Nat) (hen : v.getD f false = true)
    (l : Dict Nat Cell) (hwf : l.WF) : entrySum v d f b l = ind (l.get? f = some (.bin b)) d := by
  unfold entrySum
  induction l with
  | nil => simp [ind, Dict.get?]
  | cons p l ih =>
    obtain ⟨k, c⟩ := p
    have hd : k ∉ Dict.keys l ∧ Dict.WF l := by unfold Dict.WF at hwf ⊢; simpa using hwf
    rw [List.map_cons, List.sum_cons, ih hd.2, Dict.get?_cons]
    by_cases hk : k = f
    · subst hk
      have : Dict.get? l k = none := (Dict.get?_eq_none_iff _ _).mpr hd.1
      rw [this]
      simp only [ind, hen, if_true, Option.some.injEq]
      simp
    · rw [if_neg hk]
      have : ¬ f = k := fun h => hk h.symm
      simp [ind, this]

theorem storedSum_eq (v : List Bool) (d : HCell Rat) (f : Nat) (hen : v.getD f false = true)
    (l : Dict Nat Cell) (hwf : l.WF) : storedSum v d f l = ind (l.get? f ≠ none) d := by
  unfold storedSum
  induction l with
  | nil => simp [ind, Dict.get?]
  | cons p l ih =>
    obtain ⟨k, c⟩ := p
    have hd : k ∉ Dict.keys l ∧ Dict.WF l := by unfold Dict.WF at hwf ⊢; simpa using hwf
    rw [List.map_cons, List.sum_cons, ih hd.2, Dict.get?_cons]
    by_cases hk : k = f
    · subst hk
      have : Dict.get? l k = none := (Dict.get?_eq_none_iff _ _).mpr hd.1
      rw [this]
      simp only [ind, hen, if_true, ne_eq]
      simp
    · rw [if_neg hk]
      have : ¬ f = k := fun h => hk h.symm
      simp [ind, this]

/-- Stored entries plus the correction count the record exactly once, in its bin. -/
theorem record_once (v : List Bool) (d : HCell Rat) (f b : Nat) (hen : v.getD f false = true)
    (sparse : Dict Nat Nat) (z : Nat) (hz : sparse.get? f = some z) (x : SparseVec Cell)
    (hwf : x.vec.WF) (hx : ∀ c, x.vec.get? f = some c → ∃ n, c = .bin n) :
    entrySum v d f b x.vec + ind (sparse.get? f = some b) (d - storedSum v d f x.vec) =
      ind (binOf sparse f x = b) d := by
  rw [entrySum_eq v d f b hen _ hwf, storedSum_eq v d f hen _ hwf]
  unfold binOf SparseVec.getData
  rw [hz]
  cases hc : x.vec.get? f with
  | none =>
    simp [ind, Cell.val]
  | some c =>
    obtain ⟨n, rfl⟩ := hx c hc
    simp only [ind, ne_eq, reduceCtorEq, not_false_eq_true, if_true, sub_self, Option.getD_some, Cell.val,
      Option.some.injEq, Cell.bin.injEq, Nat.cast_inj, ite_self, add_zero]

theorem sum_ind_sub {β : Type} (l : List β) (p : β → Prop) [DecidablePred p] (q : Prop) [Decidable q]
    (a e s : β → HCell Rat) :
    (l.map fun r => ind (p r) (e r)).sum +
      ind q ((l.map fun r => ind (p r) (a r)).sum - (l.map fun r => ind (p r) (s r)).sum) =
    (l.map fun r => ind (p r) (e r + ind q (a r - s r))).sum := by
  induction l with
  | nil => simp [ind]
  | cons x l ih =>
    simp only [List.map_cons, List.sum_cons]
    rw [← ih]
    by_cases hq : q
    · by_cases hp : p x
      · simp only [ind, hq, hp, if_true]; abel
      · simp only [ind, hq, hp, if_true, if_false]; abel
    · by_cases hp : p x
      · simp only [ind, hq, hp, if_true, if_false]; abel
      · simp only [ind, hq, hp, if_false]; abel

/-! ### The whole batch -/

theorem collectRecords_mem {α : Type} (nodeMap : Dict Nat Nat)
    (kvs : List ((SparseVec Cell × Nat × Nat) × α × α)) (r : Record α)
    (hr : r ∈ collectRecords nodeMap kvs) :
    nodeMap.has r.nodeId = true ∧ ∃ st, st ≠ 0 ∧ ((r.features, st, r.nodeId), r.grad, r.hess) ∈ kvs := by
  induction kvs with
  | nil => simp [collectRecords] at hr
  | cons p kvs ih =>
    obtain ⟨⟨f, st, nid⟩, g, h⟩ := p
    unfold collectRecords at hr
    split at hr
    · obtain ⟨a, st', b, c⟩ := ih hr
      exact ⟨a, st', b, by simp [c]⟩
    · rename_i hc
      rw [List.mem_cons] at hr
      rcases hr with rfl | hr
      · push Not at hc
        exact ⟨by simpa using hc.2, st, hc.1, by simp⟩
      · obtain ⟨a, st', b, c⟩ := ih hr
        exact ⟨a, st', b, by simp [c]⟩

theorem batch_ok (splits : List (List Rat)) (sparse : Dict Nat Nat) (v : List Bool)
    (hv : v.length = splits.length) (hz : ZeroBins splits sparse) (nodeMap : Dict Nat Nat)
    (hN : nodeMap ≠ []) (hmap : ∀ id n, nodeMap.get? id = some n → n < nodeMap.length)
    (kvs : List ((SparseVec Cell × Nat × Nat) × Rat × Rat))
    (hk : ∀ p ∈ kvs, BinnedRow splits p.1.1) :
    ∃ H, batch plain splits sparse (some v) nodeMap kvs = .ok H ∧ H.length = nodeMap.length ∧
      (∀ n < nodeMap.length, (row H n).length = splits.length) ∧
      ∀ n < nodeMap.length, ∀ f < splits.length,
        (row (row H n) f).length = (if v.getD f false then (splits.getD f []).length + 1 else 0) ∧
        (v.getD f false = true → ∀ b, at3 H n f b =
          ((collectRecords nodeMap kvs).map fun r => ind (nodeMap.get? r.nodeId = some n)
            (ind (binOf sparse f r.features = b) (amount r))).sum) := by
  have hpos : 0 < nodeMap.length := List.length_pos_iff.mpr hN
  set N := nodeMap.length with hNdef
  set F := splits.length with hF
  set len : Nat → Nat := fun f => (splits.getD f []).length + 1 with hlen
  have hsplit : ∀ f < F, splits[f]? = some (splits.getD f []) := by
    intro f hf
    simp [hF ▸ hf]
  have hz' : ∀ f < F, ∃ z, sparse.get? f = some z ∧ z < len f := by
    intro f hf
    obtain ⟨z, z1, z2⟩ := hz f _ (hsplit f hf)
    exact ⟨z, z1, by simp only [hlen]; omega⟩
  obtain ⟨t, t1, t2, t3⟩ := template_ok v 0 splits (by omega)
  have hrowlen : ∀ f < F, (row t f).length = if v.getD f false then len f else 0 := by
    intro f hf
    rw [t3 f hf, Nat.zero_add]
    cases v.getD f false <;> simp [hlen]
  have hrow0 : ∀ f b, at2 t f b = 0 := by
    intro f b
    unfold at2
    by_cases hf : f < F
    · rw [t3 f hf]
      split
      · exact at1_replicate _ _
      · rfl
    · have : row t f = [] := by unfold row; rw [List.getElem?_eq_none (by omega)]; rfl
      rw [this]; rfl
  set acc0 : Acc Rat := ⟨List.replicate N t, List.replicate N (List.replicate F 0), List.replicate N 0⟩ with hacc0
  have hshape : Shape N F len v acc0 := by
    refine ⟨by simp [hacc0], ?_, ?_, by simp [hacc0], ?_, by simp [hacc0]⟩
    · intro n hn; simp only [hacc0]; rw [row_replicate, if_pos hn]; exact t2
    · intro n hn f hf; simp only [hacc0]; rw [row_replicate, if_pos hn]; exact hrowlen f hf
    · intro n hn; simp only [hacc0]; rw [row_replicate, if_pos hn]; simp
  have hrec : ∀ r ∈ collectRecords nodeMap kvs, (∃ n, nodeMap.get? r.nodeId = some n ∧ n < N) ∧
      BinnedRow splits r.features := by
    intro r hr
    obtain ⟨a, st, _, c⟩ := collectRecords_mem nodeMap kvs r hr
    refine ⟨?_, hk _ c⟩
    rw [Dict.has_iff] at a
    obtain ⟨n, hn⟩ := Dict.exists_get?_of_mem a
    exact ⟨n, hn, hmap _ _ hn⟩
  obtain ⟨acc, a1, a2, a3, a4, a5⟩ := recordLoop_ok N F len v hv nodeMap (collectRecords nodeMap kvs) (by
    intro r hr
    obtain ⟨h1, h2⟩ := hrec r hr
    refine ⟨h1, ?_⟩
    intro e he
    obtain ⟨b, sp, b1, b2, b3⟩ := h2.bins e.1 e.2 (Dict.get?_of_mem h2.wf he)
    have hlt : e.1 < F := by
      by_contra hc
      rw [List.getElem?_eq_none (by omega)] at b2
      cases b2
    refine ⟨hlt, b, b1, ?_⟩
    rw [hsplit e.1 hlt] at b2
    simp only [hlen]
    rw [Option.some.inj b2]
    omega) acc0 hshape
  obtain ⟨H, h1, h2, h3, h4, h5⟩ := zeroFixAll_ok F len v hv sparse hz' acc.nodeSum acc.zeroOptim acc.hist
    (by rw [a2.zo, a2.ns]) (by rw [a2.hist, a2.ns]) (by rw [a2.ns]; exact a2.zos) (by rw [a2.ns]; exact a2.nodes)
    (by rw [a2.ns]; exact a2.bins)
  refine ⟨H, ?_, by rw [h2, a2.hist], fun n hn => by rw [h3, a2.nodes n hn], ?_⟩
  · unfold batch
    rw [t1]
    simp only [bind, Except.bind]
    rw [if_neg (by omega)]
    have e : zeroCell plain = (0 : HCell Rat) := rfl
    rw [e]
    have : recordLoop plain (some v) nodeMap (collectRecords nodeMap kvs)
      ⟨List.replicate nodeMap.length t, List.replicate nodeMap.length (List.replicate splits.length 0),
        List.replicate nodeMap.length 0⟩ = .ok acc := a1
    rw [this]
    exact h1
  · intro n hn f hf
    refine ⟨by rw [h4, a2.bins n hn f hf], ?_⟩
    intro hen b
    rw [h5 n (by rw [a2.ns]; exact hn) f hf b, a3, a4, a5]
    have e1 : at1 acc0.nodeSum n = 0 := at1_replicate _ _
    have e2 : at3 acc0.hist n f b = 0 := by
      unfold at3
      simp only [hacc0]
      rw [row_replicate, if_pos hn]
      exact hrow0 f b
    have e3 : at2 acc0.zeroOptim n f = 0 := by
      unfold at2
      simp only [hacc0]
      rw [row_replicate, if_pos hn]
      exact at1_replicate _ _
    rw [e1, e2, e3, zero_add, zero_add, zero_add]
    have hq : ind (v.getD f false = true ∧ sparse.get? f = some b) = ind (sparse.get? f = some b) := by
      funext d; simp only [ind, hen, true_and]
    rw [hq, sum_ind_sub (collectRecords nodeMap kvs) (fun r => nodeMap.get? r.nodeId = some n)
      (sparse.get? f = some b) amount (fun r => entrySum v (amount r) f b r.features.vec)
      (fun r => storedSum v (amount r) f r.features.vec)]
    congr 1
    apply List.map_congr_left
    intro r hr
    obtain ⟨z, z1, _⟩ := hz' f hf
    obtain ⟨_, hb⟩ := hrec r hr
    rw [record_once v (amount r) f b hen sparse z z1 r.features hb.wf (by
      intro c hc
      obtain ⟨n, _, h, _⟩ := hb.bins f c hc
      exact ⟨n, h⟩)]

/-! ### Accumulation -/

theorem accBins_ok (p : HCell Rat) (l : List (HCell Rat)) :
    ∃ l', accBins plain p l = .ok l' ∧ l'.length = l.length ∧
      ∀ b < l.length, at1 l' b = (if b = 0 then p else at1 l' (b - 1)) + at1 l b := by
  induction l generalizing p with
  | nil => exact ⟨[], rfl, rfl, by simp⟩
  | cons c l ih =>
    obtain ⟨l', l1, l2, l3⟩ := ih (c + p)
    refine ⟨(c + p) :: l', ?_, by simp [l2], ?_⟩
    · unfold accBins
      rw [addCell_plain]
      simp only [bind, Except.bind]
      rw [l1]
      rfl
    · intro b hb
      cases b with
      | zero => simp only [if_true]; exact add_comm _ _
      | succ b =>
        have := l3 b (by simpa using hb)
        rw [if_neg (by omega), Nat.add_sub_cancel]
        have e1 : at1 ((c + p) :: l') (b + 1) = at1 l' b := rfl
        have e2 : at1 (c :: l) (b + 1) = at1 l b := rfl
        rw [e1, e2, this]
        cases b with
        | zero => rfl
        | succ b => rfl

theorem accFeature_ok (l : List (HCell Rat)) :
    ∃ l', accFeature plain l = .ok l' ∧ l'.length = l.length ∧
      ∀ b < l.length, at1 l' b = (if b = 0 then 0 else at1 l' (b - 1)) + at1 l b := by
  cases l with
  | nil => exact ⟨[], rfl, rfl, by simp⟩
  | cons c l =>
    obtain ⟨l', l1, l2, l3⟩ := accBins_ok c l
    refine ⟨c :: l', ?_, by simp [l2], ?_⟩
    · unfold accFeature
      simp only [bind, Except.bind]
      rw [l1]
      rfl
    · intro b hb
      cases b with
      | zero => simp [at1]
      | succ b =>
        have := l3 b (by simpa using hb)
        rw [if_neg (by omega), Nat.add_sub_cancel]
        have e1 : at1 (c :: l') (b + 1) = at1 l' b := rfl
        have e2 : at1 (c :: l) (b + 1) = at1 l b := rfl
        rw [e1, e2, this]
        cases b with
        | zero => rfl
        | succ b => rfl

theorem forEach_ok {β γ : Type} (f : β → Except PyErr γ) (P : β → γ → Prop)
    (h : ∀ x, ∃ y, f x = .ok y ∧ P x y) (l : List β) :
    ∃ l', forEach f l = .ok l' ∧ List.Forall₂ P l l' := by
  induction l with
  | nil => exact ⟨[], rfl, .nil⟩
  | cons x l ih =>
    obtain ⟨y, y1, y2⟩ := h x
    obtain ⟨l', l1, l2⟩ := ih
    refine ⟨y :: l', ?_, .cons y2 l2⟩
    unfold forEach
    rw [y1]
    simp only [bind, Except.bind]
    rw [l1]
    rfl

theorem forall₂_row {β γ : Type} {P : List β → List γ → Prop} (h0 : P [] []) {l : List (List β)}
    {l' : List (List γ)} (h : List.Forall₂ P l l') (i : Nat) : P (row l i) (row l' i) := by
  induction h generalizing i with
  | nil => exact h0
  | cons hx _ ih =>
    cases i with
    | zero => exact hx
    | succ i => exact ih i

/-- Relation between a list of bins and its accumulated version. -/
def Accd (l l' : List (HCell Rat)) : Prop :=
  l'.length = l.length ∧ ∀ b < l.length, at1 l' b = (if b = 0 then 0 else at1 l' (b - 1)) + at1 l b

theorem accumulate_ok (H : Hist Rat) : ∃ H', accumulate plain H = .ok H' ∧ H'.length = H.length ∧
    (∀ n, (row H' n).length = (row H n).length) ∧ ∀ n f, Accd (row (row H n) f) (row (row H' n) f) := by
  obtain ⟨H', h1, h2⟩ := forEach_ok (forEach (accFeature plain)) (List.Forall₂ Accd)
    (forEach_ok (accFeature plain) Accd accFeature_ok) H
  refine ⟨H', h1, h2.length_eq.symm, ?_, ?_⟩
  · intro n; exact (forall₂_row (P := List.Forall₂ Accd) .nil h2 n).length_eq.symm
  · intro n f
    exact forall₂_row (P := Accd) ⟨rfl, by simp⟩ (forall₂_row (P := List.Forall₂ Accd) .nil h2 n) f

/-- Prefix sums of counts per bin are counts up to the bin. -/
theorem accd_sum {β : Type} (rs : List β) (k : β → Nat) (w : β → HCell Rat) (l l' : List (HCell Rat))
    (h : Accd l l') (hl : ∀ b, at1 l b = (rs.map fun r => ind (k r = b) (w r)).sum) :
    ∀ b < l.length, at1 l' b = (rs.map fun r => ind (k r ≤ b) (w r)).sum := by
  intro b
  induction b with
  | zero =>
    intro hb
    rw [h.2 0 hb, if_pos rfl, zero_add, hl]
    congr 1
    apply List.map_congr_left
    intro r _
    unfold ind
    simp only [Nat.le_zero]
  | succ b ih =>
    intro hb
    rw [h.2 (b + 1) hb, if_neg (by omega), Nat.add_sub_cancel, ih (by omega), hl]
    clear ih hb hl
    induction rs with
    | nil => simp
    | cons r rs ih =>
      simp only [List.map_cons, List.sum_cons]
      rw [← ih]
      have e : ind (k r ≤ b + 1) (w r) = ind (k r ≤ b) (w r) + ind (k r = b + 1) (w r) := by
        unfold ind
        by_cases h1 : k r ≤ b
        · rw [if_pos (by omega), if_pos h1, if_neg (by omega), add_zero]
        · by_cases h2 : k r = b + 1
          · rw [if_pos (by omega), if_neg h1, if_pos h2, zero_add]
          · rw [if_neg (by omega), if_neg h1, if_neg h2, zero_add]
      rw [e]
      abel

/-! ### Node positions -/

theorem nodeMapLoop_eq (ids : List Nat) : ∀ (i : Nat) (m : Dict Nat Nat), ids.Nodup →
    (∀ x ∈ ids, x ∉ m.keys) → nodeMapLoop i ids m = m ++ ids.zipIdx i := by
  induction ids with
  | nil => intro i m _ _; simp [nodeMapLoop]
  | cons x ids ih =>
    intro i m hn hd
    rw [List.nodup_cons] at hn
    unfold nodeMapLoop
    rw [Dict.set_of_not_mem _ _ _ (hd x (by simp)), ih (i + 1) _ hn.2]
    · simp
    · intro y hy
      rw [show Dict.keys (m ++ [(x, i)]) = m.keys ++ [x] by simp [Dict.keys]]
      simp only [List.mem_append, List.mem_singleton, not_or]
      exact ⟨hd y (by simp [hy]), fun h => hn.1 (h ▸ hy)⟩

theorem zipIdx_get? (ids : List Nat) (hn : ids.Nodup) (i x n : Nat) :
    Dict.get? (ids.zipIdx i) x = some n ↔ i ≤ n ∧ ids[n - i]? = some x := by
  induction ids generalizing i with
  | nil => simp
  | cons y ids ih =>
    rw [List.nodup_cons] at hn
    rw [List.zipIdx_cons, Dict.get?_cons]
    by_cases h : y = x
    · subst h
      rw [if_pos rfl]
      constructor
      · intro hh
        simp only [Option.some.injEq] at hh
        subst hh
        simp
      · rintro ⟨h1, h2⟩
        by_cases hni : n = i
        · rw [hni]
        · exfalso
          obtain ⟨m, hm⟩ : ∃ m, n - i = m + 1 := ⟨n - i - 1, by omega⟩
          rw [hm, List.getElem?_cons_succ] at h2
          exact hn.1 (List.mem_of_getElem? h2)
    · rw [if_neg h, ih hn.2]
      constructor
      · rintro ⟨h1, h2⟩
        refine ⟨by omega, ?_⟩
        rw [show n - i = (n - (i + 1)) + 1 by omega, List.getElem?_cons_succ]
        exact h2
      · rintro ⟨h1, h2⟩
        by_cases hni : n = i
        · exfalso
          subst hni
          simp at h2
          exact h h2
        · refine ⟨by omega, ?_⟩
          rw [show n - i = (n - (i + 1)) + 1 by omega, List.getElem?_cons_succ] at h2
          exact h2

theorem nodeMapOf_get? (ids : List Nat) (hn : ids.Nodup) (x n : Nat) :
    (nodeMapOf ids).get? x = some n ↔ ids[n]? = some x := by
  unfold nodeMapOf
  rw [nodeMapLoop_eq ids 0 [] hn (by simp [Dict.keys]), List.nil_append, zipIdx_get? ids hn]
  simp

theorem nodeMapOf_length (ids : List Nat) (hn : ids.Nodup) : (nodeMapOf ids).length = ids.length := by
  unfold nodeMapOf
  rw [nodeMapLoop_eq ids 0 [] hn (by simp [Dict.keys])]
  simp

/-! ### From records to samples -/

theorem totals_cons {R : Type} (s : R × Rat × Rat) (l : List (R × Rat × Rat)) :
    totals (s :: l) = (s.2.1, s.2.2, 1) + totals l := by
  unfold totals
  simp only [List.map_cons, List.sum_cons, List.length_cons, Nat.cast_add, Nat.cast_one]
  exact Prod.ext rfl (Prod.ext rfl (by simp; omega))

theorem records_samples {K : Type} [DecidableEq K] (ids : List Nat) (hn : ids.Nodup) (n id : Nat)
    (hid : ids[n]? = some id) (data : DTable K (SparseVec Cell × Nat × Nat)) (P : SparseVec Cell → Prop)
    [DecidablePred P] (gh : DTable K (Rat × Rat)) :
    ((collectRecords (nodeMapOf ids) (Dict.values (DTable.joinLoop data.data (fun v w => (v, w)) gh.data))).map
      fun r => ind ((nodeMapOf ids).get? r.nodeId = some n) (ind (P r.features) (amount r))).sum =
    totals ((atNode data gh id).filter fun s => decide (P s.1)) := by
  obtain ⟨g⟩ := gh
  unfold atNode
  simp only
  induction g with
  | nil => simp [DTable.joinLoop, Dict.values, collectRecords, totals]; rfl
  | cons p g ih =>
    obtain ⟨k, gr, he⟩ := p
    rw [List.filterMap_cons]
    unfold DTable.joinLoop
    cases hd : data.data.get? k with
    | none => exact ih
    | some x =>
      obtain ⟨v, st, nid⟩ := x
      simp only
      have hv : Dict.values ((k, ((v, st, nid), gr, he)) :: DTable.joinLoop data.data (fun v w => (v, w)) g) =
        ((v, st, nid), gr, he) :: Dict.values (DTable.joinLoop data.data (fun v w => (v, w)) g) := rfl
      rw [hv]
      unfold collectRecords
      by_cases hst : st = 0
      · rw [if_pos (Or.inl hst), if_neg (by simp [hst])]
        exact ih
      · by_cases hnid : nid = id
        · subst hnid
          have hget := (nodeMapOf_get? ids hn nid n).mpr hid
          have hhas : (nodeMapOf ids).has nid = true :=
            (Dict.has_iff _ _).mpr (Dict.mem_keys_of_get? hget)
          rw [if_neg (by simp [hst, hhas]), if_pos ⟨hst, rfl⟩, List.map_cons, List.sum_cons, ih]
          simp only
          rw [List.filter_cons]
          by_cases hp : P v
          · simp only [ind, hget, if_true, hp, decide_true]
            rw [totals_cons]
            rfl
          · simp only [ind, hget, if_true, hp, if_false, decide_false]
            simp
        · have hc : ¬ (st ≠ 0 ∧ nid = id) := by simp [hnid]
          rw [if_neg hc]
          split
          · exact ih
          · rw [List.map_cons, List.sum_cons, ih]
            have hne : ¬ (nodeMapOf ids).get? nid = some n := by
              rw [nodeMapOf_get? ids hn, hid]
              intro h
              exact hnid (Option.some.inj h).symm
            simp only [ind, hne, if_false, zero_add]

/-- Two tables that describe the same samples give the same totals. -/
theorem totals_congr {K R S : Type} [DecidableEq K] (d1 : DTable K (R × Nat × Nat))
    (d2 : DTable K (S × Nat × Nat)) (gh : DTable K (Rat × Rat)) (id : Nat) (P : R → Bool) (Q : S → Bool)
    (h : ∀ k, (d1.data.get? k).map (fun x => (P x.1, x.2)) = (d2.data.get? k).map (fun x => (Q x.1, x.2))) :
    totals ((atNode d1 gh id).filter fun s => P s.1) = totals ((atNode d2 gh id).filter fun s => Q s.1) := by
  obtain ⟨g⟩ := gh
  unfold atNode
  simp only
  induction g with
  | nil => rfl
  | cons p g ih =>
    obtain ⟨k, w⟩ := p
    rw [List.filterMap_cons, List.filterMap_cons]
    have hk := h k
    cases h1 : d1.data.get? k with
    | none =>
      rw [h1] at hk
      have h2 : d2.data.get? k = none := by simpa [eq_comm] using hk
      simp only [h2]
      exact ih
    | some x =>
      obtain ⟨r, st, nid⟩ := x
      rw [h1] at hk
      cases h2 : d2.data.get? k with
      | none => rw [h2] at hk; simp at hk
      | some y =>
        obtain ⟨s, st', nid'⟩ := y
        rw [h2] at hk
        simp only [Option.map_some, Option.some.injEq, Prod.mk.injEq] at hk
        obtain ⟨hp, rfl, rfl⟩ := hk
        simp only
        by_cases hc : st ≠ 0 ∧ nid = id
        · rw [if_pos hc, if_pos hc, List.filter_cons, List.filter_cons]
          simp only [hp]
          cases Q s
          · exact ih
          · simp only [if_true]
            rw [totals_cons, totals_cons, ih]
        · rw [if_neg hc, if_neg hc]
          exact ih

/-- The bin of a record as a natural number. -/
def natBin (sparse : Dict Nat Nat) (f : Nat) (v : SparseVec Cell) : Nat :=
  match v.getData f (.bin ((sparse.get? f).getD 0)) with
  | .bin b => b
  | .raw _ => 0

theorem binOf_natBin (splits : List (List Rat)) (sparse : Dict Nat Nat) (f : Nat) (v : SparseVec Cell)
    (hv : BinnedRow splits v) : binOf sparse f v = natBin sparse f v := by
  unfold binOf natBin SparseVec.getData
  cases h : v.vec.get? f with
  | none => rfl
  | some c =>
    obtain ⟨b, _, rfl, _⟩ := hv.bins f c h
    rfl

theorem natBin_le (splits : List (List Rat)) (sparse : Dict Nat Nat) (hz : ZeroBins splits sparse)
    (f : Nat) (sp : List Rat) (hf : splits[f]? = some sp) (v : SparseVec Cell)
    (hv : BinnedRow splits v) : natBin sparse f v ≤ sp.length := by
  unfold natBin SparseVec.getData
  cases h : v.vec.get? f with
  | none =>
    obtain ⟨z, z1, z2⟩ := hz f sp hf
    simp [z1, z2]
  | some c =>
    obtain ⟨b, sp', rfl, h1, h2⟩ := hv.bins f c h
    rw [hf] at h1
    simp only [Option.getD_some]
    rw [Option.some.inj h1]
    exact h2

end Histogram
end Verif
