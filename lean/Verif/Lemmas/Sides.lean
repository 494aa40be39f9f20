import Verif.Spec.C83
import Verif.Lemmas.RawRun
import Verif.Lemmas.RoundSteady
import Verif.Lemmas.MovedPredict

/-! # The samples on both sides of the splits of a tree -/

set_option autoImplicit false

namespace Verif
namespace DTree
open Spec
open Binning (getBinNum)

variable {K : Type} [DecidableEq K] {α : Type}

omit [DecidableEq K] in
theorem lists_perm_filter {A L : List K} {p q : K → Prop} (hA : Lists A p) (hL : Lists L q) (d : K → Bool)
    (h : ∀ k ∈ A, d k = true ↔ q k) (hsub : ∀ k, q k → p k) : L.length = (A.filter d).length := by
  refine List.Perm.length_eq ((List.perm_ext_iff_of_nodup hL.1 (hA.1.filter _)).mpr fun k => ?_)
  rw [hL.2, List.mem_filter]
  constructor
  · intro hq
    have := (hA.2 k).mpr (hsub k hq)
    exact ⟨this, (h k this).mpr hq⟩
  · intro hk
    exact (h k hk.1).mp hk.2

section
variable {S : Setup K α} {R : Rules K} {m : Rat} {rows : Option Nat → DTable K (List Rat)} {F : Fitted K}
  {lev : Nat → Nat} {mem : Nat → List K}

theorem GrownBy.sides (hr : RawRun S rows)
    (ho : ∀ A s j f b l, R.pick A s j f b l → ∃ l0, OfferAt S A j f b l0) (hpk : PicksOk S R)
    (g : GrownBy S R rows F lev mem) (i : Nat) (j : Option Nat) (f : Nat) (t : Rat) (A L Q : List K)
    (hs : SplitAt S F i j f t)
    (hA : Lists A fun k => k ∈ S.gh.data.keys ∧ Reaches S F rows k i)
    (hL : Lists L (OnSide S F rows i j f fun v => v ≤ t))
    (hQ : Lists Q (OnSide S F rows i j f fun v => t < v)) :
    S.cfg.minSample ≤ A.length ∧ S.cfg.minLeaf ≤ L.length ∧ S.cfg.minLeaf ≤ Q.length ∧
      L.length + Q.length = A.length := by
  have hp := RawRun.prepared hr
  obtain ⟨sums, dep, num, hdep, hinv⟩ := g.inv
  obtain ⟨n, P0, d0, hn, hl, _⟩ := id hs
  have hid := hinv.number.2 i n hn
  have hil : i < F.tree.length := (List.getElem?_eq_some_iff.mp hn).1
  have hm := List.mem_of_getElem? hn
  rcases g.nodes n hm with h | ⟨_, j', P, f', b, l, sp, t', h1, h2, h3, h4, h5⟩
  · have := h.1
    rw [hl] at this; cases this
  rw [hid] at h4 h5
  obtain ⟨rfl, rfl, rfl⟩ := splitAt_unique hr.names hs h4
  have hperm : (mem i).Perm A := Lists.perm (g.lists i hil) hA fun _ => Iff.rfl
  have hmk : ∀ k ∈ mem i, k ∈ S.gh.data.keys := fun k hk => (((g.lists i hil).2 k).mp hk).1
  have hok := hpk _ _ _ _ _ _ _ _ _ hmk h1 h2 h3 h5
  obtain ⟨l0, ho0⟩ := ho _ _ _ _ _ _ h5
  rw [offerAt_perm hperm] at ho0
  obtain ⟨P', sp', o1, _, o3, _, o5, o6, o7, _⟩ := ho0
  rw [h1, Option.some.injEq] at o1
  subst o1
  have hbin : ∀ k ∈ A, ∃ row, (rows j).data.get? k = some row ∧ (binAt P f k ≤ (b : Rat) ↔ value row f ≤ t) := by
    intro k hk
    obtain ⟨row, r1, r2⟩ := binAt_raw (RawRun.binned hr j P h1)
      (((hp.parties j P h1).2.2.2.2 k).mpr ((hA.2 k).mp hk).1) h2
    refine ⟨row, r1, ?_⟩
    rw [r2, ← hok]
    exact_mod_cast Iff.rfl
  have e1 : L.length = (A.filter fun k => decide (binAt P f k ≤ (b : Rat))).length := by
    refine lists_perm_filter hA hL _ (fun k hk => ?_) fun k hk => hk.1
    obtain ⟨row, r1, r2⟩ := hbin k hk
    rw [decide_eq_true_eq, r2]
    constructor
    · intro h
      exact ⟨(hA.2 k).mp hk, row, r1, h⟩
    · rintro ⟨_, row', s1, s2⟩
      rw [r1, Option.some.injEq] at s1
      subst s1
      exact s2
  have e2 : Q.length = (A.filter fun k => decide ((b : Rat) < binAt P f k)).length := by
    refine lists_perm_filter hA hQ _ (fun k hk => ?_) fun k hk => hk.1
    obtain ⟨row, r1, r2⟩ := hbin k hk
    rw [decide_eq_true_eq, ← not_le, r2, not_le]
    constructor
    · intro h
      exact ⟨(hA.2 k).mp hk, row, r1, h⟩
    · rintro ⟨_, row', s1, s2⟩
      rw [r1, Option.some.injEq] at s1
      subst s1
      exact s2
  refine ⟨o5, by omega, by omega, ?_⟩
  rw [e1, e2]
  have := List.length_eq_length_filter_add (l := A) (fun k => decide (binAt P f k ≤ (b : Rat)))
  rw [this]
  congr 2
  refine List.filter_congr fun k _ => ?_
  simp only [← not_le, decide_not]

open Classical in
/-- The samples on one side exist as a list. -/
theorem onSide_lists (hr : RawRun S rows) (i : Nat) (j : Option Nat) (f : Nat) (side : Rat → Prop) :
    ∃ L, Lists L (OnSide S F rows i j f side) := by
  refine ⟨S.gh.data.keys.filter fun k => decide (OnSide S F rows i j f side k), ?_, fun k => ?_⟩
  · exact List.Nodup.filter _ hr.wf
  · rw [List.mem_filter, decide_eq_true_eq]
    exact ⟨fun h => h.2, fun h => ⟨h.1.1, h⟩⟩

theorem GrownBy.splitAt (g : GrownBy S R rows F lev mem) {i : Nat} {n : Node} (hn : F.tree[i]? = some n)
    (hl : n.isLeaf = false) : ∃ j f t, SplitAt S F i j f t := by
  obtain ⟨sums, dep, num, hdep, hinv⟩ := g.inv
  rcases g.nodes n (List.mem_of_getElem? hn) with h | ⟨_, j, P, f, b, l, sp, t, _, _, _, h, _⟩
  · have := h.1
    rw [hl] at this; cases this
  · rw [hinv.number.2 i n hn] at h
    exact ⟨j, f, t, h⟩

theorem GrownBy.size (hr : RawRun S rows)
    (ho : ∀ A s j f b l, R.pick A s j f b l → ∃ l0, OfferAt S A j f b l0) (hpk : PicksOk S R)
    (g : GrownBy S R rows F lev mem) (i : Nat) (A : List K) (h0 : 0 < i) (hi : i < F.tree.length)
    (hA : Lists A fun k => k ∈ S.gh.data.keys ∧ Reaches S F rows k i) : S.cfg.minLeaf ≤ A.length := by
  obtain ⟨sums, dep, num, hdep, hinv⟩ := g.inv
  obtain ⟨p, ⟨n, hn, hc⟩, _⟩ := hinv.wellFormed.parent i h0 hi
  have hl : n.isLeaf = false := by
    rcases hinv.wellFormed.shape p n hn with ⟨_, h2, h3⟩ | ⟨h, _⟩
    · rw [h2, h3] at hc; simp at hc
    · exact h
  have hpl : p < F.tree.length := (List.getElem?_eq_some_iff.mp hn).1
  obtain ⟨j, f, t, hs⟩ := g.splitAt hn hl
  obtain ⟨L, hL⟩ := onSide_lists (F := F) hr p j f (fun v => v ≤ t)
  obtain ⟨Q, hQ⟩ := onSide_lists (F := F) hr p j f (fun v => t < v)
  obtain ⟨_, e1, e2, _⟩ := g.sides hr ho hpk p j f t _ L Q hs (g.lists p hpl) hL hQ
  have hsub : ∀ {M : List K} {side : Rat → Prop}, Lists M (OnSide S F rows p j f side) →
      (∀ k row, (rows j).data.get? k = some row → side (value row f) → Step S F rows k p i) →
      M.length ≤ A.length := by
    intro M side hM hstep
    refine (List.subperm_of_subset hM.1 fun k hk => ?_).length_le
    obtain ⟨⟨k1, k2⟩, row, k3, k4⟩ := (hM.2 k).mp hk
    exact (hA.2 k).mpr ⟨k1, k2.tail (hstep k row k3 k4)⟩
  rcases hc with hc | hc
  · exact e1.trans (Int.ofNat_le.mpr (hsub hL fun k row h1 h2 => ⟨j, f, t, row, n, hs, h1, hn, Or.inl ⟨h2, hc⟩⟩))
  · exact e2.trans (Int.ofNat_le.mpr (hsub hQ fun k row h1 h2 => ⟨j, f, t, row, n, hs, h1, hn, Or.inr ⟨h2, hc⟩⟩))

theorem GrownBy.constant (hr : RawRun S rows) (hu : Usual S m)
    (ho : ∀ A s j f b l, R.pick A s j f b l → ∃ l0, OfferAt S A j f b l0) (hpk : PicksOk S R)
    (g : GrownBy S R rows F lev mem) (j : Option Nat) (f : Nat)
    (hc : ∃ c, ∀ k row, (rows j).data.get? k = some row → value row f = c) (i : Nat) (t : Rat) :
    ¬ SplitAt S F i j f t := by
  intro hs
  obtain ⟨c, hc⟩ := hc
  obtain ⟨n, _, _, hn, _⟩ := id hs
  obtain ⟨L, hL⟩ := onSide_lists (F := F) hr i j f (fun v => v ≤ t)
  obtain ⟨Q, hQ⟩ := onSide_lists (F := F) hr i j f (fun v => t < v)
  obtain ⟨_, e1, e2, _⟩ := g.sides hr ho hpk i j f t _ L Q hs
    (g.lists i (List.getElem?_eq_some_iff.mp hn).1) hL hQ
  have hleaf := hu.leaf
  obtain ⟨a, ha⟩ := List.exists_mem_of_length_pos (l := L) (by omega)
  obtain ⟨b, hb⟩ := List.exists_mem_of_length_pos (l := Q) (by omega)
  obtain ⟨_, r1, a1, a2⟩ := (hL.2 a).mp ha
  obtain ⟨_, r2, b1, b2⟩ := (hQ.2 b).mp hb
  rw [hc a r1 a1] at a2
  rw [hc b r2 b1] at b2
  linarith

theorem GrownBy.leaves (hr : RawRun S rows)
    (ho : ∀ A s j f b l, R.pick A s j f b l → ∃ l0, OfferAt S A j f b l0) (hpk : PicksOk S R)
    (g : GrownBy S R rows F lev mem) (h1 : 1 < F.tree.length) :
    (F.tree.filter Node.isLeaf).length * S.cfg.minLeaf ≤ S.gh.data.length := by
  obtain ⟨sums, dep, num, hdep, hinv⟩ := g.inv
  obtain ⟨hlen, hnum⟩ := hinv.number
  have hnd : (F.tree.map Node.id).Nodup := by
    have := hinv.ids
    simp only [List.append_nil] at this
    rw [this]; exact List.nodup_range
  have hat : ∀ n ∈ F.tree, F.tree[n.id]? = some n ∧ n.id < F.tree.length := by
    intro n hn
    obtain ⟨i, hi⟩ := List.mem_iff_getElem?.mp hn
    have := hnum i n hi
    subst this
    exact ⟨hi, (List.getElem?_eq_some_iff.mp hi).1⟩
  have hroot : ∀ n ∈ F.tree, n.isLeaf = true → 0 < n.id := by
    intro n hn hl
    by_contra h0
    have h0 : n.id = 0 := by omega
    obtain ⟨p, ⟨q, hq, hc⟩, _⟩ := hinv.wellFormed.parent 1 (by omega) h1
    rcases hinv.wellFormed.shape p q hq with ⟨_, a, b⟩ | ⟨hql, l, r, a, b, _, c, d, _⟩
    · rw [a, b] at hc; simp at hc
    · have hp0 : p = 0 := by
        rw [a, b, Option.some.injEq, Option.some.injEq] at hc
        omega
      subst hp0
      have := (hat n hn).1
      rw [h0, hq, Option.some.injEq] at this
      subst this
      rw [hl] at hql; cases hql
  have hdis : ((F.tree.filter Node.isLeaf).flatMap fun n => mem n.id).Nodup := by
    rw [List.nodup_flatMap]
    refine ⟨fun n hn => (g.lists _ (hat n (List.mem_of_mem_filter hn)).2).1, ?_⟩
    have hpw : (F.tree.filter Node.isLeaf).Pairwise fun a b => a.id ≠ b.id :=
      (List.pairwise_map.mp hnd).filter _
    refine hpw.imp_of_mem fun {a b} ha hb hab => ?_
    rw [List.mem_filter] at ha hb
    intro k hka hkb
    obtain ⟨a1, a2⟩ := hat a ha.1
    obtain ⟨b1, b2⟩ := hat b hb.1
    exact hab (reaches_unique hr.names (((g.lists _ a2).2 k).mp hka).2 (((g.lists _ b2).2 k).mp hkb).2
      a1 ha.2 b1 hb.2)
  have hle := (List.subperm_of_subset (l₂ := S.gh.data.keys) hdis fun k hk => by
    rw [List.mem_flatMap] at hk
    obtain ⟨n, hn, hk⟩ := hk
    exact (((g.lists _ (hat n (List.mem_of_mem_filter hn)).2).2 k).mp hk).1).length_le
  have hkl : S.gh.data.keys.length = S.gh.data.length := by simp [Dict.keys]
  rw [hkl, List.length_flatMap] at hle
  have hz : (((F.tree.filter Node.isLeaf).map fun n => (mem n.id).length).sum : Int) ≤ S.gh.data.length := by
    exact_mod_cast hle
  refine le_trans ?_ hz
  have := List.card_nsmul_le_sum ((F.tree.filter Node.isLeaf).map fun n => ((mem n.id).length : Int))
      S.cfg.minLeaf (by
    intro x hx
    rw [List.mem_map] at hx
    obtain ⟨n, hn, rfl⟩ := hx
    rw [List.mem_filter] at hn
    exact g.size hr ho hpk n.id _ (hroot n hn.1 hn.2) (hat n hn.1).2 (g.lists _ (hat n hn.1).2))
  rw [List.length_map, nsmul_eq_mul] at this
  refine this.trans (le_of_eq ?_)
  rw [Nat.cast_list_sum, List.map_map]
  rfl

theorem GrownBy.separates (hr : RawRun S rows) (hu : Usual S m)
    (ho : ∀ A s j f b l, R.pick A s j f b l → ∃ l0, OfferAt S A j f b l0) (hpk : PicksOk S R)
    (g : GrownBy S R rows F lev mem) : Separates S F rows :=
  ⟨g.sides hr ho hpk, g.size hr ho hpk, g.constant hr hu ho hpk, g.leaves hr ho hpk⟩

end
end DTree
end Verif
