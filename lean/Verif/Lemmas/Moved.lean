import Verif.Lemmas.RoundSame
import Verif.Spec.C75

/-! # The same tree from another distribution of the columns and another order of the samples -/

set_option autoImplicit false

namespace Verif
namespace DTree

open Spec
open Binning (getBinNum)

variable {K : Type} [DecidableEq K] {α : Type}

theorem _root_.Verif.Spec.Redistributed.symm {S S' : Setup K α} {rows rows' : Option Nat → DTable K (List Rat)}
    (h : Redistributed S rows S' rows') : Redistributed S' rows' S rows :=
  ⟨h.lam.symm, h.impurity.symm, h.sample.symm, h.leaf.symm, h.depth.symm, h.gh.symm, h.back, h.there⟩

theorem _root_.Verif.Spec.Redistributed.keys {S S' : Setup K α} {rows rows' : Option Nat → DTable K (List Rat)}
    (h : Redistributed S rows S' rows') (k : K) : k ∈ S'.gh.data.keys ↔ k ∈ S.gh.data.keys :=
  (h.gh.map Prod.fst).mem_iff

/-- The order of the samples does not matter for a sum over given samples. -/
theorem _root_.Verif.Spec.Redistributed.sums {S S' : Setup K α} {rows rows' : Option Nat → DTable K (List Rat)}
    (h : Redistributed S rows S' rows') (hw : S.gh.WF) (hw' : S'.gh.WF) (A : List K) : sumKeys S'.gh A = sumKeys S.gh A := by
  have hg : ∀ k, ghOf S'.gh k = ghOf S.gh k := by
    intro k
    unfold ghOf
    congr 1
    apply Option.ext
    intro v
    rw [Dict.get?_eq_some_iff hw', Dict.get?_eq_some_iff hw]
    exact h.gh.mem_iff
  simp only [sumKeys, hg]

/-- A split on offer in one distribution is on offer in the other, with the same sides. -/
theorem offer_moved {S S' : Setup K α} {rows rows' : Option Nat → DTable K (List Rat)} (hr : RawRun S rows)
    (hr' : RawRun S' rows') (hd : Redistributed S rows S' rows') {A : List K} (hA : ∀ k ∈ A, k ∈ S.gh.data.keys)
    {j : Option Nat} {f b : Nat} {l : Rat × Rat} (ho : OfferAt S A j f b l) :
    ∃ j' f', OfferAt S' A j' f' b l ∧ ∀ P P', partyAt S j = some P → partyAt S' j' = some P' →
      ∀ k ∈ A, binAt P' f' k = binAt P f k := by
  obtain ⟨P, sp, o1, o2, o3, o4, o5, o6, o7, o8⟩ := ho
  obtain ⟨j', P', f', p1, p2, p3, p4⟩ := hd.there j P o1 f (List.getElem?_eq_some_iff.mp o3).1
  have hsp' : P'.splits[f']? = some sp := by rw [p2, o3]
  have hbin : ∀ k ∈ A, binAt P' f' k = binAt P f k := by
    intro k hk
    have hkS := hA k hk
    have hkS' : k ∈ S'.gh.data.keys := (hd.keys k).mpr hkS
    obtain ⟨row, r1, r2⟩ := binAt_raw (RawRun.binned hr j P o1)
      ((((RawRun.prepared hr).parties j P o1).2.2.2.2 k).mpr hkS) o3
    obtain ⟨row', r1', r2'⟩ := binAt_raw (RawRun.binned hr' j' P' p1)
      ((((RawRun.prepared hr').parties j' P' p1).2.2.2.2 k).mpr hkS') hsp'
    rw [r2, r2', p4 k hkS row row' r1 r1']
  have e1 : (A.filter fun k => decide (binAt P' f' k ≤ (b : Rat))) = A.filter fun k => decide (binAt P f k ≤ (b : Rat)) :=
    List.filter_congr fun k hk => by rw [hbin k hk]
  have e2 : (A.filter fun k => decide ((b : Rat) < binAt P' f' k)) = A.filter fun k => decide ((b : Rat) < binAt P f k) :=
    List.filter_congr fun k hk => by rw [hbin k hk]
  refine ⟨j', f', ⟨P', sp, p1, by rw [p3, o2], hsp', o4, by rw [hd.sample]; exact o5, by rw [hd.leaf, e1]; exact o6,
    by rw [hd.leaf, e2]; exact o7, by rw [hd.sums hr.wf hr'.wf, e1]; exact o8⟩, ?_⟩
  intro Q Q' hQ hQ' k hk
  rw [o1, Option.some.injEq] at hQ
  rw [p1, Option.some.injEq] at hQ'
  subst hQ hQ'
  exact hbin k hk

theorem noSplit_moved {S S' : Setup K α} {rows rows' : Option Nat → DTable K (List Rat)} (hr : RawRun S rows)
    (hr' : RawRun S' rows') (hd : Redistributed S rows S' rows') {A : List K} (hA : ∀ k ∈ A, k ∈ S.gh.data.keys)
    {δ : Rat} (h : NoSplit S' δ A) : NoSplit S δ A := by
  intro j f b l ho
  obtain ⟨j', f', ho', _⟩ := offer_moved hr hr' hd hA ho
  have := h j' f' b l ho'
  rwa [hd.lam, hd.sums hr.wf hr'.wf, hd.impurity] at this

theorem nearlyBest_moved {S S' : Setup K α} {rows rows' : Option Nat → DTable K (List Rat)} (hr : RawRun S rows)
    (hr' : RawRun S' rows') (hd : Redistributed S rows S' rows') {A : List K} (hA : ∀ k ∈ A, k ∈ S.gh.data.keys)
    {δ η : Rat} {j' : Option Nat} {P' : Party K} {f' b : Nat} {l : Rat × Rat} (hP' : partyAt S' j' = some P')
    (h : NearlyBest S' δ η A j' f' b l) :
    ∃ j P f, partyAt S j = some P ∧ NearlyBest S δ η A j f b l ∧ ∀ k ∈ A, binAt P' f' k = binAt P f k := by
  have hA' : ∀ k ∈ A, k ∈ S'.gh.data.keys := fun k hk => (hd.keys k).mpr (hA k hk)
  obtain ⟨j, f, ho, hb⟩ := offer_moved hr' hr hd.symm hA' h.1
  obtain ⟨P, hP⟩ : ∃ P, partyAt S j = some P := by
    obtain ⟨P, _, hP, _⟩ := ho; exact ⟨P, hP⟩
  refine ⟨j, P, f, hP, ⟨ho, ?_, ?_⟩, fun k hk => (hb P' P hP' hP k hk).symm⟩
  · have := h.2.1
    rwa [hd.lam, hd.sums hr.wf hr'.wf, hd.impurity] at this
  · intro j1 f1 b1 l1 ho1
    obtain ⟨j2, f2, ho2, _⟩ := offer_moved hr hr' hd hA ho1
    have := h.2.2 j2 f2 b1 l1 ho2
    rwa [hd.lam, hd.sums hr.wf hr'.wf] at this

theorem nearlyBest_perm {S : Setup K α} {A B : List K} (h : A.Perm B) {δ η : Rat} {j : Option Nat} {f b : Nat}
    {l : Rat × Rat} (hb : NearlyBest S δ η A j f b l) : NearlyBest S δ η B j f b l := by
  obtain ⟨c1, c2, c3⟩ := hb
  rw [offerAt_perm h] at c1 c3
  rw [sumKeys_perm h] at c2 c3
  exact ⟨c1, c2, c3⟩

/-- What it means that node `i` is the same in both trees. -/
structure MatchAt (S S' : Setup K α) (rows rows' : Option Nat → DTable K (List Rat)) (F F' : Fitted K) (lev lev' : Nat → Nat)
    (i : Nat) : Prop where
  exists_iff : i < F.tree.length ↔ i < F'.tree.length
  level : i < F.tree.length → lev i = lev' i
  reach : ∀ k ∈ S.gh.data.keys, Reaches S F rows k i ↔ Reaches S' F' rows' k i
  node : ∀ n n', F.tree[i]? = some n → F'.tree[i]? = some n' →
    n'.isLeaf = n.isLeaf ∧ n'.left = n.left ∧ n'.right = n.right
  step : ∀ k ∈ S.gh.data.keys, Reaches S F rows k i → ∀ c, Step S F rows k i c ↔ Step S' F' rows' k i c

theorem match_reach {S S' : Setup K α} {rows rows' : Option Nat → DTable K (List Rat)} {F F' : Fitted K} {lev lev' : Nat → Nat}
    (hw : WellFormed F.tree) (hw' : WellFormed F'.tree) {i : Nat} (h : ∀ a < i, MatchAt S S' rows rows' F F' lev lev' a)
    {k : K} (hk : k ∈ S.gh.data.keys) : Reaches S F rows k i ↔ Reaches S' F' rows' k i := by
  constructor
  · intro hr
    cases hr with
    | refl => exact .refl
    | @tail a c h1 h2 =>
      have hlt := step_lt hw h2
      exact .tail (((h a hlt).reach k hk).mp h1) (((h a hlt).step k hk h1 i).mp h2)
  · intro hr
    cases hr with
    | refl => exact .refl
    | @tail a c h1 h2 =>
      have hlt := step_lt hw' h2
      have h1' := ((h a hlt).reach k hk).mpr h1
      exact .tail h1' (((h a hlt).step k hk h1' i).mpr h2)

/-- **Two trees with decisions right up to `δ` are the same** if the decisions are clear by `δ`. -/
theorem matched {S S' : Setup K α} {rows rows' : Option Nat → DTable K (List Rat)} {δ : Rat} (hr : RawRun S rows)
    (hr' : RawRun S' rows') (hd : Redistributed S rows S' rows')
    (hinc : ∀ j P, partyAt S j = some P → ∀ sp ∈ P.splits, sp.Pairwise (· < ·))
    (hinc' : ∀ j P, partyAt S' j = some P → ∀ sp ∈ P.splits, sp.Pairwise (· < ·))
    {F F' : Fitted K} {lev lev' : Nat → Nat} {mem mem' : Nat → List K} (g : NearRun S rows δ F lev mem)
    (g' : NearRun S' rows' δ F' lev' mem') (hclear : ClearTree S δ F rows) (i : Nat) :
    MatchAt S S' rows rows' F F' lev lev' i := by
  obtain ⟨rnd, sums, dep, num, hinv⟩ := g.inv
  obtain ⟨rnd', sums', dep', num', hinv'⟩ := g'.inv
  have hw := hinv.wellFormed
  have hw' := hinv'.wellFormed
  obtain ⟨hlen, hnum⟩ := hinv.number
  obtain ⟨hlen', hnum'⟩ := hinv'.number
  induction i using Nat.strong_induction_on with
  | _ i ih =>
    have hboth := exists_both hinv hinv' (i := i) (fun a ha => ⟨(ih a ha).exists_iff, (ih a ha).level⟩)
      (fun a ha n n' h1 h2 => ((ih a ha).node n n' h1 h2).2)
    have hreach : ∀ k ∈ S.gh.data.keys, Reaches S F rows k i ↔ Reaches S' F' rows' k i :=
      fun k hk => match_reach hw hw' ih hk
    by_cases hil : i < F.tree.length
    · have hil' := hboth.1.mp hil
      set n := F.tree[i] with hnd
      set n' := F'.tree[i] with hnd'
      have hn : F.tree[i]? = some n := List.getElem?_eq_getElem hil
      have hn' : F'.tree[i]? = some n' := List.getElem?_eq_getElem hil'
      have hid := hnum i n hn
      have hid' := hnum' i n' hn'
      have hm := List.mem_of_getElem? hn
      have hm' := List.mem_of_getElem? hn'
      have hperm : (mem' i).Perm (mem i) := Lists.perm (g'.lists i hil') (g.lists i hil) fun k => by
        constructor
        · rintro ⟨h1, h2⟩; rw [hd.keys] at h1; exact ⟨h1, (hreach k h1).mpr h2⟩
        · rintro ⟨h1, h2⟩; exact ⟨(hd.keys k).mpr h1, (hreach k h1).mp h2⟩
      have hsub : ∀ k ∈ mem i, k ∈ S.gh.data.keys := fun k hk => (((g.lists i hil).2 k).mp hk).1
      have hC : lev i < S.maxDepth → ClearAt S δ (mem i) := by
        intro hlt
        obtain ⟨d, hd⟩ := depth_exists hw i hil
        have := hinv.depth i d hd
        exact hclear i d hd (by omega) (mem i) (g.lists i hil)
      have hnodes := g.nodes n hm
      have hnodes' := g'.nodes n' hm'
      rw [hid] at hnodes
      rw [hid'] at hnodes'
      have hlev := hboth.2 hil
      have hleaf : n'.isLeaf = n.isLeaf := by
        rcases hnodes with ⟨h1, h2⟩ | ⟨h1, h2, j, P, f, b, l, sp, t, a1, a2, a3, a4, a5⟩
        · rcases hnodes' with ⟨h1', _⟩ | ⟨h1', h2', j', P', f', b', l', sp', t', b1, b2, b3, b4, b5⟩
          · rw [h1, h1']
          · exfalso
            rcases h2 with h2 | h2
            · have := hd.depth; omega
            · obtain ⟨j1, P1, f1, _, ⟨c1, c2, c3⟩, _⟩ := nearlyBest_moved hr hr' hd hsub b1 (nearlyBest_perm hperm b5)
              rcases (hC (by have := hd.depth; omega)).1 with h | ⟨j0, f0, b0, l0, h3, h4⟩
              · have := h j1 f1 b' l' c1; linarith
              · have := h2 j0 f0 b0 l0 h3; linarith
        · rcases hnodes' with ⟨h1', h2'⟩ | ⟨h1', _⟩
          · exfalso
            rcases h2' with h2' | h2'
            · have := hd.depth; omega
            · rw [noSplit_perm hperm] at h2'
              replace h2' := noSplit_moved hr hr' hd hsub h2'
              obtain ⟨c1, c2, c3⟩ := a5
              rcases (hC (by omega)).1 with h | ⟨j0, f0, b0, l0, h3, h4⟩
              · have := h j f b l c1; linarith
              · have := h2' j0 f0 b0 l0 h3; linarith
          · rw [h1, h1']
      have hchildren : ((F'.tree.take i).map fun n => n.children.length).sum =
          ((F.tree.take i).map fun n => n.children.length).sum := by
        congr 1
        apply List.ext_getElem?
        intro a
        rw [List.getElem?_map, List.getElem?_map, List.getElem?_take, List.getElem?_take]
        split
        · rename_i ha
          have hs := ih a ha
          have hal : a < F.tree.length := by omega
          have hal' := hs.exists_iff.mp hal
          rw [List.getElem?_eq_getElem hal, List.getElem?_eq_getElem hal']
          obtain ⟨_, e3, e4⟩ := hs.node _ _ (List.getElem?_eq_getElem hal) (List.getElem?_eq_getElem hal')
          simp only [Option.map_some, Option.some.injEq]
          unfold Node.children
          rw [e3, e4]
        · rfl
      have hkids : n'.left = n.left ∧ n'.right = n.right := by
        rcases hinv.shape n hm with ⟨h1, h2, h3⟩ | ⟨h1, l, h2, h3, _⟩
        · rcases hinv'.shape n' hm' with ⟨h1', h2', h3'⟩ | ⟨h1', _⟩
          · rw [h2, h3, h2', h3']; exact ⟨rfl, rfl⟩
          · rw [hleaf, h1] at h1'; cases h1'
        · rcases hinv'.shape n' hm' with ⟨h1', _⟩ | ⟨h1', l', h2', h3', _⟩
          · rw [hleaf, h1] at h1'; cases h1'
          · have e1 := left_number hinv hn h2
            have e2 := left_number hinv' hn' h2'
            rw [hchildren, ← e1] at e2
            subst e2
            rw [h2, h3, h2', h3']; exact ⟨rfl, rfl⟩
      refine ⟨hboth.1, hboth.2, hreach, ?_, ?_⟩
      · intro a a' ha ha'
        rw [hn, Option.some.injEq] at ha
        rw [hn', Option.some.injEq] at ha'
        subst ha ha'
        exact ⟨hleaf, hkids.1, hkids.2⟩
      · intro k hk hrk c
        have hkm : k ∈ mem i := ((g.lists i hil).2 k).mpr ⟨hk, hrk⟩
        rcases hnodes with ⟨h1, _⟩ | ⟨h1, h2, j, P, f, b, l, sp, t, a1, a2, a3, a4, a5⟩
        · constructor
          · intro h; exact absurd h (no_step hn h1)
          · intro h; exact absurd h (no_step hn' (by rw [hleaf, h1]))
        rcases hnodes' with ⟨h1', _⟩ | ⟨h1', h2', j', P', f', b', l', sp', t', b1, b2, b3, b4, b5⟩
        · rw [hleaf, h1] at h1'; cases h1'
        obtain ⟨j1, P1, f1, d1, ⟨c1, c2, c3⟩, d2⟩ := nearlyBest_moved hr hr' hd hsub b1 (nearlyBest_perm hperm b5)
        have hside := (hC h2).2 j P f b l j1 P1 f1 b' l' a5.1 c1 a5.2.2 c3 a1 d1 k hkm
        rw [step_iff_bin hr hinc hn a1 a2 a3 a4 hk c,
          step_iff_bin hr' hinc' hn' b1 b2 b3 b4 ((hd.keys k).mpr hk) c, d2 k hkm, hside,
          hkids.1, hkids.2]
    · have hil' : ¬ i < F'.tree.length := fun h => hil (hboth.1.mpr h)
      refine ⟨hboth.1, hboth.2, hreach, fun n n' hn _ => ?_, fun k _ _ c => ?_⟩
      · exact absurd (List.getElem?_eq_some_iff.mp hn).1 hil
      · constructor
        · rintro ⟨_, _, _, _, n, _, _, h, _⟩
          exact absurd (List.getElem?_eq_some_iff.mp h).1 hil
        · rintro ⟨_, _, _, _, n, _, _, h, _⟩
          exact absurd (List.getElem?_eq_some_iff.mp h).1 hil'

end DTree
end Verif
