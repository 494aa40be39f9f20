import Verif.Lemmas.RoundSteady
import Verif.Lemmas.Lossless
import Verif.Spec.C70

/-! # Two nearly greedy runs with clear decisions grow the same tree -/

set_option autoImplicit false

namespace Verif
namespace DTree

open Spec
open Binning (getBinNum)

variable {K : Type} [DecidableEq K] {α : Type}

/-- A finished tree in which all decisions are right up to `δ`. -/
structure NearRun (S : Setup K α) (rows : Option Nat → DTable K (List Rat)) (δ : Rat) (F : Fitted K)
    (lev : Nat → Nat) (mem : Nat → List K) : Prop where
  inv : ∃ rnd sums dep num, Inv rnd S.cfg.regLambda lev sums dep F.tree [] [] num
  lists : ∀ i < F.tree.length, Lists (mem i) fun k => k ∈ S.gh.data.keys ∧ Reaches S F rows k i
  nodes : ∀ n ∈ F.tree, (n.isLeaf = true ∧ (lev n.id = S.maxDepth ∨ NoSplit S δ (mem n.id))) ∨
    (n.isLeaf = false ∧ lev n.id < S.maxDepth ∧ ∃ j P f b l sp t,
      partyAt S j = some P ∧ P.splits[f]? = some sp ∧ sp[b]? = some t ∧ SplitAt S F n.id j f t ∧
      NearlyBest S δ δ (mem n.id) j f b l)

/-- A child exists, on the next level, in both trees. -/
theorem exists_both {rnd rnd' : Rat → Rat} {lam lam' : Rat} {lev lev' : Nat → Nat} {sums sums' : Nat → Rat × Rat}
    {dep dep' num num' : Nat} {tree tree' : List Node} (hinv : Inv rnd lam lev sums dep tree [] [] num)
    (hinv' : Inv rnd' lam' lev' sums' dep' tree' [] [] num') {i : Nat}
    (h1 : ∀ a < i, (a < tree.length ↔ a < tree'.length) ∧ (a < tree.length → lev a = lev' a))
    (h2 : ∀ a < i, ∀ n n', tree[a]? = some n → tree'[a]? = some n' → n'.left = n.left ∧ n'.right = n.right) :
    (i < tree.length ↔ i < tree'.length) ∧ (i < tree.length → lev i = lev' i) := by
  have hw := hinv.wellFormed
  have hw' := hinv'.wellFormed
  obtain ⟨hlen, hnum⟩ := hinv.number
  obtain ⟨hlen', hnum'⟩ := hinv'.number
  by_cases h0 : i = 0
  · subst h0
    exact ⟨by omega, fun _ => by rw [hinv.lev0, hinv'.lev0]⟩
  constructor
  · constructor
    · intro hi
      obtain ⟨p, ⟨n, hn, hcn⟩, _⟩ := hw.parent i (by omega) hi
      rcases hw.shape p n hn with ⟨_, a, b⟩ | ⟨_, l, r, a, b, _, c1, c2, _⟩
      · rw [a, b] at hcn; simp at hcn
      · have hpi : p < i := by
          rw [a, b] at hcn
          rcases hcn with e | e <;> cases e <;> assumption
        have hp' := (h1 p hpi).1.mp (List.getElem?_eq_some_iff.mp hn).1
        have hn' := List.getElem?_eq_getElem hp'
        obtain ⟨e3, e4⟩ := h2 p hpi n _ hn hn'
        rw [← e3, ← e4] at hcn
        rcases hw'.shape p _ hn' with ⟨_, a', b'⟩ | ⟨_, l', r', a', b', _, _, _, d1, d2⟩
        · rw [a', b'] at hcn; simp at hcn
        · rw [a', b'] at hcn
          rcases hcn with e | e <;> cases e <;> assumption
    · intro hi
      obtain ⟨p, ⟨n', hn', hcn⟩, _⟩ := hw'.parent i (by omega) hi
      rcases hw'.shape p n' hn' with ⟨_, a, b⟩ | ⟨_, l, r, a, b, _, c1, c2, _⟩
      · rw [a, b] at hcn; simp at hcn
      · have hpi : p < i := by
          rw [a, b] at hcn
          rcases hcn with e | e <;> cases e <;> assumption
        have hp' := (h1 p hpi).1.mpr (List.getElem?_eq_some_iff.mp hn').1
        have hn := List.getElem?_eq_getElem hp'
        obtain ⟨e3, e4⟩ := h2 p hpi _ n' hn hn'
        rw [e3, e4] at hcn
        rcases hw.shape p _ hn with ⟨_, a', b'⟩ | ⟨_, l', r', a', b', _, _, _, d1, d2⟩
        · rw [a', b'] at hcn; simp at hcn
        · rw [a', b'] at hcn
          rcases hcn with e | e <;> cases e <;> assumption
  · intro hi
    obtain ⟨p, ⟨n, hn, hcn⟩, _⟩ := hw.parent i (by omega) hi
    have hpl := (List.getElem?_eq_some_iff.mp hn).1
    have hpi : p < i := by
      rcases hw.shape p n hn with ⟨_, a, b⟩ | ⟨_, l, r, a, b, _, c1, c2, _⟩
      · rw [a, b] at hcn; simp at hcn
      · rw [a, b] at hcn
        rcases hcn with e | e <;> cases e <;> assumption
    have hp' := (h1 p hpi).1.mp hpl
    have hn' := List.getElem?_eq_getElem hp'
    obtain ⟨e3, e4⟩ := h2 p hpi n _ hn hn'
    have hcn' := hcn
    rw [← e3, ← e4] at hcn'
    have k1 : lev i = lev p + 1 := by
      rcases hinv.shape n (List.mem_of_getElem? hn) with ⟨_, a, b⟩ | ⟨_, l, a, b, _, _, c1, c2, _⟩
      · rw [a, b] at hcn; simp at hcn
      · rw [hnum p n hn] at c1 c2
        rw [a, b] at hcn
        rcases hcn with e | e <;> cases e <;> assumption
    have k2 : lev' i = lev' p + 1 := by
      rcases hinv'.shape _ (List.mem_of_getElem? hn') with ⟨_, a, b⟩ | ⟨_, l, a, b, _, _, c1, c2, _⟩
      · rw [a, b] at hcn'; simp at hcn'
      · rw [hnum' p _ hn'] at c1 c2
        rw [a, b] at hcn'
        rcases hcn' with e | e <;> cases e <;> assumption
    rw [k1, k2, (h1 p hpi).2 hpl]

/-- A step at a split, in terms of bins. -/
theorem step_iff_bin {S : Setup K α} {rows : Option Nat → DTable K (List Rat)} (hr : RawRun S rows)
    (hinc : ∀ j P, partyAt S j = some P → ∀ sp ∈ P.splits, sp.Pairwise (· < ·)) {F : Fitted K} {i : Nat} {n : Node}
    (hn : F.tree[i]? = some n) {j : Option Nat} {P : Party K} {f b : Nat} {sp : List Rat} {t : Rat}
    (hP : partyAt S j = some P) (hsp : P.splits[f]? = some sp) (hbt : sp[b]? = some t) (hs : SplitAt S F i j f t)
    {k : K} (hk : k ∈ S.gh.data.keys) (c : Nat) :
    Step S F rows k i c ↔ (binAt P f k ≤ (b : Rat) ∧ n.left = some c) ∨ (¬ binAt P f k ≤ (b : Rat) ∧ n.right = some c) := by
  have hp := RawRun.prepared hr
  obtain ⟨row, hrow, hbin⟩ := binAt_raw (RawRun.binned hr j P hP) (((hp.parties j P hP).2.2.2.2 k).mpr hk) hsp
  have hle := Binning.getBinNum_le_iff (value row f) sp (hinc j P hP sp (List.mem_of_getElem? hsp)) b t hbt
  have hb : binAt P f k ≤ (b : Rat) ↔ value row f ≤ t := by
    rw [hbin, ← hle]
    exact Nat.cast_le
  rw [hb, not_le]
  constructor
  · rintro ⟨j', f', t', row', n', s1, s2, s3, s4⟩
    obtain ⟨rfl, rfl, rfl⟩ := splitAt_unique hr.names hs s1
    rw [hrow, Option.some.injEq] at s2
    rw [hn, Option.some.injEq] at s3
    subst s2 s3
    exact s4
  · intro h
    exact ⟨j, f, t, row, n, hs, hrow, hn, h⟩

/-- What it means that node `i` is the same in both trees. -/
structure AlikeAt (S : Setup K α) (rows : Option Nat → DTable K (List Rat)) (F F' : Fitted K) (lev lev' : Nat → Nat)
    (i : Nat) : Prop where
  exists_iff : i < F.tree.length ↔ i < F'.tree.length
  level : i < F.tree.length → lev i = lev' i
  reach : ∀ k ∈ S.gh.data.keys, Reaches S F rows k i ↔ Reaches S F' rows k i
  node : ∀ n n', F.tree[i]? = some n → F'.tree[i]? = some n' →
    n'.isLeaf = n.isLeaf ∧ n'.left = n.left ∧ n'.right = n.right
  step : ∀ k ∈ S.gh.data.keys, Reaches S F rows k i → ∀ c, Step S F rows k i c ↔ Step S F' rows k i c

theorem alike_reach {S : Setup K α} {rows : Option Nat → DTable K (List Rat)} {F F' : Fitted K} {lev lev' : Nat → Nat}
    (hw : WellFormed F.tree) (hw' : WellFormed F'.tree) {i : Nat} (h : ∀ a < i, AlikeAt S rows F F' lev lev' a)
    {k : K} (hk : k ∈ S.gh.data.keys) : Reaches S F rows k i ↔ Reaches S F' rows k i := by
  constructor
  · intro hr
    cases hr with
    | refl => exact .refl
    | @tail a c h1 h2 =>
      have hlt := step_lt hw h2
      exact .tail (((h a hlt).reach k hk).mp h1) (((h a hlt).step k hk h1 i).mp h2)
  · intro hr
    cases hr with
    | refl => exact .refl
    | @tail a c h1 h2 =>
      have hlt := step_lt hw' h2
      have h1' := ((h a hlt).reach k hk).mpr h1
      exact .tail h1' (((h a hlt).step k hk h1' i).mpr h2)

theorem no_step {S : Setup K α} {F : Fitted K} {rows : Option Nat → DTable K (List Rat)} {k : K} {i c : Nat} {n : Node}
    (hn : F.tree[i]? = some n) (hl : n.isLeaf = true) : ¬ Step S F rows k i c := by
  rintro ⟨_, _, _, _, _, ⟨n', _, _, h1, h2, _⟩, _⟩
  rw [hn, Option.some.injEq] at h1
  subst h1
  rw [hl] at h2
  cases h2

/-- **Two trees with decisions right up to `δ` are the same** if the decisions are clear by `δ`. -/
theorem alike {S : Setup K α} {rows : Option Nat → DTable K (List Rat)} {δ : Rat} (hr : RawRun S rows)
    (hinc : ∀ j P, partyAt S j = some P → ∀ sp ∈ P.splits, sp.Pairwise (· < ·))
    {F F' : Fitted K} {lev lev' : Nat → Nat} {mem mem' : Nat → List K} (g : NearRun S rows δ F lev mem)
    (g' : NearRun S rows δ F' lev' mem') (hclear : ClearTree S δ F rows) (i : Nat) :
    AlikeAt S rows F F' lev lev' i := by
  obtain ⟨rnd, sums, dep, num, hinv⟩ := g.inv
  obtain ⟨rnd', sums', dep', num', hinv'⟩ := g'.inv
  have hw := hinv.wellFormed
  have hw' := hinv'.wellFormed
  obtain ⟨hlen, hnum⟩ := hinv.number
  obtain ⟨hlen', hnum'⟩ := hinv'.number
  induction i using Nat.strong_induction_on with
  | _ i ih =>
    have hboth := exists_both hinv hinv' (i := i) (fun a ha => ⟨(ih a ha).exists_iff, (ih a ha).level⟩)
      (fun a ha n n' h1 h2 => ((ih a ha).node n n' h1 h2).2)
    have hreach : ∀ k ∈ S.gh.data.keys, Reaches S F rows k i ↔ Reaches S F' rows k i :=
      fun k hk => alike_reach hw hw' ih hk
    by_cases hil : i < F.tree.length
    · have hil' := hboth.1.mp hil
      set n := F.tree[i] with hnd
      set n' := F'.tree[i] with hnd'
      have hn : F.tree[i]? = some n := List.getElem?_eq_getElem hil
      have hn' : F'.tree[i]? = some n' := List.getElem?_eq_getElem hil'
      have hid := hnum i n hn
      have hid' := hnum' i n' hn'
      have hm := List.mem_of_getElem? hn
      have hm' := List.mem_of_getElem? hn'
      have hperm : (mem' i).Perm (mem i) := Lists.perm (g'.lists i hil') (g.lists i hil) fun k => by
        constructor
        · rintro ⟨h1, h2⟩; exact ⟨h1, (hreach k h1).mpr h2⟩
        · rintro ⟨h1, h2⟩; exact ⟨h1, (hreach k h1).mp h2⟩
      have hC : lev i < S.maxDepth → ClearAt S δ (mem i) := by
        intro hlt
        obtain ⟨d, hd⟩ := depth_exists hw i hil
        have := hinv.depth i d hd
        exact hclear i d hd (by omega) (mem i) (g.lists i hil)
      have hnodes := g.nodes n hm
      have hnodes' := g'.nodes n' hm'
      rw [hid] at hnodes
      rw [hid'] at hnodes'
      have hlev := hboth.2 hil
      have hleaf : n'.isLeaf = n.isLeaf := by
        rcases hnodes with ⟨h1, h2⟩ | ⟨h1, h2, j, P, f, b, l, sp, t, a1, a2, a3, a4, a5⟩
        · rcases hnodes' with ⟨h1', _⟩ | ⟨h1', h2', j', P', f', b', l', sp', t', b1, b2, b3, b4, b5⟩
          · rw [h1, h1']
          · exfalso
            rcases h2 with h2 | h2
            · omega
            · obtain ⟨c1, c2, c3⟩ := b5
              rw [offerAt_perm hperm] at c1
              rw [sumKeys_perm hperm] at c2
              rcases (hC (by omega)).1 with h | ⟨j0, f0, b0, l0, h3, h4⟩
              · have := h j' f' b' l' c1; linarith
              · have := h2 j0 f0 b0 l0 h3; linarith
        · rcases hnodes' with ⟨h1', h2'⟩ | ⟨h1', _⟩
          · exfalso
            rcases h2' with h2' | h2'
            · omega
            · rw [noSplit_perm hperm] at h2'
              obtain ⟨c1, c2, c3⟩ := a5
              rcases (hC (by omega)).1 with h | ⟨j0, f0, b0, l0, h3, h4⟩
              · have := h j f b l c1; linarith
              · have := h2' j0 f0 b0 l0 h3; linarith
          · rw [h1, h1']
      have hchildren : ((F'.tree.take i).map fun n => n.children.length).sum =
          ((F.tree.take i).map fun n => n.children.length).sum := by
        congr 1
        apply List.ext_getElem?
        intro a
        rw [List.getElem?_map, List.getElem?_map, List.getElem?_take, List.getElem?_take]
        split
        · rename_i ha
          have hs := ih a ha
          have hal : a < F.tree.length := by omega
          have hal' := hs.exists_iff.mp hal
          rw [List.getElem?_eq_getElem hal, List.getElem?_eq_getElem hal']
          obtain ⟨_, e3, e4⟩ := hs.node _ _ (List.getElem?_eq_getElem hal) (List.getElem?_eq_getElem hal')
          simp only [Option.map_some, Option.some.injEq]
          unfold Node.children
          rw [e3, e4]
        · rfl
      have hkids : n'.left = n.left ∧ n'.right = n.right := by
        rcases hinv.shape n hm with ⟨h1, h2, h3⟩ | ⟨h1, l, h2, h3, _⟩
        · rcases hinv'.shape n' hm' with ⟨h1', h2', h3'⟩ | ⟨h1', _⟩
          · rw [h2, h3, h2', h3']; exact ⟨rfl, rfl⟩
          · rw [hleaf, h1] at h1'; cases h1'
        · rcases hinv'.shape n' hm' with ⟨h1', _⟩ | ⟨h1', l', h2', h3', _⟩
          · rw [hleaf, h1] at h1'; cases h1'
          · have e1 := left_number hinv hn h2
            have e2 := left_number hinv' hn' h2'
            rw [hchildren, ← e1] at e2
            subst e2
            rw [h2, h3, h2', h3']; exact ⟨rfl, rfl⟩
      refine ⟨hboth.1, hboth.2, hreach, ?_, ?_⟩
      · intro a a' ha ha'
        rw [hn, Option.some.injEq] at ha
        rw [hn', Option.some.injEq] at ha'
        subst ha ha'
        exact ⟨hleaf, hkids.1, hkids.2⟩
      · intro k hk hrk c
        have hkm : k ∈ mem i := ((g.lists i hil).2 k).mpr ⟨hk, hrk⟩
        rcases hnodes with ⟨h1, _⟩ | ⟨h1, h2, j, P, f, b, l, sp, t, a1, a2, a3, a4, a5⟩
        · constructor
          · intro h; exact absurd h (no_step hn h1)
          · intro h; exact absurd h (no_step hn' (by rw [hleaf, h1]))
        rcases hnodes' with ⟨h1', _⟩ | ⟨h1', h2', j', P', f', b', l', sp', t', b1, b2, b3, b4, b5⟩
        · rw [hleaf, h1] at h1'; cases h1'
        obtain ⟨c1, c2, c3⟩ := b5
        rw [offerAt_perm hperm] at c1 c3
        rw [sumKeys_perm hperm] at c3
        have hside := (hC h2).2 j P f b l j' P' f' b' l' a5.1 c1 a5.2.2 c3 a1 b1 k hkm
        rw [step_iff_bin hr hinc hn a1 a2 a3 a4 hk c, step_iff_bin hr hinc hn' b1 b2 b3 b4 hk c, hside,
          hkids.1, hkids.2]
    · have hil' : ¬ i < F'.tree.length := fun h => hil (hboth.1.mpr h)
      refine ⟨hboth.1, hboth.2, hreach, fun n n' hn _ => ?_, fun k _ _ c => ?_⟩
      · exact absurd (List.getElem?_eq_some_iff.mp hn).1 hil
      · constructor
        · rintro ⟨_, _, _, _, n, _, _, h, _⟩
          exact absurd (List.getElem?_eq_some_iff.mp h).1 hil
        · rintro ⟨_, _, _, _, n, _, _, h, _⟩
          exact absurd (List.getElem?_eq_some_iff.mp h).1 hil'

section
variable {p q : Nat} {sk : Paillier.PrivKey} {lo hi : Int} {m eg eh : Rat} {bins : Nat} {M ε : Rat}
  {S : Setup K Histogram.Num}

theorem noSplit_mono {S : Setup K α} {ε δ : Rat} (h : ε ≤ δ) {A : List K} (hn : NoSplit S ε A) : NoSplit S δ A :=
  fun j f b l ho => (hn j f b l ho).trans (by linarith)

theorem nearlyBest_mono {S : Setup K α} {ε η δ : Rat} (h : ε ≤ δ) (h' : η ≤ δ) {A : List K} {j : Option Nat} {f b : Nat}
    {l : Rat × Rat} (hn : NearlyBest S ε η A j f b l) : NearlyBest S δ δ A j f b l :=
  ⟨hn.1, by linarith [hn.2.1], fun j' f' b' l' ho => (hn.2.2 j' f' b' l' ho).trans (by linarith)⟩

theorem nearRun (hu : Usual S m) (hrun : RoundedRun p q sk lo hi m eg eh bins M ε S)
    {rows : Option Nat → DTable K (List Rat)} {F : Fitted K} {lev : Nat → Nat} {mem : Nat → List K}
    (g : GrownBy S (roundRules S bins m ε eg eh) rows F lev mem) {δ : Rat} (hδ : tolerance S bins m ε eg eh ≤ δ) :
    NearRun S rows δ F lev mem := by
  obtain ⟨sums, dep, num, hdep, hinv⟩ := g.inv
  have hε := hrun.eps
  have hm := hu.hess.1
  obtain ⟨w1, w2, _, _⟩ := RoundedRun.nonneg hrun
  have hW1 : 0 ≤ sumError S bins ε eg := by linarith
  have hW2 : 0 ≤ sumError S bins ε eh := by linarith
  have hG0 : 0 ≤ (S.gh.data.map fun x => |x.2.1|).sum := List.sum_nonneg (by
    intro x hx; obtain ⟨y, _, rfl⟩ := List.mem_map.mp hx; exact abs_nonneg _)
  have hG : 0 ≤ gradRange S bins ε eg := by unfold gradRange; positivity
  have hs : 0 ≤ roundedShift S bins m ε eg eh := by unfold roundedShift; positivity
  have hgr : 0 ≤ gainRange S bins m ε eg := le_trans (by positivity) (le_max_right _ _)
  have he : 0 ≤ roundedError S bins m ε eg := by
    unfold roundedError
    have := FP.tiny_pos
    positivity
  unfold tolerance at hδ
  refine ⟨⟨_, sums, dep, num, hinv⟩, g.lists, fun n hn => ?_⟩
  rcases g.nodes n hn with ⟨hl, h⟩ | ⟨hl, j, P, f, b, l, sp, t, h1, h2, h3, h4, l0, h5, _⟩
  · left
    exact ⟨hl, h.imp id (noSplit_mono (by linarith))⟩
  · right
    refine ⟨hl, ?_, j, P, f, b, l0, sp, t, h1, h2, h3, h4, nearlyBest_mono (by linarith) (by linarith) h5⟩
    rcases hinv.shape n hn with ⟨hc, _⟩ | ⟨_, c, e1, _, _, e2, e3, _⟩
    · rw [hl] at hc; cases hc
    · obtain ⟨hlen, hnum⟩ := hinv.number
      have hcl : c < F.tree.length := by omega
      have := g.lev_le hu.depth (List.getElem_mem hcl)
      rw [hnum c _ (List.getElem?_eq_getElem hcl)] at this
      omega

end

end DTree
end Verif
