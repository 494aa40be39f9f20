import Verif.Props.C32
import Verif.Props.C48
import Verif.Spec.C68
import Mathlib.Tactic.Linarith
import Mathlib.Tactic.Ring
import Mathlib.Tactic.Positivity
import Mathlib.Algebra.Order.Floor.Ring

/-!
# C68: rounding of the floats

Structure and reproducibility do not depend on the rounding; scores and sums stay within the sum of
the rounding errors.
-/

set_option autoImplicit false

namespace Verif

open DTree Spec

variable {K : Type} [DecidableEq K] {α L : Type}

/-- Rounding down to multiples of `1/64`, for examples. -/
private def coarse (x : Rat) : Rat := ((x * 64).floor : Rat) / 64

/-- **Prediction reproduces the rounded training scores exactly**, however sums, differences, products
and quotients are rounded in growing the trees (`rnd`) and in adding up the scores (`rnd'`):
nothing whatever is assumed about the two. -/
theorem C68_reproduced (rnd rnd' : Rat → Rat) (B : Boost K α L) (y : DTable K L) (hsame : SameData B y)
    (hd : 1 ≤ B.base.maxDepth) (init : List Rat) (hdim : init.length = B.dim) (hpos : 0 < B.dim)
    (rows : Option Nat → DTable K (List Rat)) (hr : SameSamples B.base rows)
    (hraw : ∀ j P, partyAt B.base j = some P → FromRaw P (rows j))
    (hinc : ∀ j P, partyAt B.base j = some P → ∀ sp ∈ P.splits, sp.Pairwise (· < ·))
    (st : BoostState K) (h : boost (withRounding B rnd rnd') init y = .ok st) :
    ∃ fuel T, predictScores B.base.hosts ⟨B.rate.value, rnd'⟩ B.dim init st.trees (rows none)
        (hostRows B.base rows) fuel = .ok T ∧
      ∀ k, T.data.get? k = st.scores.data.get? k :=
  C32_training_data (withRounding B rnd rnd') y ⟨hsame.wf, hsame.guest, hsame.hosts, hsame.names⟩ hd
    init hdim hpos rows ⟨hr.wf, hr.keys, hr.some⟩ hraw hinc st h

private theorem foldl_exact (r : Rate) (h : r.rnd = id) (W : Nat → Rat) (l : List Nat) (x : Rat) :
    l.foldl (fun s m => r.rnd (s + r.rnd (r.value * W m))) x = x + r.value * (l.map W).sum := by
  induction l generalizing x with
  | nil => simp
  | cons m l ih => rw [List.foldl_cons, ih, h]; simp only [id_eq, List.map_cons, List.sum_cons]; ring

/-- Without rounding the score is the initial score plus the learning rate times the sum of the
weights. -/
theorem C68_exact_scores (init : List Rat) (rate : Rate) (h : rate.rnd = id) (dim : Nat)
    (W : Nat → Rat) (n c : Nat) (x : Rat) (hx : init[c]? = some x) :
    (scoreAfter init rate dim W n)[c]? = some (x + rate.value * (contributions dim W n c).sum) := by
  unfold scoreAfter contributions
  rw [List.getElem?_mapIdx, hx, Option.map_some, foldl_exact rate h]

private theorem foldl_near (r : Rate) {M ε : Rat} (hε : 0 ≤ ε) (hr : RoundsWithin r.rnd M ε) (W : Nat → Rat) :
    ∀ (l : List Nat) (s x : Rat), |s| + (l.map fun m => |r.value * W m| + 2 * ε).sum ≤ M →
    |l.foldl (fun s m => r.rnd (s + r.rnd (r.value * W m))) s - (x + r.value * (l.map W).sum)|
      ≤ |s - x| + 2 * l.length * ε
  | [], s, x, _ => by simp
  | m :: l, s, x, hM => by
    rw [List.map_cons, List.sum_cons] at hM
    have hrest : 0 ≤ (l.map fun m => |r.value * W m| + 2 * ε).sum := by
      apply List.sum_nonneg
      intro y hy
      obtain ⟨m, _, rfl⟩ := List.mem_map.mp hy
      positivity
    set a := r.value * W m with ha
    have h1 := hr a (by linarith [abs_nonneg s])
    have ha' : |r.rnd a| ≤ |a| + ε := by
      have := abs_add_le (r.rnd a - a) a
      rw [sub_add_cancel] at this
      linarith
    have h2 := hr (s + r.rnd a) (by have := abs_add_le s (r.rnd a); linarith)
    have hs : |r.rnd (s + r.rnd a)| ≤ |s| + |a| + 2 * ε := by
      have h3 := abs_add_le (r.rnd (s + r.rnd a) - (s + r.rnd a)) (s + r.rnd a)
      rw [sub_add_cancel] at h3
      have := abs_add_le s (r.rnd a)
      linarith
    have ih := foldl_near r hε hr W l (r.rnd (s + r.rnd a)) (x + a) (by linarith)
    rw [List.foldl_cons, List.map_cons, List.sum_cons, List.length_cons]
    have e : x + r.value * (W m + (l.map W).sum) = x + a + r.value * (l.map W).sum := by
      rw [ha]; ring
    rw [e]
    have h4 : |r.rnd (s + r.rnd a) - (x + a)| ≤ |s - x| + 2 * ε := by
      have : r.rnd (s + r.rnd a) - (x + a) = (r.rnd (s + r.rnd a) - (s + r.rnd a)) + ((r.rnd a - a) + (s - x)) := by ring
      rw [this]
      have h5 := abs_add_le (r.rnd (s + r.rnd a) - (s + r.rnd a)) ((r.rnd a - a) + (s - x))
      have h6 := abs_add_le (r.rnd a - a) (s - x)
      linarith
    push_cast
    linarith

/-- **Scores stay close to the exact sum**: two rounding errors for every tree that contributes. -/
theorem C68_score_error (init : List Rat) (rate : Rate) (M ε : Rat) (hε : 0 ≤ ε)
    (hr : RoundsWithin rate.rnd M ε) (dim : Nat) (W : Nat → Rat) (n c : Nat) (x s : Rat)
    (hx : init[c]? = some x)
    (hM : |x| + ((contributions dim W n c).map fun w => |rate.value * w| + 2 * ε).sum ≤ M)
    (hs : (scoreAfter init rate dim W n)[c]? = some s) :
    |s - (x + rate.value * (contributions dim W n c).sum)|
      ≤ 2 * (contributions dim W n c).length * ε := by
  unfold scoreAfter at hs
  rw [List.getElem?_mapIdx, hx, Option.map_some, Option.some.injEq] at hs
  subst hs
  have := foldl_near rate hε hr W ((List.range n).filter fun m => m % dim = c) x x (by
    unfold contributions at hM
    rw [List.map_map] at hM
    exact hM)
  unfold contributions
  rw [List.length_map]
  simpa using this

private theorem reduce_near {rnd : Rat → Rat} {M ε : Rat} (hε : 0 ≤ ε) (hr : RoundsWithin rnd M ε)
    (p : Rat × Rat → Rat) (hp : ∀ x y : Rat × Rat, p (rnd (x.1 + y.1), rnd (x.2 + y.2)) = rnd (p x + p y)) :
    ∀ (l : List (Rat × Rat)) (acc r : Rat × Rat) (x : Rat),
    |p acc| + (l.map fun g => |p g| + ε).sum ≤ M →
    DTable.reduceLoop (addGh rnd) (some acc) (l.map some) = some r →
    |p r - (x + (l.map p).sum)| ≤ |p acc - x| + l.length * ε
  | [], acc, r, x, _, h => by
    simp only [List.map_nil, DTable.reduceLoop, Option.some.injEq] at h
    subst h; simp
  | g :: l, acc, r, x, hM, h => by
    rw [List.map_cons, DTable.reduceLoop] at h
    rw [List.map_cons, List.sum_cons] at hM
    have hrest : 0 ≤ (l.map fun g => |p g| + ε).sum := by
      apply List.sum_nonneg
      intro y hy
      obtain ⟨m, _, rfl⟩ := List.mem_map.mp hy
      positivity
    have h0 := abs_add_le (p acc) (p g)
    have h1 := hr (p acc + p g) (by linarith)
    have hs : |rnd (p acc + p g)| ≤ |p acc| + |p g| + ε := by
      have h3 := abs_add_le (rnd (p acc + p g) - (p acc + p g)) (p acc + p g)
      rw [sub_add_cancel] at h3
      linarith
    have ih := reduce_near hε hr p hp l _ r (x + p g) (by rw [hp]; linarith) h
    rw [hp] at ih
    rw [List.map_cons, List.sum_cons, List.length_cons]
    have h4 : |rnd (p acc + p g) - (x + p g)| ≤ |p acc - x| + ε := by
      have : rnd (p acc + p g) - (x + p g) = (rnd (p acc + p g) - (p acc + p g)) + (p acc - x) := by ring
      rw [this]
      have := abs_add_le (rnd (p acc + p g) - (p acc + p g)) (p acc - x)
      linarith
    rw [← add_assoc] at *
    push_cast
    linarith

/-- **The root's sums** are those of the data set up to one rounding error for every sample, if the
sums of absolute values (with the errors) are within the range of the rounding. -/
theorem C68_root_error (S : Setup K α) (M ε : Rat) (hε : 0 ≤ ε) (hr : RoundsWithin S.cfg.rnd M ε)
    (hM : (S.gh.data.map fun p => |p.2.1| + ε).sum ≤ M ∧ (S.gh.data.map fun p => |p.2.2| + ε).sum ≤ M)
    (hd : 1 ≤ S.maxDepth) (F : Fitted K) (h : fit S = .ok F) :
    ∃ n, F.tree[0]? = some n ∧ |n.sumGrad - (allSums S.gh).1| ≤ S.gh.data.length * ε ∧
      |n.sumHess - (allSums S.gh).2| ≤ S.gh.data.length * ε := by
  obtain ⟨lev, sums, dep, num, _, hsum, hi, _⟩ := fit_ready hd h
  obtain ⟨hlen, hnum⟩ := hi.number
  have h0 : 0 < F.tree.length := by omega
  refine ⟨F.tree[0], List.getElem?_eq_getElem h0, ?_⟩
  have s1 := hi.sumOf F.tree[0] (by simp)
  rw [hnum 0 _ (List.getElem?_eq_getElem h0)] at s1
  rw [show F.tree[0].sumGrad = (sums 0).1 by rw [s1], show F.tree[0].sumHess = (sums 0).2 by rw [s1]]
  unfold gradHessSum at hsum
  unfold allSums
  cases hgh : S.gh.data with
  | nil => rw [hgh] at hsum; simp [Dict.values, DTable.reduceLoop] at hsum
  | cons q l =>
    have e : Dict.values (q :: l) = q.2 :: l.map Prod.snd := rfl
    rw [hgh, e, List.map_cons, DTable.reduceLoop] at hsum
    split at hsum
    · rename_i r hred
      simp only [Except.ok.injEq] at hsum
      rw [← hsum]
      rw [hgh] at hM
      simp only [List.map_cons, List.sum_cons] at hM
      have a1 := reduce_near hε hr Prod.fst (fun _ _ => rfl) (l.map Prod.snd) q.2 r q.2.1 (by
        rw [List.map_map]; simp only [Function.comp_def]; linarith [hM.1]) hred
      have a2 := reduce_near hε hr Prod.snd (fun _ _ => rfl) (l.map Prod.snd) q.2 r q.2.2 (by
        rw [List.map_map]; simp only [Function.comp_def]; linarith [hM.2]) hred
      simp only [List.map_map, Function.comp_def, sub_self, abs_zero, List.length_map] at a1 a2
      simp only [List.map_cons, List.sum_cons, List.length_cons]
      push_cast
      constructor <;> linarith
    · cases hsum

/-- **Children**: the sums of the two children of an inner node add up to those of the node up to
one rounding error. -/
theorem C68_children_error (S : Setup K α) (M ε : Rat) (hr : RoundsWithin S.cfg.rnd M ε)
    (hd : 1 ≤ S.maxDepth) (F : Fitted K) (h : fit S = .ok F) (i : Nat) (n : Node)
    (hn : F.tree[i]? = some n) (hl : n.isLeaf = false) :
    ∃ l r a b, n.left = some l ∧ n.right = some r ∧ F.tree[l]? = some a ∧ F.tree[r]? = some b ∧
      (|n.sumGrad - a.sumGrad| ≤ M → |a.sumGrad + b.sumGrad - n.sumGrad| ≤ ε) ∧
      (|n.sumHess - a.sumHess| ≤ M → |a.sumHess + b.sumHess - n.sumHess| ≤ ε) := by
  obtain ⟨l, r, a, b, h1, h2, h3, h4, h5, h6⟩ := C48_right_child S hd F h i n hn hl
  refine ⟨l, r, a, b, h1, h2, h3, h4, fun hm => ?_, fun hm => ?_⟩
  · rw [h5]
    have := hr _ hm
    rwa [show a.sumGrad + S.cfg.rnd (n.sumGrad - a.sumGrad) - n.sumGrad
      = S.cfg.rnd (n.sumGrad - a.sumGrad) - (n.sumGrad - a.sumGrad) by ring]
  · rw [h6]
    have := hr _ hm
    rwa [show a.sumHess + S.cfg.rnd (n.sumHess - a.sumHess) - n.sumHess
      = S.cfg.rnd (n.sumHess - a.sumHess) - (n.sumHess - a.sumHess) by ring]

/-- Rounding down to multiples of `1/64` is accurate. -/
private theorem coarse_accurate (M : Rat) : RoundsWithin coarse M (1 / 64) := by
  intro x _
  unfold coarse
  have h1 := Int.floor_le (x * 64)
  have h2 := Int.lt_floor_add_one (x * 64)
  rw [abs_le]
  have e : ((x * 64).floor : Rat) = (⌊x * 64⌋ : Rat) := rfl
  rw [e]
  constructor <;> linarith

/-- The run of `DemoRaw` with a third of the gradients and hessians, and coarse rounding. -/
private def thirds : Setup Nat Rat :=
  { DemoRaw.setup with
    cfg := ⟨1/10, 1/1000, 2, 1, coarse⟩
    gh := ⟨Demo.gh.data.map fun x => (x.1, x.2.1 / 3, x.2.2 / 3)⟩
    encGh := ⟨Demo.gh.data.map fun x => (x.1, x.2.1 / 3, x.2.2 / 3)⟩ }

private def thirdsFit : Fitted Nat :=
  match fit thirds with
  | .ok F => F
  | .error _ => ⟨[], [], [], none, []⟩

/-- With rounding the exact equalities of C48 fail: here the sums of the leaves do not add up to those
of the data set, nor the sums of the children to those of the root. -/
theorem C68_sums_refuted : ∃ (S : Setup Nat Rat) (F : Fitted Nat) (n a b : Node),
    RoundsWithin S.cfg.rnd 1000 (1 / 64) ∧ fit S = .ok F ∧
    F.tree[0]? = some n ∧ F.tree[1]? = some a ∧ F.tree[2]? = some b ∧
    n.left = some 1 ∧ n.right = some 2 ∧ a.sumGrad + b.sumGrad ≠ n.sumGrad ∧
    ((leaves F.tree).map Node.sumGrad).sum ≠ (allSums S.gh).1 := by
  have hf : fit thirds = .ok thirdsFit := by decide +kernel
  have hx : ∃ n ∈ thirdsFit.tree[0]?, ∃ a ∈ thirdsFit.tree[1]?, ∃ b ∈ thirdsFit.tree[2]?,
      n.left = some 1 ∧ n.right = some 2 ∧ a.sumGrad + b.sumGrad ≠ n.sumGrad := by decide +kernel
  obtain ⟨n, hn, a, ha, b, hb, h1, h2, h3⟩ := hx
  exact ⟨thirds, thirdsFit, n, a, b, coarse_accurate _, hf, hn, ha, hb, h1, h2, h3, by decide +kernel⟩

/-- The hypotheses of `C68_root_error` and `C68_children_error` are met by that run. -/
example : RoundsWithin thirds.cfg.rnd 1000 (1 / 64) ∧
    (thirds.gh.data.map fun p => |p.2.1| + 1 / 64).sum ≤ 1000 ∧
    (thirds.gh.data.map fun p => |p.2.2| + 1 / 64).sum ≤ 1000 ∧ fit thirds = .ok thirdsFit ∧
    1 < (thirdsFit.tree.filter fun n => !n.isLeaf).length :=
  ⟨coarse_accurate _, by decide +kernel, by decide +kernel, by decide +kernel, by decide +kernel⟩

/-- A case of `C68_score_error`: the error is not zero, and within the bound. -/
example : RoundsWithin (⟨1 / 3, coarse⟩ : Rate).rnd 1000 (1 / 64) ∧
    (scoreAfter [0, 1] ⟨1 / 3, coarse⟩ 2 (fun n => n) 6)[1]? = some (255 / 64) ∧
    contributions 2 (fun n => (n : Rat)) 6 1 = [1, 3, 5] :=
  ⟨coarse_accurate _, by decide +kernel, by decide +kernel⟩

private def coarseRun : BoostState Nat :=
  match boost (withRounding DemoBoost.clear coarse coarse) [0, 1] DemoBoost.labels with
  | .ok st => st
  | .error _ => ⟨⟨[]⟩, [], [], [], none, []⟩

/-- A run over three parties with coarse rounding: it meets the hypotheses of `C68_reproduced`, the trees
are not trivial, the scores differ from those of the exact run, and prediction gives them. -/
example : SameData DemoBoost.clear DemoBoost.labels ∧
    boost (withRounding DemoBoost.clear coarse coarse) [0, 1] DemoBoost.labels = .ok coarseRun ∧
    coarseRun.trees.map (fun P => P.nodes.length) = [7, 5, 7, 7] ∧
    coarseRun.scores.data.get? 5 ≠ DemoBoost.final.scores.data.get? 5 ∧
    (predictScores DemoBoost.clear.base.hosts ⟨1 / 2, coarse⟩ 2 [0, 1] coarseRun.trees
      (DemoRaw.rows none) (hostRows DemoBoost.clear.base DemoRaw.rows) 7).map
        (fun T => (T.data.get? 2, T.data.get? 5)) =
      .ok (coarseRun.scores.data.get? 2, coarseRun.scores.data.get? 5) :=
  ⟨DemoBoost.same, by decide +kernel, by decide +kernel, by decide +kernel, by decide +kernel⟩

end Verif
