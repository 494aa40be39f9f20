import Verif.Lemmas.RoundGrow
import Verif.Lemmas.Binning

/-! # Training with rounded floats -/

set_option autoImplicit false

namespace Verif
namespace DTree

open Spec Histogram Paillier
open Binning (Cell SparseVec)
open Quantile (floatZero)

variable {K : Type} [DecidableEq K]

theorem reduce_round {rnd : Rat → Rat} {M ε : Rat} (hε : 0 ≤ ε) (hr : RoundsWithin rnd M ε) :
    ∀ (l : List (Rat × Rat)) (acc x : Rat × Rat),
    |acc.1| + (l.map fun g => |g.1| + ε).sum ≤ M → |acc.2| + (l.map fun g => |g.2| + ε).sum ≤ M →
    ∃ r, DTable.reduceLoop (addGh rnd) (some acc) (l.map some) = some r ∧
      |r.1 - (x.1 + (l.map Prod.fst).sum)| ≤ |acc.1 - x.1| + l.length * ε ∧
      |r.2 - (x.2 + (l.map Prod.snd).sum)| ≤ |acc.2 - x.2| + l.length * ε
  | [], acc, x, _, _ => ⟨acc, rfl, by simp, by simp⟩
  | g :: l, acc, x, h1, h2 => by
    rw [List.map_cons, List.sum_cons] at h1 h2
    have n1 : 0 ≤ (l.map fun g => |g.1| + ε).sum := List.sum_nonneg (by
      intro y hy; obtain ⟨m, _, rfl⟩ := List.mem_map.mp hy; positivity)
    have n2 : 0 ≤ (l.map fun g => |g.2| + ε).sum := List.sum_nonneg (by
      intro y hy; obtain ⟨m, _, rfl⟩ := List.mem_map.mp hy; positivity)
    have a1 := abs_add_le acc.1 g.1
    have a2 := abs_add_le acc.2 g.2
    have b1 : |rnd (acc.1 + g.1)| ≤ |acc.1| + |g.1| + ε := by
      have := round_abs hr (x := acc.1 + g.1) (by linarith)
      linarith
    have b2 : |rnd (acc.2 + g.2)| ≤ |acc.2| + |g.2| + ε := by
      have := round_abs hr (x := acc.2 + g.2) (by linarith)
      linarith
    have c1 := hr (acc.1 + g.1) (by linarith)
    have c2 := hr (acc.2 + g.2) (by linarith)
    obtain ⟨r, r1, r2, r3⟩ := reduce_round hε hr l (rnd (acc.1 + g.1), rnd (acc.2 + g.2)) (x.1 + g.1, x.2 + g.2)
      (by simp only; linarith) (by simp only; linarith)
    refine ⟨r, r1, ?_, ?_⟩
    · simp only [List.map_cons, List.sum_cons, List.length_cons]
      simp only at r2
      rw [← add_assoc]
      have : |rnd (acc.1 + g.1) - (x.1 + g.1)| ≤ |acc.1 - x.1| + ε := by
        have e : rnd (acc.1 + g.1) - (x.1 + g.1) = (rnd (acc.1 + g.1) - (acc.1 + g.1)) + (acc.1 - x.1) := by ring
        rw [e]
        exact (abs_add_le _ _).trans (by linarith)
      push_cast
      linarith
    · simp only [List.map_cons, List.sum_cons, List.length_cons]
      simp only at r3
      rw [← add_assoc]
      have : |rnd (acc.2 + g.2) - (x.2 + g.2)| ≤ |acc.2 - x.2| + ε := by
        have e : rnd (acc.2 + g.2) - (x.2 + g.2) = (rnd (acc.2 + g.2) - (acc.2 + g.2)) + (acc.2 - x.2) := by ring
        rw [e]
        exact (abs_add_le _ _).trans (by linarith)
      push_cast
      linarith

theorem sum_add_const (ε : Rat) (f : Rat × Rat → Rat) : ∀ l : List (Rat × Rat),
    (l.map fun g => f g + ε).sum = (l.map f).sum + l.length * ε
  | [] => by simp
  | g :: l => by
    simp only [List.map_cons, List.sum_cons, List.length_cons, sum_add_const ε f l]
    push_cast
    ring

theorem root_round {α : Type} {S : Setup K α} {M ε : Rat} (hp : Prepared S) (hε : 0 ≤ ε) (hr : RoundsWithin S.cfg.rnd M ε)
    (h1 : (S.gh.data.map fun x => |x.2.1|).sum + S.gh.data.length * ε ≤ M)
    (h2 : (S.gh.data.map fun x => |x.2.2|).sum + S.gh.data.length * ε ≤ M) :
    ∃ s, gradHessSum S.cfg.rnd S.gh = .ok s ∧
      |s.1 - (sumKeys S.gh S.gh.data.keys).1| ≤ S.gh.data.length * ε ∧
      |s.2 - (sumKeys S.gh S.gh.data.keys).2| ≤ S.gh.data.length * ε := by
  have e1 : (sumKeys S.gh S.gh.data.keys).1 = (S.gh.data.map fun p => p.2.1).sum := ghOf_sum hp.wf fun p => p.1
  have e2 : (sumKeys S.gh S.gh.data.keys).2 = (S.gh.data.map fun p => p.2.2).sum := ghOf_sum hp.wf fun p => p.2
  rw [e1, e2]
  unfold gradHessSum
  have hne := hp.some
  cases hgh : S.gh.data with
  | nil => exact absurd hgh hne
  | cons q l =>
    rw [hgh] at h1 h2
    have e : Dict.values (q :: l) = q.2 :: l.map Prod.snd := rfl
    simp only [List.map_cons, List.sum_cons, List.length_cons] at h1 h2
    push_cast at h1 h2
    obtain ⟨r, r1, r2, r3⟩ := reduce_round hε hr (l.map Prod.snd) q.2 q.2
      (by rw [sum_add_const ε fun g => |g.1|, List.map_map, List.length_map]; simp only [Function.comp_def]; linarith)
      (by rw [sum_add_const ε fun g => |g.2|, List.map_map, List.length_map]; simp only [Function.comp_def]; linarith)
    refine ⟨r, ?_, ?_, ?_⟩
    · rw [e, List.map_cons, DTable.reduceLoop, r1]
    · simp only [List.map_map, Function.comp_def, sub_self, abs_zero, List.length_map] at r2
      simp only [List.map_cons, List.sum_cons, List.length_cons]
      push_cast
      linarith
    · simp only [List.map_map, Function.comp_def, sub_self, abs_zero, List.length_map] at r3
      simp only [List.map_cons, List.sum_cons, List.length_cons]
      push_cast
      linarith

section
variable {p q : Nat} {sk : PrivKey} {lo hi : Int} {m eg eh : Rat} {bins : Nat} {M ε : Rat}
  {S : Setup K Histogram.Num}

/-- The weight computed from sums that are near those of the samples. -/
theorem weight_near (hp : Prepared S) (hu : Usual S m) (hr : RoundedRun p q sk lo hi m eg eh bins M ε S) {c : Rat}
    (hc0 : 0 ≤ c) (hc : c ≤ S.maxDepth + 1) {A : List K} (hA : A.Nodup) (hk : ∀ k ∈ A, k ∈ S.gh.data.keys)
    (hne : A ≠ []) {s : Rat × Rat} (h1 : |s.1 - (sumKeys S.gh A).1| ≤ c * sumError S bins ε eg)
    (h2 : |s.2 - (sumKeys S.gh A).2| ≤ c * sumError S bins ε eh) :
    ∃ w, nodeWeight S.cfg.rnd S.cfg.regLambda s.1 s.2 = .ok w ∧
      |w - -(sumKeys S.gh A).1 / (S.cfg.regLambda + (sumKeys S.gh A).2)| ≤
        2 * (c * sumError S bins ε eg) / m +
          2 * gradRange S bins ε eg * (c * sumError S bins ε eh + ε) / m ^ 2 + ε := by
  have hm := hu.hess.1
  have hε := hr.eps
  have hlam := hu.lam
  obtain ⟨w1, w2, _, _⟩ := RoundedRun.nonneg hr
  obtain ⟨z1, z2⟩ := hr.sizes
  have ha := sumKeys_hess hu hk hne
  have ba := sumKeys_abs_le hp hA hk
  have hgr : gradRange S bins ε eg = (S.gh.data.map fun x => |x.2.1|).sum + (S.maxDepth + 1) * sumError S bins ε eg := rfl
  have hhr : hessRange S bins ε eh = (S.gh.data.map fun x => |x.2.2|).sum + S.cfg.regLambda +
    (S.maxDepth + 1) * sumError S bins ε eh := rfl
  have y1 : c * sumError S bins ε eg ≤ (S.maxDepth + 1) * sumError S bins ε eg :=
    mul_le_mul_of_nonneg_right hc (by linarith)
  have y2 : c * sumError S bins ε eh ≤ (S.maxDepth + 1) * sumError S bins ε eh :=
    mul_le_mul_of_nonneg_right hc (by linarith)
  have y3 : 0 ≤ c * sumError S bins ε eg := mul_nonneg hc0 (by linarith)
  have y4 : 0 ≤ c * sumError S bins ε eh := mul_nonneg hc0 (by linarith)
  have hroom := hr.room
  have n2 := abs_le.mp h2
  have bh := le_abs_self (sumKeys S.gh A).2
  have hH0 : 0 ≤ hessRange S bins ε eh := by
    rw [hhr]; linarith [abs_nonneg (sumKeys S.gh A).2, ba.2]
  have hG0 : 0 ≤ gradRange S bins ε eg := by
    rw [hgr]; linarith [abs_nonneg (sumKeys S.gh A).1, ba.1]
  have hx := abs_le.mp (hr.rounds (S.cfg.regLambda + s.2) (by
    rw [abs_of_nonneg (by linarith)]
    linarith [ba.2]))
  unfold nodeWeight div
  set x := S.cfg.rnd (S.cfg.regLambda + s.2)
  set x0 := S.cfg.regLambda + (sumKeys S.gh A).2 with hx0
  set g0 := (sumKeys S.gh A).1
  have hx2 : m / 2 ≤ x := by linarith
  have hxp : 0 < x := by linarith
  have hx0m : m ≤ x0 := by linarith
  have hx0p : 0 < x0 := by linarith
  have hs1 : |s.1| ≤ gradRange S bins ε eg := by
    have := abs_sub_abs_le_abs_sub s.1 g0
    rw [hgr]
    linarith [ba.1]
  have hg0 : |g0| ≤ gradRange S bins ε eg := by rw [hgr]; linarith [ba.1]
  rw [if_neg (ne_of_gt hxp)]
  refine ⟨_, rfl, ?_⟩
  have hq : |-s.1 / x| ≤ M := by
    refine le_trans ?_ hr.weights
    rw [abs_div, abs_neg, abs_of_pos hxp]
    calc |s.1| / x ≤ gradRange S bins ε eg / (m / 2) := div_le_div₀ hG0 hs1 (by linarith) hx2
      _ = 2 * gradRange S bins ε eg / m := by field_simp
  have e1 := hr.rounds _ hq
  have e2 : |-s.1 / x - -g0 / x0| ≤ 2 * (c * sumError S bins ε eg) / m +
      2 * gradRange S bins ε eg * (c * sumError S bins ε eh + ε) / m ^ 2 := by
    have e : -s.1 / x - -g0 / x0 = -((s.1 - g0) / x) + g0 * (x - x0) / (x * x0) := by field_simp; ring
    rw [e]
    refine (abs_add_le _ _).trans (add_le_add ?_ ?_)
    · rw [abs_neg, abs_div, abs_of_pos hxp]
      calc |s.1 - g0| / x ≤ c * sumError S bins ε eg / (m / 2) := div_le_div₀ y3 h1 (by linarith) hx2
        _ = 2 * (c * sumError S bins ε eg) / m := by field_simp
    · rw [abs_div, abs_mul, abs_of_pos (mul_pos hxp hx0p)]
      have h3 : |x - x0| ≤ c * sumError S bins ε eh + ε := by
        rw [abs_le]; constructor <;> linarith
      have h4 : |g0| * |x - x0| ≤ gradRange S bins ε eg * (c * sumError S bins ε eh + ε) :=
        mul_le_mul hg0 h3 (abs_nonneg _) hG0
      have h5 : m / 2 * m ≤ x * x0 := mul_le_mul hx2 hx0m hm.le hxp.le
      calc |g0| * |x - x0| / (x * x0) ≤ gradRange S bins ε eg * (c * sumError S bins ε eh + ε) / (m / 2 * m) :=
            div_le_div₀ (by positivity) h4 (by positivity) h5
        _ = 2 * gradRange S bins ε eg * (c * sumError S bins ε eh + ε) / m ^ 2 := by field_simp
  rw [abs_le] at e1 e2 ⊢
  constructor <;> linarith

theorem round_steady (hp : Prepared S) (hu : Usual S m) (hr : RoundedRun p q sk lo hi m eg eh bins M ε S) :
    SteadyBy S (roundRules S bins m ε eg eh) := by
  have hε := hr.eps
  obtain ⟨w1, w2, w3, w4⟩ := RoundedRun.nonneg hr
  obtain ⟨z1, z2⟩ := hr.sizes
  have hgr : gradRange S bins ε eg = (S.gh.data.map fun x => |x.2.1|).sum + (S.maxDepth + 1) * sumError S bins ε eg := rfl
  have hhr : hessRange S bins ε eh = (S.gh.data.map fun x => |x.2.2|).sum + S.cfg.regLambda +
    (S.maxDepth + 1) * sumError S bins ε eh := rfl
  have hlam := hu.lam
  have hD : (0 : Rat) ≤ S.maxDepth := by positivity
  have y1 : 0 ≤ S.maxDepth * sumError S bins ε eg := mul_nonneg hD (by linarith)
  have y2 : 0 ≤ S.maxDepth * sumError S bins ε eh := mul_nonneg hD (by linarith)
  have hG0 : 0 ≤ (S.gh.data.map fun x => |x.2.1|).sum := List.sum_nonneg (by
    intro x hx; obtain ⟨y, _, rfl⟩ := List.mem_map.mp hx; exact abs_nonneg _)
  have hH0 : 0 ≤ (S.gh.data.map fun x => |x.2.2|).sum := List.sum_nonneg (by
    intro x hx; obtain ⟨y, _, rfl⟩ := List.mem_map.mp hx; exact abs_nonneg _)
  refine ⟨?_, fun d A s j f b l P hd hA hn hP hpick => ?_, fun d A s hd hA hne hn => ?_⟩
  · have hnn : (0 : Rat) ≤ S.gh.data.length := by positivity
    have hb : (0 : Rat) ≤ bins := by positivity
    have a1 := mul_nonneg hnn hr.errors.1
    have a2 := mul_nonneg hnn hr.errors.2
    have a3 := mul_nonneg hnn hε
    have a4 := mul_nonneg hb hε
    have e1 : S.gh.data.length * ε ≤ sumError S bins ε eg := by unfold sumError; nlinarith
    have e2 : S.gh.data.length * ε ≤ sumError S bins ε eh := by unfold sumError; nlinarith
    obtain ⟨s, s1, s2, s3⟩ := root_round hp hε hr.rounds (by linarith) (by linarith)
    refine ⟨s, s1, hp.wf, ?_, ?_⟩
    · push_cast; linarith
    · push_cast; linarith
  · obtain ⟨n0, n1, n2⟩ := hn
    obtain ⟨l0, ⟨ho, _⟩, c1, c2⟩ := hpick
    obtain ⟨P', sp, o1, _, _, _, _, _, _, o4⟩ := ho
    rw [hP, Option.some.injEq] at o1
    subst o1
    have hsp := side_split (S := S) A P f b
    have br := sumKeys_abs_le hp (n0.filter fun k => decide ((b : Rat) < binAt P f k))
      (fun k h => hA k (List.mem_of_mem_filter h))
    have hd0 : (0 : Rat) ≤ d := by positivity
    have hdD : (d : Rat) + 1 ≤ S.maxDepth := by exact_mod_cast hd
    have q1 : 0 ≤ (d : Rat) * sumError S bins ε eg := mul_nonneg hd0 (by linarith)
    have q2 : 0 ≤ (d : Rat) * sumError S bins ε eh := mul_nonneg hd0 (by linarith)
    have q3 : (d + 1) * sumError S bins ε eg ≤ S.maxDepth * sumError S bins ε eg :=
      mul_le_mul_of_nonneg_right hdD (by linarith)
    have q4 : (d + 1) * sumError S bins ε eh ≤ S.maxDepth * sumError S bins ε eh :=
      mul_le_mul_of_nonneg_right hdD (by linarith)
    rw [hsp, ← o4] at br
    simp only at br
    have d1 : |s.1 - l.1 - ((sumKeys S.gh A).1 - l0.1)| ≤ (d + 1) * sumError S bins ε eg + (sumError S bins ε eg - ε) := by
      rw [show s.1 - l.1 - ((sumKeys S.gh A).1 - l0.1) = (s.1 - (sumKeys S.gh A).1) - (l.1 - l0.1) by ring]
      exact (abs_sub _ _).trans (by linarith)
    have d2 : |s.2 - l.2 - ((sumKeys S.gh A).2 - l0.2)| ≤ (d + 1) * sumError S bins ε eh + (sumError S bins ε eh - ε) := by
      rw [show s.2 - l.2 - ((sumKeys S.gh A).2 - l0.2) = (s.2 - (sumKeys S.gh A).2) - (l.2 - l0.2) by ring]
      exact (abs_sub _ _).trans (by linarith)
    have r1 := round_near hr.rounds d1 (by linarith [br.1])
    have r2 := round_near hr.rounds d2 (by linarith [br.2])
    refine ⟨⟨n0.filter _, ?_, ?_⟩, n0.filter _, ?_, ?_⟩
    · rw [← o4]; push_cast; linarith
    · rw [← o4]; push_cast; linarith
    · rw [hsp, ← o4]; push_cast; linarith
    · rw [hsp, ← o4]; push_cast; linarith
  · obtain ⟨n0, n1, n2⟩ := hn
    have hdD : (d : Rat) + 1 ≤ S.maxDepth + 1 := by
      have : (d : Rat) ≤ S.maxDepth := by exact_mod_cast hd
      linarith
    obtain ⟨w, hw, _⟩ := weight_near hp hu hr (by positivity) hdD n0 hA hne n1 n2
    exact ⟨w, hw⟩

theorem round_grown {rows : Option Nat → DTable K (List Rat)} (hraw : RawRun S rows) (hu : Usual S m)
    (hr : RoundedRun p q sk lo hi m eg eh bins M ε S)
    (hinc : ∀ j P, partyAt S j = some P → ∀ sp ∈ P.splits, sp.Pairwise (· < ·)) :
    ∃ F lev mem, GrownBy S (roundRules S bins m ε eg eh) rows F lev mem := by
  have hp := RawRun.prepared hraw
  refine grownBy hraw hu (round_chooses hp hu hr) (round_steady hp hu hr) ?_
  intro A s j P f b l sp t hA hP hsp hbt hpick v
  exact Binning.getBinNum_le_iff v sp (hinc j P hP sp (List.mem_of_getElem? hsp)) b t hbt

theorem GrownBy.lev_le {α : Type} {S : Setup K α} {R : Rules K} {rows : Option Nat → DTable K (List Rat)}
    {F : Fitted K} {lev : Nat → Nat} {mem : Nat → List K} (hd : 1 ≤ S.maxDepth)
    (g : GrownBy S R rows F lev mem) {n : Node} (hn : n ∈ F.tree) : lev n.id ≤ S.maxDepth := by
  obtain ⟨lev', _, dep', _, hdep', _, hinv', hlast, _⟩ := fit_ready hd g.fit
  obtain ⟨sums, dep, num, hdep, hinv⟩ := g.inv
  obtain ⟨i, hi⟩ := List.mem_iff_getElem?.mp hn
  have hid := hinv.number.2 i n hi
  have hil : i < F.tree.length := by
    by_contra hge
    rw [List.getElem?_eq_none (by omega)] at hi; cases hi
  obtain ⟨d, hdp⟩ := depth_exists hinv.wellFormed i hil
  have h1 := hinv.depth i d hdp
  have h2 := hinv'.depth i d hdp
  have h3 := hlast n hn
  rw [hid] at h3 ⊢
  omega

end

end DTree
end Verif
