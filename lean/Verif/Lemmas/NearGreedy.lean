import Verif.Lemmas.PaillierGreedy

/-! # Gains computed from sums that are slightly off -/

set_option autoImplicit false

namespace Verif
namespace DTree

open Spec Histogram Binning

variable {K : Type} [DecidableEq K] {α : Type}

theorem score_near {g g0 x x0 M a b m : Rat} (hm : 0 < m) (hx : m / 2 ≤ x) (hx0 : m / 2 ≤ x0)
    (hg : |g| ≤ M) (hg0 : |g0| ≤ M) (ha : |g - g0| ≤ a) (hb : |x - x0| ≤ b) :
    |g ^ 2 / x - g0 ^ 2 / x0| ≤ 4 * M * a / m + 4 * M ^ 2 * b / m ^ 2 := by
  have hM : 0 ≤ M := le_trans (abs_nonneg _) hg
  have ha0 : 0 ≤ a := le_trans (abs_nonneg _) ha
  have hb0 : 0 ≤ b := le_trans (abs_nonneg _) hb
  have hxp : 0 < x := by linarith
  have hxp0 : 0 < x0 := by linarith
  have e : g ^ 2 / x - g0 ^ 2 / x0 = (g - g0) * (g + g0) / x + g0 ^ 2 * (x0 - x) / (x * x0) := by
    field_simp; ring
  rw [e]
  refine (abs_add_le _ _).trans (add_le_add ?_ ?_)
  · rw [abs_div, abs_mul, abs_of_pos hxp]
    have h1 : |g + g0| ≤ 2 * M := (abs_add_le _ _).trans (by linarith)
    have h2 : |g - g0| * |g + g0| ≤ a * (2 * M) := mul_le_mul ha h1 (abs_nonneg _) ha0
    calc |g - g0| * |g + g0| / x ≤ a * (2 * M) / (m / 2) :=
          div_le_div₀ (by positivity) h2 (by linarith) hx
      _ = 4 * M * a / m := by field_simp; ring
  · rw [abs_div, abs_mul, abs_of_pos (mul_pos hxp hxp0), abs_pow]
    have h1 : |g0| ^ 2 ≤ M ^ 2 := pow_le_pow_left₀ (abs_nonneg _) hg0 2
    have h2 : |g0| ^ 2 * |x0 - x| ≤ M ^ 2 * b := by
      rw [abs_sub_comm]
      exact mul_le_mul h1 hb (abs_nonneg _) (by positivity)
    have h3 : m / 2 * (m / 2) ≤ x * x0 := mul_le_mul hx hx0 (by linarith) (by linarith)
    calc |g0| ^ 2 * |x0 - x| / (x * x0) ≤ M ^ 2 * b / (m / 2 * (m / 2)) :=
          div_le_div₀ (by positivity) h2 (by positivity) h3
      _ = 4 * M ^ 2 * b / m ^ 2 := by field_simp; ring

theorem offerAt_of {S : Setup K α} {V : View K} {A : List K} {j : Option Nat} {f b : Nat} {l : Rat × Rat}
    (h : OfferWith S V A j f b l) : ∃ l0, OfferAt S A j f b l0 := by
  obtain ⟨P, sp, h1, h2, h3, h4, h5, h6, h7, _⟩ := h
  exact ⟨_, P, sp, h1, h2, h3, h4, h5, h6, h7, rfl⟩

theorem offerWith_of {S : Setup K α} {A : List K} {j : Option Nat} {f b : Nat} {l : Rat × Rat} (V : View K)
    (h : OfferAt S A j f b l) : ∃ l0, OfferWith S V A j f b l0 := by
  obtain ⟨P, sp, h1, h2, h3, h4, h5, h6, h7, _⟩ := h
  exact ⟨_, P, sp, h1, h2, h3, h4, h5, h6, h7, rfl⟩

theorem gain_near {S : Setup K α} {m eg eh : Rat} (hp : Prepared S) (hu : Usual S m)
    {gh' : DTable K (Rat × Rat)} (hc : Close gh' S.gh (S.gh.data.length * eg) (S.gh.data.length * eh))
    (hroom : S.maxDepth * (S.gh.data.length * eh) ≤ m / 2) {d : Nat} (hd : d < S.maxDepth) {A : List K} {s : Rat × Rat}
    (hA : ∀ k ∈ A, k ∈ S.gh.data.keys)
    (hn : (encView S gh' (S.gh.data.length * eg) (S.gh.data.length * eh)).near d A s)
    {V : View K} (hV : V.gh = gh') {j : Option Nat} {f b : Nat} {l l0 : Rat × Rat}
    (ho : OfferWith S V A j f b l) (ho0 : OfferAt S A j f b l0) :
    |gain S.cfg.regLambda s l - gain S.cfg.regLambda (sumKeys S.gh A) l0| ≤ gainShift S m eg eh := by
  obtain ⟨P, sp, hP, _, _, _, _, o2, o3, _⟩ := id ho
  obtain ⟨P', _, hP', _, _, _, _, _, _, hl0⟩ := ho0
  rw [hP, Option.some.injEq] at hP'
  subst hP'
  obtain ⟨n0, n1, n2⟩ := hn
  obtain ⟨c1, c2⟩ := offer_close hc hV n0 hA ho hP
  rw [← hl0] at c1 c2
  have hl := sumKeys_hess hu (fun k hk => hA k (List.mem_of_mem_filter hk)) (filter_ne_nil hu.leaf o2)
  have hr := sumKeys_hess hu (fun k hk => hA k (List.mem_of_mem_filter hk)) (filter_ne_nil hu.leaf o3)
  have hAne : A ≠ [] := by
    intro h; apply filter_ne_nil hu.leaf o2; rw [h]; rfl
  have ha := sumKeys_hess hu hA hAne
  have hsp := side_split (S := S) A P f b
  rw [hsp] at hr
  simp only at hr
  rw [← hl0] at hl hr
  have hm := hu.hess.1
  have hE := hc.nonneg
  have hG := abs_sum_le hp n0 hA
  have hs := filter_split (fun k => decide (binAt P f k ≤ (b : Rat))) (fun k => decide ((b : Rat) < binAt P f k))
    (fun k => by simp [← not_le]) (fun k => |(ghOf S.gh k).1|) A
  have g1 := abs_sum_abs (fun k => (ghOf S.gh k).1) (A.filter fun k => decide (binAt P f k ≤ (b : Rat)))
  have g2 := abs_sum_abs (fun k => (ghOf S.gh k).1) (A.filter fun k => decide ((b : Rat) < binAt P f k))
  have g3 := abs_sum_abs (fun k => (ghOf S.gh k).1) A
  have hR : (sumKeys S.gh (A.filter fun k => decide ((b : Rat) < binAt P f k))).1 =
    (sumKeys S.gh A).1 - l0.1 := by rw [hsp, ← hl0]
  unfold gainShift gradSize
  have hpos1 : 0 ≤ ((A.filter fun k => decide (binAt P f k ≤ (b : Rat))).map fun k => |(ghOf S.gh k).1|).sum :=
    le_trans (abs_nonneg _) g1
  have hpos2 : 0 ≤ ((A.filter fun k => decide ((b : Rat) < binAt P f k)).map fun k => |(ghOf S.gh k).1|).sum :=
    le_trans (abs_nonneg _) g2
  have g1' : |l0.1| ≤ ((A.filter fun k => decide (binAt P f k ≤ (b : Rat))).map fun k => |(ghOf S.gh k).1|).sum := by
    rw [hl0]; exact g1
  have g2' : |(sumKeys S.gh A).1 - l0.1| ≤
      ((A.filter fun k => decide ((b : Rat) < binAt P f k)).map fun k => |(ghOf S.gh k).1|).sum := by
    rw [← hR]; exact g2
  have g3' : |(sumKeys S.gh A).1| ≤ (A.map fun k => |(ghOf S.gh k).1|).sum := g3
  clear g1 g2 g3 hl0 hsp hR
  set Eg := (S.gh.data.length : Rat) * eg
  set Eh := (S.gh.data.length : Rat) * eh
  set G := (S.gh.data.map fun x => |x.2.1|).sum
  set L := l0.1
  set T := (sumKeys S.gh A).1
  set L2 := l0.2
  set T2 := (sumKeys S.gh A).2
  have hdD : (d : Rat) + 1 ≤ S.maxDepth := by exact_mod_cast hd
  have hd0 : (0 : Rat) ≤ d := by positivity
  have e1 : ((d : Rat) + 1) * Eh ≤ m / 2 := le_trans (mul_le_mul_of_nonneg_right hdD hE.2) hroom
  have e2 : (d : Rat) * Eg + 2 * Eg ≤ (S.maxDepth + 1) * Eg := by nlinarith [hE.1]
  have e2' : (d : Rat) * Eh + 2 * Eh ≤ (S.maxDepth + 1) * Eh := by nlinarith [hE.2]
  have e3 : 0 ≤ (d : Rat) * Eh := mul_nonneg hd0 hE.2
  have e4 : 0 ≤ (d : Rat) * Eg := mul_nonneg hd0 hE.1
  have e5 : (d : Rat) * Eh + Eh ≤ m / 2 := by linarith
  have hE1 := hE.1
  have hE2 := hE.2
  have k1 : |l.1| ≤ |L| + Eg := by
    have := abs_sub_abs_le_abs_sub l.1 L
    linarith
  have r1 : |s.1 - l.1 - (T - L)| ≤ d * Eg + Eg := by
    rw [show s.1 - l.1 - (T - L) = (s.1 - T) - (l.1 - L) by ring]
    exact (abs_sub _ _).trans (by linarith)
  have r2 : |s.2 - l.2 + S.cfg.regLambda - (T2 - L2 + S.cfg.regLambda)| ≤ d * Eh + Eh := by
    rw [show s.2 - l.2 + S.cfg.regLambda - (T2 - L2 + S.cfg.regLambda) = (s.2 - T2) - (l.2 - L2) by ring]
    exact (abs_sub _ _).trans (by linarith)
  have k2 : |s.1 - l.1| ≤ |T - L| + (d * Eg + Eg) := by
    have h1 := abs_sub_abs_le_abs_sub (s.1 - l.1) (T - L)
    linarith
  have k3 : |s.1| ≤ |T| + d * Eg := by
    have := abs_sub_abs_le_abs_sub s.1 T
    linarith
  have c2' := abs_le.mp c2
  have n2' := abs_le.mp n2
  have b1 : m / 2 ≤ l.2 + S.cfg.regLambda := by linarith
  have b2 : m / 2 ≤ s.2 - l.2 + S.cfg.regLambda := by linarith
  have b3 : m / 2 ≤ s.2 + S.cfg.regLambda := by linarith
  have t1 := score_near (g := l.1) (g0 := L) (x := l.2 + S.cfg.regLambda) (x0 := L2 + S.cfg.regLambda)
    (M := G + (S.maxDepth + 1) * Eg) (a := (S.maxDepth + 1) * Eg) (b := (S.maxDepth + 1) * Eh) hm b1 (by linarith)
    (by linarith) (by linarith) (by linarith) (by rw [add_sub_add_right_eq_sub]; linarith)
  have t2 := score_near (g := s.1 - l.1) (g0 := T - L) (x := s.2 - l.2 + S.cfg.regLambda) (x0 := T2 - L2 + S.cfg.regLambda)
    (M := G + (S.maxDepth + 1) * Eg) (a := (S.maxDepth + 1) * Eg) (b := (S.maxDepth + 1) * Eh) hm b2 (by linarith)
    (by linarith) (by linarith) (by linarith) (by linarith)
  have t3 := score_near (g := s.1) (g0 := T) (x := s.2 + S.cfg.regLambda) (x0 := T2 + S.cfg.regLambda)
    (M := G + (S.maxDepth + 1) * Eg) (a := (S.maxDepth + 1) * Eg) (b := (S.maxDepth + 1) * Eh) hm b3 (by linarith)
    (by linarith) (by linarith) (by linarith) (by rw [add_sub_add_right_eq_sub]; linarith)
  have hg1 : gain S.cfg.regLambda s l = l.1 ^ 2 / (l.2 + S.cfg.regLambda) +
    (s.1 - l.1) ^ 2 / (s.2 - l.2 + S.cfg.regLambda) - s.1 ^ 2 / (s.2 + S.cfg.regLambda) := rfl
  have hg2 : gain S.cfg.regLambda (sumKeys S.gh A) l0 = L ^ 2 / (L2 + S.cfg.regLambda) +
    (T - L) ^ 2 / (T2 - L2 + S.cfg.regLambda) - T ^ 2 / (T2 + S.cfg.regLambda) := rfl
  rw [hg1, hg2]
  rw [abs_le] at t1 t2 t3 ⊢
  constructor <;> linarith

/-- The gain as the guest sees it is near the gain of the exact sums. -/
theorem gainAt_near {S : Setup K α} {m eg eh : Rat} (hp : Prepared S) (hu : Usual S m)
    {gh' : DTable K (Rat × Rat)} (hc : Close gh' S.gh (S.gh.data.length * eg) (S.gh.data.length * eh))
    (hroom : S.maxDepth * (S.gh.data.length * eh) ≤ m / 2) {d : Nat} (hd : d < S.maxDepth) {A : List K} {s : Rat × Rat}
    (hA : ∀ k ∈ A, k ∈ S.gh.data.keys)
    (hn : (encView S gh' (S.gh.data.length * eg) (S.gh.data.length * eh)).near d A s)
    {V : View K} (hV : V.gh = gh') {j : Option Nat} {f b : Nat} {l l0 : Rat × Rat}
    (ho : OfferWith S V A j f b l) (ho0 : OfferAt S A j f b l0) :
    |gainAt S A s j l - gain S.cfg.regLambda (sumKeys S.gh A) l0| ≤ gainShift S m eg eh := by
  cases j with
  | some j => exact gain_near hp hu hc hroom hd hA hn hV ho ho0
  | none =>
    refine gain_near hp hu hc hroom hd hA (s := sumKeys S.gh A) ⟨hn.1, ?_, ?_⟩ hV ho ho0
    · have := hc.nonneg.1
      simpa using by positivity
    · have := hc.nonneg.2
      simpa using by positivity

theorem GrownRun.lev_le {S : Setup K α} {V : View K} {rows : Option Nat → DTable K (List Rat)} {δ : Rat}
    {F : Fitted K} {lev : Nat → Nat} {mem : Nat → List K} (hd : 1 ≤ S.maxDepth)
    (g : GrownRun S V rows δ F lev mem) {n : Node} (hn : n ∈ F.tree) : lev n.id ≤ S.maxDepth := by
  obtain ⟨lev', _, dep', _, hdep', _, hinv', hlast, _⟩ := fit_ready hd g.fit
  obtain ⟨sums, dep, num, hdep, hinv⟩ := g.inv
  obtain ⟨i, hi⟩ := List.mem_iff_getElem?.mp hn
  have hid := hinv.number.2 i n hi
  have hil : i < F.tree.length := by
    by_contra hge
    rw [List.getElem?_eq_none (by omega)] at hi; cases hi
  obtain ⟨d, hdp⟩ := depth_exists hinv.wellFormed i hil
  have h1 := hinv.depth i d hdp
  have h2 := hinv'.depth i d hdp
  have h3 := hlast n hn
  rw [hid] at h3 ⊢
  omega

/-- The sums of a node are near those of its samples. -/
theorem GrownRun.near {S : Setup K α} {gh' : DTable K (Rat × Rat)} {Eg Eh : Rat}
    {rows : Option Nat → DTable K (List Rat)} {δ : Rat}
    {F : Fitted K} {lev : Nat → Nat} {mem : Nat → List K} (hd : 1 ≤ S.maxDepth) (hE : 0 ≤ Eg ∧ 0 ≤ Eh)
    (g : GrownRun S (encView S gh' Eg Eh) rows δ F lev mem) {n : Node} (hn : n ∈ F.tree) :
    |n.sumGrad - (sumKeys S.gh (mem n.id)).1| ≤ S.maxDepth * Eg ∧
    |n.sumHess - (sumKeys S.gh (mem n.id)).2| ≤ S.maxDepth * Eh := by
  obtain ⟨_, _, h1, h2⟩ := g.sums n hn
  have h3 := g.lev_le hd hn
  have h4 : ((lev n.id - 1 : Nat) : Rat) ≤ S.maxDepth := by
    have : lev n.id - 1 ≤ S.maxDepth := by omega
    exact_mod_cast this
  exact ⟨h1.trans (mul_le_mul_of_nonneg_right h4 hE.1), h2.trans (mul_le_mul_of_nonneg_right h4 hE.2)⟩

end DTree
end Verif
