import Verif.Lemmas.RoundChoice
import Verif.Lemmas.RoundError
import Verif.Lemmas.NearGreedy

/-! # Gains computed with rounded floats -/

set_option autoImplicit false

namespace Verif
namespace DTree

open Spec Histogram
open Quantile (floatZero)

variable {rnd : Rat → Rat} {M ε : Rat}

/-- Error of the score of a set of samples: sums off by up to `a` and `b`, gradient sums up to `G`. -/
def scoreErr (G a b m ε : Rat) : Rat := 4 * G * a / m + 4 * G ^ 2 * (b + ε) / m ^ 2 + 2 * ε / m + ε

theorem nodeGain_near {lam g g0 h h0 G a b m : Rat} (hm : 0 < m) (hε : 0 ≤ ε) (hr : RoundsWithin rnd M ε)
    (ha : |g - g0| ≤ a) (hg : |g0| + a ≤ G) (hb : |h - h0| ≤ b) (hh : m ≤ h0 + lam) (hroom : b + ε ≤ m / 2)
    (hG : G ^ 2 ≤ M) (hH : h0 + lam + b ≤ M) (hQ : 2 * (G ^ 2 + ε) / m ≤ M) :
    ∃ v, nodeGain rnd lam g h = .ok v ∧ |v - g0 ^ 2 / (h0 + lam)| ≤ scoreErr G a b m ε ∧
      |v| ≤ 2 * (G ^ 2 + ε) / m + ε := by
  have ha0 : 0 ≤ a := le_trans (abs_nonneg _) ha
  have hg0 : |g0| ≤ G := by linarith
  have hg1 : |g| ≤ G := by
    have := abs_sub_abs_le_abs_sub g g0
    linarith
  have hsq : g * g ≤ G ^ 2 := by
    rw [← sq, ← sq_abs]
    exact pow_le_pow_left₀ (abs_nonneg _) hg1 2
  have hsq0 : 0 ≤ g * g := mul_self_nonneg g
  have e1 := abs_le.mp (hr (g * g) (by rw [abs_of_nonneg hsq0]; linarith))
  have hb' := abs_le.mp hb
  have e2 := abs_le.mp (hr (h + lam) (by rw [abs_of_nonneg (by linarith)]; linarith))
  set n := rnd (g * g) with hn
  set x := rnd (h + lam) with hx
  have hx2 : m / 2 ≤ x := by linarith
  have hxp : 0 < x := by linarith
  have hq : |n / x| ≤ 2 * (G ^ 2 + ε) / m := by
    rw [abs_div, abs_of_pos hxp]
    have h1 : |n| ≤ G ^ 2 + ε := by rw [abs_le]; constructor <;> linarith
    calc |n| / x ≤ (G ^ 2 + ε) / (m / 2) := div_le_div₀ (by positivity) h1 (by linarith) hx2
      _ = 2 * (G ^ 2 + ε) / m := by field_simp
  have e3 := hr (n / x) (hq.trans hQ)
  refine ⟨rnd (n / x), ?_, ?_, ?_⟩
  · unfold nodeGain div
    rw [if_neg (ne_of_gt hxp)]
  · have s1 := score_near (g := g) (g0 := g0) (x := x) (x0 := h0 + lam) (M := G) (a := a) (b := b + ε) hm hx2
      (by linarith) hg1 hg0 ha (by rw [abs_le]; constructor <;> linarith)
    have s2 : |n / x - g ^ 2 / x| ≤ 2 * ε / m := by
      rw [← sub_div, abs_div, abs_of_pos hxp]
      have h1 : |n - g ^ 2| ≤ ε := by rw [abs_le]; constructor <;> nlinarith
      calc |n - g ^ 2| / x ≤ ε / (m / 2) := div_le_div₀ hε h1 (by linarith) hx2
        _ = 2 * ε / m := by field_simp
    unfold scoreErr
    rw [abs_le] at e3 s1 s2 ⊢
    constructor <;> linarith
  · have := abs_sub_abs_le_abs_sub (rnd (n / x)) (n / x)
    linarith

theorem gainRun_near {cfg : Config} {s s0 l l0 : Rat × Rat} {G a b m : Rat} (hm : 0 < m) (hε : 0 ≤ ε)
    (hr : RoundsWithin cfg.rnd M ε)
    (s1 : |s.1 - s0.1| + |l.1 - l0.1| + ε ≤ a) (s2 : |s.2 - s0.2| + |l.2 - l0.2| + ε ≤ b)
    (g1 : |l0.1| + a ≤ G) (g2 : |s0.1 - l0.1| + a ≤ G) (g3 : |s0.1| + a ≤ G)
    (h1 : m ≤ l0.2 + cfg.regLambda) (h2 : m ≤ s0.2 - l0.2 + cfg.regLambda) (h3 : m ≤ s0.2 + cfg.regLambda)
    (hroom : b + ε ≤ m / 2) (hGM : G ≤ M) (hG : G ^ 2 ≤ M)
    (k1 : l0.2 + cfg.regLambda + b ≤ M) (k2 : |s0.2 - l0.2| + b ≤ M) (k2' : s0.2 - l0.2 + cfg.regLambda + b ≤ M)
    (k3 : s0.2 + cfg.regLambda + b ≤ M) (hQ : 3 * (2 * (G ^ 2 + ε) / m) + 5 * ε ≤ M) :
    ∃ x, gainRun cfg s l = .ok x ∧
      |x - gain cfg.regLambda s0 l0| ≤ 3 * scoreErr G a b m ε + 2 * ε ∧
      |x| ≤ 3 * (2 * (G ^ 2 + ε) / m) + 5 * ε := by
  have hQ0 : 0 ≤ 2 * (G ^ 2 + ε) / m := by positivity
  have p1 := abs_nonneg (s.1 - s0.1)
  have p2 := abs_nonneg (l.1 - l0.1)
  have p3 := abs_nonneg (s.2 - s0.2)
  have p4 := abs_nonneg (l.2 - l0.2)
  have d1 : |s.1 - l.1 - (s0.1 - l0.1)| ≤ |s.1 - s0.1| + |l.1 - l0.1| := by
    rw [show s.1 - l.1 - (s0.1 - l0.1) = (s.1 - s0.1) - (l.1 - l0.1) by ring]
    exact abs_sub _ _
  have d2 : |s.2 - l.2 - (s0.2 - l0.2)| ≤ |s.2 - s0.2| + |l.2 - l0.2| := by
    rw [show s.2 - l.2 - (s0.2 - l0.2) = (s.2 - s0.2) - (l.2 - l0.2) by ring]
    exact abs_sub _ _
  have r1 := round_near hr d1 (by linarith)
  have r2 := round_near hr d2 (by linarith)
  obtain ⟨v1, a1, a2, a3⟩ := nodeGain_near (lam := cfg.regLambda) (g := l.1) (g0 := l0.1) (h := l.2) (h0 := l0.2)
    (G := G) (a := a) (b := b) hm hε hr (by linarith) g1 (by linarith) h1 hroom hG k1 (by linarith)
  obtain ⟨v2, b1, b2, b3⟩ := nodeGain_near (lam := cfg.regLambda) (g := cfg.rnd (s.1 - l.1)) (g0 := s0.1 - l0.1)
    (h := cfg.rnd (s.2 - l.2)) (h0 := s0.2 - l0.2)
    (G := G) (a := a) (b := b) hm hε hr (by linarith) g2 (by linarith) h2 hroom hG k2' (by linarith)
  obtain ⟨v3, c1, c2, c3⟩ := nodeGain_near (lam := cfg.regLambda) (g := s.1) (g0 := s0.1) (h := s.2) (h0 := s0.2)
    (G := G) (a := a) (b := b) hm hε hr (by linarith) g3 (by linarith) h3 hroom hG k3 (by linarith)
  rw [abs_le] at a3 b3 c3
  have t1 := abs_le.mp (hr (v1 + v2) (by rw [abs_le]; constructor <;> linarith))
  have t2 := abs_le.mp (hr (cfg.rnd (v1 + v2) - v3) (by rw [abs_le]; constructor <;> linarith))
  refine ⟨cfg.rnd (cfg.rnd (v1 + v2) - v3), ?_, ?_, ?_⟩
  · simp only [gainRun, splitGain, a1, b1, c1, bind, Except.bind, pure, Except.pure]
  · unfold gain
    rw [abs_le] at a2 b2 c2 ⊢
    constructor <;> linarith
  · rw [abs_le]; constructor <;> linarith

end DTree
end Verif
