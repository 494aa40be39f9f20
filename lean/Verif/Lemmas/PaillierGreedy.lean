import Verif.Lemmas.RawRun
import Verif.Lemmas.PaillierRun

/-! # Training with Paillier grows the greedy tree -/

set_option autoImplicit false

namespace Verif

open DTree Spec

variable {K : Type} [DecidableEq K] {α : Type}

omit [DecidableEq K] in
theorem gainError_nonneg (S : Setup K α) (m eg : Rat) : 0 ≤ gainError S m eg := by
  unfold gainError
  have h1 : 0 ≤ |S.cfg.minImpurity - 1 / 10 ^ 6| := abs_nonneg _
  have h2 : |S.cfg.minImpurity - 1 / 10 ^ 6| ≤
    max (2 * gradSize S eg ^ 2 / m) |S.cfg.minImpurity - 1 / 10 ^ 6| := le_max_right _ _
  have h3 := FP.tiny_pos
  have h4 : 0 ≤ max (2 * gradSize S eg ^ 2 / m) |S.cfg.minImpurity - 1 / 10 ^ 6| / 2 ^ 50 :=
    div_nonneg (le_trans h1 h2) (by norm_num)
  linarith

theorem paillier_greedy {p q : Nat} {sk : Paillier.PrivKey} {lo hi : Int} {m : Rat}
    {S : Setup K Histogram.Num} [S.cfg.Exact] {rows : Option Nat → DTable K (List Rat)} (hr : RawRun S rows)
    (hu : Usual S m) (hp : PaillierRun p q sk lo hi m 0 0 S) :
    ∃ F lev mem, GreedyRun S rows (gainError S m 0) F lev mem :=
  greedyRun hr hu (gainError_nonneg S m 0) (paillier_chooses (RawRun.prepared hr) hu hp)

theorem paillier_grown {p q : Nat} {sk : Paillier.PrivKey} {lo hi : Int} {m eg eh : Rat}
    {S : Setup K Histogram.Num} [S.cfg.Exact] {rows : Option Nat → DTable K (List Rat)} (hr : RawRun S rows)
    (hu : Usual S m) (hp : PaillierRun p q sk lo hi m eg eh S) :
    ∃ gh', Close gh' S.gh (S.gh.data.length * eg) (S.gh.data.length * eh) ∧ ∃ F lev mem,
      GrownRun S (encView S gh' (S.gh.data.length * eg) (S.gh.data.length * eh)) rows (gainError S m eg) F lev mem := by
  have hpr := RawRun.prepared hr
  obtain ⟨gh', h1, h2⟩ := paillier_readers hpr hu hp
  exact ⟨gh', h1, grownRun hr hu (gainError_nonneg S m eg) (h2.chooses hpr hu) (steady_enc hpr hu h1 hp.room)⟩

theorem depth_exists {tree : List Node} (h : WellFormed tree) (i : Nat) (hi : i < tree.length) :
    ∃ d, DepthAt tree i d := by
  induction i using Nat.strongRecOn with
  | ind i ih =>
    by_cases h0 : i = 0
    · subst h0; exact ⟨1, .root⟩
    · obtain ⟨q, hq, _⟩ := h.parent i (by omega) hi
      obtain ⟨n, hn, hc⟩ := id hq
      have hql : q < tree.length := by
        by_contra hge
        rw [List.getElem?_eq_none (by omega)] at hn; cases hn
      have hlt : q < i := by
        rcases h.shape q n hn with ⟨_, h2, h3⟩ | ⟨_, l, r, h2, h3, _, h5, h6, _⟩
        · rw [h2, h3] at hc; simp at hc
        · rw [h2, h3, Option.some.injEq, Option.some.injEq] at hc
          rcases hc with rfl | rfl
          · exact h5
          · exact h6
      obtain ⟨d, hd⟩ := ih q hlt hql
      exact ⟨d + 1, .child hd hq⟩

end Verif
