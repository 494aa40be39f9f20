import Verif.Spec.C35
import Verif.Lemmas.Levels
import Verif.Lemmas.Dict

/-! # Feature importances of one tree -/

set_option autoImplicit false

namespace Verif
namespace DTree

open Spec
open Quantile (floatZero)

/-- What a split with the given gain adds to the importance of its feature. -/
def worth (kind : ImpType) (gain : Rat) : Rat :=
  match kind with
  | .split => 1
  | _ => gain

theorem total_append {N : Type} (ns : List N) (n : N) (w : N → Rat) :
    total (ns ++ [n]) w = some ((total ns w).getD 0 + w n) := by
  cases ns with
  | nil => simp [total]
  | cons m ns => simp [total, add_assoc]

theorem total_congr {N : Type} {ns : List N} {w w' : N → Rat} (h : ∀ n ∈ ns, w n = w' n) :
    total ns w = total ns w' := by
  cases ns with
  | nil => rfl
  | cons m ns =>
    unfold total
    rw [List.map_congr_left h]

theorem values_sum_set {K : Type} [DecidableEq K] (d : Dict K Rat) (k : K) (v : Rat) :
    (d.set k v).values.sum = d.values.sum - (d.get? k).getD 0 + v := by
  induction d with
  | nil => simp [Dict.set, Dict.values]
  | cons p d ih =>
    obtain ⟨k', v'⟩ := p
    unfold Dict.set Dict.get?
    by_cases h : k' = k
    · rw [if_pos h, if_pos h]
      simp only [Dict.values, List.map_cons, List.sum_cons, Option.getD_some]
      ring
    · rw [if_neg h, if_neg h]
      simp only [Dict.values, List.map_cons, List.sum_cons] at ih ⊢
      rw [ih]; ring

theorem updateImportance_inv {kind : ImpType} {s : SplitInfo (Option Rat) Rat}
    {imps imps' : Dict (Site × Option Int) Rat} (h : updateImportance kind s imps = .ok imps') :
    imps' = imps.set (s.site, s.fid) ((imps.get? (s.site, s.fid)).getD 0 + worth kind s.gain) := by
  unfold updateImportance at h
  cases kind with
  | split => cases h; rfl
  | gain => cases h; rfl
  | other => cases h

/-- The importances of a tree under construction.  `gains` gives the gain by node number; `Q`
relates a node, the sums of its left child and its gain. -/
structure ImpInv (kind : ImpType) (thr : Rat) (Q : Site → Rat × Rat → Rat × Rat → Rat → Prop)
    (gains : Nat → Rat) (tree rest : List Node) (num : Nat) (imps : Dict (Site × Option Int) Rat) :
    Prop where
  wf : Dict.WF imps
  get : ∀ key, imps.get? key = total (splitsOn tree key) fun n => worth kind (gains n.id)
  sum : imps.values.sum = ((tree.filter fun n => !n.isLeaf).map fun n => worth kind (gains n.id)).sum
  inner : ∀ n ∈ tree, n.isLeaf = false → thr < gains n.id ∧ ∃ c l, n.left = some c ∧ c ≤ num ∧
    Q n.site (n.sumGrad, n.sumHess) l (gains n.id) ∧
    ∀ m ∈ tree ++ rest, m.id = c → (m.sumGrad, m.sumHess) = l

theorem ImpInv.leaf {kind : ImpType} {thr : Rat} {Q : Site → Rat × Rat → Rat × Rat → Rat → Prop}
    {gains : Nat → Rat} {tree rest : List Node} {n : Node} {num : Nat}
    {imps : Dict (Site × Option Int) Rat} (h : ImpInv kind thr Q gains tree (n :: rest) num imps) :
    ImpInv kind thr Q gains (tree ++ [{ n with isLeaf := true }]) rest num imps := by
  refine ⟨h.wf, fun key => ?_, by rw [h.sum]; simp, fun m hm hl => ?_⟩
  · rw [h.get key]
    unfold splitsOn
    simp
  · rcases List.mem_append.mp hm with hm | hm
    · obtain ⟨h1, c, l, h2, h3, h4, h5⟩ := h.inner m hm hl
      refine ⟨h1, c, l, h2, h3, h4, fun x hx he => ?_⟩
      simp only [List.mem_append, List.mem_singleton] at hx
      rcases hx with (hx | hx) | hx
      · exact h5 x (by simp [hx]) he
      · subst hx; exact h5 n (by simp) he
      · exact h5 x (by simp [hx]) he
    · rw [List.mem_singleton] at hm
      subst hm
      cases hl

theorem ImpInv.split {rnd : Rat → Rat} {lam : Rat} {lev : Nat → Nat} {sums : Nat → Rat × Rat} {dep : Nat}
    {kind : ImpType} {thr : Rat} {Q : Site → Rat × Rat → Rat × Rat → Rat → Prop}
    {gains : Nat → Rat} {rem : List Node} {n : Node} {s : SplitInfo (Option Rat) Rat} {g g' : Grow}
    (hi : Inv rnd lam lev sums dep g.tree (n :: rem) g.queue g.num)
    (h : ImpInv kind thr Q gains g.tree (n :: rem ++ g.queue) g.num g.imps)
    (hs : splitNode rnd lam kind n s g = .ok g') (hthr : thr < s.gain)
    (hq : ∀ gl hl, s.sumGrad = some gl → s.sumHess = some hl →
      Q s.site (n.sumGrad, n.sumHess) (gl, hl) s.gain) :
    ImpInv kind thr Q (fun i => if i = n.id then s.gain else gains i) g'.tree (rem ++ g'.queue) g'.num
      g'.imps := by
  obtain ⟨gl, hl, wl, wr, bid, imps, hgl, hhl, _, _, himp, _, _, ht, hqu, hnum, himps⟩ := splitNode_inv hs
  have hnd : ((g.tree ++ (n :: rem ++ g.queue)).map Node.id).Nodup := by
    rw [hi.ids]; exact List.nodup_range
  have hle : ∀ m ∈ g.tree ++ (n :: rem ++ g.queue), m.id ≤ g.num := by
    intro m hm
    have : m.id ∈ List.range (g.num + 1) := by rw [← hi.ids]; exact List.mem_map_of_mem hm
    rw [List.mem_range] at this; omega
  have hne : ∀ m ∈ g.tree, m.id ≠ n.id := by
    intro m hm he
    rw [List.map_append, List.nodup_append] at hnd
    exact hnd.2.2 m.id (List.mem_map_of_mem hm) n.id (by simp) he
  have hf := hi.fresh n (by simp)
  have himp' := updateImportance_inv himp
  refine ⟨?_, fun key => ?_, ?_, fun m hm hml => ?_⟩
  · rw [himps, himp']; exact h.wf.set _ _
  · rw [himps, himp', Dict.get?_set, ht]
    unfold splitsOn
    rw [List.filter_append]
    have hold : ∀ key, total (g.tree.filter fun n => !n.isLeaf && decide ((n.site, n.fid) = key))
        (fun m => worth kind (if m.id = n.id then s.gain else gains m.id)) = g.imps.get? key := by
      intro key
      rw [h.get key]
      refine total_congr fun m hm => ?_
      rw [if_neg (hne m (List.mem_of_mem_filter hm))]
    by_cases hk : (s.site, s.fid) = key
    · subst hk
      rw [if_pos rfl]
      rw [List.filter_cons_of_pos (by simp [hf.1]), List.filter_nil, total_append, hold]
      simp
    · rw [if_neg hk]
      rw [List.filter_cons_of_neg (by simp [hf.1, hk]), List.filter_nil, List.append_nil, hold]
  · rw [himps, himp', values_sum_set, h.sum, ht, List.filter_append,
      List.filter_cons_of_pos (by simp [hf.1]), List.filter_nil, List.map_append, List.sum_append]
    have : ((g.tree.filter fun n => !n.isLeaf).map fun m =>
        worth kind (if m.id = n.id then s.gain else gains m.id)) =
        (g.tree.filter fun n => !n.isLeaf).map fun m => worth kind (gains m.id) :=
      List.map_congr_left fun m hm => by rw [if_neg (hne m (List.mem_of_mem_filter hm))]
    rw [this]
    simp
    ring
  · rw [ht, List.mem_append, List.mem_singleton] at hm
    rcases hm with hm | hm
    · obtain ⟨h1, c, l, h2, h3, h4, h5⟩ := h.inner m hm hml
      simp only [if_neg (hne m hm)]
      refine ⟨h1, c, l, h2, by omega, h4, fun x hx he => ?_⟩
      rw [ht, hqu] at hx
      simp only [List.mem_append, List.mem_cons, List.not_mem_nil, or_false] at hx
      rcases hx with (hx | hx) | hx | hx | hx | hx
      · exact h5 x (by simp [hx]) he
      · subst hx; exact h5 n (by simp) he
      · exact h5 x (by simp [hx]) he
      · exact h5 x (by simp [hx]) he
      · subst hx; simp only [Node.fresh] at he; omega
      · subst hx; simp only [Node.fresh] at he; omega
    · subst hm
      simp only [if_true]
      refine ⟨hthr, g.num + 1, (gl, hl), rfl, by omega, hq gl hl hgl hhl, fun x hx he => ?_⟩
      rw [ht, hqu] at hx
      simp only [List.mem_append, List.mem_cons, List.not_mem_nil, or_false] at hx
      rcases hx with (hx | hx) | hx | hx | hx | hx
      · have := hle x (by simp [hx]); omega
      · subst hx; have := hle n (by simp); simp only at he; omega
      · have := hle x (by simp [hx]); omega
      · have := hle x (by simp [hx]); omega
      · subst hx; rfl
      · subst hx; simp only [Node.fresh] at he; omega

theorem updateLoop_imps {cfg : Config} {kind : ImpType} {reach : Bool}
    {Q : Site → Rat × Rat → Rat × Rat → Rat → Prop} :
    ∀ (rem : List Node) (ss : List (SplitInfo (Option Rat) Rat)) (g g' : Grow)
      (lev : Nat → Nat) (sums : Nat → Rat × Rat) (dep : Nat) (gains : Nat → Rat),
    Inv cfg.rnd cfg.regLambda lev sums dep g.tree rem g.queue g.num →
    ImpInv kind (cfg.rnd (cfg.minImpurity + floatZero)) Q gains g.tree (rem ++ g.queue) g.num g.imps →
    (∀ (idx : Nat) n s, rem[idx]? = some n → ss[idx]? = some s →
      ¬ s.gain ≤ cfg.rnd (cfg.minImpurity + floatZero) → ∀ gl hl, s.sumGrad = some gl → s.sumHess = some hl →
      Q s.site (n.sumGrad, n.sumHess) (gl, hl) s.gain) →
    updateLoop cfg kind reach rem ss g = .ok g' →
    ∃ gains', ImpInv kind (cfg.rnd (cfg.minImpurity + floatZero)) Q gains' g'.tree g'.queue g'.num g'.imps
  | [], _, g, g', _, _, _, gains, _, h, _, hu => by
    unfold updateLoop at hu
    cases hu
    exact ⟨gains, by simpa using h⟩
  | n :: rem, [], g, g', lev, sums, dep, gains, hi, h, hq, hu => by
    unfold updateLoop at hu
    by_cases hr : reach = true
    · rw [if_pos hr] at hu
      exact updateLoop_imps rem [] _ g' lev sums dep gains hi.leaf h.leaf (by simp) hu
    · rw [if_neg hr] at hu
      cases hu
  | n :: rem, s :: ss, g, g', lev, sums, dep, gains, hi, h, hq, hu => by
    have hq' : ∀ (idx : Nat) n s, rem[idx]? = some n → ss[idx]? = some s →
      ¬ s.gain ≤ cfg.rnd (cfg.minImpurity + floatZero) → ∀ gl hl, s.sumGrad = some gl → s.sumHess = some hl →
      Q s.site (n.sumGrad, n.sumHess) (gl, hl) s.gain :=
      fun idx n s h1 h2 => hq (idx + 1) n s (by simpa using h1) (by simpa using h2)
    unfold updateLoop at hu
    by_cases hr : reach = true
    · rw [if_pos hr] at hu
      exact updateLoop_imps rem ss _ g' lev sums dep gains hi.leaf h.leaf hq' hu
    · rw [if_neg hr] at hu
      simp only at hu
      by_cases hg : s.gain ≤ cfg.rnd (cfg.minImpurity + floatZero)
      · rw [if_pos hg] at hu
        exact updateLoop_imps rem ss _ g' lev sums dep gains hi.leaf h.leaf hq' hu
      · rw [if_neg hg] at hu
        cases hsp : splitNode cfg.rnd cfg.regLambda kind n s g with
        | error e => rw [hsp] at hu; cases hu
        | ok g1 =>
          rw [hsp] at hu
          obtain ⟨lev1, sums1, _, j2⟩ := hi.split hsp
          exact updateLoop_imps rem ss g1 g' lev1 sums1 dep _ j2
            (h.split hi hsp (not_le.mp hg) (hq 0 n s rfl rfl hg)) hq' hu

theorem ImpInv.update {cfg : Config} {kind : ImpType} {reach : Bool}
    {Q : Site → Rat × Rat → Rat × Rat → Rat → Prop} {lev : Nat → Nat} {sums : Nat → Rat × Rat}
    {dep : Nat} {g g' : Grow} {ss : List (SplitInfo (Option Rat) Rat)} {gains : Nat → Rat}
    (hr : Ready cfg.rnd cfg.regLambda lev sums dep g)
    (h : ImpInv kind (cfg.rnd (cfg.minImpurity + floatZero)) Q gains g.tree g.queue g.num g.imps)
    (hq : ∀ (idx : Nat) n s, g.queue[idx]? = some n → ss[idx]? = some s →
      ¬ s.gain ≤ cfg.rnd (cfg.minImpurity + floatZero) → ∀ gl hl, s.sumGrad = some gl → s.sumHess = some hl →
      Q s.site (n.sumGrad, n.sumHess) (gl, hl) s.gain)
    (hu : updateQueue cfg kind reach ss g = .ok g') :
    ∃ gains', ImpInv kind (cfg.rnd (cfg.minImpurity + floatZero)) Q gains' g'.tree g'.queue g'.num g'.imps :=
  updateLoop_imps g.queue ss { g with queue := [] } g' lev sums dep gains hr.inv (by simpa using h) hq hu

theorem ImpInv.start (kind : ImpType) (thr : Rat) (Q : Site → Rat × Rat → Rat × Rat → Rat → Prop)
    (gains : Nat → Rat) (rest : List Node) (num : Nat) : ImpInv kind thr Q gains [] rest num [] :=
  ⟨by unfold Dict.WF; simp, fun key => rfl, by simp [Dict.values], by simp⟩

variable {K : Type} [DecidableEq K] {α : Type}

/-- The importances of any finished tree. -/
theorem fit_imps {S : Setup K α} {F : Fitted K} (h : fit S = .ok F) :
    ∃ gains rest num, ImpInv S.kind (S.cfg.rnd (S.cfg.minImpurity + floatZero)) (fun _ _ _ _ => True) gains F.tree
      rest num F.imps := by
  obtain ⟨st0, st, h1, h2, _, _, ht, _, himp⟩ := fit_inv h
  obtain ⟨g, hs, w, disp, a1, a2, a3, rfl⟩ := initState_inv h1
  obtain ⟨dep, hdep, lev, sums, gains, b0, b1⟩ := levels_induct
    (fun dep st => ∃ lev sums gains, Ready S.cfg.rnd S.cfg.regLambda lev sums dep st.grow ∧
      ImpInv S.kind (S.cfg.rnd (S.cfg.minImpurity + floatZero)) (fun _ _ _ _ => True) gains st.grow.tree
        st.grow.queue st.grow.num st.grow.imps)
    (by
      rintro dep reach st st' ⟨lev, sums, gains, c0, c1⟩ _ hl
      obtain ⟨_, _, ss, _, _, _, _, h4, _⟩ := level_inv hl
      obtain ⟨lev', sums', k1, k2, _⟩ := c0.update h4
      obtain ⟨gains', k3⟩ := c1.update c0 (by intros; trivial) h4
      exact ⟨lev', sums', gains', k2, k3⟩)
    _ 0 _ st ⟨_, _, fun _ => 0, Ready.root _ _ g hs w a2 [] [], ImpInv.start _ _ _ _ _ _⟩ h2
  exact ⟨gains, st.grow.queue, st.grow.num, by rw [ht, himp]; exact b1⟩

end DTree
end Verif
