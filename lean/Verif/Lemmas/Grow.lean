import Verif.Model.Fit
import Mathlib.Tactic.Linarith
import Mathlib.Tactic.Ring

/-! # Invariants of growing a tree -/

set_option autoImplicit false

namespace Verif
namespace DTree

open Quantile (floatZero)

/-- The children of a node. -/
def Node.children (n : Node) : List Nat := n.left.toList ++ n.right.toList

/-- State in the middle of a level: finished nodes, nodes of this level still to do, nodes of the
next level.  `lev` and `sums` give the level and the sums for each node number. -/
structure Inv (rnd : Rat → Rat) (lam : Rat) (lev : Nat → Nat) (sums : Nat → Rat × Rat) (dep : Nat)
    (tree rem new : List Node) (num : Nat) : Prop where
  ids : (tree ++ (rem ++ new)).map Node.id = List.range (num + 1)
  fresh : ∀ n ∈ rem ++ new, n.isLeaf = false ∧ n.left = none ∧ n.right = none
  shape : ∀ n ∈ tree, (n.isLeaf = true ∧ n.left = none ∧ n.right = none) ∨
    (n.isLeaf = false ∧ ∃ l, n.left = some l ∧ n.right = some (l + 1) ∧ n.id < l ∧ l + 1 ≤ num ∧
      lev l = lev n.id + 1 ∧ lev (l + 1) = lev n.id + 1 ∧
      (sums (l + 1)).1 = rnd ((sums n.id).1 - (sums l).1) ∧
      (sums (l + 1)).2 = rnd ((sums n.id).2 - (sums l).2))
  kids : tree.flatMap Node.children = List.range' 1 num
  lev0 : lev 0 = 1
  levTree : ∀ n ∈ tree, lev n.id ≤ dep + 1
  levRem : ∀ n ∈ rem, lev n.id = dep + 1
  levNew : ∀ n ∈ new, lev n.id = dep + 2
  sumOf : ∀ n ∈ tree ++ (rem ++ new), sums n.id = (n.sumGrad, n.sumHess)
  weight : ∀ n ∈ tree ++ (rem ++ new), nodeWeight rnd lam n.sumGrad n.sumHess = .ok n.weight
  size : 2 * rem.length + new.length ≤ 2 ^ (dep + 1)
  size' : tree.length + rem.length + 1 ≤ 2 ^ (dep + 1)

theorem Inv.leaf {rnd : Rat → Rat} {lam : Rat} {lev : Nat → Nat} {sums : Nat → Rat × Rat} {dep : Nat}
    {tree rem new : List Node} {n : Node} {num : Nat}
    (h : Inv rnd lam lev sums dep tree (n :: rem) new num) :
    Inv rnd lam lev sums dep (tree ++ [{ n with isLeaf := true }]) rem new num := by
  obtain ⟨f1, f2, f3⟩ := h.fresh n (by simp)
  have hs := h.sumOf n (by simp)
  have hw := h.weight n (by simp)
  constructor
  · rw [← h.ids]; simp
  · exact fun m hm => h.fresh m (by simp at hm ⊢; tauto)
  · intro m hm
    rcases List.mem_append.mp hm with hm | hm
    · exact h.shape m hm
    · rw [List.mem_singleton] at hm; subst hm
      exact Or.inl ⟨rfl, f2, f3⟩
  · rw [List.flatMap_append, h.kids]
    simp [Node.children, f2, f3]
  · exact h.lev0
  · intro m hm
    rcases List.mem_append.mp hm with hm | hm
    · exact h.levTree m hm
    · rw [List.mem_singleton] at hm; subst hm
      exact le_of_eq (h.levRem n (by simp))
  · exact fun m hm => h.levRem m (by simp [hm])
  · exact h.levNew
  · intro m hm
    simp only [List.mem_append, List.mem_singleton] at hm
    rcases hm with (hm | hm) | hm
    · exact h.sumOf m (by simp [hm])
    · subst hm; exact hs
    · exact h.sumOf m (by simp; tauto)
  · intro m hm
    simp only [List.mem_append, List.mem_singleton] at hm
    rcases hm with (hm | hm) | hm
    · exact h.weight m (by simp [hm])
    · subst hm; exact hw
    · exact h.weight m (by simp; tauto)
  · have := h.size; simp only [List.length_cons] at this; omega
  · have := h.size'; simp only [List.length_cons, List.length_append, List.length_nil] at this ⊢; omega

/-- What `splitNode` does when it succeeds. -/
theorem splitNode_inv {rnd : Rat → Rat} {lam : Rat} {kind : ImpType} {n : Node} {s : SplitInfo (Option Rat) Rat}
    {g g' : Grow} (h : splitNode rnd lam kind n s g = .ok g') :
    ∃ gl hl wl wr bid imps, s.sumGrad = some gl ∧ s.sumHess = some hl ∧
      nodeWeight rnd lam gl hl = .ok wl ∧
      nodeWeight rnd lam (rnd (n.sumGrad - gl)) (rnd (n.sumHess - hl)) = .ok wr ∧
      updateImportance kind s g.imps = .ok imps ∧
      (s.site = .guest → ∃ b, s.bid = some b ∧ bid = none ∧ g'.mask = g.mask.set n.id b) ∧
      (s.site ≠ .guest → bid = s.bid ∧ g'.mask = g.mask) ∧
      g'.tree = g.tree ++ [{ n with left := some (g.num + 1), right := some (g.num + 2),
                                    site := s.site, fid := s.fid, bid := bid }] ∧
      g'.queue = g.queue ++ [Node.fresh (g.num + 1) gl hl wl,
        Node.fresh (g.num + 2) (rnd (n.sumGrad - gl)) (rnd (n.sumHess - hl)) wr] ∧
      g'.num = g.num + 2 ∧ g'.imps = imps := by
  unfold splitNode at h
  cases hg : s.sumGrad with
  | none => rw [hg] at h; simp at h
  | some gl =>
    cases hh : s.sumHess with
    | none => rw [hg, hh] at h; simp at h
    | some hl =>
      rw [hg, hh] at h
      simp only at h
      cases hwl : nodeWeight rnd lam gl hl with
      | error e => rw [hwl] at h; cases h
      | ok wl =>
        rw [hwl] at h
        cases hwr : nodeWeight rnd lam (rnd (n.sumGrad - gl)) (rnd (n.sumHess - hl)) with
        | error e => rw [hwr] at h; cases h
        | ok wr =>
          rw [hwr] at h
          cases hi : updateImportance kind s g.imps with
          | error e =>
            cases hsite : s.site with
            | guest =>
              rw [hsite, hi] at h
              cases hb : s.bid with
              | none => rw [hb] at h; cases h
              | some b => rw [hb] at h; cases h
            | host j => rw [hsite, hi] at h; cases h
          | ok imps =>
            cases hsite : s.site with
            | guest =>
              rw [hsite, hi] at h
              cases hb : s.bid with
              | none => rw [hb] at h; cases h
              | some b =>
                rw [hb] at h
                cases h
                refine ⟨gl, hl, wl, wr, none, imps, rfl, rfl, hwl, hwr, rfl, fun _ => ⟨b, rfl, rfl, rfl⟩,
                  fun hne => absurd rfl hne, rfl, rfl, rfl, rfl⟩
            | host j =>
              rw [hsite, hi] at h
              cases h
              exact ⟨gl, hl, wl, wr, s.bid, imps, rfl, rfl, hwl, hwr, rfl, fun hc => by simp at hc,
                fun _ => ⟨rfl, rfl⟩, rfl, rfl, rfl, rfl⟩

theorem range_succ2 (m : Nat) : List.range (m + 2 + 1) = List.range (m + 1) ++ [m + 1, m + 2] := by
  rw [List.range_succ, List.range_succ (n := m + 1)]; simp

/-- A split keeps the invariant. -/
theorem Inv.split {rnd : Rat → Rat} {lam : Rat} {lev : Nat → Nat} {sums : Nat → Rat × Rat} {dep : Nat}
    {rem : List Node} {n : Node} {kind : ImpType} {s : SplitInfo (Option Rat) Rat} {g g' : Grow}
    (h : Inv rnd lam lev sums dep g.tree (n :: rem) g.queue g.num)
    (hs : splitNode rnd lam kind n s g = .ok g') :
    ∃ lev' sums', (∀ i ≤ g.num, lev' i = lev i ∧ sums' i = sums i) ∧
      Inv rnd lam lev' sums' dep g'.tree rem g'.queue g'.num := by
  obtain ⟨gl, hl, wl, wr, bid, imps, _, _, hwl, hwr, _, _, _, ht, hq, hn, _⟩ := splitNode_inv hs
  obtain ⟨f1, f2, f3⟩ := h.fresh n (by simp)
  have hsn := h.sumOf n (by simp)
  have hwn := h.weight n (by simp)
  have hle : ∀ m ∈ g.tree ++ (n :: rem ++ g.queue), m.id ≤ g.num := by
    intro m hm
    have : m.id ∈ List.range (g.num + 1) := by rw [← h.ids]; exact List.mem_map_of_mem hm
    rw [List.mem_range] at this; omega
  have hnid := hle n (by simp)
  let lev' : Nat → Nat := fun i => if i ≤ g.num then lev i else dep + 2
  let sums' : Nat → Rat × Rat := fun i => if i ≤ g.num then sums i else
    if i = g.num + 1 then (gl, hl) else (rnd (n.sumGrad - gl), rnd (n.sumHess - hl))
  have hlev : ∀ i ≤ g.num, lev' i = lev i := fun i hi => if_pos hi
  have hsums : ∀ i ≤ g.num, sums' i = sums i := fun i hi => if_pos hi
  have hl1 : lev' (g.num + 1) = dep + 2 := if_neg (by omega)
  have hl2 : lev' (g.num + 2) = dep + 2 := if_neg (by omega)
  have hs1 : sums' (g.num + 1) = (gl, hl) := by simp [sums']
  have hs2 : sums' (g.num + 2) = (rnd (n.sumGrad - gl), rnd (n.sumHess - hl)) := by simp [sums']
  refine ⟨lev', sums', fun i hi => ⟨hlev i hi, hsums i hi⟩, ?_⟩
  rw [ht, hq, hn]
  constructor
  · rw [range_succ2, ← h.ids]; simp [Node.fresh]
  · intro m hm
    simp only [List.mem_append, List.mem_cons, List.not_mem_nil, or_false] at hm
    rcases hm with hm | hm | hm | hm
    · exact h.fresh m (by simp [hm])
    · exact h.fresh m (by simp [hm])
    · subst hm; exact ⟨rfl, rfl, rfl⟩
    · subst hm; exact ⟨rfl, rfl, rfl⟩
  · intro m hm
    rcases List.mem_append.mp hm with hm | hm
    · rcases h.shape m hm with hleaf | ⟨hi, l, a1, a2, a3, a4, a5, a6, a7, a8⟩
      · exact Or.inl hleaf
      · refine Or.inr ⟨hi, l, a1, a2, a3, by omega, ?_⟩
        have hm' := hle m (by simp [hm])
        rw [hlev _ (by omega), hlev _ (by omega), hlev _ (by omega), hsums _ (by omega),
          hsums _ (by omega), hsums _ (by omega)]
        exact ⟨a5, a6, a7, a8⟩
    · rw [List.mem_singleton] at hm; subst hm
      refine Or.inr ⟨f1, g.num + 1, rfl, rfl, by simp only; omega, by omega, ?_⟩
      simp only
      rw [hl1, hl2, hlev _ hnid, hs1, hs2, hsums _ hnid, hsn, h.levRem n (by simp)]
      simp
  · rw [List.flatMap_append, h.kids]
    simp [Node.children, List.range'_concat, Nat.add_comm]
    omega
  · rw [hlev 0 (by omega)]; exact h.lev0
  · intro m hm
    rcases List.mem_append.mp hm with hm | hm
    · rw [hlev _ (hle m (by simp [hm]))]; exact h.levTree m hm
    · rw [List.mem_singleton] at hm; subst hm
      simp only
      rw [hlev _ hnid, h.levRem n (by simp)]
  · intro m hm
    rw [hlev _ (hle m (by simp [hm]))]; exact h.levRem m (by simp [hm])
  · intro m hm
    simp only [List.mem_append, List.mem_cons, List.not_mem_nil, or_false] at hm
    rcases hm with hm | hm | hm
    · rw [hlev _ (hle m (by simp [hm]))]; exact h.levNew m hm
    · subst hm; exact hl1
    · subst hm; exact hl2
  · intro m hm
    simp only [List.mem_append, List.mem_cons, List.not_mem_nil, or_false] at hm
    rcases hm with (hm | hm) | hm | hm | hm | hm
    · rw [hsums _ (hle m (by simp [hm]))]; exact h.sumOf m (by simp [hm])
    · subst hm; simp only; rw [hsums _ hnid, hsn]
    · rw [hsums _ (hle m (by simp [hm]))]; exact h.sumOf m (by simp [hm])
    · rw [hsums _ (hle m (by simp [hm]))]; exact h.sumOf m (by simp [hm])
    · subst hm; exact hs1
    · subst hm; exact hs2
  · intro m hm
    simp only [List.mem_append, List.mem_cons, List.not_mem_nil, or_false] at hm
    rcases hm with (hm | hm) | hm | hm | hm | hm
    · exact h.weight m (by simp [hm])
    · subst hm; exact hwn
    · exact h.weight m (by simp [hm])
    · exact h.weight m (by simp [hm])
    · subst hm; exact hwl
    · subst hm; exact hwr
  · have := h.size; simp only [List.length_cons, List.length_append, List.length_nil] at this ⊢; omega
  · have := h.size'; simp only [List.length_cons, List.length_append, List.length_nil] at this ⊢; omega

/-- The loop over a level keeps the invariant; earlier nodes stay; on the last level nothing is
queued. -/
theorem updateLoop_inv {cfg : Config} {kind : ImpType} {reach : Bool} :
    ∀ (rem : List Node) (ss : List (SplitInfo (Option Rat) Rat)) (g g' : Grow)
      (lev : Nat → Nat) (sums : Nat → Rat × Rat) (dep : Nat),
    Inv cfg.rnd cfg.regLambda lev sums dep g.tree rem g.queue g.num →
    updateLoop cfg kind reach rem ss g = .ok g' →
    ∃ lev' sums', (∀ i ≤ g.num, lev' i = lev i ∧ sums' i = sums i) ∧
      Inv cfg.rnd cfg.regLambda lev' sums' dep g'.tree [] g'.queue g'.num ∧
      (∃ done, g'.tree = g.tree ++ done ∧ done.map Node.id = rem.map Node.id) ∧
      g.num ≤ g'.num ∧ (reach = true → g'.queue = g.queue)
  | [], _, g, g', lev, sums, _, h, hu => by
    unfold updateLoop at hu
    cases hu
    exact ⟨lev, sums, fun _ _ => ⟨rfl, rfl⟩, h, ⟨[], by simp⟩, le_rfl, fun _ => rfl⟩
  | n :: rem, ss, g, g', lev, sums, dep, h, hu => by
    have hleaf := h.leaf
    have fin : ∀ ss', updateLoop cfg kind reach rem ss'
        { g with tree := g.tree ++ [{ n with isLeaf := true }] } = .ok g' →
        ∃ lev' sums', (∀ i ≤ g.num, lev' i = lev i ∧ sums' i = sums i) ∧
          Inv cfg.rnd cfg.regLambda lev' sums' dep g'.tree [] g'.queue g'.num ∧
          (∃ done, g'.tree = g.tree ++ done ∧ done.map Node.id = (n :: rem).map Node.id) ∧
          g.num ≤ g'.num ∧ (reach = true → g'.queue = g.queue) := by
      intro ss' hu'
      obtain ⟨lev', sums', k1, k2, ⟨done, k3, k4⟩, k5, k6⟩ :=
        updateLoop_inv rem ss' _ g' lev sums dep hleaf hu'
      refine ⟨lev', sums', k1, k2, ⟨{ n with isLeaf := true } :: done, ?_, ?_⟩, k5, k6⟩
      · rw [k3]; simp
      · simp [k4]
    unfold updateLoop at hu
    by_cases hr : reach = true
    · rw [if_pos hr] at hu
      exact fin _ hu
    · rw [if_neg hr] at hu
      cases ss with
      | nil => cases hu
      | cons s ss =>
        simp only at hu
        split at hu
        · exact fin _ hu
        · cases hsp : splitNode cfg.rnd cfg.regLambda kind n s g with
          | error e => rw [hsp] at hu; cases hu
          | ok g1 =>
            rw [hsp] at hu
            obtain ⟨lev1, sums1, j1, j2⟩ := h.split hsp
            obtain ⟨lev', sums', k1, k2, ⟨done, k3, k4⟩, k5, _⟩ :=
              updateLoop_inv rem ss g1 g' lev1 sums1 dep j2 hu
            obtain ⟨gl, hl, wl, wr, bid, imps, _, _, _, _, _, _, _, ht, _, hn, _⟩ := splitNode_inv hsp
            let nd : Node := { n with
              left := some (g.num + 1), right := some (g.num + 2), site := s.site,
              fid := s.fid, bid := bid }
            refine ⟨lev', sums', fun i hi => ?_, k2, ⟨nd :: done, ?_, ?_⟩, by omega,
              fun hc => absurd hc hr⟩
            · rw [(k1 i (by omega)).1, (k1 i (by omega)).2]; exact j1 i hi
            · rw [k3, ht]; simp [nd]
            · simp [k4, nd]

/-- Between two levels. -/
structure Ready (rnd : Rat → Rat) (lam : Rat) (lev : Nat → Nat) (sums : Nat → Rat × Rat) (dep : Nat) (g : Grow) :
    Prop where
  inv : Inv rnd lam lev sums dep g.tree g.queue [] g.num
  lev : ∀ n ∈ g.tree, lev n.id ≤ dep
  size : g.tree.length + 1 ≤ 2 ^ dep

theorem Ready.update {cfg : Config} {kind : ImpType} {reach : Bool} {lev : Nat → Nat}
    {sums : Nat → Rat × Rat} {dep : Nat} {g g' : Grow} {ss : List (SplitInfo (Option Rat) Rat)}
    (h : Ready cfg.rnd cfg.regLambda lev sums dep g) (hu : updateQueue cfg kind reach ss g = .ok g') :
    ∃ lev' sums', (∀ i ≤ g.num, lev' i = lev i ∧ sums' i = sums i) ∧
      Ready cfg.rnd cfg.regLambda lev' sums' (dep + 1) g' ∧
      (∃ done, g'.tree = g.tree ++ done ∧ done.map Node.id = g.queue.map Node.id) ∧
      g.num ≤ g'.num ∧ (reach = true → g'.queue = []) := by
  obtain ⟨lev', sums', k1, k2, k3, k4, k5⟩ :=
    updateLoop_inv g.queue ss { g with queue := [] } g' lev sums dep h.inv hu
  refine ⟨lev', sums', k1, ⟨?_, k2.levTree, ?_⟩, k3, k4, k5⟩
  · have hsz := k2.size
    have hsz' := k2.size'
    simp only [List.length_nil] at hsz hsz'
    refine ⟨?_, ?_, k2.shape, k2.kids, k2.lev0, fun n hn => by have := k2.levTree n hn; omega,
      k2.levNew, by simp, ?_, ?_, ?_, ?_⟩
    · rw [← k2.ids]; simp
    · intro n hn; exact k2.fresh n (by simpa using hn)
    · intro n hn; exact k2.sumOf n (by simpa using hn)
    · intro n hn; exact k2.weight n (by simpa using hn)
    · rw [pow_succ]; simp only [List.length_nil]; omega
    · rw [pow_succ]; omega
  · have hsz' := k2.size'
    simp only [List.length_nil] at hsz'
    omega

theorem Ready.root (rnd : Rat → Rat) (lam g h w : Rat) (hw : nodeWeight rnd lam g h = .ok w) (mask : Dict Nat Int)
    (imps : Dict (Site × Option Int) Rat) :
    Ready rnd lam (fun _ => 1) (fun _ => (g, h)) 0 ⟨[], [Node.fresh 0 g h w], 0, mask, imps⟩ := by
  refine ⟨⟨by simp [Node.fresh], ?_, by simp, rfl, rfl, by simp, by simp, by simp, ?_, ?_, ?_, ?_⟩,
    by simp, by simp⟩
  · intro n hn; simp at hn; subst hn; exact ⟨rfl, rfl, rfl⟩
  · intro n hn; simp at hn; subst hn; rfl
  · intro n hn; simp at hn; subst hn; exact hw
  · simp
  · simp

end DTree
end Verif
