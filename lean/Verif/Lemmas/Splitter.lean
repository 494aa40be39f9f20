import Verif.Model.SplitChoice
import Verif.Spec.C24
import Mathlib.Tactic.Ring
import Mathlib.Tactic.Linarith
import Mathlib.Data.List.Induction

/-! # Lemmas about split finding -/

set_option autoImplicit false

namespace Verif
namespace DTree

open Spec Histogram
open Quantile (floatZero)

theorem splitGain_ok (lam : Rat) (n l : Rat × Rat) (h : Safe lam n l) :
    splitGain id lam n.1 n.2 l.1 l.2 (n.1 - l.1) (n.2 - l.2) = .ok (gain lam n l) := by
  obtain ⟨h1, h2, h3⟩ := h
  simp only [splitGain, nodeGain, div, id_eq, if_neg h1, if_neg h2, if_neg h3, bind, Except.bind, pure,
    Except.pure, gain]
  congr 1
  ring

section Scan
variable {β : Type}

/-- Keep the first element with the largest value above `m`. -/
def pick (m : Rat) : List (β × Rat) → Option β × Rat → Option β × Rat
  | [], best => best
  | p :: ps, best => if p.2 > m ∧ p.2 > best.2 then pick m ps (some p.1, p.2) else pick m ps best

theorem pick_append (m : Rat) (l1 l2 : List (β × Rat)) (b : Option β × Rat) :
    pick m (l1 ++ l2) b = pick m l2 (pick m l1 b) := by
  induction l1 generalizing b with
  | nil => rfl
  | cons p ps ih =>
    simp only [List.cons_append, pick]
    split <;> exact ih _

theorem pick_spec (m m0 : Rat) (hm : m0 ≤ m) (l : List (β × Rat)) :
    (pick m l (none, m0) = (none, m0) ∧ ∀ p ∈ l, p.2 ≤ m) ∨
    ∃ l1 x g l2, l = l1 ++ (x, g) :: l2 ∧ pick m l (none, m0) = (some x, g) ∧ m < g ∧
      (∀ p ∈ l1, p.2 < g) ∧ ∀ p ∈ l2, p.2 ≤ g := by
  induction l using List.reverseRecOn with
  | nil => left; exact ⟨rfl, by simp⟩
  | append_singleton l p ih =>
    rw [pick_append]
    obtain ⟨x, v⟩ := p
    rcases ih with ⟨h1, h2⟩ | ⟨l1, y, g, l2, rfl, h2, h3, h4, h5⟩
    · rw [h1]
      by_cases hv : v > m
      · right
        refine ⟨l, x, v, [], rfl, ?_, hv, fun p hp => lt_of_le_of_lt (h2 p hp) hv, by simp⟩
        simp only [pick]
        rw [if_pos ⟨hv, lt_of_le_of_lt hm hv⟩]
      · left
        constructor
        · simp only [pick]; rw [if_neg (fun h => hv h.1)]
        · intro p hp
          rcases List.mem_append.mp hp with h | h
          · exact h2 p h
          · simp only [List.mem_singleton] at h; subst h; exact not_lt.mp hv
    · rw [h2]
      right
      by_cases hv : v > g
      · refine ⟨l1 ++ (y, g) :: l2, x, v, [], by simp, ?_, lt_trans h3 hv, ?_, by simp⟩
        · simp only [pick]; rw [if_pos ⟨lt_trans h3 hv, hv⟩]
        · intro p hp
          rcases List.mem_append.mp hp with h | h
          · exact lt_trans (h4 p h) hv
          · rcases List.mem_cons.mp h with rfl | h
            · exact hv
            · exact lt_of_le_of_lt (h5 p h) hv
      · refine ⟨l1, y, g, l2 ++ [(x, v)], by simp, ?_, h3, h4, ?_⟩
        · simp only [pick]; rw [if_neg (fun h => hv h.2)]
        · intro p hp
          rcases List.mem_append.mp hp with h | h
          · exact h5 p h
          · simp only [List.mem_singleton] at h; subst h; exact not_lt.mp hv

end Scan

section Cands
variable {α : Type}

/-- Membership in the candidates of one feature. -/
theorem mem_binLoopHost (cfg : Config) (site : Site) (fid : Nat) (tot : HCell α) (bid : Nat)
    (bins : List (HCell α)) (s : SplitInfo α Unit) :
    s ∈ binLoopHost cfg site fid tot bid bins ↔ ∃ (b : Nat) (c : HCell α), bins[b]? = some c ∧
      cfg.minLeaf ≤ c.2.2 ∧ cfg.minLeaf ≤ tot.2.2 - c.2.2 ∧
      s = ⟨site, some (fid : Int), some ((bid + b : Nat) : Int), c.1, c.2.1, ()⟩ := by
  induction bins generalizing bid with
  | nil => simp [binLoopHost]
  | cons c cs ih =>
    have key : (∃ (b : Nat) (c' : HCell α), (c :: cs)[b]? = some c' ∧ cfg.minLeaf ≤ c'.2.2 ∧
        cfg.minLeaf ≤ tot.2.2 - c'.2.2 ∧
        s = ⟨site, some (fid : Int), some ((bid + b : Nat) : Int), c'.1, c'.2.1, ()⟩) ↔
        (cfg.minLeaf ≤ c.2.2 ∧ cfg.minLeaf ≤ tot.2.2 - c.2.2 ∧
          s = ⟨site, some (fid : Int), some (bid : Int), c.1, c.2.1, ()⟩) ∨
        ∃ (b : Nat) (c' : HCell α), cs[b]? = some c' ∧ cfg.minLeaf ≤ c'.2.2 ∧
          cfg.minLeaf ≤ tot.2.2 - c'.2.2 ∧
          s = ⟨site, some (fid : Int), some ((bid + 1 + b : Nat) : Int), c'.1, c'.2.1, ()⟩ := by
      constructor
      · rintro ⟨b, c', h1, h2, h3, h4⟩
        cases b with
        | zero => simp only [List.getElem?_cons_zero, Option.some.injEq] at h1; subst h1
                  left; exact ⟨h2, h3, h4⟩
        | succ b =>
          right
          refine ⟨b, c', by simpa using h1, h2, h3, ?_⟩
          rw [h4]; congr 3; omega
      · rintro (⟨h2, h3, h4⟩ | ⟨b, c', h1, h2, h3, h4⟩)
        · exact ⟨0, c, rfl, h2, h3, h4⟩
        · refine ⟨b + 1, c', by simpa using h1, h2, h3, ?_⟩
          rw [h4]; congr 3; omega
    rw [key]
    simp only [binLoopHost]
    split
    · rename_i hc
      rw [List.mem_cons, ih]
      simp only [ge_iff_le] at hc
      constructor
      · rintro (h | h)
        · left; exact ⟨hc.1, hc.2, h⟩
        · right; exact h
      · rintro (h | h)
        · left; exact h.2.2
        · right; exact h
    · rename_i hc
      rw [ih]
      constructor
      · intro h; right; exact h
      · rintro (h | h)
        · exact (hc ⟨h.1, h.2.1⟩).elim
        · exact h

/-- The order in which candidates are listed. -/
def Before (s t : SplitInfo α Unit) : Prop :=
  ∃ f b f' b' : Int, s.fid = some f ∧ s.bid = some b ∧ t.fid = some f' ∧ t.bid = some b' ∧
    (f < f' ∨ (f = f' ∧ b < b'))

theorem binLoopHost_sorted (cfg : Config) (site : Site) (fid : Nat) (tot : HCell α) (bid : Nat)
    (bins : List (HCell α)) : (binLoopHost cfg site fid tot bid bins).Pairwise Before := by
  induction bins generalizing bid with
  | nil => exact .nil
  | cons c cs ih =>
    simp only [binLoopHost]
    split
    · refine .cons ?_ (ih _)
      intro t ht
      obtain ⟨b, c', _, _, _, rfl⟩ := (mem_binLoopHost ..).mp ht
      exact ⟨fid, bid, fid, _, rfl, rfl, rfl, rfl, .inr ⟨rfl, by omega⟩⟩
    · exact ih _

/-- The candidates of a node, when the last bins of all features have the same count: success,
membership, order. -/
theorem featLoopHost_ok (cfg : Config) (valid : List Bool) (site : Site) (n : Int) (fid : Nat)
    (hist : List (List (HCell α))) (hv : fid + hist.length ≤ valid.length)
    (hn : ∀ (f : Nat) bins c, valid[fid + f]? = some true → hist[f]? = some bins →
      bins.getLast? = some c → c.2.2 = n) :
    ∃ cs, featLoopHost cfg valid site fid hist = .ok cs ∧ cs.Pairwise Before ∧
      (∀ s, s ∈ cs ↔ ∃ (f b : Nat) (bins : List (HCell α)) (tot c : HCell α),
        valid[fid + f]? = some true ∧ hist[f]? = some bins ∧ bins[b]? = some c ∧
        bins.getLast? = some tot ∧ cfg.minSample ≤ tot.2.2 ∧ cfg.minLeaf ≤ c.2.2 ∧
        cfg.minLeaf ≤ tot.2.2 - c.2.2 ∧
        s = ⟨site, some ((fid + f : Nat) : Int), some (b : Int), c.1, c.2.1, ()⟩) := by
  induction hist generalizing fid with
  | nil => exact ⟨[], rfl, .nil, by simp⟩
  | cons bins rest ih =>
    have hlt : fid < valid.length := by simp only [List.length_cons] at hv; omega
    obtain ⟨cs, h1, h2, h3⟩ := ih (fid + 1) (by simp only [List.length_cons] at hv; omega) (by
      intro f bins' c ha hb hc
      exact hn (f + 1) bins' c (by rw [← ha]; congr 1; omega) (by simpa using hb) hc)
    have hshift : ∀ s, (∃ (f b : Nat) (bins' : List (HCell α)) (tot c : HCell α),
        valid[fid + 1 + f]? = some true ∧ rest[f]? = some bins' ∧ bins'[b]? = some c ∧
        bins'.getLast? = some tot ∧ cfg.minSample ≤ tot.2.2 ∧ cfg.minLeaf ≤ c.2.2 ∧
        cfg.minLeaf ≤ tot.2.2 - c.2.2 ∧
        s = SplitInfo.mk site (some ((fid + 1 + f : Nat) : Int)) (some (b : Int)) c.1 c.2.1 ()) →
        ∃ (f b : Nat) (bins' : List (HCell α)) (tot c : HCell α),
        valid[fid + f]? = some true ∧ (bins :: rest)[f]? = some bins' ∧ bins'[b]? = some c ∧
        bins'.getLast? = some tot ∧ cfg.minSample ≤ tot.2.2 ∧ cfg.minLeaf ≤ c.2.2 ∧
        cfg.minLeaf ≤ tot.2.2 - c.2.2 ∧
        s = SplitInfo.mk site (some ((fid + f : Nat) : Int)) (some (b : Int)) c.1 c.2.1 () := by
      rintro s ⟨f, b, bins', tot, c, a1, a2, a3⟩
      have he : fid + 1 + f = fid + (f + 1) := by omega
      rw [he] at a1 a3
      exact ⟨f + 1, b, bins', tot, c, a1, by simpa using a2, a3⟩
    have hget : getAt valid fid = .ok valid[fid] := by
      unfold getAt; rw [List.getElem?_eq_getElem hlt]
    have hval : valid[fid + 0]? = some valid[fid] := by
      rw [Nat.add_zero, List.getElem?_eq_getElem hlt]
    have hskip : (valid[fid] = false ∨ bins.getLast? = none) →
        ∀ s, (∃ (f b : Nat) (bins' : List (HCell α)) (tot c : HCell α),
        valid[fid + f]? = some true ∧ (bins :: rest)[f]? = some bins' ∧ bins'[b]? = some c ∧
        bins'.getLast? = some tot ∧ cfg.minSample ≤ tot.2.2 ∧ cfg.minLeaf ≤ c.2.2 ∧
        cfg.minLeaf ≤ tot.2.2 - c.2.2 ∧
        s = SplitInfo.mk site (some ((fid + f : Nat) : Int)) (some (b : Int)) c.1 c.2.1 ()) → s ∈ cs := by
      rintro hh s ⟨f, b, bins', tot, c, a1, a2, a3⟩
      cases f with
      | zero =>
        simp only [List.getElem?_cons_zero, Option.some.injEq] at a2
        subst a2
        rcases hh with hh | hh
        · rw [hval, hh] at a1; cases a1
        · rw [hh] at a3; cases a3.2.1
      | succ f =>
        have he : fid + (f + 1) = fid + 1 + f := by omega
        rw [he] at a1 a3
        exact (h3 s).mpr ⟨f, b, bins', tot, c, a1, by simpa using a2, a3⟩
    simp only [featLoopHost, hget]
    cases hvb : valid[fid] with
    | false =>
      refine ⟨cs, h1, h2, fun s => ⟨fun h => hshift s ((h3 s).mp h), hskip (.inl hvb) s⟩⟩
    | true =>
      rw [hvb] at hval
      cases hl : bins.getLast? with
      | none => exact ⟨cs, h1, h2, fun s => ⟨fun h => hshift s ((h3 s).mp h), hskip (.inr hl) s⟩⟩
      | some tot =>
        have htn : tot.2.2 = n := hn 0 bins tot hval rfl hl
        by_cases hs : tot.2.2 < cfg.minSample
        · refine ⟨[], if_pos hs, .nil, ?_⟩
          intro s
          simp only [List.not_mem_nil, false_iff]
          rintro ⟨f, b, bins', tot', c, a1, a2, a3, a4, a5, _⟩
          have := hn f bins' tot' a1 a2 a4
          omega
        · refine ⟨binLoopHost cfg site fid tot 0 bins ++ cs, ?_, ?_, ?_⟩
          · simp only [if_neg hs, h1]; rfl
          · rw [List.pairwise_append]
            refine ⟨binLoopHost_sorted .., h2, ?_⟩
            intro s hs' t ht
            obtain ⟨b, c, _, _, _, rfl⟩ := (mem_binLoopHost ..).mp hs'
            obtain ⟨f', b', _, _, c', _, _, _, _, _, _, _, rfl⟩ := (h3 t).mp ht
            exact ⟨_, _, _, _, rfl, rfl, rfl, rfl, .inl (by push_cast; omega)⟩
          · intro s
            rw [List.mem_append]
            constructor
            · rintro (h | h)
              · obtain ⟨b, c, b1, b2, b3, rfl⟩ := (mem_binLoopHost ..).mp h
                refine ⟨0, b, bins, tot, c, hval, rfl, b1, hl, not_lt.mp hs, b2, b3, ?_⟩
                simp
              · exact hshift s ((h3 s).mp h)
            · rintro ⟨f, b, bins', tot', c, a1, a2, a3, a4, a5, a6, a7, a8⟩
              cases f with
              | zero =>
                simp only [List.getElem?_cons_zero, Option.some.injEq] at a2
                subst a2
                rw [hl, Option.some.injEq] at a4
                subst a4
                left
                refine (mem_binLoopHost ..).mpr ⟨b, c, a3, a6, a7, ?_⟩
                rw [a8]; simp
              | succ f =>
                right
                have he : fid + (f + 1) = fid + 1 + f := by omega
                rw [he] at a1 a8
                exact (h3 s).mpr ⟨f, b, bins', tot', c, a1, by simpa using a2, a3, a4, a5, a6, a7, a8⟩

end Cands

/-- Pair of sums of a candidate. -/
def sums {α : Type} (s : SplitInfo α Unit) : α × α := (s.sumGrad, s.sumHess)

/-- What the guest's loop variables say about the best candidate. -/
def bestOf (r : Option (SplitInfo Rat Unit) × Rat) : Best :=
  ⟨r.2, r.1.bind (·.fid), r.1.bind (·.bid), r.1.map (·.sumGrad), r.1.map (·.sumHess)⟩

/-- Candidates with gains. -/
def withGain (lam : Rat) (node : Rat × Rat) (cs : List (SplitInfo Rat Unit)) :
    List (SplitInfo Rat Unit × Rat) := cs.map fun s => (s, gain lam node (sums s))

theorem binLoopGuest_eq (cfg : Config) [hx : cfg.Exact] (fid : Nat) (tot : HCell Rat) (bid : Nat)
    (bins : List (HCell Rat)) (r : Option (SplitInfo Rat Unit) × Rat) (site : Site)
    (hs : ∀ s ∈ binLoopHost cfg site fid tot bid bins, Safe cfg.regLambda (tot.1, tot.2.1) (sums s)) :
    binLoopGuest cfg fid tot bid bins (bestOf r) = .ok (bestOf (pick cfg.minImpurity
      (withGain cfg.regLambda (tot.1, tot.2.1) (binLoopHost cfg site fid tot bid bins)) r)) := by
  induction bins generalizing bid r with
  | nil => rfl
  | cons c cs ih =>
    simp only [binLoopHost] at hs ⊢
    simp only [binLoopGuest, hx.rnd_eq, id_eq]
    split
    · rename_i hc
      rw [if_pos hc] at hs
      have h0 := hs _ (List.mem_cons_self)
      have := splitGain_ok cfg.regLambda (tot.1, tot.2.1) (c.1, c.2.1) h0
      simp only at this
      rw [this]
      simp only [withGain, List.map_cons, pick]
      rw [show sums (SplitInfo.mk site (some (fid : Int)) (some (bid : Int)) c.1 c.2.1 ()) = (c.1, c.2.1) from rfl]
      by_cases hg : gain cfg.regLambda (tot.1, tot.2.1) (c.1, c.2.1) > cfg.minImpurity ∧
          gain cfg.regLambda (tot.1, tot.2.1) (c.1, c.2.1) > r.2
      · refine (if_pos hg).trans (Eq.trans ?_ (congrArg (fun z => Except.ok (bestOf z)) (if_pos hg).symm))
        exact ih (bid + 1) (some ⟨site, some fid, some bid, c.1, c.2.1, ()⟩, _)
          (fun s h => hs s (List.mem_cons_of_mem _ h))
      · refine (if_neg hg).trans (Eq.trans ?_ (congrArg (fun z => Except.ok (bestOf z)) (if_neg hg).symm))
        exact ih (bid + 1) r (fun s h => hs s (List.mem_cons_of_mem _ h))
    · rename_i hc
      rw [if_neg hc] at hs
      exact ih (bid + 1) r hs

theorem featLoopGuest_eq (cfg : Config) [cfg.Exact] (valid : List Bool) (site : Site) (node : Rat × Rat)
    (fid : Nat) (hist : List (List (HCell Rat))) (r : Option (SplitInfo Rat Unit) × Rat)
    (hn : ∀ (f : Nat) bins c, valid[fid + f]? = some true → hist[f]? = some bins →
      bins.getLast? = some c → (c.1, c.2.1) = node)
    (cs : List (SplitInfo Rat Unit)) (hcs : featLoopHost cfg valid site fid hist = .ok cs)
    (hs : ∀ s ∈ cs, Safe cfg.regLambda node (sums s)) :
    featLoopGuest cfg valid fid hist (bestOf r) =
      .ok (bestOf (pick cfg.minImpurity (withGain cfg.regLambda node cs) r)) := by
  induction hist generalizing fid r cs with
  | nil => cases hcs; rfl
  | cons bins rest ih =>
    have hn' : ∀ (f : Nat) bins' c, valid[fid + 1 + f]? = some true → rest[f]? = some bins' →
        bins'.getLast? = some c → (c.1, c.2.1) = node := by
      intro f bins' c ha hb hc
      exact hn (f + 1) bins' c (by rw [← ha]; congr 1; omega) (by simpa using hb) hc
    simp only [featLoopHost] at hcs
    simp only [featLoopGuest]
    cases hg : getAt valid fid with
    | error e => rw [hg] at hcs; cases hcs
    | ok v =>
      rw [hg] at hcs
      cases v with
      | false => exact ih (fid + 1) r hn' cs hcs hs
      | true =>
        simp only at hcs ⊢
        cases hl : bins.getLast? with
        | none => rw [hl] at hcs; exact ih (fid + 1) r hn' cs hcs hs
        | some tot =>
          rw [hl] at hcs
          simp only at hcs ⊢
          have hv : valid[fid + 0]? = some true := by
            rw [Nat.add_zero]
            unfold getAt at hg
            cases hx : valid[fid]? with
            | none => rw [hx] at hg; cases hg
            | some x => rw [hx] at hg; simp only [Except.ok.injEq] at hg; rw [hg]
          have htot := hn 0 bins tot hv rfl hl
          by_cases hlt : tot.2.2 < cfg.minSample
          · rw [if_pos hlt] at hcs ⊢
            cases hcs; rfl
          · rw [if_neg hlt] at hcs ⊢
            cases hm : featLoopHost cfg valid site (fid + 1) rest with
            | error e => rw [hm] at hcs; cases hcs
            | ok more =>
              rw [hm] at hcs
              simp only [bind, Except.bind, pure, Except.pure, Except.ok.injEq] at hcs
              subst hcs
              rw [binLoopGuest_eq cfg fid tot 0 bins r site (by
                intro s h
                rw [htot]
                exact hs s (List.mem_append_left _ h))]
              simp only
              rw [ih (fid + 1) _ hn' more hm (fun s h => hs s (List.mem_append_right _ h))]
              rw [htot]
              simp only [withGain, List.map_append, pick_append]

theorem evalList_ok {β γ : Type} (f : β → Except PyErr γ) (P : β → γ → Prop) (l : List β)
    (h : ∀ x ∈ l, ∃ y, f x = .ok y ∧ P x y) :
    ∃ ys, evalList f l = .ok ys ∧ List.Forall₂ P l ys := by
  induction l with
  | nil => exact ⟨[], rfl, .nil⟩
  | cons x xs ih =>
    obtain ⟨y, h1, h2⟩ := h x (by simp)
    obtain ⟨ys, h3, h4⟩ := ih (fun z hz => h z (by simp [hz]))
    refine ⟨y :: ys, ?_, .cons h2 h4⟩
    simp only [evalList, h1, h3, bind, Except.bind, pure, Except.pure]

/-- The first element with the largest gain is the lexicographically first one. -/
theorem sorted_pick {α : Type} {cs l1 l2 : List (SplitInfo α Unit)} {x y : SplitInfo α Unit}
    (h : cs.Pairwise Before) (hc : cs = l1 ++ x :: l2) (hy : y ∈ cs) (hne : y ∉ l1) :
    y = x ∨ Before x y := by
  subst hc
  rw [List.pairwise_append] at h
  rcases List.mem_append.mp hy with h1 | h1
  · exact (hne h1).elim
  · rcases List.mem_cons.mp h1 with h1 | h1
    · exact .inl h1
    · exact .inr ((List.pairwise_cons.mp h.2.1).1 _ h1)

end DTree
end Verif
