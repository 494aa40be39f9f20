import Verif.Spec.C74
import Verif.Lemmas.Splitter

/-! # Lemmas about split finding with numpy floats -/

set_option autoImplicit false

namespace Verif
namespace DTree

open Spec Histogram
open Quantile (floatZero)

/-! ### Order -/

theorem num_lt (x y : Rat) : num x < num y ↔ x < y := by
  unfold num
  rw [WithBot.coe_lt_coe, WithTop.coe_lt_coe]

theorem num_le (x y : Rat) : num x ≤ num y ↔ x ≤ y := by
  unfold num
  rw [WithBot.coe_le_coe, WithTop.coe_le_coe]

theorem num_lt_infinity (x : Rat) : num x < infinity := by
  unfold num infinity
  rw [WithBot.coe_lt_coe]
  exact WithTop.coe_lt_top x

theorem bot_lt_num (x : Rat) : (⊥ : Ext) < num x := WithBot.bot_lt_coe _

theorem bot_lt_infinity : (⊥ : Ext) < infinity := WithBot.bot_lt_coe _

theorem le_infinity (v : Ext) : v ≤ infinity := by
  unfold infinity
  induction v using WithBot.recBotCoe with
  | bot => exact bot_le
  | coe v => rw [WithBot.coe_le_coe]; exact le_top

/-- Comparison of floats is comparison of the numbers they stand for. -/
theorem gt_iff (a b : Np) : a.gt b = true ↔ ∃ x y, extValue a = some x ∧ extValue b = some y ∧ y < x := by
  cases a with
  | fin x =>
    cases b with
    | fin y => simp [Np.gt, extValue, num_lt]
    | inf s => cases s <;> simp [Np.gt, extValue, bot_lt_num, not_lt_of_gt (num_lt_infinity x)]
    | nan => simp [Np.gt, extValue]
  | inf s =>
    cases b with
    | fin y => cases s <;> simp [Np.gt, extValue, num_lt_infinity]
    | inf t => cases s <;> cases t <;> simp [Np.gt, extValue, bot_lt_infinity]
    | nan => cases s <;> simp [Np.gt, extValue]
  | nan => simp [Np.gt, extValue]

theorem value_inj {a b : Np} {x : Ext} (ha : extValue a = some x) (hb : extValue b = some x) : a = b := by
  have h1 : ∀ y : Rat, num y ≠ infinity := fun y => (num_lt_infinity y).ne
  have h2 : ∀ y : Rat, num y ≠ ⊥ := fun y => (bot_lt_num y).ne'
  have h3 : infinity ≠ ⊥ := bot_lt_infinity.ne'
  have h4 : ∀ y z : Rat, num y = num z → y = z := fun y z h =>
    le_antisymm ((num_le _ _).mp h.le) ((num_le _ _).mp h.ge)
  rw [← hb] at ha
  cases a with
  | fin x =>
    cases b with
    | fin y => simp only [extValue, Option.some.injEq] at ha; rw [h4 _ _ ha]
    | inf s =>
      cases s <;> simp only [extValue, Option.some.injEq] at ha
      · exact (h1 _ ha).elim
      · exact (h2 _ ha).elim
    | nan => simp [extValue] at hb
  | inf s =>
    cases b with
    | fin y =>
      cases s <;> simp only [extValue, Option.some.injEq] at ha
      · exact (h1 _ ha.symm).elim
      · exact (h2 _ ha.symm).elim
    | inf t =>
      cases s <;> cases t <;> simp only [extValue, Option.some.injEq] at ha
      · rfl
      · exact (h3 ha).elim
      · exact (h3 ha.symm).elim
      · rfl
    | nan => simp [extValue] at hb
  | nan => cases b with
    | fin y => simp [extValue] at ha
    | inf t => cases t <;> simp [extValue] at ha
    | nan => rfl

/-! ### Choosing -/

section Scan
variable {β : Type}

/-- Keep the first element with the largest value above `m`. -/
def pickNp (m : Rat) : List (β × Np) → Option β × Np → Option β × Np
  | [], best => best
  | p :: ps, best =>
    if p.2.gt (.fin m) ∧ p.2.gt best.2 then pickNp m ps (some p.1, p.2) else pickNp m ps best

theorem pickNp_append (m : Rat) (l1 l2 : List (β × Np)) (b : Option β × Np) :
    pickNp m (l1 ++ l2) b = pickNp m l2 (pickNp m l1 b) := by
  induction l1 generalizing b with
  | nil => rfl
  | cons p ps ih =>
    simp only [List.cons_append, pickNp]
    split <;> exact ih _

theorem pickNp_spec (m m0 : Rat) (hm : m0 ≤ m) (l : List (β × Np)) :
    (pickNp m l (none, .fin m0) = (none, .fin m0) ∧ ∀ p ∈ l, ∀ v, extValue p.2 = some v → v ≤ num m) ∨
    ∃ l1 x g w l2, l = l1 ++ (x, g) :: l2 ∧ pickNp m l (none, .fin m0) = (some x, g) ∧
      extValue g = some w ∧ num m < w ∧ (∀ p ∈ l1, ∀ v, extValue p.2 = some v → v < w) ∧
      ∀ p ∈ l2, ∀ v, extValue p.2 = some v → v ≤ w := by
  have hgm : ∀ (a : Np) (b : Rat), a.gt (.fin b) = true ↔ ∃ x, extValue a = some x ∧ num b < x := by
    intro a b
    rw [gt_iff]
    constructor
    · rintro ⟨x, y, h1, h2, h3⟩
      cases h2
      exact ⟨x, h1, h3⟩
    · rintro ⟨x, h1, h2⟩
      exact ⟨x, _, h1, rfl, h2⟩
  induction l using List.reverseRecOn with
  | nil => left; exact ⟨rfl, by simp⟩
  | append_singleton l p ih =>
    rw [pickNp_append]
    obtain ⟨x, v⟩ := p
    rcases ih with ⟨h1, h2⟩ | ⟨l1, y, g, w, l2, rfl, h2, hw, h3, h4, h5⟩
    · rw [h1]
      by_cases hv : v.gt (.fin m) = true
      · obtain ⟨u, hu, hmu⟩ := (hgm v m).mp hv
        right
        refine ⟨l, x, v, u, [], rfl, ?_, hu, hmu, fun p hp q hq => lt_of_le_of_lt (h2 p hp q hq) hmu,
          by simp⟩
        simp only [pickNp]
        rw [if_pos ⟨hv, (hgm v m0).mpr ⟨u, hu, lt_of_le_of_lt ((num_le _ _).mpr hm) hmu⟩⟩]
      · left
        constructor
        · simp only [pickNp]; rw [if_neg (fun h => hv h.1)]
        · intro p hp q hq
          rcases List.mem_append.mp hp with h | h
          · exact h2 p h q hq
          · simp only [List.mem_singleton] at h; subst h
            exact not_lt.mp fun hlt => hv ((hgm v m).mpr ⟨q, hq, hlt⟩)
    · rw [h2]
      right
      by_cases hv : v.gt g = true
      · obtain ⟨u, w', hu, hw', hlt⟩ := (gt_iff v g).mp hv
        rw [hw, Option.some.injEq] at hw'
        subst hw'
        refine ⟨l1 ++ (y, g) :: l2, x, v, u, [], by simp, ?_, hu, lt_trans h3 hlt, ?_, by simp⟩
        · simp only [pickNp]; rw [if_pos ⟨(hgm v m).mpr ⟨u, hu, lt_trans h3 hlt⟩, hv⟩]
        · intro p hp q hq
          rcases List.mem_append.mp hp with h | h
          · exact lt_trans (h4 p h q hq) hlt
          · rcases List.mem_cons.mp h with rfl | h
            · rw [hw, Option.some.injEq] at hq; subst hq; exact hlt
            · exact lt_of_le_of_lt (h5 p h q hq) hlt
      · refine ⟨l1, y, g, w, l2 ++ [(x, v)], by simp, ?_, hw, h3, h4, ?_⟩
        · simp only [pickNp]; rw [if_neg (fun h => hv h.2)]
        · intro p hp q hq
          rcases List.mem_append.mp hp with h | h
          · exact h5 p h q hq
          · simp only [List.mem_singleton] at h; subst h
            exact not_lt.mp fun hlt => hv ((gt_iff v g).mpr ⟨q, w, hq, hw, hlt⟩)

end Scan

/-- What the loop variables say about the best candidate. -/
def bestOfNp (r : Option (SplitInfo Np Unit) × Np) : BestNp :=
  ⟨r.2, r.1.bind (·.fid), r.1.bind (·.bid), r.1.map (·.sumGrad), r.1.map (·.sumHess)⟩

/-- The gain of a candidate. -/
def candGainNp (R : Rat → Np) (lam : Rat) (node : Np × Np) (s : SplitInfo Np Unit) : Np :=
  splitGainNp R lam node.1 node.2 s.sumGrad s.sumHess (Np.sub R node.1 s.sumGrad)
    (Np.sub R node.2 s.sumHess)

theorem binLoopNp_eq (R : Rat → Np) (cfg : Config) (fid : Nat) (tot : HCell Np) (bid : Nat)
    (bins : List (HCell Np)) (r : Option (SplitInfo Np Unit) × Np) (site : Site) :
    binLoopNp R cfg fid tot bid bins (bestOfNp r) = bestOfNp (pickNp cfg.minImpurity
      ((binLoopHost cfg site fid tot bid bins).map fun s =>
        (s, candGainNp R cfg.regLambda (tot.1, tot.2.1) s)) r) := by
  induction bins generalizing bid r with
  | nil => rfl
  | cons c cs ih =>
    simp only [binLoopHost, binLoopNp]
    split
    · simp only [List.map_cons, pickNp]
      rw [show candGainNp R cfg.regLambda (tot.1, tot.2.1)
        (SplitInfo.mk site (some (fid : Int)) (some (bid : Int)) c.1 c.2.1 ()) =
          cellGainNp R cfg.regLambda tot c from rfl,
        show (bestOfNp r).gain = r.2 from rfl]
      split
      · exact ih (bid + 1) (some ⟨site, some fid, some bid, c.1, c.2.1, ()⟩, _)
      · exact ih (bid + 1) r
    · exact ih (bid + 1) r

theorem featLoopNp_eq (R : Rat → Np) (cfg : Config) (valid : List Bool) (site : Site) (node : Np × Np)
    (fid : Nat) (hist : List (List (HCell Np))) (r : Option (SplitInfo Np Unit) × Np)
    (hn : ∀ (f : Nat) bins c, valid[fid + f]? = some true → hist[f]? = some bins →
      bins.getLast? = some c → (c.1, c.2.1) = node)
    (cs : List (SplitInfo Np Unit)) (hcs : featLoopHost cfg valid site fid hist = .ok cs) :
    featLoopNp R cfg valid fid hist (bestOfNp r) = .ok (bestOfNp (pickNp cfg.minImpurity
      (cs.map fun s => (s, candGainNp R cfg.regLambda node s)) r)) := by
  induction hist generalizing fid r cs with
  | nil => cases hcs; rfl
  | cons bins rest ih =>
    have hn' : ∀ (f : Nat) bins' c, valid[fid + 1 + f]? = some true → rest[f]? = some bins' →
        bins'.getLast? = some c → (c.1, c.2.1) = node := by
      intro f bins' c ha hb hc
      exact hn (f + 1) bins' c (by rw [← ha]; congr 1; omega) (by simpa using hb) hc
    simp only [featLoopHost] at hcs
    simp only [featLoopNp]
    cases hg : getAt valid fid with
    | error e => rw [hg] at hcs; cases hcs
    | ok v =>
      rw [hg] at hcs
      cases v with
      | false => exact ih (fid + 1) r hn' cs hcs
      | true =>
        simp only at hcs ⊢
        cases hl : bins.getLast? with
        | none => rw [hl] at hcs; exact ih (fid + 1) r hn' cs hcs
        | some tot =>
          rw [hl] at hcs
          simp only at hcs ⊢
          by_cases hs : tot.2.2 < cfg.minSample
          · rw [if_pos hs] at hcs ⊢
            cases hcs; rfl
          · rw [if_neg hs] at hcs ⊢
            simp only [bind, Except.bind] at hcs
            split at hcs; · cases hcs
            rename_i more hmore
            cases hcs
            have hnode : (tot.1, tot.2.1) = node := by
              refine hn 0 bins tot ?_ rfl hl
              unfold getAt at hg
              rw [Nat.add_zero]
              cases hv : valid[fid]? with
              | none => rw [hv] at hg; cases hg
              | some b => rw [hv] at hg; cases hg; rfl
            rw [binLoopNp_eq R cfg fid tot 0 bins r site, ih (fid + 1) _ hn' more hmore, hnode,
              List.map_append, pickNp_append]

/-! ### Gains -/

theorem nodeGainNp_cases (lam : Rat) (s : Rat × Rat) :
    (scoreExt lam s = .undefined ∧ nodeGainNp .fin lam (.fin s.1) (.fin s.2) = .nan) ∨
    (scoreExt lam s = .infinite ∧ nodeGainNp .fin lam (.fin s.1) (.fin s.2) = .inf false) ∨
    ∃ a : Rat, scoreExt lam s = .number a ∧
      nodeGainNp .fin lam (.fin s.1) (.fin s.2) = .fin a := by
  unfold nodeGainNp scoreExt
  simp only [Np.mul, Np.add, Np.div]
  by_cases h : s.2 + lam = 0
  · rw [if_pos h, if_pos h]
    by_cases hg : s.1 = 0
    · left
      rw [if_pos hg, if_pos (by simp [hg])]
      exact ⟨rfl, rfl⟩
    · right; left
      rw [if_neg hg, if_neg (by simp [hg])]
      have : ¬ s.1 * s.1 < 0 := not_lt.mpr (mul_self_nonneg _)
      refine ⟨rfl, ?_⟩
      simp [this]
  · right; right
    rw [if_neg h, if_neg h]
    exact ⟨_, rfl, by rw [pow_two]⟩

/-- The gain computed is the gain. -/
theorem candGainNp_value (lam : Rat) (node l : Rat × Rat) (site : Site) (f b : Option Int) :
    extValue (candGainNp .fin lam (.fin node.1, .fin node.2) ⟨site, f, b, .fin l.1, .fin l.2, ()⟩) =
      gainExt lam node l := by
  unfold candGainNp splitGainNp gainExt
  simp only [Np.sub]
  rcases nodeGainNp_cases lam l with ⟨e1, e2⟩ | ⟨e1, e2⟩ | ⟨a, e1, e2⟩ <;>
  rcases nodeGainNp_cases lam (node.1 - l.1, node.2 - l.2) with ⟨f1, f2⟩ | ⟨f1, f2⟩ | ⟨b, f1, f2⟩ <;>
  rcases nodeGainNp_cases lam node with ⟨g1, g2⟩ | ⟨g1, g2⟩ | ⟨c, g1, g2⟩ <;>
  simp only at f2 <;> rw [e1, e2, f1, f2, g1, g2] <;> rfl

/-! ### Agreement with the model in rational numbers -/

/-- A result of the search in rational numbers as one in floats. -/
def Best.np (b : Best) : BestNp := ⟨.fin b.gain, b.fid, b.bid, b.sumGrad.map .fin, b.sumHess.map .fin⟩

theorem nodeGainNp_fin {rnd : Rat → Rat} {lam g h x : Rat} (hx : nodeGain rnd lam g h = .ok x) :
    nodeGainNp (fun x => .fin (rnd x)) lam (.fin g) (.fin h) = .fin x := by
  unfold nodeGain div at hx
  split at hx
  · cases hx
  · rename_i hne
    cases hx
    simp only [nodeGainNp, Np.mul, Np.add, Np.div, if_neg hne]

theorem splitGainNp_fin {rnd : Rat → Rat} {lam g h gl hl gr hr x : Rat}
    (hx : splitGain rnd lam g h gl hl gr hr = .ok x) :
    splitGainNp (fun x => .fin (rnd x)) lam (.fin g) (.fin h) (.fin gl) (.fin hl) (.fin gr) (.fin hr) =
      .fin x := by
  unfold splitGain at hx
  simp only [bind, Except.bind] at hx
  split at hx; · cases hx
  rename_i a ha
  split at hx; · cases hx
  rename_i b hb
  split at hx; · cases hx
  rename_i c hc
  cases hx
  unfold splitGainNp
  rw [nodeGainNp_fin ha, nodeGainNp_fin hb, nodeGainNp_fin hc]
  rfl

theorem binLoopNp_fin (cfg : Config) (fid : Nat) (tot : HCell Rat) : ∀ (bid : Nat)
    (bins : List (HCell Rat)) (best r : Best), binLoopGuest cfg fid tot bid bins best = .ok r →
    binLoopNp (fun x => .fin (cfg.rnd x)) cfg fid (.fin tot.1, .fin tot.2.1, tot.2.2) bid
      (bins.map fun c => (.fin c.1, .fin c.2.1, c.2.2)) best.np = r.np
  | _, [], best, r, h => by cases h; rfl
  | bid, c :: cs, best, r, h => by
    simp only [List.map_cons, binLoopNp, binLoopGuest] at h ⊢
    split at h
    · rename_i hc
      rw [if_pos hc]
      split at h; · cases h
      rename_i gain hg
      have hg' : cellGainNp (fun x => .fin (cfg.rnd x)) cfg.regLambda (.fin tot.1, .fin tot.2.1, tot.2.2)
          (.fin c.1, .fin c.2.1, c.2.2) = .fin gain := splitGainNp_fin hg
      rw [hg']
      have hb : best.np.gain = .fin best.gain := rfl
      rw [hb]
      simp only [Np.gt, decide_eq_true_eq]
      split at h
      · rename_i hcond
        rw [if_pos hcond]
        exact binLoopNp_fin cfg fid tot (bid + 1) cs _ r h
      · rename_i hcond
        rw [if_neg hcond]
        exact binLoopNp_fin cfg fid tot (bid + 1) cs _ r h
    · rename_i hc
      rw [if_neg hc]
      exact binLoopNp_fin cfg fid tot (bid + 1) cs _ r h

theorem featLoopNp_fin (cfg : Config) (valid : List Bool) : ∀ (fid : Nat)
    (hist : List (List (HCell Rat))) (best r : Best), featLoopGuest cfg valid fid hist best = .ok r →
    featLoopNp (fun x => .fin (cfg.rnd x)) cfg valid fid (finHist hist) best.np = .ok r.np
  | _, [], best, r, h => by cases h; rfl
  | fid, bins :: rest, best, r, h => by
    have ih := fun best r h => featLoopNp_fin cfg valid (fid + 1) rest best r h
    simp only [finHist, List.map_cons, featLoopNp, featLoopGuest, List.getLast?_map] at h ih ⊢
    cases hg : getAt valid fid with
    | error e => rw [hg] at h; cases h
    | ok v =>
      rw [hg] at h
      cases v with
      | false => exact ih best r h
      | true =>
        simp only at h ⊢
        cases hl : bins.getLast? with
        | none => rw [hl] at h; exact ih best r h
        | some tot =>
          rw [hl] at h
          simp only [Option.map_some] at h ⊢
          split at h
          · rename_i hs
            rw [if_pos hs]
            cases h; rfl
          · rename_i hs
            rw [if_neg hs]
            split at h; · cases h
            rename_i b hb
            rw [binLoopNp_fin cfg fid tot 0 bins best b hb]
            exact ih b r h

theorem featLoopNp_total (R : Rat → Np) (cfg : Config) (valid : List Bool) : ∀ (fid : Nat)
    (hist : List (List (HCell Np))) (best : BestNp), fid + hist.length ≤ valid.length →
    ∃ r, featLoopNp R cfg valid fid hist best = .ok r
  | _, [], best, _ => ⟨best, rfl⟩
  | fid, bins :: rest, best, h => by
    have hlt : fid < valid.length := by simp only [List.length_cons] at h; omega
    have ih := fun best => featLoopNp_total R cfg valid (fid + 1) rest best
      (by simp only [List.length_cons] at h; omega)
    simp only [featLoopNp]
    have hget : getAt valid fid = .ok valid[fid] := by
      unfold getAt; rw [List.getElem?_eq_getElem hlt]
    rw [hget]
    cases valid[fid] with
    | false => exact ih best
    | true =>
      simp only
      cases bins.getLast? with
      | none => exact ih best
      | some tot =>
        simp only
        split
        · exact ⟨_, rfl⟩
        · exact ih _

end DTree
end Verif
