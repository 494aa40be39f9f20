import Verif.Lemmas.SplitChoice
import Verif.Spec.C68

/-! # The federated choice of a split with rounded floats

The scans of guest and hosts compare computed gains; what these have to do with the exact gains is
not used here. -/

set_option autoImplicit false

namespace Verif
namespace DTree

open Spec Histogram
open Quantile (floatZero)

variable {α : Type}

/-- The gain that is computed for the left sums `l` of a node with the sums `node`. -/
def gainRun (cfg : Config) (node l : Rat × Rat) : Except PyErr Rat :=
  splitGain cfg.rnd cfg.regLambda node.1 node.2 l.1 l.2 (cfg.rnd (node.1 - l.1)) (cfg.rnd (node.2 - l.2))

/-- The splits of a histogram of the guest: feature, bin, left sums and computed gain. -/
def guestValues (cfg : Config) (valid : List Bool) (hist : List (List (HCell Rat))) (f b : Nat)
    (l : Rat × Rat) (x : Rat) : Prop :=
  ∃ bins tot c, valid[f]? = some true ∧ hist[f]? = some bins ∧ bins[b]? = some c ∧
    bins.getLast? = some tot ∧ cfg.minSample ≤ tot.2.2 ∧ cfg.minLeaf ≤ c.2.2 ∧
    cfg.minLeaf ≤ tot.2.2 - c.2.2 ∧ l = (c.1, c.2.1) ∧ gainRun cfg (tot.1, tot.2.1) l = .ok x

/-- The same for a host, as the guest reads its histogram `D`. -/
def hostValues (cfg : Config) (valid : List Bool) (D : List (List (HCell Rat))) (node : Rat × Rat)
    (f b : Nat) (l : Rat × Rat) (x : Rat) : Prop :=
  ∃ c, Offered cfg valid D f b c ∧ l = (c.1, c.2.1) ∧ gainRun cfg node l = .ok x

theorem binLoopGuest_eqR (cfg : Config) (fid : Nat) (tot : HCell Rat) (bid : Nat)
    (bins : List (HCell Rat)) (site : Site)
    (hs : ∀ s ∈ binLoopHost cfg site fid tot bid bins, ∃ x, gainRun cfg (tot.1, tot.2.1) (sums s) = .ok x) :
    ∃ L : List (SplitInfo Rat Unit × Rat), L.map Prod.fst = binLoopHost cfg site fid tot bid bins ∧
      (∀ p ∈ L, gainRun cfg (tot.1, tot.2.1) (sums p.1) = .ok p.2) ∧
      ∀ r, binLoopGuest cfg fid tot bid bins (bestOf r) = .ok (bestOf (pick cfg.minImpurity L r)) := by
  induction bins generalizing bid with
  | nil => exact ⟨[], rfl, by simp, fun _ => rfl⟩
  | cons c cs ih =>
    simp only [binLoopHost] at hs ⊢
    by_cases hc : c.2.2 ≥ cfg.minLeaf ∧ tot.2.2 - c.2.2 ≥ cfg.minLeaf
    · rw [if_pos hc] at hs
      obtain ⟨L, l1, l2, l3⟩ := ih (bid + 1) (fun s h => hs s (List.mem_cons_of_mem _ h))
      obtain ⟨x, hx⟩ := hs _ List.mem_cons_self
      refine ⟨(⟨site, some fid, some bid, c.1, c.2.1, ()⟩, x) :: L, ?_, ?_, fun r => ?_⟩
      · rw [if_pos hc, List.map_cons, l1]
      · intro p hp
        rcases List.mem_cons.mp hp with rfl | hp
        · exact hx
        · exact l2 p hp
      · have hx' : splitGain cfg.rnd cfg.regLambda tot.1 tot.2.1 c.1 c.2.1 (cfg.rnd (tot.1 - c.1))
            (cfg.rnd (tot.2.1 - c.2.1)) = .ok x := hx
        simp only [binLoopGuest, if_pos hc, hx', pick]
        by_cases hg : x > cfg.minImpurity ∧ x > r.2
        · refine (if_pos hg).trans (Eq.trans ?_ (congrArg (fun z => Except.ok (bestOf z)) (if_pos hg).symm))
          exact l3 (some ⟨site, some fid, some bid, c.1, c.2.1, ()⟩, x)
        · refine (if_neg hg).trans (Eq.trans ?_ (congrArg (fun z => Except.ok (bestOf z)) (if_neg hg).symm))
          exact l3 r
    · rw [if_neg hc] at hs
      obtain ⟨L, l1, l2, l3⟩ := ih (bid + 1) hs
      refine ⟨L, by rw [if_neg hc, l1], l2, fun r => ?_⟩
      simp only [binLoopGuest, if_neg hc]
      exact l3 r

theorem featLoopGuest_eqR (cfg : Config) (valid : List Bool) (site : Site) (fid : Nat)
    (hist : List (List (HCell Rat))) (cs : List (SplitInfo Rat Unit))
    (hcs : featLoopHost cfg valid site fid hist = .ok cs)
    (hs : ∀ (f : Nat) bins tot, valid[fid + f]? = some true → hist[f]? = some bins →
      bins.getLast? = some tot → cfg.minSample ≤ tot.2.2 →
      ∀ s ∈ binLoopHost cfg site (fid + f) tot 0 bins, ∃ x, gainRun cfg (tot.1, tot.2.1) (sums s) = .ok x) :
    ∃ L : List (SplitInfo Rat Unit × Rat), L.map Prod.fst = cs ∧
      (∀ p ∈ L, ∃ (f : Nat) (bins : List (HCell Rat)) (tot : HCell Rat), valid[fid + f]? = some true ∧ hist[f]? = some bins ∧
        bins.getLast? = some tot ∧ p.1.fid = some ((fid + f : Nat) : Int) ∧
        gainRun cfg (tot.1, tot.2.1) (sums p.1) = .ok p.2) ∧
      ∀ r, featLoopGuest cfg valid fid hist (bestOf r) = .ok (bestOf (pick cfg.minImpurity L r)) := by
  induction hist generalizing fid cs with
  | nil => cases hcs; exact ⟨[], rfl, by simp, fun _ => rfl⟩
  | cons bins rest ih =>
    have hs' : ∀ (f : Nat) bins tot, valid[fid + 1 + f]? = some true → rest[f]? = some bins →
        bins.getLast? = some tot → cfg.minSample ≤ tot.2.2 →
        ∀ s ∈ binLoopHost cfg site (fid + 1 + f) tot 0 bins,
          ∃ x, gainRun cfg (tot.1, tot.2.1) (sums s) = .ok x := by
      intro f bins' tot ha hb
      have he : fid + 1 + f = fid + (f + 1) := by omega
      rw [he] at ha ⊢
      exact hs (f + 1) bins' tot ha (by simpa using hb)
    have hshift : ∀ p : SplitInfo Rat Unit × Rat,
        (∃ (f : Nat) (bins : List (HCell Rat)) (tot : HCell Rat), valid[fid + 1 + f]? = some true ∧ rest[f]? = some bins ∧
          bins.getLast? = some tot ∧ p.1.fid = some ((fid + 1 + f : Nat) : Int) ∧
          gainRun cfg (tot.1, tot.2.1) (sums p.1) = .ok p.2) →
        ∃ (f : Nat) (bins' : List (HCell Rat)) (tot : HCell Rat), valid[fid + f]? = some true ∧ (bins :: rest)[f]? = some bins' ∧
          bins'.getLast? = some tot ∧ p.1.fid = some ((fid + f : Nat) : Int) ∧
          gainRun cfg (tot.1, tot.2.1) (sums p.1) = .ok p.2 := by
      rintro p ⟨f, b', tot, h1, h2, h3, h4, h5⟩
      have he : fid + 1 + f = fid + (f + 1) := by omega
      rw [he] at h1 h4
      exact ⟨f + 1, b', tot, h1, by simpa using h2, h3, h4, h5⟩
    simp only [featLoopHost] at hcs
    simp only [featLoopGuest]
    cases hg : getAt valid fid with
    | error e => rw [hg] at hcs; cases hcs
    | ok v =>
      rw [hg] at hcs
      cases v with
      | false =>
        obtain ⟨L, l1, l2, l3⟩ := ih (fid + 1) cs hcs hs'
        exact ⟨L, l1, fun p hp => hshift p (l2 p hp), l3⟩
      | true =>
        simp only at hcs ⊢
        cases hl : bins.getLast? with
        | none =>
          rw [hl] at hcs
          obtain ⟨L, l1, l2, l3⟩ := ih (fid + 1) cs hcs hs'
          exact ⟨L, l1, fun p hp => hshift p (l2 p hp), l3⟩
        | some tot =>
          rw [hl] at hcs
          simp only at hcs ⊢
          have hv : valid[fid + 0]? = some true := by
            rw [Nat.add_zero]
            unfold getAt at hg
            cases hx : valid[fid]? with
            | none => rw [hx] at hg; cases hg
            | some x => rw [hx] at hg; simp only [Except.ok.injEq] at hg; rw [hg]
          by_cases hlt : tot.2.2 < cfg.minSample
          · rw [if_pos hlt] at hcs
            cases hcs
            exact ⟨[], rfl, by simp, fun _ => if_pos hlt⟩
          · rw [if_neg hlt] at hcs
            cases hm : featLoopHost cfg valid site (fid + 1) rest with
            | error e => rw [hm] at hcs; cases hcs
            | ok more =>
              rw [hm] at hcs
              simp only [bind, Except.bind, pure, Except.pure, Except.ok.injEq] at hcs
              subst hcs
              obtain ⟨L1, a1, a2, a3⟩ := binLoopGuest_eqR cfg fid tot 0 bins site
                (by simpa using hs 0 bins tot hv rfl hl (not_lt.mp hlt))
              obtain ⟨L2, b1, b2, b3⟩ := ih (fid + 1) more hm hs'
              refine ⟨L1 ++ L2, by rw [List.map_append, a1, b1], ?_, fun r => ?_⟩
              · intro p hp
                rcases List.mem_append.mp hp with hp | hp
                · have hmem : p.1 ∈ binLoopHost cfg site fid tot 0 bins := by
                    rw [← a1]; exact List.mem_map_of_mem hp
                  obtain ⟨b, c, _, _, _, e⟩ := (mem_binLoopHost ..).mp hmem
                  refine ⟨0, bins, tot, hv, rfl, hl, by rw [e]; simp, a2 p hp⟩
                · exact hshift p (b2 p hp)
              · rw [if_neg hlt, a3]
                simp only
                rw [b3, pick_append]

/-- What the guest proposes: the best of its splits by computed gain, or none. -/
def BestBy (cfg : Config) (V : Nat → Nat → Rat × Rat → Rat → Prop) (s : SplitInfo (Option Rat) Rat) : Prop :=
  s.site = .guest ∧
  ((s.fid = none ∧ s.bid = none ∧ s.gain = cfg.rnd (cfg.minImpurity - floatZero) ∧
      ∀ f b l x, V f b l x → x ≤ cfg.minImpurity) ∨
   ∃ (f b : Nat) (l : Rat × Rat), s.fid = some f ∧ s.bid = some b ∧ s.sumGrad = some l.1 ∧
      s.sumHess = some l.2 ∧ V f b l s.gain ∧ cfg.minImpurity < s.gain ∧
      ∀ f' b' l' x', V f' b' l' x' → x' ≤ s.gain)

theorem findSplitSingleGuest_okR (cfg : Config) (hz : cfg.rnd (cfg.minImpurity - floatZero) ≤ cfg.minImpurity)
    (valid : List Bool) (hist : List (List (HCell Rat))) (hv : hist.length ≤ valid.length) (cnt : Int)
    (hT : LastIs valid hist (fun c => c.2.2 = cnt))
    (hs : ∀ (f b : Nat) (bins : List (HCell Rat)) (tot c : HCell Rat), valid[f]? = some true → hist[f]? = some bins → bins[b]? = some c →
      bins.getLast? = some tot → cfg.minSample ≤ tot.2.2 → cfg.minLeaf ≤ c.2.2 →
      cfg.minLeaf ≤ tot.2.2 - c.2.2 → ∃ x, gainRun cfg (tot.1, tot.2.1) (c.1, c.2.1) = .ok x) :
    ∃ s, findSplitSingleGuest cfg valid hist = .ok s ∧ BestBy cfg (guestValues cfg valid hist) s := by
  obtain ⟨cs, h1, _, h3⟩ := featLoopHost_ok cfg valid .guest cnt 0 hist (by omega) (by
    intro f bins c ha hb hc
    rw [Nat.zero_add] at ha
    exact hT f bins c ha hb hc)
  obtain ⟨L, l1, l2, l3⟩ := featLoopGuest_eqR cfg valid .guest 0 hist cs h1 (by
    intro f bins tot ha hb hc hm s hmem
    rw [Nat.zero_add] at ha
    obtain ⟨b, c, e1, e2, e3, rfl⟩ := (mem_binLoopHost ..).mp hmem
    exact hs f b bins tot c ha hb e1 hc hm e2 e3)
  have hval : ∀ p ∈ L, ∃ f b l, guestValues cfg valid hist f b l p.2 ∧
      p.1 = ⟨.guest, some (f : Int), some (b : Int), l.1, l.2, ()⟩ := by
    intro p hp
    have hin : p.1 ∈ cs := by rw [← l1]; exact List.mem_map_of_mem hp
    obtain ⟨f, b, bins, tot, c, a1, a2, a3, a4, a5, a6, a7, a8⟩ := (h3 p.1).mp hin
    obtain ⟨f', bins', tot', b1, b2, b3, b4, b5⟩ := l2 p hp
    rw [Nat.zero_add] at a1 a8 b1 b4
    rw [a8] at b4 b5
    simp only [Option.some.injEq, Nat.cast_inj] at b4
    subst b4
    rw [a2, Option.some.injEq] at b2
    subst b2
    rw [a4, Option.some.injEq] at b3
    subst b3
    exact ⟨f, b, (c.1, c.2.1), ⟨bins, tot, c, a1, a2, a3, a4, a5, a6, a7, rfl, b5⟩, a8⟩
  have hback : ∀ f b l x, guestValues cfg valid hist f b l x → ∃ p ∈ L, p.2 = x := by
    rintro f b l x ⟨bins, tot, c, a1, a2, a3, a4, a5, a6, a7, rfl, a9⟩
    have hin : (⟨.guest, some (f : Int), some (b : Int), c.1, c.2.1, ()⟩ : SplitInfo Rat Unit) ∈ cs :=
      (h3 _).mpr ⟨f, b, bins, tot, c, by rw [Nat.zero_add]; exact a1, a2, a3, a4, a5, a6, a7,
        by rw [Nat.zero_add]⟩
    rw [← l1] at hin
    obtain ⟨p, hp, e⟩ := List.mem_map.mp hin
    obtain ⟨f', bins', tot', b1, b2, b3, b4, b5⟩ := l2 p hp
    rw [Nat.zero_add] at b1 b4
    rw [e] at b4 b5
    simp only [Option.some.injEq, Nat.cast_inj] at b4
    subst b4
    rw [a2, Option.some.injEq] at b2
    subst b2
    rw [a4, Option.some.injEq] at b3
    subst b3
    have b5' : gainRun cfg (tot.1, tot.2.1) (c.1, c.2.1) = .ok p.2 := b5
    rw [a9, Except.ok.injEq] at b5'
    exact ⟨p, hp, b5'.symm⟩
  have hrun := l3 (none, cfg.rnd (cfg.minImpurity - floatZero))
  rcases pick_spec cfg.minImpurity (cfg.rnd (cfg.minImpurity - floatZero)) hz L with
    ⟨p1, p2⟩ | ⟨m1, k, g, m2, p1, p2, p3, p4, p5⟩
  · rw [p1] at hrun
    refine ⟨⟨.guest, none, none, none, none, cfg.rnd (cfg.minImpurity - floatZero)⟩, ?_, ?_⟩
    · unfold findSplitSingleGuest
      rw [show (⟨cfg.rnd (cfg.minImpurity - floatZero), none, none, none, none⟩ : Best) =
        bestOf (none, cfg.rnd (cfg.minImpurity - floatZero)) from rfl, hrun]
      rfl
    · refine ⟨rfl, .inl ⟨rfl, rfl, rfl, fun f b l x hx => ?_⟩⟩
      obtain ⟨p, hp, rfl⟩ := hback f b l x hx
      exact p2 p hp
  · rw [p2] at hrun
    refine ⟨⟨.guest, k.fid, k.bid, some k.sumGrad, some k.sumHess, g⟩, ?_, ?_⟩
    · unfold findSplitSingleGuest
      rw [show (⟨cfg.rnd (cfg.minImpurity - floatZero), none, none, none, none⟩ : Best) =
        bestOf (none, cfg.rnd (cfg.minImpurity - floatZero)) from rfl, hrun]
      rfl
    · obtain ⟨f, b, l, v1, v2⟩ := hval (k, g) (by rw [p1]; simp)
      simp only at v1 v2
      subst v2
      refine ⟨rfl, .inr ⟨f, b, l, rfl, rfl, rfl, rfl, v1, p3, fun f' b' l' x' hx' => ?_⟩⟩
      obtain ⟨p, hp, rfl⟩ := hback f' b' l' x' hx'
      rw [p1] at hp
      rcases List.mem_append.mp hp with hp | hp
      · exact le_of_lt (p4 p hp)
      · rcases List.mem_cons.mp hp with rfl | hp
        · exact le_rfl
        · exact p5 p hp

/-! ## Hosts -/

theorem hostScan_eqR (cfg : Config) (C : Cipher α) (node : Rat × Rat) (i : Nat)
    (es : List (SplitInfo α Unit)) (cs : List (SplitInfo Rat Unit))
    (h : List.Forall₂ (CandRel C) es cs) (hs : ∀ c ∈ cs, ∃ x, gainRun cfg node (sums c) = .ok x) :
    ∃ L : List (Nat × Rat),
      (∀ k v, (k, v) ∈ L ↔ ∃ n c, k = i + n ∧ cs[n]? = some c ∧ gainRun cfg node (sums c) = .ok v) ∧
      ∀ r : Option Nat × Rat,
        hostScan cfg C node.1 node.2 i (es.map fun c => (c.sumGrad, c.sumHess)) (idxOf r.1, r.2) =
          .ok (idxOf (pick cfg.minImpurity L r).1, (pick cfg.minImpurity L r).2) := by
  induction h generalizing i with
  | nil => exact ⟨[], by simp, fun _ => rfl⟩
  | cons hx _ ih =>
    rename_i e c es cs _
    obtain ⟨_, _, _, h4, h5⟩ := hx
    obtain ⟨x, hx⟩ := hs c (by simp)
    obtain ⟨L, l1, l2⟩ := ih (i + 1) (fun c' hc' => hs c' (by simp [hc']))
    refine ⟨(i, x) :: L, fun k v => ?_, fun r => ?_⟩
    · rw [List.mem_cons, l1, Prod.mk.injEq]
      constructor
      · rintro (⟨rfl, rfl⟩ | ⟨n, c', rfl, h2, h3⟩)
        · exact ⟨0, c, rfl, rfl, hx⟩
        · exact ⟨n + 1, c', by omega, by simpa using h2, h3⟩
      · rintro ⟨n, c', rfl, h2, h3⟩
        cases n with
        | zero =>
          simp only [List.getElem?_cons_zero, Option.some.injEq] at h2; subst h2
          rw [hx, Except.ok.injEq] at h3
          left; exact ⟨rfl, h3.symm⟩
        | succ n => right; exact ⟨n, c', by omega, by simpa using h2, h3⟩
    · have hx' : splitGain cfg.rnd cfg.regLambda node.1 node.2 c.sumGrad c.sumHess
          (cfg.rnd (node.1 - c.sumGrad)) (cfg.rnd (node.2 - c.sumHess)) = .ok x := hx
      simp only [List.map_cons, hostScan, h4, h5, hx', pick]
      by_cases hc : x > cfg.minImpurity ∧ x > r.2
      · refine (if_pos hc).trans (Eq.trans ?_ (congrArg (fun z : Option Nat × Rat =>
          Except.ok (idxOf z.1, z.2)) (if_pos hc).symm))
        exact l2 (some i, x)
      · refine (if_neg hc).trans (Eq.trans ?_ (congrArg (fun z : Option Nat × Rat =>
          Except.ok (idxOf z.1, z.2)) (if_neg hc).symm))
        exact l2 r

/-- What a host proposes for a node, by computed gains. -/
def ProposalBy (cfg : Config) (C : Cipher α) (δ B : Rat) (site : Site)
    (V : Nat → Nat → Rat × Rat → Rat → Prop) (info : SplitInfo α α) (bid : Option Int) : Prop :=
  info.site = site ∧ ∃ y, C.dec info.gain = .ok y ∧
  ((|y - cfg.rnd (cfg.minImpurity - floatZero)| ≤ δ ∧ |cfg.rnd (cfg.minImpurity - floatZero)| ≤ B ∧
      ∀ f b l x, V f b l x → x ≤ cfg.minImpurity) ∨
   ∃ (f b : Nat) (l : Rat × Rat) (x : Rat), info.fid = some f ∧ info.bid = none ∧ bid = some (b : Int) ∧
    C.dec info.sumGrad = .ok l.1 ∧ C.dec info.sumHess = .ok l.2 ∧ |y - x| ≤ δ ∧ |x| ≤ B ∧
    V f b l x ∧ cfg.minImpurity < x ∧ ∀ f' b' l' x', V f' b' l' x' → x' ≤ x)

/-- What is assumed about a host's histogram `E` of a node: it is read as `D`, and gains can be
computed. -/
structure NodeRead (cfg : Config) (C : Cipher α) (B : Rat) (valid : List Bool) (node : Rat × Rat)
    (E : List (List (HCell α))) (D : List (List (HCell Rat))) : Prop where
  reads : List.Forall₂ (List.Forall₂ (Readable C cfg.minLeaf)) E D
  covers : D.length ≤ valid.length
  count : ∃ cnt, LastIs valid D (fun c => c.2.2 = cnt)
  gains : ∀ f b c, Offered cfg valid D f b c → ∃ x, gainRun cfg node (c.1, c.2.1) = .ok x ∧ |x| ≤ B

theorem hostNode_okR (cfg : Config) (hz : cfg.rnd (cfg.minImpurity - floatZero) ≤ cfg.minImpurity)
    (C : Cipher α) (δ B : Rat) (hF : Faithful C δ B) (hB0 : |cfg.rnd (cfg.minImpurity - floatZero)| ≤ B)
    (label : Nat × Nat) (site : Site) (valid : List Bool) (node : Rat × Rat)
    (E : List (List (HCell α))) (D : List (List (HCell Rat))) (hN : NodeRead cfg C B valid node E D) :
    ∃ es best, featLoopHost cfg valid site 0 E = .ok es ∧
      findHostSplit cfg C label node (es.map fun c => (c.sumGrad, c.sumHess)) = .ok best ∧
      ∀ mask id, ∃ info mask', finalSplit C site mask id es best = .ok (info, mask') ∧
        (∀ id', id' ≠ id → Dict.get? mask' id' = Dict.get? mask id') ∧
        ProposalBy cfg C δ B site (hostValues cfg valid D node) info (Dict.get? mask' id) := by
  obtain ⟨cnt, hT⟩ := hN.count
  obtain ⟨rd, hF⟩ := hF
  obtain ⟨cs, h1, h2, h3⟩ := featLoopHost_ok cfg valid site cnt 0 D (by have := hN.covers; omega) (by
    intro f bins c ha hb hc
    rw [Nat.zero_add] at ha
    rw [hT f bins c ha hb hc])
  have hoff : ∀ s ∈ cs, ∃ (f b : Nat) (c : HCell Rat), Offered cfg valid D f b c ∧
      s = ⟨site, some (f : Int), some (b : Int), c.1, c.2.1, ()⟩ := by
    intro s hs
    obtain ⟨f, b, bins, tot, c, a1, a2, a3, a4, a5, a6, a7, a8⟩ := (h3 s).mp hs
    rw [Nat.zero_add] at a1 a8
    exact ⟨f, b, c, ⟨bins, tot, a1, a2, a3, a4, a5, a6, a7⟩, a8⟩
  have hmem : ∀ f b c, Offered cfg valid D f b c →
      (⟨site, some (f : Int), some (b : Int), c.1, c.2.1, ()⟩ : SplitInfo Rat Unit) ∈ cs := by
    rintro f b c ⟨bins, tot, a⟩
    apply (h3 _).mpr
    refine ⟨f, b, bins, tot, c, by rw [Nat.zero_add]; exact a.1, a.2.1, a.2.2.1, a.2.2.2.1,
      a.2.2.2.2.1, a.2.2.2.2.2.1, a.2.2.2.2.2.2, by rw [Nat.zero_add]⟩
  obtain ⟨es, e1, e2⟩ := featLoopHost_rel cfg C valid site 0 E D hN.reads cs h1
  obtain ⟨L, hL, hscan⟩ := hostScan_eqR cfg C node 0 es cs e2 (by
    intro s hs
    obtain ⟨f, b, c, ho, rfl⟩ := hoff s hs
    obtain ⟨x, hx, _⟩ := hN.gains f b c ho
    exact ⟨x, hx⟩)
  have hscan := hscan (none, cfg.rnd (cfg.minImpurity - floatZero))
  have hin : ∀ f b l x, hostValues cfg valid D node f b l x → ∃ k, (k, x) ∈ L := by
    rintro f b l x ⟨c, ho, rfl, hx⟩
    obtain ⟨n, hn⟩ := List.mem_iff_getElem?.mp (hmem f b c ho)
    exact ⟨0 + n, (hL _ _).mpr ⟨n, _, rfl, hn, hx⟩⟩
  rcases pick_spec cfg.minImpurity (cfg.rnd (cfg.minImpurity - floatZero)) hz L with
    ⟨p1, p2⟩ | ⟨l1, k, g, l2, p1, p2, p3, p4, p5⟩
  · rw [p1] at hscan
    obtain ⟨c, c1, c2, c3⟩ := hF label _ hB0
    refine ⟨es, (-1, c), e1, ?_, ?_⟩
    · unfold findHostSplit
      have : idxOf (none : Option Nat) = -1 := rfl
      simp only [this] at hscan
      rw [hscan]
      simp only [bind, Except.bind]
      rw [c1]
      rfl
    · intro mask id
      refine ⟨_, mask, rfl, fun _ _ => rfl, rfl, _, c2, .inl ⟨c3, hB0, ?_⟩⟩
      intro f b l x hx
      obtain ⟨k, hk⟩ := hin f b l x hx
      exact p2 _ hk
  · rw [p2] at hscan
    have hkm : (k, g) ∈ L := by rw [p1]; simp
    obtain ⟨n, c0, hk, hn, hg⟩ := (hL _ _).mp hkm
    rw [Nat.zero_add] at hk
    subst hk
    obtain ⟨f, b, c, ho, rfl⟩ := hoff c0 (List.mem_of_getElem? hn)
    have hg : gainRun cfg node (c.1, c.2.1) = .ok g := hg
    have hgB : |g| ≤ B := by
      obtain ⟨x, hx, hb⟩ := hN.gains f b c ho
      rw [hg, Except.ok.injEq] at hx
      rw [hx]; exact hb
    obtain ⟨ct, c1, c2, c3⟩ := hF label g hgB
    obtain ⟨en, en1, en2⟩ : ∃ en, es[k]? = some en ∧
        CandRel C en ⟨site, some (f : Int), some (b : Int), c.1, c.2.1, ()⟩ := by
      have hlen := e2.length_eq
      have hk1 : k < cs.length := by
        by_contra hc
        rw [List.getElem?_eq_none (by omega)] at hn
        cases hn
      refine ⟨es[k], List.getElem?_eq_getElem (by omega), ?_⟩
      have := (List.forall₂_iff_get.mp e2).2 k (by omega) hk1
      rw [List.getElem?_eq_getElem hk1, Option.some.injEq] at hn
      simp only [List.get_eq_getElem] at this
      rw [hn] at this
      exact this
    obtain ⟨r1, r2, r3, r4, r5⟩ := en2
    simp only at r1 r2 r3 r4 r5
    refine ⟨es, (k, ct), e1, ?_, ?_⟩
    · unfold findHostSplit
      have hi : idxOf (some k) = k := rfl
      have : idxOf (none : Option Nat) = -1 := rfl
      simp only [this, hi] at hscan
      rw [hscan]
      simp only [bind, Except.bind]
      rw [c1]
      rfl
    · intro mask id
      refine ⟨⟨site, some (f : Int), none, en.sumGrad, en.sumHess, ct⟩, Dict.set mask id b, ?_, ?_, rfl, _, c2,
        .inr ⟨f, b, (c.1, c.2.1), g, rfl, rfl, ?_, r4, r5, c3, hgB, ⟨c, ho, rfl, hg⟩, p3, ?_⟩⟩
      · unfold finalSplit
        rw [if_pos (by simp only; omega)]
        have : getAtInt es (k : Int) = .ok en := by
          unfold getAtInt getAt
          rw [if_pos (by omega), Int.toNat_natCast, en1]
        simp only [this, r1, r2, r3, ne_eq, not_true_eq_false, if_false]
      · intro id' hne
        rw [Dict.get?_set, if_neg (Ne.symm hne)]
      · rw [Dict.get?_set, if_pos rfl]
      · intro f' b' l' x' hx'
        obtain ⟨k', hk'⟩ := hin f' b' l' x' hx'
        rw [p1] at hk'
        rcases List.mem_append.mp hk' with h | h
        · exact le_of_lt (p4 _ h)
        · rcases List.mem_cons.mp h with h | h
          · exact le_of_eq (Prod.mk.inj h).2
          · exact p5 _ h

theorem hostLists_okR (cfg : Config) (hz : cfg.rnd (cfg.minImpurity - floatZero) ≤ cfg.minImpurity)
    (C : Cipher α) (δ B : Rat) (hF : Faithful C δ B) (hB0 : |cfg.rnd (cfg.minImpurity - floatZero)| ≤ B)
    (site : Site) (valid : List Bool) (j : Nat)
    (ids : List Nat) (hids : ids.Nodup) (sums : List (Rat × Rat)) (hists : Hist α)
    (hs : sums.length = ids.length) (hh : List.length hists = ids.length)
    (D : Nat → List (List (HCell Rat)))
    (hok : ∀ (i : Nat) node E, sums[i]? = some node → hists[i]? = some E →
      NodeRead cfg C B valid node E (D i)) (k : Nat) (mask : Dict Nat Int) :
    ∃ rs bests infos mask', evalList (findSplitSingleHost cfg valid site) hists = .ok rs ∧
      bestForHost cfg C j k sums (rs.map Prod.snd) = .ok bests ∧
      finalSplits C site mask ids (rs.map Prod.fst) bests = .ok (infos, mask') ∧
      infos.length = ids.length ∧
      (∀ id, id ∉ ids → Dict.get? mask' id = Dict.get? mask id) ∧
      ∀ (i : Nat) id node, ids[i]? = some id → sums[i]? = some node →
        ∃ info, infos[i]? = some info ∧ ProposalBy cfg C δ B site
          (hostValues cfg valid (D i) node) info (Dict.get? mask' id) := by
  induction ids generalizing sums hists D k mask with
  | nil =>
    have h1 := List.length_eq_zero_iff.mp hs
    have h2 := List.length_eq_zero_iff.mp hh
    subst h1; subst h2
    exact ⟨[], [], [], mask, rfl, rfl, rfl, rfl, fun _ _ => rfl, by simp⟩
  | cons id ids ih =>
    cases sums with
    | nil => simp at hs
    | cons node sums =>
      cases hists with
      | nil => simp at hh
      | cons E hists =>
        obtain ⟨es, best, n1, n2, n3⟩ := hostNode_okR cfg hz C δ B hF hB0 (j, k) site valid node E (D 0)
          (hok 0 node E rfl rfl)
        obtain ⟨info, mask1, m1, m2, m3⟩ := n3 mask id
        have hnd := List.nodup_cons.mp hids
        obtain ⟨rs, bests, infos, mask', a1, a2, a3, a4, a5, a6⟩ := ih hnd.2 sums hists
          (by simpa using hs) (by simpa using hh) (fun i => D (i + 1))
          (fun i node E h1 h2 => hok (i + 1) node E (by simpa using h1) (by simpa using h2)) (k + 1) mask1
        refine ⟨(es, es.map fun c => (c.sumGrad, c.sumHess)) :: rs, best :: bests, info :: infos, mask',
          ?_, ?_, ?_, by simp [a4], ?_, ?_⟩
        · simp only [evalList, findSplitSingleHost, n1, bind, Except.bind, pure, Except.pure, a1]
        · simp only [List.map_cons, bestForHost, n2, a2, bind, Except.bind, pure, Except.pure]
        · simp only [List.map_cons, finalSplits, m1, a3, bind, Except.bind, pure, Except.pure]
        · intro id' hne
          simp only [List.mem_cons, not_or] at hne
          rw [a5 id' hne.2, m2 id' hne.1]
        · intro i id' node' h1 h2
          cases i with
          | zero =>
            simp only [List.getElem?_cons_zero, Option.some.injEq] at h1 h2
            subst h1; subst h2
            refine ⟨info, rfl, ?_⟩
            rw [a5 id hnd.1]
            exact m3
          | succ i =>
            obtain ⟨info', b1, b2⟩ := a6 i id' node' (by simpa using h1) (by simpa using h2)
            exact ⟨info', by simpa using b1, b2⟩

theorem hostsBatch_okR (cfg : Config) (hz : cfg.rnd (cfg.minImpurity - floatZero) ≤ cfg.minImpurity)
    (C : Cipher α) (δ B : Rat) (hF : Faithful C δ B) (hB0 : |cfg.rnd (cfg.minImpurity - floatZero)| ≤ B)
    (ids : List Nat) (hids : ids.Nodup)
    (sums : List (Rat × Rat)) (hs : sums.length = ids.length) (hosts : List (HostSide α))
    (hh : ∀ H ∈ hosts, List.length H.hists = ids.length) (D : Nat → Nat → List (List (HCell Rat)))
    (hok : ∀ (j : Nat) H (i : Nat) node E, hosts[j]? = some H → sums[i]? = some node →
      H.hists[i]? = some E → NodeRead cfg C B H.valid node E (D j i)) (k : Nat) :
    ∃ rs, hostsBatch cfg C ids sums k hosts = .ok rs ∧ rs.length = hosts.length ∧
      ∀ (j : Nat) H, hosts[j]? = some H → ∃ infos mask', rs[j]? = some (infos, mask') ∧
        infos.length = ids.length ∧
        (∀ id, id ∉ ids → Dict.get? mask' id = Dict.get? H.mask id) ∧
        ∀ (i : Nat) id node, ids[i]? = some id → sums[i]? = some node →
          ∃ info, infos[i]? = some info ∧
            ProposalBy cfg C δ B (.host H.idx) (hostValues cfg H.valid (D j i) node) info
              (Dict.get? mask' id) := by
  induction hosts generalizing k D with
  | nil => exact ⟨[], rfl, rfl, by simp⟩
  | cons H hosts ih =>
    obtain ⟨rs0, bests, infos, mask', a1, a2, a3, a4, a5, a6⟩ := hostLists_okR cfg hz C δ B hF hB0
      (.host H.idx) H.valid k ids hids sums H.hists hs (hh H (by simp)) (D 0)
      (fun i node E h1 h2 => hok 0 H i node E rfl h1 h2) 0 H.mask
    obtain ⟨rs, b1, b2, b3⟩ := ih (fun H' h => hh H' (by simp [h])) (fun j => D (j + 1))
      (fun j H' i node E h1 h2 h3 => hok (j + 1) H' i node E (by simpa using h1) h2 h3) (k + 1)
    refine ⟨(infos, mask') :: rs, ?_, by simp [b2], ?_⟩
    · simp only [hostsBatch, hostBatch, findSplitHost, a1, a2, a3, b1, bind, Except.bind, pure, Except.pure]
    · intro j H' hj
      cases j with
      | zero =>
        simp only [List.getElem?_cons_zero, Option.some.injEq] at hj
        subst hj
        exact ⟨infos, mask', rfl, a4, a5, a6⟩
      | succ j =>
        obtain ⟨i', m', c1, c2⟩ := b3 j H' (by simpa using hj)
        exact ⟨i', m', by simpa using c1, c2⟩

/-! ## The guest's decision -/

/-- The decision for a node, by the gains `x` that were computed for the splits `V j f b l x` of the
parties. -/
def ChoiceBy (minImp δ ε : Rat) (V : Option Nat → Nat → Nat → Rat × Rat → Rat → Prop)
    (siteOf : Nat → Site) (bidAt : Nat → Option Int) (s : SplitInfo (Option Rat) Rat) : Prop :=
  (s.gain ≤ minImp ∧ ∀ j f b l x, V j f b l x → x ≤ minImp + δ + 2 * ε) ∨
  ∃ (j : Option Nat) (f b : Nat) (l : Rat × Rat) (x : Rat),
    s.site = (match j with | none => .guest | some i => siteOf i) ∧ s.fid = some (f : Int) ∧
    (j = none → s.bid = some (b : Int)) ∧ (∀ i, j = some i → bidAt i = some (b : Int)) ∧
    s.sumGrad = some l.1 ∧ s.sumHess = some l.2 ∧ V j f b l x ∧ |s.gain - x| ≤ δ ∧
    ∀ j' f' b' l' x', V j' f' b' l' x' → x' ≤ s.gain + floatZero + δ + ε

theorem findBestGuestHost_okR (cfg : Config) (C : Cipher α) (δ ε B M : Rat) (hδ0 : 0 ≤ δ) (hε : 0 ≤ ε)
    (hround : RoundsWithin cfg.rnd M ε) (hM : B + δ + floatZero ≤ M)
    (hm0 : |cfg.minImpurity - floatZero| ≤ M) (hsmall : δ + 3 * ε ≤ floatZero)
    (V : Option Nat → Nat → Nat → Rat × Rat → Rat → Prop) (siteOf : Nat → Site)
    (bidAt : Nat → Option Int) (guest : SplitInfo (Option Rat) Rat) (hg : BestBy cfg (V none) guest)
    (infos : List (SplitInfo α α)) (hne : infos ≠ [])
    (hno : ∀ j f b l x, V (some j) f b l x → j < infos.length)
    (hp : ∀ (j : Nat) info, infos[j]? = some info →
      ProposalBy cfg C δ B (siteOf j) (V (some j)) info (bidAt j)) :
    ∃ s, findBestGuestHost cfg.rnd C guest infos = .ok s ∧
      ChoiceBy cfg.minImpurity δ ε V siteOf bidAt s := by
  have hpos : (0 : Rat) < floatZero := by
    have : floatZero = 1 / 10 ^ 6 := rfl
    rw [this]; norm_num
  have hbase := abs_le.mp (hround _ hm0)
  have hdec : ∃ ys, List.Forall₂ (fun s y => C.dec s.gain = .ok y) infos ys := by
    clear hno hne
    induction infos generalizing V siteOf bidAt with
    | nil => exact ⟨[], .nil⟩
    | cons s ss ih =>
      obtain ⟨_, y, hy, _⟩ := hp 0 s rfl
      obtain ⟨ys, hys⟩ := ih (fun o => match o with | none => V none | some j => V (some (j + 1)))
        (fun j => siteOf (j + 1)) (fun j => bidAt (j + 1)) hg
        (fun j info h => hp (j + 1) info (by simpa using h))
      exact ⟨y :: ys, .cons hy hys⟩
  obtain ⟨ys, hys⟩ := hdec
  have hbound : ∀ (j : Nat) y, ys[j]? = some y → |y| ≤ B + δ ∧
      ∀ f b l x, V (some j) f b l x → x ≤ cfg.minImpurity ∨ x ≤ y + δ := by
    intro j y hy
    have hj : j < ys.length := by
      by_contra hc
      rw [List.getElem?_eq_none (by omega)] at hy
      cases hy
    have hj' : j < infos.length := by rw [hys.length_eq]; exact hj
    have hrel := (List.forall₂_iff_get.mp hys).2 j hj' hj
    simp only [List.get_eq_getElem] at hrel
    rw [List.getElem?_eq_getElem hj, Option.some.injEq] at hy
    rw [hy] at hrel
    obtain ⟨_, y', hy', h⟩ := hp j infos[j] (List.getElem?_eq_getElem hj')
    rw [hrel, Except.ok.injEq] at hy'
    subst hy'
    rcases h with ⟨h1, h2, h3⟩ | ⟨f, b, l, x, _, _, _, _, _, h6, h7, h8, _, h9⟩
    · refine ⟨?_, fun f b l x ho => .inl (h3 f b l x ho)⟩
      have := abs_sub_abs_le_abs_sub y (cfg.rnd (cfg.minImpurity - floatZero))
      linarith
    · refine ⟨?_, fun f' b' l' x' ho => .inr ?_⟩
      · have := abs_sub_abs_le_abs_sub y x
        linarith
      · have := h9 f' b' l' x' ho
        have := abs_le.mp h6
        linarith
  cases infos with
  | nil => exact (hne rfl).elim
  | cons s0 ss =>
    cases ys with
    | nil => cases hys
    | cons y0 ys =>
      have hy0 : C.dec s0.gain = .ok y0 := by cases hys; assumption
      obtain ⟨g, s, b1, b2, b3, b4⟩ := bestHost_ok C (s0 :: ss) (y0 :: ys) hys y0 s0
      have hmax : ∀ (j : Nat) y, (y0 :: ys)[j]? = some y → y ≤ g :=
        fun j y h => b3 y (List.mem_of_getElem? h)
      have hsel : ∃ j : Nat, (s0 :: ss)[j]? = some s ∧ (y0 :: ys)[j]? = some g := by
        rcases b4 with ⟨rfl, rfl⟩ | ⟨_, j, j1, j2, j3⟩
        · exact ⟨0, rfl, rfl⟩
        · exact ⟨j, j1, j2⟩
      have hother : ∀ j f b l x, V (some j) f b l x → x ≤ cfg.minImpurity ∨ x ≤ g + δ := by
        intro j f b l x ho
        have := hno j f b l x ho
        have hj : j < (y0 :: ys).length := by rw [← hys.length_eq]; exact this
        rcases (hbound j _ (List.getElem?_eq_getElem hj)).2 f b l x ho with h | h
        · exact .inl h
        · have := hmax j _ (List.getElem?_eq_getElem hj)
          exact .inr (by linarith)
      obtain ⟨j, j1, j2⟩ := hsel
      have hgB := (hbound j g j2).1
      have ht : |cfg.rnd (g - floatZero) - (g - floatZero)| ≤ ε := by
        apply hround
        rw [abs_le] at hgB ⊢
        constructor <;> linarith
      have ht := abs_le.mp ht
      simp only [findBestGuestHost, hy0, b1]
      obtain ⟨hg1, hg⟩ := hg
      by_cases hguest : guest.gain ≥ cfg.rnd (g - floatZero)
      · rw [if_pos hguest]
        refine ⟨guest, rfl, ?_⟩
        rcases hg with ⟨g1, g2, g3, g4⟩ | ⟨f, b, l, g1, g2, g3, g4, g5, g6, g7⟩
        · left
          refine ⟨by linarith, fun j f b l x ho => ?_⟩
          cases j with
          | none => have := g4 f b l x ho; linarith
          | some j =>
            rcases hother j f b l x ho with h | h <;> linarith
        · right
          refine ⟨none, f, b, l, guest.gain, hg1, g1, fun _ => g2, by simp, g3, g4, g5,
            by simpa using hδ0, fun j f' b' l' x' ho => ?_⟩
          cases j with
          | none => have := g7 f' b' l' x' ho; linarith
          | some j =>
            rcases hother j f' b' l' x' ho with h | h <;> linarith
      · rw [if_neg hguest]
        obtain ⟨q1, y, q2, q3⟩ := hp j s j1
        have hyg : y = g := by
          have hj : j < (y0 :: ys).length := by
            by_contra hc
            rw [List.getElem?_eq_none (by omega)] at j2
            cases j2
          have hj' : j < (s0 :: ss).length := by rw [hys.length_eq]; exact hj
          have hrel := (List.forall₂_iff_get.mp hys).2 j hj' hj
          simp only [List.get_eq_getElem] at hrel
          rw [List.getElem?_eq_getElem hj, Option.some.injEq] at j2
          rw [List.getElem?_eq_getElem hj', Option.some.injEq] at j1
          rw [j1, j2, q2, Except.ok.injEq] at hrel
          exact hrel
        subst hyg
        have hguest' : guest.gain < cfg.rnd (y - floatZero) := not_le.mp hguest
        have hglow : cfg.minImpurity - floatZero - ε ≤ guest.gain := by
          rcases hg with ⟨_, _, g3, _⟩ | ⟨_, _, _, _, _, _, _, _, g6, _⟩ <;> linarith
        rcases q3 with ⟨q3, _, _⟩ | ⟨f, b, l, x, f1, f2, f3, f4, f5, f6, f7, f8, f9, f10⟩
        · have := abs_le.mp q3
          linarith
        · simp only [f4, f5]
          refine ⟨_, rfl, .inr ⟨some j, f, b, l, x, q1, f1, by simp, ?_, rfl, rfl, f8, f6, ?_⟩⟩
          · intro i hi; rw [← Option.some.inj hi]; exact f3
          · have hab := abs_le.mp f6
            intro j' f' b' l' x' ho
            simp only
            cases j' with
            | none =>
              rcases hg with ⟨_, _, g3, g4⟩ | ⟨_, _, _, _, _, _, _, g5, g6, g7⟩
              · have := g4 f' b' l' x' ho; linarith
              · have := g7 f' b' l' x' ho; linarith
            | some j' =>
              rcases hother j' f' b' l' x' ho with h | h <;> linarith

theorem mergeLoop_okR (rnd : Rat → Rat) (C : Cipher α) (hosts : List (List (SplitInfo α α)))
    (P : Nat → SplitInfo (Option Rat) Rat → Prop) (i : Nat) (gs : List (SplitInfo (Option Rat) Rat))
    (h : ∀ (k : Nat) g, gs[k]? = some g → ∃ col s, column hosts (i + k) = .ok col ∧
      findBestGuestHost rnd C g col = .ok s ∧ P (i + k) s) :
    ∃ ss, mergeLoop rnd C hosts i gs = .ok ss ∧ ss.length = gs.length ∧
      ∀ (k : Nat) s, ss[k]? = some s → P (i + k) s := by
  induction gs generalizing i with
  | nil => exact ⟨[], rfl, rfl, by simp⟩
  | cons g gs ih =>
    obtain ⟨col, s, h1, h2, h3⟩ := h 0 g rfl
    rw [Nat.add_zero] at h1 h3
    obtain ⟨ss, a1, a2, a3⟩ := ih (i + 1) (fun k g' hk => by
      have := h (k + 1) g' (by simpa using hk)
      rwa [show i + (k + 1) = i + 1 + k by omega] at this)
    refine ⟨s :: ss, ?_, by simp [a2], ?_⟩
    · simp only [mergeLoop, h1, h2, a1, bind, Except.bind, pure, Except.pure]
    · intro k s' hk
      cases k with
      | zero =>
        simp only [List.getElem?_cons_zero, Option.some.injEq] at hk
        subst hk; rw [Nat.add_zero]; exact h3
      | succ k =>
        have := a3 k s' (by simpa using hk)
        rwa [show i + (k + 1) = i + 1 + k by omega]

theorem column_okR (hosts : List (List (SplitInfo α α))) (i : Nat)
    (h : ∀ l ∈ hosts, i < l.length) :
    ∃ col, column hosts i = .ok col ∧ col.length = hosts.length ∧
      ∀ (j : Nat) (l : List (SplitInfo α α)) (info : SplitInfo α α), hosts[j]? = some l → col[j]? = some info → l[i]? = some info := by
  induction hosts with
  | nil => exact ⟨[], rfl, rfl, by simp⟩
  | cons l hosts ih =>
    obtain ⟨col, a1, a2, a3⟩ := ih (fun l hl => h l (by simp [hl]))
    have hi := h l (by simp)
    refine ⟨l[i] :: col, ?_, by simp [a2], ?_⟩
    · unfold column at a1 ⊢
      simp only [evalList, getAt, List.getElem?_eq_getElem hi, bind, Except.bind, pure, Except.pure]
      simp only [getAt] at a1
      rw [a1]
    · intro j l' info h1 h2
      cases j with
      | zero =>
        simp only [List.getElem?_cons_zero, Option.some.injEq] at h1 h2
        subst h1; subst h2
        exact List.getElem?_eq_getElem hi
      | succ j => exact a3 j l' info (by simpa using h1) (by simpa using h2)

/-- The values of all parties for node number `i` of a batch. -/
def batchValues (cfg : Config) (valid : List Bool) (hists : Hist Rat) (hosts : List (HostSide α))
    (D : Nat → Nat → List (List (HCell Rat))) (i : Nat) (node : Rat × Rat) :
    Option Nat → Nat → Nat → Rat × Rat → Rat → Prop
  | none, f, b, l, x => ∃ hist, hists[i]? = some hist ∧ guestValues cfg valid hist f b l x
  | some j, f, b, l, x => ∃ H, hosts[j]? = some H ∧ hostValues cfg H.valid (D j i) node f b l x

/-- A batch of nodes. -/
theorem splitBatch_okR (cfg : Config) (C : Cipher α) (δ ε B M : Rat) (hδ0 : 0 ≤ δ) (hε : 0 ≤ ε)
    (hround : RoundsWithin cfg.rnd M ε) (hM : B + δ + floatZero ≤ M)
    (hm0 : |cfg.minImpurity - floatZero| ≤ M) (hB0 : |cfg.rnd (cfg.minImpurity - floatZero)| ≤ B)
    (hsmall : δ + 3 * ε ≤ floatZero) (hF : Faithful C δ B)
    (ids : List Nat) (hids : ids.Nodup) (sums : List (Rat × Rat)) (hs : sums.length = ids.length)
    (valid : List Bool) (hists : Hist Rat) (hhl : List.length hists = ids.length)
    (hguest : ∀ hist ∈ hists, hist.length ≤ valid.length ∧
      (∃ cnt, LastIs valid hist (fun c => c.2.2 = cnt)) ∧
      ∀ (f b : Nat) (bins : List (HCell Rat)) (tot c : HCell Rat), valid[f]? = some true → hist[f]? = some bins → bins[b]? = some c →
        bins.getLast? = some tot → cfg.minSample ≤ tot.2.2 → cfg.minLeaf ≤ c.2.2 →
        cfg.minLeaf ≤ tot.2.2 - c.2.2 → ∃ x, gainRun cfg (tot.1, tot.2.1) (c.1, c.2.1) = .ok x)
    (hosts : List (HostSide α)) (hne : hosts ≠ [])
    (hh : ∀ H ∈ hosts, List.length H.hists = ids.length) (D : Nat → Nat → List (List (HCell Rat)))
    (hok : ∀ (j : Nat) H (i : Nat) node E, hosts[j]? = some H → sums[i]? = some node →
      H.hists[i]? = some E → NodeRead cfg C B H.valid node E (D j i)) :
    ∃ ss masks, splitBatch cfg C ids sums valid hists hosts = .ok (ss, masks) ∧
      ss.length = ids.length ∧ masks.length = hosts.length ∧
      ∀ (i : Nat) id node s, ids[i]? = some id → sums[i]? = some node → ss[i]? = some s →
        ChoiceBy cfg.minImpurity δ ε (batchValues cfg valid hists hosts D i node)
          (fun j => .host ((hosts[j]?.map HostSide.idx).getD 0))
          (fun j => masks[j]?.bind fun m => Dict.get? m id) s := by
  have hpos : (0 : Rat) < floatZero := by
    have : floatZero = 1 / 10 ^ 6 := rfl
    rw [this]; norm_num
  have hz : cfg.rnd (cfg.minImpurity - floatZero) ≤ cfg.minImpurity := by
    have := (abs_le.mp (hround _ hm0)).2
    linarith
  obtain ⟨gs, g1, g2⟩ := evalList_ok (findSplitSingleGuest cfg valid)
    (fun hist s => BestBy cfg (guestValues cfg valid hist) s) hists (by
      intro hist hmem
      obtain ⟨a1, ⟨cnt, a2⟩, a3⟩ := hguest hist hmem
      exact findSplitSingleGuest_okR cfg hz valid hist a1 cnt a2 a3)
  obtain ⟨rs, r1, r2, r3⟩ := hostsBatch_okR cfg hz C δ B hF hB0 ids hids sums hs hosts hh D hok 0
  have hgl : gs.length = ids.length := by rw [← hhl]; exact g2.length_eq.symm
  have hrs : ∀ l ∈ rs.map Prod.fst, l.length = ids.length := by
    intro l hl
    obtain ⟨p, hp, rfl⟩ := List.mem_map.mp hl
    obtain ⟨j, hj, rfl⟩ := List.getElem_of_mem hp
    obtain ⟨infos, mask', c1, c2, _⟩ := r3 j hosts[j] (List.getElem?_eq_getElem (by omega))
    rw [List.getElem?_eq_getElem hj, Option.some.injEq] at c1
    rw [c1]; exact c2
  obtain ⟨ss, s1, s2, s3⟩ := mergeLoop_okR cfg.rnd C (rs.map Prod.fst)
    (fun i s => ∀ id node, ids[i]? = some id → sums[i]? = some node →
      ChoiceBy cfg.minImpurity δ ε (batchValues cfg valid hists hosts D i node)
          (fun j => .host ((hosts[j]?.map HostSide.idx).getD 0))
          (fun j => (rs.map Prod.snd)[j]?.bind fun m => Dict.get? m id) s) 0 gs (by
    intro i g hg
    rw [Nat.zero_add]
    have hi : i < ids.length := by
      rw [← hgl]
      exact (List.getElem?_eq_some_iff.mp hg).1
    obtain ⟨col, c1, c2, c3⟩ := column_okR (rs.map Prod.fst) i (fun l hl => by rw [hrs l hl]; exact hi)
    have hnode : sums[i]? = some sums[i] := List.getElem?_eq_getElem (by omega)
    have hid : ids[i]? = some ids[i] := List.getElem?_eq_getElem hi
    have hhist : hists[i]? = some (hists[i]'(by omega)) := List.getElem?_eq_getElem (by omega)
    have hbest : BestBy cfg (guestValues cfg valid (hists[i]'(by omega))) g := by
      have := (List.forall₂_iff_get.mp g2).2 i (by omega) (by omega)
      simp only [List.get_eq_getElem] at this
      rw [List.getElem?_eq_getElem (by omega), Option.some.injEq] at hg
      rw [hg] at this
      exact this
    have hcl : col.length = hosts.length := by rw [c2, List.length_map, r2]
    obtain ⟨s, d1, d2⟩ := findBestGuestHost_okR cfg C δ ε B M hδ0 hε hround hM hm0 hsmall
      (batchValues cfg valid hists hosts D i sums[i])
      (fun j => .host ((hosts[j]?.map HostSide.idx).getD 0))
      (fun j => (rs.map Prod.snd)[j]?.bind fun m => Dict.get? m ids[i]) g (by
        have e : batchValues cfg valid hists hosts D i sums[i] none =
            guestValues cfg valid (hists[i]'(by omega)) := by
          funext f b l x
          apply propext
          simp only [batchValues, hhist, Option.some.injEq]
          constructor
          · rintro ⟨_, rfl, h⟩; exact h
          · exact fun h => ⟨_, rfl, h⟩
        rw [e]; exact hbest) col (by
        intro hc
        rw [hc] at hcl
        exact hne (List.eq_nil_of_length_eq_zero hcl.symm)) (by
        rintro j f b l x ⟨H, hH, _⟩
        rw [hcl]
        exact (List.getElem?_eq_some_iff.mp hH).1) (by
        intro j info hj
        have hjl : j < hosts.length := by rw [← hcl]; exact (List.getElem?_eq_some_iff.mp hj).1
        obtain ⟨infos, mask', e1, e2, e3, e4⟩ := r3 j hosts[j] (List.getElem?_eq_getElem hjl)
        obtain ⟨info', f1, f2⟩ := e4 i ids[i] sums[i] hid hnode
        have hr1 : (rs.map Prod.fst)[j]? = some infos := by rw [List.getElem?_map, e1]; rfl
        have hr2 : (rs.map Prod.snd)[j]? = some mask' := by rw [List.getElem?_map, e1]; rfl
        have := c3 j infos info hr1 hj
        rw [f1, Option.some.injEq] at this
        subst this
        have e : batchValues cfg valid hists hosts D i sums[i] (some j) =
            hostValues cfg hosts[j].valid (D j i) sums[i] := by
          funext f b l x
          apply propext
          simp only [batchValues, List.getElem?_eq_getElem hjl, Option.some.injEq]
          constructor
          · rintro ⟨_, rfl, h⟩; exact h
          · exact fun h => ⟨_, rfl, h⟩
        rw [e, hr2, List.getElem?_eq_getElem hjl]
        exact f2)
    refine ⟨col, s, c1, d1, fun id node h1 h2 => ?_⟩
    rw [hid, Option.some.injEq] at h1
    rw [hnode, Option.some.injEq] at h2
    subst h1; subst h2
    exact d2)
  refine ⟨ss, rs.map Prod.snd, ?_, by rw [s2, hgl], by simp [r2], ?_⟩
  · simp only [splitBatch, findSplit, g1, r1, s1, bind, Except.bind, pure, Except.pure]
  · intro i id node s h1 h2 h3
    have := s3 i s h3
    rw [Nat.zero_add] at this
    exact this id node h1 h2

end DTree
end Verif
