import Verif.Lemmas.Splitter
import Verif.Lemmas.Dict
import Verif.Spec.C25

/-! # Lemmas about the federated choice of a split -/

set_option autoImplicit false

namespace Verif
namespace DTree

open Spec Histogram
open Quantile (floatZero)

variable {α : Type}

/-- An encrypted candidate and the plain candidate it stands for. -/
def CandRel (C : Cipher α) (e : SplitInfo α Unit) (p : SplitInfo Rat Unit) : Prop :=
  e.site = p.site ∧ e.fid = p.fid ∧ e.bid = p.bid ∧ C.dec e.sumGrad = .ok p.sumGrad ∧
    C.dec e.sumHess = .ok p.sumHess

theorem binLoopHost_rel (cfg : Config) (C : Cipher α) (site : Site) (fid : Nat) (te : HCell α)
    (tp : HCell Rat) (ht : te.2.2 = tp.2.2) (bid : Nat) (E : List (HCell α)) (P : List (HCell Rat))
    (h : List.Forall₂ (Readable C cfg.minLeaf) E P) :
    List.Forall₂ (CandRel C) (binLoopHost cfg site fid te bid E) (binLoopHost cfg site fid tp bid P) := by
  induction h generalizing bid with
  | nil => exact .nil
  | cons hx _ ih =>
    rename_i c p _ _ _
    simp only [binLoopHost]
    by_cases hc : c.2.2 ≥ cfg.minLeaf ∧ te.2.2 - c.2.2 ≥ cfg.minLeaf
    · rw [if_pos hc, if_pos (by rw [← hx.1, ← ht]; exact hc)]
      refine .cons ?_ (ih _)
      obtain ⟨a, b⟩ := hx.2 hc.1
      exact ⟨rfl, rfl, rfl, a, b⟩
    · rw [if_neg hc, if_neg (by rw [← hx.1, ← ht]; exact hc)]
      exact ih _

theorem forall₂_getLast? {β γ : Type} {R : β → γ → Prop} {l : List β} {l' : List γ}
    (h : List.Forall₂ R l l') :
    (l.getLast? = none ∧ l'.getLast? = none) ∨
      ∃ x y, l.getLast? = some x ∧ l'.getLast? = some y ∧ R x y := by
  induction h with
  | nil => left; exact ⟨rfl, rfl⟩
  | cons hx ht ih =>
    rename_i x y xs ys
    right
    rcases ih with ⟨h1, h2⟩ | ⟨a, b, h1, h2, h3⟩
    · rw [List.getLast?_eq_none_iff] at h1 h2
      subst h1; subst h2
      exact ⟨x, y, rfl, rfl, hx⟩
    · exact ⟨a, b, by rw [List.getLast?_cons, h1]; rfl, by rw [List.getLast?_cons, h2]; rfl, h3⟩

theorem featLoopHost_rel (cfg : Config) (C : Cipher α) (valid : List Bool) (site : Site) (fid : Nat)
    (E : List (List (HCell α))) (P : List (List (HCell Rat)))
    (h : List.Forall₂ (List.Forall₂ (Readable C cfg.minLeaf)) E P) (cs : List (SplitInfo Rat Unit))
    (hcs : featLoopHost cfg valid site fid P = .ok cs) :
    ∃ es, featLoopHost cfg valid site fid E = .ok es ∧ List.Forall₂ (CandRel C) es cs := by
  induction h generalizing fid cs with
  | nil => cases hcs; exact ⟨[], rfl, .nil⟩
  | cons hx _ ih =>
    rename_i e p _ _ _
    simp only [featLoopHost] at hcs ⊢
    cases hg : getAt valid fid with
    | error _ => rw [hg] at hcs; cases hcs
    | ok v =>
      rw [hg] at hcs
      cases v with
      | false => exact ih _ _ hcs
      | true =>
        simp only at hcs ⊢
        rcases forall₂_getLast? hx with ⟨h1, h2⟩ | ⟨te, tp, h1, h2, h3⟩
        · rw [h2] at hcs; rw [h1]; exact ih _ _ hcs
        · rw [h2] at hcs; rw [h1]
          simp only at hcs ⊢
          by_cases hlt : tp.2.2 < cfg.minSample
          · rw [if_pos hlt] at hcs
            rw [if_pos (by rw [h3.1]; exact hlt)]
            cases hcs
            exact ⟨[], rfl, .nil⟩
          · rw [if_neg hlt] at hcs
            rw [if_neg (by rw [h3.1]; exact hlt)]
            rename_i rest _
            cases hm : featLoopHost cfg valid site (fid + 1) rest with
            | error _ => rw [hm] at hcs; cases hcs
            | ok more =>
              rw [hm] at hcs
              simp only [bind, Except.bind, pure, Except.pure, Except.ok.injEq] at hcs
              subst hcs
              obtain ⟨es, e1, e2⟩ := ih _ _ hm
              refine ⟨_, by rw [e1]; rfl, ?_⟩
              exact List.rel_append (binLoopHost_rel cfg C site fid te tp h3.1 0 e p hx) e2

/-- The index the scan reports. -/
def idxOf : Option Nat → Int
  | none => -1
  | some i => i

/-- Positions with gains. -/
def indexed (lam : Rat) (node : Rat × Rat) : Nat → List (SplitInfo Rat Unit) → List (Nat × Rat)
  | _, [] => []
  | i, c :: cs => (i, gain lam node (sums c)) :: indexed lam node (i + 1) cs

theorem hostScan_eq (cfg : Config) [hx : cfg.Exact] (C : Cipher α) (node : Rat × Rat) (i : Nat)
    (es : List (SplitInfo α Unit)) (cs : List (SplitInfo Rat Unit))
    (h : List.Forall₂ (CandRel C) es cs) (hs : ∀ c ∈ cs, Safe cfg.regLambda node (sums c))
    (r : Option Nat × Rat) :
    hostScan cfg C node.1 node.2 i (es.map fun c => (c.sumGrad, c.sumHess)) (idxOf r.1, r.2) =
      .ok (idxOf (pick cfg.minImpurity (indexed cfg.regLambda node i cs) r).1,
        (pick cfg.minImpurity (indexed cfg.regLambda node i cs) r).2) := by
  induction h generalizing i r with
  | nil => rfl
  | cons hx _ ih =>
    rename_i e c _ _ _
    obtain ⟨_, _, _, h4, h5⟩ := hx
    have hg := splitGain_ok cfg.regLambda node (sums c) (hs c (by simp))
    simp only [sums] at hg
    simp only [List.map_cons, hostScan, h4, h5, hx.rnd_eq, id_eq, hg, indexed, pick]
    by_cases hc : gain cfg.regLambda node (sums c) > cfg.minImpurity ∧
        gain cfg.regLambda node (sums c) > r.2
    · refine (if_pos hc).trans (Eq.trans ?_ (congrArg (fun z : Option Nat × Rat =>
        Except.ok (idxOf z.1, z.2)) (if_pos hc).symm))
      exact ih (i + 1) (fun c' hc' => hs c' (by simp [hc'])) (some i, _)
    · refine (if_neg hc).trans (Eq.trans ?_ (congrArg (fun z : Option Nat × Rat =>
        Except.ok (idxOf z.1, z.2)) (if_neg hc).symm))
      exact ih (i + 1) (fun c' hc' => hs c' (by simp [hc'])) r

theorem indexed_get (lam : Rat) (node : Rat × Rat) (i : Nat) (cs : List (SplitInfo Rat Unit))
    (k : Nat) (v : Rat) :
    (k, v) ∈ indexed lam node i cs ↔ ∃ n c, k = i + n ∧ cs[n]? = some c ∧ v = gain lam node (sums c) := by
  induction cs generalizing i with
  | nil => simp [indexed]
  | cons c cs ih =>
    simp only [indexed, List.mem_cons, Prod.mk.injEq, ih]
    constructor
    · rintro (⟨rfl, rfl⟩ | ⟨n, c', rfl, h2, h3⟩)
      · exact ⟨0, c, rfl, rfl, rfl⟩
      · exact ⟨n + 1, c', by omega, by simpa using h2, h3⟩
    · rintro ⟨n, c', rfl, h2, h3⟩
      cases n with
      | zero => simp only [List.getElem?_cons_zero, Option.some.injEq] at h2; subst h2
                left; exact ⟨rfl, h3⟩
      | succ n => right; exact ⟨n, c', by omega, by simpa using h2, h3⟩

theorem indexed_sorted (lam : Rat) (node : Rat × Rat) (i : Nat) (cs : List (SplitInfo Rat Unit)) :
    (indexed lam node i cs).Pairwise (fun a b => a.1 < b.1) := by
  induction cs generalizing i with
  | nil => exact .nil
  | cons c cs ih =>
    refine .cons ?_ (ih _)
    rintro ⟨k, v⟩ h
    obtain ⟨n, _, rfl, _⟩ := (indexed_get ..).mp h
    simp only
    omega

/-- What a host tells the guest about a node: `info` is the proposal and `bid` the bin recorded
at the host; `offered` are the host's splits. -/
def Proposal (C : Cipher α) (rd : Rat → Rat) (lam minImp δ : Rat) (node : Rat × Rat) (site : Site)
    (offered : Nat → Nat → Rat × Rat → Prop) (info : SplitInfo α α) (bid : Option Int) : Prop :=
  info.site = site ∧ ∃ y, C.dec info.gain = .ok y ∧
  ((y = rd (minImp - floatZero) ∧ |y - (minImp - floatZero)| ≤ δ ∧ ∀ f b l, offered f b l → gain lam node l ≤ minImp) ∨
   ∃ (f b : Nat) (l : Rat × Rat), info.fid = some f ∧ info.bid = none ∧ bid = some (b : Int) ∧
    C.dec info.sumGrad = .ok l.1 ∧ C.dec info.sumHess = .ok l.2 ∧ y = rd (gain lam node l) ∧ |y - gain lam node l| ≤ δ ∧
    offered f b l ∧ minImp < gain lam node l ∧
    ∀ f' b' l', offered f' b' l' → gain lam node l' ≤ gain lam node l ∧
      (gain lam node l' = gain lam node l → f < f' ∨ (f = f' ∧ b ≤ b')))

theorem hostNode_ok (cfg : Config) [hx : cfg.Exact] (C : Cipher α) (rd : Rat → Rat) (δ B : Rat) (hF : FaithfulBy C rd δ B)
    (label : Nat × Nat) (site : Site) (valid : List Bool) (node : Rat × Rat) (cnt : Int)
    (E : List (List (HCell α))) (P : List (List (HCell Rat)))
    (hEP : List.Forall₂ (List.Forall₂ (Readable C cfg.minLeaf)) E P)
    (hv : P.length ≤ valid.length) (hT : LastIs valid P (fun c => c.2.2 = cnt))
    (hsafe : ∀ f b c, Offered cfg valid P f b c → Safe cfg.regLambda node (c.1, c.2.1))
    (hB0 : |cfg.minImpurity - floatZero| ≤ B)
    (hB : ∀ f b c, Offered cfg valid P f b c → |gain cfg.regLambda node (c.1, c.2.1)| ≤ B) :
    ∃ es best, featLoopHost cfg valid site 0 E = .ok es ∧
      findHostSplit cfg C label node (es.map fun c => (c.sumGrad, c.sumHess)) = .ok best ∧
      ∀ mask id, ∃ info mask', finalSplit C site mask id es best = .ok (info, mask') ∧
        (∀ id', id' ≠ id → Dict.get? mask' id' = Dict.get? mask id') ∧
        Proposal C rd cfg.regLambda cfg.minImpurity δ node site
          (fun f b l => ∃ c, Offered cfg valid P f b c ∧ l = (c.1, c.2.1)) info (Dict.get? mask' id) := by
  obtain ⟨cs, h1, h2, h3⟩ := featLoopHost_ok cfg valid site cnt 0 P (by omega) (by
    intro f bins c ha hb hc
    rw [Nat.zero_add] at ha
    rw [hT f bins c ha hb hc])
  have hoff : ∀ s ∈ cs, ∃ (f b : Nat) (c : HCell Rat), Offered cfg valid P f b c ∧
      s = ⟨site, some (f : Int), some (b : Int), c.1, c.2.1, ()⟩ := by
    intro s hs
    obtain ⟨f, b, bins, tot, c, a1, a2, a3, a4, a5, a6, a7, a8⟩ := (h3 s).mp hs
    rw [Nat.zero_add] at a1 a8
    exact ⟨f, b, c, ⟨bins, tot, a1, a2, a3, a4, a5, a6, a7⟩, a8⟩
  have hmem : ∀ f b c, Offered cfg valid P f b c →
      (⟨site, some (f : Int), some (b : Int), c.1, c.2.1, ()⟩ : SplitInfo Rat Unit) ∈ cs := by
    rintro f b c ⟨bins, tot, a⟩
    apply (h3 _).mpr
    refine ⟨f, b, bins, tot, c, by rw [Nat.zero_add]; exact a.1, a.2.1, a.2.2.1, a.2.2.2.1,
      a.2.2.2.2.1, a.2.2.2.2.2.1, a.2.2.2.2.2.2, by rw [Nat.zero_add]⟩
  obtain ⟨es, e1, e2⟩ := featLoopHost_rel cfg C valid site 0 E P hEP cs h1
  have hscan := hostScan_eq cfg C node 0 es cs e2 (by
    intro s hs
    obtain ⟨f, b, c, ho, rfl⟩ := hoff s hs
    exact hsafe f b c ho) (none, cfg.minImpurity - floatZero)
  have hpos : (0 : Rat) ≤ floatZero := by
    have : floatZero = 1 / 10 ^ 6 := rfl
    rw [this]; norm_num
  rcases pick_spec cfg.minImpurity (cfg.minImpurity - floatZero) (by linarith)
    (indexed cfg.regLambda node 0 cs) with ⟨p1, p2⟩ | ⟨l1, k, g, l2, p1, p2, p3, p4, p5⟩
  · rw [p1] at hscan
    obtain ⟨c, c1, c2, c3⟩ := hF label _ hB0
    refine ⟨es, (-1, c), e1, ?_, ?_⟩
    · unfold findHostSplit
      rw [hx.rnd_eq, id_eq]
      have : idxOf (none : Option Nat) = -1 := rfl
      simp only [this] at hscan
      rw [hscan]
      simp only [bind, Except.bind]
      rw [c1]
      rfl
    · intro mask id
      refine ⟨_, mask, rfl, fun _ _ => rfl, rfl, _, c2, .inl ⟨rfl, c3, ?_⟩⟩
      rintro f b l ⟨c', ho, rfl⟩
      obtain ⟨n, hn⟩ := List.mem_iff_getElem?.mp (hmem f b c' ho)
      exact p2 (0 + n, _) ((indexed_get ..).mpr ⟨n, _, rfl, hn, rfl⟩)
  · rw [p2] at hscan
    have hkm : (k, g) ∈ indexed cfg.regLambda node 0 cs := by rw [p1]; simp
    obtain ⟨n, c0, hk, hn, hg⟩ := (indexed_get ..).mp hkm
    rw [Nat.zero_add] at hk
    subst hk
    obtain ⟨f, b, c, ho, rfl⟩ := hoff c0 (List.mem_of_getElem? hn)
    have hgv : g = gain cfg.regLambda node (c.1, c.2.1) := hg
    obtain ⟨ct, c1, c2, c3⟩ := hF label g (by rw [hgv]; exact hB f b c ho)
    obtain ⟨en, en1, en2⟩ : ∃ en, es[k]? = some en ∧
        CandRel C en ⟨site, some (f : Int), some (b : Int), c.1, c.2.1, ()⟩ := by
      have hlen := e2.length_eq
      have hk1 : k < cs.length := by
        by_contra hc
        rw [List.getElem?_eq_none (by omega)] at hn
        cases hn
      refine ⟨es[k], List.getElem?_eq_getElem (by omega), ?_⟩
      have := (List.forall₂_iff_get.mp e2).2 k (by omega) hk1
      rw [List.getElem?_eq_getElem hk1, Option.some.injEq] at hn
      simp only [List.get_eq_getElem] at this
      rw [hn] at this
      exact this
    obtain ⟨r1, r2, r3, r4, r5⟩ := en2
    simp only at r1 r2 r3 r4 r5
    refine ⟨es, (k, ct), e1, ?_, ?_⟩
    · unfold findHostSplit
      rw [hx.rnd_eq, id_eq]
      have hi : idxOf (some k) = k := rfl
      have : idxOf (none : Option Nat) = -1 := rfl
      simp only [this, hi] at hscan
      rw [hscan]
      simp only [bind, Except.bind]
      rw [c1]
      rfl
    · intro mask id
      refine ⟨⟨site, some (f : Int), none, en.sumGrad, en.sumHess, ct⟩, Dict.set mask id b, ?_, ?_, rfl, _, c2,
        .inr ⟨f, b, (c.1, c.2.1), rfl, rfl, ?_, r4, r5, by rw [hgv], ?_, ⟨c, ho, rfl⟩, by rw [← hgv]; exact p3, ?_⟩⟩
      · unfold finalSplit
        rw [if_pos (by simp only; omega)]
        have : getAtInt es (k : Int) = .ok en := by
          unfold getAtInt getAt
          rw [if_pos (by omega), Int.toNat_natCast, en1]
        simp only [this, r1, r2, r3, ne_eq, not_true_eq_false, if_false]
      · intro id' hne
        rw [Dict.get?_set, if_neg (Ne.symm hne)]
      · rw [Dict.get?_set, if_pos rfl]
      · rw [← hgv]; exact c3
      · rintro f' b' l' ⟨c', ho', rfl⟩
        have hin := hmem f' b' c' ho'
        obtain ⟨n', hn'⟩ := List.mem_iff_getElem?.mp hin
        have hin' : (n', gain cfg.regLambda node (c'.1, c'.2.1)) ∈ indexed cfg.regLambda node 0 cs :=
          (indexed_get ..).mpr ⟨n', _, by omega, hn', rfl⟩
        rw [← hgv]
        have hsorted := indexed_sorted cfg.regLambda node 0 cs
        rw [p1] at hin' hsorted
        constructor
        · rcases List.mem_append.mp hin' with h | h
          · exact le_of_lt (p4 _ h)
          · rcases List.mem_cons.mp h with h | h
            · exact le_of_eq (Prod.mk.inj h).2
            · exact p5 _ h
        · intro heq
          have hkn : k ≤ n' := by
            rcases List.mem_append.mp hin' with h | h
            · have := p4 _ h
              simp only at this
              rw [heq] at this
              exact (lt_irrefl _ this).elim
            · rcases List.mem_cons.mp h with h | h
              · exact le_of_eq (Prod.mk.inj h).1.symm
              · rw [List.pairwise_append] at hsorted
                exact le_of_lt ((List.pairwise_cons.mp hsorted.2.1).1 _ h)
          rcases Nat.eq_or_lt_of_le hkn with h | h
          · subst h
            rw [hn, Option.some.injEq] at hn'
            simp only [SplitInfo.mk.injEq, Option.some.injEq, Nat.cast_inj] at hn'
            right; exact ⟨hn'.2.1, le_of_eq hn'.2.2.1⟩
          · have hl1 : k < cs.length := by
              by_contra hc
              rw [List.getElem?_eq_none (by omega)] at hn
              cases hn
            have hl2 : n' < cs.length := by
              by_contra hc
              rw [List.getElem?_eq_none (by omega)] at hn'
              cases hn'
            have hb := List.pairwise_iff_getElem.mp h2 k n' hl1 hl2 h
            rw [List.getElem?_eq_getElem hl1, Option.some.injEq] at hn
            rw [List.getElem?_eq_getElem hl2, Option.some.injEq] at hn'
            rw [hn, hn'] at hb
            obtain ⟨p, q, r, t, hp, hq, hr, ht, hlt⟩ := hb
            simp only [Option.some.injEq] at hp hq hr ht
            omega

theorem hostLists_ok (cfg : Config) [cfg.Exact] (C : Cipher α) (rd : Rat → Rat) (δ B : Rat) (hF : FaithfulBy C rd δ B)
    (hB0 : |cfg.minImpurity - floatZero| ≤ B) (site : Site) (valid : List Bool) (j : Nat)
    (ids : List Nat) (hids : ids.Nodup) (sums : List (Rat × Rat)) (hists : Hist α)
    (hs : sums.length = ids.length) (hh : List.length hists = ids.length)
    (P : Nat → List (List (HCell Rat)))
    (hok : ∀ (i : Nat) node E, sums[i]? = some node → hists[i]? = some E →
      NodeOk cfg C B valid node E (P i)) (k : Nat) (mask : Dict Nat Int) :
    ∃ rs bests infos mask', evalList (findSplitSingleHost cfg valid site) hists = .ok rs ∧
      bestForHost cfg C j k sums (rs.map Prod.snd) = .ok bests ∧
      finalSplits C site mask ids (rs.map Prod.fst) bests = .ok (infos, mask') ∧
      infos.length = ids.length ∧
      (∀ id, id ∉ ids → Dict.get? mask' id = Dict.get? mask id) ∧
      ∀ (i : Nat) id node, ids[i]? = some id → sums[i]? = some node →
        ∃ info, infos[i]? = some info ∧ Proposal C rd cfg.regLambda cfg.minImpurity δ node site
          (offersOf cfg valid (P i)) info (Dict.get? mask' id) := by
  induction ids generalizing sums hists P k mask with
  | nil =>
    have h1 := List.length_eq_zero_iff.mp hs
    have h2 := List.length_eq_zero_iff.mp hh
    subst h1; subst h2
    exact ⟨[], [], [], mask, rfl, rfl, rfl, rfl, fun _ _ => rfl, by simp⟩
  | cons id ids ih =>
    cases sums with
    | nil => simp at hs
    | cons node sums =>
      cases hists with
      | nil => simp at hh
      | cons E hists =>
        obtain ⟨cnt, hcnt⟩ := (hok 0 node E rfl rfl).count
        have hN := hok 0 node E rfl rfl
        obtain ⟨es, best, n1, n2, n3⟩ := hostNode_ok cfg C rd δ B hF (j, k) site valid node cnt E (P 0)
          hN.reads hN.covers hcnt hN.safe hB0 hN.bound
        obtain ⟨info, mask1, m1, m2, m3⟩ := n3 mask id
        have hnd := List.nodup_cons.mp hids
        obtain ⟨rs, bests, infos, mask', a1, a2, a3, a4, a5, a6⟩ := ih hnd.2 sums hists
          (by simpa using hs) (by simpa using hh) (fun i => P (i + 1))
          (fun i node E h1 h2 => hok (i + 1) node E (by simpa using h1) (by simpa using h2)) (k + 1) mask1
        refine ⟨(es, es.map fun c => (c.sumGrad, c.sumHess)) :: rs, best :: bests, info :: infos, mask',
          ?_, ?_, ?_, by simp [a4], ?_, ?_⟩
        · simp only [evalList, findSplitSingleHost, n1, bind, Except.bind, pure, Except.pure, a1]
        · simp only [List.map_cons, bestForHost, n2, a2, bind, Except.bind, pure, Except.pure]
        · simp only [List.map_cons, finalSplits, m1, a3, bind, Except.bind, pure, Except.pure]
        · intro id' hne
          simp only [List.mem_cons, not_or] at hne
          rw [a5 id' hne.2, m2 id' hne.1]
        · intro i id' node' h1 h2
          cases i with
          | zero =>
            simp only [List.getElem?_cons_zero, Option.some.injEq] at h1 h2
            subst h1; subst h2
            refine ⟨info, rfl, ?_⟩
            rw [a5 id hnd.1]
            exact m3
          | succ i =>
            obtain ⟨info', b1, b2⟩ := a6 i id' node' (by simpa using h1) (by simpa using h2)
            exact ⟨info', by simpa using b1, b2⟩

theorem hostBatch_ok (cfg : Config) [cfg.Exact] (C : Cipher α) (rd : Rat → Rat) (δ B : Rat) (hF : FaithfulBy C rd δ B)
    (hB0 : |cfg.minImpurity - floatZero| ≤ B) (ids : List Nat) (hids : ids.Nodup)
    (sums : List (Rat × Rat)) (hs : sums.length = ids.length) (j : Nat) (H : HostSide α)
    (hh : List.length H.hists = ids.length) (P : Nat → List (List (HCell Rat)))
    (hok : ∀ (i : Nat) node E, sums[i]? = some node → H.hists[i]? = some E →
      NodeOk cfg C B H.valid node E (P i)) :
    ∃ infos mask', hostBatch cfg C ids sums j H = .ok (infos, mask') ∧ infos.length = ids.length ∧
      (∀ id, id ∉ ids → Dict.get? mask' id = Dict.get? H.mask id) ∧
      ∀ (i : Nat) id node, ids[i]? = some id → sums[i]? = some node →
        ∃ info, infos[i]? = some info ∧ Proposal C rd cfg.regLambda cfg.minImpurity δ node (.host H.idx)
          (offersOf cfg H.valid (P i)) info (Dict.get? mask' id) := by
  obtain ⟨rs, bests, infos, mask', a1, a2, a3, a4, a5, a6⟩ := hostLists_ok cfg C rd δ B hF hB0
    (.host H.idx) H.valid j ids hids sums H.hists hs hh P hok 0 H.mask
  refine ⟨infos, mask', ?_, a4, a5, a6⟩
  simp only [hostBatch, findSplitHost, a1, bind, Except.bind, pure, Except.pure, a2, a3]

theorem hostsBatch_ok (cfg : Config) [cfg.Exact] (C : Cipher α) (rd : Rat → Rat) (δ B : Rat) (hF : FaithfulBy C rd δ B)
    (hB0 : |cfg.minImpurity - floatZero| ≤ B) (ids : List Nat) (hids : ids.Nodup)
    (sums : List (Rat × Rat)) (hs : sums.length = ids.length) (hosts : List (HostSide α))
    (hh : ∀ H ∈ hosts, List.length H.hists = ids.length) (P : Nat → Nat → List (List (HCell Rat)))
    (hok : ∀ (j : Nat) H (i : Nat) node E, hosts[j]? = some H → sums[i]? = some node →
      H.hists[i]? = some E → NodeOk cfg C B H.valid node E (P j i)) (k : Nat) :
    ∃ rs, hostsBatch cfg C ids sums k hosts = .ok rs ∧ rs.length = hosts.length ∧
      ∀ (j : Nat) H, hosts[j]? = some H → ∃ infos mask', rs[j]? = some (infos, mask') ∧
        infos.length = ids.length ∧
        (∀ id, id ∉ ids → Dict.get? mask' id = Dict.get? H.mask id) ∧
        ∀ (i : Nat) id node, ids[i]? = some id → sums[i]? = some node →
          ∃ info, infos[i]? = some info ∧
            Proposal C rd cfg.regLambda cfg.minImpurity δ node (.host H.idx)
              (offersOf cfg H.valid (P j i)) info (Dict.get? mask' id) := by
  induction hosts generalizing k P with
  | nil => exact ⟨[], rfl, rfl, by simp⟩
  | cons H hosts ih =>
    obtain ⟨infos, mask', a1, a2, a3, a4⟩ := hostBatch_ok cfg C rd δ B hF hB0 ids hids sums hs k H
      (hh H (by simp)) (P 0) (fun i node E h1 h2 => hok 0 H i node E rfl h1 h2)
    obtain ⟨rs, b1, b2, b3⟩ := ih (fun H' h => hh H' (by simp [h])) (fun j => P (j + 1))
      (fun j H' i node E h1 h2 h3 => hok (j + 1) H' i node E (by simpa using h1) h2 h3) (k + 1)
    refine ⟨(infos, mask') :: rs, ?_, by simp [b2], ?_⟩
    · simp only [hostsBatch, a1, b1, bind, Except.bind, pure, Except.pure]
    · intro j H' hj
      cases j with
      | zero =>
        simp only [List.getElem?_cons_zero, Option.some.injEq] at hj
        subst hj
        exact ⟨infos, mask', rfl, a2, a3, a4⟩
      | succ j =>
        obtain ⟨i', m', c1, c2⟩ := b3 j H' (by simpa using hj)
        exact ⟨i', m', by simpa using c1, c2⟩

/-- The best host: the first one with the largest decrypted gain. -/
theorem bestHost_ok (C : Cipher α) (ss : List (SplitInfo α α)) (ys : List Rat)
    (h : List.Forall₂ (fun s y => C.dec s.gain = .ok y) ss ys) (y0 : Rat) (s0 : SplitInfo α α) :
    ∃ g s, bestHost C ss (y0, s0) = .ok (g, s) ∧ y0 ≤ g ∧ (∀ y ∈ ys, y ≤ g) ∧
      ((g = y0 ∧ s = s0) ∨ (y0 < g ∧ ∃ j, ss[j]? = some s ∧ ys[j]? = some g ∧
        ∀ (j' : Nat) y, j' < j → ys[j']? = some y → y < g)) := by
  induction h generalizing y0 s0 with
  | nil => exact ⟨y0, s0, rfl, le_rfl, by simp, .inl ⟨rfl, rfl⟩⟩
  | cons hx _ ih =>
    rename_i s y ss ys _
    simp only [bestHost, hx]
    by_cases hlt : y0 < y
    · rw [if_pos hlt]
      obtain ⟨g, t, h1, h2, h3, h4⟩ := ih y s
      refine ⟨g, t, h1, le_trans (le_of_lt hlt) h2, ?_, .inr ⟨lt_of_lt_of_le hlt h2, ?_⟩⟩
      · intro z hz
        rcases List.mem_cons.mp hz with rfl | hz
        · exact h2
        · exact h3 z hz
      · rcases h4 with ⟨rfl, rfl⟩ | ⟨h4, j, j1, j2, j3⟩
        · exact ⟨0, rfl, rfl, by intro j' y' h; omega⟩
        · refine ⟨j + 1, by simpa using j1, by simpa using j2, ?_⟩
          intro j' y' hj' hy'
          cases j' with
          | zero => simp only [List.getElem?_cons_zero, Option.some.injEq] at hy'; subst hy'; exact h4
          | succ j' => exact j3 j' y' (by omega) (by simpa using hy')
    · rw [if_neg hlt]
      obtain ⟨g, t, h1, h2, h3, h4⟩ := ih y0 s0
      refine ⟨g, t, h1, h2, ?_, ?_⟩
      · intro z hz
        rcases List.mem_cons.mp hz with rfl | hz
        · exact le_trans (not_lt.mp hlt) h2
        · exact h3 z hz
      · rcases h4 with h4 | ⟨h4, j, j1, j2, j3⟩
        · exact .inl h4
        · refine .inr ⟨h4, j + 1, by simpa using j1, by simpa using j2, ?_⟩
          intro j' y' hj' hy'
          cases j' with
          | zero =>
            simp only [List.getElem?_cons_zero, Option.some.injEq] at hy'; subst hy'
            exact lt_of_le_of_lt (not_lt.mp hlt) h4
          | succ j' => exact j3 j' y' (by omega) (by simpa using hy')

/-- The guest's final decision for one node. -/
theorem findBestGuestHost_ok (C : Cipher α) (rd : Rat → Rat) (lam minImp δ : Rat) (hδ : δ ≤ floatZero)
    (own node : Rat × Rat) (offers : Offers) (siteOf : Nat → Site) (bidAt : Nat → Option Int)
    (guest : SplitInfo (Option Rat) Rat) (hg1 : guest.site = .guest)
    (hg : IsBest lam minImp own (offers none) guest) (infos : List (SplitInfo α α)) (hne : infos ≠ [])
    (hno : ∀ j f b l, offers (some j) f b l → j < infos.length)
    (hp : ∀ (j : Nat) info, infos[j]? = some info →
      Proposal C rd lam minImp δ node (siteOf j) (offers (some j)) info (bidAt j)) :
    ∃ s, findBestGuestHost id C guest infos = .ok s ∧
      FederatedChoiceBy (gainBy lam own node) minImp δ offers siteOf bidAt s := by
  unfold FederatedChoiceBy
  simp only [gainBy]
  have hfz : floatZero = 1 / 10 ^ 6 := rfl
  have hpos : (0 : Rat) < floatZero := by rw [hfz]; norm_num
  have hdec : ∃ ys, List.Forall₂ (fun s y => C.dec s.gain = .ok y) infos ys := by
    clear hno hne
    induction infos generalizing offers siteOf bidAt with
    | nil => exact ⟨[], .nil⟩
    | cons s ss ih =>
      obtain ⟨_, y, hy, _⟩ := hp 0 s rfl
      obtain ⟨ys, hys⟩ := ih (fun o => match o with | none => offers none | some j => offers (some (j + 1)))
        (fun j => siteOf (j + 1)) (fun j => bidAt (j + 1)) hg
        (fun j info h => hp (j + 1) info (by simpa using h))
      exact ⟨y :: ys, .cons hy hys⟩
  obtain ⟨ys, hys⟩ := hdec
  -- every offered split of host j is bounded by the decrypted gain of host j
  have hbound : ∀ (j : Nat) y, ys[j]? = some y → minImp - floatZero - δ ≤ y ∧
      ∀ f b l, offers (some j) f b l → gain lam node l ≤ minImp ∨ gain lam node l ≤ y + δ := by
    intro j y hy
    have hj : j < ys.length := by
      by_contra hc
      rw [List.getElem?_eq_none (by omega)] at hy
      cases hy
    have hj' : j < infos.length := by rw [hys.length_eq]; exact hj
    have hrel := (List.forall₂_iff_get.mp hys).2 j hj' hj
    simp only [List.get_eq_getElem] at hrel
    rw [List.getElem?_eq_getElem hj, Option.some.injEq] at hy
    rw [hy] at hrel
    obtain ⟨_, y', hy', h⟩ := hp j infos[j] (List.getElem?_eq_getElem hj')
    rw [hrel, Except.ok.injEq] at hy'
    subst hy'
    rcases h with ⟨_, h1, h2⟩ | ⟨f, b, l, _, _, _, _, _, _, h6, h7, h8, h9⟩
    · have := abs_le.mp h1
      exact ⟨by linarith, fun f b l ho => .inl (h2 f b l ho)⟩
    · have := abs_le.mp h6
      refine ⟨by linarith, fun f' b' l' ho => .inr ?_⟩
      have := (h9 f' b' l' ho).1
      linarith
  cases infos with
  | nil => exact (hne rfl).elim
  | cons s0 ss =>
    cases ys with
    | nil => cases hys
    | cons y0 ys =>
      have hy0 : C.dec s0.gain = .ok y0 := by cases hys; assumption
      obtain ⟨g, s, b1, b2, b3, b4⟩ := bestHost_ok C (s0 :: ss) (y0 :: ys) hys y0 s0
      have hmax : ∀ (j : Nat) y, (y0 :: ys)[j]? = some y → y ≤ g :=
        fun j y h => b3 y (List.mem_of_getElem? h)
      have hsel : ∃ j, (s0 :: ss)[j]? = some s ∧ (y0 :: ys)[j]? = some g ∧
          ∀ (j' : Nat) y, j' < j → (y0 :: ys)[j']? = some y → y < g := by
        rcases b4 with ⟨rfl, rfl⟩ | ⟨_, j, j1, j2, j3⟩
        · exact ⟨0, rfl, rfl, by intro j' y h; omega⟩
        · exact ⟨j, j1, j2, j3⟩
      have hother : ∀ j f b l, offers (some j) f b l →
          ∃ y, (y0 :: ys)[j]? = some y ∧ (gain lam node l ≤ minImp ∨ gain lam node l ≤ y + δ) := by
        intro j f b l ho
        have := hno j f b l ho
        have hj : j < (y0 :: ys).length := by rw [← hys.length_eq]; exact this
        exact ⟨_, List.getElem?_eq_getElem hj, (hbound j _ (List.getElem?_eq_getElem hj)).2 f b l ho⟩
      have hδ0 : 0 ≤ δ := by
        obtain ⟨_, y, _, h⟩ := hp 0 s0 rfl
        rcases h with ⟨_, h, _⟩ | ⟨_, _, _, _, _, _, _, _, _, h, _⟩ <;> exact le_trans (abs_nonneg _) h
      simp only [findBestGuestHost, hy0, b1, id_eq]
      by_cases hguest : guest.gain ≥ g - floatZero
      · rw [if_pos hguest]
        refine ⟨guest, rfl, ?_⟩
        rcases hg with ⟨g1, g2, g3, g4⟩ | ⟨f, b, l, g1, g2, g3, g4, g5, g6, g7, g8⟩
        · left
          refine ⟨hg1, g1, g2, by rw [g3, ← hfz]; linarith, g4, ?_⟩
          intro j f b l ho
          obtain ⟨y, hy, h⟩ := hother j f b l ho
          have := hmax j y hy
          rw [g3, ← hfz] at hguest
          rcases h with h | h <;> linarith
        · right; left
          rw [g5] at g7 g8
          refine ⟨f, b, l, hg1, g1, g2, g3, g4, g5, g6, g7, g8, ?_⟩
          intro j f' b' l' ho
          obtain ⟨y, hy, h⟩ := hother j f' b' l' ho
          have := hmax j y hy
          rw [← hfz]
          rw [g5] at hguest
          rcases h with h | h <;> linarith
      · rw [if_neg hguest]
        obtain ⟨j, j1, j2, j3⟩ := hsel
        obtain ⟨q1, y, q2, q3⟩ := hp j s j1
        have hyg : y = g := by
          have hj : j < (y0 :: ys).length := by
            by_contra hc
            rw [List.getElem?_eq_none (by omega)] at j2
            cases j2
          have hj' : j < (s0 :: ss).length := by rw [hys.length_eq]; exact hj
          have hrel := (List.forall₂_iff_get.mp hys).2 j hj' hj
          simp only [List.get_eq_getElem] at hrel
          rw [List.getElem?_eq_getElem hj, Option.some.injEq] at j2
          rw [List.getElem?_eq_getElem hj', Option.some.injEq] at j1
          rw [j1, j2, q2, Except.ok.injEq] at hrel
          exact hrel
        subst hyg
        have hguest' : guest.gain < y - floatZero := not_le.mp hguest
        have hglow : minImp - floatZero ≤ guest.gain := by
          rcases hg with ⟨_, _, g3, _⟩ | ⟨_, _, _, _, _, _, _, _, _, g7, _⟩
          · rw [g3, ← hfz]
          · linarith
        rcases q3 with ⟨_, q3, _⟩ | ⟨f, b, l, f1, f2, f3, f4, f5, f5', f6, f7, f8, f9⟩
        · have := abs_le.mp q3
          linarith
        · simp only [f4, f5]
          refine ⟨_, rfl, ?_⟩
          right; right
          have hab := abs_le.mp f6
          refine ⟨j, f, b, l, q1, f1, f2, f3, rfl, rfl, f6, f7, f8, ?_, ?_, f9⟩
          · intro f' b' l' ho
            rw [← hfz]
            rcases hg with ⟨_, _, g3, g4⟩ | ⟨_, _, _, _, _, _, _, g5, _, g7, g8⟩
            · exact .inl (g4 f' b' l' ho)
            · have := (g8 f' b' l' ho).1
              right
              constructor <;> linarith
          · intro j' f' b' l' ho
            obtain ⟨y', hy', h⟩ := hother j' f' b' l' ho
            constructor
            · have := hmax j' y' hy'
              rcases h with h | h <;> linarith
            · intro hlt
              have hlt' := j3 j' y' hlt hy'
              refine ⟨by rcases h with h | h <;> linarith, fun heq => ?_⟩
              by_contra hno'
              push Not at hno'
              have hj1 : j' < (s0 :: ss).length := by
                rw [hys.length_eq]
                by_contra hc
                rw [List.getElem?_eq_none (by omega)] at hy'
                cases hy'
              obtain ⟨_, z, z1, z2⟩ := hp j' _ (List.getElem?_eq_getElem hj1)
              have hz : z = y' := by
                have hj2 : j' < (y0 :: ys).length := by rw [← hys.length_eq]; exact hj1
                have hrel := (List.forall₂_iff_get.mp hys).2 j' hj1 hj2
                simp only [List.get_eq_getElem] at hrel
                rw [List.getElem?_eq_getElem hj2, Option.some.injEq] at hy'
                rw [hy', z1, Except.ok.injEq] at hrel
                exact hrel
              rcases z2 with ⟨_, _, z2⟩ | ⟨f2, b2, l2, _, _, _, _, _, z3, _, z4, _, z5⟩
              · have := z2 f' b' l' ho
                linarith
              · have e1 := (z5 f' b' l' ho).1
                have e2 := hno' f2 b2 l2 z4
                have e3 : gain lam node l2 = gain lam node l := le_antisymm e2 (by linarith)
                rw [e3] at z3
                rw [← hz, z3, ← f5'] at hlt'
                exact lt_irrefl _ hlt'

end DTree
end Verif
