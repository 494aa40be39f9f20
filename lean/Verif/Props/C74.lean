import Verif.Lemmas.Numpy
import Verif.Props.C24

/-!
# C74: division by zero with numpy floats

The guest's sums are numpy floats: a division by zero (λ = 0 and a zero sum of hessians) gives an
infinity or NaN, not an exception.
-/

set_option autoImplicit false

namespace Verif

open DTree Spec Histogram

/-- **Where nothing is divided by zero, the two models agree**: if the search in rational numbers
(with any rounding) returns a split, the search in floats returns the same. -/
theorem C74_agrees (cfg : Config) (valid : List Bool) (hist : List (List (HCell Rat)))
    (s : SplitInfo (Option Rat) Rat) (h : findSplitSingleGuest cfg valid hist = .ok s) :
    findSplitNp (fun x => .fin (cfg.rnd x)) cfg valid (finHist hist) =
      .ok ⟨s.site, s.fid, s.bid, s.sumGrad.map .fin, s.sumHess.map .fin, .fin s.gain⟩ := by
  unfold findSplitSingleGuest at h
  simp only [bind, Except.bind] at h
  split at h; · cases h
  rename_i b hb
  cases h
  have := featLoopNp_fin cfg valid 0 hist _ b hb
  unfold findSplitNp
  rw [show (⟨.fin (cfg.rnd (cfg.minImpurity - Quantile.floatZero)), none, none, none, none⟩ : BestNp) =
    Best.np ⟨cfg.rnd (cfg.minImpurity - Quantile.floatZero), none, none, none, none⟩ from rfl, this]
  rfl

/-- **The search never raises**, whatever the numbers in the histogram (infinities and NaN
included) and the rounding. -/
theorem C74_total (R : Rat → Np) (cfg : Config) (valid : List Bool) (hist : List (List (HCell Np)))
    (hv : hist.length ≤ valid.length) : ∃ s, findSplitNp R cfg valid hist = .ok s := by
  obtain ⟨r, hr⟩ := featLoopNp_total R cfg valid 0 hist
    ⟨R (cfg.minImpurity - Quantile.floatZero), none, none, none, none⟩ (by omega)
  unfold findSplitNp
  rw [hr]
  exact ⟨_, rfl⟩

/-- **The search returns the best split with a defined gain.**  Infinite gains count as larger than
all others; splits whose gain is undefined (NaN) are passed over. -/
theorem C74_best (cfg : Config) (valid : List Bool) (hist : List (List (HCell Rat)))
    (hv : hist.length ≤ valid.length) (node : Rat × Rat) (cnt : Int)
    (hT : LastIs valid hist (fun c => c = (node.1, node.2, cnt))) :
    ∃ s, findSplitNp .fin cfg valid (finHist hist) = .ok s ∧ s.site = .guest ∧
      IsBestExt cfg.regLambda cfg.minImpurity node
        (fun f b l => ∃ c, Offered cfg valid hist f b c ∧ l = (c.1, c.2.1)) s := by
  have hget : ∀ (f : Nat) (bins : List (HCell Np)), (finHist hist)[f]? = some bins →
      ∃ bs, hist[f]? = some bs ∧ bins = bs.map fun c => (.fin c.1, .fin c.2.1, c.2.2) := by
    intro f bins h
    simp only [finHist, List.getElem?_map, Option.map_eq_some_iff] at h
    obtain ⟨bs, h1, h2⟩ := h
    exact ⟨bs, h1, h2.symm⟩
  have hlast : ∀ (f : Nat) bins c, valid[0 + f]? = some true → (finHist hist)[f]? = some bins →
      bins.getLast? = some c → c = (.fin node.1, .fin node.2, cnt) := by
    intro f bins c ha hb hc
    rw [Nat.zero_add] at ha
    obtain ⟨bs, h1, rfl⟩ := hget f bins hb
    rw [List.getLast?_map, Option.map_eq_some_iff] at hc
    obtain ⟨c', h2, rfl⟩ := hc
    rw [hT f bs c' ha h1 h2]
  obtain ⟨cs, h1, h2, h3⟩ := featLoopHost_ok cfg valid .guest cnt 0 (finHist hist)
    (by simp only [finHist, List.length_map]; omega) (by
    intro f bins c ha hb hc
    rw [hlast f bins c ha hb hc])
  have hoff : ∀ s ∈ cs, ∃ (f b : Nat) (c : HCell Rat), Offered cfg valid hist f b c ∧
      s = ⟨.guest, some (f : Int), some (b : Int), .fin c.1, .fin c.2.1, ()⟩ := by
    intro s hs
    obtain ⟨f, b, bins, tot, c, a1, a2, a3, a4, a5, a6, a7, a8⟩ := (h3 s).mp hs
    rw [Nat.zero_add] at a1 a8
    obtain ⟨bs, e1, rfl⟩ := hget f bins a2
    rw [List.getElem?_map, Option.map_eq_some_iff] at a3
    obtain ⟨c', e2, rfl⟩ := a3
    rw [List.getLast?_map, Option.map_eq_some_iff] at a4
    obtain ⟨t', e3, rfl⟩ := a4
    exact ⟨f, b, c', ⟨bs, t', a1, e1, e2, e3, a5, a6, a7⟩, a8⟩
  have hmem : ∀ f b c, Offered cfg valid hist f b c →
      (⟨.guest, some (f : Int), some (b : Int), .fin c.1, .fin c.2.1, ()⟩ : SplitInfo Np Unit) ∈ cs := by
    rintro f b c ⟨bins, tot, a1, a2, a3, a4, a5, a6, a7⟩
    apply (h3 _).mpr
    refine ⟨f, b, bins.map fun c => (.fin c.1, .fin c.2.1, c.2.2), (.fin tot.1, .fin tot.2.1, tot.2.2),
      (.fin c.1, .fin c.2.1, c.2.2), by rw [Nat.zero_add]; exact a1, ?_, ?_, ?_, a5, a6, a7,
      by rw [Nat.zero_add]⟩
    · simp [finHist, a2]
    · simp [a3]
    · simp [a4]
  have hrun := featLoopNp_eq .fin cfg valid .guest (.fin node.1, .fin node.2) 0 (finHist hist)
    (none, .fin (cfg.minImpurity - Quantile.floatZero)) (by
      intro f bins c ha hb hc
      rw [hlast f bins c ha hb hc]) cs h1
  have hfz : Quantile.floatZero = 1 / 10 ^ 6 := rfl
  have hpos : (0 : Rat) ≤ Quantile.floatZero := by rw [hfz]; norm_num
  have hval : ∀ f b (c : HCell Rat), extValue (candGainNp .fin cfg.regLambda (.fin node.1, .fin node.2)
      ⟨.guest, some (f : Int), some (b : Int), .fin c.1, .fin c.2.1, ()⟩) =
        gainExt cfg.regLambda node (c.1, c.2.1) := by
    intro f b c
    exact candGainNp_value cfg.regLambda node (c.1, c.2.1) .guest _ _
  set G : SplitInfo Np Unit → SplitInfo Np Unit × Np :=
    fun s => (s, candGainNp .fin cfg.regLambda (.fin node.1, .fin node.2) s) with hG
  set r := pickNp cfg.minImpurity (cs.map G) (none, .fin (cfg.minImpurity - Quantile.floatZero)) with hr
  refine ⟨⟨.guest, (bestOfNp r).fid, (bestOfNp r).bid, (bestOfNp r).sumGrad, (bestOfNp r).sumHess,
    (bestOfNp r).gain⟩, ?_, rfl, ?_⟩
  · unfold findSplitNp
    have hb0 : (⟨.fin (cfg.minImpurity - Quantile.floatZero), none, none, none, none⟩ : BestNp) =
      bestOfNp (none, .fin (cfg.minImpurity - Quantile.floatZero)) := rfl
    rw [hb0, hrun]
    rfl
  · rcases pickNp_spec cfg.minImpurity (cfg.minImpurity - Quantile.floatZero) (by linarith)
      (cs.map G) with ⟨e1, e2⟩ | ⟨l1, x, g, w, l2, e1, e2, e6, e3, e4, e5⟩
    · left
      rw [hr, e1]
      refine ⟨rfl, rfl, ?_⟩
      rintro f b l v ⟨c, hc, rfl⟩ hv
      exact e2 _ (List.mem_map.mpr ⟨_, hmem f b c hc, rfl⟩) v ((hval f b c).trans hv)
    · right
      rw [hr, e2]
      obtain ⟨m1, m2', hm, hm1, hm2⟩ := List.map_eq_append_iff.mp e1
      obtain ⟨x', m2, rfl, hx, hm3⟩ := List.map_eq_cons_iff.mp hm2
      simp only [hG, Prod.mk.injEq] at hx
      obtain ⟨rfl, rfl⟩ := hx
      have hxm : x' ∈ cs := by rw [hm]; simp
      obtain ⟨f, b, c, ho, rfl⟩ := hoff _ hxm
      refine ⟨f, b, (c.1, c.2.1), w, rfl, rfl, rfl, rfl, e6, ?_, ⟨c, ho, rfl⟩, e3, ?_⟩
      · rw [← hval f b c]; exact e6
      rintro f' b' l' v ⟨c', ho', rfl⟩ hv'
      have hin := hmem f' b' c' ho'
      have hin' : G ⟨.guest, some (f' : Int), some (b' : Int), .fin c'.1, .fin c'.2.1, ()⟩ ∈ cs.map G :=
        List.mem_map.mpr ⟨_, hin, rfl⟩
      have hv2 := (hval f' b' c').trans hv'
      constructor
      · rw [e1] at hin'
        rcases List.mem_append.mp hin' with h | h
        · exact le_of_lt (e4 _ h v hv2)
        · rcases List.mem_cons.mp h with h | h
          · have h7 := congrArg (fun p => extValue p.2) h
            simp only [hG, hv2, e6, Option.some.injEq] at h7
            exact le_of_eq h7
          · exact e5 _ h v hv2
      · intro heq
        rcases sorted_pick h2 hm hin (by
          intro hc
          have := e4 (G ⟨.guest, some (f' : Int), some (b' : Int), .fin c'.1, .fin c'.2.1, ()⟩) (by
            rw [← hm1]; exact List.mem_map.mpr ⟨_, hc, rfl⟩) v hv2
          rw [heq] at this
          exact lt_irrefl _ this) with h | h
        · simp only [SplitInfo.mk.injEq, Option.some.injEq, Nat.cast_inj] at h
          right; exact ⟨h.2.1.symm, le_of_eq h.2.2.1.symm⟩
        · obtain ⟨p, q, r, t, hp, hq, hr, ht, hlt⟩ := h
          simp only [Option.some.injEq] at hp hq hr ht
          omega

/-- **An infinite gain wins**: if one of the splits on offer has a side with gradients but no
hessians (and the node and the other side have a defined score), the search reports a split with
infinite gain. -/
theorem C74_infinite (cfg : Config) (valid : List Bool) (hist : List (List (HCell Rat)))
    (hv : hist.length ≤ valid.length) (node : Rat × Rat) (cnt : Int)
    (hT : LastIs valid hist (fun c => c = (node.1, node.2, cnt))) (f b : Nat) (c : HCell Rat)
    (ho : Offered cfg valid hist f b c) (hz : c.2.1 + cfg.regLambda = 0) (hg : c.1 ≠ 0)
    (hr : node.2 - c.2.1 + cfg.regLambda ≠ 0 ∨ node.1 - c.1 ≠ 0) (hn : node.2 + cfg.regLambda ≠ 0) :
    ∃ s, findSplitNp .fin cfg valid (finHist hist) = .ok s ∧ s.gain = .inf false := by
  have hinf : gainExt cfg.regLambda node (c.1, c.2.1) = some infinity := by
    unfold gainExt scoreExt
    simp only
    rw [if_pos hz, if_neg hg, if_neg hn]
    by_cases h : node.2 - c.2.1 + cfg.regLambda = 0
    · have h' : node.1 - c.1 ≠ 0 := by
        rcases hr with h1 | h1
        · exact (h1 h).elim
        · exact h1
      rw [if_pos h, if_neg h']
    · rw [if_neg h]
  obtain ⟨s, h1, _, h3⟩ := C74_best cfg valid hist hv node cnt hT
  refine ⟨s, h1, ?_⟩
  rcases h3 with ⟨_, _, h⟩ | ⟨_, _, _, g, _, _, _, _, hg1, _, _, _, h⟩
  · exact absurd (h f b _ _ ⟨c, ho, rfl⟩ hinf) (not_le.mpr (num_lt_infinity _))
  · have hle := (h f b _ _ ⟨c, ho, rfl⟩ hinf).1
    have : g = infinity := le_antisymm (le_infinity g) hle
    rw [this] at hg1
    exact value_inj hg1 rfl

/-- **Weights.**  The weight of a node is the usual one unless λ plus its hessians is zero; then it
is infinite with the sign opposite to the gradients, or NaN without gradients. -/
theorem C74_weight (lam g h : Rat) :
    (lam + h ≠ 0 → nodeWeightNp .fin lam (.fin g) (.fin h) = .fin (-g / (lam + h))) ∧
    (lam + h = 0 → 0 < g → nodeWeightNp .fin lam (.fin g) (.fin h) = .inf true) ∧
    (lam + h = 0 → g < 0 → nodeWeightNp .fin lam (.fin g) (.fin h) = .inf false) ∧
    (lam + h = 0 → g = 0 → nodeWeightNp .fin lam (.fin g) (.fin h) = .nan) := by
  simp only [nodeWeightNp, Np.neg, Np.add, Np.div]
  refine ⟨fun h0 => if_neg h0, fun h0 hg => ?_, fun h0 hg => ?_, fun h0 hg => ?_⟩
  · rw [if_pos h0, if_neg (by intro h; linarith)]
    simp [hg]
  · rw [if_pos h0, if_neg (by intro h; linarith)]
    simp [not_lt.mpr hg.le]
  · rw [if_pos h0, if_pos (by rw [hg]; norm_num)]

variable {α : Type}

/-- The scan of a host's candidates: every gain is computed, and an infinite one stays. -/
theorem hostScanNp_inv (R : Rat → Np) (cfg : Config) (C : Cipher α) (g h : Np) :
    ∀ (i : Nat) (cs : List (α × α)) (best r : Int × Np), hostScanNp R cfg C g h i cs best = .ok r →
      best.2 ≠ .nan →
      (∀ c ∈ cs, ∃ gl hl x, C.dec c.1 = .ok gl ∧ C.dec c.2 = .ok hl ∧
        hostGainNp R cfg.regLambda g h gl hl = .ok x ∧
        (x = .inf false → r.2 = .inf false)) ∧ (best.2 = .inf false → r.2 = .inf false) ∧
      r.2 ≠ .nan
  | _, [], best, r, hr, hn => by cases hr; exact ⟨by simp, id, hn⟩
  | i, c :: cs, best, r, hr, hn => by
    simp only [hostScanNp] at hr
    split at hr; · cases hr
    rename_i gl hgl
    split at hr; · cases hr
    rename_i hl hhl
    split at hr; · cases hr
    rename_i x hx
    split at hr
    · rename_i hc
      obtain ⟨h1, h2, h3⟩ := hostScanNp_inv R cfg C g h (i + 1) cs _ r hr (by
        intro hn'
        simp only at hn'
        rw [hn'] at hc
        simp [Np.gt] at hc)
      refine ⟨?_, ?_, h3⟩
      · intro d hd
        rcases List.mem_cons.mp hd with rfl | hd
        · exact ⟨gl, hl, x, hgl, hhl, hx, h2⟩
        · exact h1 d hd
      · intro hb
        rw [hb] at hc
        cases x with
        | fin y => simp [Np.gt] at hc
        | inf s => cases s <;> simp [Np.gt] at hc
        | nan => simp [Np.gt] at hc
    · rename_i hc
      obtain ⟨h1, h2, h3⟩ := hostScanNp_inv R cfg C g h (i + 1) cs _ r hr hn
      refine ⟨?_, h2, h3⟩
      intro d hd
      rcases List.mem_cons.mp hd with rfl | hd
      · refine ⟨gl, hl, x, hgl, hhl, hx, fun hinf => ?_⟩
        rw [hinf] at hc
        by_cases hb : best.2 = .inf false
        · exact h2 hb
        · exfalso
          apply hc
          refine ⟨rfl, ?_⟩
          cases hbb : best.2 with
          | fin y => rfl
          | inf s =>
            cases s
            · exact (hb hbb).elim
            · rfl
          | nan => exact (hn hbb).elim
      · exact h1 d hd

/-- **A host's candidates are not as lucky.**  If the guest answers a host's candidates at all, then
no candidate has a zero sum of hessians plus λ on its left side, and none has an infinite gain. -/
theorem C74_host (R : Rat → Np) (hR : ∀ x, R x ≠ .nan) (cfg : Config) (C : Cipher α)
    (label : Nat × Nat) (node : Np × Np) (cands : List (α × α)) (r : Int × α)
    (h : findHostSplitNp R cfg C label node cands = .ok r) :
    ∀ c ∈ cands, ∃ gl hl, C.dec c.1 = .ok gl ∧ C.dec c.2 = .ok hl ∧
      R (hl + cfg.regLambda) ≠ .fin 0 ∧
      splitGainNp R cfg.regLambda node.1 node.2 (.fin gl) (.fin hl) (Np.sub R node.1 (.fin gl))
        (Np.sub R node.2 (.fin hl)) ≠ .inf false := by
  unfold findHostSplitNp at h
  simp only [bind, Except.bind] at h
  split at h; · cases h
  rename_i best hb
  split at h; · cases h
  rename_i e he
  obtain ⟨h1, _, _⟩ := hostScanNp_inv R cfg C node.1 node.2 0 cands _ best hb (hR _)
  intro c hc
  obtain ⟨gl, hl, x, h2, h3, h4, h5⟩ := h1 c hc
  unfold hostGainNp at h4
  split at h4; · cases h4
  rename_i h6
  cases h4
  refine ⟨gl, hl, h2, h3, h6, fun hinf => ?_⟩
  rw [h5 hinf] at he
  cases he

/-- **And where nothing is divided by zero, the answer to the host is the same.** -/
theorem C74_agrees_host (cfg : Config) (C : Cipher α) (label : Nat × Nat) (node : Rat × Rat)
    (cands : List (α × α)) (r : Int × α) (h : findHostSplit cfg C label node cands = .ok r) :
    findHostSplitNp (fun x => .fin (cfg.rnd x)) cfg C label (.fin node.1, .fin node.2) cands =
      .ok r := by
  have key : ∀ (cs : List (α × α)) (i : Nat) (b b' : Int × Rat),
      hostScan cfg C node.1 node.2 i cs b = .ok b' →
      hostScanNp (fun x => .fin (cfg.rnd x)) cfg C (.fin node.1) (.fin node.2) i cs
        (b.1, .fin b.2) = .ok (b'.1, .fin b'.2) := by
    intro cs
    induction cs with
    | nil => intro i b b' hb; cases hb; rfl
    | cons c cs ih =>
      intro i b b' hb
      simp only [hostScan] at hb
      split at hb; · cases hb
      rename_i gl hgl
      split at hb; · cases hb
      rename_i hl hhl
      split at hb; · cases hb
      rename_i x hx
      have hz : cfg.rnd (hl + cfg.regLambda) ≠ 0 := by
        intro h0
        simp [splitGain, nodeGain, div, bind, Except.bind, h0] at hx
      have hs := splitGainNp_fin hx
      simp only [hostScanNp, hgl, hhl, hostGainNp, Np.fin.injEq, hz, if_false, Np.sub,
        hs]
      split at hb
      · rename_i hc
        rw [if_pos (by simpa [Np.gt] using hc)]
        exact ih _ _ _ hb
      · rename_i hc
        rw [if_neg (by simpa [Np.gt] using hc)]
        exact ih _ _ _ hb
  unfold findHostSplit at h
  simp only [bind, Except.bind] at h
  split at h; · cases h
  rename_i best hb
  split at h; · cases h
  rename_i e he
  cases h
  unfold findHostSplitNp
  rw [key _ _ _ _ hb]
  simp [bind, Except.bind, encryptNp, he, pure, Except.pure]

/-! ### Examples -/

/-- The histogram for which the model in rational numbers stops with `ZeroDivisionError`
(`C24_zero_division`): with numpy floats the split at the first bin has infinite gain, and the
weight of its left child is −∞. -/
theorem C74_zero_division :
    findSplitSingleGuest ⟨0, 0, 2, 1, id⟩ [true] [[(1, 0, 1), (3, 2, 2)]] = .error .zeroDivision ∧
    findSplitNp .fin ⟨0, 0, 2, 1, id⟩ [true] (finHist [[(1, 0, 1), (3, 2, 2)]]) =
      .ok ⟨.guest, some 0, some 0, some (.fin 1), some (.fin 0), .inf false⟩ ∧
    nodeWeightNp .fin 0 (.fin 1) (.fin 0) = .inf true := by
  refine ⟨by decide +kernel, by decide +kernel, by decide +kernel⟩

/-- A split with gradients *and* hessians zero on one side has gain NaN: it is passed over, and a
worse one is taken. -/
example : findSplitNp .fin ⟨0, 0, 2, 1, id⟩ [true] (finHist [[(0, 0, 1), (-1, 1, 2), (1, 3, 4)]]) =
    .ok ⟨.guest, some 0, some 1, some (.fin (-1)), some (.fin 1), .fin (8 / 3)⟩ := by
  decide +kernel

/-- The premises of `C74_infinite` hold for it. -/
example : Offered ⟨0, 0, 2, 1, id⟩ [true] [[(1, 0, 1), (3, 2, 2)]] 0 0 (1, 0, 1) :=
  ⟨[(1, 0, 1), (3, 2, 2)], (3, 2, 2), rfl, rfl, rfl, rfl, by decide, by decide, by decide⟩

example : LastIs [true] [[((1 : Rat), (0 : Rat), (1 : Int)), (3, 2, 2)]]
    (fun c => c = ((3 : Rat), (2 : Rat), 2)) := by
  intro f bins c _ h2 h3
  match f, h2 with
  | 0, h2 => cases h2; cases h3; rfl

/-- The same split as a host's candidate stops the guest. -/
example : hostGainNp .fin 0 (.fin 3) (.fin 2) 1 0 = .error .zeroDivision := by decide +kernel

/-- A host's candidate with an empty right side: gain NaN, so it is passed over. -/
example : hostGainNp .fin 0 (.fin 3) (.fin 2) 3 2 = .ok .nan := by decide +kernel

/-- A host's candidate with gradients but no hessians on its right side: infinite. -/
example : hostGainNp .fin 0 (.fin 3) (.fin 2) 1 2 = .ok (.inf false) := by decide +kernel

end Verif
