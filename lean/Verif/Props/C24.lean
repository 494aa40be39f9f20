import Verif.Lemmas.Splitter
import Verif.Lemmas.OnSamples
import Verif.Props.C22

/-!
# C24 – split finding returns the best admissible split

`findSplitSingleGuest` is the search over one node's accumulated histogram, `findSplit` the
search over a batch of nodes.
-/

set_option autoImplicit false

namespace Verif
open DTree Spec Histogram
open Binning (Cell SparseVec)

/-- **Best split of a histogram.**  For every histogram whose enabled features agree on the
node's totals, every mask covering the features and all settings: unless a division by zero is
possible, the search returns the best of the splits that may be considered. -/
theorem C24_best_split (cfg : Config) [hx : cfg.Exact] (valid : List Bool) (hist : List (List (HCell Rat)))
    (hv : hist.length ≤ valid.length) (node : Rat × Rat) (cnt : Int)
    (hT : LastIs valid hist (fun c => c = (node.1, node.2, cnt)))
    (hsafe : ∀ f b c, Offered cfg valid hist f b c → Safe cfg.regLambda node (c.1, c.2.1)) :
    ∃ s, findSplitSingleGuest cfg valid hist = .ok s ∧ s.site = .guest ∧
      IsBest cfg.regLambda cfg.minImpurity node
        (fun f b l => ∃ c, Offered cfg valid hist f b c ∧ l = (c.1, c.2.1)) s := by
  obtain ⟨cs, h1, h2, h3⟩ := featLoopHost_ok cfg valid .guest cnt 0 hist (by omega) (by
    intro f bins c ha hb hc
    rw [Nat.zero_add] at ha
    rw [hT f bins c ha hb hc])
  have hoff : ∀ s ∈ cs, ∃ (f b : Nat) (c : HCell Rat), Offered cfg valid hist f b c ∧
      s = ⟨.guest, some (f : Int), some (b : Int), c.1, c.2.1, ()⟩ := by
    intro s hs
    obtain ⟨f, b, bins, tot, c, a1, a2, a3, a4, a5, a6, a7, a8⟩ := (h3 s).mp hs
    rw [Nat.zero_add] at a1 a8
    exact ⟨f, b, c, ⟨bins, tot, a1, a2, a3, a4, a5, a6, a7⟩, a8⟩
  have hmem : ∀ f b c, Offered cfg valid hist f b c →
      (⟨.guest, some (f : Int), some (b : Int), c.1, c.2.1, ()⟩ : SplitInfo Rat Unit) ∈ cs := by
    rintro f b c ⟨bins, tot, a⟩
    apply (h3 _).mpr
    refine ⟨f, b, bins, tot, c, by rw [Nat.zero_add]; exact a.1, a.2.1, a.2.2.1, a.2.2.2.1,
      a.2.2.2.2.1, a.2.2.2.2.2.1, a.2.2.2.2.2.2, by rw [Nat.zero_add]⟩
  have hrun := featLoopGuest_eq cfg valid .guest node 0 hist
    (none, cfg.minImpurity - Quantile.floatZero) (by
      intro f bins c ha hb hc
      rw [Nat.zero_add] at ha
      rw [hT f bins c ha hb hc]) cs h1 (by
      intro s hs
      obtain ⟨f, b, c, ho, rfl⟩ := hoff s hs
      exact hsafe f b c ho)
  have hfz : Quantile.floatZero = 1 / 10 ^ 6 := rfl
  have hpos : (0 : Rat) ≤ Quantile.floatZero := by rw [hfz]; norm_num
  set r := pick cfg.minImpurity (withGain cfg.regLambda node cs)
    (none, cfg.minImpurity - Quantile.floatZero) with hr
  refine ⟨⟨.guest, (bestOf r).fid, (bestOf r).bid, (bestOf r).sumGrad, (bestOf r).sumHess,
    (bestOf r).gain⟩, ?_, ?_⟩
  · unfold findSplitSingleGuest
    rw [hx.rnd_eq, id_eq]
    have hb0 : (⟨cfg.minImpurity - Quantile.floatZero, none, none, none, none⟩ : Best) =
      bestOf (none, cfg.minImpurity - Quantile.floatZero) := rfl
    rw [hb0, hrun]
    rfl
  · refine ⟨rfl, ?_⟩
    rcases pick_spec cfg.minImpurity (cfg.minImpurity - Quantile.floatZero) (by linarith)
      (withGain cfg.regLambda node cs) with ⟨e1, e2⟩ | ⟨l1, x, g, l2, e1, e2, e3, e4, e5⟩
    · left
      rw [hr, e1]
      refine ⟨rfl, rfl, rfl, ?_⟩
      rintro f b l ⟨c, hc, rfl⟩
      exact e2 _ (List.mem_map.mpr ⟨_, hmem f b c hc, rfl⟩)
    · right
      rw [hr, e2]
      obtain ⟨m1, m2', hm, hm1, hm2⟩ := List.map_eq_append_iff.mp e1
      obtain ⟨x', m2, rfl, hx, hm3⟩ := List.map_eq_cons_iff.mp hm2
      simp only [Prod.mk.injEq] at hx
      obtain ⟨rfl, rfl⟩ := hx
      have hxm : x' ∈ cs := by rw [hm]; simp
      obtain ⟨f, b, c, ho, rfl⟩ := hoff _ hxm
      refine ⟨f, b, (c.1, c.2.1), rfl, rfl, rfl, rfl, rfl, ⟨c, ho, rfl⟩, e3, ?_⟩
      rintro f' b' l' ⟨c', ho', rfl⟩
      have hin := hmem f' b' c' ho'
      have hin' : (_, gain cfg.regLambda node (c'.1, c'.2.1)) ∈ withGain cfg.regLambda node cs :=
        List.mem_map.mpr ⟨_, hin, rfl⟩
      constructor
      · rw [e1] at hin'
        rcases List.mem_append.mp hin' with h | h
        · exact le_of_lt (e4 _ h)
        · rcases List.mem_cons.mp h with h | h
          · exact le_of_eq (Prod.mk.inj h).2
          · exact e5 _ h
      · intro heq
        rcases sorted_pick h2 hm hin (by
          intro hc
          have := e4 (_, gain cfg.regLambda node (c'.1, c'.2.1)) (by
            rw [← hm1]; exact List.mem_map.mpr ⟨_, hc, rfl⟩)
          simp only at this
          rw [heq] at this
          exact lt_irrefl _ this) with h | h
        · simp only [SplitInfo.mk.injEq, Option.some.injEq, Nat.cast_inj] at h
          right; exact ⟨h.2.1.symm, le_of_eq h.2.2.1.symm⟩
        · obtain ⟨p, q, r, t, hp, hq, hr, ht, hlt⟩ := h
          simp only [Option.some.injEq] at hp hq hr ht
          omega

variable {K : Type} [DecidableEq K]

/-- **Best split of the samples.**  Computing the histograms of a batch of nodes and searching
them returns for every node the best split of the samples at the node: all enabled features and
all bins are considered, and a split is admissible exactly if the node and both sides have enough
samples. -/
theorem C24_on_samples (cfg : Config) [cfg.Exact] (splits : List (List Rat)) (sparse : Dict Nat Nat)
    (valid : List Bool) (hv : valid.length = splits.length) (hz : ZeroBins splits sparse)
    (ids : List Nat) (hids : ids.Nodup) (hne : ids ≠ [])
    (data : DTable K (SparseVec Cell × Nat × Nat))
    (hd : ∀ k x, data.data.get? k = some x → BinnedRow splits x.1)
    (gh : DTable K (Rat × Rat)) (hg : gh.WF)
    (hreg : ∀ id ∈ ids, Regular cfg (atNode data gh id)) :
    ∃ H ss, getHistograms plain splits sparse (some valid) ids data gh = .ok H ∧
      findSplit cfg valid H = .ok ss ∧
      List.Forall₂ (fun id s => s.site = .guest ∧
        IsBest cfg.regLambda cfg.minImpurity (sumsOf (atNode data gh id))
          (OfferedOn cfg valid splits sparse (atNode data gh id)) s) ids ss := by
  obtain ⟨H, h1, h2, h3⟩ := C22_histogram splits sparse valid hv hz ids hids hne data hd gh hg
  have hnode : List.Forall₂ (fun id fh => ∃ s, findSplitSingleGuest cfg valid fh = .ok s ∧
      s.site = .guest ∧ IsBest cfg.regLambda cfg.minImpurity (sumsOf (atNode data gh id))
          (OfferedOn cfg valid splits sparse (atNode data gh id)) s) ids H := by
    rw [List.forall₂_iff_get]
    refine ⟨h2.symm, ?_⟩
    intro i hi hi'
    simp only [List.get_eq_getElem]
    set id := ids[i] with hid
    obtain ⟨fh, f1, f2, f3⟩ := h3 i id (by rw [hid, List.getElem?_eq_getElem hi])
    rw [List.getElem?_eq_getElem hi', Option.some.injEq] at f1
    rw [f1]
    obtain ⟨n1, n2, n3⟩ := nodeFacts cfg splits sparse valid hv hz data hd gh id fh f3
    obtain ⟨s, t1, t2, t3⟩ := C24_best_split cfg valid fh (by omega) (sumsOf (atNode data gh id))
      (atNode data gh id).length n1 (by
      intro f b c ho
      obtain ⟨_, _, _, e3, e4, e5⟩ := (n3 f b _).mp ⟨c, ho, rfl⟩
      rw [e5]
      exact safe_of_regular cfg sparse _ (hreg id (List.getElem_mem hi)) f b e3 e4)
    refine ⟨s, t1, t2, ?_⟩
    have hiff : (fun f b l => ∃ c, Offered cfg valid fh f b c ∧ l = (c.1, c.2.1)) =
        OfferedOn cfg valid splits sparse (atNode data gh id) := by
      funext f b l
      exact propext (n3 f b l)
    rw [hiff] at t3
    exact t3
  refine ⟨H, ?_⟩
  clear h2 h3 hreg
  unfold findSplit
  have : ∃ ss, evalList (findSplitSingleGuest cfg valid) H = .ok ss ∧
      List.Forall₂ (fun id s => s.site = .guest ∧
        IsBest cfg.regLambda cfg.minImpurity (sumsOf (atNode data gh id))
          (OfferedOn cfg valid splits sparse (atNode data gh id)) s) ids ss := by
    clear h1 hids hne
    induction hnode with
    | nil => exact ⟨[], rfl, .nil⟩
    | cons hx _ ih =>
      obtain ⟨s, s1, s2⟩ := hx
      obtain ⟨ss, s3, s4⟩ := ih
      exact ⟨s :: ss, by simp only [evalList, s1, s3, bind, Except.bind, pure, Except.pure], .cons s2 s4⟩
  obtain ⟨ss, s1, s2⟩ := this
  exact ⟨ss, h1, s1, s2⟩

/-- A node that is too small is never split. -/
theorem C24_too_small (cfg : Config) [cfg.Exact] (valid : List Bool) (hist : List (List (HCell Rat)))
    (hv : hist.length ≤ valid.length) (node : Rat × Rat) (cnt : Int)
    (hT : LastIs valid hist (fun c => c = (node.1, node.2, cnt))) (hc : cnt < cfg.minSample) :
    ∃ s, findSplitSingleGuest cfg valid hist = .ok s ∧ s.fid = none ∧ s.bid = none ∧
      s.gain < cfg.minImpurity := by
  have hno : ∀ f b c, ¬ Offered cfg valid hist f b c := by
    rintro f b c ⟨bins, tot, a1, a2, a3, a4, a5, _⟩
    rw [hT f bins tot a1 a2 a4] at a5
    simp only at a5
    omega
  obtain ⟨s, h1, _, h3⟩ := C24_best_split cfg valid hist hv node cnt hT
    (fun f b c h => (hno f b c h).elim)
  rcases h3 with ⟨a, b, c, _⟩ | ⟨_, _, _, _, _, _, _, _, ⟨c, hc, _⟩, _⟩
  · exact ⟨s, h1, a, b, by rw [c]; norm_num⟩
  · exact (hno _ _ _ hc).elim

/-- Without regularisation and with zero hessians on one side the search in rational numbers
raises.  (So it is for Python floats; `C74_zero_division` is the same histogram in numpy floats.) -/
theorem C24_zero_division :
    findSplitSingleGuest ⟨0, 0, 2, 1, id⟩ [true] [[(1, 0, 1), (3, 2, 2)]] = .error .zeroDivision := by
  decide +kernel

/-- Two features, one disabled; the two best bins tie and the lower one is reported. -/
example : findSplitSingleGuest ⟨1, 0, 2, 1, id⟩ [false, true]
    [[(9, 1, 1), (0, 3, 4)], [(3, 2, 1), (3, 2, 2), (0, 3, 4)]] =
    .ok ⟨.guest, some 1, some 0, some 3, some 2, 15 / 2⟩ := by decide +kernel

example : LastIs [false, true] [[(9, 1, 1), (0, 3, 4)], [(3, 2, 1), (3, 2, 2), ((0 : Rat), 3, 4)]]
    (fun c => c = (((0, 3) : Rat × Rat).1, ((0, 3) : Rat × Rat).2, 4)) := by
  intro f bins c h1 h2 h3
  match f with
  | 0 => simp at h1
  | 1 => simp at h2; subst h2; simpa using h3.symm
  | n + 2 => simp at h1

/-- Histograms and search together. -/
example : (do
    let H ← getHistograms plain [[5, 8], [1]] [(0, 0), (1, 0)] (some [true, true]) [3, 4]
      (⟨[(1, (⟨[(0, .bin 1)], 2⟩, 1, 3)), (2, (⟨[(1, .bin 1)], 2⟩, 1, 3)), (9, (⟨[(0, .bin 2)], 2⟩, 1, 4))]⟩ :
        DTable Nat (SparseVec Cell × Nat × Nat))
      ⟨[(9, (1, 1)), (2, (-2, 1)), (1, (3, 1))]⟩
    findSplit ⟨1, 1 / 1000, 2, 1, id⟩ [true, true] H) =
    .ok [⟨.guest, some 0, some 0, some (-2), some 1, 37 / 6⟩,
      ⟨.guest, none, none, none, none, 999 / 1000000⟩] := by decide +kernel

end Verif
