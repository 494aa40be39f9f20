import Verif.Lemmas.BoostImportance
import Verif.Lemmas.PaillierGreedy
import Verif.Props.C26
import Verif.Examples.DemoBoost

/-!
# C35: feature importances count the splits, or add up their gains
-/

set_option autoImplicit false

namespace Verif

open DTree Spec

variable {K : Type} [DecidableEq K] {α L : Type}

private theorem total_one {N : Type} (ns : List N) : total ns (fun _ => 1) = countEntry ns.length := by
  cases ns with
  | nil => rfl
  | cons n ns => simp [total, countEntry]; ring

/-- **One tree, counting splits.**  The importance of a party's feature is the number of inner nodes
that split on it, and there is no entry for features that are not used; the importances add up to
the number of inner nodes. -/
theorem C35_tree_count (S : Setup K α) (hk : S.kind = .split) (F : Fitted K) (h : fit S = .ok F) :
    (∀ key, F.imps.get? key = countEntry (splitsOn F.tree key).length) ∧
    F.imps.values.sum = (F.tree.filter fun n => !n.isLeaf).length := by
  obtain ⟨gains, rest, num, hi⟩ := fit_imps h
  rw [hk] at hi
  refine ⟨fun key => by rw [hi.get key]; exact total_one _, ?_⟩
  rw [hi.sum]
  simp [worth]

/-- **One tree, adding up gains.**  Every inner node has a gain above the configured minimum (if the
rounded `min + 1e-6` is not below it), and the importance of a feature is the sum of the gains of the nodes that split on it. -/
theorem C35_tree_gain (S : Setup K α) (hk : S.kind = .gain)
    (hround : S.cfg.minImpurity ≤ S.cfg.rnd (S.cfg.minImpurity + 1 / 10 ^ 6)) (F : Fitted K) (h : fit S = .ok F) :
    ∃ gains : Nat → Rat, (∀ n ∈ F.tree, n.isLeaf = false → S.cfg.minImpurity < gains n.id) ∧
      (∀ key, F.imps.get? key = total (splitsOn F.tree key) fun n => gains n.id) ∧
      F.imps.values.sum = ((F.tree.filter fun n => !n.isLeaf).map fun n => gains n.id).sum := by
  obtain ⟨gains, rest, num, hi⟩ := fit_imps h
  rw [hk] at hi
  refine ⟨gains, fun n hn hl => ?_, hi.get, hi.sum⟩
  have := (hi.inner n hn hl).1
  unfold Quantile.floatZero at this
  exact lt_of_le_of_lt hround this

/-- **What the gains are.**  In a run with Paillier encryption the gain that is added for a node is
the gain computed from the sums stored in the node and its left child: exactly if the guest owns
the split, up to the encryption error of a gain if a host does. -/
theorem C35_gains (p q : Nat) (sk : Paillier.PrivKey) (lo hi : Int) (m : Rat)
    (S : Setup K Histogram.Num) [S.cfg.Exact] (rows : Option Nat → DTable K (List Rat)) (hr : RawRun S rows)
    (hu : Usual S m) (hp : PaillierRun p q sk lo hi m 0 0 S) (hk : S.kind = .gain) (F : Fitted K)
    (hf : fit S = .ok F) :
    ∃ gains : Nat → Rat,
      (∀ (i c : Nat) n l, F.tree[i]? = some n → n.isLeaf = false → n.left = some c →
        F.tree[c]? = some l →
        (n.site = .guest →
          gains i = gain S.cfg.regLambda (n.sumGrad, n.sumHess) (l.sumGrad, l.sumHess)) ∧
        |gains i - gain S.cfg.regLambda (n.sumGrad, n.sumHess) (l.sumGrad, l.sumHess)| ≤
          gainError S m 0) ∧
      ∀ key, F.imps.get? key = total (splitsOn F.tree key) fun n => gains n.id := by
  obtain ⟨F', lev, mem, g⟩ := paillier_greedy hr hu hp
  have := g.fit
  rw [hf, Except.ok.injEq] at this
  subst this
  obtain ⟨gains, num, hi⟩ := g.imps
  rw [hk] at hi
  have hwf := C26_well_formed S hu.depth F hf
  refine ⟨gains, fun i c n l hn hl hc hcl => ?_, hi.get⟩
  obtain ⟨_, c', l', h1, _, h2, h3⟩ := hi.inner n (List.mem_of_getElem? hn) hl
  rw [hc, Option.some.injEq] at h1
  subst h1
  have := h3 l (by simpa using List.mem_of_getElem? hcl) (hwf.number c l hcl)
  rw [this]
  rw [hwf.number i n hn] at h2
  exact h2

/-- **A whole run** adds up the importances of its trees, feature by feature; every feature has
one entry. -/
theorem C35_run (B : Boost K α L) (y : DTable K L) (init : List Rat) (st : BoostState K)
    (h : boost B init y = .ok st) :
    ∃ fits : List (Fitted K), List.Forall₂ (fun F P => save F = .ok P) fits st.trees ∧
      (∀ F ∈ fits, ∃ i t gh egh, fit (treeSetup B i t gh egh) = .ok F) ∧
      (st.imps.keys).Nodup ∧
      ∀ key, st.imps.get? key = total (fits.filterMap fun F => F.imps.get? key) id := by
  obtain ⟨fits, hf⟩ := boost_fits h
  refine ⟨fits, hf.saved, hf.fit, by rw [hf.imps]; exact imps_wf fits, fun key => ?_⟩
  rw [hf.imps]
  refine imps_get key fits fun F hF => ?_
  obtain ⟨i, t, gh, egh, hfit⟩ := hf.fit F hF
  obtain ⟨gains, rest, num, hi⟩ := fit_imps hfit
  exact hi.wf

/-- **A whole run, counting splits.**  The importance of feature `f` of a party is the number of
inner nodes that split on it, over all trees the run has kept; the importances add up to the
number of all inner nodes. -/
theorem C35_run_count (B : Boost K α L) (hd : 1 ≤ B.base.maxDepth) (hk : B.base.kind = .split)
    (y : DTable K L) (init : List Rat) (st : BoostState K) (h : boost B init y = .ok st) :
    (∀ site f, st.imps.get? (site, some f) =
      countEntry (st.trees.flatMap fun P => savedOn P site f).length) ∧
    (∀ site, st.imps.get? (site, none) = none) ∧
    st.imps.values.sum = (st.trees.flatMap fun P => P.nodes.filter fun n => !n.isLeaf).length := by
  obtain ⟨fits, hf⟩ := boost_fits h
  have hkind : ∀ i t gh egh, (treeSetup B i t gh egh).kind = .split := fun _ _ _ _ => hk
  have hfid : ∀ F ∈ fits, ∀ n ∈ F.tree, n.isLeaf = false → n.fid ≠ none := by
    intro F hF n hn hl
    obtain ⟨i, t, gh, egh, hfit⟩ := hf.fit F hF
    obtain ⟨j, hj⟩ := List.mem_iff_getElem?.mp hn
    rcases C26_decided (treeSetup B i t gh egh) hd F hfit j n hj with ⟨hc, _⟩ | ⟨_, _, f, _, _, _, _, _, hs⟩
    · rw [hl] at hc; cases hc
    · obtain ⟨n', _, _, h1, _, h2, _⟩ := hs
      rw [hj, Option.some.injEq] at h1
      subst h1
      rw [h2]; simp
  have hcount : ∀ F ∈ fits, (∀ key, F.imps.get? key = countEntry (splitsOn F.tree key).length) ∧
      F.imps.values.sum = (F.tree.filter fun n => !n.isLeaf).length := by
    intro F hF
    obtain ⟨i, t, gh, egh, hfit⟩ := hf.fit F hF
    exact C35_tree_count _ (hkind i t gh egh) F hfit
  have hwf : ∀ F ∈ fits, Dict.WF F.imps := by
    intro F hF
    obtain ⟨i, t, gh, egh, hfit⟩ := hf.fit F hF
    obtain ⟨gains, rest, num, hi⟩ := fit_imps hfit
    exact hi.wf
  have hget : ∀ key, st.imps.get? key = countEntry (fits.map fun F => (splitsOn F.tree key).length).sum := by
    intro key
    rw [hf.imps, imps_get key fits hwf]
    clear hf hfid hwf
    induction fits using List.reverseRecOn with
    | nil => rfl
    | append_singleton fits F ih =>
      have ih := ih fun F hF => hcount F (by simp [hF])
      rw [List.filterMap_append, List.map_append, List.sum_append, List.filterMap_cons,
        (hcount F (by simp)).1 key]
      simp only [List.map_cons, List.map_nil, List.sum_cons, List.sum_nil, Nat.add_zero]
      generalize (splitsOn F.tree key).length = c
      cases c with
      | zero => simpa [countEntry] using ih
      | succ c =>
        rw [show countEntry (c + 1) = some ((c + 1 : Nat) : Rat) from rfl]
        simp only [List.filterMap_nil, total_snoc, ih]
        generalize (fits.map fun F => (splitsOn F.tree key).length).sum = d
        cases d with
        | zero => simp [countEntry]
        | succ d => simp [countEntry]
  refine ⟨fun site f => ?_, fun site => ?_, ?_⟩
  · rw [hget]
    congr 1
    rw [List.length_flatMap]
    have hs := hf.saved
    clear hf hcount hwf hget
    generalize st.trees = trees at hs
    induction hs with
    | nil => rfl
    | cons h1 _ ih =>
      simp only [List.map_cons, List.sum_cons]
      rw [(savedOn_length h1 (hfid _ (by simp)) site f).1, ih fun F hF => hfid F (by simp [hF])]
  · rw [hget]
    have : (fits.map fun F => (splitsOn F.tree (site, none)).length).sum = 0 := by
      apply List.sum_eq_zero
      intro x hx
      obtain ⟨F, hF, rfl⟩ := List.mem_map.mp hx
      rw [List.length_eq_zero_iff]
      unfold splitsOn
      rw [List.filter_eq_nil_iff]
      intro n hn hc
      simp only [Bool.and_eq_true, Bool.not_eq_true', decide_eq_true_eq, Prod.mk.injEq] at hc
      exact hfid F hF n hn hc.1 hc.2.2
    rw [this]; rfl
  · rw [hf.imps, imps_sum, List.length_flatMap]
    have hs := hf.saved
    clear hf hwf hget
    generalize st.trees = trees at hs
    induction hs with
    | nil => rfl
    | @cons F P _ _ h1 _ ih =>
      simp only [List.map_cons, List.sum_cons]
      rw [(hcount F (by simp)).2, ih (fun F hF => hfid F (by simp [hF])) fun F hF => hcount F (by simp [hF]),
        (savedOn_length h1 (hfid _ (by simp)) .guest 0).2]
      push_cast
      rfl

/-- The demo run: it counts splits, both parties have importances. -/
example : ∃ st, boost DemoBoost.clear [0, 1] DemoBoost.labels = .ok st ∧
    1 ≤ DemoBoost.clear.base.maxDepth ∧ DemoBoost.clear.base.kind = .split ∧
    2 ≤ st.imps.length ∧ 4 ≤ (st.trees.flatMap fun P => P.nodes.filter fun n => !n.isLeaf).length :=
  ⟨DemoBoost.final, DemoBoost.final_ok, by decide +kernel, by decide +kernel, by decide +kernel,
    by decide +kernel⟩

/-- Training with gains as importances: the Paillier demo with the other kind of importance meets
the conditions of `C35_gains`. -/
example : ∃ p q sk lo hi m, ∃ S : Setup Nat Histogram.Num, RawRun S DemoRaw.rows ∧ Usual S m ∧
    PaillierRun p q sk lo hi m 0 0 S ∧ S.kind = .gain := by
  obtain ⟨sk, h1, h2⟩ := DemoPaillier.key
  have a := DemoPaillier.raw sk
  have b := DemoPaillier.usual sk
  have c := DemoPaillier.run h1 h2
  exact ⟨_, _, sk, 12, 13, 11 / 10, { DemoPaillier.setup sk with kind := .gain },
    ⟨a.parties, a.names, a.wf⟩,
    ⟨b.depth, b.batch, by simp, b.hosts, b.leaf, b.lam, b.hess⟩,
    ⟨c.key, c.hi0, c.gap, c.big, c.cipher, c.arith, c.errors, c.enc, c.room, c.windowG, c.windowH, c.accuracy⟩, rfl⟩

end Verif
