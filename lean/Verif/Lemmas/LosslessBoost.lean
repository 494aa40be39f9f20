import Verif.Spec.C55
import Verif.Lemmas.LosslessRun
import Verif.Lemmas.BoostRun

/-! # Federated and centralised boosting step by step -/

set_option autoImplicit false

namespace Verif
namespace DTree

open Spec Histogram Binning

variable {K : Type} [DecidableEq K] {L : Type}

/-! ### Saving and loading a tree of the centralised program -/

omit [DecidableEq K] in
theorem centralSave_of_save {F : Fitted K} {P : Saved} (h : save F = .ok P) :
    centralSave (⟨F.tree, F.guestMask, F.weights, F.imps⟩ : CFitted K) = .ok ⟨P.nodes, P.guestMask, []⟩ := by
  unfold save at h
  simp only [bind, Except.bind] at h
  split at h
  · cases h
  rename_i a ha
  split at h
  · cases h
  rename_i b hb
  split at h
  · cases h
  cases h
  unfold centralSave
  simp only [bind, Except.bind, ha, hb]
  rfl

theorem centralPredict_norm {tree : List Node} (hw : Walkable tree) (mask : Dict Nat Rat)
    (rows : DTable K (SparseVec Rat)) (fuel : Nat) :
    centralPredict (tree.map norm) mask rows fuel = centralPredict tree mask rows fuel := by
  unfold centralPredict
  simp only [traverseGuest_norm hw]

theorem centralPredict_wf {tree : List Node} {mask : Dict Nat Rat} {rows : DTable K (SparseVec Rat)}
    {fuel : Nat} {W : DTable K Rat} (h : centralPredict tree mask rows fuel = .ok W) : W.WF := by
  unfold centralPredict at h
  simp only [bind, Except.bind] at h
  split at h; · cases h
  split at h; · cases h
  split at h; · cases h
  split at h; · cases h
  rename_i leafW h4
  split at h; · cases h
  split at h
  · cases h
    exact (DTable.mapValues_inv h4).1
  · cases h

/-- What boosting needs to know about a tree of the centralised program. -/
theorem central_trained {α : Type} {S : Setup K α} [S.cfg.Exact] {rows : Option Nat → DTable K (List Rat)} {C : Central K}
    {all : DTable K (List Rat)} {m : Rat} (hr : RawRun S rows) (hu : Usual S m)
    (hc : Centralised S rows C all) (hd : S.maxDepth ≤ 31) (hcol : C.party.splits.length ≤ 2 ^ 31)
    {T : CFitted K} (hT : centralFit C = .ok T) :
    (∃ t, T.weights = some t ∧ t.WF) ∧ ∃ P, centralSave T = .ok P ∧
      ∀ (new : DTable K (List Rat)) fuel,
        centralPredictRows (centralLoad P) new fuel = centralPredictRows T new fuel := by
  haveI : C.cfg.Exact := by rw [hc.cfg]; infer_instance
  have hne : all.data ≠ [] := by
    obtain ⟨_, _, _, _, _, _, _, _, h, _⟩ := (central_splits hr hc).1
    exact h
  obtain ⟨D, dummy, d1, d2, d3, d4⟩ := exists_dummy all hc.joined.wf hne
  have hr' := duo_raw hr hc d1 d2 d3 d4
  have hu' : Usual (duo C D) m := duo_usual hu hc
  have hch' := duo_chooses (RawRun.prepared hr') hu'
  obtain ⟨F', lev', mem', g'⟩ := greedyRun hr' hu' (le_refl 0) hch'
  have hcf := fit_solo d2 (RawRun.prepared hr') hu' hch' g'.fit
  rw [hT] at hcf
  cases hcf
  have hus' := C29_trained_usable (duo C D) hu'.depth hr'.names F' g'.fit
  refine ⟨fit_weights g'.fit hu'.depth, ?_⟩
  obtain ⟨P, hP, _⟩ := C36_trained (duo C D) hu'.depth (by
      show C.maxDepth ≤ 31
      rw [hc.depth]; exact hd) hr'.names (by
      intro j P hP
      match j with
      | none => cases hP; exact hcol
      | some 0 =>
        cases hP
        rw [d3]; simp
      | some (j + 1) => simp [partyAt, duo] at hP) F' g'.fit
  refine ⟨_, centralSave_of_save hP, fun new fuel => ?_⟩
  have hl := save_load hP
  have e1 : P.nodes.map loadNode = F'.tree.map norm := by
    have := congrArg Fitted.tree hl
    exact this
  have e2 : P.guestMask = F'.guestMask := by
    have := congrArg Fitted.guestMask hl
    exact this
  unfold centralPredictRows centralLoad
  simp only [e1, e2, centralPredict_norm (walkable hus')]

/-! ### Only the valid features differ between the trees of a run -/

section Setup

variable {α : Type} {B : Boost K α L} {i t : Nat} {gh : DTable K (Rat × Rat)} {egh : DTable K (α × α)}

omit [DecidableEq K] in
theorem treeSetup_length : (treeSetup B i t gh egh).hosts.length = B.base.hosts.length := by
  simp [treeSetup]

omit [DecidableEq K] in
theorem treeSetup_side {β : Type} (g : Option Nat → List β) :
    sideBySide (treeSetup B i t gh egh) g = sideBySide B.base g := by
  unfold sideBySide
  rw [treeSetup_length]

omit [DecidableEq K] in
theorem treeSetup_offset (j : Option Nat) : offset (treeSetup B i t gh egh) j = offset B.base j := by
  cases j with
  | none => rfl
  | some j =>
    unfold offset
    show B.base.guest.splits.length + _ = _
    congr 2
    apply List.ext_getElem?
    intro a
    simp only [List.getElem?_map, List.getElem?_take, treeSetup, List.getElem?_mapIdx]
    split
    · cases B.base.hosts[a]? <;> rfl
    · rfl

theorem treeSetup_joined {rows : Option Nat → DTable K (List Rat)} {all : DTable K (List Rat)}
    (h : JoinedRows B.base rows all) : JoinedRows (treeSetup B i t gh egh) rows all := by
  refine ⟨h.wf, ?_, ?_, ?_⟩
  · intro j P hP k
    obtain ⟨P0, hP0, rfl⟩ := treeSetup_party_inv hP
    exact h.keys j P0 hP0 k
  · intro j P hP k row hrow
    obtain ⟨P0, hP0, rfl⟩ := treeSetup_party_inv hP
    exact h.width j P0 hP0 k row hrow
  · intro k row hrow
    rw [treeSetup_side]
    exact h.cells k row hrow

omit [DecidableEq K] in
theorem treeSetup_samples {rows : Option Nat → DTable K (List Rat)}
    (h : SameSamples B.base rows) : SameSamples (treeSetup B i t gh egh) rows := by
  refine ⟨?_, ?_, h.some⟩
  · intro j P hP
    obtain ⟨P0, hP0, rfl⟩ := treeSetup_party_inv hP
    exact h.wf j P0 hP0
  · intro j P hP
    obtain ⟨P0, hP0, rfl⟩ := treeSetup_party_inv hP
    exact h.keys j P0 hP0

theorem treeSetup_same {F : Fitted K} {T : CFitted K} (h : SameTree (treeSetup B i t gh egh) F T) :
    SameTree B.base F T := by
  refine ⟨h.length, h.nodes, ?_, h.weights⟩
  intro a n n' h1 h2 h3
  obtain ⟨j, f, t', q1, q2, q3, q4⟩ := h.splits a n n' h1 h2 h3
  refine ⟨j, f, t', (splitAt_of_names (treeSetup_names B i t gh egh)).mpr q1, q2, ?_, q4⟩
  rw [q3, treeSetup_offset]

omit [DecidableEq K] in
theorem predHosts_names : ∀ {Hs Hs' : List (Party K)} (ms : List (Dict Nat Rat))
    (ts : List (DTable K (SparseVec Rat))), Hs.map Party.idx = Hs'.map Party.idx →
    predHosts Hs ms ts = predHosts Hs' ms ts
  | [], [], _, _, _ => rfl
  | [], _ :: _, _, _, h => by simp at h
  | _ :: _, [], _, _, h => by simp at h
  | H :: Hs, H' :: Hs', ms, ts, h => by
    simp only [List.map_cons, List.cons.injEq] at h
    cases ms with
    | nil => rfl
    | cons m ms =>
      cases ts with
      | nil => rfl
      | cons t ts =>
        simp only [predHosts, h.1, predHosts_names ms ts h.2]

theorem treeSetup_predict (F : Fitted K) (rows : Option Nat → DTable K (List Rat)) (fuel : Nat) :
    predictRows (treeSetup B i t gh egh) F (rows none) (hostRows (treeSetup B i t gh egh) rows) fuel =
      predictRows B.base F (rows none) (hostRows B.base rows) fuel := by
  unfold predictRows hostRows
  rw [treeSetup_length]
  simp only [predHosts_names _ _ (treeSetup_names B i t gh egh)]

/-- The setting of a tree of the centralised run. -/
theorem centralised_tree {y : DTable K L} {rows : Option Nat → DTable K (List Rat)} {C : CBoost K L}
    {all : DTable K (List Rat)} (hc : CentralisedBoost B y rows C all) {g : DTable K (Rat × Rat)}
    (hg : g.WF) (hs : ∀ k, g.data.get? k = gh.data.get? k) :
    Centralised (treeSetup B i t gh egh) rows (centralSetup C i t g) all := by
  refine ⟨⟨treeSetup_joined hc.joined, ?_, ?_⟩, hc.cfg, hc.depth, hc.batch, hc.kind, ⟨hg, hs⟩, ?_⟩
  · intro j P hP
    obtain ⟨P0, hP0, rfl⟩ := treeSetup_party_inv hP
    exact hc.order j P0 hP0
  · obtain ⟨cfg, bn, header, b1, b2, b3, b4, b5, b6⟩ := hc.bins
    refine ⟨cfg, bn, header, b1, b2, b3, by rw [treeSetup_side]; exact b4, ?_, by rw [treeSetup_side]; exact b6⟩
    intro j P hP
    obtain ⟨P0, hP0, rfl⟩ := treeSetup_party_inv hP
    exact b5 j P0 hP0
  · show C.valid i t = _
    rw [hc.valid, treeSetup_side]
    unfold sideBySide
    congr 1
    apply List.flatMap_congr
    intro j hj
    have hlt := List.mem_range.mp hj
    simp only [treeSetup_party]
    have : partyAt B.base (some j) = some B.base.hosts[j] := List.getElem?_eq_getElem hlt
    rw [this]
    rfl

end Setup

/-! ### The two runs in step -/

/-- The saved tree `P` of the centralised program predicts like `F`. -/
def PredictsSame {α : Type} (S : Setup K α) (F : Fitted K) (P : Saved) : Prop :=
  ∀ (new : Option Nat → DTable K (List Rat)) (newAll : DTable K (List Rat)) (fuel : Nat),
    SameSamples S new → JoinedRows S new newAll → F.tree.length ≤ fuel →
    ∃ W W', predictRows S F (new none) (hostRows S new) fuel = .ok W ∧
      centralPredictRows (centralLoad P) newAll fuel = .ok W' ∧ ∀ k, W.data.get? k = W'.data.get? k

structure BoostSim {α : Type} (B : Boost K α L) (st ct : BoostState K) (fits : List (Fitted K))
    (cfits : List (CFitted K)) : Prop where
  wf : ct.scores.WF
  scores : ∀ k, ct.scores.data.get? k = st.scores.data.get? k
  losses : ct.losses = st.losses
  pre : ct.pre = st.pre
  flags : ct.flags = st.flags
  saved : List.Forall₂ (fun T P => centralSave T = .ok P) cfits ct.trees
  same : List.Forall₂ (SameTree B.base) fits cfits
  predicts : List.Forall₂ (PredictsSame B.base) fits ct.trees

theorem DecisiveRun.prefix {α : Type} {B : Boost K α L} {y : DTable K L} {init : List Rat}
    {rows : Option Nat → DTable K (List Rat)} {fits more : List (Fitted K)}
    (h : DecisiveRun B y init rows (fits ++ more)) : DecisiveRun B y init rows fits := by
  intro n F gh egh hF hg
  have hn := (List.getElem?_eq_some_iff.mp hF).1
  refine h n F gh egh (by rw [List.getElem?_append_left hn]; exact hF) ⟨hg.1, hg.2.1, fun k l hl => ?_⟩
  obtain ⟨g, h', a, b, e, r⟩ := hg.2.2 k l hl
  refine ⟨g, h', a, b, ?_, r⟩
  rw [← e]
  congr 1
  apply scoreAfter_congr
  intro m hm
  unfold weightIn
  rw [List.getElem?_append_left (lt_of_lt_of_le hm (le_trans (Nat.div_mul_le_self n B.dim) hn.le))]

variable {p q : Nat} {sk : Paillier.PrivKey} {lo hi : Int} {m gmax hmax : Rat}
  {G : Rat × Rat → Prop} {B : Boost K Num L} {y : DTable K L}
  {rows : Option Nat → DTable K (List Rat)} {C : CBoost K L} {all : DTable K (List Rat)}

/-- Gradients of a run are within the bounds. -/
theorem gradients_bounded (hb : PaillierBoost p q sk lo hi m gmax hmax 0 0 G B y rows) {init : List Rat}
    (hdim : init.length = B.dim) {fits : List (Fitted K)} {n : Nat} {gh : DTable K (Rat × Rat)}
    (hg : GradientsFor B y init fits n gh) : ∀ x ∈ gh.data, G x.2 := by
  obtain ⟨g1, g3, g4⟩ := hg
  intro x hx
  have hx' := Dict.get?_of_mem g1 hx
  obtain ⟨l, hl⟩ := Dict.exists_get?_of_mem ((g3 x.1).mp (Dict.mem_keys_of_get? hx'))
  obtain ⟨g, h, a, b, e1, e2, e3, e4⟩ := g4 x.1 l hl
  obtain ⟨g', h', q1, _, _, q4⟩ := hb.grads x.1 l (scoreAfter init B.rate B.dim (weightIn fits x.1)
    (n / B.dim * B.dim)) hl (by unfold scoreAfter; rw [List.length_mapIdx]; exact hdim)
  rw [e1] at q1
  cases q1
  have hx2 : x.2 = (a, b) := by
    have : some x.2 = some (a, b) := by rw [← hx', e4]
    exact Option.some.inj this
  rw [hx2]; exact q4 _ a b e2 e3

theorem boostTree_sim [B.base.cfg.Exact] (hb : PaillierBoost p q sk lo hi m gmax hmax 0 0 G B y rows)
    (hc : CentralisedBoost B y rows C all) {init : List Rat}
    (hdim : init.length = B.dim) {gh : DTable K (List Rat × List Rat)} {i t : Nat} (ht : t < B.dim)
    {st st' : BoostState K} {fits : List (Fitted K)}
    (hlen : fits.length = i * B.dim + t) (hi' : TrainInv B y init st fits)
    (hg : GradsOf B y init fits i gh)
    (h : boostTree B gh i t st = .ok st') :
    ∃ F, TrainInv B y init st' (fits ++ [F]) ∧ GradsOf B y init (fits ++ [F]) i gh ∧
      st'.losses = st.losses ∧ st'.pre = st.pre ∧ st'.flags = st.flags ∧
      ∀ ct cfits (cgh : DTable K (List Rat × List Rat)), cgh.WF →
        (∀ k, cgh.data.get? k = gh.data.get? k) → BoostSim B st ct fits cfits →
        DecisiveRun B y init rows (fits ++ [F]) →
        ∃ ct' T, centralTree C cgh i t ct = .ok ct' ∧ BoostSim B st' ct' (fits ++ [F]) (cfits ++ [T]) := by
  obtain ⟨F, f1, f2, f3, f4, f5, _⟩ := boostTree_inv hb.depth.1 hb.sameData hdim ht hlen hi' hg h
  refine ⟨F, f1, f2, f3, f4, f5, fun ct cfits cgh hcw hcg hsim hdec => ?_⟩
  have hdm : fits.length / B.dim = i ∧ fits.length % B.dim = t := by
    rw [hlen]
    constructor
    · rw [Nat.mul_comm, Nat.mul_add_div (by omega), Nat.div_eq_of_lt ht]; omega
    · rw [Nat.mul_comm, Nat.mul_add_mod]; exact Nat.mod_eq_of_lt ht
  have hlast : (fits ++ [F])[fits.length]? = some F := by simp
  obtain ⟨gh0, egh0, w0, e0, fit0, k0, v0⟩ := f1.trained _ F hlast
  have hgf : GradientsFor B y init (fits ++ [F]) fits.length gh0 := ⟨w0, k0, v0⟩
  obtain ⟨egh', e1, hr, hu, hp⟩ := hb.tree (fits.length / B.dim) (fits.length % B.dim) w0 k0
    (gradients_bounded hb hdim hgf)
  rw [e0] at e1
  cases e1
  have hD := hdec _ F gh0 egh0 hlast hgf
  rw [hdm.1, hdm.2] at hr hu hp hD fit0
  -- the gradients of the centralised run
  have hval : ∀ k v, cgh.data.get? k = some v → ∃ x, component t v = .ok x ∧ gh0.data.get? k = some x := by
    intro k v hv
    rw [hcg] at hv
    obtain ⟨l, hl⟩ := Dict.exists_get?_of_mem ((hg.keys k).mp (Dict.mem_keys_of_get? hv))
    obtain ⟨ga, ha, a1, a2⟩ := f2.val k l hl
    rw [hv, Option.some.injEq] at a2
    subst a2
    obtain ⟨g', h', a, b, b1, b2, b3, b4⟩ := v0 k l hl
    rw [hdm.1, a1] at b1
    cases b1
    rw [hdm.2] at b2 b3
    refine ⟨(a, b), ?_, b4⟩
    unfold component getAt
    simp only [b2, b3, bind, Except.bind]
    rfl
  obtain ⟨g, hg1⟩ := DTable.mapValuesM_succeeds hcw (component t) (fun k v hv => by
    obtain ⟨x, hx, _⟩ := hval k v hv
    exact ⟨x, hx⟩)
  obtain ⟨gw, g2⟩ := DTable.mapValuesM_inv hg1
  have hgs : ∀ k, g.data.get? k = gh0.data.get? k := by
    intro k
    cases hx : g.data.get? k with
    | some x =>
      obtain ⟨v, hv, hcmp⟩ := (g2 k x).mp hx
      obtain ⟨x', x1, x2⟩ := hval k v hv
      rw [hcmp] at x1
      cases x1
      exact x2.symm
    | none =>
      cases hz : gh0.data.get? k with
      | none => rfl
      | some z =>
        exfalso
        obtain ⟨v, hv⟩ := Dict.exists_get?_of_mem ((hg.keys k).mpr ((k0 k).mp (Dict.mem_keys_of_get? hz)))
        rw [← hcg] at hv
        obtain ⟨p', _, hp'⟩ := DTable.mapValuesM_total hg1 k v hv
        rw [hx] at hp'
        cases hp'
  have hcs : Centralised (treeSetup B i t gh0 egh0) rows (centralSetup C i t g) all :=
    centralised_tree hc gw hgs
  obtain ⟨F', T, q1, q2, q3⟩ := lossless hr hu hcs (gainError_nonneg _ m 0) hp.accuracy
    (paillier_chooses (RawRun.prepared hr) hu hp)
  rw [fit0] at q1
  cases q1
  obtain ⟨hsame, hpred⟩ := q3 hD
  obtain ⟨⟨wt, hwt, hwtw⟩, P, hP, hreload⟩ := central_trained hr hu hcs hb.depth.2 hc.columns q2
  -- the scores
  have hwk : ∀ k, wt.data.get? k = trainedWeight F k := by
    intro k
    have := hsame.weights k
    rw [hwt] at this
    exact this
  have hnew : ∀ k, wt.data.get? k = if k ∈ y.data.keys then
      some (weightIn (fits ++ [F]) k fits.length) else none := by
    intro k
    rw [hwk]
    by_cases hk : k ∈ y.data.keys
    · rw [if_pos hk]
      obtain ⟨F1, z1, z2⟩ := C28_run p q sk lo hi m 0 0 _ rows hr hu hp
      rw [fit0] at z1
      cases z1
      obtain ⟨_, nd, _, _, _, z3, _⟩ := z2 k (((hb.raw none B.base.guest rfl).2.2.2 k).mpr hk)
      unfold weightIn
      rw [hlast]
      simp [z3]
    · rw [if_neg hk]
      exact trained_none hr hu fit0 fun hx => hk ((k0 k).mp hx)
  obtain ⟨s, u1, u2, u3⟩ := updateF_ok init B.rate hdm.2 (by omega) hwtw y.data.keys
    (fun k => weightIn (fits ++ [F]) k) (scores := ct.scores) (by
      intro k
      rw [hsim.scores, hi'.scores k, scoreAfter_append _ _ _ _ _ _ (le_refl _)]) hnew
  refine ⟨{ ct with scores := s, trees := ct.trees ++ [P], imps := addImportances ct.imps T.imps }, T, ?_, ?_⟩
  · unfold centralTree
    simp only [bind, Except.bind, hg1, q2, hP, hwt]
    rw [hc.rate, u1]
    rfl
  · refine ⟨u2, fun k => ?_, ?_, ?_, ?_, ?_, ?_, ?_⟩
    · show s.data.get? k = _
      rw [u3, f1.scores, List.length_append]
      rfl
    · rw [f3]; exact hsim.losses
    · rw [f4]; exact hsim.pre
    · rw [f5]; exact hsim.flags
    · exact List.rel_append hsim.saved (.cons hP .nil)
    · exact List.rel_append hsim.same (.cons (treeSetup_same hsame) .nil)
    · refine List.rel_append hsim.predicts (.cons ?_ .nil)
      intro new newAll fuel hs hj hf
      obtain ⟨W, W', w1, w2, w3⟩ := hpred new newAll fuel (treeSetup_samples hs) (treeSetup_joined hj) hf
      exact ⟨W, W', by rw [← treeSetup_predict]; exact w1, by rw [hreload]; exact w2, w3⟩

theorem boostTrees_sim [B.base.cfg.Exact] (hb : PaillierBoost p q sk lo hi m gmax hmax 0 0 G B y rows)
    (hc : CentralisedBoost B y rows C all) {init : List Rat}
    (hdim : init.length = B.dim) {gh : DTable K (List Rat × List Rat)} {i : Nat} :
    ∀ (r t : Nat) (st st' : BoostState K) (fits : List (Fitted K)), t + r = B.dim →
    fits.length = i * B.dim + t → TrainInv B y init st fits → GradsOf B y init fits i gh →
    boostTrees B gh i r t st = .ok st' →
    ∃ more, TrainInv B y init st' (fits ++ more) ∧ (fits ++ more).length = (i + 1) * B.dim ∧
      ∀ ct cfits (cgh : DTable K (List Rat × List Rat)), cgh.WF →
        (∀ k, cgh.data.get? k = gh.data.get? k) → BoostSim B st ct fits cfits →
        DecisiveRun B y init rows (fits ++ more) →
        ∃ ct' cmore, centralTrees C cgh i r t ct = .ok ct' ∧
          BoostSim B st' ct' (fits ++ more) (cfits ++ cmore)
  | 0, t, st, st', fits, hr, hlen, hi', hg, h => by
    cases h
    refine ⟨[], by simpa using hi', ?_, fun ct cfits _ _ _ hs _ => ⟨ct, [], rfl, by simpa using hs⟩⟩
    rw [Nat.add_mul]; simp; omega
  | r + 1, t, st, st', fits, hr, hlen, hi', hg, h => by
    unfold boostTrees at h
    simp only [bind, Except.bind] at h
    cases h1 : boostTree B gh i t st with
    | error e => rw [h1] at h; cases h
    | ok st1 =>
      rw [h1] at h
      obtain ⟨F, f1, f2, _, _, _, f3⟩ := boostTree_sim hb hc hdim (by omega) hlen hi' hg h1
      obtain ⟨more, m1, m2, m3⟩ := boostTrees_sim hb hc hdim r (t + 1) st1 st' (fits ++ [F])
        (by omega) (by simp; omega) f1 f2 h
      refine ⟨F :: more, by simpa using m1, by simpa using m2, fun ct cfits cgh hcw hcg hs hd => ?_⟩
      have hd' : DecisiveRun B y init rows ((fits ++ [F]) ++ more) := by simpa using hd
      obtain ⟨ct1, T, c1, c2⟩ := f3 ct cfits cgh hcw hcg hs (DecisiveRun.prefix hd')
      obtain ⟨ct', cmore, c3, c4⟩ := m3 ct1 _ cgh hcw hcg c2 hd'
      refine ⟨ct', T :: cmore, ?_, by simpa using c4⟩
      unfold centralTrees
      simp only [bind, Except.bind, c1]
      exact c3

theorem boostRound_sim [B.base.cfg.Exact] (hb : PaillierBoost p q sk lo hi m gmax hmax 0 0 G B y rows)
    (hc : CentralisedBoost B y rows C all) {init : List Rat} (hdim : init.length = B.dim) {i : Nat}
    {st st' : BoostState K} {fits : List (Fitted K)} (hlen : fits.length = i * B.dim)
    (hi' : TrainInv B y init st fits) (h : boostRound B y i st = .ok st') :
    ∃ more, TrainInv B y init st' (fits ++ more) ∧ (fits ++ more).length = (i + 1) * B.dim ∧
      ∀ ct cfits, BoostSim B st ct fits cfits → DecisiveRun B y init rows (fits ++ more) →
        ∃ ct' cmore, centralRound C y i ct = .ok ct' ∧ BoostSim B st' ct' (fits ++ more) (cfits ++ cmore) := by
  unfold boostRound at h
  simp only [bind, Except.bind] at h
  cases h1 : y.joinM st.scores B.gradHess with
  | error e => rw [h1] at h; cases h
  | ok gh =>
  rw [h1] at h; simp only at h
  cases h2 : boostTrees B gh i B.dim 0 st with
  | error e => rw [h2] at h; cases h
  | ok st1 =>
  rw [h2] at h; simp only at h
  cases h3 : B.loss y st1.scores with
  | error e => rw [h3] at h; cases h
  | ok l =>
  rw [h3] at h
  cases h
  obtain ⟨j1, j2, j3⟩ := DTable.joinM_inv h1
  have hg : GradsOf B y init fits i gh := by
    refine ⟨j1, fun k => ⟨fun hk => ?_, fun hk => ?_⟩, fun k l' hl => ?_⟩
    · obtain ⟨p, hp⟩ := Dict.exists_get?_of_mem hk
      obtain ⟨_, _, hv, _⟩ := (j2 k p).mp hp
      exact Dict.mem_keys_of_get? hv
    · obtain ⟨v, hv⟩ := Dict.exists_get?_of_mem hk
      obtain ⟨x, _, hx⟩ := j3 k v _ hv (by rw [hi'.scores k, if_pos hk])
      exact Dict.mem_keys_of_get? hx
    · obtain ⟨x, x1, x2⟩ := j3 k l' _ hl (by rw [hi'.scores k, if_pos (Dict.mem_keys_of_get? hl)])
      rw [hlen] at x1
      exact ⟨x.1, x.2, x1, x2⟩
  -- gradients with the same lookups
  have hcgh : ∀ scores : DTable K (List Rat), scores.WF →
      (∀ k, scores.data.get? k = st.scores.data.get? k) →
      ∃ cgh, y.joinM scores B.gradHess = .ok cgh ∧ cgh.WF ∧ ∀ k, cgh.data.get? k = gh.data.get? k := by
    intro scores hw hs
    obtain ⟨cgh, c1⟩ := DTable.joinM_succeeds y hw B.gradHess (fun k l f hl hf => by
      rw [hs] at hf
      obtain ⟨x, hx, _⟩ := j3 k l f hl hf
      exact ⟨x, hx⟩)
    obtain ⟨c2, c3, c4⟩ := DTable.joinM_inv c1
    refine ⟨cgh, c1, c2, fun k => ?_⟩
    cases hx : cgh.data.get? k with
    | some x =>
      obtain ⟨v, w, v1, v2, v3⟩ := (c3 k x).mp hx
      rw [hs] at v2
      exact ((j2 k x).mpr ⟨v, w, v1, v2, v3⟩).symm
    | none =>
      cases hz : gh.data.get? k with
      | none => rfl
      | some z =>
        obtain ⟨v, w, v1, v2, v3⟩ := (j2 k z).mp hz
        rw [← hs] at v2
        rw [(c3 k z).mpr ⟨v, w, v1, v2, v3⟩] at hx
        cases hx
  obtain ⟨more, m1, m2, m3⟩ := boostTrees_sim hb hc hdim B.dim 0 st st1 fits (by omega)
    (by omega) hi' hg h2
  refine ⟨more, ⟨m1.saved, m1.wf, m1.scores, m1.trained⟩, m2, fun ct cfits hs hd => ?_⟩
  obtain ⟨cgh, z0, z1, z2⟩ := hcgh ct.scores hs.wf hs.scores
  obtain ⟨ct1, cmore, c1, c2⟩ := m3 ct cfits cgh z1 z2 hs hd
  have hl := hc.loss st1.scores ct1.scores m1.wf c2.wf c2.scores
  refine ⟨{ ct1 with losses := ct1.losses ++ [l] }, cmore, ?_, c2.wf, c2.scores, ?_, c2.pre, c2.flags, c2.saved,
    c2.same, c2.predicts⟩
  · unfold centralRound
    rw [hc.gradHess, hc.dim]
    simp only [bind, Except.bind, z0, c1, hl, h3]
    rfl
  · show ct1.losses ++ [l] = st1.losses ++ [l]
    rw [c2.losses]

theorem BoostSim.stop {fits : List (Fitted K)} {cfits : List (CFitted K)} {st ct : BoostState K}
    (hc : CentralisedBoost B y rows C all) (h : BoostSim B st ct fits cfits) :
    (centralStop C ct).1 = (stopTest B st).1 ∧
      BoostSim B (stopTest B st).2 (centralStop C ct).2 fits cfits := by
  unfold centralStop stopTest
  simp only [hc.early, hc.tol, h.losses, h.pre]
  by_cases he : B.early = true
  · simp only [if_pos he]
    cases st.losses.getLast? with
    | none => exact ⟨rfl, h⟩
    | some l =>
      exact ⟨rfl, h.wf, h.scores, rfl, rfl, by show ct.flags ++ _ = st.flags ++ _; rw [h.flags],
        h.saved, h.same, h.predicts⟩
  · simp only [if_neg he]
    exact ⟨trivial, h⟩

theorem boostLoop_sim [B.base.cfg.Exact] (hb : PaillierBoost p q sk lo hi m gmax hmax 0 0 G B y rows)
    (hc : CentralisedBoost B y rows C all) {init : List Rat} (hdim : init.length = B.dim) :
    ∀ (r i : Nat) (st st' : BoostState K) (fits : List (Fitted K)), fits.length = i * B.dim →
    TrainInv B y init st fits → boostLoop B y r i st = .ok st' →
    ∃ more, TrainInv B y init st' (fits ++ more) ∧
      ∀ ct cfits, BoostSim B st ct fits cfits → DecisiveRun B y init rows (fits ++ more) →
        ∃ ct' cmore, centralLoop C y r i ct = .ok ct' ∧ BoostSim B st' ct' (fits ++ more) (cfits ++ cmore)
  | 0, i, st, st', fits, hlen, hi', h => by
    cases h
    exact ⟨[], by simpa using hi', fun ct cfits hs _ => ⟨ct, [], rfl, by simpa using hs⟩⟩
  | r + 1, i, st, st', fits, hlen, hi', h => by
    unfold boostLoop at h
    simp only [bind, Except.bind] at h
    cases h1 : boostRound B y i st with
    | error e => rw [h1] at h; cases h
    | ok st1 =>
      rw [h1] at h
      simp only at h
      obtain ⟨more, m1, m2, m3⟩ := boostRound_sim hb hc hdim hlen hi' h1
      by_cases hs : (stopTest B st1).1 = true
      · rw [if_pos hs] at h
        cases h
        refine ⟨more, m1.stop, fun ct cfits hsim hd => ?_⟩
        obtain ⟨ct1, cmore, c1, c2⟩ := m3 ct cfits hsim hd
        obtain ⟨s1, s2⟩ := c2.stop hc
        refine ⟨_, cmore, ?_, s2⟩
        unfold centralLoop
        simp only [bind, Except.bind, c1]
        rw [s1, if_pos hs]
        rfl
      · rw [if_neg hs] at h
        obtain ⟨more', n1, n2⟩ := boostLoop_sim hb hc hdim r (i + 1) _ st' (fits ++ more) m2 m1.stop h
        refine ⟨more ++ more', by simpa using n1, fun ct cfits hsim hd => ?_⟩
        have hd' : DecisiveRun B y init rows ((fits ++ more) ++ more') := by simpa using hd
        obtain ⟨ct1, cmore, c1, c2⟩ := m3 ct cfits hsim (DecisiveRun.prefix hd')
        obtain ⟨s1, s2⟩ := c2.stop hc
        obtain ⟨ct', cmore', c3, c4⟩ := n2 _ _ s2 hd'
        refine ⟨ct', cmore ++ cmore', ?_, by simpa using c4⟩
        unfold centralLoop
        simp only [bind, Except.bind, c1]
        rw [s1, if_neg hs]
        exact c3

theorem boost_sim [B.base.cfg.Exact] (hb : PaillierBoost p q sk lo hi m gmax hmax 0 0 G B y rows)
    (hc : CentralisedBoost B y rows C all) {init : List Rat} (hdim : init.length = B.dim)
    {st : BoostState K} (h : boost B init y = .ok st) :
    ∃ fits, TrainInv B y init st fits ∧ (DecisiveRun B y init rows fits →
      ∃ ct cfits, centralBoost C init y = .ok ct ∧ BoostSim B st ct fits cfits) := by
  unfold boost at h
  simp only [bind, Except.bind] at h
  cases h1 : y.mapValues (fun _ => init) with
  | error e => rw [h1] at h; cases h
  | ok scores =>
    rw [h1] at h
    obtain ⟨w1, w2⟩ := DTable.mapValues_inv h1
    obtain ⟨more, m1, m2⟩ := boostLoop_sim hb hc hdim B.rounds 0 _ st [] (by simp)
      ⟨.nil, w1, by
        intro k
        simp only [List.length_nil]
        rw [scoreAfter_zero, w2]
        by_cases hk : k ∈ y.data.keys
        · obtain ⟨l, hl⟩ := Dict.exists_get?_of_mem hk
          rw [if_pos hk, hl]; rfl
        · rw [if_neg hk, (Dict.get?_eq_none_iff _ _).mpr hk]; rfl, by simp⟩ h
    refine ⟨more, by simpa using m1, fun hd => ?_⟩
    obtain ⟨ct, cfits, c1, c2⟩ := m2 _ [] ⟨w1, fun _ => rfl, rfl, rfl, rfl, .nil, .nil, .nil⟩ hd
    refine ⟨ct, cfits, ?_, by simpa using c2⟩
    unfold centralBoost
    rw [hc.rounds]
    simp only [bind, Except.bind, h1]
    exact c1

/-! ### Predicting with all trees -/

theorem centralPredictRound_ok (init : List Rat) (rate : Rate) {dim : Nat}
    (hdim : init.length = dim) (trees : List Saved) (g : DTable K (SparseVec Rat))
    (fuel : Nat) (keys : List K) (W : K → Nat → Rat)
    (ht : ∀ (n : Nat) P, trees[n]? = some P → ∃ T, centralPredict (centralLoad (K := K) P).tree
      (centralLoad (K := K) P).mask g fuel = .ok T ∧ T.WF ∧
      ∀ k, T.data.get? k = if k ∈ keys then some (W k n) else none) (i : Nat)
    (hi : (i + 1) * dim ≤ trees.length) :
    ∀ r t scores, t + r = dim → scores.WF →
      (∀ k, scores.data.get? k = if k ∈ keys then some (scoreAfter init rate dim (W k) (i * dim + t)) else none) →
      ∃ s, centralPredictRound rate dim trees g fuel i r t scores = .ok s ∧ s.WF ∧
        ∀ k, s.data.get? k = if k ∈ keys then some (scoreAfter init rate dim (W k) ((i + 1) * dim)) else none
  | 0, t, scores, hr, hwf, hsc => by
    refine ⟨scores, rfl, hwf, ?_⟩
    have : i * dim + t = (i + 1) * dim := by rw [Nat.add_mul]; omega
    rw [← this]
    exact hsc
  | r + 1, t, scores, hr, hwf, hsc => by
    have hb : (i + 1) * dim = i * dim + dim := by rw [Nat.add_mul]; omega
    have hlt : i * dim + t < trees.length := by omega
    obtain ⟨T, h1, h2, h3⟩ := ht _ _ (List.getElem?_eq_getElem hlt)
    have hmod : (i * dim + t) % dim = t := by
      rw [Nat.mul_comm, Nat.mul_add_mod]
      exact Nat.mod_eq_of_lt (by omega)
    obtain ⟨s, s1, s2, s3⟩ := updateF_ok init rate hmod (by omega) h2 keys W hsc h3
    obtain ⟨s', e1, e2⟩ := centralPredictRound_ok init rate hdim trees g fuel keys W ht i hi r (t + 1) s
      (by omega) s2 s3
    refine ⟨s', ?_, e2⟩
    unfold centralPredictRound centralAdd
    simp only [getAt, List.getElem?_eq_getElem hlt, bind, Except.bind, h1, s1]
    exact e1

theorem centralPredictRounds_ok (init : List Rat) (rate : Rate) {dim : Nat}
    (hdim : init.length = dim) (trees : List Saved) (g : DTable K (SparseVec Rat))
    (fuel : Nat) (keys : List K) (W : K → Nat → Rat)
    (ht : ∀ (n : Nat) P, trees[n]? = some P → ∃ T, centralPredict (centralLoad (K := K) P).tree
      (centralLoad (K := K) P).mask g fuel = .ok T ∧ T.WF ∧
      ∀ k, T.data.get? k = if k ∈ keys then some (W k n) else none) (R : Nat)
    (hR : R * dim ≤ trees.length) :
    ∀ r i scores, i + r = R → scores.WF →
      (∀ k, scores.data.get? k = if k ∈ keys then some (scoreAfter init rate dim (W k) (i * dim)) else none) →
      ∃ s, centralPredictRounds rate dim trees g fuel r i scores = .ok s ∧ s.WF ∧
        ∀ k, s.data.get? k = if k ∈ keys then some (scoreAfter init rate dim (W k) (R * dim)) else none
  | 0, i, scores, hr, hwf, hsc => by
    have : i = R := by omega
    subst this
    exact ⟨scores, rfl, hwf, hsc⟩
  | r + 1, i, scores, hr, hwf, hsc => by
    obtain ⟨s, s1, s2, s3⟩ := centralPredictRound_ok init rate hdim trees g fuel keys W ht i
      (le_trans (Nat.mul_le_mul_right _ (by omega)) hR) dim 0 scores (by omega) hwf hsc
    obtain ⟨s', e1, e2⟩ := centralPredictRounds_ok init rate hdim trees g fuel keys W ht R hR r (i + 1) s
      (by omega) s2 s3
    refine ⟨s', ?_, e2⟩
    unfold centralPredictRounds
    simp only [bind, Except.bind, s1]
    exact e1

theorem leafWeight_unique {α : Type} {S : Setup K α} {F : Fitted K} {rows : Option Nat → DTable K (List Rat)}
    (hidx : (S.hosts.map Party.idx).Nodup) {k : K} {w w' : Rat} (h : LeafWeight S F rows k w)
    (h' : LeafWeight S F rows k w') : w = w' := by
  obtain ⟨i, n, a1, a2, a3, rfl⟩ := h
  obtain ⟨i', n', b1, b2, b3, rfl⟩ := h'
  have := reaches_unique hidx a1 b1 a2 a3 b2 b3
  subst this
  rw [a2, Option.some.injEq] at b2
  rw [b2]

/-- Prediction with all trees gives the same scores. -/
theorem scores_same {α : Type} {S : Setup K α} {Fs : List (Fitted K)} {Ps Cs : List Saved}
    (hsave : List.Forall₂ (fun F P => save F = .ok P) Fs Ps) (hu : ∀ F ∈ Fs, UsableTree S F)
    (hidx : (S.hosts.map Party.idx).Nodup)
    (hp : List.Forall₂ (PredictsSame S) Fs Cs)
    {new : Option Nat → DTable K (List Rat)} {newAll : DTable K (List Rat)} (hr : SameSamples S new)
    (hj : JoinedRows S new newAll) (init : List Rat) (rate : Rate)
    {dim : Nat} (hdim : init.length = dim) (hpos : 0 < dim) {fuel : Nat}
    (hfuel : ∀ F ∈ Fs, F.tree.length ≤ fuel) :
    ∃ T T', predictScores S.hosts rate dim init Ps (new none) (hostRows S new) fuel = .ok T ∧
      centralScores rate dim init Cs newAll fuel = .ok T' ∧ ∀ k, T.data.get? k = T'.data.get? k := by
  obtain ⟨W, T, t1, t2, t3, t4⟩ := predictScores_ok hsave hu hr init rate hdim hpos hfuel
  have hnk : ∀ k, k ∈ (new none).data.keys ↔ k ∈ newAll.data.keys := hj.keys none S.guest rfl
  have hnne : newAll.data ≠ [] := by
    intro h
    have := hr.some
    cases hd : (new none).data with
    | nil => exact this hd
    | cons p l =>
      have := (hnk p.1).mp (by rw [hd]; simp [Dict.keys])
      rw [h] at this
      simp [Dict.keys] at this
  obtain ⟨g, g1, g2, g3⟩ := alignRows_ok hj.wf hnne
  have hm := DTable.mapValues_ok g2 (fun _ => init)
  obtain ⟨m1, m2⟩ := DTable.mapValues_inv hm
  have hlen := hp.length_eq
  have hlen' := hsave.length_eq
  obtain ⟨s, s1, s2, s3⟩ := centralPredictRounds_ok init rate hdim Cs g fuel newAll.data.keys W (by
      intro n P hP
      have hn := (List.getElem?_eq_some_iff.mp hP).1
      have hn' : n < Fs.length := by omega
      have hF := List.getElem?_eq_getElem hn'
      have hmem : Fs[n] ∈ Fs := List.getElem_mem hn'
      have hps : PredictsSame S Fs[n] P := by
        have := (List.forall₂_iff_get.mp hp).2 n hn' hn
        rw [List.getElem?_eq_getElem hn, Option.some.injEq] at hP
        subst hP
        exact this
      obtain ⟨A, A', a1, a2, a3⟩ := hps new newAll fuel hr hj (hfuel _ hmem)
      obtain ⟨A0, b1, _, b3, b4⟩ := predictRows_ok (hu _ hmem) hr (hfuel _ hmem)
      rw [a1] at b1
      cases b1
      unfold centralPredictRows at a2
      simp only [bind, Except.bind, g1] at a2
      refine ⟨A', a2, centralPredict_wf a2, fun k => ?_⟩
      rw [← a3]
      by_cases hk : k ∈ newAll.data.keys
      · rw [if_pos hk]
        obtain ⟨w, hw⟩ := b4 k ((hnk k).mpr hk)
        rw [hw, leafWeight_unique hidx (b3 k w hw).2 (t4 n _ hF k ((hnk k).mpr hk))]
      · rw [if_neg hk]
        cases hx : A.data.get? k with
        | none => rfl
        | some w => exact absurd ((hnk k).mp (b3 k w hx).1) hk) (Cs.length / dim) (Nat.div_mul_le_self _ _)
    (Cs.length / dim) 0 _ (by omega) m1 (by
      intro k
      rw [m2, g3, Nat.zero_mul, scoreAfter_zero]
      by_cases hk : k ∈ newAll.data.keys
      · obtain ⟨row, hrow⟩ := Dict.exists_get?_of_mem hk
        rw [if_pos hk, hrow]; rfl
      · rw [if_neg hk, (Dict.get?_eq_none_iff _ _).mpr hk]; rfl)
  refine ⟨T, s, t1, ?_, fun k => ?_⟩
  · unfold centralScores
    simp only [bind, Except.bind, g1, hm]
    rw [if_neg (by omega)]
    exact s1
  · rw [t3, s3, show Ps.length = Cs.length by omega]
    by_cases hk : k ∈ newAll.data.keys
    · rw [if_pos hk, if_pos ((hnk k).mpr hk)]
    · rw [if_neg hk, if_neg (fun h => hk ((hnk k).mp h))]

end DTree
end Verif
