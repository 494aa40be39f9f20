import Verif.Spec.C79
import Verif.Lemmas.Moved
import Verif.Lemmas.LosslessBoost

/-! # Whole runs on other distributions of the columns -/

set_option autoImplicit false

namespace Verif
namespace DTree

open Spec Histogram

variable {K : Type} [DecidableEq K] {L : Type}

/-! ### One tree in exact arithmetic -/

section One

variable {α : Type}

theorem GreedyRun.lev_le {S : Setup K α} {rows : Option Nat → DTable K (List Rat)} {δ : Rat} {F : Fitted K}
    {lev : Nat → Nat} {mem : Nat → List K} (g : GreedyRun S rows δ F lev mem) (hd : 1 ≤ S.maxDepth)
    {n : Node} (hn : n ∈ F.tree) : lev n.id ≤ S.maxDepth := by
  obtain ⟨lev', _, dep', _, hdep', _, hinv', hlast, _⟩ := fit_ready hd g.fit
  obtain ⟨sums, dep, num, hdep, hinv⟩ := g.inv
  obtain ⟨i, hi⟩ := List.mem_iff_getElem?.mp hn
  have hid := hinv.number.2 i n hi
  have hil := (List.getElem?_eq_some_iff.mp hi).1
  obtain ⟨d, hdp⟩ := depth_exists hinv.wellFormed i hil
  have h1 := hinv.depth i d hdp
  have h2 := hinv'.depth i d hdp
  have h3 := hlast n hn
  rw [hid] at h3 ⊢
  omega

/-- Exact runs decide right up to their tolerance. -/
theorem GreedyRun.near {S : Setup K α} {rows : Option Nat → DTable K (List Rat)} {δ η m : Rat} {F : Fitted K}
    {lev : Nat → Nat} {mem : Nat → List K} (g : GreedyRun S rows δ F lev mem) (hu : Usual S m) (hδ : 0 ≤ δ)
    (hη : 2 / 10 ^ 6 + 3 * δ ≤ η) : NearRun S rows η F lev mem := by
  obtain ⟨sums, dep, num, hdep, hinv⟩ := g.inv
  refine ⟨⟨_, sums, dep, num, hinv⟩, g.lists, fun n hn => ?_⟩
  rcases g.nodes n hn with ⟨hl, h⟩ | ⟨hl, j, P, f, b, l, sp, t, h1, h2, h3, h4, h5, h6, h7, _⟩
  · exact .inl ⟨hl, h.imp id (noSplit_mono hη)⟩
  · right
    refine ⟨hl, ?_, j, P, f, b, l, sp, t, h1, h2, h3, h4, h5, by norm_num at hη ⊢; linarith, fun j' f' b' l' ho => ?_⟩
    · rcases hinv.shape n hn with ⟨hc, _⟩ | ⟨_, c, e1, _, _, e2, e3, _⟩
      · rw [hl] at hc; cases hc
      · obtain ⟨hlen, hnum⟩ := hinv.number
        have hcl : c < F.tree.length := by omega
        have := g.lev_le hu.depth (List.getElem_mem hcl)
        rw [hnum c _ (List.getElem?_eq_getElem hcl)] at this
        omega
    · have := h7 j' f' b' l' ho
      norm_num at hη this ⊢
      linarith

theorem same_growth {S S' : Setup K α} [S.cfg.Exact] [S'.cfg.Exact] {rows rows' : Option Nat → DTable K (List Rat)}
    {δ δ' η m m' : Rat} (hr : RawRun S rows) (hr' : RawRun S' rows') (hd : Redistributed S rows S' rows')
    (hu : Usual S m) (hu' : Usual S' m') (hδ : 0 ≤ δ) (hδ' : 0 ≤ δ')
    (hη : 2 / 10 ^ 6 + 3 * δ ≤ η) (hη' : 2 / 10 ^ 6 + 3 * δ' ≤ η)
    (hinc : ∀ j P, partyAt S j = some P → ∀ sp ∈ P.splits, sp.Pairwise (· < ·))
    (hinc' : ∀ j P, partyAt S' j = some P → ∀ sp ∈ P.splits, sp.Pairwise (· < ·))
    {F F' : Fitted K} {lev lev' : Nat → Nat} {mem mem' : Nat → List K} (g : GreedyRun S rows δ F lev mem)
    (g' : GreedyRun S' rows' δ' F' lev' mem') (hclear : ClearTree S η F rows) :
    SameGrowth S.gh.data.keys S rows S' rows' F F' := by
  have n1 := g.near hu hδ hη
  have n2 := g'.near hu' hδ' hη'
  have hal := matched hr hr' hd hinc hinc' n1 n2 hclear
  obtain ⟨sums, dep, num, _, hinv⟩ := g.inv
  obtain ⟨sums', dep', num', _, hinv'⟩ := g'.inv
  have hnode : ∀ (i : Nat) n n', F.tree[i]? = some n → F'.tree[i]? = some n' →
      n'.id = n.id ∧ n'.isLeaf = n.isLeaf ∧ n'.left = n.left ∧ n'.right = n.right ∧
      n'.sumGrad = n.sumGrad ∧ n'.sumHess = n.sumHess ∧ n'.weight = n.weight := by
    intro i n n' hn hn'
    obtain ⟨e1, e2, e3⟩ := (hal i).node n n' hn hn'
    have hm := List.mem_of_getElem? hn
    have hm' := List.mem_of_getElem? hn'
    have hid := hinv.number.2 i n hn
    have hid' := hinv'.number.2 i n' hn'
    have hperm : (mem' i).Perm (mem i) := Lists.perm (g'.lists i (List.getElem?_eq_some_iff.mp hn').1)
      (g.lists i (List.getElem?_eq_some_iff.mp hn).1) fun k => by
        constructor
        · rintro ⟨h1, h2⟩; rw [hd.keys] at h1; exact ⟨h1, ((hal i).reach k h1).mpr h2⟩
        · rintro ⟨h1, h2⟩; exact ⟨(hd.keys k).mpr h1, ((hal i).reach k h1).mp h2⟩
    have s1 := (g.sums n hm).2
    have s2 := (g'.sums n' hm').2
    rw [hid', sumKeys_perm hperm, hd.sums hr.wf hr'.wf, ← hid, ← s1, Prod.mk.injEq] at s2
    have w1 := hinv.weight n (by simp [hm])
    have w2 := hinv'.weight n' (by simp [hm'])
    rw [s2.1, s2.2, hd.lam, (inferInstance : S'.cfg.Exact).rnd_eq, ← (inferInstance : S.cfg.Exact).rnd_eq, w1] at w2
    exact ⟨by rw [hid, hid'], e1, e2, e3, s2.1, s2.2, (Except.ok.inj w2).symm⟩
  refine ⟨?_, hnode, fun k hk i => (hal i).reach k hk, fun k => ?_⟩
  · rcases Nat.lt_trichotomy F.tree.length F'.tree.length with h | h | h
    · have := (hal F.tree.length).exists_iff.mpr h; omega
    · exact h
    · have := (hal F'.tree.length).exists_iff.mp h; omega
  · by_cases hk : k ∈ S.gh.data.keys
    · obtain ⟨i, n, h1, h2, h3, h4⟩ := g.ends k hk
      obtain ⟨i', n', h1', h2', h3', h4'⟩ := g'.ends k ((hd.keys k).mpr hk)
      have hl := (hal i').exists_iff.mpr (List.getElem?_eq_some_iff.mp h1').1
      have hn0 := List.getElem?_eq_getElem hl
      have hleaf : (F.tree[i']).isLeaf = true := by
        rw [← ((hal i').node _ n' hn0 h1').1]; exact h2'
      obtain rfl := reaches_unique hr.names h3 (((hal i').reach k hk).mpr h3') h1 h2 hn0 hleaf
      rw [h4, h4', (hnode i n n' h1 h1').2.2.2.2.2.2]
    · rw [trained_none hr hu g.fit hk, trained_none hr' hu' g'.fit fun h => hk ((hd.keys k).mp h)]

end One

/-! ### All trees of two runs -/

variable {p q p' q' : Nat} {sk sk' : Paillier.PrivKey} {lo hi lo' hi' : Int} {m gmax hmax m' gmax' hmax' : Rat}
  {G G' : Rat × Rat → Prop} {B B' : Boost K Num L} {y y' : DTable K L}
  {rows rows' : Option Nat → DTable K (List Rat)}

theorem lookup_perm {V : Type} {d d' : Dict K V} (hd : d.WF) (hd' : d'.WF) (hp : d'.Perm d) (k : K) :
    d'.get? k = d.get? k := by
  apply Option.ext
  intro v
  rw [Dict.get?_eq_some_iff hd', Dict.get?_eq_some_iff hd]
  exact hp.mem_iff

theorem perm_of_lookup {V : Type} {d d' : Dict K V} (hd : d.WF) (hd' : d'.WF) (h : ∀ k, d'.get? k = d.get? k) :
    d'.Perm d := by
  have n1 : d.Nodup := List.Nodup.of_map _ hd
  have n2 : d'.Nodup := List.Nodup.of_map _ hd'
  rw [List.perm_ext_iff_of_nodup n2 n1]
  rintro ⟨k, v⟩
  have h1 := Dict.get?_eq_some_iff hd (k := k) (v := v)
  have h2 := Dict.get?_eq_some_iff hd' (k := k) (v := v)
  rw [← h1, ← h2, h]

theorem _root_.Verif.Spec.RedistributedBoost.keys (h : RedistributedBoost B y rows B' y' rows') (k : K) :
    k ∈ y'.data.keys ↔ k ∈ y.data.keys := (h.labels.map Prod.fst).mem_iff

/-- The trees of two runs on the same gradients are trained on the same columns. -/
theorem redistributed_tree (h : RedistributedBoost B y rows B' y' rows') (i t : Nat) {gh gh' : DTable K (Rat × Rat)}
    {egh egh' : DTable K (Num × Num)} (hp : gh'.data.Perm gh.data) (hk : ∀ k, k ∈ gh.data.keys ↔ k ∈ y.data.keys) :
    Redistributed (treeSetup B i t gh egh) rows (treeSetup B' i t gh' egh') rows' := by
  refine ⟨h.lam, h.impurity, h.sample, h.leaf, h.depth, hp, ?_, ?_⟩
  · intro j P hP f hf
    obtain ⟨P0, hP0, rfl⟩ := treeSetup_party_inv hP
    obtain ⟨j', P', f', c1, c2, c3, c4⟩ := h.there j P0 hP0 f hf
    refine ⟨j', { P' with valid := B'.valid i t j' }, f', by rw [treeSetup_party, c1]; rfl, c2, c3 i t, ?_⟩
    intro k hk'
    exact c4 k ((hk k).mp hk')
  · intro j P hP f hf
    obtain ⟨P0, hP0, rfl⟩ := treeSetup_party_inv hP
    obtain ⟨j', P', f', c1, c2, c3, c4⟩ := h.back j P0 hP0 f hf
    refine ⟨j', { P' with valid := B.valid i t j' }, f', by rw [treeSetup_party, c1]; rfl, c2, c3 i t, ?_⟩
    intro k hk'
    exact c4 k ((hk k).mp ((hp.map Prod.fst).mem_iff.mp hk'))

/-- Two runs that have trained as many trees have trained the same trees. -/
theorem trees_same [B.base.cfg.Exact] [B'.base.cfg.Exact]
    (hb : PaillierBoost p q sk lo hi m gmax hmax 0 0 G B y rows)
    (hb' : PaillierBoost p' q' sk' lo' hi' m' gmax' hmax' 0 0 G' B' y' rows')
    (hd : RedistributedBoost B y rows B' y' rows')
    (hinc : ∀ j P, partyAt B.base j = some P → ∀ sp ∈ P.splits, sp.Pairwise (· < ·))
    (hinc' : ∀ j P, partyAt B'.base j = some P → ∀ sp ∈ P.splits, sp.Pairwise (· < ·))
    {init : List Rat} (hdim : init.length = B.dim) {st st' : BoostState K} {fits fits' : List (Fitted K)}
    (hi0 : TrainInv B y init st fits) (hi1 : TrainInv B' y' init st' fits') 
    (hclear : ClearRun B y init (5 / 10 ^ 6) rows fits) (n : Nat) :
    ∀ F F', fits[n]? = some F → fits'[n]? = some F' → SameGrowth y.data.keys B.base rows B'.base rows' F F' := by
  induction n using Nat.strong_induction_on with
  | _ n ih =>
    intro F F' hF hF'
    have hn := (List.getElem?_eq_some_iff.mp hF).1
    have hn' := (List.getElem?_eq_some_iff.mp hF').1
    obtain ⟨gh, egh, w0, e0, fit0, k0, v0⟩ := hi0.trained n F hF
    obtain ⟨gh', egh', w0', e0', fit0', k0', v0'⟩ := hi1.trained n F' hF'
    have hgf : GradientsFor B y init fits n gh := ⟨w0, k0, v0⟩
    have hgf' : GradientsFor B' y' init fits' n gh' := ⟨w0', k0', v0'⟩
    have hw : ∀ k a, a < n → weightIn fits' k a = weightIn fits k a := by
      intro k a ha
      have h1 := List.getElem?_eq_getElem (lt_trans ha hn)
      have h2 := List.getElem?_eq_getElem (lt_trans ha hn')
      have := (ih a ha _ _ h1 h2).weights k
      unfold weightIn
      rw [h1, h2]
      simp only [Option.bind_some, this]
    have hgh : ∀ k, gh'.data.get? k = gh.data.get? k := by
      intro k
      by_cases hk : k ∈ y.data.keys
      · obtain ⟨l, hl⟩ := Dict.exists_get?_of_mem hk
        obtain ⟨g, h, a, b, e1, e2, e3, e4⟩ := v0 k l hl
        obtain ⟨g', h', a', b', e1', e2', e3', e4'⟩ := v0' k l (by
          rw [lookup_perm hb.wf hb'.wf hd.labels]; exact hl)
        rw [hd.gradHess, hd.rate, hd.dim, scoreAfter_congr init B.rate B.dim (W' := weightIn fits k) _ (fun a ha =>
          hw k a (lt_of_lt_of_le ha (Nat.div_mul_le_self n B.dim))), e1] at e1'
        cases e1'
        rw [hd.dim, e2] at e2'
        rw [hd.dim, e3] at e3'
        cases e2'
        cases e3'
        rw [e4, e4']
      · rw [(Dict.get?_eq_none_iff _ _).mpr fun h => hk ((k0 k).mp h),
          (Dict.get?_eq_none_iff _ _).mpr fun h => hk ((hd.keys k).mp ((k0' k).mp h))]
    obtain ⟨egh1, e1, hr, hu, hp⟩ := hb.tree (n / B.dim) (n % B.dim) w0 k0 (gradients_bounded hb hdim hgf)
    rw [e0] at e1
    cases e1
    obtain ⟨egh2, e2, hr', hu', hp'⟩ := hb'.tree (n / B'.dim) (n % B'.dim) w0' k0'
      (gradients_bounded hb' (by rw [hd.dim]; exact hdim) hgf')
    rw [e0'] at e2
    cases e2
    have hperm := perm_of_lookup w0 w0' hgh
    have hC := hclear n F gh egh hF hgf
    rw [hd.dim] at hr' hu' hp' fit0'
    have hD := redistributed_tree hd (n / B.dim) (n % B.dim) (egh := egh) (egh' := egh') hperm k0
    obtain ⟨F1, lev, mem, g⟩ := paillier_greedy hr hu hp
    obtain ⟨F2, lev', mem', g'⟩ := paillier_greedy hr' hu' hp'
    have := g.fit
    rw [fit0] at this
    cases this
    have := g'.fit
    rw [fit0'] at this
    cases this
    have key := same_growth (η := 5 / 10 ^ 6) hr hr' hD hu hu' (gainError_nonneg _ m 0) (gainError_nonneg _ m' 0)
      (by have := hp.accuracy; norm_num at this ⊢; linarith) (by have := hp'.accuracy; norm_num at this ⊢; linarith)
      (by
        intro j P hP
        obtain ⟨P0, hP0, rfl⟩ := treeSetup_party_inv hP
        exact hinc j P0 hP0)
      (by
        intro j P hP
        obtain ⟨P0, hP0, rfl⟩ := treeSetup_party_inv hP
        exact hinc' j P0 hP0) g g' hC
    refine ⟨key.length, key.nodes, fun k hk i => ?_, key.weights⟩
    rw [reaches_of_names (treeSetup_names B (n / B.dim) (n % B.dim) gh egh),
      reaches_of_names (treeSetup_names B' (n / B.dim) (n % B.dim) gh' egh')]
    exact key.reach k ((k0 k).mpr hk) i

theorem ClearRun.prefix {α : Type} {B : Boost K α L} {y : DTable K L} {init : List Rat} {δ : Rat}
    {rows : Option Nat → DTable K (List Rat)} {fits more : List (Fitted K)}
    (h : ClearRun B y init δ rows (fits ++ more)) : ClearRun B y init δ rows fits := by
  intro n F gh egh hF hg
  have hn := (List.getElem?_eq_some_iff.mp hF).1
  refine h n F gh egh (by rw [List.getElem?_append_left hn]; exact hF) ⟨hg.1, hg.2.1, fun k l hl => ?_⟩
  obtain ⟨g, h', a, b, e, r⟩ := hg.2.2 k l hl
  refine ⟨g, h', a, b, ?_, r⟩
  rw [← e]
  congr 1
  apply scoreAfter_congr
  intro m hm
  unfold weightIn
  rw [List.getElem?_append_left (lt_of_lt_of_le hm (le_trans (Nat.div_mul_le_self n B.dim) hn.le))]

/-- The same trees give the same scores. -/
theorem scores_moved [B.base.cfg.Exact] [B'.base.cfg.Exact]
    (hb : PaillierBoost p q sk lo hi m gmax hmax 0 0 G B y rows)
    (hb' : PaillierBoost p' q' sk' lo' hi' m' gmax' hmax' 0 0 G' B' y' rows')
    (hd : RedistributedBoost B y rows B' y' rows')
    (hinc : ∀ j P, partyAt B.base j = some P → ∀ sp ∈ P.splits, sp.Pairwise (· < ·))
    (hinc' : ∀ j P, partyAt B'.base j = some P → ∀ sp ∈ P.splits, sp.Pairwise (· < ·))
    {init : List Rat} (hdim : init.length = B.dim) {st st' : BoostState K} {fits fits' : List (Fitted K)}
    (hi0 : TrainInv B y init st fits) (hi1 : TrainInv B' y' init st' fits') (hlen : fits'.length = fits.length)
    (hclear : ClearRun B y init (5 / 10 ^ 6) rows fits) (k : K) :
    st'.scores.data.get? k = st.scores.data.get? k := by
  rw [hi0.scores, hi1.scores, hd.rate, hd.dim, hlen]
  by_cases hk : k ∈ y.data.keys
  · rw [if_pos hk, if_pos ((hd.keys k).mpr hk)]
    congr 1
    apply scoreAfter_congr
    intro a ha
    have h1 := List.getElem?_eq_getElem ha
    have h2 := List.getElem?_eq_getElem (show a < fits'.length by omega)
    have := (trees_same hb hb' hd hinc hinc' hdim hi0 hi1 hclear a _ _ h1 h2).weights k
    unfold weightIn
    rw [h1, h2]
    simp only [Option.bind_some, this]
  · rw [if_neg hk, if_neg fun h => hk ((hd.keys k).mp h)]

theorem stop_moved (hd : RedistributedBoost B y rows B' y' rows') {st st' : BoostState K}
    (h1 : st'.losses = st.losses) (h2 : st'.pre = st.pre) (h3 : st'.flags = st.flags) :
    (stopTest B' st').1 = (stopTest B st).1 ∧ (stopTest B' st').2.losses = (stopTest B st).2.losses ∧
      (stopTest B' st').2.pre = (stopTest B st).2.pre ∧ (stopTest B' st').2.flags = (stopTest B st).2.flags := by
  unfold stopTest
  simp only [hd.early, hd.tol, h1, h2]
  by_cases he : B.early = true
  · simp only [if_pos he]
    cases st.losses.getLast? with
    | none => exact ⟨rfl, h1, h2, h3⟩
    | some l => exact ⟨rfl, rfl, rfl, by show st'.flags ++ _ = st.flags ++ _; rw [h3]⟩
  · simp only [if_neg he]
    exact ⟨trivial, h1, h2, h3⟩

/-- The loops of two runs in step. -/
theorem boostLoop_moved [B.base.cfg.Exact] [B'.base.cfg.Exact]
    (hb : PaillierBoost p q sk lo hi m gmax hmax 0 0 G B y rows)
    (hb' : PaillierBoost p' q' sk' lo' hi' m' gmax' hmax' 0 0 G' B' y' rows')
    (hd : RedistributedBoost B y rows B' y' rows')
    (hinc : ∀ j P, partyAt B.base j = some P → ∀ sp ∈ P.splits, sp.Pairwise (· < ·))
    (hinc' : ∀ j P, partyAt B'.base j = some P → ∀ sp ∈ P.splits, sp.Pairwise (· < ·))
    {init : List Rat} (hdim : init.length = B.dim) :
    ∀ (r i : Nat) (st s : BoostState K) (fits : List (Fitted K)), fits.length = i * B.dim →
    TrainInv B y init st fits → boostLoop B y r i st = .ok s →
    ∃ more, TrainInv B y init s (fits ++ more) ∧
      ∀ (st' s' : BoostState K) (fits' : List (Fitted K)), fits'.length = i * B.dim →
        TrainInv B' y' init st' fits' → st'.losses = st.losses → st'.pre = st.pre → st'.flags = st.flags →
        boostLoop B' y' r i st' = .ok s' → ClearRun B y init (5 / 10 ^ 6) rows (fits ++ more) →
        ∃ more', TrainInv B' y' init s' (fits' ++ more') ∧ (fits' ++ more').length = (fits ++ more).length ∧
          s'.losses = s.losses ∧ s'.flags = s.flags
  | 0, i, st, s, fits, hlen, h0, h => by
    cases h
    refine ⟨[], by simpa using h0, fun st' s' fits' hlen' h0' h1 _ h3 h' _ => ?_⟩
    cases h'
    exact ⟨[], by simpa using h0', by simp [hlen, hlen'], h1, h3⟩
  | r + 1, i, st, s, fits, hlen, h0, h => by
    unfold boostLoop at h
    simp only [bind, Except.bind] at h
    cases hr : boostRound B y i st with
    | error e => rw [hr] at h; cases h
    | ok st1 =>
    rw [hr] at h
    simp only at h
    obtain ⟨more, l, m1, m2, m3, m4, m5, m6, _⟩ := boostRound_inv hb.depth.1 hb.sameData hdim hlen h0 hr
    have hdim' : init.length = B'.dim := by rw [hd.dim]; exact hdim
    -- the same round in the other run
    have hround : ∀ (st' st1' : BoostState K) (fits' : List (Fitted K)), fits'.length = i * B.dim →
        TrainInv B' y' init st' fits' → st'.losses = st.losses → st'.pre = st.pre → st'.flags = st.flags →
        boostRound B' y' i st' = .ok st1' → ClearRun B y init (5 / 10 ^ 6) rows (fits ++ more) →
        ∃ more', TrainInv B' y' init st1' (fits' ++ more') ∧ (fits' ++ more').length = (i + 1) * B.dim ∧
          st1'.losses = st1.losses ∧ st1'.pre = st1.pre ∧ st1'.flags = st1.flags := by
      intro st' st1' fits' hlen' h0' e1 e2 e3 hr' hclear
      obtain ⟨more', l', n1, n2, n3, n4, n5, n6, _⟩ := boostRound_inv hb'.depth.1 hb'.sameData hdim'
        (by rw [hd.dim]; exact hlen') h0' hr'
      rw [hd.dim] at n2
      have hsc := scores_moved hb hb' hd hinc hinc' hdim m1 n1 (by rw [m2, n2]) hclear
      rw [hd.loss _ _ m1.wf n1.wf hsc, m3] at n3
      cases n3
      exact ⟨more', n1, n2, by rw [n4, m4, e1], by rw [n5, m5, e2], by rw [n6, m6, e3]⟩
    by_cases hs : (stopTest B st1).1 = true
    · rw [if_pos hs] at h
      cases h
      refine ⟨more, m1.stop, fun st' s' fits' hlen' h0' e1 e2 e3 h' hclear => ?_⟩
      unfold boostLoop at h'
      simp only [bind, Except.bind] at h'
      cases hr' : boostRound B' y' i st' with
      | error e => rw [hr'] at h'; cases h'
      | ok st1' =>
      rw [hr'] at h'
      simp only at h'
      obtain ⟨more', n1, n2, n3, n4, n5⟩ := hround st' st1' fits' hlen' h0' e1 e2 e3 hr' hclear
      obtain ⟨t1, t2, t3, t4⟩ := stop_moved hd n3 n4 n5
      rw [t1, if_pos hs] at h'
      cases h'
      exact ⟨more', n1.stop, by rw [m2, n2], t2, t4⟩
    · rw [if_neg hs] at h
      obtain ⟨rest, r1, r2⟩ := boostLoop_moved hb hb' hd hinc hinc' hdim r (i + 1) _ s (fits ++ more) m2 m1.stop h
      refine ⟨more ++ rest, by simpa using r1, fun st' s' fits' hlen' h0' e1 e2 e3 h' hclear => ?_⟩
      have hclear' : ClearRun B y init (5 / 10 ^ 6) rows ((fits ++ more) ++ rest) := by simpa using hclear
      unfold boostLoop at h'
      simp only [bind, Except.bind] at h'
      cases hr' : boostRound B' y' i st' with
      | error e => rw [hr'] at h'; cases h'
      | ok st1' =>
      rw [hr'] at h'
      simp only at h'
      obtain ⟨more', n1, n2, n3, n4, n5⟩ := hround st' st1' fits' hlen' h0' e1 e2 e3 hr' (ClearRun.prefix hclear')
      obtain ⟨t1, t2, t3, t4⟩ := stop_moved hd n3 n4 n5
      rw [t1, if_neg hs] at h'
      obtain ⟨rest', z1, z2, z3⟩ := r2 _ s' (fits' ++ more') n2 n1.stop t2 t3 t4 h' hclear'
      exact ⟨more' ++ rest', by simpa using z1, by simpa using z2, z3⟩

/-- The start of a run. -/
theorem trainInv_start {α : Type} {B : Boost K α L} {y : DTable K L} {init : List Rat} {scores : DTable K (List Rat)}
    (h1 : y.mapValues (fun _ => init) = .ok scores) : TrainInv B y init ⟨scores, [], [], [], none, []⟩ [] := by
  obtain ⟨w1, w2⟩ := DTable.mapValues_inv h1
  refine ⟨.nil, w1, ?_, by simp⟩
  intro k
  simp only [List.length_nil]
  rw [scoreAfter_zero, w2]
  by_cases hk : k ∈ y.data.keys
  · obtain ⟨l, hl⟩ := Dict.exists_get?_of_mem hk
    rw [if_pos hk, hl]; rfl
  · rw [if_neg hk, (Dict.get?_eq_none_iff _ _).mpr hk]; rfl

theorem boost_moved [B.base.cfg.Exact] [B'.base.cfg.Exact]
    (hb : PaillierBoost p q sk lo hi m gmax hmax 0 0 G B y rows)
    (hb' : PaillierBoost p' q' sk' lo' hi' m' gmax' hmax' 0 0 G' B' y' rows')
    (hd : RedistributedBoost B y rows B' y' rows')
    (hinc : ∀ j P, partyAt B.base j = some P → ∀ sp ∈ P.splits, sp.Pairwise (· < ·))
    (hinc' : ∀ j P, partyAt B'.base j = some P → ∀ sp ∈ P.splits, sp.Pairwise (· < ·))
    {init : List Rat} (hdim : init.length = B.dim) {s s' : BoostState K} (h : boost B init y = .ok s)
    (h' : boost B' init y' = .ok s') :
    ∃ fits, TrainInv B y init s fits ∧ (ClearRun B y init (5 / 10 ^ 6) rows fits →
      ∃ fits', TrainInv B' y' init s' fits' ∧ fits'.length = fits.length ∧
        s'.losses = s.losses ∧ s'.flags = s.flags) := by
  unfold boost at h h'
  simp only [bind, Except.bind] at h h'
  cases h1 : y.mapValues (fun _ => init) with
  | error e => rw [h1] at h; cases h
  | ok scores =>
  cases h2 : y'.mapValues (fun _ => init) with
  | error e => rw [h2] at h'; cases h'
  | ok scores' =>
  rw [h1] at h
  rw [h2, hd.rounds] at h'
  obtain ⟨fits, f1, f2⟩ := boostLoop_moved hb hb' hd hinc hinc' hdim B.rounds 0 _ s [] (by simp)
    (trainInv_start h1) h
  refine ⟨fits, by simpa using f1, fun hclear => ?_⟩
  obtain ⟨fits', g1, g2, g3⟩ := f2 _ s' [] (by simp) (trainInv_start h2) rfl rfl rfl h' (by simpa using hclear)
  exact ⟨fits', by simpa using g1, by simpa using g2, g3⟩

end DTree
end Verif
