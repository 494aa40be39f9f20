import Verif.Spec.C81
import Verif.Lemmas.MovedBoost

/-! # Predictions after training on another distribution of the columns -/

set_option autoImplicit false

namespace Verif
namespace DTree

open Spec Histogram

variable {K : Type} [DecidableEq K] {L : Type}

section One

variable {α : Type}

/-- A step with given rows, once the split of the node is known. -/
theorem step_iff_value {S : Setup K α} {rows : Option Nat → DTable K (List Rat)} (hnames : (S.hosts.map Party.idx).Nodup)
    {F : Fitted K} {i : Nat} {n : Node} (hn : F.tree[i]? = some n) {j : Option Nat} {f : Nat} {t : Rat}
    (hs : SplitAt S F i j f t) {k : K} {row : List Rat} (hrow : (rows j).data.get? k = some row) (c : Nat) :
    Step S F rows k i c ↔ (value row f ≤ t ∧ n.left = some c) ∨ (¬ value row f ≤ t ∧ n.right = some c) := by
  rw [not_le]
  constructor
  · rintro ⟨j', f', t', row', n', s1, s2, s3, s4⟩
    obtain ⟨rfl, rfl, rfl⟩ := splitAt_unique hnames hs s1
    rw [hrow, Option.some.injEq] at s2
    rw [hn, Option.some.injEq] at s3
    subst s2 s3
    exact s4
  · intro h
    exact ⟨j, f, t, row, n, hs, hrow, hn, h⟩

/-- A split on offer is on offer at the same column of the other distribution. -/
theorem offer_column {S S' : Setup K α} {rows rows' : Option Nat → DTable K (List Rat)} (hr : RawRun S rows)
    (hr' : RawRun S' rows') (hd : Redistributed S rows S' rows') {A : List K} (hA : ∀ k ∈ A, k ∈ S.gh.data.keys)
    {j j' : Option Nat} {P P' : Party K} {f f' b : Nat} {l : Rat × Rat} (hP : partyAt S j = some P)
    (hP' : partyAt S' j' = some P') (hc : SameColumn S.gh.data.keys P (rows j) f P' (rows' j') f')
    (ho : OfferAt S A j f b l) : OfferAt S' A j' f' b l := by
  obtain ⟨Q, sp, o1, o2, o3, o4, o5, o6, o7, o8⟩ := ho
  rw [hP, Option.some.injEq] at o1
  subst o1
  obtain ⟨p2, p3, p4⟩ := hc
  have hsp' : P'.splits[f']? = some sp := by rw [p2, o3]
  have hbin : ∀ k ∈ A, binAt P' f' k = binAt P f k := by
    intro k hk
    have hkS := hA k hk
    have hkS' : k ∈ S'.gh.data.keys := (hd.keys k).mpr hkS
    obtain ⟨row, r1, r2⟩ := binAt_raw (RawRun.binned hr j P hP)
      ((((RawRun.prepared hr).parties j P hP).2.2.2.2 k).mpr hkS) o3
    obtain ⟨row', r1', r2'⟩ := binAt_raw (RawRun.binned hr' j' P' hP')
      ((((RawRun.prepared hr').parties j' P' hP').2.2.2.2 k).mpr hkS') hsp'
    rw [r2, r2', p4 k hkS row row' r1 r1']
  have e1 : (A.filter fun k => decide (binAt P' f' k ≤ (b : Rat))) = A.filter fun k => decide (binAt P f k ≤ (b : Rat)) :=
    List.filter_congr fun k hk => by rw [hbin k hk]
  have e2 : (A.filter fun k => decide ((b : Rat) < binAt P' f' k)) = A.filter fun k => decide ((b : Rat) < binAt P f k) :=
    List.filter_congr fun k hk => by rw [hbin k hk]
  exact ⟨P', sp, hP', by rw [p3, o2], hsp', o4, by rw [hd.sample]; exact o5, by rw [hd.leaf, e1]; exact o6,
    by rw [hd.leaf, e2]; exact o7, by rw [hd.sums hr.wf hr'.wf, e1]; exact o8⟩

/-- New samples walk the same way, too. -/
theorem new_matched {S S' : Setup K α} {rows rows' new new' : Option Nat → DTable K (List Rat)} {δ : Rat} (hr : RawRun S rows)
    (hr' : RawRun S' rows') (hd : Redistributed S rows S' rows')
    (hinc : ∀ j P, partyAt S j = some P → ∀ sp ∈ P.splits, sp.Pairwise (· < ·))
    (hinc' : ∀ j P, partyAt S' j = some P → ∀ sp ∈ P.splits, sp.Pairwise (· < ·))
    {F F' : Fitted K} {lev lev' : Nat → Nat} {mem mem' : Nat → List K} (g : NearRun S rows δ F lev mem)
    (g' : NearRun S' rows' δ F' lev' mem') (hclear : ClearTree S δ F rows) (hnew : ClearForNew S δ F rows new)
    (hs : SameSamples S new) (hs' : SameSamples S' new')
    (hback : ∀ j' P', partyAt S' j' = some P' → ∀ f' < P'.splits.length, ∃ j P f, partyAt S j = some P ∧
      SameColumn S'.gh.data.keys P' (rows' j') f' P (rows j) f ∧
      ∀ k row' row, (new' j').data.get? k = some row' → (new j).data.get? k = some row → value row f = value row' f')
    {k : K} (hk : k ∈ (new none).data.keys) (hk' : k ∈ (new' none).data.keys) (i : Nat) :
    Reaches S F new k i ↔ Reaches S' F' new' k i := by
  have hal := matched hr hr' hd hinc hinc' g g' hclear
  obtain ⟨rnd, sums, dep, num, hinv⟩ := g.inv
  obtain ⟨rnd', sums', dep', num', hinv'⟩ := g'.inv
  have hw := hinv.wellFormed
  have hw' := hinv'.wellFormed
  obtain ⟨hlen, hnum⟩ := hinv.number
  obtain ⟨hlen', hnum'⟩ := hinv'.number
  have hstep : ∀ a, Reaches S F new k a → ∀ c, Step S F new k a c ↔ Step S' F' new' k a c := by
    intro a hreach c
    by_cases hil : a < F.tree.length
    · have hil' := (hal a).exists_iff.mp hil
      set n := F.tree[a] with hnd
      set n' := F'.tree[a] with hnd'
      have hn : F.tree[a]? = some n := List.getElem?_eq_getElem hil
      have hn' : F'.tree[a]? = some n' := List.getElem?_eq_getElem hil'
      obtain ⟨hleaf, hkl, hkr⟩ := (hal a).node n n' hn hn'
      have hid := hnum a n hn
      have hid' := hnum' a n' hn'
      have hnodes := g.nodes n (List.mem_of_getElem? hn)
      have hnodes' := g'.nodes n' (List.mem_of_getElem? hn')
      rw [hid] at hnodes
      rw [hid'] at hnodes'
      rcases hnodes with ⟨h1, _⟩ | ⟨h1, h2, j, P, f, b, l, sp, t, a1, a2, a3, a4, a5⟩
      · constructor
        · intro h; exact absurd h (no_step hn h1)
        · intro h; exact absurd h (no_step hn' (by rw [hleaf, h1]))
      rcases hnodes' with ⟨h1', _⟩ | ⟨h1', h2', j', P', f', b', l', sp', t', b1, b2, b3, b4, b5⟩
      · rw [hleaf, h1] at h1'; cases h1'
      have hperm : (mem' a).Perm (mem a) := Lists.perm (g'.lists a hil') (g.lists a hil) fun k => by
        constructor
        · rintro ⟨h1, h2⟩; rw [hd.keys] at h1; exact ⟨h1, ((hal a).reach k h1).mpr h2⟩
        · rintro ⟨h1, h2⟩; exact ⟨(hd.keys k).mpr h1, ((hal a).reach k h1).mp h2⟩
      have hsub : ∀ k ∈ mem a, k ∈ S.gh.data.keys := fun k hk => (((g.lists a hil).2 k).mp hk).1
      have hsub' : ∀ k ∈ mem a, k ∈ S'.gh.data.keys := fun k hk => (hd.keys k).mpr (hsub k hk)
      obtain ⟨c1, _, c3⟩ := nearlyBest_perm hperm b5
      obtain ⟨j1, P1, f1, q1, q2, q3⟩ := hback j' P' b1 f' (List.getElem?_eq_some_iff.mp b2).1
      have o1 : OfferAt S (mem a) j1 f1 b' l' := offer_column hr' hr hd.symm hsub' b1 q1 q2 c1
      have top1 : NearTop S δ (mem a) l' := by
        intro j2 f2 b2 l2 ho2
        obtain ⟨j3, f3, ho3, _⟩ := offer_moved hr hr' hd hsub ho2
        have := c3 j3 f3 b2 l2 ho3
        rwa [hd.lam, hd.sums hr.wf hr'.wf] at this
      obtain ⟨row, hrow⟩ := Dict.exists_get?_of_mem ((hs.keys j P a1 k).mpr hk)
      obtain ⟨row1, hrow1⟩ := Dict.exists_get?_of_mem ((hs.keys j1 P1 q1 k).mpr hk)
      obtain ⟨row', hrow'⟩ := Dict.exists_get?_of_mem ((hs'.keys j' P' b1 k).mpr hk')
      obtain ⟨d, hdd⟩ := depth_exists hw a hil
      have hdep := hinv.depth a d hdd
      have hside := hnew a d hdd (by omega) (mem a) (g.lists a hil) k hreach j P f b l sp t j1 P1 f1 b' l' sp' t'
        a5.1 o1 a5.2.2 top1 a1 a2 a3 q1 (by rw [q2.1, b2]) b3 row row1 hrow hrow1
      rw [step_iff_value hr.names hn a4 hrow c, step_iff_value hr'.names hn' b4 hrow' c, hside,
        q3 k row' row1 hrow' hrow1, hkl, hkr]
    · have hil' : ¬ a < F'.tree.length := fun h => hil ((hal a).exists_iff.mpr h)
      constructor
      · rintro ⟨_, _, _, _, n, _, _, h, _⟩
        exact absurd (List.getElem?_eq_some_iff.mp h).1 hil
      · rintro ⟨_, _, _, _, n, _, _, h, _⟩
        exact absurd (List.getElem?_eq_some_iff.mp h).1 hil'
  induction i using Nat.strong_induction_on with
  | _ i ih =>
    constructor
    · intro hx
      cases hx with
      | refl => exact .refl
      | @tail a c h1 h2 => exact .tail ((ih a (step_lt hw h2)).mp h1) ((hstep a h1 i).mp h2)
    · intro hx
      cases hx with
      | refl => exact .refl
      | @tail a c h1 h2 =>
        have h1' := (ih a (step_lt hw' h2)).mpr h1
        exact .tail h1' ((hstep a h1' i).mpr h2)

end One

variable {p q p' q' : Nat} {sk sk' : Paillier.PrivKey} {lo hi lo' hi' : Int} {m gmax hmax m' gmax' hmax' : Rat}
  {G G' : Rat × Rat → Prop} {B B' : Boost K Num L} {y y' : DTable K L}
  {rows rows' new new' : Option Nat → DTable K (List Rat)}

/-- New samples walk the same way in all trees of two runs. -/
theorem trees_new [B.base.cfg.Exact] [B'.base.cfg.Exact]
    (hb : PaillierBoost p q sk lo hi m gmax hmax 0 0 G B y rows)
    (hb' : PaillierBoost p' q' sk' lo' hi' m' gmax' hmax' 0 0 G' B' y' rows')
    (hd : RedistributedBoost B y rows B' y' rows')
    (hinc : ∀ j P, partyAt B.base j = some P → ∀ sp ∈ P.splits, sp.Pairwise (· < ·))
    (hinc' : ∀ j P, partyAt B'.base j = some P → ∀ sp ∈ P.splits, sp.Pairwise (· < ·))
    {init : List Rat} (hdim : init.length = B.dim) {st st' : BoostState K} {fits fits' : List (Fitted K)}
    (hi0 : TrainInv B y init st fits) (hi1 : TrainInv B' y' init st' fits')
    (hclear : ClearRun B y init (5 / 10 ^ 6) rows fits) (hnew : ClearRunForNew B y init (5 / 10 ^ 6) rows new fits)
    (hs : SameSamples B.base new) (hs' : SameSamples B'.base new')
    (hcol : ColumnsWith y.data.keys B' rows' new' B rows new) (n : Nat) (F F' : Fitted K)
    (hF : fits[n]? = some F) (hF' : fits'[n]? = some F') {k : K} (hk : k ∈ (new none).data.keys)
    (hk' : k ∈ (new' none).data.keys) (i : Nat) : Reaches B.base F new k i ↔ Reaches B'.base F' new' k i := by
  have hn := (List.getElem?_eq_some_iff.mp hF).1
  have hn' := (List.getElem?_eq_some_iff.mp hF').1
  obtain ⟨gh, egh, w0, e0, fit0, k0, v0⟩ := hi0.trained n F hF
  obtain ⟨gh', egh', w0', e0', fit0', k0', v0'⟩ := hi1.trained n F' hF'
  have hgf : GradientsFor B y init fits n gh := ⟨w0, k0, v0⟩
  have hgf' : GradientsFor B' y' init fits' n gh' := ⟨w0', k0', v0'⟩
  have hw : ∀ k a, a < n → weightIn fits' k a = weightIn fits k a := by
    intro k a ha
    have h1 := List.getElem?_eq_getElem (lt_trans ha hn)
    have h2 := List.getElem?_eq_getElem (lt_trans ha hn')
    have := (trees_same hb hb' hd hinc hinc' hdim hi0 hi1 hclear a _ _ h1 h2).weights k
    unfold weightIn
    rw [h1, h2]
    simp only [Option.bind_some, this]
  have hgh : ∀ k, gh'.data.get? k = gh.data.get? k := by
    intro k
    by_cases hk : k ∈ y.data.keys
    · obtain ⟨l, hl⟩ := Dict.exists_get?_of_mem hk
      obtain ⟨g, h, a, b, e1, e2, e3, e4⟩ := v0 k l hl
      obtain ⟨g', h', a', b', e1', e2', e3', e4'⟩ := v0' k l (by
        rw [lookup_perm hb.wf hb'.wf hd.labels]; exact hl)
      rw [hd.gradHess, hd.rate, hd.dim, scoreAfter_congr init B.rate B.dim (W' := weightIn fits k) _ (fun a ha =>
        hw k a (lt_of_lt_of_le ha (Nat.div_mul_le_self n B.dim))), e1] at e1'
      cases e1'
      rw [hd.dim, e2] at e2'
      rw [hd.dim, e3] at e3'
      cases e2'
      cases e3'
      rw [e4, e4']
    · rw [(Dict.get?_eq_none_iff _ _).mpr fun h => hk ((k0 k).mp h),
        (Dict.get?_eq_none_iff _ _).mpr fun h => hk ((hd.keys k).mp ((k0' k).mp h))]
  obtain ⟨egh1, e1, hr, hu, hp⟩ := hb.tree (n / B.dim) (n % B.dim) w0 k0 (gradients_bounded hb hdim hgf)
  rw [e0] at e1
  cases e1
  obtain ⟨egh2, e2, hr', hu', hp'⟩ := hb'.tree (n / B'.dim) (n % B'.dim) w0' k0'
    (gradients_bounded hb' (by rw [hd.dim]; exact hdim) hgf')
  rw [e0'] at e2
  cases e2
  have hperm := perm_of_lookup w0 w0' hgh
  have hC := hclear n F gh egh hF hgf
  have hN := hnew n F gh egh hF hgf
  rw [hd.dim] at hr' hu' hp' fit0'
  have hD := redistributed_tree hd (n / B.dim) (n % B.dim) (egh := egh) (egh' := egh') hperm k0
  obtain ⟨F1, lev, mem, g⟩ := paillier_greedy hr hu hp
  obtain ⟨F2, lev', mem', g'⟩ := paillier_greedy hr' hu' hp'
  have := g.fit
  rw [fit0] at this
  cases this
  have := g'.fit
  rw [fit0'] at this
  cases this
  have n1 := g.near hu (gainError_nonneg _ m 0) (η := 5 / 10 ^ 6) (by have := hp.accuracy; norm_num at this ⊢; linarith)
  have n2 := g'.near hu' (gainError_nonneg _ m' 0) (η := 5 / 10 ^ 6) (by have := hp'.accuracy; norm_num at this ⊢; linarith)
  rw [reaches_of_names (treeSetup_names B (n / B.dim) (n % B.dim) gh egh),
    reaches_of_names (treeSetup_names B' (n / B.dim) (n % B.dim) gh' egh')]
  refine new_matched hr hr' hD ?_ ?_ n1 n2 hC hN ⟨?_, ?_, hs.some⟩ ⟨?_, ?_, hs'.some⟩ ?_ hk hk' i
  · intro j P hP
    obtain ⟨P0, hP0, rfl⟩ := treeSetup_party_inv hP
    exact hinc j P0 hP0
  · intro j P hP
    obtain ⟨P0, hP0, rfl⟩ := treeSetup_party_inv hP
    exact hinc' j P0 hP0
  · intro j P hP
    obtain ⟨P0, hP0, rfl⟩ := treeSetup_party_inv hP
    exact hs.wf j P0 hP0
  · intro j P hP
    obtain ⟨P0, hP0, rfl⟩ := treeSetup_party_inv hP
    exact hs.keys j P0 hP0
  · intro j P hP
    obtain ⟨P0, hP0, rfl⟩ := treeSetup_party_inv hP
    exact hs'.wf j P0 hP0
  · intro j P hP
    obtain ⟨P0, hP0, rfl⟩ := treeSetup_party_inv hP
    exact hs'.keys j P0 hP0
  · intro j P hP f hf
    obtain ⟨P0, hP0, rfl⟩ := treeSetup_party_inv hP
    obtain ⟨j', P', f', c1, c2, c3, c4, c5⟩ := hcol j P0 hP0 f hf
    refine ⟨j', { P' with valid := B.valid (n / B.dim) (n % B.dim) j' }, f', by rw [treeSetup_party, c1]; rfl, ⟨c2, c3 _ _, ?_⟩, c5⟩
    intro k hk'
    exact c4 k ((hd.keys k).mp ((k0' k).mp hk'))

/-- Trees of a run can be used for prediction. -/
theorem run_usable [B.base.cfg.Exact] (hb : PaillierBoost p q sk lo hi m gmax hmax 0 0 G B y rows) {init : List Rat}
    (hdim : init.length = B.dim) {st : BoostState K} {fits : List (Fitted K)} (hi0 : TrainInv B y init st fits)
    {F : Fitted K} (hF : F ∈ fits) : UsableTree B.base F := by
  obtain ⟨n, hn⟩ := List.mem_iff_getElem?.mp hF
  obtain ⟨gh, egh, w0, e0, fit0, k0, v0⟩ := hi0.trained n F hn
  obtain ⟨egh1, e1, hr, hu, hp⟩ := hb.tree (n / B.dim) (n % B.dim) w0 k0 (gradients_bounded hb hdim ⟨w0, k0, v0⟩)
  rw [e0] at e1
  cases e1
  exact usable_of_names (treeSetup_names B (n / B.dim) (n % B.dim) gh egh).symm
    (C29_trained_usable (treeSetup B (n / B.dim) (n % B.dim) gh egh) hb.depth.1 hr.names F fit0)

/-- The two models predict the same for new samples. -/
theorem predict_moved [B.base.cfg.Exact] [B'.base.cfg.Exact]
    (hb : PaillierBoost p q sk lo hi m gmax hmax 0 0 G B y rows)
    (hb' : PaillierBoost p' q' sk' lo' hi' m' gmax' hmax' 0 0 G' B' y' rows')
    (hd : RedistributedBoost B y rows B' y' rows')
    (hinc : ∀ j P, partyAt B.base j = some P → ∀ sp ∈ P.splits, sp.Pairwise (· < ·))
    (hinc' : ∀ j P, partyAt B'.base j = some P → ∀ sp ∈ P.splits, sp.Pairwise (· < ·))
    {init : List Rat} (hdim : init.length = B.dim) (hpos : 0 < B.dim) {st st' : BoostState K} {fits fits' : List (Fitted K)}
    (hi0 : TrainInv B y init st fits) (hi1 : TrainInv B' y' init st' fits') (hlen : fits'.length = fits.length)
    (hclear : ClearRun B y init (5 / 10 ^ 6) rows fits) (hnew : ClearRunForNew B y init (5 / 10 ^ 6) rows new fits)
    (hs : SameSamples B.base new) (hs' : SameSamples B'.base new')
    (hkeys : ∀ k, k ∈ (new' none).data.keys ↔ k ∈ (new none).data.keys)
    (hcol : ColumnsWith y.data.keys B' rows' new' B rows new) {fuel : Nat} (hfuel : ∀ F ∈ fits, F.tree.length ≤ fuel) :
    ∃ T T', predictScores B.base.hosts B.rate B.dim init st.trees (new none) (hostRows B.base new) fuel = .ok T ∧
      predictScores B'.base.hosts B'.rate B'.dim init st'.trees (new' none) (hostRows B'.base new') fuel = .ok T' ∧
      (∀ k, k ∈ T.data.keys ↔ k ∈ (new none).data.keys) ∧
      ∀ k, T'.data.get? k = T.data.get? k := by
  have hsame := trees_same hb hb' hd hinc hinc' hdim hi0 hi1 hclear
  have hdim' : init.length = B'.dim := by rw [hd.dim]; exact hdim
  have hfuel' : ∀ F ∈ fits', F.tree.length ≤ fuel := by
    intro F' hF'
    obtain ⟨n, hn⟩ := List.mem_iff_getElem?.mp hF'
    have hlt := (List.getElem?_eq_some_iff.mp hn).1
    have h1 := List.getElem?_eq_getElem (show n < fits.length by omega)
    rw [← (hsame n _ F' h1 hn).length]
    exact hfuel _ (List.getElem_mem _)
  obtain ⟨W, T, t1, t2, t3, t4⟩ := predictScores_ok hi0.saved (fun F hF => run_usable hb hdim hi0 hF) hs init B.rate hdim hpos hfuel
  obtain ⟨W', T', t1', t2', t3', t4'⟩ := predictScores_ok hi1.saved (fun F hF => run_usable hb' hdim' hi1 hF) hs' init B'.rate hdim'
    (by rw [hd.dim]; exact hpos) hfuel'
  refine ⟨T, T', t1, t1', fun k => ⟨fun h => ?_, fun h => ?_⟩, fun k => ?_⟩
  · obtain ⟨v, hv⟩ := Dict.exists_get?_of_mem h
    rw [t3] at hv
    by_contra hc
    rw [if_neg hc] at hv; cases hv
  · exact Dict.mem_keys_of_get? (by rw [t3, if_pos h])
  · rw [t3, t3']
    by_cases hk : k ∈ (new none).data.keys
    · rw [if_pos hk, if_pos ((hkeys k).mpr hk), hd.rate, hd.dim, ← hi1.saved.length_eq, ← hi0.saved.length_eq, hlen]
      congr 1
      apply scoreAfter_congr
      intro a ha
      have ha' : a < fits.length := lt_of_lt_of_le ha (Nat.div_mul_le_self _ _)
      have h1 := List.getElem?_eq_getElem ha'
      have h2 := List.getElem?_eq_getElem (show a < fits'.length by omega)
      obtain ⟨i, nd, a1, a2, a3, a4⟩ := t4 a _ h1 k hk
      obtain ⟨i', nd', b1, b2, b3, b4⟩ := t4' a _ h2 k ((hkeys k).mpr hk)
      have hreach := (trees_new hb hb' hd hinc hinc' hdim hi0 hi1 hclear hnew hs hs' hcol a _ _ h1 h2 hk ((hkeys k).mpr hk) i').mpr b1
      have hil : i' < (fits[a]).tree.length := by
        rw [(hsame a _ _ h1 h2).length]; exact (List.getElem?_eq_some_iff.mp b2).1
      have hn0 := List.getElem?_eq_getElem hil
      obtain ⟨_, q2, _, _, _, _, q7⟩ := (hsame a _ _ h1 h2).nodes i' _ nd' hn0 b2
      obtain rfl := reaches_unique (run_usable hb hdim hi0 (List.getElem_mem ha')).names a1 hreach a2 a3 hn0 (by rw [← q2]; exact b3)
      rw [a2, Option.some.injEq] at hn0
      rw [b4, a4, q7, hn0]
    · rw [if_neg hk, if_neg fun h => hk ((hkeys k).mp h)]

end DTree
end Verif
