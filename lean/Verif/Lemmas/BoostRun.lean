import Verif.Spec.C53
import Verif.Lemmas.Boost

set_option autoImplicit false

namespace Verif
namespace DTree

open Spec Histogram Binning

variable {K : Type} [DecidableEq K] {L : Type}

theorem sum_map_le {β : Type} (f : β → Rat) (c : Rat) : ∀ (l : List β), (∀ x ∈ l, f x ≤ c) →
    (l.map f).sum ≤ l.length * c
  | [], _ => by simp
  | x :: l, h => by
    have h1 := h x (by simp)
    have h2 := sum_map_le f c l fun y hy => h y (by simp [hy])
    simp only [List.map_cons, List.sum_cons, List.length_cons]
    push_cast
    nlinarith

theorem sum_map_nonneg {β : Type} (f : β → Rat) : ∀ (l : List β), (∀ x ∈ l, 0 ≤ f x) →
    0 ≤ (l.map f).sum
  | [], _ => by simp
  | x :: l, h => by
    have h1 := h x (by simp)
    have h2 := sum_map_nonneg f l fun y hy => h y (by simp [hy])
    simp only [List.map_cons, List.sum_cons]
    linarith

omit [DecidableEq K] in
theorem length_of_keys {V W : Type} {t : DTable K V} {o : DTable K W} (ht : t.WF) (ho : o.WF)
    (h : ∀ k, k ∈ t.data.keys ↔ k ∈ o.data.keys) : t.data.length = o.data.length := by
  have hp : t.data.keys.Perm o.data.keys := (List.perm_ext_iff_of_nodup ht ho).mpr h
  have := hp.length_eq
  simpa [Dict.keys] using this

variable {p q : Nat} {sk : Paillier.PrivKey} {lo hi : Int} {m gmax hmax eg eh : Rat}
  {G : Rat × Rat → Prop} {B : Boost K Num L} {y : DTable K L}
  {rows : Option Nat → DTable K (List Rat)}

theorem _root_.Verif.Spec.PaillierBoost.sameData (hb : PaillierBoost p q sk lo hi m gmax hmax eg eh G B y rows) :
    SameData B y := by
  have hkeys : ∀ j P, partyAt B.base j = some P → ∀ k, k ∈ P.data.data.keys ↔ k ∈ y.data.keys := by
    intro j P hP k
    rw [(binned_of_fromRaw (hb.raw j P hP).1).keys]
    exact (hb.raw j P hP).2.2.2 k
  refine ⟨hb.wf, hkeys none B.base.guest rfl, fun H hH k hk => ?_, hb.names⟩
  obtain ⟨j, hj⟩ := List.mem_iff_getElem?.mp hH
  exact (hkeys (some j) H hj k).mpr hk

omit [DecidableEq K] in
theorem treeSetup_party_inv {α : Type} {B : Boost K α L} {i t : Nat} {gh : DTable K (Rat × Rat)}
    {egh : DTable K (α × α)} {j : Option Nat} {P : Party K}
    (h : partyAt (treeSetup B i t gh egh) j = some P) :
    ∃ P0, partyAt B.base j = some P0 ∧ P = { P0 with valid := B.valid i t j } := by
  rw [treeSetup_party] at h
  cases hP : partyAt B.base j with
  | none => rw [hP] at h; cases h
  | some P0 => rw [hP] at h; cases h; exact ⟨P0, rfl, rfl⟩

theorem _root_.Verif.Spec.PaillierBoost.tree (hb : PaillierBoost p q sk lo hi m gmax hmax eg eh G B y rows) (i t : Nat)
    {gh : DTable K (Rat × Rat)} (hw : gh.WF) (hk : ∀ k, k ∈ gh.data.keys ↔ k ∈ y.data.keys)
    (hG : ∀ x ∈ gh.data, G x.2) :
    ∃ egh, B.enc i t gh = .ok egh ∧ RawRun (treeSetup B i t gh egh) rows ∧
      Usual (treeSetup B i t gh egh) m ∧
      PaillierRun p q sk lo hi m eg eh (treeSetup B i t gh egh) := by
  obtain ⟨e, e1, e2⟩ := hb.enc i t gh hw hG
  have hlen : gh.data.length = y.data.length := length_of_keys hw hb.wf hk
  have hbd : ∀ x ∈ gh.data, |x.2.1| ≤ gmax ∧ 0 ≤ x.2.2 ∧ x.2.2 ≤ hmax ∧ m ≤ x.2.2 + B.base.cfg.regLambda :=
    fun x hx => hb.bounds x.2.1 x.2.2 (hG x hx)
  have hsg : (gh.data.map fun x => |x.2.1|).sum ≤ y.data.length * gmax := by
    rw [← hlen]; exact sum_map_le _ _ _ fun x hx => (hbd x hx).1
  have hsg0 : 0 ≤ (gh.data.map fun x => |x.2.1|).sum := sum_map_nonneg _ _ fun x _ => abs_nonneg _
  have hsh : (gh.data.map fun x => |x.2.2|).sum ≤ y.data.length * hmax := by
    rw [← hlen]
    apply sum_map_le
    intro x hx
    rw [abs_of_nonneg (hbd x hx).2.1]
    exact (hbd x hx).2.2.1
  have h16 : (0 : Rat) ≤ (16 : Rat) ^ hi := by positivity
  refine ⟨_, e1, ⟨?_, ?_, hw⟩, ⟨hb.depth.1, hb.batch, hb.kind, ?_, hb.leaf, hb.lam, hb.pos, ?_⟩, ?_⟩
  · intro j P hP
    obtain ⟨P0, hP0, rfl⟩ := treeSetup_party_inv hP
    obtain ⟨r1, r2, _, r3⟩ := hb.raw j P0 hP0
    exact ⟨r1, r2 i t, fun k => (r3 k).trans (hk k).symm⟩
  · rw [treeSetup_names]; exact hb.names
  · intro hc
    apply hb.hosts
    have := congrArg List.length hc
    simp only [treeSetup, List.length_mapIdx, List.length_nil] at this
    exact List.eq_nil_of_length_eq_zero this
  · intro x hx
    exact ⟨(hbd x hx).2.1, (hbd x hx).2.2.2⟩
  · obtain ⟨draw, d1, d2⟩ := hb.cipher
    refine ⟨hb.key, hb.hi0, hb.gap, hb.big, ⟨draw i t, fun d b l => d1 i t d b l, fun d b => d2 i t d b⟩,
      hb.arith, hb.errors, ⟨e, rfl, e2⟩, ?_, ?_, ?_, ?_⟩
    · show (B.base.maxDepth : Rat) * (gh.data.length * eh) ≤ m / 2
      rw [hlen]; exact hb.room
    · refine le_trans (mul_le_mul_of_nonneg_right ?_ h16) hb.windowG
      show (gh.data.map fun x => |x.2.1|).sum + gh.data.length * eg ≤ _
      rw [hlen]; linarith
    · refine le_trans (mul_le_mul_of_nonneg_right ?_ h16) hb.windowH
      show (gh.data.map fun x => |x.2.2|).sum + gh.data.length * eh ≤ _
      rw [hlen]; linarith
    · refine le_trans ?_ hb.accuracy
      unfold gainError
      have he := hb.errors.1
      have hsz : gradSize (treeSetup B i t gh (liftGh e)) eg ≤
          y.data.length * gmax + (B.base.maxDepth + 1) * (y.data.length * eg) := by
        show (gh.data.map fun x => |x.2.1|).sum + (B.base.maxDepth + 1) * (gh.data.length * eg) ≤ _
        rw [hlen]; linarith
      have hsz0 : 0 ≤ gradSize (treeSetup B i t gh (liftGh e)) eg := by
        show 0 ≤ (gh.data.map fun x => |x.2.1|).sum + (B.base.maxDepth + 1) * (gh.data.length * eg)
        positivity
      have hsq := pow_le_pow_left₀ hsz0 hsz 2
      have hm := hb.pos
      show max (2 * gradSize (treeSetup B i t gh (liftGh e)) eg ^ 2 / m)
        |B.base.cfg.minImpurity - 1 / 10 ^ 6| / 2 ^ 50 + FP.tiny ≤ _
      gcongr

theorem redispatch_weights {α : Type} {S : Setup K α} {g : Grow} {masks : List (Dict Nat Int)}
    {dataPos : DTable K (SparseVec Cell × Nat × Nat)} {w w' : Option (DTable K Rat)}
    {disp : DTable K Disp} (h : redispatch S g masks dataPos w = .ok (disp, w')) :
    ∃ t, w' = some t ∧ t.WF := by
  unfold redispatch at h
  simp only [bind, Except.bind] at h
  split at h; · cases h
  rename_i res h1
  split at h; · cases h
  rename_i toHost h2
  split at h; · cases h
  rename_i res1 h3
  split at h; · cases h
  rename_i leaf h4
  split at h; · cases h
  rename_i leafW h5
  split at h; · cases h
  rename_i wt h6
  split at h; · cases h
  split at h; · cases h
  split at h; · cases h
  split at h; · cases h
  cases h
  refine ⟨wt, rfl, ?_⟩
  obtain ⟨wLW, _⟩ := DTable.mapValues_inv h5
  unfold addWeights at h6
  cases w with
  | none => cases h6; exact wLW
  | some w => exact (DTable.union_inv wLW h6).1

theorem fit_weights {α : Type} {S : Setup K α} {F : Fitted K} (h : fit S = .ok F)
    (hd : 1 ≤ S.maxDepth) : ∃ T, F.weights = some T ∧ T.WF := by
  obtain ⟨st0, st, h1, h2, _, _, _, hw, _⟩ := fit_inv h
  have hq : st.grow.queue = [] := levels_done level_last _ 0 _ st (fun h => by omega) h2
  obtain ⟨_, _, hp⟩ := levels_induct (S := S)
    (fun _ st => st.grow.queue ≠ [] ∨ ∃ t, st.weights = some t ∧ t.WF)
    (fun dep reach st st' _ _ hl => by
      obtain ⟨_, _, _, _, _, _, _, _, hr⟩ := level_inv hl
      exact Or.inr (redispatch_weights hr)) _ 0 st0 st (by
        obtain ⟨_, _, _, _, _, _, _, rfl⟩ := initState_inv h1
        exact Or.inl (by simp)) h2
  rcases hp with hp | hp
  · exact absurd hq hp
  · rw [hw]; exact hp

theorem boostTree_ok [B.base.cfg.Exact] (hb : PaillierBoost p q sk lo hi m gmax hmax eg eh G B y rows) {init : List Rat}
    (hdim : init.length = B.dim) {gh : DTable K (List Rat × List Rat)} {i t : Nat} (ht : t < B.dim)
    {st : BoostState K} {fits : List (Fitted K)} (hlen : fits.length = i * B.dim + t)
    (hi' : TrainInv B y init st fits) (hg : GradsOf B y init fits i gh) :
    ∃ st', boostTree B gh i t st = .ok st' := by
  have hgrad : ∀ k v, gh.data.get? k = some v → ∃ p, component t v = .ok p ∧ G p := by
    intro k v hv
    have hky := (hg.keys k).mp (Dict.mem_keys_of_get? hv)
    obtain ⟨l, hl⟩ := Dict.exists_get?_of_mem hky
    obtain ⟨a, b, h1, h2⟩ := hg.val k l hl
    rw [hv, Option.some.injEq] at h2
    subst h2
    obtain ⟨g', h', q1, q2, q3, q4⟩ := hb.grads k l _ hl (by
      show (scoreAfter init B.rate B.dim (weightIn fits k) (i * B.dim)).length = B.dim
      unfold scoreAfter; rw [List.length_mapIdx]; exact hdim)
    rw [h1] at q1
    cases q1
    refine ⟨(a[t]'(by omega), b[t]'(by omega)), ?_, q4 t _ _ (List.getElem?_eq_getElem _) (List.getElem?_eq_getElem _)⟩
    unfold component getAt
    simp only [List.getElem?_eq_getElem (by omega : t < a.length), List.getElem?_eq_getElem (by omega : t < b.length),
      bind, Except.bind]
    rfl
  obtain ⟨g, h1⟩ := DTable.mapValuesM_succeeds hg.wf (component t) (fun k v hv => by
    obtain ⟨p, hp, _⟩ := hgrad k v hv
    exact ⟨p, hp⟩)
  obtain ⟨g1, g2⟩ := DTable.mapValuesM_inv h1
  have hkeys : ∀ k, k ∈ g.data.keys ↔ k ∈ y.data.keys := by
    intro k
    rw [← hg.keys k]
    constructor
    · intro hkk
      obtain ⟨p, hp⟩ := Dict.exists_get?_of_mem hkk
      obtain ⟨v, hv, _⟩ := (g2 k p).mp hp
      exact Dict.mem_keys_of_get? hv
    · intro hkk
      obtain ⟨v, hv⟩ := Dict.exists_get?_of_mem hkk
      obtain ⟨p, _, hp⟩ := DTable.mapValuesM_total h1 k v hv
      exact Dict.mem_keys_of_get? hp
  obtain ⟨egh, e1, e2, e3, e4⟩ := hb.tree i t g1 hkeys (by
    intro x hx
    obtain ⟨v, hv, hc⟩ := (g2 x.1 x.2).mp (Dict.get?_of_mem g1 hx)
    obtain ⟨p, hp, hG⟩ := hgrad x.1 v hv
    rw [hc] at hp
    cases hp
    exact hG)
  obtain ⟨F, h3⟩ : ∃ F, fit (treeSetup B i t g egh) = .ok F := by
    obtain ⟨F, hF, _⟩ := C28_run p q sk lo hi m eg eh _ rows e2 e3 e4
    exact ⟨F, hF⟩
  obtain ⟨P, h4, _⟩ := C36_trained (treeSetup B i t g egh) hb.depth.1 hb.depth.2
    (by rw [treeSetup_names]; exact hb.names) (by
      intro j P hP
      obtain ⟨P0, hP0, rfl⟩ := treeSetup_party_inv hP
      exact (hb.raw j P0 hP0).2.2.1) F h3
  have hsame := hb.sameData
  have hk := C28_every_sample_once (treeSetup B i t g egh) hb.depth.1 (by
    intro H hH k row hrow
    obtain ⟨j, hj⟩ := List.mem_iff_getElem?.mp hH
    obtain ⟨P0, hP0, rfl⟩ := treeSetup_party_inv (j := some j) hj
    exact Dict.exists_get?_of_mem (hsame.hosts P0 (List.mem_of_getElem? hP0) k
        ((hsame.guest k).mp (Dict.mem_keys_of_get? hrow))))
    (by rw [treeSetup_names]; exact hb.names) F h3
  have hdivmod : fits.length % B.dim = t := by
    rw [hlen, Nat.mul_comm, Nat.mul_add_mod]; exact Nat.mod_eq_of_lt ht
  obtain ⟨T, hT, hTwf⟩ := fit_weights h3 hb.depth.1
  obtain ⟨s, h5, _⟩ := updateF_ok init B.rate hdivmod (by omega) hTwf y.data.keys
    (fun k => weightIn (fits ++ [F]) k) (scores := st.scores) (by
      intro k
      rw [hi'.scores k, scoreAfter_append _ _ _ _ _ _ (le_refl _)]) (by
      intro k
      have htw : trainedWeight F k = T.data.get? k := by unfold trainedWeight; rw [hT]; rfl
      rw [← htw]
      by_cases hky : k ∈ y.data.keys
      · rw [if_pos hky]
        obtain ⟨row, hrow⟩ := Dict.exists_get?_of_mem ((hsame.guest k).mpr hky)
        obtain ⟨_, n, _, _, hw⟩ := hk.2 k row hrow
        unfold weightIn
        rw [List.getElem?_append_right (le_refl _)]
        simp [hw]
      · rw [if_neg hky]
        exact hk.1 k ((Dict.get?_eq_none_iff _ _).mpr fun hc => hky ((hsame.guest k).mp hc)))
  apply Exists.intro
  · unfold boostTree
    simp only [bind, Except.bind, h1, e1, h3, h4, hT, h5]
    rfl

theorem boostTrees_ok [B.base.cfg.Exact] (hb : PaillierBoost p q sk lo hi m gmax hmax eg eh G B y rows) {init : List Rat}
    (hdim : init.length = B.dim) {gh : DTable K (List Rat × List Rat)} {i : Nat} :
    ∀ (r t : Nat) (st : BoostState K) (fits : List (Fitted K)), t + r = B.dim →
    fits.length = i * B.dim + t → TrainInv B y init st fits → GradsOf B y init fits i gh →
    ∃ st', boostTrees B gh i r t st = .ok st'
  | 0, t, st, fits, _, _, _, _ => ⟨st, rfl⟩
  | r + 1, t, st, fits, hr, hlen, hi', hg => by
    obtain ⟨st1, h1⟩ := boostTree_ok hb hdim (by omega : t < B.dim) hlen hi' hg
    obtain ⟨F, f1, f2, _⟩ := boostTree_inv hb.depth.1 hb.sameData hdim (by omega) hlen hi' hg h1
    obtain ⟨st', h2⟩ := boostTrees_ok hb hdim r (t + 1) st1 (fits ++ [F]) (by omega) (by simp; omega) f1 f2
    refine ⟨st', ?_⟩
    unfold boostTrees
    simp only [bind, Except.bind, h1]
    exact h2

theorem boostRound_ok [B.base.cfg.Exact] (hb : PaillierBoost p q sk lo hi m gmax hmax eg eh G B y rows) {init : List Rat}
    (hdim : init.length = B.dim) {i : Nat} {st : BoostState K} {fits : List (Fitted K)}
    (hlen : fits.length = i * B.dim) (hi' : TrainInv B y init st fits) :
    ∃ st', boostRound B y i st = .ok st' := by
  obtain ⟨gh, h1⟩ := DTable.joinM_succeeds y hi'.wf B.gradHess (by
    intro k l f hl hf
    rw [hi'.scores k, if_pos (Dict.mem_keys_of_get? hl), Option.some.injEq] at hf
    subst hf
    obtain ⟨g, h, e, _⟩ := hb.grads k l (scoreAfter init B.rate B.dim (weightIn fits k) fits.length) hl (by
      unfold scoreAfter; rw [List.length_mapIdx]; exact hdim)
    exact ⟨_, e⟩)
  obtain ⟨j1, j2, j3⟩ := DTable.joinM_inv h1
  have hg : GradsOf B y init fits i gh := by
    refine ⟨j1, fun k => ⟨fun hk => ?_, fun hk => ?_⟩, fun k l' hl => ?_⟩
    · obtain ⟨p, hp⟩ := Dict.exists_get?_of_mem hk
      obtain ⟨_, _, hv, _⟩ := (j2 k p).mp hp
      exact Dict.mem_keys_of_get? hv
    · obtain ⟨v, hv⟩ := Dict.exists_get?_of_mem hk
      obtain ⟨x, _, hx⟩ := j3 k v _ hv (by rw [hi'.scores k, if_pos hk])
      exact Dict.mem_keys_of_get? hx
    · obtain ⟨x, x1, x2⟩ := j3 k l' _ hl (by rw [hi'.scores k, if_pos (Dict.mem_keys_of_get? hl)])
      rw [hlen] at x1
      exact ⟨x.1, x.2, x1, x2⟩
  obtain ⟨st1, h2⟩ := boostTrees_ok hb hdim B.dim 0 st fits (by omega) (by omega) hi' hg
  obtain ⟨more, m1, _⟩ := boostTrees_inv hb.depth.1 hb.sameData hdim B.dim 0 st st1 fits (by omega)
    (by omega) hi' hg h2
  obtain ⟨l, h3⟩ := hb.loss st1.scores m1.wf (by
    intro k
    constructor
    · intro hk
      obtain ⟨v, hv⟩ := Dict.exists_get?_of_mem hk
      rw [m1.scores k] at hv
      by_contra hc
      rw [if_neg hc] at hv; cases hv
    · intro hk
      exact Dict.mem_keys_of_get? (by rw [m1.scores k, if_pos hk]))
  apply Exists.intro
  · unfold boostRound
    simp only [bind, Except.bind, h1, h2, h3]
    rfl

theorem boostLoop_ok [B.base.cfg.Exact] (hb : PaillierBoost p q sk lo hi m gmax hmax eg eh G B y rows) {init : List Rat}
    (hdim : init.length = B.dim) :
    ∀ (r i : Nat) (st : BoostState K) (fits : List (Fitted K)), fits.length = i * B.dim →
    TrainInv B y init st fits → ∃ st', boostLoop B y r i st = .ok st'
  | 0, i, st, fits, _, _ => ⟨st, rfl⟩
  | r + 1, i, st, fits, hlen, hi' => by
    obtain ⟨st1, h1⟩ := boostRound_ok hb hdim hlen hi'
    obtain ⟨more, l, m1, m2, _⟩ := boostRound_inv hb.depth.1 hb.sameData hdim hlen hi' h1
    unfold boostLoop
    simp only [bind, Except.bind, h1]
    by_cases hs : (stopTest B st1).1 = true
    · rw [if_pos hs]; exact ⟨_, rfl⟩
    · rw [if_neg hs]
      exact boostLoop_ok hb hdim r (i + 1) _ (fits ++ more) m2 m1.stop

theorem boost_ok [B.base.cfg.Exact] (hb : PaillierBoost p q sk lo hi m gmax hmax eg eh G B y rows) {init : List Rat}
    (hdim : init.length = B.dim) : ∃ st, boost B init y = .ok st := by
  have h1 := DTable.mapValues_ok hb.wf (fun _ : L => init)
  obtain ⟨w1, w2⟩ := DTable.mapValues_inv h1
  unfold boost
  simp only [bind, Except.bind, h1]
  exact boostLoop_ok hb hdim B.rounds 0 _ [] (by simp)
      ⟨.nil, w1, by
        intro k
        simp only [List.length_nil]
        rw [scoreAfter_zero, w2]
        by_cases hk : k ∈ y.data.keys
        · obtain ⟨l, hl⟩ := Dict.exists_get?_of_mem hk
          rw [if_pos hk, hl]; rfl
        · rw [if_neg hk, (Dict.get?_eq_none_iff _ _).mpr hk]; rfl, by simp⟩

end DTree
end Verif
