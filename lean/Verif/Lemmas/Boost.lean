import Verif.Spec.C32
import Verif.Lemmas.Histogram
import Verif.Lemmas.Save
import Verif.Lemmas.Predict
import Verif.Props.C29
import Verif.Props.C36

set_option autoImplicit false

namespace Verif
namespace DTree

open Spec Histogram Binning

variable {K : Type} [DecidableEq K] {α L : Type}

/-! ### Scores -/

theorem scoreAfter_get (init : List Rat) (rate : Rate) (dim : Nat) (W : Nat → Rat) (n c : Nat) :
    (scoreAfter init rate dim W n)[c]? = (init[c]?).map fun x =>
      ((List.range n).filter fun m => m % dim = c).foldl
        (fun s m => rate.rnd (s + rate.rnd (rate.value * W m))) x := by
  unfold scoreAfter
  rw [List.getElem?_mapIdx]

theorem scoreAfter_congr (init : List Rat) (rate : Rate) (dim : Nat) {W W' : Nat → Rat} (n : Nat)
    (h : ∀ m < n, W m = W' m) : scoreAfter init rate dim W n = scoreAfter init rate dim W' n := by
  apply List.ext_getElem?
  intro c
  rw [scoreAfter_get, scoreAfter_get]
  congr 1
  funext x
  apply List.foldl_ext
  intro s m hm
  rw [h m (List.mem_range.mp (List.mem_of_mem_filter hm))]

theorem scoreAfter_zero (init : List Rat) (rate : Rate) (dim : Nat) (W : Nat → Rat) :
    scoreAfter init rate dim W 0 = init := by
  apply List.ext_getElem?
  intro c
  rw [scoreAfter_get]
  cases init[c]? <;> simp

theorem accumulateF_ok (init : List Rat) (rate : Rate) {dim : Nat} (W : Nat → Rat) {n t : Nat}
    (hn : n % dim = t) (ht : t < init.length) :
    accumulateF rate t (scoreAfter init rate dim W n) (W n) = .ok (scoreAfter init rate dim W (n + 1)) := by
  have hx : (scoreAfter init rate dim W n)[t]? = some
      (((List.range n).filter fun m => m % dim = t).foldl
        (fun s m => rate.rnd (s + rate.rnd (rate.value * W m))) init[t]) := by
    rw [scoreAfter_get, List.getElem?_eq_getElem ht]; rfl
  unfold accumulateF
  rw [updAt_ok _ t (fun x => .ok (rate.rnd (x + rate.rnd (rate.value * W n)))) _ _ hx rfl]
  congr 1
  apply List.ext_getElem?
  intro c
  rw [List.getElem?_set, scoreAfter_get, scoreAfter_get]
  by_cases hc : t = c
  · subst hc
    have hlen : t < (scoreAfter init rate dim W n).length := (List.getElem?_eq_some_iff.mp hx).1
    rw [if_pos rfl, if_pos hlen, List.getElem?_eq_getElem ht]
    simp only [Option.map_some, Option.some.injEq]
    rw [List.range_succ, List.filter_append, List.foldl_append]
    simp [hn]
  · rw [if_neg hc]
    congr 1
    funext x
    rw [List.range_succ, List.filter_append]
    have : ¬ n % dim = c := by omega
    simp [this]

/-- Adding one tree. -/
theorem updateF_inv (init : List Rat) (rate : Rate) {dim : Nat} {n t : Nat} (hn : n % dim = t)
    (ht : t < init.length) {scores s : DTable K (List Rat)} {T : DTable K Rat}
    (keys : List K) (W : K → Nat → Rat)
    (hs : ∀ k, scores.data.get? k = if k ∈ keys then some (scoreAfter init rate dim (W k) n) else none)
    (hw : ∀ k, T.data.get? k = if k ∈ keys then some (W k n) else none)
    (h1 : updateF rate t scores (some T) = .ok s) :
    s.WF ∧
      ∀ k, s.data.get? k = if k ∈ keys then some (scoreAfter init rate dim (W k) (n + 1)) else none := by
  have h1' : scores.joinM T (accumulateF rate t) = .ok s := h1
  obtain ⟨h2, h3, h4⟩ := DTable.joinM_inv h1'
  refine ⟨h2, fun k => ?_⟩
  by_cases hk : k ∈ keys
  · obtain ⟨x, x1, x2⟩ := h4 k _ _ (by rw [hs, if_pos hk]) (by rw [hw, if_pos hk])
    rw [accumulateF_ok init rate (W k) hn ht] at x1
    cases x1
    rw [if_pos hk, x2]
  · rw [if_neg hk]
    cases hx : s.data.get? k with
    | none => rfl
    | some x =>
      obtain ⟨v, w, a, _⟩ := (h3 k x).mp hx
      rw [hs, if_neg hk] at a; cases a

theorem updateF_ok (init : List Rat) (rate : Rate) {dim : Nat} {n t : Nat} (hn : n % dim = t)
    (ht : t < init.length) {scores : DTable K (List Rat)} {T : DTable K Rat} (hT : T.WF)
    (keys : List K) (W : K → Nat → Rat)
    (hs : ∀ k, scores.data.get? k = if k ∈ keys then some (scoreAfter init rate dim (W k) n) else none)
    (hw : ∀ k, T.data.get? k = if k ∈ keys then some (W k n) else none) :
    ∃ s, updateF rate t scores (some T) = .ok s ∧ s.WF ∧
      ∀ k, s.data.get? k = if k ∈ keys then some (scoreAfter init rate dim (W k) (n + 1)) else none := by
  unfold updateF
  have hf : ∀ k v w, scores.data.get? k = some v → T.data.get? k = some w →
      k ∈ keys ∧ accumulateF rate t v w = .ok (scoreAfter init rate dim (W k) (n + 1)) := by
    intro k v w hv hw'
    rw [hs] at hv
    rw [hw] at hw'
    by_cases hk : k ∈ keys
    · rw [if_pos hk, Option.some.injEq] at hv hw'
      subst hv; subst hw'
      exact ⟨hk, accumulateF_ok init rate (W k) hn ht⟩
    · rw [if_neg hk] at hv; cases hv
  obtain ⟨s, h1⟩ := DTable.joinM_succeeds scores hT (accumulateF rate t) (fun k v w hv hw' =>
    ⟨_, (hf k v w hv hw').2⟩)
  exact ⟨s, h1, updateF_inv init rate hn ht keys W hs hw h1⟩

/-! ### Only the names of the parties matter -/

omit [DecidableEq K] in
theorem splitAt_of_names {S S' : Setup K α} {F : Fitted K}
    (hh : S'.hosts.map Party.idx = S.hosts.map Party.idx) {i : Nat} {j : Option Nat} {f : Nat} {t : Rat} :
    SplitAt S F i j f t ↔ SplitAt S' F i j f t := by
  suffices h : ∀ S S' : Setup K α, S'.hosts.map Party.idx = S.hosts.map Party.idx →
      SplitAt S F i j f t → SplitAt S' F i j f t from ⟨h S S' hh, h S' S hh.symm⟩
  rintro S S' hh ⟨n, P, d, h1, h2, h3, h4, h5, h6⟩
  cases j with
  | none => exact ⟨n, S'.guest, d, h1, h2, h3, rfl, h5, h6⟩
  | some j =>
    have h4' : S.hosts[j]? = some P := h4
    have := congrArg (fun l => l[j]?) hh
    simp only [List.getElem?_map, h4'] at this
    cases hP : S'.hosts[j]? with
    | none => rw [hP] at this; cases this
    | some P' =>
      rw [hP] at this
      simp only [Option.map_some, Option.some.injEq] at this
      exact ⟨n, P', d, h1, h2, h3, hP, by rw [h5]; simp [siteName, this], h6⟩

theorem reaches_of_names {S S' : Setup K α} {F : Fitted K}
    (hh : S'.hosts.map Party.idx = S.hosts.map Party.idx) (rows : Option Nat → DTable K (List Rat))
    (k : K) (i : Nat) : Reaches S F rows k i ↔ Reaches S' F rows k i := by
  have : Step S F rows k = Step S' F rows k := by
    funext a c
    apply propext
    constructor
    · rintro ⟨j, f, t, row, n, h1, h2⟩; exact ⟨j, f, t, row, n, (splitAt_of_names hh).mp h1, h2⟩
    · rintro ⟨j, f, t, row, n, h1, h2⟩; exact ⟨j, f, t, row, n, (splitAt_of_names hh).mpr h1, h2⟩
  unfold Reaches
  rw [this]

/-! ### Prediction -/

/-- Inversion and completion of the prediction loops. -/
theorem predictRound_ok (hosts : List (Party K)) (init : List Rat) (rate : Rate) {dim : Nat}
    (hdim : init.length = dim) (trees : List Saved) (g : DTable K (SparseVec Rat))
    (hs : List (DTable K (SparseVec Rat))) (fuel : Nat) (keys : List K) (W : K → Nat → Rat)
    (ht : ∀ (n : Nat) P, trees[n]? = some P → ∃ T, predictTree (load (K := K) P).tree (load (K := K) P).guestMask g
      (predHosts hosts (load (K := K) P).hostMasks hs) fuel = .ok T ∧ T.WF ∧
      ∀ k, T.data.get? k = if k ∈ keys then some (W k n) else none) (i : Nat)
    (hi : (i + 1) * dim ≤ trees.length) :
    ∀ r t scores, t + r = dim → scores.WF →
      (∀ k, scores.data.get? k = if k ∈ keys then some (scoreAfter init rate dim (W k) (i * dim + t)) else none) →
      ∃ s, predictRound hosts rate dim trees g hs fuel i r t scores = .ok s ∧ s.WF ∧
        ∀ k, s.data.get? k = if k ∈ keys then some (scoreAfter init rate dim (W k) ((i + 1) * dim)) else none
  | 0, t, scores, hr, hwf, hsc => by
    refine ⟨scores, rfl, hwf, ?_⟩
    have : i * dim + t = (i + 1) * dim := by rw [Nat.add_mul]; omega
    rw [← this]
    exact hsc
  | r + 1, t, scores, hr, hwf, hsc => by
    have hb : (i + 1) * dim = i * dim + dim := by rw [Nat.add_mul]; omega
    have hlt : i * dim + t < trees.length := by omega
    obtain ⟨T, h1, h2, h3⟩ := ht _ _ (List.getElem?_eq_getElem hlt)
    have hmod : (i * dim + t) % dim = t := by
      rw [Nat.mul_comm, Nat.mul_add_mod]
      exact Nat.mod_eq_of_lt (by omega)
    obtain ⟨s, s1, s2, s3⟩ := updateF_ok init rate hmod (by omega) h2 keys W hsc h3
    obtain ⟨s', e1, e2⟩ := predictRound_ok hosts init rate hdim trees g hs fuel keys W ht i hi r (t + 1) s
      (by omega) s2 s3
    refine ⟨s', ?_, e2⟩
    unfold predictRound predictAdd
    simp only [getAt, List.getElem?_eq_getElem hlt, bind, Except.bind, h1, s1]
    exact e1

theorem predictRounds_ok (hosts : List (Party K)) (init : List Rat) (rate : Rate) {dim : Nat}
    (hdim : init.length = dim) (trees : List Saved) (g : DTable K (SparseVec Rat))
    (hs : List (DTable K (SparseVec Rat))) (fuel : Nat) (keys : List K) (W : K → Nat → Rat)
    (ht : ∀ (n : Nat) P, trees[n]? = some P → ∃ T, predictTree (load (K := K) P).tree (load (K := K) P).guestMask g
      (predHosts hosts (load (K := K) P).hostMasks hs) fuel = .ok T ∧ T.WF ∧
      ∀ k, T.data.get? k = if k ∈ keys then some (W k n) else none) (R : Nat)
    (hR : R * dim ≤ trees.length) :
    ∀ r i scores, i + r = R → scores.WF →
      (∀ k, scores.data.get? k = if k ∈ keys then some (scoreAfter init rate dim (W k) (i * dim)) else none) →
      ∃ s, predictRounds hosts rate dim trees g hs fuel r i scores = .ok s ∧ s.WF ∧
        ∀ k, s.data.get? k = if k ∈ keys then some (scoreAfter init rate dim (W k) (R * dim)) else none
  | 0, i, scores, hr, hwf, hsc => by
    have : i = R := by omega
    subst this
    exact ⟨scores, rfl, hwf, hsc⟩
  | r + 1, i, scores, hr, hwf, hsc => by
    obtain ⟨s, s1, s2, s3⟩ := predictRound_ok hosts init rate hdim trees g hs fuel keys W ht i
      (le_trans (Nat.mul_le_mul_right _ (by omega)) hR) dim 0 scores (by omega) hwf hsc
    obtain ⟨s', e1, e2⟩ := predictRounds_ok hosts init rate hdim trees g hs fuel keys W ht R hR r (i + 1) s
      (by omega) s2 s3
    refine ⟨s', ?_, e2⟩
    unfold predictRounds
    simp only [bind, Except.bind, s1]
    exact e1

omit [DecidableEq K] in
/-- A usable tree stays usable when only the parties' names matter. -/
theorem usable_of_names {S S' : Setup K α} {F : Fitted K}
    (hh : S'.hosts.map Party.idx = S.hosts.map Party.idx) (hu : UsableTree S F) : UsableTree S' F := by
  have hlen : S'.hosts.length = S.hosts.length := by
    have := congrArg List.length hh
    simpa using this
  refine ⟨hu.wf, hu.leaf, fun i n hn hl => ?_, by rw [hlen]; exact hu.masks, by rw [hh]; exact hu.names⟩
  obtain ⟨j, f, t, h⟩ := hu.split i n hn hl
  exact ⟨j, f, t, (splitAt_of_names hh).mp h⟩

theorem alignAll_hostRows {S : Setup K α} {rows : Option Nat → DTable K (List Rat)}
    (hr : SameSamples S rows) : ∃ hs, alignAll (hostRows S rows) = .ok hs := by
  obtain ⟨hs, h1, _⟩ := alignAll_ok (hostRows S rows) (by
    intro t ht
    obtain ⟨j, hj, rfl⟩ := List.mem_map.mp ht
    have hj' := List.mem_range.mp hj
    have hP : partyAt S (some j) = some S.hosts[j] := List.getElem?_eq_getElem hj'
    refine ⟨hr.wf _ _ hP, fun hc => ?_⟩
    obtain ⟨p, l, hpl⟩ := List.exists_cons_of_ne_nil hr.some
    have := (hr.keys _ _ hP p.1).mpr (by rw [hpl]; simp [Dict.keys])
    rw [hc] at this
    simp [Dict.keys] at this)
  exact ⟨hs, h1⟩

/-- Prediction of the scores. -/
theorem predictScores_ok {S : Setup K α} {Fs : List (Fitted K)} {Ps : List Saved}
    (hsave : List.Forall₂ (fun F P => save F = .ok P) Fs Ps) (hu : ∀ F ∈ Fs, UsableTree S F)
    {rows : Option Nat → DTable K (List Rat)} (hr : SameSamples S rows) (init : List Rat) (rate : Rate)
    {dim : Nat} (hdim : init.length = dim) (hpos : 0 < dim) {fuel : Nat}
    (hfuel : ∀ F ∈ Fs, F.tree.length ≤ fuel) :
    ∃ (W : K → Nat → Rat) (T : DTable K (List Rat)),
      predictScores S.hosts rate dim init Ps (rows none) (hostRows S rows) fuel = .ok T ∧ T.WF ∧
      (∀ k, T.data.get? k = if k ∈ (rows none).data.keys then
        some (scoreAfter init rate dim (W k) (Ps.length / dim * dim)) else none) ∧
      ∀ (n : Nat) F, Fs[n]? = some F → ∀ k ∈ (rows none).data.keys, LeafWeight S F rows k (W k n) := by
  obtain ⟨g, g1, g2, g3⟩ := alignRows_ok (hr.wf none S.guest rfl) hr.some
  obtain ⟨hs, h1⟩ := alignAll_hostRows hr
  have hlen := hsave.length_eq
  have htree : ∀ n : Nat, ∃ T : DTable K Rat, T.WF ∧ ∀ F P, Fs[n]? = some F → Ps[n]? = some P →
      predictTree (load (K := K) P).tree (load (K := K) P).guestMask g
        (predHosts S.hosts (load (K := K) P).hostMasks hs) fuel = .ok T ∧
      (∀ k w, T.data.get? k = some w → k ∈ (rows none).data.keys ∧ LeafWeight S F rows k w) ∧
      ∀ k ∈ (rows none).data.keys, ∃ w, T.data.get? k = some w := by
    intro n
    by_cases hn : n < Fs.length
    · have hF := List.getElem?_eq_getElem hn
      have hn' : n < Ps.length := by omega
      have hP := List.getElem?_eq_getElem hn'
      have hmem : Fs[n] ∈ Fs := List.getElem_mem hn
      have hsv : save Fs[n] = .ok Ps[n] := by
        have := List.forall₂_iff_get.mp hsave
        exact this.2 n hn hn'
      obtain ⟨T, t1, t2, t3⟩ := predictRows_ok (hu _ hmem) hr (hfuel _ hmem)
      rw [← C36_reload S Fs[n] (hu _ hmem) Ps[n] hsv] at t1
      unfold predictRows at t1
      simp only [bind, Except.bind, g1, h1] at t1
      refine ⟨T, t2, fun F P e1 e2 => ?_⟩
      rw [hF, Option.some.injEq] at e1
      rw [hP, Option.some.injEq] at e2
      subst e1; subst e2
      exact ⟨t1, t3⟩
    · refine ⟨⟨[]⟩, by unfold DTable.WF Dict.WF; simp, fun F P e1 _ => ?_⟩
      rw [List.getElem?_eq_none (by omega)] at e1; cases e1
  choose Tt htwf ht using htree
  have hm := DTable.mapValues_ok g2 (fun _ => init)
  obtain ⟨m1, m2⟩ := DTable.mapValues_inv hm
  have hkey : ∀ (n : Nat) F, Fs[n]? = some F → ∃ P, Ps[n]? = some P := by
    intro n F hF
    have := (List.getElem?_eq_some_iff.mp hF).1
    exact ⟨_, List.getElem?_eq_getElem (by omega : n < Ps.length)⟩
  obtain ⟨s, s1, s2, s3⟩ := predictRounds_ok S.hosts init rate hdim Ps g hs fuel (rows none).data.keys
    (fun k n => ((Tt n).data.get? k).getD 0) (by
      intro n P hP
      have hn := (List.getElem?_eq_some_iff.mp hP).1
      obtain ⟨t1, t2, t3⟩ := ht n _ P (List.getElem?_eq_getElem (by omega : n < Fs.length)) hP
      refine ⟨Tt n, t1, htwf n, fun k => ?_⟩
      by_cases hk : k ∈ (rows none).data.keys
      · obtain ⟨w, hw⟩ := t3 k hk
        rw [if_pos hk, hw]; rfl
      · rw [if_neg hk]
        cases hx : (Tt n).data.get? k with
        | none => rfl
        | some w => exact absurd (t2 k w hx).1 hk) (Ps.length / dim) (Nat.div_mul_le_self _ _)
    (Ps.length / dim) 0 _ (by omega) m1 (by
      intro k
      rw [m2, g3, Nat.zero_mul, scoreAfter_zero]
      by_cases hk : k ∈ (rows none).data.keys
      · obtain ⟨row, hrow⟩ := Dict.exists_get?_of_mem hk
        rw [if_pos hk, hrow]; rfl
      · rw [if_neg hk, (Dict.get?_eq_none_iff _ _).mpr hk]; rfl)
  refine ⟨_, s, ?_, s2, s3, ?_⟩
  · unfold predictScores
    simp only [bind, Except.bind, g1, h1, hm]
    rw [if_neg (by omega)]
    exact s1
  · intro n F hF k hk
    obtain ⟨P, hP⟩ := hkey n F hF
    obtain ⟨_, t2, t3⟩ := ht n F P hF hP
    obtain ⟨w, hw⟩ := t3 k hk
    show LeafWeight S F rows k (((Tt n).data.get? k).getD 0)
    rw [hw]
    exact (t2 k w hw).2

/-! ### Training -/

omit [DecidableEq K] in
theorem treeSetup_names (B : Boost K α L) (i t : Nat) (gh : DTable K (Rat × Rat))
    (egh : DTable K (α × α)) :
    (treeSetup B i t gh egh).hosts.map Party.idx = B.base.hosts.map Party.idx := by
  unfold treeSetup
  apply List.ext_getElem?
  intro j
  simp only [List.getElem?_map, List.getElem?_mapIdx]
  cases B.base.hosts[j]? <;> rfl

omit [DecidableEq K] in
theorem treeSetup_party (B : Boost K α L) (i t : Nat) (gh : DTable K (Rat × Rat))
    (egh : DTable K (α × α)) (j : Option Nat) :
    partyAt (treeSetup B i t gh egh) j =
      (partyAt B.base j).map fun P => { P with valid := B.valid i t j } := by
  cases j with
  | none => rfl
  | some j =>
    simp only [partyAt, treeSetup, List.getElem?_mapIdx]

theorem weightIn_append (fits : List (Fitted K)) (F : Fitted K) (k : K) {m : Nat}
    (h : m < fits.length) : weightIn (fits ++ [F]) k m = weightIn fits k m := by
  unfold weightIn
  rw [List.getElem?_append_left h]

structure TrainInv (B : Boost K α L) (y : DTable K L) (init : List Rat) (st : BoostState K)
    (fits : List (Fitted K)) : Prop where
  saved : List.Forall₂ (fun F P => save F = .ok P) fits st.trees
  wf : st.scores.WF
  scores : ∀ k, st.scores.data.get? k = if k ∈ y.data.keys then
    some (scoreAfter init B.rate B.dim (weightIn fits k) fits.length) else none
  trained : ∀ (n : Nat) F, fits[n]? = some F → TrainedOn B y init fits n F

/-- The gradient table of a round. -/
structure GradsOf (B : Boost K α L) (y : DTable K L) (init : List Rat) (fits : List (Fitted K)) (i : Nat)
    (gh : DTable K (List Rat × List Rat)) : Prop where
  wf : gh.WF
  keys : ∀ k, k ∈ gh.data.keys ↔ k ∈ y.data.keys
  val : ∀ k l, y.data.get? k = some l → ∃ g h,
    B.gradHess l (scoreAfter init B.rate B.dim (weightIn fits k) (i * B.dim)) = .ok (g, h) ∧
    gh.data.get? k = some (g, h)

theorem scoreAfter_append (init : List Rat) (rate : Rate) (dim : Nat) (fits : List (Fitted K))
    (F : Fitted K) (k : K) {n : Nat} (h : n ≤ fits.length) :
    scoreAfter init rate dim (weightIn (fits ++ [F]) k) n = scoreAfter init rate dim (weightIn fits k) n :=
  scoreAfter_congr _ _ _ _ fun m hm => weightIn_append fits F k (by omega)

theorem GradsOf.append {B : Boost K α L} {y : DTable K L} {init : List Rat} {fits : List (Fitted K)}
    {i : Nat} {gh : DTable K (List Rat × List Rat)} (h : GradsOf B y init fits i gh)
    (hi : i * B.dim ≤ fits.length) (F : Fitted K) : GradsOf B y init (fits ++ [F]) i gh := by
  refine ⟨h.wf, h.keys, fun k l hl => ?_⟩
  rw [scoreAfter_append _ _ _ _ _ _ hi]
  exact h.val k l hl

theorem component_inv {t : Nat} {gh : List Rat × List Rat} {p : Rat × Rat}
    (h : component t gh = .ok p) : gh.1[t]? = some p.1 ∧ gh.2[t]? = some p.2 := by
  unfold component getAt at h
  simp only [bind, Except.bind] at h
  cases h1 : gh.1[t]? with
  | none => rw [h1] at h; cases h
  | some a =>
    rw [h1] at h
    cases h2 : gh.2[t]? with
    | none => rw [h2] at h; cases h
    | some b => rw [h2] at h; cases h; exact ⟨rfl, rfl⟩

theorem boostTree_inv {B : Boost K α L} {y : DTable K L} (hd : 1 ≤ B.base.maxDepth)
    (hsame : SameData B y) {init : List Rat} (hdim : init.length = B.dim)
    {gh : DTable K (List Rat × List Rat)} {i t : Nat} (ht : t < B.dim) {st st' : BoostState K}
    {fits : List (Fitted K)} (hlen : fits.length = i * B.dim + t) (hi : TrainInv B y init st fits)
    (hg : GradsOf B y init fits i gh) (h : boostTree B gh i t st = .ok st') :
    ∃ F, TrainInv B y init st' (fits ++ [F]) ∧ GradsOf B y init (fits ++ [F]) i gh ∧
      st'.losses = st.losses ∧ st'.pre = st.pre ∧ st'.flags = st.flags ∧
      st'.imps = addImportances st.imps F.imps := by
  unfold boostTree at h
  simp only [bind, Except.bind] at h
  cases h1 : gh.mapValuesM (component t) with
  | error e => rw [h1] at h; cases h
  | ok g =>
  rw [h1] at h; simp only at h
  cases h2 : B.enc i t g with
  | error e => rw [h2] at h; cases h
  | ok e =>
  rw [h2] at h; simp only at h
  cases h3 : fit (treeSetup B i t g e) with
  | error e => rw [h3] at h; cases h
  | ok F =>
  rw [h3] at h; simp only at h
  cases h4 : save F with
  | error e => rw [h4] at h; cases h
  | ok P =>
  rw [h4] at h; simp only at h
  cases h5 : updateF B.rate t st.scores F.weights with
  | error e => rw [h5] at h; cases h
  | ok scores =>
  rw [h5] at h
  cases h
  have hidx : ((treeSetup B i t g e).hosts.map Party.idx).Nodup := by
    rw [treeSetup_names]; exact hsame.names
  have hk := C28_every_sample_once (treeSetup B i t g e) hd (by
    intro H hH k row hrow
    obtain ⟨j, hj⟩ := List.mem_iff_getElem?.mp hH
    have hj' : partyAt (treeSetup B i t g e) (some j) = some H := hj
    rw [treeSetup_party] at hj'
    cases hP : partyAt B.base (some j) with
    | none => rw [hP] at hj'; cases hj'
    | some P =>
      rw [hP] at hj'
      cases hj'
      exact Dict.exists_get?_of_mem (hsame.hosts P (List.mem_of_getElem? hP) k
        ((hsame.guest k).mp (Dict.mem_keys_of_get? hrow)))) hidx F h3
  have hdivmod : fits.length / B.dim = i ∧ fits.length % B.dim = t := by
    rw [hlen]
    constructor
    · rw [Nat.mul_comm, Nat.mul_add_div (by omega), Nat.div_eq_of_lt ht]; omega
    · rw [Nat.mul_comm, Nat.mul_add_mod]; exact Nat.mod_eq_of_lt ht
  have hnew : ∀ k, trainedWeight F k = if k ∈ y.data.keys then
      some (weightIn (fits ++ [F]) k fits.length) else none := by
    intro k
    by_cases hky : k ∈ y.data.keys
    · rw [if_pos hky]
      obtain ⟨row, hrow⟩ := Dict.exists_get?_of_mem ((hsame.guest k).mpr hky)
      obtain ⟨_, n, _, _, hw⟩ := hk.2 k row hrow
      unfold weightIn
      rw [List.getElem?_append_right (le_refl _)]
      simp [hw]
    · rw [if_neg hky]
      exact hk.1 k ((Dict.get?_eq_none_iff _ _).mpr fun hc => hky ((hsame.guest k).mp hc))
  obtain ⟨T, hT⟩ : ∃ T, F.weights = some T := by
    cases hw : F.weights with
    | none => rw [hw] at h5; cases h5
    | some T => exact ⟨T, rfl⟩
  rw [hT] at h5
  obtain ⟨u1, u2⟩ := updateF_inv init B.rate hdivmod.2 (by omega) y.data.keys
    (fun k => weightIn (fits ++ [F]) k) (by
      intro k
      rw [hi.scores k, scoreAfter_append _ _ _ _ _ _ (le_refl _)]) (by
      intro k
      have := hnew k
      unfold trainedWeight at this
      rw [hT] at this
      exact this) h5
  obtain ⟨g1, g2⟩ := DTable.mapValuesM_inv h1
  have hle : i * B.dim ≤ fits.length := by omega
  refine ⟨F, ⟨?_, u1, ?_, ?_⟩, hg.append hle F, rfl, rfl, rfl, rfl⟩
  · exact List.rel_append hi.saved (.cons h4 .nil)
  · intro k
    rw [u2 k, List.length_append]; rfl
  · intro n F' hF'
    by_cases hn : n < fits.length
    · rw [List.getElem?_append_left hn] at hF'
      obtain ⟨gh', egh', q1, q2, q3, q4, q5⟩ := hi.trained n F' hF'
      refine ⟨gh', egh', q1, q2, q3, q4, fun k l hl => ?_⟩
      rw [scoreAfter_append _ _ _ _ _ _ (le_trans (Nat.div_mul_le_self n B.dim) (by omega))]
      exact q5 k l hl
    · have hn' : n = fits.length := by
        have := (List.getElem?_eq_some_iff.mp hF').1
        simp at this; omega
      subst hn'
      rw [List.getElem?_append_right (le_refl _)] at hF'
      simp only [Nat.sub_self, List.getElem?_cons_zero, Option.some.injEq] at hF'
      subst hF'
      refine ⟨g, e, g1, by rw [hdivmod.1, hdivmod.2]; exact h2, by rw [hdivmod.1, hdivmod.2]; exact h3, ?_, ?_⟩
      · intro k
        rw [← hg.keys k]
        constructor
        · intro hkk
          obtain ⟨p, hp⟩ := Dict.exists_get?_of_mem hkk
          obtain ⟨v, hv, _⟩ := (g2 k p).mp hp
          exact Dict.mem_keys_of_get? hv
        · intro hkk
          obtain ⟨v, hv⟩ := Dict.exists_get?_of_mem hkk
          obtain ⟨p, _, hp⟩ := DTable.mapValuesM_total h1 k v hv
          exact Dict.mem_keys_of_get? hp
      · intro k l hl
        rw [hdivmod.1, hdivmod.2, scoreAfter_append _ _ _ _ _ _ hle]
        obtain ⟨ga, ha, v1, v2⟩ := hg.val k l hl
        obtain ⟨p, p1, p2⟩ := DTable.mapValuesM_total h1 k _ v2
        obtain ⟨c1, c2⟩ := component_inv p1
        exact ⟨ga, ha, p.1, p.2, v1, c1, c2, p2⟩

theorem boostTrees_inv {B : Boost K α L} {y : DTable K L} (hd : 1 ≤ B.base.maxDepth)
    (hsame : SameData B y) {init : List Rat} (hdim : init.length = B.dim)
    {gh : DTable K (List Rat × List Rat)} {i : Nat} : ∀ (r t : Nat) (st st' : BoostState K)
    (fits : List (Fitted K)), t + r = B.dim → fits.length = i * B.dim + t → TrainInv B y init st fits →
    GradsOf B y init fits i gh → boostTrees B gh i r t st = .ok st' →
    ∃ more, TrainInv B y init st' (fits ++ more) ∧ (fits ++ more).length = (i + 1) * B.dim ∧
      st'.losses = st.losses ∧ st'.pre = st.pre ∧ st'.flags = st.flags ∧
      st'.imps = more.foldl (fun a F => addImportances a F.imps) st.imps
  | 0, t, st, st', fits, hr, hlen, hi, hg, h => by
    cases h
    refine ⟨[], by simpa using hi, ?_, rfl, rfl, rfl, rfl⟩
    rw [Nat.add_mul]; simp; omega
  | r + 1, t, st, st', fits, hr, hlen, hi, hg, h => by
    unfold boostTrees at h
    simp only [bind, Except.bind] at h
    cases h1 : boostTree B gh i t st with
    | error e => rw [h1] at h; cases h
    | ok st1 =>
      rw [h1] at h
      obtain ⟨F, f1, f2, f3, f4, f5, f6⟩ := boostTree_inv hd hsame hdim (by omega) hlen hi hg h1
      obtain ⟨more, m1, m2, m3, m4, m5, m6⟩ := boostTrees_inv hd hsame hdim r (t + 1) st1 st' (fits ++ [F])
        (by omega) (by simp; omega) f1 f2 h
      refine ⟨F :: more, by simpa using m1, by simpa using m2, by rw [m3, f3], by rw [m4, f4],
        by rw [m5, f5], ?_⟩
      rw [m6, f6]; rfl

theorem boostRound_inv {B : Boost K α L} {y : DTable K L} (hd : 1 ≤ B.base.maxDepth)
    (hsame : SameData B y) {init : List Rat} (hdim : init.length = B.dim) {i : Nat}
    {st st' : BoostState K} {fits : List (Fitted K)} (hlen : fits.length = i * B.dim)
    (hi : TrainInv B y init st fits) (h : boostRound B y i st = .ok st') :
    ∃ more l, TrainInv B y init st' (fits ++ more) ∧ (fits ++ more).length = (i + 1) * B.dim ∧
      B.loss y st'.scores = .ok l ∧ st'.losses = st.losses ++ [l] ∧ st'.pre = st.pre ∧
      st'.flags = st.flags ∧ st'.imps = more.foldl (fun a F => addImportances a F.imps) st.imps := by
  unfold boostRound at h
  simp only [bind, Except.bind] at h
  cases h1 : y.joinM st.scores B.gradHess with
  | error e => rw [h1] at h; cases h
  | ok gh =>
  rw [h1] at h; simp only at h
  cases h2 : boostTrees B gh i B.dim 0 st with
  | error e => rw [h2] at h; cases h
  | ok st1 =>
  rw [h2] at h; simp only at h
  cases h3 : B.loss y st1.scores with
  | error e => rw [h3] at h; cases h
  | ok l =>
  rw [h3] at h
  cases h
  obtain ⟨j1, j2, j3⟩ := DTable.joinM_inv h1
  have hg : GradsOf B y init fits i gh := by
    refine ⟨j1, fun k => ⟨fun hk => ?_, fun hk => ?_⟩, fun k l' hl => ?_⟩
    · obtain ⟨p, hp⟩ := Dict.exists_get?_of_mem hk
      obtain ⟨_, _, hv, _⟩ := (j2 k p).mp hp
      exact Dict.mem_keys_of_get? hv
    · obtain ⟨v, hv⟩ := Dict.exists_get?_of_mem hk
      obtain ⟨x, _, hx⟩ := j3 k v _ hv (by rw [hi.scores k, if_pos hk])
      exact Dict.mem_keys_of_get? hx
    · obtain ⟨x, x1, x2⟩ := j3 k l' _ hl (by rw [hi.scores k, if_pos (Dict.mem_keys_of_get? hl)])
      rw [hlen] at x1
      exact ⟨x.1, x.2, x1, x2⟩
  obtain ⟨more, m1, m2, m3, m4, m5, m6⟩ := boostTrees_inv hd hsame hdim B.dim 0 st st1 fits (by omega)
    (by omega) hi hg h2
  exact ⟨more, l, ⟨m1.saved, m1.wf, m1.scores, m1.trained⟩, m2, h3, by rw [m3], m4, m5, m6⟩

omit [DecidableEq K] in
theorem stopTest_keeps (B : Boost K α L) (st : BoostState K) :
    (stopTest B st).2.scores = st.scores ∧ (stopTest B st).2.trees = st.trees ∧
      (stopTest B st).2.imps = st.imps ∧ (stopTest B st).2.losses = st.losses := by
  unfold stopTest
  split
  · split <;> exact ⟨rfl, rfl, rfl, rfl⟩
  · exact ⟨rfl, rfl, rfl, rfl⟩

theorem TrainInv.stop {B : Boost K α L} {y : DTable K L} {init : List Rat} {st : BoostState K}
    {fits : List (Fitted K)} (h : TrainInv B y init st fits) :
    TrainInv B y init (stopTest B st).2 fits := by
  obtain ⟨h1, h2, _, _⟩ := stopTest_keeps B st
  exact ⟨by rw [h2]; exact h.saved, by rw [h1]; exact h.wf, by rw [h1]; exact h.scores, h.trained⟩

theorem boostLoop_inv {B : Boost K α L} {y : DTable K L} (hd : 1 ≤ B.base.maxDepth)
    (hsame : SameData B y) {init : List Rat} (hdim : init.length = B.dim) :
    ∀ (r i : Nat) (st st' : BoostState K) (fits : List (Fitted K)), fits.length = i * B.dim →
    st.losses.length = i →
    TrainInv B y init st fits → boostLoop B y r i st = .ok st' →
    ∃ more, TrainInv B y init st' (fits ++ more) ∧
      (fits ++ more).length = st'.losses.length * B.dim ∧
      st'.imps = more.foldl (fun a F => addImportances a F.imps) st.imps
  | 0, i, st, st', fits, hlen, hl, hi, h => by
    cases h
    exact ⟨[], by simpa using hi, by simp [hlen, hl], rfl⟩
  | r + 1, i, st, st', fits, hlen, hl, hi, h => by
    unfold boostLoop at h
    simp only [bind, Except.bind] at h
    cases h1 : boostRound B y i st with
    | error e => rw [h1] at h; cases h
    | ok st1 =>
      rw [h1] at h
      simp only at h
      obtain ⟨more, l, m1, m2, _, m3, _, _, m4⟩ := boostRound_inv hd hsame hdim hlen hi h1
      obtain ⟨s1, s2, s3, s4⟩ := stopTest_keeps B st1
      by_cases hs : (stopTest B st1).1 = true
      · rw [if_pos hs] at h
        cases h
        refine ⟨more, m1.stop, ?_, by rw [s3, m4]⟩
        rw [s4, m3, m2]; simp [hl]
      · rw [if_neg hs] at h
        obtain ⟨more', n1, n2, n3⟩ := boostLoop_inv hd hsame hdim r (i + 1) _ st' (fits ++ more) m2
          (by rw [s4, m3]; simp [hl]) m1.stop h
        refine ⟨more ++ more', by simpa using n1, by simpa using n2, ?_⟩
        rw [n3, s3, m4, List.foldl_append]

theorem boost_inv {B : Boost K α L} {y : DTable K L} (hd : 1 ≤ B.base.maxDepth)
    (hsame : SameData B y) {init : List Rat} (hdim : init.length = B.dim) {st : BoostState K}
    (h : boost B init y = .ok st) :
    ∃ fits, TrainInv B y init st fits ∧ fits.length = st.losses.length * B.dim ∧
      st.imps = fits.foldl (fun a F => addImportances a F.imps) [] := by
  unfold boost at h
  simp only [bind, Except.bind] at h
  cases h1 : y.mapValues (fun _ => init) with
  | error e => rw [h1] at h; cases h
  | ok scores =>
    rw [h1] at h
    obtain ⟨w1, w2⟩ := DTable.mapValues_inv h1
    obtain ⟨more, m1, m2, m3⟩ := boostLoop_inv hd hsame hdim B.rounds 0 _ st [] (by simp) rfl
      ⟨.nil, w1, by
        intro k
        simp only [List.length_nil]
        rw [scoreAfter_zero, w2]
        by_cases hk : k ∈ y.data.keys
        · obtain ⟨l, hl⟩ := Dict.exists_get?_of_mem hk
          rw [if_pos hk, hl]; rfl
        · rw [if_neg hk, (Dict.get?_eq_none_iff _ _).mpr hk]; rfl, by simp⟩ h
    exact ⟨more, by simpa using m1, by simpa using m2, m3⟩

end DTree
end Verif
