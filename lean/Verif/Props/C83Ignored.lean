import Verif.Props.C83
import Verif.Props.C29
import Verif.Lemmas.RawWalk
import Verif.Lemmas.Boost
import Verif.Lemmas.LosslessBoost
import Verif.Examples.DemoBoost

/-!
# C83: Columns without splits do not matter for predictions
-/

set_option autoImplicit false

namespace Verif
open DTree Spec

variable {K : Type} [DecidableEq K] {α : Type}

/-- **Only columns that are split on matter**: two tables of new samples that agree in these columns get
the same predictions. -/
theorem C83_unused (S : Setup K α) (F : Fitted K) (hu : UsableTree S F)
    (new new' : Option Nat → DTable K (List Rat)) (hs : SameSamples S new) (hs' : SameSamples S new')
    (hkeys : ∀ k, k ∈ (new' none).data.keys ↔ k ∈ (new none).data.keys)
    (hagree : ∀ i j f t, SplitAt S F i j f t → ∀ k row row', (new j).data.get? k = some row →
      (new' j).data.get? k = some row' → value row' f = value row f)
    (fuel : Nat) (hfuel : F.tree.length ≤ fuel) :
    ∃ T T', predictRows S F (new none) (hostRows S new) fuel = .ok T ∧
      predictRows S F (new' none) (hostRows S new') fuel = .ok T' ∧ ∀ k, T'.data.get? k = T.data.get? k := by
  obtain ⟨T, h1, _, h3, h4⟩ := C29_prediction_is_walk S F hu new hs fuel hfuel
  obtain ⟨T', h1', _, h3', h4'⟩ := C29_prediction_is_walk S F hu new' hs' fuel hfuel
  refine ⟨T, T', h1, h1', fun k => ?_⟩
  by_cases hk : k ∈ (new none).data.keys
  · obtain ⟨i, n, a1, a2, a3, a4, _⟩ := h4 k hk
    obtain ⟨i', n', b1, b2, b3, b4, b5⟩ := h4' k ((hkeys k).mpr hk)
    have hstep : ∀ a c, Step S F new k a c → Step S F new' k a c := by
      rintro a c ⟨j, f, t, row, m, s1, s2, s3, s4⟩
      obtain ⟨_, P, _, _, _, _, hP, _⟩ := id s1
      obtain ⟨row', hrow'⟩ := Dict.exists_get?_of_mem ((hs'.keys j P hP k).mpr ((hkeys k).mpr hk))
      refine ⟨j, f, t, row', m, s1, hrow', s3, ?_⟩
      rw [hagree a j f t s1 k row row' s2 hrow']
      exact s4
    have : i = i' := b5 i n a1 a2 (Relation.ReflTransGen.mono hstep _ _ a3)
    subst this
    rw [a1, Option.some.injEq] at b1
    subst b1
    rw [a4, b4]
  · have e1 : k ∉ T.data.keys := fun h => hk ((h3 k).mp h)
    have e2 : k ∉ T'.data.keys := fun h => hk ((hkeys k).mp ((h3' k).mp h))
    rw [(Dict.get?_eq_none_iff _ _).mpr e1, (Dict.get?_eq_none_iff _ _).mpr e2]

private theorem constant_of {t : DTable K (List Rat)} {f : Nat}
    (h : ¬ ∃ k k' row row', t.data.get? k = some row ∧ t.data.get? k' = some row' ∧ value row f ≠ value row' f) :
    ∃ c, ∀ k row, t.data.get? k = some row → value row f = c := by
  push Not at h
  cases hd : t.data with
  | nil => exact ⟨0, fun k row h => by cases h⟩
  | cons x l =>
    have hx : t.data.get? x.1 = some x.2 := by rw [hd]; simp [Dict.get?]
    refine ⟨value x.2 f, fun k row hrow => ?_⟩
    rw [← hd] at hrow
    exact h k x.1 row x.2 hrow hx

/-- **Constant columns do not matter**: new samples that differ only in columns in which all training
samples have the same value get the same predictions, whatever their values there are. -/
theorem C83_ignored (p q : Nat) (sk : Paillier.PrivKey) (lo hi : Int) (m eg eh : Rat)
    (S : Setup K Histogram.Num) [S.cfg.Exact] (rows : Option Nat → DTable K (List Rat)) (hr : RawRun S rows)
    (hu : Usual S m) (hp : PaillierRun p q sk lo hi m eg eh S) (F : Fitted K) (hf : fit S = .ok F)
    (new new' : Option Nat → DTable K (List Rat)) (hs : SameSamples S new) (hs' : SameSamples S new')
    (hkeys : ∀ k, k ∈ (new' none).data.keys ↔ k ∈ (new none).data.keys)
    (hagree : ∀ j f, (∃ k k' row row', (rows j).data.get? k = some row ∧ (rows j).data.get? k' = some row' ∧
        value row f ≠ value row' f) →
      ∀ k row row', (new j).data.get? k = some row → (new' j).data.get? k = some row' → value row' f = value row f) :
    ∃ T T', predictRows S F (new none) (hostRows S new) F.tree.length = .ok T ∧
      predictRows S F (new' none) (hostRows S new') F.tree.length = .ok T' ∧
      ∀ k, T'.data.get? k = T.data.get? k := by
  have hsep := C83_separates p q sk lo hi m eg eh S rows hr hu hp F hf
  refine C83_unused S F (C29_trained_usable S hu.depth hr.names F hf) new new' hs hs' hkeys
    (fun i j f t hsp => hagree j f ?_) _ (le_refl _)
  by_contra hno
  exact hsep.constant j f (constant_of hno) i t hsp

/-- **Only columns that are split on matter to a model**: two tables of new samples that agree in every
column on which some tree of a finished boosting run splits get the same scores.  Nothing is assumed about
the encryption, the split points or the loss. -/
theorem C83_run {L : Type} (B : Boost K α L) (y : DTable K L) (hd : 1 ≤ B.base.maxDepth) (hsame : SameData B y)
    (init : List Rat) (hdim : init.length = B.dim) (hpos : 0 < B.dim) (st : BoostState K)
    (h : boost B init y = .ok st)
    (new new' : Option Nat → DTable K (List Rat)) (hs : SameSamples B.base new) (hs' : SameSamples B.base new')
    (hkeys : ∀ k, k ∈ (new' none).data.keys ↔ k ∈ (new none).data.keys) :
    ∃ fits, List.Forall₂ (fun F P => save F = .ok P) fits st.trees ∧
      (∀ (n : Nat) F, fits[n]? = some F → TrainedOn B y init fits n F) ∧
      ((∀ F ∈ fits, ∀ i j f t, SplitAt B.base F i j f t → ∀ k row row', (new j).data.get? k = some row →
          (new' j).data.get? k = some row' → value row' f = value row f) →
        ∀ fuel, (∀ F ∈ fits, F.tree.length ≤ fuel) → ∃ T T',
          predictScores B.base.hosts B.rate B.dim init st.trees (new none) (hostRows B.base new) fuel = .ok T ∧
          predictScores B.base.hosts B.rate B.dim init st.trees (new' none) (hostRows B.base new') fuel = .ok T' ∧
          (∀ k, k ∈ T.data.keys ↔ k ∈ (new none).data.keys) ∧
          ∀ k, T'.data.get? k = T.data.get? k) := by
  obtain ⟨fits, h1, h2, _⟩ := boost_inv hd hsame hdim h
  refine ⟨fits, h1.saved, h1.trained, fun hagree fuel hfuel => ?_⟩
  have hu : ∀ F ∈ fits, UsableTree B.base F := by
    intro F hF
    obtain ⟨n, hn⟩ := List.mem_iff_getElem?.mp hF
    obtain ⟨gh, egh, _, _, hfit, _, _⟩ := h1.trained n F hn
    have hnames := treeSetup_names B (n / B.dim) (n % B.dim) gh egh
    exact usable_of_names hnames.symm (C29_trained_usable (treeSetup B (n / B.dim) (n % B.dim) gh egh) hd
      (by rw [hnames]; exact hsame.names) F hfit)
  obtain ⟨W, T, a1, _, a3, a4⟩ := predictScores_ok h1.saved hu hs init B.rate hdim hpos hfuel
  obtain ⟨W', T', b1, _, b3, b4⟩ := predictScores_ok h1.saved hu hs' init B.rate hdim hpos hfuel
  refine ⟨T, T', a1, b1, fun k => ?_, fun k => ?_⟩
  · rw [← not_iff_not, ← Dict.get?_eq_none_iff, a3]
    by_cases hk : k ∈ (new none).data.keys <;> simp [hk]
  rw [a3, b3]
  by_cases hk : k ∈ (new none).data.keys
  · rw [if_pos hk, if_pos ((hkeys k).mpr hk)]
    congr 1
    refine scoreAfter_congr _ _ _ _ fun n hn => ?_
    have hn' : n < fits.length := by
      rw [h1.saved.length_eq]; exact lt_of_lt_of_le hn (Nat.div_mul_le_self _ _)
    have hF := List.getElem?_eq_getElem hn'
    have hmem : fits[n] ∈ fits := List.getElem_mem hn'
    obtain ⟨i, nd, c1, c2, c3, c4⟩ := a4 n _ hF k hk
    obtain ⟨i', nd', d1, d2, d3, d4⟩ := b4 n _ hF k ((hkeys k).mpr hk)
    have hstep : ∀ a c, Step B.base fits[n] new k a c → Step B.base fits[n] new' k a c := by
      rintro a c ⟨j, f, t, row, m, s1, s2, s3, s4⟩
      obtain ⟨_, P, _, _, _, _, hP, _⟩ := id s1
      obtain ⟨row', hrow'⟩ := Dict.exists_get?_of_mem ((hs'.keys j P hP k).mpr ((hkeys k).mpr hk))
      refine ⟨j, f, t, row', m, s1, hrow', s3, ?_⟩
      rw [hagree _ hmem a j f t s1 k row row' s2 hrow']
      exact s4
    obtain rfl := reaches_unique (hu _ hmem).names (Relation.ReflTransGen.mono hstep _ _ c1) d1 c2 c3 d2 d3
    rw [c2, Option.some.injEq] at d2
    rw [c4, d4, d2]
  · rw [if_neg hk, if_neg fun h => hk ((hkeys k).mp h)]

/-- **Constant columns do not matter to a model**: training with Paillier encryption finishes, and new
samples that differ only in columns in which all training samples have the same value get the same
scores. -/
theorem C83_run_ignored {L : Type} (p q : Nat) (sk : Paillier.PrivKey) (lo hi : Int) (m gmax hmax : Rat)
    (G : Rat × Rat → Prop) (B : Boost K Histogram.Num L) [B.base.cfg.Exact] (y : DTable K L)
    (rows : Option Nat → DTable K (List Rat)) (hb : PaillierBoost p q sk lo hi m gmax hmax 0 0 G B y rows)
    (init : List Rat) (hdim : init.length = B.dim) (hpos : 0 < B.dim)
    (new new' : Option Nat → DTable K (List Rat)) (hs : SameSamples B.base new) (hs' : SameSamples B.base new')
    (hkeys : ∀ k, k ∈ (new' none).data.keys ↔ k ∈ (new none).data.keys)
    (hagree : ∀ j f, (∃ k k' row row', (rows j).data.get? k = some row ∧ (rows j).data.get? k' = some row' ∧
        value row f ≠ value row' f) →
      ∀ k row row', (new j).data.get? k = some row → (new' j).data.get? k = some row' → value row' f = value row f) :
    ∃ st fuel T T', boost B init y = .ok st ∧
      predictScores B.base.hosts B.rate B.dim init st.trees (new none) (hostRows B.base new) fuel = .ok T ∧
      predictScores B.base.hosts B.rate B.dim init st.trees (new' none) (hostRows B.base new') fuel = .ok T' ∧
      (∀ k, k ∈ T.data.keys ↔ k ∈ (new none).data.keys) ∧
      ∀ k, T'.data.get? k = T.data.get? k := by
  obtain ⟨st, h⟩ := boost_ok hb hdim
  obtain ⟨fits, _, f2, f3⟩ := C83_run B y hb.depth.1 hb.sameData init hdim hpos st h new new' hs hs' hkeys
  have hsplit : ∀ F ∈ fits, ∀ i j f t, SplitAt B.base F i j f t → ∃ k k' row row',
      (rows j).data.get? k = some row ∧ (rows j).data.get? k' = some row' ∧ value row f ≠ value row' f := by
    intro F hF i j f t hsp
    obtain ⟨n, hn⟩ := List.mem_iff_getElem?.mp hF
    obtain ⟨gh, egh, w0, e0, fit0, k0, v0⟩ := f2 n F hn
    obtain ⟨egh1, e1, hr, hu, hp⟩ := hb.tree (n / B.dim) (n % B.dim) w0 k0 (gradients_bounded hb hdim ⟨w0, k0, v0⟩)
    rw [e0] at e1
    cases e1
    have : (treeSetup B (n / B.dim) (n % B.dim) gh egh).cfg.Exact := inferInstanceAs B.base.cfg.Exact
    by_contra hno
    exact (C83_separates p q sk lo hi m 0 0 _ rows hr hu hp F fit0).constant j f (constant_of hno) i t
      ((splitAt_of_names (treeSetup_names B (n / B.dim) (n % B.dim) gh egh)).mp hsp)
  obtain ⟨T, T', a1, a2, a3, a4⟩ := f3 (fun F hF i j f t hsp => hagree j f (hsplit F hF i j f t hsp))
    (fits.map fun F => F.tree.length).sum (fun F hF => List.le_sum_of_mem (List.mem_map_of_mem hF))
  exact ⟨st, _, T, T', h, a1, a2, a3, a4⟩

/-- The rows of `DemoRaw` with other values in the column of a host. -/
private def moved (j : Nat) : Option Nat → DTable Nat (List Rat)
  | some i => if i = j then ⟨(DemoRaw.rows (some i)).data.map fun x => (x.1, [10 - (x.1 : Rat)])⟩ else DemoRaw.rows (some i)
  | none => DemoRaw.rows none

private def weights (new : Option Nat → DTable Nat (List Rat)) : Option (List (Nat × Rat)) :=
  match predictRows DemoRaw.setup DemoRaw.fitted (new none) (hostRows DemoRaw.setup new) 7 with
  | .ok T => some T.data
  | .error _ => none

/-- The tree of `DemoRaw` is usable and does not split on the column of the first host: other values there
leave the predictions as they are.  It splits on the column of the second host, whose values matter. -/
example : UsableTree DemoRaw.setup DemoRaw.fitted ∧ weights (moved 0) = weights DemoRaw.rows ∧
    weights DemoRaw.rows ≠ none ∧ weights (moved 1) ≠ none ∧ weights (moved 1) ≠ weights DemoRaw.rows ∧
    (moved 0 (some 0)).data ≠ (DemoRaw.rows (some 0)).data :=
  ⟨C29_trained_usable _ (by decide) (by decide +kernel) _ DemoRaw.fit_ok, by decide +kernel, by decide +kernel,
    by decide +kernel, by decide +kernel, by decide +kernel⟩

/-- A run of three parties with Paillier encryption. -/
example : ∃ p q sk lo hi m gmax hmax G, ∃ B : Boost Nat Histogram.Num Rat, B.base.cfg.Exact ∧
    PaillierBoost p q sk lo hi m gmax hmax 0 0 G B DemoBoost.labels DemoRaw.rows ∧ B.dim = 2 := by
  obtain ⟨sk, h1, h2⟩ := DemoPaillier.key
  exact ⟨_, _, sk, _, _, _, _, _, _, DemoBoost.secure sk, ⟨rfl⟩, DemoBoost.run h1 h2, rfl⟩

/-- A finished run of three parties. -/
example : 1 ≤ DemoBoost.clear.base.maxDepth ∧ SameData DemoBoost.clear DemoBoost.labels ∧
    boost DemoBoost.clear [0, 1] DemoBoost.labels = .ok DemoBoost.final ∧ DemoBoost.final.trees ≠ [] :=
  ⟨by decide, DemoBoost.same, DemoBoost.final_ok, by decide +kernel⟩

end Verif
