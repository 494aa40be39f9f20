import Verif.Spec.C72
import Verif.Props.C32
import Verif.Props.C33

/-!
# C72: a prediction depends on nothing but the sample's own values
-/

set_option autoImplicit false

namespace Verif

open DTree Spec

variable {K : Type} [DecidableEq K] {α : Type}

/-- The walk of a sample does not depend on other samples. -/
theorem reaches_sameAnswers {S : Setup K α} {F : Fitted K}
    {rows rows' : Option Nat → DTable K (List Rat)} (hr' : SameSamples S rows') {k k' : K}
    (hk' : k' ∈ (rows' none).data.keys) (h : SameAnswers S F rows rows' k k') {i : Nat}
    (hi : Reaches S F rows k i) : Reaches S F rows' k' i := by
  refine Relation.ReflTransGen.mono ?_ _ _ hi
  rintro a b ⟨j, f, t, row, n, h1, h2, h3, h4⟩
  obtain ⟨_, P, _, _, _, _, hP, _⟩ := id h1
  obtain ⟨row', hrow'⟩ := Dict.exists_get?_of_mem ((hr'.keys j P hP k').mpr hk')
  refine ⟨j, f, t, row', n, h1, hrow', h3, ?_⟩
  rw [← h j f ⟨a, t, h1⟩ row row' h2 hrow']
  exact h4

/-- **Scores.**  Two data sets are predicted with the same model; a sample of the first and a
sample of the second (under the same or another identifier, at any position, together with any
other samples) that have the same values of the features the trees ask for get the same scores. -/
theorem C72_scores (S : Setup K α) (Fs : List (Fitted K)) (Ps : List Saved)
    (hsave : List.Forall₂ (fun F P => save F = .ok P) Fs Ps) (hu : ∀ F ∈ Fs, UsableTree S F)
    (rows rows' : Option Nat → DTable K (List Rat)) (hr : SameSamples S rows)
    (hr' : SameSamples S rows') (init : List Rat) (rate : Rate) (dim : Nat)
    (hdim : init.length = dim) (hpos : 0 < dim) (fuel : Nat)
    (hfuel : ∀ F ∈ Fs, F.tree.length ≤ fuel) (k k' : K) (hk : k ∈ (rows none).data.keys)
    (hk' : k' ∈ (rows' none).data.keys) (hsame : ∀ F ∈ Fs, SameAnswers S F rows rows' k k') :
    ∃ T T' s, predictScores S.hosts rate dim init Ps (rows none) (hostRows S rows) fuel = .ok T ∧
      predictScores S.hosts rate dim init Ps (rows' none) (hostRows S rows') fuel = .ok T' ∧
      T.data.get? k = some s ∧ T'.data.get? k' = some s := by
  obtain ⟨T, h1, _, h3⟩ := C32_prediction S Fs Ps hsave hu rows hr init rate dim hdim hpos fuel hfuel
  obtain ⟨T', h1', _, h3'⟩ := C32_prediction S Fs Ps hsave hu rows' hr' init rate dim hdim hpos fuel hfuel
  obtain ⟨W, w1, w2⟩ := h3 k hk
  obtain ⟨W', w1', w2'⟩ := h3' k' hk'
  refine ⟨T, T', _, h1, h1', w1, ?_⟩
  rw [w1']
  congr 1
  apply scoreAfter_congr
  intro n hn
  have hn' : n < Fs.length := by
    rw [hsave.length_eq]
    exact lt_of_lt_of_le hn (Nat.div_mul_le_self _ _)
  have hF := List.getElem?_eq_getElem hn'
  have hmem : Fs[n] ∈ Fs := List.getElem_mem hn'
  obtain ⟨i, nd, a1, a2, a3, a4⟩ := w2 n _ hF
  obtain ⟨i', nd', b1, b2, b3, b4⟩ := w2' n _ hF
  have hreach := reaches_sameAnswers hr' hk' (hsame _ hmem) a3
  have := reaches_unique (hu _ hmem).names b3 hreach b1 b2 a1 a2
  subst this
  rw [a1, Option.some.injEq] at b1
  subst b1
  rw [a4, b4]

variable {T P : Type} [LinearOrder T] [LinearOrder P]

/-- **Labels.**  From the scores on, too, a row of the result depends on that sample's scores only:
equal scores give the same predicted label, the same probability and the same details, in whatever
tables the samples are. -/
theorem C72_labels [One P] [Sub P] (sigmoid : Rat → P) (softmax : List Rat → List P) (num : Nat)
    (classes : List (Label T)) (threshold : P) (given given' : DTable K (Option (Label T)))
    (scores scores' : DTable K (List Rat)) (R R' : DTable K (Labels.Row T P))
    (h : Labels.predictRows sigmoid softmax num classes threshold given scores = .ok R)
    (h' : Labels.predictRows sigmoid softmax num classes threshold given' scores' = .ok R')
    (k k' : K) (hs : scores.data.get? k = scores'.data.get? k') (a b : Labels.Row T P)
    (ha : R.data.get? k = some a) (hb : R'.data.get? k' = some b) :
    a.label = b.label ∧ a.score = b.score ∧ a.detail = b.detail := by
  have hbin : ∀ g g' (p : P) (x y : Labels.Row T P), Labels.binaryRow classes threshold g p = .ok x →
      Labels.binaryRow classes threshold g' p = .ok y →
      x.label = y.label ∧ x.score = y.score ∧ x.detail = y.detail := by
    intro g g' p x y hx hy
    unfold Labels.binaryRow at hx hy
    simp only [bind, Except.bind] at hx hy
    split at hx; · cases hx
    rename_i l hl
    rw [hl] at hy
    cases hx; cases hy
    exact ⟨rfl, rfl, rfl⟩
  have hmul : ∀ g g' (ps : List P) (x y : Labels.Row T P), Labels.multiRow classes g ps = .ok x →
      Labels.multiRow classes g' ps = .ok y →
      x.label = y.label ∧ x.score = y.score ∧ x.detail = y.detail := by
    intro g g' ps x y hx hy
    unfold Labels.multiRow at hx hy
    simp only [bind, Except.bind] at hx hy
    split at hx; · cases hx
    rename_i r hr
    split at hx; · cases hx
    rename_i l hl
    rw [hr] at hy
    simp only [hl] at hy
    cases hx; cases hy
    exact ⟨rfl, rfl, rfl⟩
  unfold Labels.predictRows at h h'
  by_cases hn : num = 2
  · rw [if_pos hn] at h h'
    simp only [bind, Except.bind] at h h'
    split at h; · cases h
    rename_i ps hps
    split at h'; · cases h'
    rename_i ps' hps'
    obtain ⟨_, j1, _⟩ := DTable.joinM_inv h
    obtain ⟨_, j1', _⟩ := DTable.joinM_inv h'
    obtain ⟨v, w, c1, c2, c3⟩ := (j1 k a).mp ha
    obtain ⟨v', w', c1', c2', c3'⟩ := (j1' k' b).mp hb
    obtain ⟨f, d1, d2⟩ := ((DTable.mapValuesM_inv hps).2 k w).mp c2
    obtain ⟨f', d1', d2'⟩ := ((DTable.mapValuesM_inv hps').2 k' w').mp c2'
    rw [hs, d1', Option.some.injEq] at d1
    subst d1
    rw [d2, Except.ok.injEq] at d2'
    subst d2'
    exact hbin _ _ _ _ _ c3 c3'
  · rw [if_neg hn] at h h'
    simp only [bind, Except.bind] at h h'
    split at h; · cases h
    rename_i ps hps
    split at h'; · cases h'
    rename_i ps' hps'
    obtain ⟨_, j1, _⟩ := DTable.joinM_inv h
    obtain ⟨_, j1', _⟩ := DTable.joinM_inv h'
    obtain ⟨v, w, c1, c2, c3⟩ := (j1 k a).mp ha
    obtain ⟨v', w', c1', c2', c3'⟩ := (j1' k' b).mp hb
    rw [(DTable.mapValues_inv hps).2 k, hs] at c2
    rw [(DTable.mapValues_inv hps').2 k', c2, Option.some.injEq] at c2'
    subst c2'
    exact hmul _ _ _ _ _ c3 c3'

/-- A table with one sample, number 9: sample 2 of `DemoRaw` with another value of the feature of
the first host, which the tree of `DemoRaw` does not ask for. -/
def demoAlone : Option Nat → DTable Nat (List Rat)
  | none => ⟨[(9, [2, 4])]⟩
  | some 0 => ⟨[(9, [77])]⟩
  | some _ => ⟨[(9, [-1])]⟩

/-- The hypotheses hold for sample 2 among six and the sample of `demoAlone`. -/
example : SameSamples DemoRaw.setup demoAlone ∧
    SameAnswers DemoRaw.setup DemoRaw.fitted DemoRaw.rows demoAlone 2 9 ∧
    (predictRows DemoRaw.setup DemoRaw.fitted (demoAlone none) (hostRows DemoRaw.setup demoAlone) 7).map
      (fun T => T.data.get? 9) = .ok (some (20 / 11)) := by
  refine ⟨⟨?_, ?_, by decide⟩, ?_, by decide +kernel⟩
  · intro j P hP
    match j with
    | none => unfold DTable.WF Dict.WF; decide
    | some 0 => unfold DTable.WF Dict.WF; decide
    | some (j + 1) => unfold DTable.WF Dict.WF; show ([9] : List Nat).Nodup; decide
  · intro j P hP k
    match j with
    | none => rfl
    | some 0 => rfl
    | some (j + 1) => rfl
  · rintro j f ⟨i, t, n, P, d, h1, h2, h3, h4, h5, _⟩ row row' hrow hrow'
    match j, h4, h5, hrow, hrow' with
    | none, _, _, hrow, hrow' =>
      have e1 : row = [2, 4] := by
        have : (DemoRaw.rows none).data.get? 2 = some [2, 4] := by decide
        rw [this] at hrow; cases hrow; rfl
      have e2 : row' = [2, 4] := by
        have : (demoAlone none).data.get? 9 = some [2, 4] := by decide
        rw [this] at hrow'; cases hrow'; rfl
      rw [e1, e2]
    | some 0, h4, h5, _, _ =>
      exfalso
      have hidx : P.idx = 1 := by
        have h0 : partyAt DemoRaw.setup (some 0) = some (DemoRaw.party 1 ["c"] DemoRaw.hostRows1) := rfl
        rw [h0] at h4
        cases h4
        decide +kernel
      have hno : ∀ n ∈ DemoRaw.fitted.tree, n.site ≠ .host 1 := by decide +kernel
      refine hno n (List.mem_of_getElem? h1) ?_
      rw [h5, siteName, hidx]
    | some (j + 1), _, _, hrow, hrow' =>
      have e1 : row = [-1] := by
        have : (DemoRaw.rows (some (j + 1))).data.get? 2 = some [-1] := by
          show DemoRaw.hostRows2.data.get? 2 = some [-1]
          decide
        rw [this] at hrow; cases hrow; rfl
      have e2 : row' = [-1] := by
        have : (demoAlone (some (j + 1))).data.get? 9 = some [-1] := by
          show Dict.get? ([(9, [-1])] : Dict Nat (List Rat)) 9 = some [-1]
          decide
        rw [this] at hrow'; cases hrow'; rfl
      rw [e1, e2]

end Verif
