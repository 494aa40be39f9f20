import Verif.Lemmas.Labels

/-!
# C33: labels are encoded reversibly and predictions are known labels
-/

set_option autoImplicit false

namespace Verif

open Labels Spec

variable {K T P : Type} [DecidableEq K] [LinearOrder T] [LinearOrder P]

/-- **Encoding.**  For every column of comparable labels with at most 1000 different values the
check succeeds.  The classes are labels of the column, strictly increasing, one for every value.
The samples stay the same; the code of a sample is the number of smaller values in the column,
and it is the position of the sample's label among the classes.  With at least two classes the
codes are integers. -/
theorem C33_encoding (y : DTable K (Label T)) (hy : y.WF) (hc : Comparable y.data.values)
    (hn : (distinct y.data.values).length ≤ 1000) :
    ∃ R, checkLabel y = .ok R ∧ R.num = (distinct y.data.values).length ∧
      R.dim = (if R.num > 2 then R.num else 1) ∧
      R.classes.length = R.num ∧ (∀ c ∈ R.classes, c ∈ y.data.values) ∧
      (R.classes.map Label.value).Pairwise (· < ·) ∧
      R.y.data.keys = y.data.keys ∧
      ∀ k l, y.data.get? k = some l → ∃ code c, R.y.data.get? k = some code ∧
        code.value = (Label.int (T := T) (rank y.data.values l)).value ∧
        (2 ≤ R.num → code = .int (rank y.data.values l)) ∧
        R.classes[rank y.data.values l]? = some c ∧ c.value = l.value := by
  obtain ⟨cs, code, h1, h2, h3, h4, h5⟩ := checkLabel_ok hy hc hn
  refine ⟨_, h1, rfl, rfl, by simpa using h4.length_eq, h2, h3, Dict.keys_map (fun _ l => code l) _, ?_⟩
  intro k l hk
  have hl : l ∈ y.data.values := List.mem_map_of_mem (Dict.get?_mem hk)
  have hv : l.value ∈ cs.map Label.value := by
    rw [h4.mem_iff]
    unfold distinct
    rw [List.mem_dedup]
    exact List.mem_map_of_mem hl
  obtain ⟨i, hi⟩ := List.mem_iff_getElem?.mp hv
  have hr : rank y.data.values l = i := by
    rw [← sorted_rank h3 hi]
    exact (h4.filter _).length_eq.symm
  rw [List.getElem?_map] at hi
  cases hci : cs[i]? with
  | none => rw [hci] at hi; cases hi
  | some c =>
    rw [hci] at hi
    refine ⟨code l, c, ?_, (h5 l hl).1, (h5 l hl).2, by rw [hr]; exact hci, by simpa using hi⟩
    have := Dict.get?_map (fun _ l => code l) y.data k
    rw [hk] at this
    exact this

/-- **The codes are 0, …, k-1**, each of them used, and two samples have the same code exactly
if their labels are equal. -/
theorem C33_codes (y : DTable K (Label T)) (hy : y.WF) (hc : Comparable y.data.values)
    (hn : (distinct y.data.values).length ≤ 1000) (R : Checked K T) (h : checkLabel y = .ok R)
    (h2 : 2 ≤ R.num) :
    (∀ k code, R.y.data.get? k = some code → ∃ i : Nat, i < R.num ∧ code = .int i) ∧
    (∀ i : Nat, i < R.num → ∃ k, R.y.data.get? k = some (.int i)) ∧
    ∀ k k' l l', y.data.get? k = some l → y.data.get? k' = some l' →
      (R.y.data.get? k = R.y.data.get? k' ↔ l.value = l'.value) := by
  obtain ⟨R', e, r1, r2, r3, r4, r5, r6, r7⟩ := C33_encoding y hy hc hn
  rw [h, Except.ok.injEq] at e
  subst e
  refine ⟨fun k code hk => ?_, fun i hi => ?_, fun k k' l l' hk hk' => ?_⟩
  · have : k ∈ y.data.keys := by rw [← r6]; exact Dict.mem_keys_of_get? hk
    obtain ⟨l, hl⟩ := Dict.exists_get?_of_mem this
    obtain ⟨code', c, q1, _, q3, q4, _⟩ := r7 k l hl
    rw [hk, Option.some.injEq] at q1
    subst q1
    refine ⟨_, ?_, q3 h2⟩
    rw [← r3]
    exact (List.getElem?_eq_some_iff.mp q4).1
  · have hi' : i < R.classes.length := by omega
    have hm := r4 R.classes[i] (List.getElem_mem hi')
    obtain ⟨⟨k, l⟩, hp, hl⟩ := List.mem_map.mp hm
    have hl : l = R.classes[i] := hl
    have hk : y.data.get? k = some l := Dict.get?_of_mem hy hp
    obtain ⟨code', c, q1, _, q3, q4, q5⟩ := r7 k l hk
    refine ⟨k, ?_⟩
    rw [q1, q3 h2]
    have hlt := (List.getElem?_eq_some_iff.mp q4)
    have : rank y.data.values l = i := by
      by_contra hne
      have hpw := List.pairwise_iff_getElem.mp (List.pairwise_map.mp r5)
      rcases Nat.lt_or_gt_of_ne hne with hlt' | hlt'
      · have := hpw _ _ hlt.1 hi' hlt'
        rw [hlt.2, q5, hl] at this
        exact lt_irrefl _ this
      · have := hpw _ _ hi' hlt.1 hlt'
        rw [hlt.2, q5, hl] at this
        exact lt_irrefl _ this
    rw [this]
  · obtain ⟨a, c, q1, _, q3, q4, q5⟩ := r7 k l hk
    obtain ⟨a', c', q1', _, q3', q4', q5'⟩ := r7 k' l' hk'
    rw [q1, q1', q3 h2, q3' h2]
    constructor
    · intro he
      have he : rank y.data.values l = rank y.data.values l' := by simpa using he
      rw [he, q4', Option.some.injEq] at q4
      rw [← q5, ← q5', q4]
    · intro he
      unfold rank
      rw [he]

/-- More than 1000 different labels are refused. -/
theorem C33_too_many (y : DTable K (Label T)) (hn : 1000 < (distinct y.data.values).length) :
    checkLabel y = .error .valueError := by
  unfold checkLabel
  simp only [validateY_eq, if_pos hn, bind, Except.bind]

/-- Labels that cannot be compared are refused. -/
theorem C33_mixed (y : DTable K (Label T)) (hn : (distinct y.data.values).length ≤ 1000)
    (hc : ¬ Comparable y.data.values) : checkLabel y = .error .typeError := by
  unfold checkLabel
  simp only [validateY_eq, if_neg (Nat.not_lt.mpr hn), bind, Except.bind,
    sortClasses_mixed ((comparable_classes _).not.mpr hc)]

omit [LinearOrder T] in
/-- **Two classes.**  For scores with one entry, prediction gives a row for every sample of the
data that has a score; the predicted label is the second class exactly if the probability exceeds
the threshold, the first otherwise; the row holds the given label, the probability, and the
probabilities of the codes 0 and 1. -/
theorem C33_binary [One P] [Sub P] (sigmoid : Rat → P) (softmax : List Rat → List P)
    (c0 c1 : Label T) (threshold : P) (given : DTable K (Option (Label T)))
    (scores : DTable K (List Rat)) (hs : scores.WF)
    (hlen : ∀ k s, scores.data.get? k = some s → s.length = 1) :
    ∃ R, predictRows sigmoid softmax 2 [c0, c1] threshold given scores = .ok R ∧
      ∀ k row, R.data.get? k = some row ↔ ∃ g x, given.data.get? k = some g ∧
        scores.data.get? k = some [x] ∧
        row = ⟨g, if sigmoid x > threshold then c1 else c0, sigmoid x,
          [(.int 0, 1 - sigmoid x), (.int 1, sigmoid x)]⟩ := by
  let sc : List Rat → P := fun s => sigmoid (s.headD 0)
  have h1 : scores.mapValuesM (binaryScore sigmoid) = .ok ⟨scores.data.map fun p => (p.1, sc p.2)⟩ := by
    refine DTable.mapValuesM_ok hs _ sc fun p hp => ?_
    have hl := hlen p.1 p.2 (Dict.get?_of_mem hs hp)
    match hp2 : p.2, hl with
    | [x], _ => rfl
  have hwf : (⟨scores.data.map fun p => (p.1, sc p.2)⟩ : DTable K P).WF :=
    (DTable.mapValuesM_inv h1).1
  obtain ⟨R, h2⟩ : ∃ R, given.joinM ⟨scores.data.map fun p => (p.1, sc p.2)⟩
      (binaryRow [c0, c1] threshold) = .ok R := ⟨_, DTable.joinM_ok given hwf (binaryRow [c0, c1] threshold)
    (fun g p => ⟨g, if p > threshold then c1 else c0, p, [(.int 0, 1 - p), (.int 1, p)]⟩)
    (fun k g p _ _ => by
      unfold binaryRow
      by_cases hp : p > threshold
      · simp only [if_pos hp]; rfl
      · simp only [if_neg hp]; rfl)⟩
  refine ⟨R, ?_, fun k row => ?_⟩
  · unfold predictRows
    simp only [if_true, h1, bind, Except.bind]
    exact h2
  · have e : Dict.get? (scores.data.map fun p => (p.1, sc p.2)) k = (scores.data.get? k).map sc :=
      Dict.get?_map (fun _ s => sc s) scores.data k
    have hj := (DTable.joinM_inv h2).2.1 k row
    rw [hj]
    simp only [e]
    constructor
    · rintro ⟨g, p, q1, q2, q3⟩
      cases hsk : scores.data.get? k with
      | none => rw [hsk] at q2; cases q2
      | some s =>
        match s, hlen k s hsk with
        | [x], _ =>
          rw [hsk] at q2
          have q2 : sigmoid x = p := by simpa [sc] using q2
          subst q2
          refine ⟨g, x, q1, rfl, ?_⟩
          unfold binaryRow at q3
          by_cases hp : sigmoid x > threshold
          · rw [if_pos hp] at q3 ⊢; cases q3; rfl
          · rw [if_neg hp] at q3 ⊢; cases q3; rfl
    · rintro ⟨g, x, q1, q2, rfl⟩
      refine ⟨g, sigmoid x, q1, by rw [q2]; rfl, ?_⟩
      unfold binaryRow
      by_cases hp : sigmoid x > threshold
      · simp only [if_pos hp]; rfl
      · simp only [if_neg hp]; rfl

omit [LinearOrder T] in
/-- **Any other number of classes.**  The predicted label is the first class of largest
probability; the row holds the given label, that probability, and the probabilities of all
classes. -/
theorem C33_multi [One P] [Sub P] (sigmoid : Rat → P) (softmax : List Rat → List P)
    (classes : List (Label T)) (hne : classes ≠ []) (h2 : classes.length ≠ 2) (threshold : P)
    (given : DTable K (Option (Label T))) (scores : DTable K (List Rat)) (hs : scores.WF)
    (hlen : ∀ k s, scores.data.get? k = some s → (softmax s).length = classes.length) :
    ∃ R, predictRows sigmoid softmax classes.length classes threshold given scores = .ok R ∧
      (∀ k, (∃ row, R.data.get? k = some row) ↔
        k ∈ given.data.keys ∧ k ∈ scores.data.keys) ∧
      ∀ k row, R.data.get? k = some row → ∃ g s i, given.data.get? k = some g ∧
        scores.data.get? k = some s ∧ row.given = g ∧ classes[i]? = some row.label ∧
        (softmax s)[i]? = some row.score ∧ (∀ p ∈ softmax s, p ≤ row.score) ∧
        (∀ (j : Nat) p, j < i → (softmax s)[j]? = some p → p < row.score) ∧
        row.detail = classes.zip (softmax s) := by
  have hrow : ∀ (g : Option (Label T)) s, (softmax s).length = classes.length → ∃ i row, classes[i]? = some row.label ∧
      multiRow classes g (softmax s) = .ok row ∧ row.given = g ∧
      (softmax s)[i]? = some row.score ∧ (∀ p ∈ softmax s, p ≤ row.score) ∧
      (∀ (j : Nat) p, j < i → (softmax s)[j]? = some p → p < row.score) ∧
      row.detail = classes.zip (softmax s) := by
    intro g s hl
    obtain ⟨i, m, a1, a2, a3, a4⟩ := argmax_spec (ps := softmax s) (by
      intro h0; rw [h0] at hl; exact hne (List.length_eq_zero_iff.mp hl.symm))
    have hi : i < classes.length := by rw [← hl]; exact (List.getElem?_eq_some_iff.mp a2).1
    refine ⟨i, ⟨g, classes[i], m, classes.zip (softmax s)⟩, by simp, ?_, rfl, a2, a3, a4, rfl⟩
    unfold multiRow
    simp only [a1, bind, Except.bind]
    have : Histogram.getAt classes i = .ok classes[i] := by
      unfold Histogram.getAt
      rw [List.getElem?_eq_getElem hi]
    rw [this]; rfl
  have h1 : scores.mapValues softmax = .ok ⟨scores.data.map fun p => (p.1, softmax p.2)⟩ :=
    DTable.mapValues_ok hs softmax
  have hinv := DTable.mapValues_inv h1
  have h3 : ∃ R, given.joinM ⟨scores.data.map fun p => (p.1, softmax p.2)⟩ (multiRow classes) = .ok R := by
    have hex : ∀ (g : Option (Label T)) (ps : List P), ∃ row : Row T P, ps.length = classes.length →
        multiRow classes g ps = .ok row := by
      intro g ps
      by_cases hl : ps.length = classes.length
      · obtain ⟨i, m, a1, a2, _, _⟩ := argmax_spec (ps := ps) (by
          intro h0; rw [h0] at hl; exact hne (List.length_eq_zero_iff.mp hl.symm))
        have hi : i < classes.length := by rw [← hl]; exact (List.getElem?_eq_some_iff.mp a2).1
        refine ⟨⟨g, classes[i], m, classes.zip ps⟩, fun _ => ?_⟩
        unfold multiRow
        simp only [a1, bind, Except.bind]
        have : Histogram.getAt classes i = .ok classes[i] := by
          unfold Histogram.getAt
          rw [List.getElem?_eq_getElem hi]
        rw [this]; rfl
      · exact ⟨⟨g, classes.head hne, 1, []⟩, fun h => absurd h hl⟩
    choose f hf using hex
    refine ⟨_, DTable.joinM_ok given hinv.1 (multiRow classes) f fun k g ps hg hps => hf g ps ?_⟩
    rw [hinv.2] at hps
    obtain ⟨s, hsk, rfl⟩ := Option.map_eq_some_iff.mp hps
    exact hlen k s hsk
  obtain ⟨R, h3⟩ := h3
  obtain ⟨_, j1, j2⟩ := DTable.joinM_inv h3
  refine ⟨R, ?_, fun k => ?_, fun k row hk => ?_⟩
  · unfold predictRows
    rw [if_neg h2]
    simp only [h1, bind, Except.bind]
    exact h3
  · constructor
    · rintro ⟨row, hrow'⟩
      obtain ⟨g, ps, q1, q2, _⟩ := (j1 k row).mp hrow'
      rw [hinv.2] at q2
      obtain ⟨s, hsk, _⟩ := Option.map_eq_some_iff.mp q2
      exact ⟨Dict.mem_keys_of_get? q1, Dict.mem_keys_of_get? hsk⟩
    · rintro ⟨q1, q2⟩
      obtain ⟨g, hg⟩ := Dict.exists_get?_of_mem q1
      obtain ⟨s, hsk⟩ := Dict.exists_get?_of_mem q2
      obtain ⟨row, _, hr⟩ := j2 k g (softmax s) hg (by rw [hinv.2, hsk]; rfl)
      exact ⟨row, hr⟩
  · obtain ⟨g, ps, q1, q2, q3⟩ := (j1 k row).mp hk
    rw [hinv.2] at q2
    obtain ⟨s, hsk, rfl⟩ := Option.map_eq_some_iff.mp q2
    obtain ⟨i, row', b1, b2, b3, b4, b5, b6, b7⟩ := hrow g s (hlen k s hsk)
    rw [q3, Except.ok.injEq] at b2
    subst b2
    exact ⟨g, s, i, q1, hsk, b3, b1, b4, b5, b6, b7⟩

/-- **Predicted labels are labels seen in training**, for any number of classes. -/
theorem C33_known [One P] [Sub P] (sigmoid : Rat → P) (softmax : List Rat → List P)
    {K' : Type} [DecidableEq K'] (y : DTable K (Label T)) (hy : y.WF) (hc : Comparable y.data.values)
    (hn : (distinct y.data.values).length ≤ 1000) (R : Checked K T) (h : checkLabel y = .ok R)
    (threshold : P) (given : DTable K' (Option (Label T))) (scores : DTable K' (List Rat))
    (Q : DTable K' (Row T P))
    (hq : predictRows sigmoid softmax R.num R.classes threshold given scores = .ok Q) :
    ∀ k row, Q.data.get? k = some row → row.label ∈ y.data.values := by
  obtain ⟨R', e, r1, r2, r3, r4, r5, r6, r7⟩ := C33_encoding y hy hc hn
  rw [h, Except.ok.injEq] at e
  subst e
  have hget : ∀ i l, Histogram.getAt R.classes i = .ok l → l ∈ y.data.values := by
    intro i l hl
    unfold Histogram.getAt at hl
    cases hi : R.classes[i]? with
    | none => rw [hi] at hl; cases hl
    | some c => rw [hi] at hl; cases hl; exact r4 _ (List.mem_of_getElem? hi)
  intro k row hk
  unfold predictRows at hq
  split at hq
  · simp only [bind, Except.bind] at hq
    split at hq
    · cases hq
    · obtain ⟨g, p, _, _, q3⟩ := ((DTable.joinM_inv hq).2.1 k row).mp hk
      unfold binaryRow at q3
      simp only [bind, Except.bind] at q3
      split at q3
      · cases q3
      · rename_i l hl
        cases q3
        exact hget _ _ hl
  · simp only [bind, Except.bind] at hq
    split at hq
    · cases hq
    · obtain ⟨g, p, _, _, q3⟩ := ((DTable.joinM_inv hq).2.1 k row).mp hk
      unfold multiRow at q3
      simp only [bind, Except.bind] at q3
      split at q3
      · cases q3
      · split at q3
        · cases q3
        · rename_i l hl
          cases q3
          exact hget _ _ hl

/-- A column with gaps, mixed integers and floats, and repeated values. -/
def demoColumn : DTable Nat (Label Nat) :=
  ⟨[(10, .int 7), (11, .flt (1 / 2)), (12, .int (-3)), (13, .flt 7), (14, .int (-3))]⟩

example : demoColumn.WF ∧ Comparable demoColumn.data.values ∧
    (distinct demoColumn.data.values).length = 3 := by
  refine ⟨by unfold DTable.WF Dict.WF; decide, .inl (by decide), by decide +kernel⟩

example : (checkLabel demoColumn).map (fun R => (R.num, R.classes, R.dim, R.y.data)) =
    .ok (3, [.int (-3), .flt (1 / 2), .int 7], 3,
      [(10, .int 2), (11, .int 1), (12, .int 0), (13, .int 2), (14, .int 0)]) := by decide +kernel

/-- Two classes given as strings. -/
example : (checkLabel (⟨[(1, .str 5), (2, .str 3), (3, .str 5)]⟩ : DTable Nat (Label Nat))).map
    (fun R => (R.num, R.classes, R.dim, R.y.data)) =
    .ok (2, [.str 3, .str 5], 1, [(1, .int 1), (2, .int 0), (3, .int 1)]) := by decide +kernel

/-- A prediction with two classes (any transform, here halving) and one with three. -/
example : predictRows (P := Rat) (fun x => x / 2) (fun s => s) 2 [.str 3, .str 5] (1 / 2)
    (⟨[(1, none), (2, some (.str 3))]⟩ : DTable Nat (Option (Label Nat))) ⟨[(1, [3]), (2, [1])]⟩ =
    .ok ⟨[(1, ⟨none, .str 5, 3 / 2, [(.int 0, -1 / 2), (.int 1, 3 / 2)]⟩),
      (2, ⟨some (.str 3), .str 3, 1 / 2, [(.int 0, 1 / 2), (.int 1, 1 / 2)]⟩)]⟩ := by decide +kernel

example : predictRows (P := Rat) (fun x => x / 2) (fun s => s) 3 [.int 2, .int 4, .int 9] (1 / 2)
    (⟨[(1, none)]⟩ : DTable Nat (Option (Label Nat))) ⟨[(1, [1, 3, 3])]⟩ =
    .ok ⟨[(1, ⟨none, .int 4, 3, [(.int 2, 1), (.int 4, 3), (.int 9, 3)]⟩)]⟩ := by decide +kernel

end Verif
