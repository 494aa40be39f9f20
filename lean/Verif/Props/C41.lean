import Verif.Lemmas.Params
import Mathlib.Tactic.NormNum

/-!
# C41 Accepted configurations satisfy the documented constraints

The full claim: the check accepts exactly the configurations in which every setting is in its
documented range.  It fails for settings the check does not look at, for not-a-number, for a
missing encryption method and for the two binning checks; the theorems below say exactly what is
accepted.
-/

set_option autoImplicit false

namespace Verif
open Params Spec

variable (lower : String → String)

/-- The check of the tree settings accepts exactly the documented ranges, rejects everything else
with `ValueError`, and changes nothing but the case of the two names. -/
theorem C41_tree (t : DecisionTree) :
    ((∃ t', checkTree lower t = .ok t') ↔ TreeOk lower t) ∧
    (¬ TreeOk lower t → checkTree lower t = .error .valueError) ∧
    ∀ t', checkTree lower t = .ok t' →
      t' = { t with criterionMethod := .str "xgboost", featureImportanceType := t'.featureImportanceType } ∧
      ∃ s, t.featureImportanceType = .str s ∧ t'.featureImportanceType = .str (lower s) := by
  have key : ∀ t', checkTree lower t = .ok t' ↔ TreeOk lower t ∧
      ∃ s, t.featureImportanceType = .str s ∧
        t' = { t with criterionMethod := .str "xgboost", featureImportanceType := .str (lower s) } := by
    intro t'
    unfold checkTree
    simp only [bind_ok, rejectIf_ok, exists_const, lower_ok, first_ok, Bool.or_eq_false_iff,
      notOf_num, notOf_int, notOf_num', notOf_bool, pure, Except.pure, Except.ok.injEq]
    constructor
    · rintro ⟨m, ⟨s, hs, hsl, rfl⟩, p0, ⟨ps, hp⟩, hp0, hd1, hd2, hss, him, hlf, ⟨hsp1, hsp2⟩, hnc,
        htol, fi, ⟨s', hs', hs'l, rfl⟩, rfl⟩
      refine ⟨⟨⟨s, hs, hsl⟩, ⟨p0, ps, hp, hp0⟩, (int_lt _ 1).1 ⟨hd1, by simpa using hd2⟩, hss, him,
        hlf, (int_lt _ 1).1 ⟨hsp1, by simpa using hsp2⟩, hnc, htol, ⟨s', hs', hs'l⟩⟩, s', hs', ?_⟩
      rw [List.mem_singleton.1 hsl]
    · rintro ⟨⟨⟨s, hs, hsl⟩, ⟨p0, ps, hp, hp0⟩, hd, hss, him, hlf, hsp, hnc, htol, _⟩,
        s', hs', rfl⟩
      rename_i himp
      obtain ⟨s'', hs'', hs'l⟩ := himp
      rw [hs'] at hs''
      cases hs''
      have h1 := (int_lt _ 1).2 hd
      have h2 := (int_lt _ 1).2 hsp
      refine ⟨_, ⟨s, hs, hsl, rfl⟩, p0, ⟨ps, hp⟩, hp0, h1.1, by simpa using h1.2, hss, him, hlf,
        ⟨h2.1, by simpa using h2.2⟩, hnc, htol, _, ⟨s', hs', hs'l, rfl⟩, ?_⟩
      rw [List.mem_singleton.1 hsl]
  have honly : OnlyValue (checkTree lower t) := by
    unfold checkTree
    refine (onlyValue_lower lower _ _).bind fun _ => (onlyValue_first _).bind fun _ => ?_
    iterate 9 refine (onlyValue_reject _).bind fun _ => ?_
    exact (onlyValue_lower lower _ _).bind fun _ => onlyValue_ok _
  refine ⟨⟨fun ⟨t', h⟩ => ((key t').1 h).1, fun h => ?_⟩, fun h => ?_, fun t' h => ?_⟩
  · obtain ⟨s, hs, _⟩ := h.importance
    exact ⟨_, (key _).2 ⟨h, s, hs, rfl⟩⟩
  · cases hc : checkTree lower t with
    | error e => rw [honly e hc]
    | ok t' => exact absurd ((key t').1 hc).1 h
  · obtain ⟨_, s, hs, rfl⟩ := (key t').1 h
    exact ⟨rfl, s, hs, rfl⟩

private theorem lossParam_ok (s : String) (params : PyVal)
    (hs : s ∈ ["lse", "lae", "huber", "fair", "log_cosh", "tweedie"]) (u : Unit) :
    checkLossParam (.str s) params = .ok u ↔
      (s ∈ ["lse", "lae", "log_cosh"] ∨
       (s ∈ ["huber", "fair"] ∧ FirstIs params fun v =>
          (∃ q, HasValue v q ∧ 0 < q) ∨ v = .flt .posInf ∨ v = .flt .nan) ∨
       (s = "tweedie" ∧ FirstIs params fun v =>
          (∃ q, HasValue v q ∧ 1 ≤ q ∧ q < 2) ∨ v = .flt .nan)) := by
  have fair : ∀ v, (IsNumber v ∧ v.num.le 0 = false) ↔
      ((∃ q, HasValue v q ∧ 0 < q) ∨ v = .flt .posInf ∨ v = .flt .nan) := by
    intro v
    rw [number_cases]
    constructor
    · rintro ⟨⟨q, hq⟩ | rfl | rfl | rfl, h⟩
      · rw [num_of_value hq] at h
        simp only [Flt.le, decide_eq_false_iff_not, not_le] at h
        exact Or.inl ⟨q, hq, h⟩
      · exact Or.inr (Or.inl rfl)
      · simp [PyVal.num, Flt.le] at h
      · exact Or.inr (Or.inr rfl)
    · rintro (⟨q, hq, h⟩ | rfl | rfl)
      · refine ⟨Or.inl ⟨q, hq⟩, ?_⟩
        rw [num_of_value hq]
        simpa [Flt.le] using h
      · exact ⟨by simp, rfl⟩
      · exact ⟨by simp, rfl⟩
  have tweedie : ∀ v, (IsNumber v ∧ (v.num.lt 1 = false ∧ v.num.ge 2 = false) ∧ v.num.le 0 = false) ↔
      ((∃ q, HasValue v q ∧ 1 ≤ q ∧ q < 2) ∨ v = .flt .nan) := by
    intro v
    rw [number_cases]
    constructor
    · rintro ⟨⟨q, hq⟩ | rfl | rfl | rfl, ⟨h1, h2⟩, h3⟩
      · rw [num_of_value hq] at h1 h2
        simp only [Flt.lt, Flt.ge, decide_eq_false_iff_not, not_lt, ge_iff_le, not_le] at h1 h2
        exact Or.inl ⟨q, hq, h1, h2⟩
      · simp [PyVal.num, Flt.ge] at h2
      · simp [PyVal.num, Flt.lt] at h1
      · exact Or.inr rfl
    · rintro (⟨q, hq, h1, h2⟩ | rfl)
      · refine ⟨Or.inl ⟨q, hq⟩, ?_⟩
        rw [num_of_value hq]
        refine ⟨⟨by simpa [Flt.lt] using h1, by simpa [Flt.ge] using h2⟩, ?_⟩
        simp only [Flt.le, decide_eq_false_iff_not, not_le]
        linarith
      · exact ⟨by simp, ⟨rfl, rfl⟩, rfl⟩
  have hfirst : ∀ (P : PyVal → Prop), (∃ p0, (∃ xs, params = .list (p0 :: xs)) ∧ P p0) ↔
      FirstIs params P := by
    intro P
    constructor
    · rintro ⟨x, ⟨xs, h⟩, hp⟩; exact ⟨x, xs, h, hp⟩
    · rintro ⟨x, xs, h, hp⟩; exact ⟨x, ⟨xs, h⟩, hp⟩
  unfold checkLossParam
  simp only [List.mem_cons, List.not_mem_nil, or_false] at hs
  rcases hs with rfl | rfl | rfl | rfl | rfl | rfl
  · simp [PyVal.isStr]
  · simp [PyVal.isStr]
  · have : ((PyVal.str "huber").isStr "huber" || (PyVal.str "huber").isStr "fair"
        || (PyVal.str "huber").isStr "tweedie") = true := by decide
    rw [if_pos this]
    have ht : (PyVal.str "huber").isStr "tweedie" = false := by decide
    simp only [bind_ok, rejectIf_ok, exists_const, first_ok, notOf_num', ht, Bool.false_and,
      true_and, fair, hfirst]
    simp
  · have : ((PyVal.str "fair").isStr "huber" || (PyVal.str "fair").isStr "fair"
        || (PyVal.str "fair").isStr "tweedie") = true := by decide
    rw [if_pos this]
    have ht : (PyVal.str "fair").isStr "tweedie" = false := by decide
    simp only [bind_ok, rejectIf_ok, exists_const, first_ok, notOf_num', ht, Bool.false_and,
      true_and, fair, hfirst]
    simp
  · simp [PyVal.isStr]
  · have : ((PyVal.str "tweedie").isStr "huber" || (PyVal.str "tweedie").isStr "fair"
        || (PyVal.str "tweedie").isStr "tweedie") = true := by decide
    rw [if_pos this]
    have ht : (PyVal.str "tweedie").isStr "tweedie" = true := by decide
    simp only [bind_ok, rejectIf_ok, exists_const, first_ok, notOf_num', ht, Bool.true_and,
      Bool.or_eq_false_iff, tweedie, hfirst]
    simp

/-- The objective is accepted exactly if it is one of the documented ones for the task, with its
parameter in range (or not-a-number). -/
theorem C41_objective (o : Objective) (task : String)
    (ht : task ∈ ["classification", "regression"]) :
    ((∃ o', checkObjective lower o (.str task) = .ok o') ↔ ObjectiveOk lower o task) ∧
    (¬ ObjectiveOk lower o task → checkObjective lower o (.str task) = .error .valueError) := by
  have iff : (∃ o', checkObjective lower o (.str task) = .ok o') ↔ ObjectiveOk lower o task := by
    unfold checkObjective ObjectiveOk
    cases ho : o.objective with
    | none => simp
    | str s =>
      simp only [List.mem_cons, List.not_mem_nil, or_false] at ht
      rcases ht with rfl | rfl
      · have h1 : (PyVal.str "classification").isStr "classification" = true := by decide
        simp only [h1, if_true, bind_ok, rejectIf_ok, exists_const, pure, Except.pure]
        simp [PyVal.isStr]
      · have h1 : (PyVal.str "regression").isStr "classification" = false := by decide
        have h2 : (PyVal.str "regression").isStr "regression" = true := by decide
        simp only [h1, h2, if_true, Bool.false_eq_true, if_false, bind_ok, lower_ok, pure,
          Except.pure, Except.ok.injEq, PyVal.str.injEq]
        constructor
        · rintro ⟨o', m, ⟨t, rfl, hmem, rfl⟩, u, hu, _⟩
          exact Or.inr (Or.inr ⟨by trivial, s, rfl, (lossParam_ok (lower s) o.params hmem u).1 hu⟩)
        · rintro (h | ⟨h, _⟩ | ⟨_, t, rfl, h⟩)
          · cases h
          · exact absurd h (by decide)
          · have hmem : lower s ∈ ["lse", "lae", "huber", "fair", "log_cosh", "tweedie"] := by
              rcases h with h | ⟨h, _⟩ | ⟨h, _⟩
              · simp only [List.mem_cons, List.not_mem_nil, or_false] at h ⊢
                tauto
              · simp only [List.mem_cons, List.not_mem_nil, or_false] at h ⊢
                tauto
              · simp [h]
            exact ⟨_, _, ⟨s, rfl, hmem, rfl⟩, (), (lossParam_ok (lower s) o.params hmem ()).2 h, rfl⟩
    | _ =>
      simp only [List.mem_cons, List.not_mem_nil, or_false] at ht
      rcases ht with rfl | rfl
      · have h1 : (PyVal.str "classification").isStr "classification" = true := by decide
        simp only [h1, if_true, bind_ok, rejectIf_ok, exists_const, pure, Except.pure]
        simp [PyVal.isStr]
      · have h1 : (PyVal.str "regression").isStr "classification" = false := by decide
        have h2 : (PyVal.str "regression").isStr "regression" = true := by decide
        simp only [h1, h2, if_true, Bool.false_eq_true, if_false, bind_ok, lower_ok]
        simp
  have honly : OnlyValue (checkObjective lower o (.str task)) := by
    have hlp : ∀ v, OnlyValue (checkLossParam v o.params) := by
      intro v
      unfold checkLossParam
      split
      · exact (onlyValue_first _).bind fun _ => (onlyValue_reject _).bind fun _ =>
          (onlyValue_reject _).bind fun _ => onlyValue_reject _
      · exact onlyValue_ok _
    unfold checkObjective
    split
    · exact onlyValue_ok _
    · split
      · exact (onlyValue_reject _).bind fun _ => onlyValue_ok _
      · split
        · exact (onlyValue_lower lower _ _).bind fun _ => (hlp _).bind fun _ => onlyValue_ok _
        · exact (onlyValue_lower lower _ _).bind fun _ => onlyValue_ok _
  refine ⟨iff, fun h => ?_⟩
  cases hc : checkObjective lower o (.str task) with
  | error e => rw [honly e hc]
  | ok o' => exact absurd (iff.1 ⟨o', hc⟩) h

/-- The encryption settings are accepted exactly if the method is a string and the key length a
positive integer; a missing method is not reported as `ValueError` but raises `AttributeError`. -/
theorem C41_encrypt (e : Encrypt) :
    ((∃ e', checkEncrypt lower e = .ok e') ↔ EncryptOk e) ∧
    (e.method = .none → checkEncrypt lower e = .error .attributeError) ∧
    (¬ EncryptOk e → e.method ≠ .none → checkEncrypt lower e = .error .valueError) := by
  have iff : (∃ e', checkEncrypt lower e = .ok e') ↔ EncryptOk e := by
    unfold checkEncrypt
    simp only [bind_ok, rejectIf_ok, exists_const, notOf_int1, pure, Except.pure]
    constructor
    · rintro ⟨e', m, hm, h1, h2, _⟩
      refine ⟨?_, (int_le _).1 ⟨h1, h2⟩⟩
      cases hx : e.method with
      | str s => exact ⟨s, rfl⟩
      | _ => rw [hx] at hm; cases hm
    · rintro ⟨⟨s, hs⟩, hk⟩
      obtain ⟨h1, h2⟩ := (int_le _).2 hk
      exact ⟨_, _, by rw [hs]; rfl, h1, h2, rfl⟩
  refine ⟨iff, fun h => ?_, fun h hn => ?_⟩
  · unfold checkEncrypt
    rw [h]
    rfl
  · cases hc : checkEncrypt lower e with
    | ok e' => exact absurd (iff.1 ⟨e', hc⟩) h
    | error x =>
      have honly : OnlyValue (checkEncrypt lower e) := by
        unfold checkEncrypt
        refine OnlyValue.bind ?_ fun _ => (onlyValue_reject _).bind fun _ =>
          (onlyValue_reject _).bind fun _ => onlyValue_ok _
        intro x hx
        cases hm : e.method with
        | none => exact absurd hm hn
        | str s => rw [hm] at hx; cases hx
        | _ => rw [hm] at hx; cases hx; rfl
      rw [honly x hc]

/-- Exactly what the check of a boosting configuration accepts; and an accepted configuration
keeps every setting it had, except that names change case. -/
theorem C41_boosting_partial (b : BoostingTree) :
    ((∃ b', checkBoosting lower b = .ok b') ↔ BoostingOk lower b) ∧
    (¬ BoostingOk lower b → checkBoosting lower b = .error .valueError ∨
      (b.encryptParam.method = .none ∧ checkBoosting lower b = .error .attributeError)) ∧
    ∀ b', checkBoosting lower b = .ok b' →
      b' = { b with treeParam := b'.treeParam, objectiveParam := b'.objectiveParam,
                    encryptParam := b'.encryptParam } := by
  have rate : ∀ v : PyVal, ((IsNumber v ∧ v.num.lt 0 = false) ∧ v.num.gt 1 = false) ↔
      ((∃ q, HasValue v q ∧ 0 ≤ q ∧ q ≤ 1) ∨ v = .flt .nan) := by
    intro v
    rw [number_cases]
    constructor
    · rintro ⟨⟨⟨q, hq⟩ | rfl | rfl | rfl, h1⟩, h2⟩
      · rw [num_of_value hq] at h1 h2
        simp only [Flt.lt, Flt.gt, decide_eq_false_iff_not, not_lt, gt_iff_lt] at h1 h2
        exact Or.inl ⟨q, hq, h1, h2⟩
      · simp [PyVal.num, Flt.gt] at h2
      · simp [PyVal.num, Flt.lt] at h1
      · exact Or.inr rfl
    · rintro (⟨q, hq, h1, h2⟩ | rfl)
      · refine ⟨⟨Or.inl ⟨q, hq⟩, ?_⟩, ?_⟩
        · rw [num_of_value hq]; simpa [Flt.lt] using h1
        · rw [num_of_value hq]; simpa [Flt.gt] using h2
      · exact ⟨⟨by simp, rfl⟩, rfl⟩
  have unfolded : ∀ b', checkBoosting lower b = .ok b' ↔
      ∃ t', checkTree lower b.treeParam = .ok t' ∧
      (b.taskType.isStr "classification" || b.taskType.isStr "regression") = true ∧
      ∃ o', checkObjective lower b.objectiveParam b.taskType = .ok o' ∧
      IsNumber b.learningRate ∧ IntAtLeast b.numTrees 1 ∧
      ((∃ q, HasValue b.subsampleFeatureRate q ∧ 0 ≤ q ∧ q ≤ 1) ∨
        b.subsampleFeatureRate = .flt .nan) ∧
      IsBool b.nIterNoChange ∧ IsNumber b.tol ∧
      ∃ e', checkEncrypt lower b.encryptParam = .ok e' ∧ IntAtLeast b.binNum 2 ∧
      { b with treeParam := t', objectiveParam := o', encryptParam := e' } = b' := by
    intro b'
    have i1 := int_lt b.numTrees 1
    have i2 := int_lt b.binNum 2
    simp only [Int.cast_one, Int.cast_ofNat] at i1 i2
    unfold checkBoosting
    simp only [bind_ok, rejectIf_ok, exists_const, Bool.or_eq_false_iff, Bool.not_eq_false',
      notOf_int, notOf_num', notOf_bool, pure, Except.pure, Except.ok.injEq, rate, i1, i2]
  have iff : (∃ b', checkBoosting lower b = .ok b') ↔ BoostingOk lower b := by
    simp only [unfolded]
    constructor
    · rintro ⟨b', t', ht, htask, o', ho, hlr, hnt, hr, hnc, htol, e', he, hb, _⟩
      refine ⟨(C41_tree lower _).1.1 ⟨t', ht⟩, ?_, hlr, hnt, hr, hnc, htol,
        (C41_encrypt lower _).1.1 ⟨e', he⟩, hb⟩
      rw [Bool.or_eq_true, isStr_iff, isStr_iff] at htask
      rcases htask with h | h
      · rw [h] at ho
        exact ⟨_, h, by simp, (C41_objective lower _ _ (by simp)).1.1 ⟨o', ho⟩⟩
      · rw [h] at ho
        exact ⟨_, h, by simp, (C41_objective lower _ _ (by simp)).1.1 ⟨o', ho⟩⟩
    · rintro ⟨ht, ⟨task, hk, hmem, ho⟩, hlr, hnt, hr, hnc, htol, he, hb⟩
      obtain ⟨t', ht'⟩ := (C41_tree lower _).1.2 ht
      obtain ⟨o', ho'⟩ := (C41_objective lower _ _ hmem).1.2 ho
      obtain ⟨e', he'⟩ := (C41_encrypt lower _).1.2 he
      refine ⟨_, t', ht', ?_, o', by rw [hk]; exact ho', hlr, hnt, hr, hnc, htol, e', he', hb, rfl⟩
      rw [Bool.or_eq_true, isStr_iff, isStr_iff, hk]
      simpa using hmem
  refine ⟨iff, fun h => ?_, fun b' h => ?_⟩
  · cases hc : checkBoosting lower b with
    | ok b' => exact absurd (iff.1 ⟨b', hc⟩) h
    | error x =>
      -- where the error comes from
      have hT : OnlyValue (checkTree lower b.treeParam) := fun e he => by
        by_contra hne
        by_cases hok : TreeOk lower b.treeParam
        · obtain ⟨t', ht'⟩ := (C41_tree lower _).1.2 hok
          rw [ht'] at he; cases he
        · rw [(C41_tree lower _).2.1 hok] at he
          cases he; exact hne rfl
      have hO : (b.taskType.isStr "classification" || b.taskType.isStr "regression") = true →
          OnlyValue (checkObjective lower b.objectiveParam b.taskType) := fun htask e he => by
        rw [Bool.or_eq_true, isStr_iff, isStr_iff] at htask
        have : ∃ task, b.taskType = .str task ∧ task ∈ ["classification", "regression"] := by
          rcases htask with h | h
          · exact ⟨_, h, by simp⟩
          · exact ⟨_, h, by simp⟩
        obtain ⟨task, hk, hmem⟩ := this
        rw [hk] at he
        by_cases hok : ObjectiveOk lower b.objectiveParam task
        · obtain ⟨o', ho'⟩ := (C41_objective lower _ _ hmem).1.2 hok
          rw [ho'] at he; cases he
        · rw [(C41_objective lower _ _ hmem).2 hok] at he
          cases he; rfl
      by_cases hm : b.encryptParam.method = .none
      · have hE := (C41_encrypt lower b.encryptParam).2.1 hm
        have two : ∀ e, checkBoosting lower b = .error e → e = .valueError ∨ e = .attributeError := by
          intro e he
          unfold checkBoosting at he
          rw [hE] at he
          cases hT' : checkTree lower b.treeParam with
          | error e' => rw [hT'] at he; cases he; exact Or.inl (hT _ hT')
          | ok t' =>
            rw [hT'] at he
            cases htask : (b.taskType.isStr "classification" || b.taskType.isStr "regression") with
            | false => rw [htask] at he; cases he; exact Or.inl rfl
            | true =>
              rw [htask] at he
              cases hO' : checkObjective lower b.objectiveParam b.taskType with
              | error e' => rw [hO'] at he; cases he; exact Or.inl (hO htask _ hO')
              | ok o' =>
                rw [hO'] at he
                have step : ∀ (x : Bool) (f : Unit → Except PyErr BoostingTree) (e : PyErr),
                    (rejectIf x >>= f) = .error e → e = .valueError ∨ f () = .error e := by
                  intro x f e h
                  cases x with
                  | true => cases h; exact Or.inl rfl
                  | false => exact Or.inr h
                rcases step _ _ _ he with h | he
                · exact Or.inl h
                rcases step _ _ _ he with h | he
                · exact Or.inl h
                rcases step _ _ _ he with h | he
                · exact Or.inl h
                rcases step _ _ _ he with h | he
                · exact Or.inl h
                rcases step _ _ _ he with h | he
                · exact Or.inl h
                cases he
                exact Or.inr rfl
        rcases two x hc with rfl | rfl
        · exact Or.inl rfl
        · exact Or.inr ⟨hm, rfl⟩
      · have hE : OnlyValue (checkEncrypt lower b.encryptParam) := fun e he => by
          by_cases hok : EncryptOk b.encryptParam
          · obtain ⟨e', he'⟩ := (C41_encrypt lower _).1.2 hok
            rw [he'] at he; cases he
          · rw [(C41_encrypt lower _).2.2 hok hm] at he
            cases he; rfl
        have : OnlyValue (checkBoosting lower b) := by
          unfold checkBoosting
          refine hT.bind fun _ => ?_
          cases htask : (b.taskType.isStr "classification" || b.taskType.isStr "regression") with
          | false => exact fun e he => by cases he; rfl
          | true =>
            refine (onlyValue_reject _).bind fun _ => (hO htask).bind fun _ => ?_
            iterate 5 refine (onlyValue_reject _).bind fun _ => ?_
            exact hE.bind fun _ => (onlyValue_reject _).bind fun _ => onlyValue_ok _
        exact Or.inl (by rw [this x hc])
  · obtain ⟨t', _, _, o', _, _, _, _, _, _, e', _, _, rfl⟩ := (unfolded b').1 h
    rfl

/-! ## Where acceptance and documentation differ -/

/-- The default configuration (`boosting_tree_param.py` 202-208). -/
def Spec.defaultBoosting : BoostingTree where
  treeParam :=
    { criterionMethod := .str "xgboost"
      criterionParams := .list [.flt (.fin (1 / 10))]
      maxDepth := .int 5
      minSampleSplit := .int 2
      minImpuritySplit := .flt (.fin (1 / 1000))
      minLeafNode := .int 1
      maxSplitNodes := .int 65536
      featureImportanceType := .str "split"
      nIterNoChange := .bool true
      tol := .flt (.fin (1 / 1000)) }
  taskType := .str "classification"
  objectiveParam := ⟨.str "cross_entropy", .none⟩
  learningRate := .flt (.fin (3 / 10))
  numTrees := .int 5
  subsampleFeatureRate := .flt (.fin (4 / 5))
  nIterNoChange := .bool true
  tol := .flt (.fin (1 / 10000))
  encryptParam := ⟨.str "Paillier", .int 1024⟩
  binNum := .int 32
  encryptedModeCalculatorParam := ⟨.str "strict", .int 1⟩
  predictParam := ⟨.bool true, .flt (.fin (1 / 2))⟩
  cvParam := ⟨.int 5, .str "hetero", .str "guest", .bool true, .int 1, .bool false⟩

/-- The defaults are in the documented ranges, so the theorems above speak of real
configurations.  (`lower` leaves the lower-case names alone.) -/
theorem C41_default (h1 : lower "xgboost" = "xgboost") (h2 : lower "split" = "split")
    (h3 : lower "strict" = "strict") : Documented lower defaultBoosting := by
  refine ⟨⟨⟨⟨_, rfl, by simp [h1]⟩, ⟨_, _, rfl, Or.inr ⟨_, rfl⟩⟩, ⟨5, rfl, by decide⟩, ⟨_, rfl⟩,
    Or.inr ⟨_, rfl⟩, ⟨_, rfl⟩, ⟨65536, rfl, by decide⟩, ⟨_, rfl⟩, Or.inr ⟨_, rfl⟩,
    ⟨_, rfl, by simp [h2]⟩⟩, ⟨_, rfl, by simp, Or.inr (Or.inl ⟨rfl, rfl⟩)⟩, Or.inr ⟨_, rfl⟩,
    ⟨5, rfl, by decide⟩, Or.inl ⟨4 / 5, Or.inr rfl, by norm_num, by norm_num⟩, ⟨_, rfl⟩,
    Or.inr ⟨_, rfl⟩, ⟨⟨_, rfl⟩, ⟨1024, rfl, by decide⟩⟩, ⟨32, rfl, by decide⟩⟩,
    ⟨4 / 5, Or.inr rfl, by norm_num, by norm_num⟩, ⟨_, rfl, by simp [h3]⟩, ⟨_, rfl⟩,
    Or.inr ⟨_, rfl⟩⟩

/-- A configuration with an unknown calculation mode and a threshold that is no number is
accepted, and so is one whose feature rate is not-a-number. -/
theorem C41_unchecked_refuted (h1 : lower "xgboost" = "xgboost") (h2 : lower "split" = "split")
    (h3 : lower "turbo" = "turbo") :
    (∃ b b', checkBoosting lower b = .ok b' ∧ ¬ Documented lower b' ∧
      b'.encryptedModeCalculatorParam.mode = .str "turbo") ∧
    (∃ b b', checkBoosting lower b = .ok b' ∧ ¬ Documented lower b' ∧
      b'.predictParam.threshold = .str "high") ∧
    (∃ b b', checkBoosting lower b = .ok b' ∧ ¬ Documented lower b' ∧
      b'.subsampleFeatureRate = .flt .nan) := by
  have ht : TreeOk lower defaultBoosting.treeParam :=
    ⟨⟨_, rfl, by simp [h1]⟩, ⟨_, _, rfl, Or.inr ⟨_, rfl⟩⟩, ⟨5, rfl, by decide⟩, ⟨_, rfl⟩,
      Or.inr ⟨_, rfl⟩, ⟨_, rfl⟩, ⟨65536, rfl, by decide⟩, ⟨_, rfl⟩, Or.inr ⟨_, rfl⟩,
      ⟨_, rfl, by simp [h2]⟩⟩
  have hd : BoostingOk lower defaultBoosting :=
    ⟨ht, ⟨_, rfl, by simp, Or.inr (Or.inl ⟨rfl, rfl⟩)⟩, Or.inr ⟨_, rfl⟩, ⟨5, rfl, by decide⟩,
      Or.inl ⟨4 / 5, Or.inr rfl, by norm_num, by norm_num⟩, ⟨_, rfl⟩, Or.inr ⟨_, rfl⟩,
      ⟨⟨_, rfl⟩, ⟨1024, rfl, by decide⟩⟩, ⟨32, rfl, by decide⟩⟩
  refine ⟨?_, ?_, ?_⟩
  · obtain ⟨b', hb'⟩ := (C41_boosting_partial lower
      { defaultBoosting with encryptedModeCalculatorParam := ⟨.str "turbo", .int 1⟩ }).1.2
      ⟨hd.tree, hd.task, hd.learningRate, hd.numTrees, hd.rate, hd.noChange, hd.tol, hd.encrypt,
        hd.binNum⟩
    have hkeep := (C41_boosting_partial lower _).2.2 b' hb'
    have hmode : b'.encryptedModeCalculatorParam.mode = .str "turbo" := by rw [hkeep]
    refine ⟨_, b', hb', fun hdoc => ?_, hmode⟩
    obtain ⟨s, hs, hl⟩ := hdoc.mode
    rw [hmode] at hs
    cases hs
    rw [h3] at hl
    revert hl
    decide
  · obtain ⟨b', hb'⟩ := (C41_boosting_partial lower
      { defaultBoosting with predictParam := ⟨.bool true, .str "high"⟩ }).1.2
      ⟨hd.tree, hd.task, hd.learningRate, hd.numTrees, hd.rate, hd.noChange, hd.tol, hd.encrypt,
        hd.binNum⟩
    have hkeep := (C41_boosting_partial lower _).2.2 b' hb'
    have hth : b'.predictParam.threshold = .str "high" := by rw [hkeep]
    refine ⟨_, b', hb', fun hdoc => ?_, hth⟩
    rcases hdoc.threshold with ⟨z, hz⟩ | ⟨x, hx⟩
    · rw [hth] at hz; cases hz
    · rw [hth] at hx; cases hx
  · obtain ⟨b', hb'⟩ := (C41_boosting_partial lower
      { defaultBoosting with subsampleFeatureRate := .flt .nan }).1.2
      ⟨hd.tree, hd.task, hd.learningRate, hd.numTrees, Or.inr rfl, hd.noChange, hd.tol, hd.encrypt,
        hd.binNum⟩
    have hkeep := (C41_boosting_partial lower _).2.2 b' hb'
    have hrate : b'.subsampleFeatureRate = .flt .nan := by rw [hkeep]
    refine ⟨_, b', hb', fun hdoc => ?_, hrate⟩
    obtain ⟨q, ⟨z, hz, _⟩ | hz, _⟩ := hdoc.rate
    · rw [hrate] at hz; cases hz
    · rw [hrate] at hz; cases hz

/-- The check of the transformation settings rejects every configuration, the default one
included. -/
theorem C41_transform_refuted (t : Transform) : checkTransform t = .error .valueError := by
  have h2 : notOf t.transformType ["bin_num"] = true := by
    cases t.transformType <;> rfl
  unfold checkTransform
  rw [h2]
  cases hb : (!isNone t.transformCols && !isMinusOne t.transformCols) with
  | false => rfl
  | true =>
    cases hl : notOf t.transformCols ["list"] with
    | true => rfl
    | false => rfl

/-- Exactly what the check of the binning settings accepts: the documented ranges, except that an
error of one and not-a-number are accepted too. -/
theorem C41_binning_partial (f : FeatureBinning) :
    ((∃ f', checkBinning lower f = .ok f') ↔ BinningAccepted lower f) ∧
    (BinningOk lower f → BinningAccepted lower f) ∧
    (¬ BinningAccepted lower f → checkBinning lower f = .error .valueError) := by
  have honly : OnlyValue (checkBinning lower f) := by
    unfold checkBinning positiveInteger
    refine (onlyValue_lower lower _ _).bind fun _ => ?_
    iterate 6 refine (onlyValue_reject _).bind fun _ => ?_
    exact onlyValue_ok _
  have err : ∀ v : PyVal, ((notOf v ["float"] = false ∧ v.num.lt 0 = false) ∧ v.num.gt 1 = false) ↔
      ((∃ q, v = .flt (.fin q) ∧ 0 ≤ q ∧ q ≤ 1) ∨ v = .flt .nan) := by
    intro v
    rw [notOf_float]
    constructor
    · rintro ⟨⟨⟨x, rfl⟩, h1⟩, h2⟩
      cases x with
      | fin q =>
        simp only [PyVal.num, Flt.lt, Flt.gt, decide_eq_false_iff_not, not_lt, gt_iff_lt] at h1 h2
        exact Or.inl ⟨q, rfl, h1, h2⟩
      | posInf => simp [PyVal.num, Flt.gt] at h2
      | negInf => simp [PyVal.num, Flt.lt] at h1
      | nan => exact Or.inr rfl
    · rintro (⟨q, rfl, h1, h2⟩ | rfl)
      · exact ⟨⟨⟨_, rfl⟩, by simpa [PyVal.num, Flt.lt] using h1⟩, by simpa [PyVal.num, Flt.gt] using h2⟩
      · exact ⟨⟨⟨_, rfl⟩, rfl⟩, rfl⟩
  have fac : ∀ v : PyVal, ((notOf v ["float"] = false ∧ v.num.le 0 = false) ∧ v.num.ge 1 = false) ↔
      ((∃ q, v = .flt (.fin q) ∧ 0 < q ∧ q < 1) ∨ v = .flt .nan) := by
    intro v
    rw [notOf_float]
    constructor
    · rintro ⟨⟨⟨x, rfl⟩, h1⟩, h2⟩
      cases x with
      | fin q =>
        simp only [PyVal.num, Flt.le, Flt.ge, decide_eq_false_iff_not, not_le, ge_iff_le] at h1 h2
        exact Or.inl ⟨q, rfl, h1, h2⟩
      | posInf => simp [PyVal.num, Flt.ge] at h2
      | negInf => simp [PyVal.num, Flt.le] at h1
      | nan => exact Or.inr rfl
    · rintro (⟨q, rfl, h1, h2⟩ | rfl)
      · exact ⟨⟨⟨_, rfl⟩, by simpa [PyVal.num, Flt.le] using h1⟩, by simpa [PyVal.num, Flt.ge] using h2⟩
      · exact ⟨⟨⟨_, rfl⟩, rfl⟩, rfl⟩
  have colsOk : ∀ v : PyVal, notOf v ["list", "int", "RepeatedScalarContainer"] = false ↔
      ((∃ xs, v = .list xs) ∨ IsInt v) := by
    intro v
    cases v <;> simp [notOf, PyVal.typeName, IsInt]
  have iff : (∃ f', checkBinning lower f = .ok f') ↔ BinningAccepted lower f := by
    unfold checkBinning positiveInteger
    simp only [bind_ok, rejectIf_ok, exists_const, Bool.or_eq_false_iff, lower_ok, notOf_int,
      int_le, err, fac, colsOk, pure, Except.pure, Except.ok.injEq]
    constructor
    · rintro ⟨f', m, ⟨s, hs, hsl, _⟩, h1, h2, h3, h4, h5, h6, _⟩
      exact ⟨⟨s, hs, hsl⟩, h1, h2, h3, h4, h5, h6⟩
    · rintro ⟨⟨s, hs, hsl⟩, h1, h2, h3, h4, h5, h6⟩
      exact ⟨_, _, ⟨s, hs, hsl, rfl⟩, h1, h2, h3, h4, h5, h6, rfl⟩
  refine ⟨iff, fun h => ?_, fun h => ?_⟩
  · obtain ⟨q, hq, q0, q1⟩ := h.error
    exact ⟨h.method, h.compress, h.head, Or.inl ⟨q, hq, q0, q1.le⟩, h.binNum, h.cols,
      Or.inl h.factor⟩
  · cases hc : checkBinning lower f with
    | error e => rw [honly e hc]
    | ok f' => exact absurd (iff.1 ⟨f', hc⟩) h

/-- An error of one, documented as excluded, is accepted; the integer zero, documented as
included, is rejected. -/
theorem C41_binning_refuted (h : lower "quantile" = "quantile") :
    (∃ f f', checkBinning lower f = .ok f' ∧ f.error = .flt (.fin 1) ∧ ¬ BinningOk lower f) ∧
    ∀ f, f.error = .int 0 → checkBinning lower f = .error .valueError := by
  constructor
  · obtain ⟨f', hf'⟩ := (C41_binning_partial lower ⟨.str "quantile", .int 10, .int 10,
      .flt (.fin 1), .int 10, .int (-1), .flt (.fin (1 / 2)), ⟨.int (-1), .str "bin_num"⟩⟩).1.2
      ⟨⟨_, rfl, by simp [h]⟩, ⟨10, rfl, by decide⟩, ⟨10, rfl, by decide⟩,
        Or.inl ⟨1, rfl, by norm_num, le_refl _⟩, ⟨10, rfl, by decide⟩, Or.inr ⟨_, rfl⟩,
        Or.inl ⟨1 / 2, rfl, by norm_num, by norm_num⟩⟩
    refine ⟨_, f', hf', rfl, fun hok => ?_⟩
    obtain ⟨q, hq, _, h1⟩ := hok.error
    cases hq
    exact absurd h1 (lt_irrefl _)
  · intro f hf
    refine (C41_binning_partial lower f).2.2 fun hacc => ?_
    rcases hacc.error with ⟨q, hq, _⟩ | hq
    · rw [hf] at hq; cases hq
    · rw [hf] at hq; cases hq

/-- The name of an accepted encryption method is `Paillier` for every spelling of it and is kept
otherwise; the key length is kept. -/
theorem C41_method (e e' : Encrypt) (h : checkEncrypt lower e = .ok e') :
    e'.keyLength = e.keyLength ∧ ∃ s, e.method = .str s ∧
      (lower s = "paillier" → e'.method = .str "Paillier") ∧
      (lower s ≠ "paillier" → e'.method = .str s) := by
  unfold checkEncrypt at h
  simp only [bind_ok, pure, Except.pure, Except.ok.injEq] at h
  obtain ⟨m, hm, _, _, _, _, rfl⟩ := h
  refine ⟨rfl, ?_⟩
  cases hx : e.method with
  | str s =>
    rw [hx] at hm
    simp only [checkMethod, Except.ok.injEq] at hm
    refine ⟨s, rfl, fun hl => ?_, fun hl => ?_⟩
    · rw [← hm, if_pos hl]
    · rw [← hm, if_neg hl]
  | _ => rw [hx] at hm; cases hm

/-- The checks of the calculation mode, of the prediction settings and of the cross-validation
settings accept exactly the documented ranges and reject everything else with `ValueError`.  (The
code never calls them.) -/
theorem C41_uncalled (m : EncryptedMode) (p : Predict) (c : CrossValidation) :
    (((∃ m', checkMode lower m = .ok m') ↔ ModeOk lower m) ∧
      (¬ ModeOk lower m → checkMode lower m = .error .valueError)) ∧
    (((∃ p', checkPredict p = .ok p') ↔ PredictOk p) ∧
      (¬ PredictOk p → checkPredict p = .error .valueError)) ∧
    (((∃ c', checkCv c = .ok c') ↔ CvOk c) ∧ (¬ CvOk c → checkCv c = .error .valueError)) := by
  have close : ∀ {β : Type} {x : Except PyErr β} {P : Prop}, OnlyValue x → ((∃ y, x = .ok y) ↔ P) →
      ((∃ y, x = .ok y) ↔ P) ∧ (¬ P → x = .error .valueError) := by
    intro β x P ho hi
    refine ⟨hi, fun hn => ?_⟩
    cases hx : x with
    | error e => rw [ho e hx]
    | ok y => exact absurd (hi.1 ⟨y, hx⟩) hn
  refine ⟨close ?_ ?_, close ?_ ?_, close ?_ ?_⟩
  · unfold checkMode
    exact (onlyValue_lower lower _ _).bind fun _ => (onlyValue_reject _).bind fun _ => onlyValue_ok _
  · unfold checkMode
    simp only [bind_ok, rejectIf_ok, exists_const, lower_ok, pure, Except.pure]
    constructor
    · rintro ⟨_, v, ⟨s, hs, hl, rfl⟩, hr, _⟩
      refine ⟨s, hs, hl, fun hb => ?_⟩
      rw [hb] at hr
      have h1 : (PyVal.str "balance").isStr "balance" = true := by decide
      rw [h1, Bool.true_and] at hr
      exact (notOf_num _).1 hr
    · rintro ⟨s, hs, hl, hb⟩
      refine ⟨_, _, ⟨s, hs, hl, rfl⟩, ?_, rfl⟩
      by_cases h : lower s = "balance"
      · rw [(notOf_num _).2 (hb h), Bool.and_false]
      · have : (PyVal.str (lower s)).isStr "balance" = false := by
          rw [Bool.eq_false_iff]
          intro h'
          rw [isStr_iff] at h'
          exact h (PyVal.str.inj h')
        rw [this, Bool.false_and]
  · unfold checkPredict
    exact (onlyValue_reject _).bind fun _ => (onlyValue_reject _).bind fun _ => onlyValue_ok _
  · unfold checkPredict
    simp only [bind_ok, rejectIf_ok, exists_const, notOf_bool, notOf_num2, pure, Except.pure]
    exact ⟨fun ⟨_, h1, h2, _⟩ => ⟨h1, h2⟩, fun h => ⟨_, h.1, h.2, rfl⟩⟩
  · unfold checkCv positiveInteger
    iterate 5 refine (onlyValue_reject _).bind fun _ => ?_
    exact onlyValue_ok _
  · unfold checkCv positiveInteger
    simp only [bind_ok, rejectIf_ok, exists_const, Bool.or_eq_false_iff, Bool.not_eq_false',
      Bool.or_eq_true, isStr_iff, notOf_int, notOf_bool, int_le, pure, Except.pure]
    constructor
    · rintro ⟨_, h1, h2, h3, h4, h5, _⟩
      refine ⟨h1, ?_, ?_, h4, h5⟩
      · rcases h2 with h | h
        · exact ⟨_, h, by simp⟩
        · exact ⟨_, h, by simp⟩
      · rcases h3 with (h | h) | h
        · exact ⟨_, h, by simp⟩
        · exact ⟨_, h, by simp⟩
        · exact ⟨_, h, by simp⟩
    · rintro ⟨h1, ⟨s, hs, hm⟩, ⟨r, hr, hm'⟩, h4, h5⟩
      refine ⟨_, h1, ?_, ?_, h4, h5, rfl⟩
      · rw [hs]
        simpa using hm
      · rw [hr]
        simp only [List.mem_cons, List.not_mem_nil, or_false] at hm'
        simp only [PyVal.str.injEq]
        tauto

/-! ## Examples -/

/-- An accepted configuration, with an identity for `lower`. -/
example : ∃ b', checkBoosting id defaultBoosting = .ok b' :=
  (C41_boosting_partial id _).1.2 (C41_default id rfl rfl rfl).accepted

/-- Depth zero is rejected. -/
example : checkTree id { defaultBoosting.treeParam with maxDepth := .int 0 } = .error .valueError :=
  rfl

/-- Tweedie with parameter two is rejected, with 1.5 accepted. -/
example : checkObjective id ⟨.str "tweedie", .list [.int 2]⟩ (.str "regression") = .error .valueError
    ∧ ∃ o', checkObjective id ⟨.str "tweedie", .list [.flt (.fin (3 / 2))]⟩ (.str "regression")
      = .ok o' :=
  ⟨rfl, (C41_objective id _ _ (by simp)).1.2 (Or.inr (Or.inr ⟨rfl, _, rfl, Or.inr (Or.inr ⟨rfl, _, _,
    rfl, Or.inl ⟨3 / 2, Or.inr rfl, by norm_num, by norm_num⟩⟩)⟩))⟩

/-- Settings the last theorem speaks of. -/
example : ModeOk id ⟨.str "balance", .flt (.fin (1 / 2))⟩ ∧ ¬ ModeOk id ⟨.str "balance", .str "x"⟩ ∧
    PredictOk ⟨.bool true, .flt (.fin (1 / 2))⟩ ∧
    CvOk ⟨.int 5, .str "hetero", .str "guest", .bool true, .int 1, .bool false⟩ := by
  refine ⟨⟨_, rfl, by simp, fun _ => Or.inr ⟨_, rfl⟩⟩, ?_, ⟨⟨_, rfl⟩, Or.inr ⟨_, rfl⟩⟩,
    ⟨⟨5, rfl, by decide⟩, ⟨_, rfl, by simp⟩, ⟨_, rfl, by simp⟩, ⟨_, rfl⟩, ⟨1, rfl, by decide⟩⟩⟩
  rintro ⟨s, hs, _, h⟩
  cases hs
  rcases h rfl with ⟨z, hz⟩ | ⟨x, hx⟩
  · cases hz
  · cases hx

end Verif
