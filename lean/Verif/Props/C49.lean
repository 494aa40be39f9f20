import Verif.Model.Run
import Verif.Lemmas.DTable

/-!
# C49 A run with validation data returns predictions for both data sets

The full claim: when a training and a validation table are supplied, the task returns the
predictions of both together.  The code computes the union and drops it, so only runs with one of
the two tables return everything (`_partial`); with both the validation half is always missing
(`_refuted`).
-/

set_option autoImplicit false

namespace Verif
open Run

variable {σ T K V : Type} [DecidableEq K]

/-- What a run should return: the prediction of every training sample marked "train", that of
every other validation sample marked "validation". -/
def Spec.Both (tag : String → V) (train eval out : DTable K (List V)) : Prop :=
  ∀ k, out.data.get? k =
    match train.data.get? k, eval.data.get? k with
    | some row, _ => some (row ++ [tag "train"])
    | none, some row => some (row ++ [tag "validation"])
    | none, none => none

/-- `out` holds the rows of `t`, each with a mark added. -/
def Spec.Marked (mark : V) (t out : DTable K (List V)) : Prop :=
  ∀ k, out.data.get? k = (t.data.get? k).map fun row => row ++ [mark]

private theorem label_some (c : Component σ T K V) (name : String) (t : DTable K (List V))
    (ht : t.WF) : ∃ out, label c name (some t) = .ok (some out) ∧ out.WF ∧
      Spec.Marked (c.tag name) t out := by
  refine ⟨⟨t.data.map fun p => (p.1, p.2 ++ [c.tag name])⟩, ?_, ?_, ?_⟩
  · simp only [label, DTable.mapValues_ok ht]
  · unfold DTable.WF Dict.WF
    rw [show Dict.keys (t.data.map fun p => (p.1, p.2 ++ [c.tag name])) = t.data.keys from
      Dict.keys_map (fun _ row => row ++ [c.tag name]) t.data]
    exact ht
  · intro k
    exact Dict.get?_map (fun _ row => row ++ [c.tag name]) t.data k

/-- With a training table only, the run returns exactly the predictions the fitted component makes
for it, marked "train"; with an evaluation table only, exactly those for it, marked "test".
(Missing: both tables.) -/
theorem C49_single_partial (c : Component σ T K V) (stage : Stage) (hs : stage = .fit ∨ stage = .transform)
    (s : σ) (sets : List (String × DataSet T)) (t : T) :
    (∀ s' out, collect ⟨none, none, none⟩ sets = ⟨some t, none, none⟩ → c.fit s t = .ok s' →
      c.predict s' t = .ok (some out) → out.WF →
      ∃ r, runData c true stage s sets = .ok (s', some r) ∧ Spec.Marked (c.tag "train") out r) ∧
    (∀ out, collect ⟨none, none, none⟩ sets = ⟨none, some t, none⟩ →
      c.predict s t = .ok (some out) → out.WF →
      ∃ r, runData c true stage s sets = .ok (s, some r) ∧ Spec.Marked (c.tag "test") out r) := by
  constructor
  · intro s' out hc hf hp hw
    obtain ⟨r, h1, _, h2⟩ := label_some c "train" out hw
    refine ⟨r, ?_, h2⟩
    unfold runData
    simp only [hc, Bool.not_true, Bool.false_eq_true, if_false]
    rcases hs with rfl | rfl <;> simp only [trainEval, hf, hp, h1]
  · intro out hc hp hw
    obtain ⟨r, h1, _, h2⟩ := label_some c "test" out hw
    refine ⟨r, ?_, h2⟩
    unfold runData
    simp only [hc, Bool.not_true, Bool.false_eq_true, if_false]
    rcases hs with rfl | rfl <;> simp only [evalOnly, hp, h1]

/-- With both tables the run returns the predictions of the training table alone, whatever the
component and the tables are.  So the claim fails for every run in which the validation table has
a sample of its own. -/
theorem C49_validation_refuted (c : Component σ T K V) (stage : Stage)
    (hs : stage = .fit ∨ stage = .transform) (s s' : σ) (sets : List (String × DataSet T))
    (t v : T) (d : Option T) (hc : collect ⟨none, none, none⟩ sets = ⟨some t, some v, d⟩)
    (hf : c.fit s t = .ok s') (tp vp : DTable K (List V)) (ht : c.predict s' t = .ok (some tp))
    (hv : c.predict s' v = .ok (some vp)) (wt : tp.WF) (wv : vp.WF) :
    ∃ r, runData c true stage s sets = .ok (s', some r) ∧ Spec.Marked (c.tag "train") tp r ∧
      ∀ k row, vp.data.get? k = some row → tp.data.get? k = none →
        r.data.get? k = none ∧ ¬ Spec.Both c.tag tp vp r := by
  obtain ⟨r, h1, w1, h2⟩ := label_some c "train" tp wt
  obtain ⟨u, g1, _, _⟩ := label_some c "validation" vp wv
  refine ⟨r, ?_, h2, fun k row hk hn => ?_⟩
  · have hu := DTable.union_ok w1 u (fun v _ => v)
    unfold runData
    simp only [hc, Bool.not_true, Bool.false_eq_true, if_false]
    rcases hs with rfl | rfl <;> simp only [trainEval, hf, ht, hv, h1, g1, combine, hu]
  · have hr : r.data.get? k = none := by rw [h2 k, hn]; rfl
    refine ⟨hr, fun hb => ?_⟩
    have := hb k
    rw [hr, hn, hk] at this
    cases this

/-- If the training table yields no prediction (as for a host), the predictions of the validation
table are returned. -/
theorem C49_no_train_prediction (c : Component σ T K V) (stage : Stage)
    (hs : stage = .fit ∨ stage = .transform) (s s' : σ) (sets : List (String × DataSet T))
    (t v : T) (d : Option T) (hc : collect ⟨none, none, none⟩ sets = ⟨some t, some v, d⟩)
    (hf : c.fit s t = .ok s') (vp : DTable K (List V)) (ht : c.predict s' t = .ok none)
    (hv : c.predict s' v = .ok (some vp)) (wv : vp.WF) :
    ∃ r, runData c true stage s sets = .ok (s', some r) ∧ Spec.Marked (c.tag "validation") vp r := by
  obtain ⟨u, g1, _, g2⟩ := label_some c "validation" vp wv
  refine ⟨u, ?_, g2⟩
  have g0 : label c "train" none = .ok none := rfl
  unfold runData
  simp only [hc, Bool.not_true, Bool.false_eq_true, if_false]
  rcases hs with rfl | rfl <;> simp only [trainEval, hf, ht, hv, g0, g1, combine]

/-- Of several data sets the last one that has a table of a kind provides it. -/
theorem C49_last_wins (sets : List (String × DataSet T)) (name : String) (d : DataSet T) (t : T)
    (ht : d.train = some t) :
    (collect ⟨none, none, none⟩ (sets ++ [(name, d)])).train = some t := by
  have : ∀ (sets : List (String × DataSet T)) (acc : DataSet T),
      (collect acc (sets ++ [(name, d)])).train = some t := by
    intro sets
    induction sets with
    | nil => intro acc; simp [collect, ht]
    | cons p sets ih => intro acc; exact ih _
  exact this sets _

/-- A component that is not to be run changes nothing and hands on the last plain table of the
data sets, if there is one. -/
theorem C49_not_run (c : Component σ T K V) (stage : Stage) (s : σ)
    (sets : List (String × DataSet T)) :
    (∀ (name : String) (d : DataSet T) (t : T), d.data = some t →
      runData c false stage s (sets ++ [(name, d)]) = .ok (s, some (c.asOutput t))) ∧
    ((∀ p ∈ sets, p.2.data = none) → runData c false stage s sets = .ok (s, none)) := by
  constructor
  · intro name d t ht
    have : ∀ (sets : List (String × DataSet T)) (acc : DataSet T),
        (collect acc (sets ++ [(name, d)])).data = some t := by
      intro sets
      induction sets with
      | nil => intro acc; simp [collect, ht]
      | cons p sets ih => intro acc; exact ih _
    simp [runData, this]
  · intro h
    have : ∀ (sets : List (String × DataSet T)) (acc : DataSet T), acc.data = none →
        (∀ p ∈ sets, p.2.data = none) → (collect acc sets).data = none := by
      intro sets
      induction sets with
      | nil => intro acc ha _; exact ha
      | cons p sets ih =>
        intro acc ha hp
        refine ih _ ?_ fun x hx => hp x (List.mem_cons_of_mem _ hx)
        show p.2.data.or acc.data = none
        rw [hp p List.mem_cons_self, ha]
        rfl
    simp [runData, this sets ⟨none, none, none⟩ rfl h]

/-! ## Example -/

namespace DemoRun

/-- A component that predicts the doubled feature. -/
def comp : Component Nat (DTable String Nat) String Int where
  fit := fun s t => .ok (s + t.data.length)
  predict := fun _ t => .ok (some ⟨t.data.map fun p => (p.1, [2 * (p.2 : Int)])⟩)
  ovrFit := fun s _ => .ok s
  ovrPredict := fun _ _ => .ok none
  crossValidation := fun s _ => .ok s
  fitData := fun s _ => .ok (s, none)
  transform := fun _ _ => .ok none
  asOutput := fun t => ⟨t.data.map fun p => (p.1, [(p.2 : Int)])⟩
  tag := fun s => s.length

def sets : List (String × DataSet (DTable String Nat)) :=
  [("a", ⟨some ⟨[("x", 1), ("y", 2)]⟩, none, none⟩), ("b", ⟨none, some ⟨[("z", 3)]⟩, none⟩)]

/-- The prediction of "z" is missing. -/
example : runData comp true .fit 0 sets = .ok (2, some ⟨[("x", [2, 5]), ("y", [4, 5])]⟩) := by
  decide +kernel

example : runData comp false .fit 7 (sets ++ [("c", ⟨none, none, some ⟨[("w", 4)]⟩⟩)])
    = .ok (7, some ⟨[("w", [4])]⟩) := by
  decide +kernel

example : collect ⟨none, none, none⟩ sets
    = ⟨some ⟨[("x", 1), ("y", 2)]⟩, some ⟨[("z", 3)]⟩, none⟩ := rfl

end DemoRun

end Verif
