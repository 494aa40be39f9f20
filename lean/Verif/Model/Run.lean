import Verif.Model.DTable

/-!
# Running a task (`ml/model_base.py` 71-162, `_run_data`)

What the component does in `fit`, `predict` and so on is a parameter; `σ` is the state of the
component.  Tables are always true in a condition, so `if table:` asks whether there is a table.
Schemas and flow ids are left out.
-/

set_option autoImplicit false

namespace Verif
namespace Run

/-- One entry of `data_sets`. -/
structure DataSet (T : Type) where
  train : Option T
  eval : Option T
  data : Option T

inductive Stage
  | crossValidation
  | oneVsRest
  | fit
  | transform
deriving DecidableEq

/-- The methods a component overrides.  `T` are its input tables, `K` the sample ids and `V` the
entries of a prediction row; `tag` makes an entry of a string. -/
structure Component (σ T K V : Type) where
  fit : σ → T → Except PyErr σ
  predict : σ → T → Except PyErr (Option (DTable K (List V)))
  ovrFit : σ → T → Except PyErr σ
  ovrPredict : σ → T → Except PyErr (Option (DTable K (List V)))
  crossValidation : σ → Option T → Except PyErr σ
  /-- `fit` and `transform` of a table given as plain `data`, with what they return. -/
  fitData : σ → Option T → Except PyErr (σ × Option (DTable K (List V)))
  transform : σ → Option T → Except PyErr (Option (DTable K (List V)))
  /-- `data` itself as a result (87-88). -/
  asOutput : T → DTable K (List V)
  tag : String → V

variable {σ T K V : Type} [DecidableEq K]

/-- 76-84: the last entry that has a table of a kind provides it. -/
def collect : DataSet T → List (String × DataSet T) → DataSet T
  | acc, [] => acc
  | acc, (_, d) :: rest => collect
      { train := d.train.or acc.train, eval := d.eval.or acc.eval, data := d.data.or acc.data } rest

/-- `out.mapValues(lambda value: value + [name])` if there is a table. -/
def label (c : Component σ T K V) (name : String) (out : Option (DTable K (List V))) :
    Except PyErr (Option (DTable K (List V))) :=
  match out with
  | none => .ok none
  | some t =>
    match t.mapValues fun row => row ++ [c.tag name] with
    | .error e => .error e
    | .ok t => .ok (some t)

/-- 133-139 (and 104-110): the union is computed, but its result is not kept. -/
def combine (out evalOut : Option (DTable K (List V))) :
    Except PyErr (Option (DTable K (List V))) :=
  match out, evalOut with
  | some t, some e =>
    match t.union e with
    | .error e => .error e
    | .ok _ => .ok (some t)
  | none, some e => .ok (some e)
  | out, none => .ok out

/-- 96-112 and 120-141: training, prediction of the training table and of the evaluation table. -/
def trainEval (c : Component σ T K V) (fit : σ → T → Except PyErr σ)
    (predict : σ → T → Except PyErr (Option (DTable K (List V)))) (s : σ) (train : T)
    (eval : Option T) : Except PyErr (σ × Option (DTable K (List V))) :=
  match fit s train with
  | .error e => .error e
  | .ok s =>
    match predict s train with
    | .error e => .error e
    | .ok out =>
      match label c "train" out with
      | .error e => .error e
      | .ok out =>
        match eval with
        | none => .ok (s, out)
        | some ev =>
          match predict s ev with
          | .error e => .error e
          | .ok evalOut =>
            match label c "validation" evalOut with
            | .error e => .error e
            | .ok evalOut =>
              match combine out evalOut with
              | .error e => .error e
              | .ok out => .ok (s, out)

/-- 114-118 and 143-150: prediction only. -/
def evalOnly (c : Component σ T K V)
    (predict : σ → T → Except PyErr (Option (DTable K (List V)))) (s : σ) (ev : T) :
    Except PyErr (σ × Option (DTable K (List V))) :=
  match predict s ev with
  | .error e => .error e
  | .ok out =>
    match label c "test" out with
    | .error e => .error e
    | .ok out => .ok (s, out)

/-- 71-162 `_run_data`; the result is `data_output`. -/
def runData (c : Component σ T K V) (needRun : Bool) (stage : Stage) (s : σ)
    (sets : List (String × DataSet T)) : Except PyErr (σ × Option (DTable K (List V))) :=
  let d := collect ⟨none, none, none⟩ sets
  if !needRun then .ok (s, d.data.map c.asOutput)
  else match stage, d.train, d.eval with
    | .crossValidation, train, _ =>
      match c.crossValidation s train with
      | .error e => .error e
      | .ok s => .ok (s, none)
    | .oneVsRest, some train, eval => trainEval c c.ovrFit c.ovrPredict s train eval
    | .oneVsRest, none, some ev => evalOnly c c.ovrPredict s ev
    | .oneVsRest, none, none => .ok (s, none)
    | _, some train, eval => trainEval c c.fit c.predict s train eval
    | _, none, some ev => evalOnly c c.predict s ev
    | .fit, none, none => c.fitData s d.data
    | .transform, none, none =>
      match c.transform s d.data with
      | .error e => .error e
      | .ok out => .ok (s, out)

end Run
end Verif
