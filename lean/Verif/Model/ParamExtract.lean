import Verif.Model.Value

/-!
# Configuration extraction (`ml/utils/param_extract.py`)
-/

set_option autoImplicit false

namespace Verif
namespace ParamExtract

/-- The attributes of a parameter object in the order of `param.__dict__`.  An attribute holds a
value of a built-in type (or `None`), or another parameter object.  (The class of an object matters
only at the top, see `parse`.) -/
inductive Param
  | nil
  | val (name : String) (v : PyVal) (rest : Param)
  | sub (name : String) (p : Param) (rest : Param)
deriving Repr

/-- `consts.PARAM_MAXDEPTH` -/
def maxDepth : Nat := 5

/-- 42-60 `recursive_parse_param_from_config`, the loop over the attributes of an object that is
`depth` levels below the top.  The test of the depth is made where the object is entered. -/
def loop : Param → PyVal → Nat → Except PyErr Param
  | .nil, _, _ => .ok .nil
  | .val name v rest, cfg, depth =>
    match cfg.contains name with
    | .error e => .error e
    | .ok false =>
      match loop rest cfg depth with
      | .error e => .error e
      | .ok r => .ok (.val name v r)
    | .ok true =>
      match cfg.item name with
      | .error e => .error e
      | .ok option =>
        match loop rest cfg depth with
        | .error e => .error e
        | .ok r => .ok (.val name option r)
  | .sub name p rest, cfg, depth =>
    match cfg.contains name with
    | .error e => .error e
    | .ok false =>
      match loop rest cfg depth with
      | .error e => .error e
      | .ok r => .ok (.sub name p r)
    | .ok true =>
      match cfg.get name with
      | .error e => .error e
      | .ok section_ =>
        if depth + 1 > maxDepth then .error .valueError
        else
          match loop p section_ (depth + 1) with
          | .error e => .error e
          | .ok p' =>
            match loop rest cfg depth with
            | .error e => .error e
            | .ok r => .ok (.sub name p' r)

/-- 29-40 `parse_param_from_config`; `cls` is the name of the class of the object. -/
def parse (cls : String) (p : Param) (cfg : PyVal) : Except PyErr Param :=
  match cfg with
  | .dict d =>
    match Dict.get? d cls with
    | none => .ok p
    | some section_ => if 0 > maxDepth then .error .valueError else loop p section_ 0
  | _ => .error .exception

end ParamExtract
end Verif
