import Verif.Model.ParamExtract

/-!
# Settings and configurations by path

A setting is named by the attribute names that lead to it.
-/

set_option autoImplicit false

namespace Verif
namespace Spec

open ParamExtract (Param)

/-- The value of the setting a path names in a parameter object, if it names one. -/
def settingAt : Param → List String → Option PyVal
  | .nil, _ => none
  | .val name v rest, path => if path = [name] then some v else settingAt rest path
  | .sub _ _ _, [] => none
  | .sub name p rest, n :: path =>
    if n = name then settingAt p path else settingAt rest (n :: path)

/-- What a configuration says at a path. -/
def configAt : PyVal → List String → Option PyVal
  | v, [] => some v
  | .dict d, n :: path =>
    match Dict.get? d n with
    | some v => configAt v path
    | none => none
  | _, _ :: _ => none

/-- Wherever the object has a sub-object and the configuration a section of that name, the section
is a dictionary; and so is the configuration itself. -/
def Sections : Param → PyVal → Prop
  | .nil, .dict _ => True
  | .val _ _ rest, .dict d => Sections rest (.dict d)
  | .sub name p rest, .dict d =>
    (∀ v, Dict.get? d name = some v → Sections p v) ∧ Sections rest (.dict d)
  | _, _ => False

/-- How many levels of sub-objects have a section in the configuration. -/
def nesting : Param → PyVal → Nat
  | .nil, _ => 0
  | .val _ _ rest, cfg => nesting rest cfg
  | .sub name p rest, cfg =>
    max (match configAt cfg [name] with
      | some v => nesting p v + 1
      | none => 0) (nesting rest cfg)

end Spec
end Verif
