import Verif.Spec.C40
import Verif.Lemmas.Dict

/-!
# C40 Configuration extraction changes exactly the named settings
-/

set_option autoImplicit false

namespace Verif
open ParamExtract Spec

private theorem contains_dict (d : List (String × PyVal)) (name : String) :
    (PyVal.dict d).contains name = .ok (Dict.has d name) := rfl

/-- If the test for membership succeeds without exception, it tells whether the configuration says
something there, unless the configuration is no dictionary. -/
private theorem contains_false {cfg : PyVal} {name : String} (h : cfg.contains name = .ok false)
    (path : List String) : configAt cfg (name :: path) = none := by
  cases cfg with
  | dict d =>
    rw [contains_dict, Except.ok.injEq, Dict.has_false_iff, ← Dict.get?_eq_none_iff] at h
    simp only [configAt, h]
  | _ => rfl

private theorem item_ok {cfg : PyVal} {name : String} {v : PyVal} (h : cfg.item name = .ok v)
    (path : List String) : configAt cfg (name :: path) = configAt v path := by
  cases cfg with
  | dict d =>
    simp only [PyVal.item] at h
    split at h
    · cases h
    · rename_i x hx
      cases h
      simp only [configAt, hx]
  | _ => cases h

private theorem get_ok {cfg : PyVal} {name : String} {v : PyVal}
    (hc : cfg.contains name = .ok true) (h : cfg.get name = .ok v)
    (path : List String) : configAt cfg (name :: path) = configAt v path := by
  cases cfg with
  | dict d =>
    rw [contains_dict, Except.ok.injEq, Dict.has_iff] at hc
    obtain ⟨x, hx⟩ := Dict.exists_get?_of_mem hc
    simp only [PyVal.get, hx, Except.ok.injEq] at h
    subst h
    simp only [configAt, hx]
  | _ => cases h

private theorem loop_settings (p : Param) : ∀ (cfg : PyVal) (depth : Nat) (p' : Param),
    loop p cfg depth = .ok p' → ∀ path, settingAt p' path
      = (settingAt p path).map fun old => (configAt cfg path).getD old := by
  induction p with
  | nil =>
    intro cfg depth p' h path
    simp only [loop, Except.ok.injEq] at h
    subst h
    rfl
  | val name v rest ih =>
    intro cfg depth p' h path
    simp only [loop] at h
    split at h
    · cases h
    · rename_i hc
      split at h
      · cases h
      · rename_i r hr
        cases h
        simp only [settingAt]
        split
        · rename_i hp
          subst hp
          rw [contains_false hc]
          rfl
        · exact ih cfg depth r hr path
    · rename_i hc
      split at h
      · cases h
      · rename_i option ho
        split at h
        · cases h
        · rename_i r hr
          cases h
          simp only [settingAt]
          split
          · rename_i hp
            subst hp
            rw [item_ok ho]
            rfl
          · exact ih cfg depth r hr path
  | sub name q rest ihq ih =>
    intro cfg depth p' h path
    simp only [loop] at h
    split at h
    · cases h
    · rename_i hc
      split at h
      · cases h
      · rename_i r hr
        cases h
        cases path with
        | nil => rfl
        | cons n path =>
          simp only [settingAt]
          split
          · rename_i hn
            subst hn
            rw [contains_false hc]
            simp
          · exact ih cfg depth r hr _
    · rename_i hc
      split at h
      · cases h
      · rename_i sec hs
        split at h
        · cases h
        · split at h
          · cases h
          · rename_i q' hq'
            split at h
            · cases h
            · rename_i r hr
              cases h
              cases path with
              | nil => rfl
              | cons n path =>
                simp only [settingAt]
                split
                · rename_i hn
                  subst hn
                  rw [get_ok hc hs]
                  exact ihq sec _ q' hq' path
                · exact ih cfg depth r hr _

/-- After a successful extraction every setting of the object has the value the configuration gives
at the same place (below the section of the object's class) if it gives one, and its old value
otherwise; names the object does not have stay unknown. -/
theorem C40_settings (cls : String) (p p' : Param) (cfg : PyVal)
    (h : parse cls p cfg = .ok p') (path : List String) :
    settingAt p' path
      = (settingAt p path).map fun old => (configAt cfg (cls :: path)).getD old := by
  unfold parse at h
  cases cfg with
  | dict d =>
    simp only at h
    split at h
    · rename_i hn
      cases h
      simp only [configAt, hn]
      simp
    · rename_i sec hs
      rw [if_neg (by decide)] at h
      simp only [configAt, hs]
      exact loop_settings p sec 0 p' h path
  | _ => cases h

private theorem sections_dict {p : Param} {cfg : PyVal} (h : Sections p cfg) :
    ∃ d, cfg = .dict d := by
  cases cfg with
  | dict d => exact ⟨d, rfl⟩
  | _ => cases p <;> cases h

private theorem loop_total (p : Param) : ∀ (cfg : PyVal) (depth : Nat), Sections p cfg →
    depth ≤ maxDepth →
    (depth + nesting p cfg ≤ maxDepth → ∃ p', loop p cfg depth = .ok p') ∧
    (maxDepth < depth + nesting p cfg → loop p cfg depth = .error .valueError) := by
  induction p with
  | nil =>
    intro cfg depth _ hd
    refine ⟨fun _ => ⟨_, rfl⟩, fun h => ?_⟩
    simp only [nesting] at h
    omega
  | val name v rest ih =>
    intro cfg depth hs hd
    obtain ⟨d, rfl⟩ := sections_dict hs
    obtain ⟨h1, h2⟩ := ih (.dict d) depth hs hd
    simp only [loop, contains_dict, nesting]
    cases hh : Dict.has d name with
    | false =>
      refine ⟨fun h => ?_, fun h => ?_⟩
      · obtain ⟨r, hr⟩ := h1 h
        exact ⟨_, by simp only [hr]; rfl⟩
      · simp only [h2 h]
    | true =>
      obtain ⟨x, hx⟩ := Dict.exists_get?_of_mem ((Dict.has_iff d name).1 hh)
      simp only [PyVal.item, hx]
      refine ⟨fun h => ?_, fun h => ?_⟩
      · obtain ⟨r, hr⟩ := h1 h
        exact ⟨_, by simp only [hr]; rfl⟩
      · simp only [h2 h]
  | sub name q rest ihq ih =>
    intro cfg depth hs hd
    obtain ⟨d, rfl⟩ := sections_dict hs
    obtain ⟨hs1, hs2⟩ := hs
    obtain ⟨h1, h2⟩ := ih (.dict d) depth hs2 hd
    simp only [loop, contains_dict, nesting, configAt]
    cases hh : Dict.has d name with
    | false =>
      have hn : Dict.get? d name = none :=
        (Dict.get?_eq_none_iff _ _).2 ((Dict.has_false_iff d name).1 hh)
      simp only [hn, Nat.zero_max]
      refine ⟨fun h => ?_, fun h => ?_⟩
      · obtain ⟨r, hr⟩ := h1 h
        exact ⟨_, by simp only [hr]; rfl⟩
      · simp only [h2 h]
    | true =>
      obtain ⟨x, hx⟩ := Dict.exists_get?_of_mem ((Dict.has_iff d name).1 hh)
      simp only [PyVal.get, hx]
      by_cases hdeep : depth + 1 > maxDepth
      · simp only [hdeep, if_true]
        refine ⟨fun h => ?_, fun _ => trivial⟩
        omega
      · simp only [hdeep, if_false]
        obtain ⟨q1, q2⟩ := ihq x (depth + 1) (hs1 x hx) (by omega)
        refine ⟨fun h => ?_, fun h => ?_⟩
        · obtain ⟨q', hq'⟩ := q1 (by omega)
          obtain ⟨r, hr⟩ := h1 (by omega)
          exact ⟨_, by simp only [hq', hr]; rfl⟩
        · by_cases hq : depth + 1 + nesting q x ≤ maxDepth
          · obtain ⟨q', hq'⟩ := q1 hq
            simp only [hq', h2 (by omega)]
          · simp only [q2 (by omega)]

/-- A configuration whose sections are dictionaries is extracted without error exactly if at most
five levels of sub-objects have sections, and reported with `ValueError` otherwise. -/
theorem C40_errors (cls : String) (p : Param) (d : List (String × PyVal)) (sec : PyVal)
    (hc : Dict.get? d cls = some sec) (hs : Sections p sec) :
    (nesting p sec ≤ 5 → ∃ p', parse cls p (.dict d) = .ok p') ∧
    (5 < nesting p sec → parse cls p (.dict d) = .error .valueError) := by
  have := loop_total p sec 0 hs (by decide)
  simp only [parse, hc, Nat.zero_add, maxDepth] at this ⊢
  exact this

/-- A configuration without a section for the object's class changes nothing. -/
theorem C40_absent (cls : String) (p : Param) (d : List (String × PyVal))
    (hc : Dict.get? d cls = none) : parse cls p (.dict d) = .ok p := by
  simp only [parse, hc]

/-- A configuration that is not a dictionary is an error. -/
theorem C40_not_dict (cls : String) (p : Param) (cfg : PyVal) (h : ∀ d, cfg ≠ .dict d) :
    parse cls p cfg = .error .exception := by
  cases cfg with
  | dict d => exact absurd rfl (h d)
  | _ => rfl

/-- A number, a truth value or null where the object has attributes is an error. -/
theorem C40_bad_section (cls : String) (p : Param) (d : List (String × PyVal)) (sec : PyVal)
    (hc : Dict.get? d cls = some sec) (hp : p ≠ .nil)
    (hsec : sec = .none ∨ (∃ b, sec = .bool b) ∨ (∃ z, sec = .int z) ∨ ∃ x, sec = .flt x) :
    parse cls p (.dict d) = .error .typeError := by
  simp only [parse, hc]
  rw [if_neg (by decide)]
  cases p with
  | nil => exact absurd rfl hp
  | val name v rest =>
    rcases hsec with rfl | ⟨b, rfl⟩ | ⟨z, rfl⟩ | ⟨x, rfl⟩ <;> rfl
  | sub name q rest =>
    rcases hsec with rfl | ⟨b, rfl⟩ | ⟨z, rfl⟩ | ⟨x, rfl⟩ <;> rfl

/-- Extracting the same configuration a second time changes nothing more. -/
theorem C40_idempotent (cls : String) (p p' p'' : Param) (cfg : PyVal)
    (h : parse cls p cfg = .ok p') (h' : parse cls p' cfg = .ok p'') (path : List String) :
    settingAt p'' path = settingAt p' path := by
  rw [C40_settings cls p' p'' cfg h' path, C40_settings cls p p' cfg h path]
  cases settingAt p path with
  | none => rfl
  | some v =>
    cases configAt cfg (cls :: path) <;> rfl

/-! ## Example: a boosting configuration -/

namespace DemoExtract

def param : Param :=
  .sub "tree_param" (.val "max_depth" (.int 5) (.val "tol" (.flt (.fin (1 / 1000))) .nil))
  (.val "num_trees" (.int 5) (.val "learning_rate" (.flt (.fin (3 / 10))) .nil))

def config : List (String × PyVal) :=
  [("BoostingTreeParam", .dict [("num_trees", .int 20), ("unknown", .str "x"),
    ("tree_param", .dict [("max_depth", .int 3)])])]

example : parse "BoostingTreeParam" param (.dict config) = .ok
    (.sub "tree_param" (.val "max_depth" (.int 3) (.val "tol" (.flt (.fin (1 / 1000))) .nil))
      (.val "num_trees" (.int 20) (.val "learning_rate" (.flt (.fin (3 / 10))) .nil))) := by
  rfl

/-- The example meets the hypotheses of `C40_errors`. -/
example : ∃ sec, Dict.get? config "BoostingTreeParam" = some sec ∧ Sections param sec ∧
    nesting param sec = 1 := by
  refine ⟨_, rfl, ?_, rfl⟩
  refine ⟨?_, trivial⟩
  intro v hv
  cases hv
  trivial

/-- `n` objects, one inside the other. -/
def tower : Nat → Param
  | 0 => .val "x" (.int 1) .nil
  | n + 1 => .sub "s" (tower n) .nil

def towerConfig : Nat → PyVal
  | 0 => .dict [("x", .int 2)]
  | n + 1 => .dict [("s", towerConfig n)]

example : parse "P" (tower 6) (.dict [("P", towerConfig 6)]) = .error .valueError := rfl
example : ∃ p', parse "P" (tower 5) (.dict [("P", towerConfig 5)]) = .ok p' ∧
    settingAt p' ["s", "s", "s", "s", "s", "x"] = some (.int 2) := ⟨_, rfl, rfl⟩

/-- A string in place of a section is ignored without an error. -/
example : parse "P" (tower 1) (.dict [("P", .dict [("s", .str "oops")])]) = .ok (tower 1) :=
  rfl

end DemoExtract

end Verif
