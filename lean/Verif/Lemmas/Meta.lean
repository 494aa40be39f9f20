import Verif.Model.Meta
import Verif.Spec.C80
import Verif.Lemmas.Params

/-! # Lemmas on stored settings -/

set_option autoImplicit false

namespace Verif
namespace Meta

open Params DTree Spec

variable {rnd : Int → Rat}

theorem int32_ok {z w : Int} : int32 z = .ok w ↔ w = z ∧ -2 ^ 31 ≤ z ∧ z < 2 ^ 31 := by
  unfold int32
  split
  · rename_i h
    simp only [Except.ok.injEq]
    constructor
    · rintro rfl; exact ⟨rfl, by omega, by omega⟩
    · rintro ⟨rfl, _⟩; rfl
  · rename_i h
    constructor
    · intro h'; cases h'
    · rintro ⟨_, h1, h2⟩; exact absurd ⟨by omega, by omega⟩ h

theorem toInt32_ok {v : PyVal} (hv : IsInt v) : (∃ w, toInt32 v = .ok w) ↔ Fits32 v := by
  obtain ⟨z, rfl⟩ := hv
  constructor
  · rintro ⟨w, h⟩
    exact ⟨z, rfl, (int32_ok.1 h).2⟩
  · rintro ⟨z', h, h2⟩
    cases h
    exact ⟨z, int32_ok.2 ⟨rfl, h2⟩⟩

theorem toInt32_eq {v : PyVal} (hv : IsInt v) {w : Int} (h : toInt32 v = .ok w) : v = .int w := by
  obtain ⟨z, rfl⟩ := hv
  rw [(int32_ok.1 h).1]

theorem toDouble_ok {v : PyVal} : (∃ w, toDouble rnd v = .ok w) ↔ HasFloat v := by
  cases v with
  | int z =>
    simp only [toDouble, HasFloat, reduceCtorEq, exists_false, false_or, or_false, PyVal.int.injEq, exists_eq_left']
    split
    · rename_i h; exact ⟨fun _ => h, fun _ => ⟨_, rfl⟩⟩
    · rename_i h; exact ⟨fun ⟨_, h'⟩ => (by cases h'), fun h' => absurd h' h⟩
  | flt x => exact ⟨fun _ => .inl ⟨x, rfl⟩, fun _ => ⟨x, rfl⟩⟩
  | bool b => exact ⟨fun _ => .inr (.inr ⟨b, rfl⟩), fun _ => ⟨_, rfl⟩⟩
  | none | str _ | list _ | dict _ =>
    constructor
    · rintro ⟨_, h⟩; cases h
    · rintro (⟨_, h⟩ | ⟨_, h, _⟩ | ⟨_, h⟩) <;> cases h

theorem toDouble_same (hr : ∀ z : Int, |z| ≤ 2 ^ 53 → rnd z = z) {v : PyVal} (hs : Small v) {w : Flt}
    (h : toDouble rnd v = .ok w) : SameNumber v (.flt w) := by
  cases v with
  | int z =>
    simp only [toDouble] at h
    split at h
    · cases h; right; left; exact ⟨z, rfl, by rw [hr z (hs z rfl)]⟩
    · cases h
  | flt x => cases h; exact .inl ⟨_, rfl, rfl⟩
  | bool b => cases h; exact .inr (.inr ⟨b, rfl, rfl⟩)
  | none | str _ | list _ | dict _ => cases h

theorem evalList_ok {α β : Type} (f : α → Except PyErr β) (xs : List α) :
    (∃ ys, evalList f xs = .ok ys) ↔ ∀ x ∈ xs, ∃ y, f x = .ok y := by
  induction xs with
  | nil => simp [evalList]
  | cons x xs ih =>
    simp only [evalList, bind_ok, List.forall_mem_cons, pure, Except.pure, Except.ok.injEq]
    rw [← ih]
    constructor
    · rintro ⟨_, y, hy, ys, hys, _⟩; exact ⟨⟨y, hy⟩, ys, hys⟩
    · rintro ⟨⟨y, hy⟩, ys, hys⟩; exact ⟨_, y, hy, ys, hys, rfl⟩

theorem evalList_forall {α β : Type} {f : α → Except PyErr β} {xs : List α} {ys : List β}
    (h : evalList f xs = .ok ys) : List.Forall₂ (fun x y => f x = .ok y) xs ys := by
  induction xs generalizing ys with
  | nil => simp only [evalList, Except.ok.injEq] at h; subst h; exact .nil
  | cons x xs ih =>
    simp only [evalList, bind_ok, pure, Except.pure, Except.ok.injEq] at h
    obtain ⟨y, hy, ys', hys, rfl⟩ := h
    exact .cons hy (ih hys)

theorem limits_ok {t : DecisionTree} {m : Stored} {s : String} {ps : List Flt} :
    limits rnd t s ps = .ok m ↔ m.method = s ∧ m.params = ps ∧ toInt32 t.maxDepth = .ok m.maxDepth ∧
      toInt32 t.minSampleSplit = .ok m.minSampleSplit ∧ toDouble rnd t.minImpuritySplit = .ok m.minImpuritySplit ∧
      toInt32 t.minLeafNode = .ok m.minLeafNode := by
  simp only [limits, bind_ok, pure, Except.pure, Except.ok.injEq]
  constructor
  · rintro ⟨a, ha, b, hb, c, hc, d, hd, rfl⟩; exact ⟨rfl, rfl, ha, hb, hc, hd⟩
  · rintro ⟨rfl, rfl, h1, h2, h3, h4⟩; exact ⟨_, h1, _, h2, _, h3, _, h4, rfl⟩

theorem limits_iff {lower : String → String} {t : DecisionTree} (ht : TreeOk lower t) (s : String) (ps : List Flt) :
    (∃ m, limits rnd t s ps = .ok m) ↔ LimitsFit t := by
  obtain ⟨d, hd, _⟩ := ht.depth
  have k1 := toInt32_ok (⟨d, hd⟩ : IsInt t.maxDepth)
  have k2 := toInt32_ok ht.sampleSplit
  have k3 := toDouble_ok (rnd := rnd) (v := t.minImpuritySplit)
  have k4 := toInt32_ok ht.leaf
  constructor
  · rintro ⟨m, h⟩
    obtain ⟨_, _, h1, h2, h3, h4⟩ := limits_ok.1 h
    exact ⟨k1.1 ⟨_, h1⟩, k2.1 ⟨_, h2⟩, k3.1 ⟨_, h3⟩, k4.1 ⟨_, h4⟩⟩
  · rintro ⟨h1, h2, h3, h4⟩
    obtain ⟨a, ha⟩ := k1.2 h1
    obtain ⟨b, hb⟩ := k2.2 h2
    obtain ⟨c, hc⟩ := k3.2 h3
    obtain ⟨e, he⟩ := k4.2 h4
    exact ⟨⟨s, ps, a, b, c, e⟩, limits_ok.2 ⟨rfl, rfl, ha, hb, hc, he⟩⟩

theorem guestMeta_ok {t : DecisionTree} {m : Stored} : guestMeta rnd t = .ok m ↔
    ∃ s ps, toText t.criterionMethod = .ok s ∧ toDoubles rnd t.criterionParams = .ok ps ∧ limits rnd t s ps = .ok m := by
  simp only [guestMeta, bind_ok]
  constructor
  · rintro ⟨s, hs, ps, hp, h⟩; exact ⟨s, ps, hs, hp, h⟩
  · rintro ⟨s, ps, hs, hp, h⟩; exact ⟨s, hs, ps, hp, h⟩

theorem doubles_iff {lower : String → String} {t : DecisionTree} (ht : TreeOk lower t) :
    (∃ ps, toDoubles rnd t.criterionParams = .ok ps) ↔ ∃ ps, t.criterionParams = .list ps ∧ ∀ p ∈ ps, HasFloat p := by
  obtain ⟨p, ps, h, _⟩ := ht.params
  rw [h]
  simp only [toDoubles, evalList_ok, PyVal.list.injEq, exists_eq_left']
  exact forall₂_congr fun _ _ => toDouble_ok

variable {K : Type} [DecidableEq K] {α L : Type}

theorem storedTree_ok {B : Boost K α L} (m : Stored) : storedTree (.ok m) B = boostTree B := rfl

theorem storedTrees_ok {B : Boost K α L} (m : Stored) (gh : DTable K (List Rat × List Rat)) (i : Nat) (r t : Nat) (st : BoostState K) :
    storedTrees (.ok m) B gh i r t st = boostTrees B gh i r t st := by
  induction r generalizing t st with
  | zero => rfl
  | succ r ih =>
    simp only [storedTrees, boostTrees, storedTree_ok]
    exact congrArg _ (funext fun st => ih (t + 1) st)

theorem storedRound_ok {B : Boost K α L} (m : Stored) (y : DTable K L) (i : Nat) (st : BoostState K) :
    storedRound (.ok m) B y i st = boostRound B y i st := by
  simp only [storedRound, boostRound, storedTrees_ok]

theorem storedLoop_ok {B : Boost K α L} (m : Stored) (y : DTable K L) (r i : Nat) (st : BoostState K) :
    storedLoop (.ok m) B y r i st = boostLoop B y r i st := by
  induction r generalizing i st with
  | zero => rfl
  | succ r ih => simp only [storedLoop, boostLoop, storedRound_ok, ih]

theorem storedTree_error {B : Boost K α L} (e : PyErr) (gh : DTable K (List Rat × List Rat)) (i t : Nat) (st : BoostState K) :
    ∃ e', storedTree (.error e) B gh i t st = .error e' := by
  unfold storedTree
  cases h1 : gh.mapValuesM (component t) with
  | error e1 => exact ⟨e1, rfl⟩
  | ok g =>
    cases h2 : B.enc i t g with
    | error e1 => exact ⟨e1, by simp [bind, Except.bind, h2]⟩
    | ok c =>
      cases h3 : fit (treeSetup B i t g c) with
      | error e1 => exact ⟨e1, by simp [bind, Except.bind, h2, h3]⟩
      | ok F => exact ⟨e, by simp [bind, Except.bind, h2, h3]⟩

end Meta
end Verif
