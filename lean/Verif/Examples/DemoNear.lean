import Verif.Examples.DemoRaw
import Verif.Spec.C54
import Verif.Lemmas.Dict

/-!
# A near tie

Two parties whose best splits have almost the same gain; nothing is encrypted.
-/

set_option autoImplicit false

namespace Verif
namespace DemoNear

open DTree Spec

def guestRows : DTable Nat (List Rat) := ⟨[(0, [0]), (1, [1]), (2, [1])]⟩

def hostRows : DTable Nat (List Rat) := ⟨[(0, [1]), (1, [0]), (2, [1])]⟩

def rows : Option Nat → DTable Nat (List Rat)
  | none => guestRows
  | some _ => hostRows

/-- The columns side by side. -/
def joined : DTable Nat (List Rat) := ⟨[(0, [0, 1]), (1, [1, 0]), (2, [1, 1])]⟩

def gh : DTable Nat (Rat × Rat) := ⟨[(0, (1, 1)), (1, (1 + 1 / 10 ^ 8, 1)), (2, (-2, 1))]⟩

/-- The federated run. -/
def setup : Setup Nat Rat where
  cfg := ⟨1/10, 1/1000, 2, 1, id⟩
  kind := .split
  maxDepth := 2
  maxSplitNodes := 5
  arith := Histogram.plain
  cipher := fun _ _ => Demo.clear
  guest := DemoRaw.party 0 ["a"] guestRows
  hosts := [DemoRaw.party 1 ["b"] hostRows]
  gh := gh
  encGh := gh

/-- The centralised run. -/
def central : Central Nat where
  cfg := ⟨1/10, 1/1000, 2, 1, id⟩
  kind := .split
  maxDepth := 2
  maxSplitNodes := 5
  party := DemoRaw.party 0 ["a", "b"] joined
  gh := gh

theorem cases (Q : Option Nat → Party Nat → Prop) (h0 : Q none (DemoRaw.party 0 ["a"] guestRows))
    (h1 : Q (some 0) (DemoRaw.party 1 ["b"] hostRows)) :
    ∀ j P, partyAt setup j = some P → Q j P := by
  intro j P hP
  match j with
  | none => cases hP; exact h0
  | some 0 => cases hP; exact h1
  | some (j + 1) => simp [partyAt, setup] at hP

theorem raw : RawRun setup rows := by
  have hwidth : ∀ (t : DTable Nat (List Rat)) (n : Nat), (∀ p ∈ t.data, p.2.length = n) →
      ∀ k row, t.data.get? k = some row → row.length = n :=
    fun t n h k row hk => h (k, row) (Dict.get?_mem hk)
  have hk0 : setup.gh.data.keys = [0, 1, 2] := by decide +kernel
  refine ⟨cases _ ⟨?_, by decide +kernel, ?_⟩ ⟨?_, by decide +kernel, ?_⟩, by decide +kernel,
    by unfold DTable.WF Dict.WF; decide⟩
  · exact ⟨DemoRaw.qcfg, 4, ["a"], by decide +kernel, rfl, by decide, by decide,
      by unfold DTable.WF Dict.WF; decide, by decide, hwidth _ 1 (by decide +kernel), by decide +kernel⟩
  · intro k
    have h1 : (rows none).data.keys = [0, 1, 2] := by decide
    rw [h1, hk0]
  · exact ⟨DemoRaw.qcfg, 4, ["b"], by decide +kernel, rfl, by decide, by decide,
      by unfold DTable.WF Dict.WF; decide, by decide, hwidth _ 1 (by decide +kernel), by decide +kernel⟩
  · intro k
    have h1 : (rows (some 0)).data.keys = [0, 1, 2] := by decide
    rw [h1, hk0]

theorem usual : Usual setup 1 :=
  ⟨by decide, by decide, by decide, by unfold setup; simp, by decide, by decide +kernel, by norm_num, by decide +kernel⟩

theorem centralised : Centralised setup rows central joined := by
  have hw : ∀ (t : DTable Nat (List Rat)) (n : Nat) (P : Party Nat), (∀ p ∈ t.data, p.2.length = n) →
      P.splits.length = n → ∀ k row, t.data.get? k = some row → row.length = P.splits.length :=
    fun t n P h hP k row hk => by rw [hP]; exact h (k, row) (Dict.get?_mem hk)
  have hkj : joined.data.keys = [0, 1, 2] := by decide
  refine ⟨⟨⟨by unfold DTable.WF Dict.WF; decide, cases _ ?_ ?_, cases _ ?_ ?_, ?_⟩,
    cases _ (by decide) (by decide), ?_⟩, rfl, rfl, by decide, by decide,
    ⟨by unfold DTable.WF Dict.WF; decide, fun _ => rfl⟩, by decide +kernel⟩
  · intro k
    have h1 : (rows none).data.keys = [0, 1, 2] := by decide
    rw [h1, hkj]
  · intro k
    have h1 : (rows (some 0)).data.keys = [0, 1, 2] := by decide
    rw [h1, hkj]
  · exact hw _ 1 _ (by decide +kernel) (by decide +kernel)
  · exact hw _ 1 _ (by decide +kernel) (by decide +kernel)
  · intro k row hk
    have hside : ∀ p ∈ joined.data, p.2 = sideBySide setup fun j => ((rows j).data.get? p.1).getD [] := by
      decide +kernel
    exact hside _ (Dict.get?_mem hk)
  · refine ⟨DemoRaw.qcfg, 4, fun j => match j with
      | none => ["a"]
      | some _ => ["b"], by decide +kernel, rfl, by decide, by decide, cases _ ?_ ?_, by decide +kernel⟩
    · decide +kernel
    · decide +kernel

end DemoNear
end Verif
