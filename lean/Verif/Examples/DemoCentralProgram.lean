import Verif.Examples.DemoProgram
import Verif.Examples.DemoJoinedBoost
import Verif.Lemmas.CentralProgram

/-!
# The comparison program on small files

The guest's and the first host's files of `DemoProgram`; and two files of one column each, where
the label is that of the guest's column.
-/

set_option autoImplicit false

namespace Verif
namespace DemoCentralProgram

open DTree Spec Paillier Histogram Program
open Data (Cell)

def host : HostArgs := ⟨1, DemoProgram.hostText1, DemoProgram.scaled⟩

def file : List Cell × List (Cell × List Rat) :=
  (["c".toList], DemoProgram.hostLines1.map fun r => (r.1, r.2.2))

theorem hostFile : HostFile DemoProgram.parse DemoProgram.samples.length DemoProgram.scaled host file := by
  cases DemoProgram.hostFiles with
  | cons h _ => exact h

theorem loss_same {sk : PrivKey} {num : Nat} {y : DTable Nat (Label Cell)} {s s' : DTable Nat (List Rat)}
    (hw : s.WF) (hw' : s'.WF) (hs : ∀ k, s'.data.get? k = s.data.get? k) :
    (DemoProgram.secure sk).loss num y s' = (DemoProgram.secure sk).loss num y s := by
  show Except.ok _ = Except.ok _
  rw [((table_perm hw hw' hs).map _).sum_eq]

/-- All gradients are signs, so the choice is clear whatever trees are trained. -/
theorem decisive (sk : PrivKey) {R : Labels.Checked Nat Cell} {B : Boost Nat Num (Label Cell)}
    (hu : UsesSettings (DemoProgram.secure sk) R B) (hy : R.y.data.keys = List.range 6) (init : List Rat)
    (rows : Option Nat → DTable Nat (List Rat)) (fits : List (Fitted Nat)) :
    DecisiveRun B R.y init rows fits := by
  intro n F gh egh _ hg i _ A hA
  have hsub : ∀ k ∈ A, k ∈ R.y.data.keys := fun k hk => (hg.2.1 k).mp ((hA.2 k).mp hk).1
  apply DemoJoinedBoost.sign_decisive (S := treeSetup B (n / B.dim) (n % B.dim) gh egh) hu.cfg
  · have h1 : A ⊆ R.y.data.keys := hsub
    rw [hy] at h1
    have := (List.subperm_of_subset hA.1 h1).length_le
    simpa using this
  · intro k hk
    obtain ⟨l, hlk⟩ := Dict.exists_get?_of_mem (hsub k hk)
    obtain ⟨g, h, a, b, e1, e2, e3, e4⟩ := hg.2.2 k l hlk
    refine ⟨(a, b), e4, ?_⟩
    rw [hu.gradHess] at e1
    cases e1
    rw [List.getElem?_mapIdx] at e2
    rw [List.getElem?_map] at e3
    cases hx : (scoreAfter init B.rate B.dim (weightIn fits k) (n / B.dim * B.dim))[n % B.dim]? with
    | none => rw [hx] at e2; cases e2
    | some x =>
      rw [hx] at e2 e3
      simp only [Option.map_some, Option.some.injEq] at e2 e3
      refine ⟨?_, e3.symm⟩
      show a = 1 ∨ a = -1
      rw [← e2]
      split
      · exact Or.inr rfl
      · exact Or.inl rfl

/-! ### Two files of one column each -/

def guestText : List Char :=
  "id,y,a\nu,no,1\nv,yes,2\nw,no,1\nx,yes,2\ny,yes,2\nz,no,1\ns,no,1\nt,yes,2\n".toList

def guestLines : List (Row × List Rat) :=
  [("u", "no", "1", 1), ("v", "yes", "2", 2), ("w", "no", "1", 1), ("x", "yes", "2", 2), ("y", "yes", "2", 2),
    ("z", "no", "1", 1), ("s", "no", "1", 1), ("t", "yes", "2", 2)].map
    fun (i, l, c, x) => (⟨String.toList i, String.toList l, [String.toList c]⟩, [x])

def samples : List (Cell × Cell × List Rat) := guestLines.map fun r => (r.1.id, r.1.label, r.2)

theorem guestFile : LabelledFile DemoProgram.parse guestText ["a".toList] samples :=
  ⟨⟨"id".toList, "y".toList, ["a".toList]⟩, guestLines, by decide, rfl, by decide, by decide +kernel, rfl,
    by decide +kernel⟩

def plainLines : List (Cell × List Cell × List Rat) :=
  [DemoProgram.plain "u" "9" 9, DemoProgram.plain "v" "9" 9, DemoProgram.plain "w" "8" 8,
    DemoProgram.plain "x" "8" 8, DemoProgram.plain "y" "8" 8, DemoProgram.plain "z" "9" 9,
    DemoProgram.plain "s" "9" 9, DemoProgram.plain "t" "8" 8]

/-- The host's file with a given column name. -/
def plainHost (name : String) : HostArgs :=
  ⟨1, "id,".toList ++ name.toList ++ "\nu,9\nv,9\nw,8\nx,8\ny,8\nz,9\ns,9\nt,8\n".toList, DemoProgram.scaled⟩

def plainFile (name : String) : List Cell × List (Cell × List Rat) :=
  ([name.toList], plainLines.map fun r => (r.1, r.2.2))

theorem plainFile_a : HostFile DemoProgram.parse samples.length DemoProgram.scaled (plainHost "a")
    (plainFile "a") :=
  ⟨⟨"id".toList, plainLines, by decide, by decide, by decide +kernel, rfl, by decide +kernel⟩, rfl, rfl,
    by decide +kernel⟩

theorem plainFile_b : HostFile DemoProgram.parse samples.length DemoProgram.scaled (plainHost "b")
    (plainFile "b") :=
  ⟨⟨"id".toList, plainLines, by decide, by decide, by decide +kernel, rfl, by decide +kernel⟩, rfl, rfl,
    by decide +kernel⟩

/-- Gradient -1 for the second class, 1 for the first; hessian 1.  Every party has one column. -/
def settings : Settings Rat Rat :=
  { DemoProgram.clear with
    valid := fun _ _ _ => [true]
    gradHess := fun _ l f =>
      .ok (f.map fun _ => if l.value = (Label.int (T := Cell) 1).value then -1 else 1, f.map fun _ => 1) }

end DemoCentralProgram
end Verif
