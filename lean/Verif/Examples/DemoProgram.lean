import Verif.Examples.DemoBoost
import Verif.Spec.C56

/-!
# The programs on three small files

Eight lines, three classes, two columns at the guest and one at each of two hosts.
-/

set_option autoImplicit false

namespace Verif
namespace DemoProgram

open DTree Spec Paillier Histogram Program
open Data (Cell)

/-- Single digits as numbers. -/
def parse : Cell → Option Rat
  | [c] => if c.isDigit then some ((c.toNat - 48 : Nat) : Rat) else none
  | _ => none

def guestText : List Char :=
  "id,y,a,b\nu,no,1,5\nv,yes,2,0\nw,no,3,4\nx,maybe,4,8\ny,yes,5,2\nz,maybe,6,7\ns,no,1,4\nt,yes,6,1\n".toList

def hostText1 : List Char := "id,c\nu,9\nv,1\nw,8\nx,2\ny,7\nz,3\ns,9\nt,1\n".toList
def hostText2 : List Char := "id,d\nu,0\nv,1\nw,1\nx,0\ny,0\nz,1\ns,0\nt,2\n".toList

/-- A line of the guest. -/
def line (id label a b : String) (x y : Rat) : Row × List Rat :=
  (⟨id.toList, label.toList, [a.toList, b.toList]⟩, [x, y])

def guestLines : List (Row × List Rat) :=
  [line "u" "no" "1" "5" 1 5, line "v" "yes" "2" "0" 2 0, line "w" "no" "3" "4" 3 4,
    line "x" "maybe" "4" "8" 4 8, line "y" "yes" "5" "2" 5 2, line "z" "maybe" "6" "7" 6 7,
    line "s" "no" "1" "4" 1 4, line "t" "yes" "6" "1" 6 1]

/-- A line of a host. -/
def plain (id a : String) (x : Rat) : Cell × List Cell × List Rat := (id.toList, [a.toList], [x])

def hostLines1 : List (Cell × List Cell × List Rat) :=
  [plain "u" "9" 9, plain "v" "1" 1, plain "w" "8" 8, plain "x" "2" 2, plain "y" "7" 7, plain "z" "3" 3,
    plain "s" "9" 9, plain "t" "1" 1]

def hostLines2 : List (Cell × List Cell × List Rat) :=
  [plain "u" "0" 0, plain "v" "1" 1, plain "w" "1" 1, plain "x" "0" 0, plain "y" "0" 0, plain "z" "1" 1,
    plain "s" "0" 0, plain "t" "2" 2]

def header : List Cell := ["a".toList, "b".toList]
def samples : List (Cell × Cell × List Rat) := guestLines.map fun r => (r.1.id, r.1.label, r.2)
def files : List (List Cell × List (Cell × List Rat)) :=
  [(["c".toList], hostLines1.map fun r => (r.1, r.2.2)), (["d".toList], hostLines2.map fun r => (r.1, r.2.2))]

/-- Three quarters of the lines are for training. -/
def scaled (n : Nat) : Rat := n * (3 / 4)

def hosts : List HostArgs := [⟨1, hostText1, scaled⟩, ⟨2, hostText2, scaled⟩]

/-- Some shuffle. -/
def draw (_ i : Nat) : Nat := i / 2

instance (c : Cell) : Decidable (CleanCell c) := inferInstanceAs (Decidable (_ ∧ _))
instance (r : Row) : Decidable r.Clean := inferInstanceAs (Decidable (∀ _ ∈ _, _))

theorem guestFile : LabelledFile parse guestText header samples :=
  ⟨⟨"id".toList, "y".toList, header⟩, guestLines, by decide, rfl, by decide, by decide +kernel, rfl,
    by decide +kernel⟩

theorem hostFiles : List.Forall₂ (HostFile parse samples.length scaled) hosts files :=
  .cons ⟨⟨"id".toList, hostLines1, by decide, by decide, by decide +kernel, rfl, by decide +kernel⟩, rfl, rfl,
    by decide +kernel⟩
  (.cons ⟨⟨"id".toList, hostLines2, by decide, by decide, by decide +kernel, rfl, by decide +kernel⟩, rfl, rfl,
    by decide +kernel⟩ .nil)

/-- Gradient -1 in the component of the class, 1 elsewhere; hessian 1. -/
def gradHess (_ : Nat) (l : Label Cell) (f : List Rat) : Except PyErr (List Rat × List Rat) :=
  .ok (f.mapIdx fun c _ => if l.value = (Label.int c).value then -1 else 1, f.map fun _ => 1)

/-- The settings without encryption. -/
def clear : Settings Rat Rat where
  binning := ⟨10, 5, 1 / 100, []⟩
  binNum := 4
  tree := ⟨1/10, 1/1000, 2, 1, id⟩
  kind := .split
  maxDepth := 4
  maxSplitNodes := 2
  arith := Histogram.plain
  valid := fun _ _ j => match j with
    | none => [true, true]
    | some _ => [true]
  cipher := fun _ _ _ _ => Demo.clear
  enc := fun _ _ gh => .ok gh
  gradHess := gradHess
  loss := fun _ _ s => .ok (s.data.map fun x => x.2.sum).sum
  rounds := 2
  rate := ⟨1 / 2, id⟩
  early := true
  tol := 1 / 10
  sigmoid := fun x => x / 2 + 1 / 2
  softmax := fun s => s.map fun x => x / 8 + 1 / 2
  threshold := 1 / 2
  fuel := 16

/-- The settings with encryption. -/
def secure (sk : PrivKey) : Settings Num Rat where
  binning := clear.binning
  binNum := clear.binNum
  tree := clear.tree
  kind := clear.kind
  maxDepth := clear.maxDepth
  maxSplitNodes := clear.maxSplitNodes
  arith := Histogram.paillier
  valid := clear.valid
  cipher := fun _ _ _ _ => paillierCipher sk fun _ => 1
  enc := fun _ _ gh => .ok (liftGh ⟨gh.data.map fun x =>
    (x.1, DemoPaillier.encOf sk.pk x.2.1, DemoPaillier.encOf sk.pk x.2.2)⟩)
  gradHess := gradHess
  loss := clear.loss
  rounds := clear.rounds
  rate := clear.rate
  early := clear.early
  tol := clear.tol
  sigmoid := clear.sigmoid
  softmax := clear.softmax
  threshold := clear.threshold
  fuel := clear.fuel

instance (sk : PrivKey) : (secure sk).tree.Exact := ⟨rfl⟩

theorem ok {sk : PrivKey} (hk : KeyPair (2 ^ 31 - 1) (2 ^ 61 - 1) sk)
    (hn : sk.pk.n = (2 ^ 31 - 1) * (2 ^ 61 - 1)) :
    ProgramOk (2 ^ 31 - 1) (2 ^ 61 - 1) sk 12 13 (11 / 10) 1 1 0 0 DemoBoost.Signs (secure sk)
      samples.length := by
  have c1 := DemoPaillier.encrypts (DemoPaillier.cipher (v := 1) (e := 13) hk hn (by decide) (by decide) (by decide +kernel))
  have c2 := DemoPaillier.encrypts (DemoPaillier.cipher (v := -1) (e := 13) hk hn (by decide) (by decide) (by decide +kernel))
  have hp := DemoPaillier.run hk hn
  refine ⟨(by decide +kernel : 0 ≤ clear.binning.error), rfl, (by decide : 1 ≤ clear.binNum),
    (by decide : 1 ≤ clear.maxDepth ∧ clear.maxDepth ≤ 31), (by decide : 2 ^ clear.maxDepth ≤ clear.fuel),
    (by decide : clear.maxSplitNodes ≠ 0), (by decide : clear.kind ≠ .other),
    (by decide : 1 ≤ clear.tree.minLeaf), (by decide +kernel : 0 ≤ clear.tree.regLambda), ?_, fun _ _ _ _ _ => ⟨_, rfl⟩, ?_, by norm_num, by norm_num, by norm_num, hk,
    by decide, hp.gap, hp.big, ⟨fun _ _ _ _ _ => 1, fun _ _ _ _ _ => isCoprime_one_left, fun _ _ _ _ => rfl⟩,
    rfl, ?_, ⟨le_refl _, le_refl _⟩, ?_, ?_, ?_, ?_, fun s => by simp [secure, clear]⟩
  · intro num c l f _ _ hf
    refine ⟨_, _, rfl, by simpa using hf, by simpa using hf, ?_⟩
    intro c a b ha hb
    rw [List.getElem?_mapIdx] at ha
    rw [List.getElem?_map] at hb
    cases hx : f[c]? with
    | none => rw [hx] at ha; cases ha
    | some x =>
      rw [hx] at ha hb
      simp only [Option.map_some, Option.some.injEq] at ha hb
      refine ⟨?_, hb.symm⟩
      show a = 1 ∨ a = -1
      rw [← ha]
      split
      · exact Or.inr rfl
      · exact Or.inl rfl
  · rintro a b ⟨h1, h2⟩
    simp only at h1 h2
    subst h2
    refine ⟨?_, by norm_num, le_refl _, ?_⟩
    · rcases h1 with rfl | rfl <;> simp
    · show (11 / 10 : Rat) ≤ 1 + 1 / 10; norm_num
  · intro i t gh _ hG
    refine ⟨_, rfl, ?_⟩
    simp only
    rw [List.forall₂_map_left_iff]
    have : ∀ (d : List (Nat × Rat × Rat)), (∀ x ∈ d, DemoBoost.Signs x.2) →
        List.Forall₂ (fun x y => x.1 = y.1 ∧
          EncryptionOf sk 12 13 0 (DemoPaillier.encOf sk.pk x.2.1) y.2.1 ∧
          EncryptionOf sk 12 13 0 (DemoPaillier.encOf sk.pk x.2.2) y.2.2) d d := by
      intro d
      induction d with
      | nil => intro _; exact .nil
      | cons x d ih =>
        intro h
        refine .cons ⟨rfl, ?_, ?_⟩ (ih fun y hy => h y (by simp [hy]))
        · rcases (h x (by simp)).1 with e | e <;> rw [e]
          · exact c1
          · exact c2
        · rw [(h x (by simp)).2]; exact c1
    exact this gh.data hG
  · rw [mul_zero, mul_zero]; norm_num
  · rw [hn, add_zero]
    show ((8 : Nat) : Rat) * 1 * (16 : Rat) ^ (13 : Int) ≤ _
    decide +kernel
  · rw [hn, add_zero]
    show ((8 : Nat) : Rat) * 1 * (16 : Rat) ^ (13 : Int) ≤ _
    decide +kernel
  · rw [mul_zero, mul_zero, add_zero]
    show max (2 * (((8 : Nat) : Rat) * 1) ^ 2 / (11 / 10)) |(1 / 1000 : Rat) - 1 / 10 ^ 6| / 2 ^ 50 +
      FP.tiny ≤ 1 / 10 ^ 6
    decide +kernel

end DemoProgram
end Verif
