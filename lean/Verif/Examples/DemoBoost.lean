import Verif.Examples.DemoPaillier
import Verif.Spec.C53

/-!
# Boosting runs

The rows of `DemoRaw`, labels, and the gradients of the absolute error.
-/

set_option autoImplicit false

namespace Verif
namespace DemoBoost

open DTree Spec Paillier Histogram

def labels : DTable Nat Rat :=
  ⟨[(0, 1), (1, 5), (2, -3), (3, 4), (4, 6), (5, -1)]⟩

/-- Sign of the error, hessian 1. -/
def gradHess (y : Rat) (f : List Rat) : Except PyErr (List Rat × List Rat) :=
  .ok (f.map fun x => if y ≤ x then 1 else -1, f.map fun _ => 1)

/-- Sum of the absolute errors. -/
def loss (y : DTable Nat Rat) (s : DTable Nat (List Rat)) : Except PyErr Rat :=
  .ok (s.data.map fun x => (x.2.map fun f => |f - (y.data.get? x.1).getD 0|).sum).sum

/-- A run in the clear. -/
def clear : Boost Nat Rat Rat where
  base := DemoRaw.setup
  valid := fun _ _ j => match j with
    | none => [true, true]
    | some _ => [true]
  cipher := fun _ _ _ _ => Demo.clear
  enc := fun _ _ gh => .ok gh
  gradHess := gradHess
  loss := loss
  rounds := 2
  dim := 2
  rate := ⟨1 / 2, id⟩
  early := true
  tol := 1 / 10

/-- The same with encryption. -/
def secure (sk : PrivKey) : Boost Nat Num Rat where
  base := DemoPaillier.setup sk
  valid := clear.valid
  cipher := fun _ _ _ _ => paillierCipher sk fun _ => 1
  enc := fun _ _ gh => .ok (liftGh ⟨gh.data.map fun x =>
    (x.1, DemoPaillier.encOf sk.pk x.2.1, DemoPaillier.encOf sk.pk x.2.2)⟩)
  gradHess := gradHess
  loss := loss
  rounds := 3
  dim := 2
  rate := ⟨1 / 2, id⟩
  early := true
  tol := 1 / 10

/-- The result of the run in the clear. -/
def final : BoostState Nat :=
  match boost clear [0, 1] labels with
  | .ok st => st
  | .error _ => ⟨⟨[]⟩, [], [], [], none, []⟩

deriving instance DecidableEq for BoostState

theorem final_ok : boost clear [0, 1] labels = .ok final := by decide +kernel

theorem same : SameData clear labels := by
  have h0 : labels.data.keys = [0, 1, 2, 3, 4, 5] := by decide
  have h1 : clear.base.guest.data.data.keys = [0, 1, 2, 3, 4, 5] := by decide +kernel
  refine ⟨by unfold DTable.WF Dict.WF; decide, fun k => by rw [h0, h1], ?_, by decide +kernel⟩
  intro H hH k hk
  rw [h0] at hk
  have : ∀ H ∈ clear.base.hosts, ∀ k ∈ [0, 1, 2, 3, 4, 5], k ∈ H.data.data.keys := by decide +kernel
  exact this H hH k hk

/-- Gradients are 1 or -1, hessians are 1. -/
def Signs (p : Rat × Rat) : Prop := (p.1 = 1 ∨ p.1 = -1) ∧ p.2 = 1

theorem run {sk : PrivKey} (hk : KeyPair (2 ^ 31 - 1) (2 ^ 61 - 1) sk)
    (hn : sk.pk.n = (2 ^ 31 - 1) * (2 ^ 61 - 1)) :
    PaillierBoost (2 ^ 31 - 1) (2 ^ 61 - 1) sk 12 13 (11 / 10) 1 1 0 0 Signs (secure sk) labels
      DemoRaw.rows := by
  have c1 := DemoPaillier.encrypts (DemoPaillier.cipher (v := 1) (e := 13) hk hn (by decide) (by decide) (by decide +kernel))
  have c2 := DemoPaillier.encrypts (DemoPaillier.cipher (v := -1) (e := 13) hk hn (by decide) (by decide) (by decide +kernel))
  have hr := DemoPaillier.raw sk
  have hl : labels.data.keys = [0, 1, 2, 3, 4, 5] := by decide
  have hg : (DemoPaillier.setup sk).gh.data.keys = [0, 1, 2, 3, 4, 5] := by
    show Demo.gh.data.keys = _
    decide
  have hu := DemoPaillier.usual sk
  have hp := DemoPaillier.run hk hn
  refine ⟨?_, hr.names, by unfold DTable.WF Dict.WF; decide, ⟨hu.depth, ?_⟩, hu.batch, hu.kind, hu.hosts, hu.leaf,
    hu.lam, ?_, ?_, ?_, by norm_num, hk, by decide, hp.gap, hp.big,
    ⟨fun _ _ _ _ _ => 1, fun _ _ _ _ _ => isCoprime_one_left, fun _ _ _ _ => rfl⟩, rfl, ?_, ⟨le_refl _, le_refl _⟩, ?_, ?_, ?_, ?_⟩
  · intro j P hP
    obtain ⟨r1, r2, r3⟩ := hr.parties j P hP
    have hv : ∀ i t, ((secure sk).valid i t j).length = P.splits.length := by
      intro i t
      rw [← r2]
      match j with
      | none => cases hP; show 2 = DemoRaw.setup.guest.valid.length; decide +kernel
      | some 0 => cases hP; show 1 = (DemoRaw.party 1 ["c"] DemoRaw.hostRows1).valid.length; decide +kernel
      | some 1 => cases hP; show 1 = (DemoRaw.party 2 ["d"] DemoRaw.hostRows2).valid.length; decide +kernel
      | some (j + 2) => simp [partyAt, secure, DemoPaillier.setup, DemoRaw.setup] at hP
    refine ⟨r1, hv, ?_, fun k => ?_⟩
    · rw [← hv 0 0]
      match j with
      | none => show 2 ≤ _; norm_num
      | some _ => show 1 ≤ _; norm_num
    · rw [r3, hg, hl]
  · show 4 ≤ 31; decide
  · intro k l f _ hf
    refine ⟨_, _, rfl, by simpa using hf, by simpa using hf, ?_⟩
    intro c a b ha hb
    rw [List.getElem?_map] at ha hb
    cases hx : f[c]? with
    | none => rw [hx] at ha; cases ha
    | some x =>
      rw [hx] at ha hb
      simp only [Option.map_some, Option.some.injEq] at ha hb
      refine ⟨?_, hb.symm⟩
      show a = 1 ∨ a = -1
      rw [← ha]
      split
      · exact Or.inl rfl
      · exact Or.inr rfl
  · intro s _ _
    exact ⟨_, rfl⟩
  · rintro a b ⟨h1, h2⟩
    simp only at h1 h2
    subst h2
    refine ⟨?_, by norm_num, le_refl _, ?_⟩
    · rcases h1 with rfl | rfl <;> simp
    · show (11 / 10 : Rat) ≤ 1 + 1 / 10; norm_num
  · intro i t gh _ hG
    refine ⟨_, rfl, ?_⟩
    simp only
    rw [List.forall₂_map_left_iff]
    have : ∀ (d : List (Nat × Rat × Rat)), (∀ x ∈ d, Signs x.2) →
        List.Forall₂ (fun x y => x.1 = y.1 ∧
          EncryptionOf sk 12 13 0 (DemoPaillier.encOf sk.pk x.2.1) y.2.1 ∧
          EncryptionOf sk 12 13 0 (DemoPaillier.encOf sk.pk x.2.2) y.2.2) d d := by
      intro d
      induction d with
      | nil => intro _; exact .nil
      | cons x d ih =>
        intro h
        refine .cons ⟨rfl, ?_, ?_⟩ (ih fun y hy => h y (by simp [hy]))
        · rcases (h x (by simp)).1 with e | e <;> rw [e]
          · exact c1
          · exact c2
        · rw [(h x (by simp)).2]; exact c1
    exact this gh.data hG
  · rw [mul_zero, mul_zero]; norm_num
  · rw [hn, add_zero]
    show ((6 : Nat) : Rat) * 1 * (16 : Rat) ^ (13 : Int) ≤ _
    decide +kernel
  · rw [hn, add_zero]
    show ((6 : Nat) : Rat) * 1 * (16 : Rat) ^ (13 : Int) ≤ _
    decide +kernel
  · rw [mul_zero, mul_zero, add_zero]
    show max (2 * (((6 : Nat) : Rat) * 1) ^ 2 / (11 / 10)) |(1 / 1000 : Rat) - 1 / 10 ^ 6| / 2 ^ 50 +
      FP.tiny ≤ 1 / 10 ^ 6
    decide +kernel

end DemoBoost
end Verif
