import Verif.Lemmas.StrictRun
import Verif.Examples.DemoProgram

/-!
# Runs with strict encryption

The rows of `DemoRaw` and the files of `DemoProgram`, a key of 1128 bits, and gradients that are not
exactly encodable: a third of the error, cut off at 1.
-/

set_option autoImplicit false

namespace Verif
namespace DemoStrict

open DTree Spec Paillier Histogram Program

theorem key : ∃ sk, KeyPair (2 ^ 521 - 1) (2 ^ 607 - 1) sk ∧ 1000 < Nat.size sk.pk.n.toNat := by
  have h1 : Nat.Prime (2 ^ 521 - 1) :=
    lucas_lehmer_sufficiency 521 (by norm_num) (by norm_num)
  have h2 : Nat.Prime (2 ^ 607 - 1) :=
    lucas_lehmer_sufficiency 607 (by norm_num) (by norm_num)
  have hne : (2 : Nat) ^ 521 - 1 ≠ 2 ^ 607 - 1 := by decide +kernel
  obtain ⟨sk, a, b⟩ := C10_key_constructed _ _ h1 h2 hne
  refine ⟨sk, a, ?_⟩
  rw [b]
  have h : (2 : Nat) ^ 1000 ≤ (2 ^ 521 - 1) * (2 ^ 607 - 1) := by decide +kernel
  rw [Nat.lt_size]
  generalize (2 : Nat) ^ 521 - 1 = p at *
  generalize (2 : Nat) ^ 607 - 1 = q at *
  rw [← Int.natCast_mul, Int.toNat_natCast]
  exact h

/-- A third of the error, cut off. -/
def third (y f : Rat) : Rat := max (-1) (min 1 ((f - y) / 3))

def gradHess (y : Rat) (f : List Rat) : Except PyErr (List Rat × List Rat) :=
  .ok (f.map (third y), f.map fun _ => 1 / 3)

/-- Gradients are at most 1, hessians are 1/3. -/
def Small (p : Rat × Rat) : Prop := |p.1| ≤ 1 ∧ p.2 = 1 / 3

theorem third_le (y f : Rat) : |third y f| ≤ 1 := by
  unfold third
  rw [abs_le]
  exact ⟨le_max_left _ _, max_le (by norm_num) (min_le_left _ _)⟩

/-- The run of `DemoBoost` with strict encryption. -/
def secure (sk : PrivKey) : Boost Nat Num Rat where
  base := DemoPaillier.setup sk
  valid := DemoBoost.clear.valid
  cipher := fun _ _ _ _ => paillierCipher sk fun _ => 1
  enc := fun _ _ gh => strictEncrypt sk.pk (fun _ _ => 1) gh
  gradHess := gradHess
  loss := DemoBoost.loss
  rounds := 3
  dim := 2
  rate := ⟨1 / 2, id⟩
  early := true
  tol := 1 / 10

theorem moderate (n : Nat) (hn : n ≤ 100) : Moderate n (13 / 30) 1 1 (1 / 1000) := by
  have h : (n : Rat) ≤ 100 := by exact_mod_cast hn
  have h0 : (0 : Rat) ≤ n := by positivity
  refine ⟨by norm_num, by norm_num, by norm_num, by nlinarith, by norm_num; linarith,
    hn.trans (by norm_num), ?_⟩
  rw [abs_of_pos (by norm_num)]; norm_num

theorem run {p q : Nat} {sk : PrivKey} (hk : KeyPair p q sk) (hn : 1000 < Nat.size sk.pk.n.toNat) :
    StrictBoost p q sk (13 / 30) 1 1 Small (secure sk) DemoBoost.labels DemoRaw.rows := by
  have hr := DemoPaillier.raw sk
  have hl : DemoBoost.labels.data.keys = [0, 1, 2, 3, 4, 5] := by decide
  have hg : (DemoPaillier.setup sk).gh.data.keys = [0, 1, 2, 3, 4, 5] := by
    show Demo.gh.data.keys = _
    decide
  have hu := DemoPaillier.usual sk
  refine ⟨?_, hr.names, by unfold DTable.WF Dict.WF; decide, ⟨hu.depth, ?_⟩, hu.batch, hu.kind, hu.hosts,
    hu.leaf, hu.lam, ?_, fun s _ _ => ⟨_, rfl⟩, ?_, moderate 6 (by norm_num),
    ⟨hk, hn, ⟨fun _ _ _ _ => 1, fun _ _ _ _ => isCoprime_one_left, fun _ _ _ => rfl⟩,
      ⟨fun _ _ _ _ _ => 1, fun _ _ _ _ _ => isCoprime_one_left, fun _ _ _ _ => rfl⟩, rfl⟩⟩
  · intro j P hP
    obtain ⟨r1, r2, r3⟩ := hr.parties j P hP
    have hv : ∀ i t, ((secure sk).valid i t j).length = P.splits.length := by
      intro i t
      rw [← r2]
      match j with
      | none => cases hP; show 2 = DemoRaw.setup.guest.valid.length; decide +kernel
      | some 0 => cases hP; show 1 = (DemoRaw.party 1 ["c"] DemoRaw.hostRows1).valid.length; decide +kernel
      | some 1 => cases hP; show 1 = (DemoRaw.party 2 ["d"] DemoRaw.hostRows2).valid.length; decide +kernel
      | some (j + 2) => simp [partyAt, secure, DemoPaillier.setup, DemoRaw.setup] at hP
    refine ⟨r1, hv, ?_, fun k => ?_⟩
    · rw [← hv 0 0]
      match j with
      | none => show 2 ≤ _; norm_num
      | some _ => show 1 ≤ _; norm_num
    · rw [r3, hg, hl]
  · show 4 ≤ 31; decide
  · intro k l f _ hf
    refine ⟨_, _, rfl, by simpa using hf, by simpa using hf, ?_⟩
    intro c a b ha hb
    rw [List.getElem?_map] at ha hb
    cases hx : f[c]? with
    | none => rw [hx] at ha; cases ha
    | some x =>
      rw [hx] at ha hb
      simp only [Option.map_some, Option.some.injEq] at ha hb
      exact ⟨by rw [← ha]; exact third_le _ _, hb.symm⟩
  · rintro a b ⟨h1, h2⟩
    simp only at h1 h2
    subst h2
    refine ⟨h1, by norm_num, by norm_num, ?_⟩
    show (13 / 30 : Rat) ≤ 1 / 3 + 1 / 10; norm_num

/-- The settings of `DemoProgram` with strict encryption; gradients are thirds. -/
def settings (sk : PrivKey) : Settings Num Rat where
  binning := DemoProgram.clear.binning
  binNum := DemoProgram.clear.binNum
  tree := DemoProgram.clear.tree
  kind := DemoProgram.clear.kind
  maxDepth := DemoProgram.clear.maxDepth
  maxSplitNodes := DemoProgram.clear.maxSplitNodes
  arith := Histogram.paillier
  valid := DemoProgram.clear.valid
  cipher := fun _ _ _ _ => paillierCipher sk fun _ => 1
  enc := fun _ _ gh => strictEncrypt sk.pk (fun _ _ => 1) gh
  gradHess := fun _ l f =>
    .ok (f.mapIdx fun c x => if l.value = (Label.int c).value then third 1 x else third 0 x, f.map fun _ => 1 / 3)
  loss := DemoProgram.clear.loss
  rounds := DemoProgram.clear.rounds
  rate := DemoProgram.clear.rate
  early := DemoProgram.clear.early
  tol := DemoProgram.clear.tol
  sigmoid := DemoProgram.clear.sigmoid
  softmax := DemoProgram.clear.softmax
  threshold := DemoProgram.clear.threshold
  fuel := DemoProgram.clear.fuel

theorem ok {p q : Nat} {sk : PrivKey} (hk : KeyPair p q sk) (hn : 1000 < Nat.size sk.pk.n.toNat) :
    StrictProgram p q sk (13 / 30) 1 1 Small (settings sk) DemoProgram.samples.length := by
  refine ⟨(by decide +kernel : 0 ≤ DemoProgram.clear.binning.error), rfl, (by decide : 1 ≤ DemoProgram.clear.binNum),
    (by decide : 1 ≤ DemoProgram.clear.maxDepth ∧ DemoProgram.clear.maxDepth ≤ 31),
    (by decide : 2 ^ DemoProgram.clear.maxDepth ≤ DemoProgram.clear.fuel),
    (by decide : DemoProgram.clear.maxSplitNodes ≠ 0), (by decide : DemoProgram.clear.kind ≠ .other),
    (by decide : 1 ≤ DemoProgram.clear.tree.minLeaf), (by decide +kernel : 0 ≤ DemoProgram.clear.tree.regLambda), ?_,
    fun _ _ _ _ _ => ⟨_, rfl⟩, ?_, moderate _ (by decide),
    ⟨hk, hn, ⟨fun _ _ _ _ => 1, fun _ _ _ _ => isCoprime_one_left, fun _ _ _ => rfl⟩,
      ⟨fun _ _ _ _ _ => 1, fun _ _ _ _ _ => isCoprime_one_left, fun _ _ _ _ => rfl⟩, rfl⟩,
    fun s => by simp [settings, DemoProgram.clear]⟩
  · intro num c l f _ _ hf
    refine ⟨_, _, rfl, by simpa using hf, by simpa using hf, ?_⟩
    intro c a b ha hb
    rw [List.getElem?_mapIdx] at ha
    rw [List.getElem?_map] at hb
    cases hx : f[c]? with
    | none => rw [hx] at ha; cases ha
    | some x =>
      rw [hx] at ha hb
      simp only [Option.map_some, Option.some.injEq] at ha hb
      refine ⟨?_, hb.symm⟩
      show |a| ≤ 1
      rw [← ha]
      split <;> exact third_le _ _
  · rintro a b ⟨h1, h2⟩
    simp only at h1 h2
    subst h2
    refine ⟨h1, by norm_num, by norm_num, ?_⟩
    show (13 / 30 : Rat) ≤ 1 / 3 + 1 / 10; norm_num

end DemoStrict
end Verif
