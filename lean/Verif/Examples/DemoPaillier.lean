import Verif.Examples.DemoRaw
import Verif.Spec.C51
import Verif.Lemmas.Dict
import Verif.Props.C10
import Verif.Props.C11
import Mathlib.NumberTheory.LucasLehmer

/-!
# A training run with Paillier encryption

The rows of `DemoRaw`; the key is made of the primes `2^31 - 1` and `2^61 - 1`.
-/

set_option autoImplicit false

namespace Verif
namespace DemoPaillier

open DTree Spec Paillier Histogram

/-- The ciphertext of a float. -/
def encOf (k : PubKey) (v : Rat) : EncNum :=
  match (Expr.enc (.float v) none 1).run k with
  | .ok X => X
  | .error _ => ⟨k, 0, 0, false⟩

def setup (sk : PrivKey) : Setup Nat Num where
  cfg := ⟨1/10, 1/1000, 2, 1, id⟩
  kind := .split
  maxDepth := 4
  maxSplitNodes := 1
  arith := Histogram.paillier
  cipher := fun _ _ => paillierCipher sk fun _ => 1
  guest := DemoRaw.setup.guest
  hosts := DemoRaw.setup.hosts
  gh := Demo.gh
  encGh := liftGh ⟨Demo.gh.data.map fun x => (x.1, encOf sk.pk x.2.1, encOf sk.pk x.2.2)⟩

theorem key : ∃ sk, KeyPair (2 ^ 31 - 1) (2 ^ 61 - 1) sk ∧
    sk.pk.n = (2 ^ 31 - 1) * (2 ^ 61 - 1) := by
  have h1 : Nat.Prime (2 ^ 31 - 1) := by
    have := lucas_lehmer_sufficiency 31 (by norm_num) (by norm_num)
    simpa [mersenne] using this
  have h2 : Nat.Prime (2 ^ 61 - 1) := by
    have := lucas_lehmer_sufficiency 61 (by norm_num) (by norm_num)
    simpa [mersenne] using this
  obtain ⟨sk, a, b⟩ := C10_key_constructed _ _ h1 h2 (by norm_num)
  exact ⟨sk, a, by rw [b]; norm_num⟩

theorem cipher {sk : PrivKey} (hk : KeyPair (2 ^ 31 - 1) (2 ^ 61 - 1) sk)
    (hn : sk.pk.n = (2 ^ 31 - 1) * (2 ^ 61 - 1)) {v : Rat} {e : Int} (h1 : 12 ≤ e) (h2 : e ≤ 13)
    (h : encoded ((2 ^ 31 - 1) * (2 ^ 61 - 1)) (.float v) none = some (v, e)) :
    CiphertextOf sk 12 13 (encOf sk.pk v) v := by
  have hus : (Expr.enc (.float v) none 1).Usable sk.pk.n := ⟨isCoprime_one_left, by simp⟩
  have hpl : (Expr.enc (.float v) none 1).plain sk.pk.n = some (v, e) := by
    unfold Expr.plain; rw [hn]; exact h
  have := C11_homomorphic_partial _ _ sk hk _ hus
  rw [hpl] at this
  obtain ⟨X, hX, he, _⟩ := this
  have hXe : encOf sk.pk v = X := by unfold encOf; rw [hX]
  rw [hXe]
  exact ⟨by omega, by omega, _, hus, hX, by rw [hpl, he]⟩

theorem raw (sk : PrivKey) : RawRun (setup sk) DemoRaw.rows := by
  have hpart : ∀ (Q : Option Nat → Party Nat → Prop), Q none DemoRaw.setup.guest →
      Q (some 0) (DemoRaw.party 1 ["c"] DemoRaw.hostRows1) →
      Q (some 1) (DemoRaw.party 2 ["d"] DemoRaw.hostRows2) →
      ∀ j P, partyAt (setup sk) j = some P → Q j P := by
    intro Q h0 h1 h2 j P hP
    match j with
    | none => cases hP; exact h0
    | some 0 => cases hP; exact h1
    | some 1 => cases hP; exact h2
    | some (j + 2) => simp [partyAt, setup, DemoRaw.setup] at hP
  have hwidth : ∀ (t : DTable Nat (List Rat)) (n : Nat), (∀ p ∈ t.data, p.2.length = n) →
      ∀ k row, t.data.get? k = some row → row.length = n :=
    fun t n h k row hk => h (k, row) (Dict.get?_mem hk)
  have hk0 : (setup sk).gh.data.keys = [0, 1, 2, 3, 4, 5] := by
    show Demo.gh.data.keys = _
    decide
  refine ⟨hpart _ ⟨?_, ?_, ?_⟩ ⟨?_, ?_, ?_⟩ ⟨?_, ?_, ?_⟩, ?_, ?_⟩
  · exact ⟨DemoRaw.qcfg, 4, ["a", "b"], by decide +kernel, rfl, by decide, by decide, by unfold DTable.WF Dict.WF; decide,
      by decide, hwidth _ 2 (by decide +kernel), by decide +kernel⟩
  · decide +kernel
  · intro k
    have h1 : (DemoRaw.rows none).data.keys = [0, 1, 2, 3, 4, 5] := by decide
    rw [h1, hk0]
  · exact ⟨DemoRaw.qcfg, 4, ["c"], by decide +kernel, rfl, by decide, by decide, by unfold DTable.WF Dict.WF; decide,
      by decide, hwidth _ 1 (by decide +kernel), by decide +kernel⟩
  · decide +kernel
  · intro k
    have h1 : (DemoRaw.rows (some 0)).data.keys = [5, 4, 3, 2, 1, 0] := by decide
    rw [h1, hk0]; simp; omega
  · exact ⟨DemoRaw.qcfg, 4, ["d"], by decide +kernel, rfl, by decide, by decide, by unfold DTable.WF Dict.WF; decide,
      by decide, hwidth _ 1 (by decide +kernel), by decide +kernel⟩
  · decide +kernel
  · intro k
    have h1 : (DemoRaw.rows (some 1)).data.keys = [0, 1, 2, 3, 4, 5] := by decide
    rw [h1, hk0]
  · show (DemoRaw.setup.hosts.map Party.idx).Nodup
    decide +kernel
  · show Demo.gh.WF
    unfold DTable.WF Dict.WF; decide

theorem usual (sk : PrivKey) : Usual (setup sk) (11 / 10) := by
  refine ⟨?_, ?_, ?_, ?_, ?_, ?_, ?_⟩
  · show 1 ≤ 4; decide
  · show 1 ≠ 0; decide
  · show ImpType.split ≠ .other; decide
  · show DemoRaw.setup.hosts ≠ []; unfold DemoRaw.setup; simp
  · show (1 : Int) ≤ 1; decide
  · show (0 : Rat) ≤ 1 / 10; norm_num
  · refine ⟨by norm_num, ?_⟩
    show ∀ x ∈ Demo.gh.data, 0 ≤ x.2.2 ∧ (11 / 10 : Rat) ≤ x.2.2 + 1 / 10
    decide +kernel

/-- A ciphertext without error. -/
theorem encrypts {sk : PrivKey} {lo hi : Int} {X : EncNum} {v : Rat} (h : CiphertextOf sk lo hi X v) :
    EncryptionOf sk lo hi 0 X v := ⟨v, h, by simp⟩

theorem run {sk : PrivKey} (hk : KeyPair (2 ^ 31 - 1) (2 ^ 61 - 1) sk)
    (hn : sk.pk.n = (2 ^ 31 - 1) * (2 ^ 61 - 1)) :
    PaillierRun (2 ^ 31 - 1) (2 ^ 61 - 1) sk 12 13 (11 / 10) 0 0 (setup sk) := by
  have hc : ∀ v e, 12 ≤ e → e ≤ 13 →
      encoded ((2 ^ 31 - 1) * (2 ^ 61 - 1)) (.float v) none = some (v, e) →
      EncryptionOf sk 12 13 0 (encOf sk.pk v) v := fun v e h1 h2 h3 => encrypts (cipher hk hn h1 h2 h3)
  have c1 := hc 1 13 (by decide) (by decide) (by decide +kernel)
  have c2 := hc (-8) 12 (by decide) (by decide) (by decide +kernel)
  have c3 := hc (-2) 12 (by decide) (by decide) (by decide +kernel)
  have c4 := hc 5 12 (by decide) (by decide) (by decide +kernel)
  refine ⟨hk, by decide, ?_, ?_, ⟨fun _ _ _ => 1, fun _ _ _ => isCoprime_one_left, fun _ _ => rfl⟩, rfl,
    ⟨le_refl _, le_refl _⟩, ⟨_, rfl, ?_⟩, ?_, ?_, ?_, ?_⟩
  · rw [hn]; decide +kernel
  · rw [hn]; decide +kernel
  · have e : (setup sk).gh = Demo.gh := rfl
    rw [e]
    unfold Demo.gh
    simp only [List.map_cons, List.map_nil]
    exact .cons ⟨rfl, c1, c1⟩ (.cons ⟨rfl, c2, c1⟩ (.cons ⟨rfl, c3, c1⟩ (.cons ⟨rfl, c4, c1⟩
      (.cons ⟨rfl, c2, c1⟩ (.cons ⟨rfl, c1, c1⟩ .nil)))))
  · rw [mul_zero, mul_zero]; norm_num
  · rw [hn, mul_zero, add_zero]
    show (Demo.gh.data.map fun x => |x.2.1|).sum * (16 : Rat) ^ (13 : Int) ≤ _
    decide +kernel
  · rw [hn, mul_zero, add_zero]
    show (Demo.gh.data.map fun x => |x.2.2|).sum * (16 : Rat) ^ (13 : Int) ≤ _
    decide +kernel
  · unfold gainError gradSize
    rw [mul_zero, mul_zero, add_zero]
    show max (2 * (Demo.gh.data.map fun x => |x.2.1|).sum ^ 2 / (11 / 10)) |(1 / 1000 : Rat) - 1 / 10 ^ 6| / 2 ^ 50 +
      FP.tiny ≤ 1 / 10 ^ 6
    decide +kernel

end DemoPaillier
end Verif
