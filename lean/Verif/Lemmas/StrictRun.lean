import Verif.Lemmas.StrictEncrypt

/-! # The conditions of a run with encryption follow from bounds, if the encryption is strict -/

set_option autoImplicit false

namespace Verif
namespace DTree

open Spec Histogram Program

theorem floatError_nonneg {b : Rat} (h : 1 ≤ b) : 0 ≤ floatError b := by
  have := FP.tiny_pos
  unfold floatError; positivity

theorem tiny_le : FP.tiny ≤ 1 / 2 ^ 50 := by
  unfold FP.tiny
  apply one_div_le_one_div_of_le (by norm_num)
  have : (2 : Nat) ^ 50 ≤ 10 ^ 200 := by decide +kernel
  exact_mod_cast this

theorem floatError_le {b : Rat} (h : 1 ≤ b) : floatError b ≤ b / 2 ^ 49 := by
  have := tiny_le
  unfold floatError
  have : (1 : Rat) / 2 ^ 50 ≤ b / 2 ^ 50 := div_le_div_of_nonneg_right h (by norm_num)
  have : b / 2 ^ 49 = b / 2 ^ 50 + b / 2 ^ 50 := by ring
  linarith

private theorem castPow {a c : Rat} {a' c' : Nat} (ha : a = a') (hc : c = c') {i j k : Nat} :
    a ^ i * a ^ j * c ^ k = (((a' ^ i * a' ^ j * c' ^ k : Nat) : Int) : Rat) := by
  subst ha; subst hc; push_cast; rfl

theorem strict_window (pkn : Int) (hn : 1000 < Nat.size pkn.toNat) (n : Nat) (hc : n ≤ 2 ^ 100) (b : Rat)
    (h1 : 1 ≤ b) (h2 : b ≤ 2 ^ 52) :
    (n : Rat) * (b + floatError b) * (16 : Rat) ^ (179 : Int) ≤ (((pkn / 3 - 1 : Int)) : Rat) := by
  have hfe := floatError_le h1
  have e1 : b + floatError b ≤ 2 ^ 53 := by
    have : b / 2 ^ 49 ≤ b := div_le_self (by linarith) (by norm_num)
    norm_num at *; linarith
  have e2 : (n : Rat) ≤ 2 ^ 100 := by exact_mod_cast hc
  have e0 : 0 ≤ b + floatError b := by linarith [floatError_nonneg h1]
  have e3 : (n : Rat) * (b + floatError b) ≤ 2 ^ 100 * 2 ^ 53 :=
    mul_le_mul e2 e1 e0 (by norm_num)
  have e4 : (n : Rat) * (b + floatError b) * (16 : Rat) ^ (179 : Int) ≤ 2 ^ 100 * 2 ^ 53 * 16 ^ (179 : Int) :=
    mul_le_mul_of_nonneg_right e3 (zpow_nonneg (by norm_num) _)
  refine e4.trans ?_
  have hnat : (2 : Nat) ^ 100 * 2 ^ 53 * 16 ^ 179 ≤ 2 ^ 1000 / 3 - 1 := by decide +kernel
  have hint : ((2 : Nat) ^ 100 * 2 ^ 53 * 16 ^ 179 : Nat) ≤ (pkn / 3 - 1) := by
    have : (2 : Nat) ^ 1000 / 3 ≤ pkn.toNat / 3 := Nat.div_le_div_right (Nat.lt_size.mp hn)
    have h0 : 1 ≤ (2 : Nat) ^ 1000 / 3 := by decide +kernel
    omega
  rw [show (179 : Int) = ((179 : Nat) : Int) by rfl, zpow_natCast]
  have hc : (2 : Rat) ^ 100 * 2 ^ 53 * 16 ^ 179 = ((((2 : Nat) ^ 100 * 2 ^ 53 * 16 ^ 179 : Nat) : Int) : Rat) := by
    exact castPow (by norm_num) (by norm_num)
  rw [hc]
  exact Int.cast_le.mpr hint

theorem strict_gap (pkn : Int) (hn : 1000 < Nat.size pkn.toNat) :
    (16 : Int) ^ (179 - 0 : Int).toNat ≤ pkn / 3 - 1 ∧ 2 ^ 53 ≤ pkn / 3 - 1 := by
  have hnat : (16 : Nat) ^ 179 ≤ 2 ^ 1000 / 3 - 1 := by decide +kernel
  have h0 : 1 ≤ (2 : Nat) ^ 1000 / 3 := by decide +kernel
  have hle : (2 : Nat) ^ 1000 / 3 ≤ pkn.toNat / 3 := Nat.div_le_div_right (Nat.lt_size.mp hn)
  have h53 : (2 : Nat) ^ 53 ≤ 16 ^ 179 := by decide +kernel
  have hint : (((16 : Nat) ^ 179 : Nat) : Int) ≤ pkn / 3 - 1 := by omega
  refine ⟨?_, ?_⟩
  · rw [show (179 - 0 : Int).toNat = 179 by rfl]
    push_cast at hint
    exact hint
  · have : (((2 : Nat) ^ 53 : Nat) : Int) ≤ pkn / 3 - 1 := by omega
    push_cast at this
    exact this

theorem moderate_room {n : Nat} {m gmax hmax minImp : Rat} (h : Moderate n m gmax hmax minImp) {d : Nat}
    (hd : d ≤ 31) : (d : Rat) * (n * floatError hmax) ≤ m / 2 := by
  have h1 := floatError_le h.hess.1
  have h0 := floatError_nonneg h.hess.1
  have hs := h.sums
  have hm := h.pos
  have hn : (0 : Rat) ≤ n := by positivity
  have hd' : (d : Rat) ≤ 31 := by exact_mod_cast hd
  have a1 : (n : Rat) * floatError hmax ≤ m / 2 ^ 6 := by
    calc (n : Rat) * floatError hmax ≤ n * (hmax / 2 ^ 49) := mul_le_mul_of_nonneg_left h1 hn
      _ = n * hmax / 2 ^ 49 := by ring
      _ ≤ (2 ^ 43 * m) / 2 ^ 49 := div_le_div_of_nonneg_right hs (by norm_num)
      _ = m / 2 ^ 6 := by ring
  calc (d : Rat) * (n * floatError hmax) ≤ 31 * (m / 2 ^ 6) :=
        mul_le_mul hd' a1 (by positivity) (by norm_num)
    _ ≤ m / 2 := by linarith

theorem moderate_accuracy {n : Nat} {m gmax hmax minImp : Rat} (h : Moderate n m gmax hmax minImp) {d : Nat}
    (hd : d ≤ 31) :
    max (2 * (n * gmax + (d + 1) * (n * floatError gmax)) ^ 2 / m) |minImp - 1 / 10 ^ 6| / 2 ^ 50 +
      FP.tiny ≤ 1 / 10 ^ 6 := by
  have h1 := floatError_le h.grad.1
  have h0 := floatError_nonneg h.grad.1
  have hm := h.pos
  have hn : (0 : Rat) ≤ n := by positivity
  have hg : (0 : Rat) ≤ n * gmax := mul_nonneg hn (by linarith [h.grad.1])
  have hd' : (d : Rat) + 1 ≤ 32 := by
    have : (d : Rat) ≤ 31 := by exact_mod_cast hd
    linarith
  have a1 : ((d : Rat) + 1) * (n * floatError gmax) ≤ n * gmax / 1000 := by
    calc ((d : Rat) + 1) * (n * floatError gmax) ≤ 32 * (n * (gmax / 2 ^ 49)) :=
          mul_le_mul hd' (mul_le_mul_of_nonneg_left h1 hn) (by positivity) (by norm_num)
      _ = n * gmax * (32 / 2 ^ 49) := by ring
      _ ≤ n * gmax * (1 / 1000) := mul_le_mul_of_nonneg_left (by norm_num) hg
      _ = n * gmax / 1000 := by ring
  have a0 : 0 ≤ ((d : Rat) + 1) * (n * floatError gmax) := by positivity
  have a2 : (n * gmax + (d + 1) * (n * floatError gmax)) ^ 2 ≤ (n * gmax) ^ 2 * (1001 / 1000) ^ 2 := by
    rw [← mul_pow]
    apply pow_le_pow_left₀ (by linarith)
    linarith
  have a3 : 2 * (n * gmax + (d + 1) * (n * floatError gmax)) ^ 2 / m ≤ 11 / 10 * 10 ^ 9 := by
    rw [div_le_iff₀ hm]
    have := h.gains
    nlinarith
  have a4 : |minImp - 1 / 10 ^ 6| ≤ 11 / 10 * 10 ^ 9 := by
    have := abs_sub minImp (1 / 10 ^ 6)
    have h9 := h.impurity
    rw [abs_of_pos (show (0 : Rat) < 1 / 10 ^ 6 by norm_num)] at this
    linarith
  have a5 : max (2 * (n * gmax + (d + 1) * (n * floatError gmax)) ^ 2 / m) |minImp - 1 / 10 ^ 6| / 2 ^ 50 ≤
      (11 / 10 * 10 ^ 9) / 2 ^ 50 := div_le_div_of_nonneg_right (max_le a3 a4) (by norm_num)
  have := tiny_le
  norm_num at *
  linarith

variable {K : Type} [DecidableEq K] {L : Type}

/-- Strict encryption of bounded gradients and hessians. -/
theorem Strict.encrypted {p q : Nat} {sk : Paillier.PrivKey}
    {enc : Nat → Nat → DTable K (Rat × Rat) → Except PyErr (DTable K (Num × Num))}
    {cipher : Nat → Nat → Nat → Nat → Cipher Num} {arith : Arith Num}
    (h : Spec.Strict p q sk enc cipher arith) {G : Rat × Rat → Prop} {m gmax hmax lam : Rat}
    (hG : ∀ a b, G (a, b) → |a| ≤ gmax ∧ 0 ≤ b ∧ b ≤ hmax ∧ m ≤ b + lam)
    (hg : gmax ≤ 2 ^ 52) (hh : hmax ≤ 2 ^ 52) (i t : Nat) (gh : DTable K (Rat × Rat)) (hw : gh.WF)
    (hx : ∀ x ∈ gh.data, G x.2) :
    ∃ e : DTable K (Paillier.EncNum × Paillier.EncNum), enc i t gh = .ok (liftGh e) ∧
      List.Forall₂ (fun a b => a.1 = b.1 ∧ EncryptionOf sk 0 179 (floatError gmax) a.2.1 b.2.1 ∧
        EncryptionOf sk 0 179 (floatError hmax) a.2.2 b.2.2) e.data gh.data := by
  obtain ⟨draw, d1, d2⟩ := h.enc
  rw [d2]
  exact strictEncrypt_ok p q sk h.key (strict_gap _ h.size).2 gmax hmax hg hh (draw i t) (d1 i t) gh hw
    fun x hx' => by
      obtain ⟨b1, b2, b3, _⟩ := hG x.2.1 x.2.2 (hx x hx')
      exact ⟨b1, by rw [abs_of_nonneg b2]; exact b3⟩

/-- A boosting run with strict encryption satisfies the conditions of the general theorem. -/
theorem strictBoost_paillier {p q : Nat} {sk : Paillier.PrivKey} {m gmax hmax : Rat}
    {G : Rat × Rat → Prop} {B : Boost K Num L} {y : DTable K L}
    {rows : Option Nat → DTable K (List Rat)} (h : StrictBoost p q sk m gmax hmax G B y rows) :
    PaillierBoost p q sk 0 179 m gmax hmax (floatError gmax) (floatError hmax) G B y rows where
  raw := h.raw
  names := h.names
  wf := h.wf
  depth := h.depth
  batch := h.batch
  kind := h.kind
  hosts := h.hosts
  leaf := h.leaf
  lam := h.lam
  grads := h.grads
  loss := h.loss
  bounds := h.bounds
  pos := h.moderate.pos
  key := h.strict.key
  hi0 := by decide
  gap := (strict_gap _ h.strict.size).1
  big := (strict_gap _ h.strict.size).2
  cipher := h.strict.cipher
  arith := h.strict.arith
  enc := fun i t gh hw hx => Strict.encrypted h.strict h.bounds h.moderate.grad.2 h.moderate.hess.2 i t gh hw hx
  errors := ⟨floatError_nonneg h.moderate.grad.1, floatError_nonneg h.moderate.hess.1⟩
  room := moderate_room h.moderate h.depth.2
  windowG := strict_window _ h.strict.size _ h.moderate.number _ h.moderate.grad.1 h.moderate.grad.2
  windowH := strict_window _ h.strict.size _ h.moderate.number _ h.moderate.hess.1 h.moderate.hess.2
  accuracy := moderate_accuracy h.moderate h.depth.2

/-- Programs with strict encryption satisfy the conditions of the general theorem. -/
theorem strictProgram_ok {P : Type} {p q : Nat} {sk : Paillier.PrivKey} {m gmax hmax : Rat}
    {G : Rat × Rat → Prop} {S : Settings Num P} {n : Nat} (h : StrictProgram p q sk m gmax hmax G S n) :
    ProgramOk p q sk 0 179 m gmax hmax (floatError gmax) (floatError hmax) G S n where
  error := h.error
  abnormal := h.abnormal
  bins := h.bins
  depth := h.depth
  fuel := h.fuel
  batch := h.batch
  kind := h.kind
  leaf := h.leaf
  lam := h.lam
  grads := h.grads
  loss := h.loss
  bounds := h.bounds
  pos := h.moderate.pos
  gpos := by linarith [h.moderate.grad.1]
  hpos := by linarith [h.moderate.hess.1]
  key := h.strict.key
  hi0 := by decide
  gap := (strict_gap _ h.strict.size).1
  big := (strict_gap _ h.strict.size).2
  cipher := h.strict.cipher
  arith := h.strict.arith
  enc := fun i t gh hw hx => Strict.encrypted h.strict h.bounds h.moderate.grad.2 h.moderate.hess.2 i t gh hw hx
  errors := ⟨floatError_nonneg h.moderate.grad.1, floatError_nonneg h.moderate.hess.1⟩
  room := moderate_room h.moderate h.depth.2
  windowG := strict_window _ h.strict.size _ h.moderate.number _ h.moderate.grad.1 h.moderate.grad.2
  windowH := strict_window _ h.strict.size _ h.moderate.number _ h.moderate.hess.1 h.moderate.hess.2
  accuracy := moderate_accuracy h.moderate h.depth.2
  softmax := h.softmax

end DTree
end Verif
