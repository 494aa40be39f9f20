import Verif.Examples.DemoPaillier

/-! # C11: a sum that is refused -/

set_option autoImplicit false

namespace Verif
open Paillier Spec

/-- **The sum of two numbers can be refused although it fits**: zero and `2^-100` are encrypted and
decrypted correctly, their sum `2^-100` is as far in the range as the second number, and adding the
ciphertexts raises an error. -/
theorem C11_gap_refuted : ∃ p q sk X Y, KeyPair p q sk ∧
    encrypt sk.pk (.int 0) none 1 = .ok X ∧ encrypt sk.pk (.float (1 / 2 ^ 100)) none 1 = .ok Y ∧
    (∃ t, decrypt sk X = .ok t ∧ t.val = 0) ∧ (∃ t, decrypt sk Y = .ok t ∧ t.val = 1 / 2 ^ 100) ∧
    add X Y = .error .valueError := by
  obtain ⟨sk, hk, hn⟩ := DemoPaillier.key
  have e1 : (Expr.enc (.int 0) none 1).plain sk.pk.n = some (0, 0) := by
    show encoded sk.pk.n _ _ = _
    rw [hn]; decide +kernel
  have e2 : (Expr.enc (.float (1 / 2 ^ 100)) none 1).plain sk.pk.n = some (1 / 2 ^ 100, 38) := by
    show encoded sk.pk.n _ _ = _
    rw [hn]; decide +kernel
  have h1 := C11_homomorphic_partial _ _ sk hk (.enc (.int 0) none 1) ⟨isCoprime_one_left, by simp⟩
  have h2 := C11_homomorphic_partial _ _ sk hk (.enc (.float (1 / 2 ^ 100)) none 1) ⟨isCoprime_one_left, by simp⟩
  rw [e1] at h1
  rw [e2] at h2
  obtain ⟨X, x1, x2, x3⟩ := h1
  obtain ⟨Y, y1, y2, y3⟩ := h2
  have hpk : ∀ {Z : EncNum} {t : FP.Scalar}, decrypt sk Z = .ok t → Z.pk = sk.pk := by
    intro Z t h
    unfold decrypt at h
    split at h
    · cases h
    · rename_i hne
      exact (not_not.mp hne).symm
  have x4 := x3 (by rw [hn]; norm_num)
  have y4 := y3 (by rw [hn]; norm_num)
  have hX : X.pk = sk.pk := by
    obtain ⟨t, ht, _⟩ := x4
    exact hpk ht
  have hY : Y.pk = sk.pk := by
    obtain ⟨t, ht, _⟩ := y4
    exact hpk ht
  refine ⟨_, _, sk, X, Y, hk, x1, y1, x4, y4, ?_⟩
  apply C11_gap X Y (hX.trans hY.symm)
  · rw [x2, y2, hX, hn]; decide +kernel
  · rw [x2, y2]; decide

end Verif
