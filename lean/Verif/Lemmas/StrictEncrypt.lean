import Verif.Spec.C58
import Verif.Lemmas.PaillierCipher
import Verif.Lemmas.DTableM
import Verif.Lemmas.PaillierRun
import Verif.Props.C08
import Verif.Props.C11

/-! # Ciphertexts of floats, and tables of them -/

set_option autoImplicit false

namespace Verif
namespace DTree

open Spec Histogram Paillier

theorem tiny_frexp {x : Rat} (h : FP.tiny ≤ |x|) : -664 ≤ FP.frexpExp x := by
  have hx : x ≠ 0 := by
    rintro rfl; rw [abs_zero] at h; exact absurd FP.tiny_pos (not_lt.mpr h)
  obtain ⟨_, h2⟩ := FP.frexp_bounds x hx
  by_contra hc
  have hle : (2 : Rat) ^ FP.frexpExp x ≤ (2 : Rat) ^ (-665 : Int) :=
    zpow_le_zpow_right₀ (by norm_num) (by omega)
  have h3 : (2 : Rat) ^ (-665 : Int) < FP.tiny := by
    unfold FP.tiny
    rw [zpow_neg, one_div, show (665 : Int) = ((665 : Nat) : Int) by rfl, zpow_natCast]
    apply inv_strictAnti₀ (by positivity)
    have : (10 : Nat) ^ 200 < 2 ^ 665 := by decide +kernel
    exact_mod_cast this
  linarith

theorem size_frexp {x : Rat} (h : |x| ≤ 2 ^ 52) : FP.frexpExp x ≤ 53 := by
  by_cases hx : x = 0
  · unfold FP.frexpExp; rw [if_pos hx]; omega
  obtain ⟨h1, _⟩ := FP.frexp_bounds x hx
  by_contra hc
  have hle : (2 : Rat) ^ (53 : Int) ≤ (2 : Rat) ^ (FP.frexpExp x - 1) :=
    zpow_le_zpow_right₀ (by norm_num) (by omega)
  have : (2 : Rat) ^ (53 : Int) = 2 ^ 53 := by norm_cast
  rw [this] at hle
  norm_num at hle h
  linarith

/-- **Encrypting a float**: it succeeds, with an exponent between 0 and 179, and what it stands for
differs from the float by at most its 2^-50th part, or by 1e-200. -/
theorem encrypt_float (p q : Nat) (sk : PrivKey) (hk : KeyPair p q sk) (hbig : 2 ^ 53 ≤ sk.pk.n / 3 - 1)
    (x B : Rat) (hx : |x| ≤ 2 ^ 52) (hB : |x| ≤ B) (draw : Int) (hd : Usable sk draw) :
    ∃ X, encrypt sk.pk (.float x) none draw = .ok X ∧
      EncryptionOf sk 0 179 (B / 2 ^ 50 + FP.tiny) X x := by
  have hB0 : 0 ≤ B := le_trans (abs_nonneg x) hB
  obtain ⟨f, hf⟩ := encode_float_ok x sk.pk.n (sk.pk.n / 3 - 1) hbig
  have hM : 2 * (sk.pk.n / 3 - 1) < sk.pk.n := by omega
  obtain ⟨e, i, he, _, _, hfe, _, _, _, _, hdec⟩ := FP.encode_decode _ _ _ hM _ _ hf
  have hus : (Expr.enc (.float x) none draw).Usable sk.pk.n := ⟨hd, by simp⟩
  have hpl : (Expr.enc (.float x) none draw).plain sk.pk.n = some ((FP.scale i e).val, f.exponent) := by
    show encoded sk.pk.n (.float x) none = _
    unfold encoded
    rw [hf]
    simp only [hdec]
  have hrun := C11_homomorphic_partial p q sk hk _ hus
  rw [hpl] at hrun
  obtain ⟨X, hX, hXe, _⟩ := hrun
  have hrange : 0 ≤ e ∧ e ≤ 179 := by
    by_cases ht : FP.tiny ≤ |x|
    · rw [FP.flush_float x ht] at he
      have := tiny_frexp ht
      have := size_frexp hx
      simp only [FP.chooseExp, Except.ok.injEq] at he
      omega
    · rw [FP.flush_of_tiny (.float x) (by simp) (not_le.mp ht)] at he
      simp only [FP.chooseExp, Except.ok.injEq] at he
      omega
  have hB50 : 0 ≤ B / 2 ^ 50 := by positivity
  refine ⟨X, hX, (FP.scale i e).val, ⟨by omega, by omega, _, hus, hX, ?_⟩, ?_⟩
  · rw [hpl, hXe]
  · by_cases ht : FP.tiny ≤ |x|
    · obtain ⟨t, t1, t2⟩ := C08_float_relative_error x sk.pk.n (sk.pk.n / 3 - 1) hM none f ht hf
      rw [hdec, Except.ok.injEq] at t1
      rw [t1]
      have : |x| / 2 ^ 50 ≤ B / 2 ^ 50 := div_le_div_of_nonneg_right hB (by norm_num)
      linarith [FP.tiny_pos]
    · obtain ⟨t, t1, _, t3⟩ := C08_roundtrip (.float x) sk.pk.n (sk.pk.n / 3 - 1) hM none f hf
      rw [hdec, Except.ok.injEq] at t1
      have ht' := not_le.mp ht
      rw [t1, t3 ht', zero_sub, abs_neg]
      linarith

/-- What a ciphertext of a float decrypts to, for floats of any size. -/
theorem decrypt_float (p q : Nat) (sk : PrivKey) (hk : KeyPair p q sk) (hbig : 2 ^ 53 ≤ sk.pk.n / 3 - 1)
    (x : Rat) (draw : Int) (hd : Usable sk draw) :
    ∃ X t, encrypt sk.pk (.float x) none draw = .ok X ∧ decrypt sk X = .ok t ∧
      |t.val - x| ≤ |x| / 2 ^ 50 + FP.tiny := by
  obtain ⟨f, hf⟩ := encode_float_ok x sk.pk.n (sk.pk.n / 3 - 1) hbig
  have hM : 2 * (sk.pk.n / 3 - 1) < sk.pk.n := by omega
  obtain ⟨e, i, he, _, hi, hfe, _, _, _, _, hdec⟩ := FP.encode_decode _ _ _ hM _ _ hf
  have hus : (Expr.enc (.float x) none draw).Usable sk.pk.n := ⟨hd, by simp⟩
  have hpl : (Expr.enc (.float x) none draw).plain sk.pk.n = some ((FP.scale i e).val, f.exponent) := by
    show encoded sk.pk.n (.float x) none = _
    unfold encoded
    rw [hf]
    simp only [hdec]
  have hrun := C11_homomorphic_partial p q sk hk _ hus
  rw [hpl] at hrun
  obtain ⟨X, hX, hXe, hdecr⟩ := hrun
  obtain ⟨t, t1, t2⟩ := hdecr (by
    have hp : (0 : Rat) < (16 : Rat) ^ (-e) := zpow_pos (by norm_num) _
    rw [FP.scale_val, abs_mul, abs_of_pos hp, mul_assoc, hfe,
      ← zpow_add₀ (by norm_num), neg_add_cancel, zpow_zero, mul_one, ← Int.cast_abs]
    exact Int.cast_le.mpr hi)
  refine ⟨X, t, hX, t1, ?_⟩
  rw [t2]
  have h50 : 0 ≤ |x| / 2 ^ 50 := by positivity
  by_cases ht : FP.tiny ≤ |x|
  · obtain ⟨t, t1, t2⟩ := C08_float_relative_error x sk.pk.n (sk.pk.n / 3 - 1) hM none f ht hf
    rw [hdec, Except.ok.injEq] at t1
    rw [t1]
    linarith [FP.tiny_pos]
  · obtain ⟨t, t1, _, t3⟩ := C08_roundtrip (.float x) sk.pk.n (sk.pk.n / 3 - 1) hM none f hf
    rw [hdec, Except.ok.injEq] at t1
    have ht' := not_le.mp ht
    rw [t1, t3 ht', zero_sub, abs_neg]
    linarith

variable {K : Type} [DecidableEq K]

/-- If the encryption of the single numbers succeeds, that of the table does. -/
theorem strictEncrypt_of (pk : PubKey) (draw : K → Nat → Int) (gh : DTable K (Rat × Rat)) (hw : gh.WF)
    (Q1 Q2 : EncNum → Rat → Prop)
    (hb : ∀ x ∈ gh.data, (∃ X, encrypt pk (.float x.2.1) none (draw x.1 0) = .ok X ∧ Q1 X x.2.1) ∧
      ∃ X, encrypt pk (.float x.2.2) none (draw x.1 1) = .ok X ∧ Q2 X x.2.2) :
    ∃ e : DTable K (EncNum × EncNum), strictEncrypt pk draw gh = .ok (liftGh e) ∧
      List.Forall₂ (fun a b => a.1 = b.1 ∧ Q1 a.2.1 b.2.1 ∧ Q2 a.2.2 b.2.2) e.data gh.data := by
  set f : K → Nat → Rat → Except PyErr EncNum := fun k i v => encrypt pk (.float v) none (draw k i) with hf
  have h1 : gh.mapValues (fun p => [p.1, p.2]) = .ok ⟨gh.data.map fun x => (x.1, [x.2.1, x.2.2])⟩ :=
    DTable.mapValues_ok hw _
  have hw1 : (⟨gh.data.map fun x => (x.1, [x.2.1, x.2.2])⟩ : DTable K (List Rat)).WF := by
    unfold DTable.WF Dict.WF Dict.keys at *
    rw [List.map_map]; exact hw
  have h2 : EncryptMode.encrypt (fun a b => a - b) (fun _ c => c) f 0 (EncryptMode.State.init .strict 1)
      ⟨gh.data.map fun x => (x.1, [x.2.1, x.2.2])⟩ =
      .ok (⟨gh.data.map fun x => (x.1, [f x.1 0 x.2.1, f x.1 1 x.2.2])⟩,
        ⟨.strict, 1, some (⟨gh.data.map fun x => (x.1, [x.2.1, x.2.2])⟩,
          ⟨gh.data.map fun x => (x.1, [f x.1 0 x.2.1, f x.1 1 x.2.2])⟩)⟩) := by
    have hw2 : (⟨gh.data.map fun x => (x.1, [f x.1 0 x.2.1, f x.1 1 x.2.2])⟩ :
        DTable K (List (Except PyErr EncNum))).WF := by
      unfold DTable.WF Dict.WF Dict.keys at *
      rw [List.map_map]; exact hw
    have hmap : (⟨gh.data.map fun x => (x.1, [x.2.1, x.2.2])⟩ : DTable K (List Rat)).map
        (EncryptMode.encryptRow f) = .ok ⟨gh.data.map fun x => (x.1, [f x.1 0 x.2.1, f x.1 1 x.2.2])⟩ := by
      unfold DTable.map
      rw [List.map_map]
      exact DTable.ofPairs_ok (by
        unfold DTable.WF Dict.WF Dict.keys at hw
        rw [List.map_map]; exact hw)
    unfold EncryptMode.encrypt
    have hre : EncryptMode.reEncrypt (EncryptMode.State.init .strict 1 : EncryptMode.State K (Except PyErr EncNum)) 0 = true := by
      simp [EncryptMode.reEncrypt, EncryptMode.State.init]
    rw [if_pos hre, hmap]
    simp only [bind, Except.bind]
    rw [DTable.mapValues_ok hw1, DTable.mapValues_ok hw2]
    simp [EncryptMode.State.init]
  have key : ∀ x, x ∈ gh.data → ∃ X Y, f x.1 0 x.2.1 = .ok X ∧ f x.1 1 x.2.2 = .ok Y ∧
      Q1 X x.2.1 ∧ Q2 Y x.2.2 := by
    intro x hx
    obtain ⟨⟨X, x1, x2⟩, Y, y1, y2⟩ := hb x hx
    exact ⟨X, Y, x1, y1, x2, y2⟩
  have hlist : ∀ l : List (K × Rat × Rat), (∀ x ∈ l, x ∈ gh.data) → ∃ e : List (K × EncNum × EncNum),
      DTable.evalRecords pairOf (l.map fun x => (x.1, [f x.1 0 x.2.1, f x.1 1 x.2.2])) =
        .ok (e.map fun p => (p.1, (.enc p.2.1, .enc p.2.2))) ∧
      List.Forall₂ (fun a b => a.1 = b.1 ∧ Q1 a.2.1 b.2.1 ∧
        Q2 a.2.2 b.2.2) e l := by
    intro l
    induction l with
    | nil => intro _; exact ⟨[], rfl, .nil⟩
    | cons x l ih =>
      intro hl
      obtain ⟨e, e1, e2⟩ := ih fun y hy => hl y (by simp [hy])
      obtain ⟨X, Y, x1, y1, x2, y2⟩ := key x (hl x (by simp))
      refine ⟨(x.1, X, Y) :: e, ?_, .cons ⟨rfl, x2, y2⟩ e2⟩
      have hp : pairOf [f x.1 0 x.2.1, f x.1 1 x.2.2] = .ok (.enc X, .enc Y) := by
        rw [x1, y1]; rfl
      rw [List.map_cons, DTable.evalRecords]
      simp only [hp, e1]
      rfl
  obtain ⟨e, e1, e2⟩ := hlist gh.data fun x hx => hx
  refine ⟨⟨e⟩, ?_, e2⟩
  unfold strictEncrypt
  simp only [bind, Except.bind, h1]
  rw [h2]
  simp only [DTable.mapValuesM, e1, Except.bind]
  have hkeys : (e.map fun p : K × EncNum × EncNum => p.1) = gh.data.keys := by
    clear e1 h1 hw1 h2 key hlist hb hw
    generalize gh.data = l at e2
    induction e2 with
    | nil => rfl
    | cons h _ ih => simp [Dict.keys] at ih ⊢; exact ⟨h.1, ih⟩
  rw [DTable.ofPairs_ok]
  · rfl
  · rw [List.map_map]
    show (e.map fun p => p.1).Nodup
    rw [hkeys]; exact hw

/-- Strict encryption of a table of bounded gradients and hessians. -/
theorem strictEncrypt_ok (p q : Nat) (sk : PrivKey) (hk : KeyPair p q sk) (hbig : 2 ^ 53 ≤ sk.pk.n / 3 - 1)
    (gmax hmax : Rat) (hg : gmax ≤ 2 ^ 52) (hh : hmax ≤ 2 ^ 52) (draw : K → Nat → Int)
    (hd : ∀ k i, Usable sk (draw k i)) (gh : DTable K (Rat × Rat)) (hw : gh.WF)
    (hb : ∀ x ∈ gh.data, |x.2.1| ≤ gmax ∧ |x.2.2| ≤ hmax) :
    ∃ e : DTable K (EncNum × EncNum), strictEncrypt sk.pk draw gh = .ok (liftGh e) ∧
      List.Forall₂ (fun a b => a.1 = b.1 ∧ EncryptionOf sk 0 179 (gmax / 2 ^ 50 + FP.tiny) a.2.1 b.2.1 ∧
        EncryptionOf sk 0 179 (hmax / 2 ^ 50 + FP.tiny) a.2.2 b.2.2) e.data gh.data :=
  strictEncrypt_of sk.pk draw gh hw _ _ fun x hx =>
    ⟨encrypt_float p q sk hk hbig x.2.1 gmax ((hb x hx).1.trans hg) (hb x hx).1 (draw x.1 0) (hd x.1 0),
      encrypt_float p q sk hk hbig x.2.2 hmax ((hb x hx).2.trans hh) (hb x hx).2 (draw x.1 1) (hd x.1 1)⟩

end DTree
end Verif
