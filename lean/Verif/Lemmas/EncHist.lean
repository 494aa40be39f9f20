import Verif.Lemmas.HistogramSim
import Verif.Lemmas.C11
import Verif.Spec.C23

/-! # Encrypted histograms: the simulation between ciphertexts and plain numbers -/

set_option autoImplicit false

namespace Verif
namespace Histogram
open Spec Paillier
open Binning (Cell SparseVec)

/-- The invariant of histogram entries. -/
def NumRel (k : PubKey) (lo hi : Int) : Num → Rat → Prop
  | .int z, v => z = 0 ∧ v = 0
  | .enc X, v => Rep11 k X v ∧ lo ≤ X.exponent ∧ X.exponent ≤ hi

theorem gap_ok {n lo hi e1 e2 : Int} (hg : (16 : Int) ^ (hi - lo).toNat ≤ n / 3 - 1)
    (h1 : lo ≤ e1) (h2 : e1 ≤ hi) (h3 : lo ≤ e2) (h4 : e2 ≤ hi) : GapOk n e1 e2 := by
  right
  refine le_trans ?_ hg
  apply pow_le_pow_right₀ (by norm_num)
  omega

theorem add_zero_rel {k : PubKey} (hn : 6 ≤ k.n) {lo hi : Int} (hhi : 0 ≤ hi)
    (hg : (16 : Int) ^ (hi - lo).toNat ≤ k.n / 3 - 1) (X : EncNum) (v : Rat)
    (h : NumRel k lo hi (.enc X) v) :
    ∃ Y, addScalar X (.int 0) = .ok Y ∧ NumRel k lo hi (.enc Y) v := by
  obtain ⟨hr, h1, h2⟩ := h
  have hs := aux11_addScalar k (by omega) X v (.int 0) hr
  have henc : FP.encode (.int 0) k.n (k.n / 3 - 1) (some X.exponent) =
      .ok ⟨0, max 0 X.exponent, k.n, k.n / 3 - 1⟩ := by
    rw [FP.encode_ok_iff]
    have hval : FP.roundEven ((FP.flush (.int 0)).val * (16 : Rat) ^ (max 0 X.exponent)) = 0 := by
      rw [FP.flush_int]
      have : (FP.Scalar.int 0).val * (16 : Rat) ^ (max 0 X.exponent) = ((0 : Int) : Rat) := by
        simp [FP.Scalar.val]
      rw [this]
      exact FP.roundEven_intCast 0
    refine ⟨max 0 X.exponent, ?_, ?_, ?_⟩
    · rw [FP.flush_int, max_comm]; rfl
    · rw [hval]; simp; omega
    · rw [hval]; simp
  have hm : FP.mantissa ⟨0, max 0 X.exponent, k.n, k.n / 3 - 1⟩ = .ok 0 := by
    unfold FP.mantissa
    rw [if_neg (by simp; omega), if_pos (by simp; omega)]
  rw [aux11_encoded_some henc hm] at hs
  simp only [Int.cast_zero, zero_mul, bind, Option.bind] at hs
  unfold plainAdd at hs
  rw [if_pos ((aux11_canAlign _ _ _).mpr (gap_ok hg h1 h2 (by simp only; omega) (by simp only; omega)))] at hs
  cases hY : addScalar X (.int 0) with
  | error e => rw [hY] at hs; exact hs.elim
  | ok Y =>
    rw [hY] at hs
    obtain ⟨e1, e2⟩ := hs
    rw [add_zero] at e2
    refine ⟨Y, rfl, e2, ?_, ?_⟩ <;> rw [e1] <;> simp only <;> omega

theorem arithRel {k : PubKey} (hn : 6 ≤ k.n) {lo hi : Int} (hhi : 0 ≤ hi)
    (hg : (16 : Int) ^ (hi - lo).toNat ≤ k.n / 3 - 1) :
    ArithRel (NumRel k lo hi) (fun c => ¬ IsCipher c) paillier plain := by
  have hadd : ∀ (X Y : EncNum) (x y : Rat), NumRel k lo hi (.enc X) x → NumRel k lo hi (.enc Y) y →
      ∃ Z, Paillier.add X Y = .ok Z ∧ NumRel k lo hi (.enc Z) (x + y) := by
    intro X Y x y hX hY
    have := aux11_add k (by omega) X Y x y hX.1 hY.1
    unfold plainAdd at this
    rw [if_pos ((aux11_canAlign _ _ _).mpr (gap_ok hg hX.2.1 hX.2.2 hY.2.1 hY.2.2))] at this
    cases hZ : Paillier.add X Y with
    | error e => rw [hZ] at this; exact this.elim
    | ok Z =>
      rw [hZ] at this
      obtain ⟨e1, e2⟩ := this
      have a1 := hX.2.1; have a2 := hX.2.2; have a3 := hY.2.1; have a4 := hY.2.2
      refine ⟨Z, rfl, e2, ?_, ?_⟩ <;> rw [e1] <;> simp only <;> omega
  refine ⟨⟨rfl, rfl⟩, ?_, ?_⟩
  · intro a b x y ha hb r hr
    cases hr
    cases a with
    | int z =>
      obtain ⟨rfl, rfl⟩ := ha
      cases b with
      | int w =>
        obtain ⟨rfl, rfl⟩ := hb
        exact ⟨.int 0, rfl, ⟨rfl, by simp⟩, fun _ => ⟨id, id⟩⟩
      | enc Y =>
        obtain ⟨Z, h1, h2⟩ := add_zero_rel hn hhi hg Y y hb
        refine ⟨.enc Z, ?_, by rw [zero_add]; exact h2, fun h => (h trivial).elim⟩
        simp only [paillier, Num.add, bind, Except.bind]
        rw [h1]; rfl
    | enc X =>
      cases b with
      | int w =>
        obtain ⟨rfl, rfl⟩ := hb
        obtain ⟨Z, h1, h2⟩ := add_zero_rel hn hhi hg X x ha
        refine ⟨.enc Z, ?_, by rw [add_zero]; exact h2, fun h => (h trivial).elim⟩
        simp only [paillier, Num.add, bind, Except.bind]
        rw [h1]; rfl
      | enc Y =>
        obtain ⟨Z, h1, h2⟩ := hadd X Y x y ha hb
        refine ⟨.enc Z, ?_, h2, fun h => (h trivial).elim⟩
        simp only [paillier, Num.add, bind, Except.bind]
        rw [h1]; rfl
  · intro a b x y ha hb r hr
    cases hr
    cases a with
    | int z =>
      obtain ⟨rfl, rfl⟩ := ha
      cases b with
      | int w =>
        obtain ⟨rfl, rfl⟩ := hb
        exact ⟨.int 0, rfl, ⟨rfl, by simp⟩, fun _ => ⟨id, id⟩⟩
      | enc Y =>
        obtain ⟨N, n1, n2, n3⟩ := aux11_neg k hn Y y hb.1
        obtain ⟨Z, h1, h2⟩ := add_zero_rel hn hhi hg N (-y) ⟨n3, by rw [n2]; exact hb.2.1, by rw [n2]; exact hb.2.2⟩
        refine ⟨.enc Z, ?_, by rw [zero_sub]; exact h2, fun h => (h trivial).elim⟩
        simp only [paillier, Num.sub, rsubScalar, bind, Except.bind]
        rw [n1]
        simp only
        rw [h1]; rfl
    | enc X =>
      cases b with
      | int w =>
        obtain ⟨rfl, rfl⟩ := hb
        obtain ⟨Z, h1, h2⟩ := add_zero_rel hn hhi hg X x ha
        refine ⟨.enc Z, ?_, by rw [sub_zero]; exact h2, fun h => (h trivial).elim⟩
        simp only [paillier, Num.sub, subScalar, FP.Scalar.neg, neg_zero, bind, Except.bind]
        rw [h1]; rfl
      | enc Y =>
        obtain ⟨N, n1, n2, n3⟩ := aux11_neg k hn Y y hb.1
        obtain ⟨Z, h1, h2⟩ := hadd X N x (-y) ha ⟨n3, by rw [n2]; exact hb.2.1, by rw [n2]; exact hb.2.2⟩
        refine ⟨.enc Z, ?_, by rw [sub_eq_add_neg]; exact h2, fun h => (h trivial).elim⟩
        simp only [paillier, Num.sub, Paillier.sub, bind, Except.bind]
        rw [n1]
        simp only
        rw [h1]; rfl

theorem numRel_reads {p q : Nat} {sk : PrivKey} (hk : KeyPair p q sk) {lo hi : Int} {c : Num}
    {v : Rat} (h : NumRel sk.pk lo hi c v) : ReadsAs sk hi c v := by
  cases c with
  | int z => obtain ⟨rfl, rfl⟩ := h; simp [ReadsAs]
  | enc X =>
    obtain ⟨_, h6, p', q', hg⟩ := aux10_good hk
    obtain ⟨⟨hpk, m, hm, hv⟩, _, h2⟩ := h
    intro hfit
    have hfit' : |v| * (16 : Rat) ^ X.exponent ≤ ((sk.pk.n / 3 - 1 : Int) : Rat) := by
      refine le_trans (mul_le_mul_of_nonneg_left ?_ (abs_nonneg v)) hfit
      exact zpow_le_zpow_right₀ (by norm_num) h2
    have hmle : |m| ≤ sk.pk.n / 3 - 1 := by
      have hp : (0 : Rat) < (16 : Rat) ^ (-X.exponent) := zpow_pos (by norm_num) _
      rw [hv, abs_mul, abs_of_pos hp, mul_assoc, ← zpow_add₀ (by norm_num)] at hfit'
      simp only [neg_add_cancel, zpow_zero, mul_one] at hfit'
      exact_mod_cast hfit'
    refine ⟨_, decrypt_isEnc hg X hpk (by rw [hpk]; exact hm) (by rw [hpk]; exact hmle), ?_⟩
    rw [FP.scale_val, hv]

/-- An encrypted cell and the plain cell it stands for. -/
def CellReads (sk : PrivKey) (hi : Int) (e : HCell Num) (p : HCell Rat) : Prop :=
  e.2.2 = p.2.2 ∧ ReadsAs sk hi e.1 p.1 ∧ ReadsAs sk hi e.2.1 p.2.1 ∧
    (e.2.2 ≠ 0 → IsCipher e.1 ∧ IsCipher e.2.1)

variable {K : Type} [DecidableEq K]

theorem encHist_reads (p q : Nat) (sk : PrivKey) (hk : KeyPair p q sk) (lo hi : Int)
    (hhi : 0 ≤ hi) (hgap : (16 : Int) ^ (hi - lo).toNat ≤ sk.pk.n / 3 - 1)
    (splits : List (List Rat)) (sparse : Dict Nat Nat) (valid : Option (List Bool)) (ids : List Nat)
    (data : DTable K (SparseVec Cell × Nat × Nat)) (enc : DTable K (EncNum × EncNum))
    (gh : DTable K (Rat × Rat)) (hw : gh.WF)
    (hg : List.Forall₂ (fun a b => a.1 = b.1 ∧ CiphertextOf sk lo hi a.2.1 b.2.1 ∧
      CiphertextOf sk lo hi a.2.2 b.2.2) enc.data gh.data)
    (H : Hist Rat) (hH : getHistograms plain splits sparse valid ids data gh = .ok H) :
    ∃ HE, getHistograms paillier splits sparse valid ids data (liftGh enc) = .ok HE ∧
      List.Forall₂ (List.Forall₂ (List.Forall₂ (CellReads sk hi))) HE H := by
  obtain ⟨_, h6, _, _, _⟩ := aux10_good hk
  have hrep : ∀ X v, CiphertextOf sk lo hi X v → NumRel sk.pk lo hi (.enc X) v := by
    rintro X v ⟨h1, h2, e, hu, hr, hp⟩
    have := aux11_sim sk.pk h6 e hu
    rw [hr, hp] at this
    exact ⟨this.2, h1, h2⟩
  have hrel : List.Forall₂ (fun a b => a.1 = b.1 ∧ NumRel sk.pk lo hi a.2.1 b.2.1 ∧
      NumRel sk.pk lo hi a.2.2 b.2.2 ∧ ¬ ¬ IsCipher a.2.1 ∧ ¬ ¬ IsCipher a.2.2) (liftGh enc).data gh.data := by
    unfold liftGh
    simp only
    rw [List.forall₂_map_left_iff]
    exact hg.imp fun a b h => ⟨h.1, hrep _ _ h.2.1, hrep _ _ h.2.2, fun h => h trivial, fun h => h trivial⟩
  have hkeys : (liftGh enc).data.keys = gh.data.keys := by
    unfold Dict.keys
    generalize (liftGh enc).data = l at hrel
    generalize gh.data = l' at hrel
    induction hrel with
    | nil => rfl
    | cons h _ ih => simp only [List.map_cons, h.1, ih]
  have hwf : (liftGh enc).WF := by unfold DTable.WF Dict.WF; rw [hkeys]; exact hw
  obtain ⟨HE, e1, e2⟩ := getHistograms_fwd (arithRel h6 hhi hgap) splits sparse valid ids data hwf hw hrel H hH
  refine ⟨HE, e1, e2.imp fun _ _ h => h.imp fun _ _ h => h.imp fun e p h => ?_⟩
  obtain ⟨d1, d2, d3, d4, d5⟩ := h
  exact ⟨d3, numRel_reads hk d1, numRel_reads hk d2,
    fun hc => ⟨by by_contra h; exact hc (d4 h), by by_contra h; exact hc (d5 h)⟩⟩

end Histogram
end Verif
