import Verif.Lemmas.EncHist
import Verif.Spec.C23
import Verif.Props.C22
import Mathlib.Tactic.NormNum.Prime

/-!
# C23 – encrypted histograms decrypt to the true sums

The host runs the histogram code on ciphertexts (`paillier` arithmetic).  If the guest's
gradients are ciphertexts of the plain ones, every entry of the host's histogram decrypts to
the corresponding entry of the plain histogram, hence (C22) to the sum over the samples.
`lo` and `hi ≥ 0` bound the exponents of the gradients; their distance must be encodable.
-/

set_option autoImplicit false

namespace Verif
open Histogram Spec Paillier
open Binning (Cell SparseVec)

private theorem forall₂_get {β γ : Type} {P : β → γ → Prop} {l : List β} {l' : List γ}
    (h : List.Forall₂ P l l') (i : Nat) :
    (l[i]? = none ∧ l'[i]? = none) ∨ ∃ x y, l[i]? = some x ∧ l'[i]? = some y ∧ P x y := by
  induction h generalizing i with
  | nil => left; simp
  | cons hx _ ih =>
    cases i with
    | zero => right; exact ⟨_, _, rfl, rfl, hx⟩
    | succ i => exact ih i

variable {K : Type} [DecidableEq K]

/-- **Encrypted histograms follow the plain ones.**  For every key pair and all tables: if every
ciphertext in the encrypted gradient table is a ciphertext of the plain number, the encrypted
computation succeeds whenever the plain one does, has the same cells, the same counts, and each
gradient and hessian entry is read by the key holder as the plain entry (while it is within
the plaintext range).  The entries of a cell with samples are ciphertexts. -/
theorem C23_follows_plain (p q : Nat) (sk : PrivKey) (hk : KeyPair p q sk) (lo hi : Int)
    (hhi : 0 ≤ hi) (hgap : (16 : Int) ^ (hi - lo).toNat ≤ sk.pk.n / 3 - 1)
    (splits : List (List Rat)) (sparse : Dict Nat Nat) (valid : Option (List Bool)) (ids : List Nat)
    (data : DTable K (SparseVec Cell × Nat × Nat)) (enc : DTable K (EncNum × EncNum))
    (gh : DTable K (Rat × Rat)) (hw : gh.WF)
    (hg : List.Forall₂ (fun a b => a.1 = b.1 ∧ CiphertextOf sk lo hi a.2.1 b.2.1 ∧
      CiphertextOf sk lo hi a.2.2 b.2.2) enc.data gh.data)
    (H : Hist Rat) (hH : getHistograms plain splits sparse valid ids data gh = .ok H) :
    ∃ HE, getHistograms paillier splits sparse valid ids data (liftGh enc) = .ok HE ∧
      ∀ i f b, (cellAt H i f b = none ∧ cellAt HE i f b = none) ∨
        ∃ (g h : Rat) (c : Int) (eg eh : Num), cellAt H i f b = some (g, h, c) ∧
          cellAt HE i f b = some (eg, eh, c) ∧ ReadsAs sk hi eg g ∧ ReadsAs sk hi eh h ∧
          (c ≠ 0 → IsCipher eg ∧ IsCipher eh) := by
  obtain ⟨HE, e1, e2⟩ := encHist_reads p q sk hk lo hi hhi hgap splits sparse valid ids data enc gh
    hw hg H hH
  refine ⟨HE, e1, ?_⟩
  intro i f b
  unfold cellAt
  rcases forall₂_get e2 i with ⟨a1, a2⟩ | ⟨x, y, a1, a2, a3⟩
  · left; rw [a1, a2]; exact ⟨rfl, rfl⟩
  rw [a1, a2]
  simp only [Option.bind_some]
  rcases forall₂_get a3 f with ⟨b1, b2⟩ | ⟨x', y', b1, b2, b3⟩
  · left; rw [b1, b2]; exact ⟨rfl, rfl⟩
  rw [b1, b2]
  simp only [Option.bind_some]
  rcases forall₂_get b3 b with ⟨c1, c2⟩ | ⟨c, c', c1, c2, c3⟩
  · left; exact ⟨c2, c1⟩
  right
  obtain ⟨eg, eh, n⟩ := c
  obtain ⟨g, h, n'⟩ := c'
  obtain ⟨d1, d2, d3, d4⟩ := c3
  simp only at d1 d2 d3 d4
  subst d1
  exact ⟨g, h, n, eg, eh, c2, c1, d2, d3, d4⟩

/-- **Encrypted histograms hold the true sums** (with C22): every entry of the host's histogram
reads as the sum over the samples at the node with at most that bin. -/
theorem C23_true_sums (p q : Nat) (sk : PrivKey) (hk : KeyPair p q sk) (lo hi : Int)
    (hhi : 0 ≤ hi) (hgap : (16 : Int) ^ (hi - lo).toNat ≤ sk.pk.n / 3 - 1)
    (splits : List (List Rat)) (sparse : Dict Nat Nat) (valid : List Bool)
    (hv : valid.length = splits.length) (hz : ZeroBins splits sparse) (ids : List Nat)
    (hids : ids.Nodup) (hne : ids ≠ []) (data : DTable K (SparseVec Cell × Nat × Nat))
    (hd : ∀ k x, data.data.get? k = some x → BinnedRow splits x.1)
    (enc : DTable K (EncNum × EncNum)) (gh : DTable K (Rat × Rat)) (hw : gh.WF)
    (hg : List.Forall₂ (fun a b => a.1 = b.1 ∧ CiphertextOf sk lo hi a.2.1 b.2.1 ∧
      CiphertextOf sk lo hi a.2.2 b.2.2) enc.data gh.data) :
    ∃ HE, getHistograms paillier splits sparse (some valid) ids data (liftGh enc) = .ok HE ∧
      ∀ (i id f b : Nat) (sp : List Rat), ids[i]? = some id → valid[f]? = some true →
        splits[f]? = some sp → b ≤ sp.length →
        ∃ eg eh, cellAt HE i f b =
            some (eg, eh, (totals (upToBin sparse f b (atNode data gh id))).2.2) ∧
          ReadsAs sk hi eg (totals (upToBin sparse f b (atNode data gh id))).1 ∧
          ReadsAs sk hi eh (totals (upToBin sparse f b (atNode data gh id))).2.1 ∧
          (upToBin sparse f b (atNode data gh id) ≠ [] → IsCipher eg ∧ IsCipher eh) := by
  obtain ⟨H, h1, _, h3⟩ := C22_histogram splits sparse valid hv hz ids hids hne data hd gh hw
  obtain ⟨HE, e1, e2⟩ := C23_follows_plain p q sk hk lo hi hhi hgap splits sparse (some valid) ids
    data enc gh hw hg H h1
  refine ⟨HE, e1, ?_⟩
  intro i id f b sp hid hval hf hb
  obtain ⟨fh, f1, _, f3⟩ := h3 i id hid
  obtain ⟨bins, g1, _, g3⟩ := f3 f sp hf
  have hcell : cellAt H i f b = some (totals (upToBin sparse f b (atNode data gh id))) := by
    unfold cellAt
    rw [f1]
    simp only [Option.bind_some]
    rw [g1]
    exact (g3 hval).2 b hb
  rcases e2 i f b with ⟨n1, _⟩ | ⟨g, h, c, eg, eh, n1, n2, n3, n4, n5⟩
  · rw [hcell] at n1; cases n1
  · rw [hcell] at n1
    have := Option.some.inj n1
    rw [this]
    refine ⟨eg, eh, n2, n3, n4, fun hne => n5 ?_⟩
    have hc : c = (totals (upToBin sparse f b (atNode data gh id))).2.2 := by rw [this]
    rw [hc]
    simp only [totals]
    intro h0
    exact hne (List.length_eq_zero_iff.mp (by exact_mod_cast h0))

private def exKey : PrivKey := ⟨⟨35⟩, 5, 7, 3, 2, 4⟩

private def exEnc (s : FP.Scalar) (draw : Int) : EncNum :=
  match encrypt exKey.pk s none draw with
  | .ok X => X
  | .error _ => ⟨⟨35⟩, 0, 0, false⟩

private def exRead : Num → Rat
  | .int z => z
  | .enc X => match decrypt exKey X with
    | .ok t => t.val
    | .error _ => 99

/-- Concrete case: two samples at one node, one feature with one split point; the entry of the
first sample is not stored.  The hypotheses hold and the key holder reads the sums. -/
example : KeyPair 5 7 exKey ∧ CiphertextOf exKey 0 0 (exEnc (.int 3) 4) 3 ∧
    CiphertextOf exKey 0 0 (exEnc (.int (-1)) 2) (-1) ∧
    (getHistograms paillier [[5]] [(0, 0)] (some [true]) [7]
        (⟨[(1, (⟨[], 1⟩, 1, 7)), (2, (⟨[(0, .bin 1)], 1⟩, 1, 7))]⟩ : DTable Nat (SparseVec Cell × Nat × Nat))
        (liftGh ⟨[(1, (exEnc (.int 3) 4, exEnc (.int (-1)) 2)),
          (2, (exEnc (.int (-1)) 2, exEnc (.int 3) 4))]⟩)).map
      (List.map (List.map (List.map fun c => (exRead c.1, exRead c.2.1, c.2.2)))) =
    .ok [[[(3, -1, 1), (2, 2, 2)]]] := by
  refine ⟨⟨by norm_num, by norm_num, by norm_num, by decide +kernel⟩,
    ⟨by decide +kernel, by decide +kernel, .enc (.int 3) none 4, ⟨?_, by simp⟩, by decide +kernel, by decide +kernel⟩,
    ⟨by decide +kernel, by decide +kernel, .enc (.int (-1)) none 2, ⟨?_, by simp⟩, by decide +kernel, by decide +kernel⟩, ?_⟩
  · rw [Int.isCoprime_iff_gcd_eq_one]; decide +kernel
  · rw [Int.isCoprime_iff_gcd_eq_one]; decide +kernel
  · decide +kernel

end Verif
