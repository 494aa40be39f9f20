import Verif.Lemmas.C10
import Verif.Spec.C11

set_option autoImplicit false

namespace Verif
open Paillier Spec

/-- `X` encrypts, under key `k`, the rational `v` at its own exponent. -/
def Rep11 (k : PubKey) (X : EncNum) (v : Rat) : Prop :=
  X.pk = k ∧ ∃ m : Int, IsEnc k.n m X.cipher ∧ v = m * (16 : Rat) ^ (-X.exponent)

theorem aux11_canAlign (n e1 e2 : Int) : Spec.canAlign n e1 e2 = true ↔ GapOk n e1 e2 := by
  unfold canAlign GapOk; simp

theorem aux11_encoded_some {n : Int} {s : FP.Scalar} {me : Option Int}
    {f : FP.Num} (hf : FP.encode s n (n / 3 - 1) me = .ok f) {i : Int}
    (hi : FP.mantissa f = .ok i) :
    encoded n s me = some ((i : Rat) * (16 : Rat) ^ (-f.exponent), f.exponent) := by
  unfold encoded
  rw [hf]
  have : FP.decode f = .ok (FP.scale i f.exponent) := (FP.decode_ok_iff _ _).mpr ⟨i, hi, rfl⟩
  simp only [this]
  rw [FP.scale_val]

theorem aux11_encoded_none {n : Int} {s : FP.Scalar} {me : Option Int} {e : PyErr}
    (hf : FP.encode s n (n / 3 - 1) me = .error e) : encoded n s me = none := by
  unfold encoded; rw [hf]

/-- The relation between the outcome on ciphertexts and the exact outcome. -/
def Sim11 (k : PubKey) (out : Except PyErr EncNum) (ref : Option (Rat × Int)) : Prop :=
  match out, ref with
  | .ok X, some (v, e) => X.exponent = e ∧ Rep11 k X v
  | .error _, none => True
  | _, _ => False

theorem aux11_add (k : PubKey) (hn : 1 < k.n) (X Y : EncNum) (v w : Rat)
    (hX : Rep11 k X v) (hY : Rep11 k Y w) :
    Sim11 k (Paillier.add X Y) (plainAdd k.n (v, X.exponent) (w, Y.exponent)) := by
  obtain ⟨hpx, mx, hex, hvx⟩ := hX
  obtain ⟨hpy, my, hey, hvy⟩ := hY
  unfold plainAdd
  by_cases hg : GapOk k.n X.exponent Y.exponent
  · rw [if_pos ((aux11_canAlign _ _ _).mpr hg)]
    obtain ⟨Z, hZ, hpz, hexp, henc⟩ := add_isEnc X Y (by rw [hpx, hpy]) (by rw [hpx]; exact hn)
      (by rw [hpx]; exact hex) (by rw [hpy]; exact hey) (by rw [hpx]; exact hg)
    rw [hZ]
    refine ⟨hexp, by rw [hpz, hpx], _, by rw [hpx] at henc; exact henc, ?_⟩
    rw [hexp]
    have h1 := FP.shift_val mx X.exponent (max X.exponent Y.exponent) (le_max_left _ _)
    have h2 := FP.shift_val my Y.exponent (max X.exponent Y.exponent) (le_max_right _ _)
    rw [Int.cast_add, add_mul, h1, h2, hvx, hvy]
  · rw [if_neg (by rw [aux11_canAlign]; exact hg)]
    rw [add_error X Y (by rw [hpx, hpy]) (by rw [hpx]; exact hg)]
    trivial

theorem aux11_addScalar (k : PubKey) (hn : 1 < k.n) (X : EncNum) (v : Rat) (s : FP.Scalar)
    (hX : Rep11 k X v) :
    Sim11 k (Paillier.addScalar X s)
      (do let y ← encoded k.n s (some X.exponent); plainAdd k.n (v, X.exponent) y) := by
  obtain ⟨hpx, mx, hex, hvx⟩ := hX
  cases hf : FP.encode s k.n k.maxInt (some X.exponent) with
  | error e =>
    rw [aux11_encoded_none hf, addScalar_error X s (by rw [hpx]; exact hf)]
    trivial
  | ok f =>
    obtain ⟨e, i, _, _, _, _, _, _, _, hm, _⟩ :=
      FP.encode_decode s k.n k.maxInt (window _ (by omega)) _ f hf
    rw [aux11_encoded_some hf hm]
    simp only [bind, Option.bind]
    unfold plainAdd
    by_cases hg : GapOk k.n X.exponent f.exponent
    · rw [if_pos ((aux11_canAlign _ _ _).mpr hg)]
      obtain ⟨Z, j, hZ, hpz, hexp, hle, hj, henc⟩ := addScalar_isEnc X (by rw [hpx]; exact hn)
        (by rw [hpx]; exact hex) s (by rw [hpx]; exact hf) (by rw [hpx]; exact hg)
      rw [hm] at hj; cases hj
      rw [hZ]
      refine ⟨by rw [hexp]; omega, by rw [hpz, hpx], _, by rw [hpx] at henc; exact henc, ?_⟩
      rw [hexp]
      have h1 := FP.shift_val mx X.exponent f.exponent hle
      rw [Int.cast_add, add_mul, h1, hvx]
    · rw [if_neg (by rw [aux11_canAlign]; exact hg)]
      rw [addScalar_error_gap X (by rw [hpx]; omega) s (by rw [hpx]; exact hf)
        (by rw [hpx]; exact hg)]
      trivial

theorem aux11_neg (k : PubKey) (hn : 6 ≤ k.n) (X : EncNum) (v : Rat) (hX : Rep11 k X v) :
    ∃ Y, mul X (.int (-1)) = .ok Y ∧ Y.exponent = X.exponent ∧ Rep11 k Y (-v) := by
  obtain ⟨hpx, mx, hex, hvx⟩ := hX
  obtain ⟨Y, hY, hpk, hexp, henc⟩ := mul_int_isEnc X (by rw [hpx]; omega)
    (by rw [hpx]; exact hex) (-1) (by rw [hpx]; unfold PubKey.maxInt; simp; omega)
  refine ⟨Y, hY, hexp, by rw [hpk, hpx], _, by rw [hpx] at henc; exact henc, ?_⟩
  rw [hexp, hvx]; push_cast; ring

theorem aux11_sim (k : PubKey) (hn : 6 ≤ k.n) (e : Expr) (hu : e.Usable k.n) :
    Sim11 k (e.run k) (e.plain k.n) := by
  induction e with
  | enc s rv d =>
    unfold Expr.run Expr.plain
    obtain ⟨hd, hrv⟩ := hu
    cases hf : FP.encode s k.n k.maxInt none with
    | error e =>
      rw [aux11_encoded_none hf]
      unfold encrypt; rw [hf]; trivial
    | ok f =>
      obtain ⟨X, hX, hpk, hexp, i, hi, henc⟩ := encrypt_isEnc k (by omega) s rv d hd hrv hf
      rw [aux11_encoded_some hf hi, hX]
      exact ⟨hexp, hpk, i, henc, by rw [hexp]⟩
  | obfuscate a d ih =>
    have := ih hu.1
    unfold Expr.run Expr.plain
    cases hr : a.run k with
    | error e => rw [hr] at this; cases hp : a.plain k.n <;> rw [hp] at this <;> simp_all [Sim11, bind, Except.bind]
    | ok X =>
      rw [hr] at this
      cases hp : a.plain k.n with
      | none => rw [hp] at this; exact this.elim
      | some w =>
        rw [hp] at this
        obtain ⟨h1, hpk, m, hm, hv⟩ := this
        refine ⟨h1, hpk, m, ?_, hv⟩
        have := applyObfuscator_isEnc (k := X.pk) (by rw [hpk]; exact hm) none d
          (by rw [hpk]; exact hu.2)
        rw [hpk] at this
        simpa [EncNum.obfuscate, hpk] using this
  | add a b iha ihb =>
    have ha := iha hu.1
    have hb := ihb hu.2
    unfold Expr.run Expr.plain
    cases hra : a.run k with
    | error e => rw [hra] at ha; cases hp : a.plain k.n <;> rw [hp] at ha <;> simp_all [Sim11, bind, Except.bind, Option.bind]
    | ok X =>
      rw [hra] at ha
      cases hpa : a.plain k.n with
      | none => rw [hpa] at ha; exact ha.elim
      | some v =>
        rw [hpa] at ha
        cases hrb : b.run k with
        | error e => rw [hrb] at hb; cases hp : b.plain k.n <;> rw [hp] at hb <;> simp_all [Sim11, bind, Except.bind, Option.bind]
        | ok Y =>
          rw [hrb] at hb
          cases hpb : b.plain k.n with
          | none => rw [hpb] at hb; exact hb.elim
          | some w =>
            rw [hpb] at hb
            obtain ⟨v, ev⟩ := v
            obtain ⟨w, ew⟩ := w
            obtain ⟨rfl, hX⟩ := ha
            obtain ⟨rfl, hY⟩ := hb
            exact aux11_add k (by omega) X Y v w hX hY
  | addScalar a s iha =>
    have ha := iha hu
    unfold Expr.run Expr.plain
    cases hra : a.run k with
    | error e => rw [hra] at ha; cases hp : a.plain k.n <;> rw [hp] at ha <;> simp_all [Sim11, bind, Except.bind, Option.bind]
    | ok X =>
      rw [hra] at ha
      cases hpa : a.plain k.n with
      | none => rw [hpa] at ha; exact ha.elim
      | some v =>
        rw [hpa] at ha
        obtain ⟨v, ev⟩ := v
        obtain ⟨rfl, hX⟩ := ha
        exact aux11_addScalar k (by omega) X v s hX
  | sub a b iha ihb =>
    have ha := iha hu.1
    have hb := ihb hu.2
    unfold Expr.run Expr.plain
    cases hra : a.run k with
    | error e => rw [hra] at ha; cases hp : a.plain k.n <;> rw [hp] at ha <;> simp_all [Sim11, bind, Except.bind, Option.bind]
    | ok X =>
      rw [hra] at ha
      cases hpa : a.plain k.n with
      | none => rw [hpa] at ha; exact ha.elim
      | some v =>
        rw [hpa] at ha
        cases hrb : b.run k with
        | error e => rw [hrb] at hb; cases hp : b.plain k.n <;> rw [hp] at hb <;> simp_all [Sim11, bind, Except.bind, Option.bind]
        | ok Y =>
          rw [hrb] at hb
          cases hpb : b.plain k.n with
          | none => rw [hpb] at hb; exact hb.elim
          | some w =>
            rw [hpb] at hb
            obtain ⟨v, ev⟩ := v
            obtain ⟨w, ew⟩ := w
            obtain ⟨rfl, hX⟩ := ha
            obtain ⟨rfl, hY⟩ := hb
            obtain ⟨Y', hY', hexp, hrep⟩ := aux11_neg k hn Y w hY
            have := aux11_add k (by omega) X Y' v (-w) hX hrep
            simp only [bind, Except.bind, Option.bind, Paillier.sub, hY']
            rw [hexp] at this
            exact this
  | subScalar a s iha =>
    have ha := iha hu
    unfold Expr.run Expr.plain
    cases hra : a.run k with
    | error e => rw [hra] at ha; cases hp : a.plain k.n <;> rw [hp] at ha <;> simp_all [Sim11, bind, Except.bind, Option.bind]
    | ok X =>
      rw [hra] at ha
      cases hpa : a.plain k.n with
      | none => rw [hpa] at ha; exact ha.elim
      | some v =>
        rw [hpa] at ha
        obtain ⟨v, ev⟩ := v
        obtain ⟨rfl, hX⟩ := ha
        exact aux11_addScalar k (by omega) X v s.neg hX
  | rsubScalar s a iha =>
    have ha := iha hu
    unfold Expr.run Expr.plain
    cases hra : a.run k with
    | error e => rw [hra] at ha; cases hp : a.plain k.n <;> rw [hp] at ha <;> simp_all [Sim11, bind, Except.bind, Option.bind]
    | ok X =>
      rw [hra] at ha
      cases hpa : a.plain k.n with
      | none => rw [hpa] at ha; exact ha.elim
      | some v =>
        rw [hpa] at ha
        obtain ⟨v, ev⟩ := v
        obtain ⟨rfl, hX⟩ := ha
        obtain ⟨Y', hY', hexp, hrep⟩ := aux11_neg k hn X v hX
        have := aux11_addScalar k (by omega) Y' (-v) s hrep
        simp only [bind, Except.bind, Option.bind, Paillier.rsubScalar, hY']
        rw [hexp] at this
        exact this
  | mulScalar a s iha =>
    have ha := iha hu
    unfold Expr.run Expr.plain
    cases hra : a.run k with
    | error e => rw [hra] at ha; cases hp : a.plain k.n <;> rw [hp] at ha <;> simp_all [Sim11, bind, Except.bind, Option.bind]
    | ok X =>
      rw [hra] at ha
      cases hpa : a.plain k.n with
      | none => rw [hpa] at ha; exact ha.elim
      | some v =>
        rw [hpa] at ha
        obtain ⟨v, ev⟩ := v
        obtain ⟨rfl, hpx, m, hm, hv⟩ := ha
        simp only [bind, Except.bind, Option.bind]
        cases hf : FP.encode s k.n k.maxInt none with
        | error e =>
          rw [aux11_encoded_none hf, mul_error X s (by rw [hpx]; exact hf)]
          trivial
        | ok f =>
          obtain ⟨Y, hY, hpk, hexp, i, hi, henc⟩ := mul_isEnc X (by rw [hpx]; omega)
            (by rw [hpx]; exact hm) s (by rw [hpx]; exact hf)
          rw [aux11_encoded_some hf hi, hY]
          refine ⟨hexp, by rw [hpk, hpx], _, by rw [hpx] at henc; exact henc, ?_⟩
          rw [hexp, hv, neg_add, zpow_add₀ (by norm_num)]
          push_cast; ring


end Verif
