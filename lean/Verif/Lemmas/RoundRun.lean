import Verif.Lemmas.RoundGain
import Verif.Lemmas.PaillierRun
import Verif.Spec.C69

/-! # A run with rounded floats: sums, gains, histograms -/

set_option autoImplicit false

namespace Verif
namespace DTree

open Spec Histogram Paillier
open Binning (Cell SparseVec)
open Quantile (floatZero)

variable {K : Type} [DecidableEq K] {α : Type}

/-! ## Histograms -/

/-- The histogram `fh` of a node with the samples `A` is right up to `e1` and `e2`: what it offers. -/
structure NearFacts (cfg : Config) (valid : List Bool) (splits : List (List Rat)) (sparse : Dict Nat Nat)
    (A : List (SparseVec Cell × Rat × Rat)) (fh : List (List (HCell Rat))) (e1 e2 : Rat) : Prop where
  last : LastIs valid fh (fun c => c.2.2 = A.length)
  offer : ∀ (f b : Nat) (bins : List (HCell Rat)) (tot c : HCell Rat), valid[f]? = some true →
    fh[f]? = some bins → bins[b]? = some c → bins.getLast? = some tot → cfg.minSample ≤ tot.2.2 →
    cfg.minLeaf ≤ c.2.2 → cfg.minLeaf ≤ tot.2.2 - c.2.2 →
    ∃ l, OfferedOn cfg valid splits sparse A f b l ∧ |c.1 - l.1| ≤ e1 ∧ |c.2.1 - l.2| ≤ e2 ∧
      |tot.1 - (sumsOf A).1| ≤ e1 ∧ |tot.2.1 - (sumsOf A).2| ≤ e2
  cell : ∀ f b l, OfferedOn cfg valid splits sparse A f b l →
    ∃ (bins : List (HCell Rat)) (tot c : HCell Rat), valid[f]? = some true ∧ fh[f]? = some bins ∧
      bins[b]? = some c ∧ bins.getLast? = some tot ∧ cfg.minSample ≤ tot.2.2 ∧ cfg.minLeaf ≤ c.2.2 ∧
      cfg.minLeaf ≤ tot.2.2 - c.2.2 ∧ |c.1 - l.1| ≤ e1 ∧ |c.2.1 - l.2| ≤ e2 ∧
      |tot.1 - (sumsOf A).1| ≤ e1 ∧ |tot.2.1 - (sumsOf A).2| ≤ e2

theorem nodeFactsR (cfg : Config) (splits : List (List Rat)) (sparse : Dict Nat Nat)
    (valid : List Bool) (hv : valid.length = splits.length) (hz : ZeroBins splits sparse)
    (data : DTable K (SparseVec Cell × Nat × Nat))
    (hd : ∀ k x, data.data.get? k = some x → BinnedRow splits x.1) (gh : DTable K (Rat × Rat))
    (id : Nat) (fh : List (List (HCell Rat))) (e1 e2 : Rat)
    (f3 : ∀ (f : Nat) sp, splits[f]? = some sp → ∃ bins, fh[f]? = some bins ∧
      (valid[f]? = some false → bins = []) ∧
      (valid[f]? = some true → bins.length = sp.length + 1 ∧ ∀ b ≤ sp.length, ∃ c,
        bins[b]? = some c ∧ |c.1 - (totals (upToBin sparse f b (atNode data gh id))).1| ≤ e1 ∧
          |c.2.1 - (totals (upToBin sparse f b (atNode data gh id))).2.1| ≤ e2 ∧
          c.2.2 = (totals (upToBin sparse f b (atNode data gh id))).2.2)) :
    NearFacts cfg valid splits sparse (atNode data gh id) fh e1 e2 := by
  set S := atNode data gh id with hS
  have hbins : ∀ f bins, valid[f]? = some true → fh[f]? = some bins →
      ∃ sp, splits[f]? = some sp ∧ bins.length = sp.length + 1 ∧
        ∀ b ≤ sp.length, ∃ c, bins[b]? = some c ∧ |c.1 - (totals (upToBin sparse f b S)).1| ≤ e1 ∧
          |c.2.1 - (totals (upToBin sparse f b S)).2.1| ≤ e2 ∧
          c.2.2 = (totals (upToBin sparse f b S)).2.2 := by
    intro f bins hval hb
    have hf : f < splits.length := by
      rw [← hv]
      by_contra hc
      rw [List.getElem?_eq_none (by omega)] at hval
      cases hval
    obtain ⟨bins', g1, _, g3⟩ := f3 f splits[f] (List.getElem?_eq_getElem hf)
    rw [hb, Option.some.injEq] at g1
    subst g1
    exact ⟨_, List.getElem?_eq_getElem hf, g3 hval⟩
  have hlast : ∀ (f : Nat) (bins : List (HCell Rat)) (c : HCell Rat), valid[f]? = some true →
      fh[f]? = some bins → bins.getLast? = some c →
      |c.1 - (sumsOf S).1| ≤ e1 ∧ |c.2.1 - (sumsOf S).2| ≤ e2 ∧ c.2.2 = S.length := by
    intro f bins c hval hb hc
    obtain ⟨sp, s1, s2, s3⟩ := hbins f bins hval hb
    obtain ⟨c', q1, q2, q3, q4⟩ := s3 _ le_rfl
    rw [List.getLast?_eq_getElem?, s2, Nat.add_sub_cancel, q1, Option.some.injEq] at hc
    subst hc
    rw [C22_last_bin splits sparse hz f sp s1 data hd gh id] at q2 q3 q4
    exact ⟨q2, q3, q4⟩
  refine ⟨fun f bins c h1 h2 h3 => (hlast f bins c h1 h2 h3).2.2, ?_, ?_⟩
  · intro f b bins tot c a1 a2 a3 a4 a5 a6 a7
    obtain ⟨sp, s1, s2, s3⟩ := hbins f bins a1 a2
    have hb : b ≤ sp.length := by
      by_contra hcon
      rw [List.getElem?_eq_none (by omega)] at a3
      cases a3
    obtain ⟨t1, t2, t3⟩ := hlast f bins tot a1 a2 a4
    obtain ⟨c', q1, q2, q3, q4⟩ := s3 b hb
    rw [a3, Option.some.injEq] at q1
    subst q1
    refine ⟨sumsOf (upToBin sparse f b S), ⟨a1, ⟨sp, s1, hb⟩, ?_, ?_, ?_, rfl⟩, q2, q3, t1, t2⟩
    · rw [t3] at a5; exact a5
    · rw [q4] at a6; exact a6
    · rw [q4, t3] at a7
      simp only [totals] at a7
      have := count_right sparse f b S
      omega
  · rintro f b l ⟨a1, ⟨sp, a2, a3⟩, a4, a5, a6, rfl⟩
    obtain ⟨bins, g1, _, g3⟩ := f3 f sp a2
    obtain ⟨g4, g5⟩ := g3 a1
    obtain ⟨c, q1, q2, q3, q4⟩ := g5 b a3
    cases hx : bins.getLast? with
    | none => rw [List.getLast?_eq_none_iff] at hx; rw [hx] at g4; simp at g4
    | some tot =>
      obtain ⟨t1, t2, t3⟩ := hlast f bins tot a1 g1 hx
      refine ⟨bins, tot, c, a1, g1, q1, hx, ?_, ?_, ?_, q2, q3, t1, t2⟩
      · rw [t3]; exact a4
      · rw [q4]; exact a5
      · rw [q4, t3]
        have := count_right sparse f b S
        simp only [totals]
        omega

theorem atNode_sum_le (data : DTable K (SparseVec Cell × Nat × Nat)) (gh : DTable K (Rat × Rat))
    (id : Nat) (f : Rat × Rat → Rat) (hf : ∀ p, 0 ≤ f p) :
    ((atNode data gh id).map fun s => f s.2).sum ≤ (gh.data.map fun p => f p.2).sum := by
  unfold atNode
  generalize gh.data = l
  induction l with
  | nil => simp
  | cons p l ih =>
    simp only [List.filterMap_cons, List.map_cons, List.sum_cons]
    have h0 := hf p.2
    cases hd : data.data.get? p.1 with
    | none => simp only; linarith
    | some x =>
      obtain ⟨v, st, nid⟩ := x
      simp only
      by_cases hc : st ≠ 0 ∧ nid = id
      · rw [if_pos hc]
        simp only [List.map_cons, List.sum_cons]
        linarith
      · rw [if_neg hc]; simp only; linarith

theorem atNode_length_le (data : DTable K (SparseVec Cell × Nat × Nat)) (gh : DTable K (Rat × Rat))
    (id : Nat) : (atNode data gh id).length ≤ gh.data.length := List.length_filterMap_le _ _

theorem totals_abs_le (data : DTable K (SparseVec Cell × Nat × Nat)) (gh : DTable K (Rat × Rat))
    (id : Nat) (sparse : Dict Nat Nat) (f b : Nat) :
    |(totals (upToBin sparse f b (atNode data gh id))).1| ≤ (gh.data.map fun x => |x.2.1|).sum ∧
    |(totals (upToBin sparse f b (atNode data gh id))).2.1| ≤ (gh.data.map fun x => |x.2.2|).sum := by
  have bound : ∀ fn : Rat × Rat → Rat,
      |((upToBin sparse f b (atNode data gh id)).map fun s => fn s.2).sum| ≤
        (gh.data.map fun x => |fn x.2|).sum := by
    intro fn
    refine (abs_sum_abs (fun s : SparseVec Cell × Rat × Rat => fn s.2) _).trans ?_
    refine le_trans ?_ (atNode_sum_le data gh id (fun p => |fn p|) fun _ => abs_nonneg _)
    exact (List.Sublist.map _ List.filter_sublist).sum_le_sum (by
      intro x hx
      obtain ⟨k, _, rfl⟩ := List.mem_map.mp hx
      exact abs_nonneg _)
  exact ⟨bound fun x => x.1, bound fun x => x.2⟩

/-! ## Rounded decryption -/

def roundCell (rnd : Rat → Rat) (c : HCell Rat) : HCell Rat := (rnd c.1, rnd c.2.1, c.2.2)

def roundHist (rnd : Rat → Rat) (H : Hist Rat) : Hist Rat := H.map (List.map (List.map (roundCell rnd)))

theorem readable_round {rnd : Rat → Rat} {C : Cipher α} {minLeaf : Int} {E : Hist α} {H : Hist Rat}
    (h : List.Forall₂ (List.Forall₂ (List.Forall₂ (Readable C minLeaf))) E H) :
    List.Forall₂ (List.Forall₂ (List.Forall₂ (Readable (roundCipher rnd C) minLeaf))) E (roundHist rnd H) := by
  unfold roundHist
  rw [List.forall₂_map_right_iff]
  refine h.imp fun a b h => ?_
  rw [List.forall₂_map_right_iff]
  refine h.imp fun a b h => ?_
  rw [List.forall₂_map_right_iff]
  refine h.imp fun c p h => ⟨h.1, fun hm => ?_⟩
  obtain ⟨h1, h2⟩ := h.2 hm
  simp only [roundCipher, roundCell, h1, h2, Except.map, and_self]

theorem faithful_round {rnd : Rat → Rat} {C : Cipher α} {M ε δ B : Rat} (hr : RoundsWithin rnd M ε)
    (hM : B + δ ≤ M) (h : Faithful C δ B) : Faithful (roundCipher rnd C) (δ + ε) B := by
  obtain ⟨rd, h⟩ := h
  refine ⟨fun x => rnd (rd x), fun label x hx => ?_⟩
  obtain ⟨c, h1, h2, h3⟩ := h label x hx
  refine ⟨c, h1, by simp only [roundCipher, h2, Except.map], ?_⟩
  exact round_near hr h3 (by linarith)

/-! ## Sizes -/

theorem abs_sums_le {S : Setup K α} (hp : Prepared S) {A : List K} (hA : A.Nodup)
    (hk : ∀ k ∈ A, k ∈ S.gh.data.keys) (f : Rat × Rat → Rat) :
    (A.map fun k => |f (ghOf S.gh k)|).sum ≤ (S.gh.data.map fun x => |f x.2|).sum := by
  rw [← ghOf_sum hp.wf fun p => |f p|]
  obtain ⟨C, h1, h2⟩ := List.subperm_of_subset hA hk
  rw [← (h1.map _).sum_eq]
  exact (h2.map _).sum_le_sum (by
    intro x hx
    obtain ⟨k, _, rfl⟩ := List.mem_map.mp hx
    exact abs_nonneg _)

theorem sumKeys_abs_le {S : Setup K α} (hp : Prepared S) {A : List K} (hA : A.Nodup)
    (hk : ∀ k ∈ A, k ∈ S.gh.data.keys) :
    |(sumKeys S.gh A).1| ≤ (S.gh.data.map fun x => |x.2.1|).sum ∧
    |(sumKeys S.gh A).2| ≤ (S.gh.data.map fun x => |x.2.2|).sum :=
  ⟨(abs_sum_abs _ A).trans (abs_sums_le hp hA hk fun p => p.1),
    (abs_sum_abs _ A).trans (abs_sums_le hp hA hk fun p => p.2)⟩

/-! ## Gains -/

section
variable {p q : Nat} {sk : PrivKey} {lo hi : Int} {m eg eh : Rat} {bins : Nat} {M ε : Rat}
  {S : Setup K Histogram.Num}

theorem RoundedRun.nonneg (hr : RoundedRun p q sk lo hi m eg eh bins M ε S) :
    ε ≤ sumError S bins ε eg ∧ ε ≤ sumError S bins ε eh ∧
    S.gh.data.length * eg + (3 * S.gh.data.length + bins + 2) * ε = sumError S bins ε eg - ε ∧
    S.gh.data.length * eh + (3 * S.gh.data.length + bins + 2) * ε = sumError S bins ε eh - ε := by
  have h1 := hr.errors
  have h2 := hr.eps
  have hn : (0 : Rat) ≤ S.gh.data.length := by positivity
  have hb : (0 : Rat) ≤ bins := by positivity
  have a1 := mul_nonneg hn h1.1
  have a2 := mul_nonneg hn h1.2
  have a3 := mul_nonneg hn h2
  have a4 := mul_nonneg hb h2
  unfold sumError
  refine ⟨?_, ?_, ?_, ?_⟩ <;> nlinarith

theorem gain_run (hp : Prepared S) (hu : Usual S m) (hr : RoundedRun p q sk lo hi m eg eh bins M ε S)
    {A : List K} (hA : A.Nodup) (hk : ∀ k ∈ A, k ∈ S.gh.data.keys) {j : Option Nat} {f b : Nat} {l0 : Rat × Rat}
    (ho : OfferAt S A j f b l0) {s l : Rat × Rat}
    (hs1 : |s.1 - (sumKeys S.gh A).1| ≤ S.maxDepth * sumError S bins ε eg)
    (hs2 : |s.2 - (sumKeys S.gh A).2| ≤ S.maxDepth * sumError S bins ε eh)
    (hl1 : |l.1 - l0.1| ≤ sumError S bins ε eg - ε) (hl2 : |l.2 - l0.2| ≤ sumError S bins ε eh - ε) :
    ∃ x, gainRun S.cfg s l = .ok x ∧
      |x - gain S.cfg.regLambda (sumKeys S.gh A) l0| ≤ roundedShift S bins m ε eg eh ∧
      |x| ≤ gainRange S bins m ε eg := by
  obtain ⟨P, sp, hP, _, _, _, _, o2, o3, hl0⟩ := ho
  have kl : ∀ k ∈ A.filter fun k => decide (binAt P f k ≤ (b : Rat)), k ∈ S.gh.data.keys :=
    fun k h => hk k (List.mem_of_mem_filter h)
  have kr : ∀ k ∈ A.filter fun k => decide ((b : Rat) < binAt P f k), k ∈ S.gh.data.keys :=
    fun k h => hk k (List.mem_of_mem_filter h)
  have hl := sumKeys_hess hu kl (filter_ne_nil hu.leaf o2)
  have hR := sumKeys_hess hu kr (filter_ne_nil hu.leaf o3)
  have hAne : A ≠ [] := by
    intro h; apply filter_ne_nil hu.leaf o2; rw [h]; rfl
  have ha := sumKeys_hess hu hk hAne
  have bl := sumKeys_abs_le hp (hA.filter _) kl
  have br := sumKeys_abs_le hp (hA.filter _) kr
  have ba := sumKeys_abs_le hp hA hk
  have hsp := side_split (S := S) A P f b
  rw [hsp] at hR br
  rw [← hl0] at hl hR bl br
  simp only at hR br
  have hm := hu.hess.1
  obtain ⟨w1, w2, _, _⟩ := RoundedRun.nonneg hr
  have hε := hr.eps
  obtain ⟨z1, z2⟩ := hr.sizes
  have hgr : gradRange S bins ε eg = (S.gh.data.map fun x => |x.2.1|).sum + (S.maxDepth + 1) * sumError S bins ε eg := rfl
  have hhr : hessRange S bins ε eh = (S.gh.data.map fun x => |x.2.2|).sum + S.cfg.regLambda +
    (S.maxDepth + 1) * sumError S bins ε eh := rfl
  have hG0 : 0 ≤ (S.gh.data.map fun x => |x.2.1|).sum := le_trans (abs_nonneg _) ba.1
  have hH0 : 0 ≤ (S.gh.data.map fun x => |x.2.2|).sum := le_trans (abs_nonneg _) ba.2
  have hD : (0 : Rat) ≤ S.maxDepth := by positivity
  have y1 : 0 ≤ (S.maxDepth + 1) * sumError S bins ε eg := mul_nonneg (by linarith) (by linarith)
  have y2 : 0 ≤ (S.maxDepth + 1) * sumError S bins ε eh := mul_nonneg (by linarith) (by linarith)
  have hlam := hu.lam
  have hbig := hr.gains
  have hle : 3 * (2 * (gradRange S bins ε eg ^ 2 + ε) / m) + 5 * ε ≤ gainRange S bins m ε eg := le_max_left _ _
  obtain ⟨x, x1, x2, x3⟩ := gainRun_near (cfg := S.cfg) (s := s) (s0 := sumKeys S.gh A) (l := l) (l0 := l0)
    (G := gradRange S bins ε eg) (a := (S.maxDepth + 1) * sumError S bins ε eg)
    (b := (S.maxDepth + 1) * sumError S bins ε eh) (M := M) hm hε hr.rounds (by linarith) (by linarith)
    (by rw [hgr]; linarith [bl.1]) (by rw [hgr]; linarith [br.1]) (by rw [hgr]; linarith [ba.1]) hl hR ha hr.room
    (by linarith) hr.square
    (by linarith [le_abs_self l0.2, bl.2]) (by linarith [br.2])
    (by linarith [le_abs_self ((sumKeys S.gh A).2 - l0.2), br.2])
    (by linarith [le_abs_self (sumKeys S.gh A).2, ba.2]) (by linarith)
  refine ⟨x, x1, ?_, x3.trans hle⟩
  unfold roundedShift
  unfold scoreErr at x2
  exact x2

/-- What the hosts' ciphertexts stand for, and how the guest reads their histograms. -/
theorem rounded_reads (hp : Prepared S) (hu : Usual S m) (hr : RoundedRun p q sk lo hi m eg eh bins M ε S) :
    ∃ gh' : DTable K (Rat × Rat), Close gh' S.gh (S.gh.data.length * eg) (S.gh.data.length * eh) ∧
      (gh'.data.map fun x => |x.2.1|).sum ≤ M ∧ (gh'.data.map fun x => |x.2.2|).sum ≤ M ∧
      (∀ d b, Faithful (S.cipher d b) (roundedError S bins m ε eg) (gainRange S bins m ε eg)) ∧
      ∀ d b (H : Share K) ids Hp, getHistograms plain H.splits H.sparse (some H.valid) ids H.data gh' = .ok Hp →
        (∀ fh ∈ Hp, ∀ bins ∈ fh, ∀ c ∈ bins, |c.1| ≤ (gh'.data.map fun x => |x.2.1|).sum ∧
          |c.2.1| ≤ (gh'.data.map fun x => |x.2.2|).sum) →
        ∃ HE, getHistograms S.arith H.splits H.sparse (some H.valid) ids H.data S.encGh = .ok HE ∧
          List.Forall₂ (List.Forall₂ (List.Forall₂ (Readable (S.cipher d b) S.cfg.minLeaf))) HE
            (roundHist S.cfg.rnd Hp) := by
  obtain ⟨draw, hdraw, hcipher⟩ := hr.cipher
  obtain ⟨enc, henc, hencs⟩ := hr.enc
  obtain ⟨gh', g1, g2⟩ := encrypted_values hencs
  have hc : Close ⟨gh'⟩ S.gh (S.gh.data.length * eg) (S.gh.data.length * eh) := close_of hp.wf hr.errors g2
  have h16 : (0 : Rat) ≤ (16 : Rat) ^ hi := zpow_nonneg (by norm_num) _
  have hw' : (⟨gh'⟩ : DTable K (Rat × Rat)).WF := by unfold DTable.WF Dict.WF; rw [hc.keys]; exact hp.wf
  have b1 := sum_abs_close (f := fun x => x.2.1) (fun a b h => h.2.1) g2
  have b2 := sum_abs_close (f := fun x => x.2.2) (fun a b h => h.2.2) g2
  obtain ⟨w1, w2, w3, w4⟩ := RoundedRun.nonneg hr
  obtain ⟨z1, z2⟩ := hr.sizes
  have hε := hr.eps
  have hD : (0 : Rat) ≤ S.maxDepth := by positivity
  have hG0 : 0 ≤ (S.gh.data.map fun x => |x.2.1|).sum := List.sum_nonneg (by
    intro x hx; obtain ⟨y, _, rfl⟩ := List.mem_map.mp hx; exact abs_nonneg _)
  have hH0 : 0 ≤ (S.gh.data.map fun x => |x.2.2|).sum := List.sum_nonneg (by
    intro x hx; obtain ⟨y, _, rfl⟩ := List.mem_map.mp hx; exact abs_nonneg _)
  have y1 : 0 ≤ S.maxDepth * sumError S bins ε eg := mul_nonneg hD (by linarith)
  have y2 : 0 ≤ S.maxDepth * sumError S bins ε eh := mul_nonneg hD (by linarith)
  have q1 : (0 : Rat) ≤ (3 * S.gh.data.length + bins + 2) * ε := by positivity
  have hgr : gradRange S bins ε eg = (S.gh.data.map fun x => |x.2.1|).sum + (S.maxDepth + 1) * sumError S bins ε eg := rfl
  have hhr : hessRange S bins ε eh = (S.gh.data.map fun x => |x.2.2|).sum + S.cfg.regLambda +
    (S.maxDepth + 1) * sumError S bins ε eh := rfl
  have hlam := hu.lam
  refine ⟨⟨gh'⟩, hc, ?_, ?_, fun d b => ?_, fun d b H ids Hp h1 h2 => ?_⟩
  · refine b1.trans ?_
    linarith
  · refine b2.trans ?_
    linarith
  · rw [hcipher]
    have hac := hr.accuracy
    have hg := hr.gains
    have hf := paillier_faithful p q sk hr.key hr.big _ (hdraw d b) (gainRange S bins m ε eg)
    unfold roundedError at hac ⊢
    exact faithful_round hr.rounds (by
      have : (1 : Rat) / 10 ^ 6 ≤ 1 := by norm_num
      linarith) hf
  · rw [hr.arith, henc, hcipher]
    obtain ⟨HE, e1, e2⟩ := paillier_reads p q sk hr.key lo hi hr.hi0 hr.gap (draw d b) S.cfg hu.leaf H ids enc ⟨gh'⟩ hw' g1
      (le_trans (mul_le_mul_of_nonneg_right b1 h16) hr.windowG)
      (le_trans (mul_le_mul_of_nonneg_right b2 h16) hr.windowH) Hp h1 h2
    exact ⟨HE, e1, readable_round e2⟩

end

end DTree
end Verif
