import Verif.Lemmas.Greedy

/-! # Sums that are off by the error of the encoding -/

set_option autoImplicit false

namespace Verif
namespace DTree

open Spec Histogram
open Binning (Cell SparseVec)

variable {K : Type} [DecidableEq K] {α : Type}

/-- `gh'` has the samples of `gh`, and sums over samples differ by at most `Eg` and `Eh`. -/
structure Close (gh' gh : DTable K (Rat × Rat)) (Eg Eh : Rat) : Prop where
  keys : gh'.data.keys = gh.data.keys
  nonneg : 0 ≤ Eg ∧ 0 ≤ Eh
  sums : ∀ B : List K, B.Nodup → (∀ k ∈ B, k ∈ gh.data.keys) →
    |(sumKeys gh' B).1 - (sumKeys gh B).1| ≤ Eg ∧ |(sumKeys gh' B).2 - (sumKeys gh B).2| ≤ Eh

theorem Close.refl (gh : DTable K (Rat × Rat)) : Close gh gh 0 0 :=
  ⟨rfl, ⟨le_refl _, le_refl _⟩, fun B _ _ => by simp⟩

omit [DecidableEq K] in
theorem sum_diff_le (f g : K → Rat) (e : Rat) : ∀ B : List K, (∀ k ∈ B, |f k - g k| ≤ e) →
    |(B.map f).sum - (B.map g).sum| ≤ B.length * e
  | [], _ => by simp
  | k :: B, h => by
    have h1 := h k (by simp)
    have h2 := sum_diff_le f g e B fun x hx => h x (by simp [hx])
    simp only [List.map_cons, List.sum_cons, List.length_cons]
    have h3 : f k + (B.map f).sum - (g k + (B.map g).sum) = (f k - g k) + ((B.map f).sum - (B.map g).sum) := by ring
    rw [h3]
    refine (abs_add_le _ _).trans ?_
    push_cast
    linarith

omit [DecidableEq K] in
theorem keys_of_forall₂ {V W : Type} {r : K × V → K × W → Prop} (hr : ∀ a b, r a b → a.1 = b.1) :
    ∀ {l : List (K × V)} {l' : List (K × W)}, List.Forall₂ r l l' → Dict.keys l = Dict.keys l'
  | _, _, .nil => rfl
  | _, _, .cons h t => by
    have := keys_of_forall₂ hr t
    unfold Dict.keys at this ⊢
    rw [List.map_cons, List.map_cons, this, hr _ _ h]

/-- Tables that agree up to `eg` and `eh` for every sample. -/
theorem close_of {gh' gh : DTable K (Rat × Rat)} (hw : gh.WF) {eg eh : Rat} (he : 0 ≤ eg ∧ 0 ≤ eh)
    (h : List.Forall₂ (fun a b => a.1 = b.1 ∧ |a.2.1 - b.2.1| ≤ eg ∧ |a.2.2 - b.2.2| ≤ eh) gh'.data gh.data) :
    Close gh' gh (gh.data.length * eg) (gh.data.length * eh) := by
  have hkeys := keys_of_forall₂ (fun a b h => h.1) h
  have hw' : gh'.WF := by unfold DTable.WF Dict.WF; rw [hkeys]; exact hw
  have hval : ∀ k ∈ gh.data.keys, |(ghOf gh' k).1 - (ghOf gh k).1| ≤ eg ∧ |(ghOf gh' k).2 - (ghOf gh k).2| ≤ eh := by
    intro k hk
    have h2 := ghOf_mem hk
    obtain ⟨i, hi⟩ := List.mem_iff_getElem?.mp h2
    obtain ⟨hil, hi'⟩ := List.getElem?_eq_some_iff.mp hi
    have hl : i < gh'.data.length := by rw [h.length_eq]; exact hil
    have h3 := List.Forall₂.get h hl hil
    simp only [List.get_eq_getElem, hi'] at h3
    have h4 : ghOf gh' k = gh'.data[i].2 := by
      unfold ghOf
      have h5 : gh'.data.get? gh'.data[i].1 = some gh'.data[i].2 := Dict.get?_of_mem hw' (List.getElem_mem hl)
      rw [← h3.1, h5]
      rfl
    rw [h4]
    exact h3.2
  refine ⟨hkeys, ⟨by have := he.1; positivity, by have := he.2; positivity⟩, fun B hB hk => ?_⟩
  have hlen : (B.length : Rat) ≤ gh.data.length := by
    have h1 : B.length ≤ gh.data.keys.length := (List.subperm_of_subset hB hk).length_le
    unfold Dict.keys at h1
    rw [List.length_map] at h1
    exact_mod_cast h1
  constructor
  · refine (sum_diff_le _ _ eg B fun k h => (hval k (hk k h)).1).trans ?_
    exact mul_le_mul_of_nonneg_right hlen he.1
  · refine (sum_diff_le _ _ eh B fun k h => (hval k (hk k h)).2).trans ?_
    exact mul_le_mul_of_nonneg_right hlen he.2

/-- The hosts see `gh'`; every level adds an error of at most `Eg` and `Eh` to the sums of nodes. -/
def encView (S : Setup K α) (gh' : DTable K (Rat × Rat)) (Eg Eh : Rat) : View K :=
  ⟨gh', fun d A s => A.Nodup ∧ |s.1 - (sumKeys S.gh A).1| ≤ d * Eg ∧ |s.2 - (sumKeys S.gh A).2| ≤ d * Eh⟩

theorem offer_close {S : Setup K α} {gh' : DTable K (Rat × Rat)} {Eg Eh : Rat} (hc : Close gh' S.gh Eg Eh)
    {V : View K} (hV : V.gh = gh') {A : List K} (hA : A.Nodup) (hk : ∀ k ∈ A, k ∈ S.gh.data.keys)
    {j : Option Nat} {f b : Nat} {l : Rat × Rat} {P : Party K} (ho : OfferWith S V A j f b l)
    (hP : partyAt S j = some P) :
    |l.1 - (sumKeys S.gh (A.filter fun k => decide (binAt P f k ≤ (b : Rat)))).1| ≤ Eg ∧
    |l.2 - (sumKeys S.gh (A.filter fun k => decide (binAt P f k ≤ (b : Rat)))).2| ≤ Eh := by
  obtain ⟨P', sp, o1, _, _, _, _, _, _, o4⟩ := ho
  rw [hP, Option.some.injEq] at o1
  subst o1
  cases j with
  | none =>
    simp only [seenBy] at o4
    rw [o4]
    simpa using hc.nonneg
  | some j =>
    simp only [seenBy, hV] at o4
    rw [o4]
    exact hc.sums _ (hA.filter _) fun k h => hk k (List.mem_of_mem_filter h)

theorem side_split {S : Setup K α} (A : List K) (P : Party K) (f b : Nat) :
    sumKeys S.gh (A.filter fun k => decide ((b : Rat) < binAt P f k)) =
    ((sumKeys S.gh A).1 - (sumKeys S.gh (A.filter fun k => decide (binAt P f k ≤ (b : Rat)))).1,
      (sumKeys S.gh A).2 - (sumKeys S.gh (A.filter fun k => decide (binAt P f k ≤ (b : Rat)))).2) :=
  sumKeys_filter S.gh A _ _ fun k => by simp [← not_le]

theorem steady_enc {S : Setup K α} {m : Rat} (hp : Prepared S) (hu : Usual S m)
    {gh' : DTable K (Rat × Rat)} {Eg Eh : Rat} (hc : Close gh' S.gh Eg Eh)
    (hroom : S.maxDepth * Eh ≤ m / 2) : Steady S (encView S gh' Eg Eh) := by
  have hm := hu.hess.1
  refine ⟨⟨hp.wf, by simp⟩, fun d A s j f b l P _ hA hn ho hP => ?_, fun d A s hd hA hne hn => ?_⟩
  · obtain ⟨n0, n1, n2⟩ := hn
    obtain ⟨c1, c2⟩ := offer_close hc rfl n0 hA ho hP
    have hsp := side_split (S := S) A P f b
    have hE := hc.nonneg
    have hd : (0 : Rat) ≤ d := by positivity
    refine ⟨⟨n0.filter _, c1.trans ?_, c2.trans ?_⟩, n0.filter _, ?_, ?_⟩
    · push_cast; nlinarith
    · push_cast; nlinarith
    · rw [hsp]
      push_cast
      rw [abs_le] at n1 c1 ⊢
      constructor <;> linarith
    · rw [hsp]
      push_cast
      rw [abs_le] at n2 c2 ⊢
      constructor <;> linarith
  · obtain ⟨_, _, n2⟩ := hn
    have h := sumKeys_hess hu hA hne
    have hE := hc.nonneg.2
    have h2 : (d : Rat) * Eh ≤ S.maxDepth * Eh :=
      mul_le_mul_of_nonneg_right (by exact_mod_cast hd) hE
    rw [abs_le] at n2
    intro h0
    linarith

theorem gain_le {a b c x y z g m : Rat} (hm : 0 < m) (hx : m / 2 ≤ x) (hy : m / 2 ≤ y) (hz : m / 2 ≤ z)
    (hab : |a| + |b| ≤ g) (hcg : |c| ≤ g) : |a ^ 2 / x + b ^ 2 / y - c ^ 2 / z| ≤ 2 * g ^ 2 / m := by
  have hm2 : 0 < m / 2 := by linarith
  have hg : 0 ≤ g := le_trans (abs_nonneg c) hcg
  have hq : ∀ t w : Rat, m / 2 ≤ w → t ^ 2 / w ≤ t ^ 2 / (m / 2) := fun t w h =>
    div_le_div_of_nonneg_left (sq_nonneg t) hm2 h
  have hq0 : ∀ t w : Rat, m / 2 ≤ w → 0 ≤ t ^ 2 / w := fun t w h =>
    div_nonneg (sq_nonneg t) (by linarith)
  have e : 2 * g ^ 2 / m = g ^ 2 / (m / 2) := by field_simp
  rw [e, abs_le]
  have h1 : a ^ 2 / (m / 2) + b ^ 2 / (m / 2) ≤ g ^ 2 / (m / 2) := by
    rw [← add_div]
    apply div_le_div_of_nonneg_right _ hm2.le
    have := abs_nonneg a
    have := abs_nonneg b
    have ha := sq_abs a
    have hb := sq_abs b
    nlinarith
  have h2 : c ^ 2 / (m / 2) ≤ g ^ 2 / (m / 2) := by
    apply div_le_div_of_nonneg_right _ hm2.le
    rw [← sq_abs c]
    exact pow_le_pow_left₀ (abs_nonneg c) hcg 2
  have := hq a x hx; have := hq b y hy; have := hq c z hz
  have := hq0 a x hx; have := hq0 b y hy; have := hq0 c z hz
  constructor <;> linarith

theorem abs_sum_le {S : Setup K α} (hp : Prepared S) {A : List K} (hA : A.Nodup)
    (hk : ∀ k ∈ A, k ∈ S.gh.data.keys) :
    (A.map fun k => |(ghOf S.gh k).1|).sum ≤ (S.gh.data.map fun x => |x.2.1|).sum := by
  rw [← ghOf_sum hp.wf fun p => |p.1|]
  obtain ⟨C, h1, h2⟩ := List.subperm_of_subset hA hk
  rw [← (h1.map _).sum_eq]
  exact (h2.map _).sum_le_sum (by
    intro x hx
    obtain ⟨k, _, rfl⟩ := List.mem_map.mp hx
    exact abs_nonneg _)

omit [DecidableEq K] in
theorem abs_sum_abs (f : K → Rat) : ∀ A : List K, |(A.map f).sum| ≤ (A.map fun k => |f k|).sum
  | [] => by simp
  | k :: A => by
    have := abs_sum_abs f A
    simp only [List.map_cons, List.sum_cons]
    exact (abs_add_le _ _).trans (by linarith)

omit [DecidableEq K] in
theorem filter_split (p q : K → Bool) (h : ∀ k, q k = !p k) (f : K → Rat) : ∀ A : List K,
    ((A.filter p).map f).sum + ((A.filter q).map f).sum = (A.map f).sum
  | [] => by simp
  | k :: A => by
    have ih := filter_split p q h f A
    by_cases hk : p k = true
    · rw [List.filter_cons_of_pos hk, List.filter_cons_of_neg (by rw [h, hk]; simp)]
      simp only [List.map_cons, List.sum_cons]
      linarith
    · rw [List.filter_cons_of_neg hk, List.filter_cons_of_pos (by rw [h]; simpa using hk)]
      simp only [List.map_cons, List.sum_cons]
      linarith

/-- Gains can be computed and are bounded. -/
theorem safe_enc {S : Setup K α} {m : Rat} (hp : Prepared S) (hu : Usual S m)
    {gh' : DTable K (Rat × Rat)} {Eg Eh : Rat} (hc : Close gh' S.gh Eg Eh)
    (hroom : S.maxDepth * Eh ≤ m / 2) {d : Nat} (hd : d < S.maxDepth) {A : List K} {s : Rat × Rat}
    (hA : ∀ k ∈ A, k ∈ S.gh.data.keys) (hn : (encView S gh' Eg Eh).near d A s) {V : View K} (hV : V.gh = gh')
    {j : Option Nat} {f b : Nat} {l : Rat × Rat} (ho : OfferWith S V A j f b l) :
    Safe S.cfg.regLambda s l ∧ |gain S.cfg.regLambda s l| ≤
      2 * ((S.gh.data.map fun x => |x.2.1|).sum + (S.maxDepth + 1) * Eg) ^ 2 / m := by
  obtain ⟨P, sp, hP, _, _, _, _, o2, o3, _⟩ := id ho
  obtain ⟨n0, n1, n2⟩ := hn
  obtain ⟨c1, c2⟩ := offer_close hc hV n0 hA ho hP
  have hl := sumKeys_hess hu (fun k hk => hA k (List.mem_of_mem_filter hk)) (filter_ne_nil hu.leaf o2)
  have hr := sumKeys_hess hu (fun k hk => hA k (List.mem_of_mem_filter hk)) (filter_ne_nil hu.leaf o3)
  have hAne : A ≠ [] := by
    intro h; apply filter_ne_nil hu.leaf o2; rw [h]; rfl
  have ha := sumKeys_hess hu hA hAne
  have hsp := side_split (S := S) A P f b
  rw [hsp] at hr
  simp only at hr
  have hm := hu.hess.1
  have hE := hc.nonneg
  have hdD : (d : Rat) + 1 ≤ S.maxDepth := by exact_mod_cast hd
  have hd0 : (0 : Rat) ≤ d := by positivity
  have e1 : ((d : Rat) + 1) * Eh ≤ m / 2 := le_trans (mul_le_mul_of_nonneg_right hdD hE.2) hroom
  have e2 : (d : Rat) * Eg + 2 * Eg ≤ (S.maxDepth + 1) * Eg := by nlinarith [hE.1]
  have e3 : 0 ≤ (d : Rat) * Eh := mul_nonneg hd0 hE.2
  have e4 : 0 ≤ (d : Rat) * Eg := mul_nonneg hd0 hE.1
  have e5 : (d : Rat) * Eh + Eh ≤ m / 2 := by linarith
  rw [abs_le] at c2 n2
  have b1 : m / 2 ≤ l.2 + S.cfg.regLambda := by linarith
  have b2 : m / 2 ≤ s.2 - l.2 + S.cfg.regLambda := by linarith
  have b3 : m / 2 ≤ s.2 + S.cfg.regLambda := by linarith
  refine ⟨⟨by intro h; linarith, by intro h; linarith, by intro h; linarith⟩, ?_⟩
  have hG := abs_sum_le hp n0 hA
  have hs := filter_split (fun k => decide (binAt P f k ≤ (b : Rat))) (fun k => decide ((b : Rat) < binAt P f k))
    (fun k => by simp [← not_le]) (fun k => |(ghOf S.gh k).1|) A
  have g1 := abs_sum_abs (fun k => (ghOf S.gh k).1) (A.filter fun k => decide (binAt P f k ≤ (b : Rat)))
  have g2 := abs_sum_abs (fun k => (ghOf S.gh k).1) (A.filter fun k => decide ((b : Rat) < binAt P f k))
  have g3 := abs_sum_abs (fun k => (ghOf S.gh k).1) A
  set G := (S.gh.data.map fun x => |x.2.1|).sum
  set L := (sumKeys S.gh (A.filter fun k => decide (binAt P f k ≤ (b : Rat)))).1 with hL
  have hR : (sumKeys S.gh (A.filter fun k => decide ((b : Rat) < binAt P f k))).1 =
    (sumKeys S.gh A).1 - L := by rw [hsp]
  set T := (sumKeys S.gh A).1 with hT
  have g1' : |L| ≤ ((A.filter fun k => decide (binAt P f k ≤ (b : Rat))).map fun k => |(ghOf S.gh k).1|).sum := g1
  have g2' : |T - L| ≤ ((A.filter fun k => decide ((b : Rat) < binAt P f k)).map fun k => |(ghOf S.gh k).1|).sum := by
    rw [← hR]; exact g2
  have g3' : |T| ≤ (A.map fun k => |(ghOf S.gh k).1|).sum := g3
  have k1 : |l.1| ≤ |L| + Eg := by
    have := abs_sub_abs_le_abs_sub l.1 L
    linarith
  have k2 : |s.1 - l.1| ≤ |T - L| + (d * Eg + Eg) := by
    have h1 := abs_sub_abs_le_abs_sub (s.1 - l.1) (T - L)
    have h2 : |s.1 - l.1 - (T - L)| ≤ d * Eg + Eg := by
      rw [show s.1 - l.1 - (T - L) = (s.1 - T) - (l.1 - L) by ring]
      exact (abs_sub _ _).trans (by linarith)
    linarith
  have k3 : |s.1| ≤ |T| + d * Eg := by
    have := abs_sub_abs_le_abs_sub s.1 T
    linarith
  unfold gain
  exact gain_le hm b1 b2 b3 (by linarith) (by linarith [hE.1])

end DTree
end Verif
