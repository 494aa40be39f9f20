import Verif.Lemmas.Members
import Verif.Props.C25

/-! # Every batch of a Paillier run makes the federated choice -/

set_option autoImplicit false

namespace Verif
namespace DTree

open Spec Histogram Paillier
open Binning (Cell SparseVec)

variable {K : Type} [DecidableEq K] {α : Type}

/-- How far a run may be from exact arithmetic: `gh` are the gradients and hessians that the hosts'
ciphertexts stand for; `near d A s` says that `s` may be recorded as the sums of the samples `A` of
a node of level `d`. -/
structure View (K : Type) where
  gh : DTable K (Rat × Rat)
  near : Nat → List K → Rat × Rat → Prop

/-- Ciphertexts stand for the gradients themselves, and the sums of nodes are exact. -/
def exactView (S : Setup K α) : View K := ⟨S.gh, fun _ A s => s = sumKeys S.gh A⟩

/-- The gradients and hessians as a party sees them. -/
def seenBy (S : Setup K α) (V : View K) : Option Nat → DTable K (Rat × Rat)
  | none => S.gh
  | some _ => V.gh

/-- The splits that can be considered for the samples `A`; the left sums are those that the party
sees. -/
def OfferWith (S : Setup K α) (V : View K) (A : List K) : Offers := fun j f b l =>
  ∃ P sp, partyAt S j = some P ∧ P.valid[f]? = some true ∧ P.splits[f]? = some sp ∧ b ≤ sp.length ∧
    S.cfg.minSample ≤ A.length ∧
    S.cfg.minLeaf ≤ (A.filter fun k => decide (binAt P f k ≤ (b : Rat))).length ∧
    S.cfg.minLeaf ≤ (A.filter fun k => decide ((b : Rat) < binAt P f k)).length ∧
    l = sumKeys (seenBy S V j) (A.filter fun k => decide (binAt P f k ≤ (b : Rat)))

theorem offerWith_exact (S : Setup K α) (A : List K) : OfferWith S (exactView S) A = OfferAt S A := by
  funext j f b l
  cases j <;> rfl

/-- The gains at a node with the samples `A` and the recorded sums `s`. -/
def gainAt (S : Setup K α) (A : List K) (s : Rat × Rat) : Option Nat → Rat × Rat → Rat :=
  gainBy S.cfg.regLambda (sumKeys S.gh A) s

theorem gainAt_exact (S : Setup K α) (A : List K) :
    gainAt S A (sumKeys S.gh A) = fun _ => gain S.cfg.regLambda (sumKeys S.gh A) := gainBy_self _ _

/-- No split is worth making: gains do not exceed the minimum by more than `ε`. -/
def NoneWorth (gn : Option Nat → Rat × Rat → Rat) (minImp ε : Rat) (offers : Offers) : Prop :=
  ∀ j f b l, offers j f b l → gn j l ≤ minImp + ε

/-- The best of all offered splits, up to `ε` (see `BestSplit`). -/
def BestOf (gn : Option Nat → Rat × Rat → Rat) (minImp ε : Rat) (offers : Offers) (j : Option Nat)
    (f b : Nat) (l : Rat × Rat) : Prop :=
  offers j f b l ∧ minImp < gn j l ∧
  (∀ j' f' b' l', offers j' f' b' l' → gn j' l' ≤ gn j l + ε) ∧
  (∀ f' b' l', offers j f' b' l' → gn j l' ≤ gn j l ∧
    (gn j l' = gn j l → f < f' ∨ (f = f' ∧ b ≤ b'))) ∧
  ∀ j' f' b' l', Earlier j' j → offers j' f' b' l' → gn j' l' = gn j l →
    ∃ f'' b'' l'', offers j' f'' b'' l'' ∧ gn j l < gn j' l''

theorem noSplit_of_noneWorth {S : Setup K α} {ε : Rat} {A : List K}
    (h : NoneWorth (gainAt S A (sumKeys S.gh A)) S.cfg.minImpurity ε (OfferWith S (exactView S) A)) :
    NoSplit S ε A := by
  rw [gainAt_exact, offerWith_exact] at h
  exact h

theorem bestSplit_of_bestOf {S : Setup K α} {ε : Rat} {A : List K} {j : Option Nat} {f b : Nat}
    {l : Rat × Rat} (h : BestOf (gainAt S A (sumKeys S.gh A)) S.cfg.minImpurity ε
      (OfferWith S (exactView S) A) j f b l) : BestSplit S ε A j f b l := by
  rw [gainAt_exact, offerWith_exact] at h
  exact h

/-- For any positions of the samples and any batch of nodes with sums near the right ones, the
parties make the federated choice. -/
def Chooses (S : Setup K α) (V : View K) (δ : Rat) : Prop :=
  ∀ (dep batch : Nat) (pos : DTable K (Nat × Nat)) (dataPos : DTable K (SparseVec Cell × Nat × Nat))
    (nodes : List Node) (masks : List (Dict Nat Int)), pos.WF →
    S.guest.data.join pos (fun v p => (v, p)) = .ok dataPos → nodes ≠ [] →
    (nodes.map Node.id).Nodup → S.hosts.length = masks.length → dep < S.maxDepth →
    (∀ n ∈ nodes, V.near dep (membersOf S.gh pos n.id) (n.sumGrad, n.sumHess)) →
    ∃ ss masks', batchSplits S dep batch dataPos pos nodes masks = .ok (ss, masks') ∧
      ss.length = nodes.length ∧
      ∀ (idx : Nat) n s, nodes[idx]? = some n → ss[idx]? = some s →
        FederatedChoiceBy (gainAt S (membersOf S.gh pos n.id) (n.sumGrad, n.sumHess)) S.cfg.minImpurity δ
          (OfferWith S V (membersOf S.gh pos n.id))
          (fun j => .host ((S.hosts[j]?.map Party.idx).getD 0))
          (fun j => masks'[j]?.bind fun m => Dict.get? m n.id) s

/-- The sums that are recorded for nodes stay near the right ones, and give weights. -/
structure Steady (S : Setup K α) (V : View K) : Prop where
  root : V.near 0 S.gh.data.keys (sumKeys S.gh S.gh.data.keys)
  split : ∀ d A s j f b l P, d < S.maxDepth → (∀ k ∈ A, k ∈ S.gh.data.keys) → V.near d A s →
    OfferWith S V A j f b l → partyAt S j = some P →
    V.near (d + 1) (A.filter fun k => decide (binAt P f k ≤ (b : Rat))) l ∧
    V.near (d + 1) (A.filter fun k => decide ((b : Rat) < binAt P f k)) (s.1 - l.1, s.2 - l.2)
  weight : ∀ d A s, d ≤ S.maxDepth → (∀ k ∈ A, k ∈ S.gh.data.keys) → A ≠ [] → V.near d A s →
    S.cfg.regLambda + s.2 ≠ 0

/-- A party's share of a level. -/
def shareOf (pos : DTable K (Nat × Nat)) (P : Party K) (m : Dict Nat Int) : Share K :=
  ⟨P.idx, P.splits, P.sparse, P.valid, ⟨DTable.joinLoop P.data.data (fun v p => (v, p)) pos.data⟩, m⟩

theorem hostSides_ok (S : Setup K α) {pos : DTable K (Nat × Nat)} (hpos : pos.WF) (ids : List Nat) :
    ∀ (Hs : List (Party K)) (ms : List (Dict Nat Int)) (HEs : List (Hist α)),
      Hs.length = ms.length →
      List.Forall₂ (fun (Sh : Share K) HE => getHistograms S.arith Sh.splits Sh.sparse
        (some Sh.valid) ids Sh.data S.encGh = .ok HE) (List.zipWith (shareOf pos) Hs ms) HEs →
      hostSides S pos ids Hs ms = .ok (List.zipWith
        (fun (Sh : Share K) HE => (⟨Sh.idx, Sh.valid, HE, Sh.mask⟩ : HostSide α))
        (List.zipWith (shareOf pos) Hs ms) HEs)
  | [], [], HEs, _, h => by
    unfold hostSides
    rfl
  | [], _ :: _, _, hl, _ => by simp at hl
  | _ :: _, [], _, hl, _ => by simp at hl
  | H :: Hs, m :: ms, HEs, hl, h => by
    rw [List.zipWith_cons_cons] at h ⊢
    cases h with
    | cons h1 h2 =>
      rename_i HE HEs'
      have ih := hostSides_ok S hpos ids Hs ms HEs' (by simpa using hl) h2
      unfold hostSides
      simp only [bind, Except.bind, DTable.join_ok H.data hpos]
      simp only [shareOf] at h1
      rw [h1]
      simp only
      rw [ih]
      rfl

theorem mem_zipWith {β γ ε : Type} (f : β → γ → ε) {l : List β} {l' : List γ} {x : ε}
    (h : x ∈ List.zipWith f l l') : ∃ a b, a ∈ l ∧ b ∈ l' ∧ f a b = x := by
  induction l generalizing l' with
  | nil => simp at h
  | cons c l ih =>
    cases l' with
    | nil => simp at h
    | cons d l' =>
      rw [List.zipWith_cons_cons, List.mem_cons] at h
      rcases h with rfl | h
      · exact ⟨c, d, by simp, by simp, rfl⟩
      · obtain ⟨a, b, ha, hb, e⟩ := ih h
        exact ⟨a, b, by simp [ha], by simp [hb], e⟩

theorem abs_sumKeys_le {β : Type} (f : β → Rat) (p : β → Bool) (l : List β) :
    |((l.filter p).map f).sum| ≤ (l.map fun x => |f x|).sum := by
  induction l with
  | nil => simp
  | cons x l ih =>
    have h0 := abs_nonneg (f x)
    by_cases h : p x
    · rw [List.filter_cons_of_pos h]; simp only [List.map_cons, List.sum_cons]
      exact le_trans (abs_add_le _ _) (by linarith)
    · rw [List.filter_cons_of_neg h]; simp only [List.map_cons, List.sum_cons]; linarith

theorem sum_ge_of_mem {l : List Rat} (h : ∀ x ∈ l, 0 ≤ x) {y : Rat} (hy : y ∈ l) : y ≤ l.sum := by
  induction l with
  | nil => simp at hy
  | cons x l ih =>
    have hnn : 0 ≤ l.sum := List.sum_nonneg fun z hz => h z (by simp [hz])
    have hx := h x (by simp)
    rw [List.sum_cons]
    rcases List.mem_cons.mp hy with rfl | hy
    · linarith
    · linarith [ih (fun z hz => h z (by simp [hz])) hy]

theorem ghOf_sum {gh : DTable K (Rat × Rat)} (hw : gh.WF) (f : Rat × Rat → Rat) :
    (gh.data.keys.map fun k => f (ghOf gh k)).sum = (gh.data.map fun p => f p.2).sum := by
  congr 1
  unfold Dict.keys
  rw [List.map_map]
  apply List.map_congr_left
  intro p hp
  simp only [Function.comp_apply, ghOf]
  rw [Dict.get?_of_mem hw hp]
  rfl

theorem ghOf_mem {gh : DTable K (Rat × Rat)} {k : K} (h : k ∈ gh.data.keys) :
    (k, ghOf gh k) ∈ gh.data := by
  obtain ⟨v, hv⟩ := Dict.exists_get?_of_mem h
  unfold ghOf
  rw [hv]
  exact Dict.get?_mem hv

/-- Gains are bounded in terms of the gradients. -/
theorem gain_bound {gh : DTable K (Rat × Rat)} (hw : gh.WF) {lam m : Rat} (hm : 0 < m)
    (hgh : ∀ x ∈ gh.data, 0 ≤ x.2.2 ∧ m ≤ x.2.2 + lam) (q p p' : K → Bool)
    (hpp : ∀ k, p' k = !p k)
    (hl : ((gh.data.keys.filter q).filter p) ≠ []) (hr : ((gh.data.keys.filter q).filter p') ≠ []) :
    |gain lam (sumKeys gh (gh.data.keys.filter q)) (sumKeys gh ((gh.data.keys.filter q).filter p))| ≤
      2 * (gh.data.map fun x => |x.2.1|).sum ^ 2 / m := by
  set G := (gh.data.map fun x => |x.2.1|).sum with hG
  set A := gh.data.keys.filter q with hA
  have hGk : (gh.data.keys.map fun k => |(ghOf gh k).1|).sum = G := ghOf_sum hw fun p => |p.1|
  have hkA : ∀ k ∈ A, k ∈ gh.data.keys := fun k hk => (List.mem_filter.mp hk).1
  have hden : ∀ B : List K, B ≠ [] → (∀ k ∈ B, k ∈ gh.data.keys) →
      m ≤ (B.map fun k => (ghOf gh k).2).sum + lam := by
    intro B hB hBk
    obtain ⟨k, hk⟩ := List.exists_mem_of_ne_nil B hB
    have h1 := sum_ge_of_mem (l := B.map fun k => (ghOf gh k).2) (by
      intro x hx
      obtain ⟨k', hk', rfl⟩ := List.mem_map.mp hx
      exact (hgh _ (ghOf_mem (hBk k' hk'))).1) (List.mem_map_of_mem hk)
    have h2 := (hgh _ (ghOf_mem (hBk k hk))).2
    linarith
  have hnum : ∀ r : K → Bool, |((A.filter r).map fun k => (ghOf gh k).1).sum| ≤ G := by
    intro r
    rw [hA, List.filter_filter, ← hGk]
    exact abs_sumKeys_le _ _ _
  have hp' : p' = fun k => !p k := funext hpp
  have hsplit : ∀ f : K → Rat, ((A.filter p).map f).sum + ((A.filter p').map f).sum = (A.map f).sum := by
    intro f
    rw [hp']
    generalize A = B
    induction B with
    | nil => simp
    | cons k B ih =>
      by_cases h : p k
      · rw [List.filter_cons_of_pos h, List.filter_cons_of_neg (by simp [h])]
        simp only [List.map_cons, List.sum_cons]; linarith
      · rw [List.filter_cons_of_neg h, List.filter_cons_of_pos (by simp [h])]
        simp only [List.map_cons, List.sum_cons]; linarith
  have hAne : A ≠ [] := by rintro h; rw [h] at hl; simp at hl
  have d1 := hden (A.filter p) hl fun k hk => hkA k (List.mem_filter.mp hk).1
  have d2 := hden (A.filter p') hr fun k hk => hkA k (List.mem_filter.mp hk).1
  have d3 := hden A hAne hkA
  have n1 := hnum p
  have n2 := hnum p'
  have n3 := hnum fun _ => true
  rw [List.filter_true] at n3
  have s1 := hsplit fun k => (ghOf gh k).1
  have s2 := hsplit fun k => (ghOf gh k).2
  unfold gain sumKeys
  simp only
  have e1 : (A.map fun k => (ghOf gh k).1).sum - ((A.filter p).map fun k => (ghOf gh k).1).sum =
      ((A.filter p').map fun k => (ghOf gh k).1).sum := by linarith
  have e2 : (A.map fun k => (ghOf gh k).2).sum - ((A.filter p).map fun k => (ghOf gh k).2).sum =
      ((A.filter p').map fun k => (ghOf gh k).2).sum := by linarith
  rw [e1, e2]
  have hterm : ∀ x d : Rat, |x| ≤ G → m ≤ d → 0 ≤ x ^ 2 / d ∧ x ^ 2 / d ≤ G ^ 2 / m := by
    intro x d hx hd
    have hG0 : 0 ≤ G := le_trans (abs_nonneg x) hx
    have hx2 : x ^ 2 ≤ G ^ 2 := by
      rw [← sq_abs x]; exact pow_le_pow_left₀ (abs_nonneg x) hx 2
    exact ⟨div_nonneg (sq_nonneg x) (by linarith),
      div_le_div₀ (sq_nonneg G) hx2 hm hd⟩
  obtain ⟨a1, a2⟩ := hterm _ _ n1 d1
  obtain ⟨b1, b2⟩ := hterm _ _ n2 d2
  obtain ⟨c1, c2⟩ := hterm _ _ n3 d3
  have e3 : 2 * G ^ 2 / m = G ^ 2 / m + G ^ 2 / m := by ring
  rw [e3, abs_le]
  constructor <;> linarith

end DTree
end Verif
