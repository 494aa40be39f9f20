import Verif.Lemmas.RoundRun

/-! # A run with rounded floats makes nearly the best choice -/

set_option autoImplicit false

namespace Verif
namespace DTree

open Spec Histogram Paillier
open Binning (Cell SparseVec)
open Quantile (floatZero)

variable {K : Type} [DecidableEq K]

/-- What may happen in a run with rounded floats. -/
def roundRules (S : Setup K Histogram.Num) (bins : Nat) (m ε eg eh : Rat) : Rules K where
  near d A s := A.Nodup ∧ |s.1 - (sumKeys S.gh A).1| ≤ (d + 1) * sumError S bins ε eg ∧
    |s.2 - (sumKeys S.gh A).2| ≤ (d + 1) * sumError S bins ε eh
  leaf A _ := NoSplit S (2 / 10 ^ 6 + roundedShift S bins m ε eg eh + roundedError S bins m ε eg + 2 * ε) A
  pick A _ j f b l := ∃ l0, NearlyBest S
      (1 / 10 ^ 6 + 2 * roundedShift S bins m ε eg eh + 2 * roundedError S bins m ε eg + ε)
      (roundedShift S bins m ε eg eh) A j f b l0 ∧
    |l.1 - l0.1| ≤ sumError S bins ε eg - ε ∧ |l.2 - l0.2| ≤ sumError S bins ε eh - ε
  gain _ _ _ _ := True

section
variable {p q : Nat} {sk : PrivKey} {lo hi : Int} {m eg eh : Rat} {bins : Nat} {M ε : Rat}
  {S : Setup K Histogram.Num}

/-- From the values that guest and hosts compute to the rules. -/
theorem follows_of_choice (hr : RoundedRun p q sk lo hi m eg eh bins M ε S)
    {A : List K} {node : Rat × Rat} {bidAt : Nat → Option Int} {siteOf : Nat → Site} {s : SplitInfo (Option Rat) Rat}
    {V : Option Nat → Nat → Nat → Rat × Rat → Rat → Prop}
    (hV : ∀ j f b l x, V j f b l x → ∃ l0, OfferAt S A j f b l0 ∧
      |l.1 - l0.1| ≤ sumError S bins ε eg - ε ∧ |l.2 - l0.2| ≤ sumError S bins ε eh - ε ∧
      |x - gain S.cfg.regLambda (sumKeys S.gh A) l0| ≤ roundedShift S bins m ε eg eh)
    (hO : ∀ j f b l0, OfferAt S A j f b l0 → ∃ l x, V j f b l x ∧
      |x - gain S.cfg.regLambda (sumKeys S.gh A) l0| ≤ roundedShift S bins m ε eg eh)
    (hsite : ∀ j P, partyAt S (some j) = some P → siteOf j = siteName P (some j))
    (hc : ChoiceBy S.cfg.minImpurity (roundedError S bins m ε eg) ε V siteOf bidAt s) :
    Follows S (roundRules S bins m ε eg eh) A node bidAt s := by
  have hfz : floatZero = 1 / 10 ^ 6 := rfl
  have hε := hr.eps
  have hac := hr.accuracy
  have hgl : |S.cfg.minImpurity| + 1 ≤ gainRange S bins m ε eg := le_max_right _ _
  have hgm := hr.gains
  have hfz1 : (1 : Rat) / 10 ^ 6 ≤ 1 := by norm_num
  have hfz0 : (0 : Rat) < 1 / 10 ^ 6 := by norm_num
  have hrz := abs_le.mp (hr.rounds (S.cfg.minImpurity + floatZero) (by
    rw [hfz]
    refine (abs_add_le _ _).trans ?_
    rw [abs_of_pos hfz0]
    linarith))
  rw [hfz] at hrz
  have hδ : 0 ≤ roundedError S bins m ε eg := by
    unfold roundedError
    have h3 := FP.tiny_pos
    have h4 : 0 ≤ gainRange S bins m ε eg / 2 ^ 50 :=
      div_nonneg (by linarith [abs_nonneg S.cfg.minImpurity]) (by norm_num)
    linarith
  unfold Follows
  rw [hfz]
  rcases hc with ⟨c1, c2⟩ | ⟨j, f, b, l, x, c1, c2, c3, c4, c5, c6, c7, c8, c9⟩
  · refine ⟨fun _ j f b l0 ho => ?_, fun h => absurd ?_ h⟩
    · obtain ⟨l, x, h1, h2⟩ := hO j f b l0 ho
      have h3 := c2 j f b l x h1
      rw [abs_le] at h2
      linarith
    · linarith
  · rw [hfz] at c9
    rw [abs_le] at c8
    refine ⟨fun hle j' f' b' l0 ho => ?_, fun hgt => ?_⟩
    · obtain ⟨l', x', h1, h2⟩ := hO j' f' b' l0 ho
      have h3 := c9 j' f' b' l' x' h1
      rw [abs_le] at h2
      linarith
    · rw [not_le] at hgt
      obtain ⟨l0, o1, o2, o3, o4⟩ := hV j f b l x c7
      obtain ⟨P, sp, hP, _, hsp, _, _, q1, q2, _⟩ := id o1
      rw [abs_le] at o4
      refine ⟨j, P, f, b, l, sp, hP, ?_, c2, c5, c6, c3, c4, hsp, q1, q2, ⟨l0, ⟨o1, ?_, ?_⟩, o2, o3⟩, trivial⟩
      · cases j with
        | none => exact c1
        | some j => exact c1.trans (hsite j P hP)
      · linarith
      · intro j' f' b' l' ho
        obtain ⟨l1, x', h1, h2⟩ := hO j' f' b' l' ho
        have h3 := c9 j' f' b' l1 x' h1
        rw [abs_le] at h2
        linarith

theorem guest_values (hp : Prepared S) (hu : Usual S m) (hr : RoundedRun p q sk lo hi m eg eh bins M ε S)
    {A : List K} (hA : A.Nodup) (hk : ∀ k ∈ A, k ∈ S.gh.data.keys) {f b : Nat} {l0 : Rat × Rat} {tot c : HCell Rat}
    (ho : OfferAt S A none f b l0)
    (h1 : |c.1 - l0.1| ≤ (3 * S.gh.data.length + bins + 2) * ε)
    (h2 : |c.2.1 - l0.2| ≤ (3 * S.gh.data.length + bins + 2) * ε)
    (h3 : |tot.1 - (sumKeys S.gh A).1| ≤ (3 * S.gh.data.length + bins + 2) * ε)
    (h4 : |tot.2.1 - (sumKeys S.gh A).2| ≤ (3 * S.gh.data.length + bins + 2) * ε) :
    |c.1 - l0.1| ≤ sumError S bins ε eg - ε ∧ |c.2.1 - l0.2| ≤ sumError S bins ε eh - ε ∧
    ∃ x, gainRun S.cfg (tot.1, tot.2.1) (c.1, c.2.1) = .ok x ∧
      |x - gain S.cfg.regLambda (sumKeys S.gh A) l0| ≤ roundedShift S bins m ε eg eh ∧
      |x| ≤ gainRange S bins m ε eg := by
  obtain ⟨w1, w2, w3, w4⟩ := RoundedRun.nonneg hr
  have hε := hr.eps
  have he := hr.errors
  have hn : (0 : Rat) ≤ S.gh.data.length := by positivity
  have a1 := mul_nonneg hn he.1
  have a2 := mul_nonneg hn he.2
  have hD : (1 : Rat) ≤ S.maxDepth := by exact_mod_cast hu.depth
  have y1 : sumError S bins ε eg ≤ S.maxDepth * sumError S bins ε eg := le_mul_of_one_le_left (by linarith) hD
  have y2 : sumError S bins ε eh ≤ S.maxDepth * sumError S bins ε eh := le_mul_of_one_le_left (by linarith) hD
  refine ⟨by linarith, by linarith, ?_⟩
  exact gain_run hp hu hr hA hk ho (by simp only; linarith) (by simp only; linarith) (by simp only; linarith)
    (by simp only; linarith)

theorem host_values (hp : Prepared S) (hu : Usual S m) (hr : RoundedRun p q sk lo hi m eg eh bins M ε S)
    {A : List K} (hA : A.Nodup) (hk : ∀ k ∈ A, k ∈ S.gh.data.keys) {j f b : Nat} {l' l0 node : Rat × Rat} {c : HCell Rat}
    {d : Nat} (hd : d < S.maxDepth) (hnode : (roundRules S bins m ε eg eh).near d A node)
    (ho : OfferAt S A (some j) f b l0) (g1 : |l'.1 - l0.1| ≤ S.gh.data.length * eg)
    (g2 : |l'.2 - l0.2| ≤ S.gh.data.length * eh) (h1 : |c.1 - l'.1| ≤ ε) (h2 : |c.2.1 - l'.2| ≤ ε) :
    |c.1 - l0.1| ≤ sumError S bins ε eg - ε ∧ |c.2.1 - l0.2| ≤ sumError S bins ε eh - ε ∧
    ∃ x, gainRun S.cfg node (c.1, c.2.1) = .ok x ∧
      |x - gain S.cfg.regLambda (sumKeys S.gh A) l0| ≤ roundedShift S bins m ε eg eh ∧
      |x| ≤ gainRange S bins m ε eg := by
  obtain ⟨w1, w2, w3, w4⟩ := RoundedRun.nonneg hr
  have hε := hr.eps
  have hq : ε ≤ (3 * S.gh.data.length + bins + 2) * ε := by
    have : (1 : Rat) ≤ 3 * S.gh.data.length + bins + 2 := by
      have h1 : (0 : Rat) ≤ S.gh.data.length := by positivity
      have h2 : (0 : Rat) ≤ bins := by positivity
      linarith
    exact le_mul_of_one_le_left hε this
  have k1 : |c.1 - l0.1| ≤ sumError S bins ε eg - ε := by
    have := abs_sub_le c.1 l'.1 l0.1
    linarith
  have k2 : |c.2.1 - l0.2| ≤ sumError S bins ε eh - ε := by
    have := abs_sub_le c.2.1 l'.2 l0.2
    linarith
  have hdD : (d : Rat) + 1 ≤ S.maxDepth := by exact_mod_cast hd
  obtain ⟨_, n1, n2⟩ := hnode
  exact ⟨k1, k2, gain_run hp hu hr hA hk ho (n1.trans (mul_le_mul_of_nonneg_right hdD (by linarith)))
    (n2.trans (mul_le_mul_of_nonneg_right hdD (by linarith))) k1 k2⟩

theorem round_chooses (hp : Prepared S) (hu : Usual S m) (hr : RoundedRun p q sk lo hi m eg eh bins M ε S) :
    ChoosesBy S (roundRules S bins m ε eg eh) := by
  intro dep batch pos dataPos nodes masks hpos hjoin hnodes hids hlen hdep hsums
  obtain ⟨gh', hc, hb1, hb2, hF, hread⟩ := rounded_reads hp hu hr
  set V : View K := ⟨gh', fun _ _ _ => True⟩ with hVd
  have hguestKeys : ∀ j P, partyAt S j = some P → ∀ k ∈ S.gh.data.keys, k ∈ P.data.data.keys :=
    fun j P hP k hk => ((hp.parties j P hP).2.2.2.2 k).mpr hk
  have hjoinOf : ∀ P : Party K, P.data.join pos (fun v p => (v, p)) =
      .ok ⟨DTable.joinLoop P.data.data (fun v p => (v, p)) pos.data⟩ := fun P => DTable.join_ok P.data hpos _
  have hdp : dataPos = ⟨DTable.joinLoop S.guest.data.data (fun v p => (v, p)) pos.data⟩ := by
    rw [hjoinOf S.guest] at hjoin; exact (Except.ok.inj hjoin).symm
  set gs := shareOf pos S.guest [] with hgs
  have hgsd : gs.data = dataPos := by rw [hdp]; rfl
  set hs := List.zipWith (shareOf pos) S.hosts masks with hhs
  have hgood : ∀ j P mk, partyAt S j = some P → (shareOf pos P mk).Good := by
    intro j P mk hP
    obtain ⟨h1, h2, _, h4, _⟩ := hp.parties j P hP
    refine ⟨h1, h2, fun k x hx => ?_⟩
    obtain ⟨_, jj⟩ := DTable.join_inv (hjoinOf P)
    obtain ⟨v, w, a1, _, rfl⟩ := (jj k x).mp hx
    exact h4 k v a1
  have hpartyOf : ∀ (j : Nat) H, hs[j]? = some H → ∃ P mk, partyAt S (some j) = some P ∧ H = shareOf pos P mk := by
    intro j H hj
    rw [hhs, List.getElem?_zipWith] at hj
    cases h1 : S.hosts[j]? with
    | none => rw [h1] at hj; cases hj
    | some P =>
      cases h2 : masks[j]? with
      | none => rw [h1, h2] at hj; cases hj
      | some mk => rw [h1, h2] at hj; exact ⟨P, mk, h1, (Option.some.inj hj).symm⟩
  have hshareOf : ∀ (j : Nat) P, partyAt S (some j) = some P → ∃ mk, hs[j]? = some (shareOf pos P mk) := by
    intro j P hP
    have hP' : S.hosts[j]? = some P := hP
    have hjl : j < S.hosts.length := (List.getElem?_eq_some_iff.mp hP').1
    refine ⟨masks[j], ?_⟩
    rw [hhs, List.getElem?_zipWith, hP', List.getElem?_eq_getElem (by omega)]
  have hwV : gh'.WF := by unfold DTable.WF Dict.WF; rw [hc.keys]; exact hp.wf
  have hwj : ∀ j, (seenBy S V j).WF := fun j => by cases j; exacts [hp.wf, hwV]
  have hkj : ∀ j, (seenBy S V j).data.keys = S.gh.data.keys := fun j => by cases j; exacts [rfl, hc.keys]
  have hmj : ∀ j id, membersOf (seenBy S V j) pos id = membersOf S.gh pos id := fun j id => by
    unfold membersOf; rw [hkj j]
  have hat : ∀ j P mk id, partyAt S j = some P → atNode (shareOf pos P mk).data (seenBy S V j) id =
      (membersOf S.gh pos id).map fun k => (rowOf P k, ghOf (seenBy S V j) k) := by
    intro j P mk id hP
    rw [← hmj j id]
    exact atNode_members (hwj j) (fun k hk => hguestKeys j P hP k (by rw [← hkj j]; exact hk)) (hjoinOf P) id
  have hsumAt : ∀ id, sumsOf (atNode gs.data S.gh id) = sumKeys S.gh (membersOf S.gh pos id) := by
    intro id
    rw [hgs, show atNode (shareOf pos S.guest []).data S.gh id = _ from hat none S.guest [] id rfl, sumsOf_members]
    rfl
  have hmem : ∀ id, ∀ k ∈ membersOf S.gh pos id, k ∈ S.gh.data.keys := fun id k hk =>
    (List.mem_filter.mp hk).1
  have hnd : ∀ id, (membersOf S.gh pos id).Nodup := fun id => List.Nodup.filter _ hp.wf
  have hoffer : ∀ j P mk id f b l, partyAt S j = some P →
      (OfferedOn S.cfg P.valid P.splits P.sparse (atNode (shareOf pos P mk).data (seenBy S V j) id) f b l ↔
        OfferWith S V (membersOf S.gh pos id) j f b l) := by
    intro j P mk id f b l hP
    rw [hat j P mk id hP, offeredOn_members S P _ (seenBy S V j) fun k hk => hguestKeys j P hP k (hmem id k hk)]
    unfold OfferWith
    constructor
    · rintro ⟨sp, h⟩; exact ⟨P, sp, hP, h⟩
    · rintro ⟨P', sp, hP', h⟩
      rw [hP, Option.some.injEq] at hP'
      subst hP'
      exact ⟨sp, h⟩
  -- hosts' offers and exact ones
  have hclose : ∀ id j f b l' l0, OfferWith S V (membersOf S.gh pos id) j f b l' →
      OfferAt S (membersOf S.gh pos id) j f b l0 →
      |l'.1 - l0.1| ≤ S.gh.data.length * eg ∧ |l'.2 - l0.2| ≤ S.gh.data.length * eh := by
    intro id j f b l' l0 h1 h2
    obtain ⟨P, _, hP, _, _, _, _, _, _, rfl⟩ := h2
    exact offer_close hc rfl (hnd id) (hmem id) h1 hP
  have hε := hr.eps
  obtain ⟨w1, w2, w3, w4⟩ := RoundedRun.nonneg hr
  obtain ⟨z1, z2⟩ := hr.sizes
  -- the guest's histograms
  obtain ⟨HG, g1, g2, g3⟩ := histogram_near hε hr.rounds gs.splits gs.sparse gs.valid (hgood none S.guest [] rfl).valid
    (hgood none S.guest [] rfl).zero (nodes.map Node.id) hids (by simpa using hnodes) gs.data
    (hgood none S.guest [] rfl).rows S.gh hp.wf S.gh.data.length bins
    (max (S.gh.data.map fun x => |x.2.1|).sum (S.gh.data.map fun x => |x.2.2|).sum) hr.points (by
      intro id _
      exact ⟨atNode_length_le _ _ _,
        (atNode_sum_le gs.data S.gh id (fun p => |p.1|) fun _ => abs_nonneg _).trans (le_max_left _ _),
        (atNode_sum_le gs.data S.gh id (fun p => |p.2|) fun _ => abs_nonneg _).trans (le_max_right _ _)⟩) (by
      have hn : (0 : Rat) ≤ S.gh.data.length := by positivity
      have a1 := mul_nonneg hn hr.errors.1
      have a2 := mul_nonneg hn hr.errors.2
      have hD : (0 : Rat) ≤ S.maxDepth := by positivity
      have y1 : 0 ≤ S.maxDepth * sumError S bins ε eg := mul_nonneg hD (by linarith)
      have y2 : 0 ≤ S.maxDepth * sumError S bins ε eh := mul_nonneg hD (by linarith)
      have hgr : gradRange S bins ε eg = (S.gh.data.map fun x => |x.2.1|).sum + (S.maxDepth + 1) * sumError S bins ε eg := rfl
      have hhr : hessRange S bins ε eh = (S.gh.data.map fun x => |x.2.2|).sum + S.cfg.regLambda +
        (S.maxDepth + 1) * sumError S bins ε eh := rfl
      have hlam := hu.lam
      rcases max_choice (S.gh.data.map fun x => |x.2.1|).sum (S.gh.data.map fun x => |x.2.2|).sum with h | h <;>
        rw [h] <;> linarith)
  have hgf : ∀ (i id : Nat) fh, (nodes.map Node.id)[i]? = some id → HG[i]? = some fh →
      fh.length = gs.splits.length ∧ NearFacts S.cfg gs.valid gs.splits gs.sparse (atNode gs.data S.gh id) fh
        ((3 * S.gh.data.length + bins + 2) * ε) ((3 * S.gh.data.length + bins + 2) * ε) :=
    fun i id fh hid hfh => by
      obtain ⟨fh', a1, a2, a3⟩ := g3 i id hid
      rw [hfh, Option.some.injEq] at a1
      subst a1
      exact ⟨a2, nodeFactsR S.cfg gs.splits gs.sparse gs.valid (hgood none S.guest [] rfl).valid
        (hgood none S.guest [] rfl).zero gs.data (hgood none S.guest [] rfl).rows S.gh id fh _ _ a3⟩
  -- the hosts' histograms
  have hall : ∀ H, H ∈ hs → ∃ (Hp : Hist Rat) (HE : Hist Histogram.Num),
      getHistograms S.arith H.splits H.sparse (some H.valid) (nodes.map Node.id) H.data S.encGh = .ok HE ∧
      List.Forall₂ (List.Forall₂ (List.Forall₂ (Readable (S.cipher dep batch) S.cfg.minLeaf))) HE
        (roundHist S.cfg.rnd Hp) ∧
      Hp.length = (nodes.map Node.id).length ∧
      ∀ (i : Nat) (id : Nat), (nodes.map Node.id)[i]? = some id → ∃ fh, Hp[i]? = some fh ∧
        fh.length = H.splits.length ∧
        ∀ (f : Nat) (sp : List Rat), H.splits[f]? = some sp → ∃ bins, fh[f]? = some bins ∧
          (H.valid[f]? = some false → bins = []) ∧
          (H.valid[f]? = some true → bins.length = sp.length + 1 ∧
            ∀ b ≤ sp.length, bins[b]? = some (totals (upToBin H.sparse f b (atNode H.data gh' id)))) := by
    intro H hH
    obtain ⟨j, hj⟩ := List.mem_iff_getElem?.mp hH
    obtain ⟨P, mk, hP, rfl⟩ := hpartyOf j H hj
    have hgd := hgood (some j) P mk hP
    set H := shareOf pos P mk
    obtain ⟨Hp, h1, h2, h3⟩ := C22_histogram H.splits H.sparse H.valid hgd.valid hgd.zero (nodes.map Node.id) hids
      (by simpa using hnodes) H.data hgd.rows gh' hwV
    obtain ⟨HE, e1, e2⟩ := hread dep batch H _ Hp h1 (by
      intro fh hfh bins hb c hc
      obtain ⟨i, hi, rfl⟩ := List.getElem_of_mem hfh
      obtain ⟨fh', q0, q0', a3⟩ := h3 i (nodes.map Node.id)[i] (List.getElem?_eq_getElem (by omega))
      rw [List.getElem?_eq_getElem hi, Option.some.injEq] at q0
      subst q0
      obtain ⟨f, hf, rfl⟩ := List.getElem_of_mem hb
      obtain ⟨b, hb', rfl⟩ := List.getElem_of_mem hc
      have hf' : f < H.splits.length := by omega
      obtain ⟨bins, q1, q2, q3⟩ := a3 f H.splits[f] (List.getElem?_eq_getElem hf')
      rw [List.getElem?_eq_getElem hf, Option.some.injEq] at q1
      have hfv : f < H.valid.length := by rw [hgd.valid]; exact hf'
      have hval : H.valid[f]? = some H.valid[f] := List.getElem?_eq_getElem hfv
      cases hv : H.valid[f] with
      | false =>
        rw [hv] at hval
        rw [← q1] at q2
        rw [q2 hval] at hb'
        simp at hb'
      | true =>
        rw [hv] at hval
        obtain ⟨q4, q5⟩ := q3 hval
        rw [← q1] at q4 q5
        have := q5 b (by omega)
        rw [List.getElem?_eq_getElem hb', Option.some.injEq] at this
        rw [this]
        exact totals_abs_le H.data gh' (nodes.map Node.id)[i] H.sparse f b)
    exact ⟨Hp, HE, e1, e2, h2, h3⟩
  choose! Fp Fe hFF using hall
  have hhf : ∀ (j : Nat) P mk, partyAt S (some j) = some P → shareOf pos P mk ∈ hs →
      ∀ (i id : Nat), (nodes.map Node.id)[i]? = some id → ∃ fh,
      (roundHist S.cfg.rnd (Fp (shareOf pos P mk)))[i]? = some fh ∧ fh.length = P.splits.length ∧
      NearFacts S.cfg P.valid P.splits P.sparse (atNode (shareOf pos P mk).data gh' id) fh ε ε :=
    fun j P mk hP hH i id hid => by
      obtain ⟨fh, a1, a2, a3⟩ := (hFF _ hH).2.2.2 i id hid
      have hgd := hgood (some j) P mk hP
      refine ⟨fh.map (List.map (roundCell S.cfg.rnd)), ?_, by rw [List.length_map, a2]; rfl,
        nodeFactsR S.cfg (shareOf pos P mk).splits (shareOf pos P mk).sparse (shareOf pos P mk).valid hgd.valid
          hgd.zero (shareOf pos P mk).data hgd.rows gh' id (fh.map (List.map (roundCell S.cfg.rnd))) ε ε ?_⟩
      · unfold roundHist; rw [List.getElem?_map, a1]; rfl
      · intro f sp hsp
        obtain ⟨bs, q1, q2, q3⟩ := a3 f sp hsp
        refine ⟨bs.map (roundCell S.cfg.rnd), by rw [List.getElem?_map, q1]; rfl, fun h => by rw [q2 h]; rfl, fun h => ?_⟩
        obtain ⟨q4, q5⟩ := q3 h
        refine ⟨by rw [List.length_map, q4], fun b hb => ⟨roundCell S.cfg.rnd _, by rw [List.getElem?_map, q5 b hb]; rfl, ?_, ?_, rfl⟩⟩
        · exact hr.rounds _ ((totals_abs_le _ gh' id _ f b).1.trans hb1)
        · exact hr.rounds _ ((totals_abs_le _ gh' id _ f b).2.trans hb2)
  -- the sums of the nodes
  have hnode : ∃ node : Nat → Rat × Rat, ∀ n ∈ nodes, node n.id = (n.sumGrad, n.sumHess) := by
    refine ⟨fun id => ((nodes.find? fun n => n.id == id).map fun n => (n.sumGrad, n.sumHess)).getD (0, 0), ?_⟩
    intro n hn
    have : nodes.find? (fun x => x.id == n.id) = some n := by
      clear hnodes hsums g1 g2 g3 hgf hFF hhf
      induction nodes with
      | nil => cases hn
      | cons x nodes ih =>
        simp only [List.map_cons, List.nodup_cons] at hids
        rcases List.mem_cons.mp hn with rfl | hn
        · simp
        · have hne : x.id ≠ n.id := fun h => hids.1 (h ▸ List.mem_map_of_mem hn)
          rw [List.find?_cons_of_neg (by simpa using hne)]
          exact ih hids.2 hn
    simp only [this, Option.map_some, Option.getD_some]
  obtain ⟨node, hnode⟩ := hnode
  have hof : ∀ id ∈ nodes.map Node.id, (roundRules S bins m ε eg eh).near dep (membersOf S.gh pos id) (node id) := by
    intro id hid
    obtain ⟨n, hn, rfl⟩ := List.mem_map.mp hid
    rw [hnode n hn]
    exact hsums n hn
  have hzip : List.zipWith (fun (H : Share K) HE => (⟨H.idx, H.valid, HE, H.mask⟩ : HostSide Histogram.Num))
      hs (hs.map Fe) = hs.map fun H => ⟨H.idx, H.valid, Fe H, H.mask⟩ := by
    rw [List.zipWith_map_right, List.zipWith_self]
  have hget : ∀ {j : Nat} {H' : HostSide Histogram.Num},
      (hs.map fun H => (⟨H.idx, H.valid, Fe H, H.mask⟩ : HostSide Histogram.Num))[j]? = some H' →
      ∃ P mk, partyAt S (some j) = some P ∧ hs[j]? = some (shareOf pos P mk) ∧
        H' = ⟨P.idx, P.valid, Fe (shareOf pos P mk), mk⟩ := by
    intro j H' h
    rw [List.getElem?_map, Option.map_eq_some_iff] at h
    obtain ⟨H, h1, h2⟩ := h
    obtain ⟨P, mk, hP, rfl⟩ := hpartyOf j H h1
    exact ⟨P, mk, hP, h1, h2.symm⟩
  have hidx : ∀ {i : Nat} {nd : Rat × Rat},
      ((nodes.map Node.id).map node)[i]? = some nd →
      ∃ id, (nodes.map Node.id)[i]? = some id ∧ id ∈ nodes.map Node.id ∧ nd = node id := by
    intro i nd h
    rw [List.getElem?_map, Option.map_eq_some_iff] at h
    obtain ⟨id, h1, h2⟩ := h
    exact ⟨id, h1, List.mem_of_getElem? h1, h2.symm⟩
  -- values of guest and hosts
  have hfz : floatZero = 1 / 10 ^ 6 := rfl
  have hfz1 : (1 : Rat) / 10 ^ 6 ≤ 1 := by norm_num
  have hfz0 : (0 : Rat) < 1 / 10 ^ 6 := by norm_num
  have hac := hr.accuracy
  have hgm := hr.gains
  have hgl : |S.cfg.minImpurity| + 1 ≤ gainRange S bins m ε eg := le_max_right _ _
  have hδ : 0 ≤ roundedError S bins m ε eg := by
    unfold roundedError
    have h3 := FP.tiny_pos
    have h4 : 0 ≤ gainRange S bins m ε eg / 2 ^ 50 :=
      div_nonneg (by linarith [abs_nonneg S.cfg.minImpurity]) (by norm_num)
    linarith
  have hmz : |S.cfg.minImpurity - floatZero| ≤ |S.cfg.minImpurity| + 1 / 10 ^ 6 := by
    rw [hfz]
    refine (abs_sub _ _).trans ?_
    rw [abs_of_pos hfz0]
  have hmz' : |S.cfg.rnd (S.cfg.minImpurity - floatZero)| ≤ gainRange S bins m ε eg := by
    have := round_abs hr.rounds (hmz.trans (by linarith))
    have h2 : (1 : Rat) / 10 ^ 6 + 1 / 10 ^ 6 ≤ 1 := by norm_num
    linarith
  have hDj : ∀ (j i id : Nat) P mk, partyAt S (some j) = some P → hs[j]? = some (shareOf pos P mk) →
      (nodes.map Node.id)[i]? = some id →
      ((hs[j]?.bind fun H => (roundHist S.cfg.rnd (Fp H))[i]?).getD []).length = P.splits.length ∧
      NearFacts S.cfg P.valid P.splits P.sparse (atNode (shareOf pos P mk).data gh' id)
        ((hs[j]?.bind fun H => (roundHist S.cfg.rnd (Fp H))[i]?).getD []) ε ε := by
    intro j i id P mk hP hj hid
    obtain ⟨fh, q1, q2, q3⟩ := hhf j P mk hP (List.mem_of_getElem? hj) i id hid
    have : ((hs[j]?.bind fun H => (roundHist S.cfg.rnd (Fp H))[i]?).getD []) = fh := by
      rw [hj]; simp only [Option.bind_some]; rw [q1]; rfl
    rw [this]
    exact ⟨q2, q3⟩
  have hofferG : ∀ id f b l, OfferedOn S.cfg gs.valid gs.splits gs.sparse (atNode gs.data S.gh id) f b l ↔
      OfferAt S (membersOf S.gh pos id) none f b l := fun id f b l => hoffer none S.guest [] id f b l rfl
  have hofferH : ∀ id j P mk f b l, partyAt S (some j) = some P →
      (OfferedOn S.cfg P.valid P.splits P.sparse (atNode (shareOf pos P mk).data gh' id) f b l ↔
        OfferWith S V (membersOf S.gh pos id) (some j) f b l) := fun id j P mk f b l hP =>
    hoffer (some j) P mk id f b l hP
  obtain ⟨ss, masks', r1, r2, r3, r4⟩ := splitBatch_okR S.cfg (S.cipher dep batch) (roundedError S bins m ε eg) ε
    (gainRange S bins m ε eg) M hδ hε hr.rounds (by rw [hfz]; linarith) (by linarith) hmz' (by rw [hfz]; exact hac)
    (hF dep batch) (nodes.map Node.id) hids ((nodes.map Node.id).map node) (by simp) gs.valid HG g2 (by
      intro hist hh
      obtain ⟨i, hi⟩ := List.mem_iff_getElem?.mp hh
      have hil := (List.getElem?_eq_some_iff.mp hi).1
      obtain ⟨q1, q2⟩ := hgf i (nodes.map Node.id)[i] hist (List.getElem?_eq_getElem (by omega)) hi
      refine ⟨by rw [q1, (hgood none S.guest [] rfl).valid], ⟨_, q2.last⟩, ?_⟩
      intro f b bs tot c a1 a2 a3 a4 a5 a6 a7
      obtain ⟨l0, o1, o2, o3, o4, o5⟩ := q2.offer f b bs tot c a1 a2 a3 a4 a5 a6 a7
      rw [hsumAt] at o4 o5
      obtain ⟨_, _, x, hx, _⟩ := guest_values hp hu hr (hnd _) (hmem _) ((hofferG _ f b l0).mp o1) o2 o3 o4 o5
      exact ⟨x, hx⟩)
    (hs.map fun H => ⟨H.idx, H.valid, Fe H, H.mask⟩) (by
      intro hcn
      have hl : hs.length = 0 := by rw [List.map_eq_nil_iff] at hcn; rw [hcn]; rfl
      rw [hhs, List.length_zipWith, ← hlen, min_self] at hl
      exact hu.hosts (List.eq_nil_of_length_eq_zero hl)) (by
      intro H' hH'
      obtain ⟨H, hH, rfl⟩ := List.mem_map.mp hH'
      have := (hFF H hH).2.1.length_eq
      simp only
      rw [this]
      unfold roundHist
      rw [List.length_map]
      exact (hFF H hH).2.2.1)
    (fun j i => ((hs[j]?.bind fun H => (roundHist S.cfg.rnd (Fp H))[i]?).getD [])) (by
      intro j H' i nd E hj hn hE
      obtain ⟨P, mk, hP, hHj, rfl⟩ := hget hj
      obtain ⟨id, hid, hmemid, rfl⟩ := hidx hn
      obtain ⟨q1, q2⟩ := hDj j i id P mk hP hHj hid
      have hgd := hgood (some j) P mk hP
      refine ⟨?_, ?_, ⟨_, q2.last⟩, ?_⟩
      · have h2 := (hFF _ (List.mem_of_getElem? hHj)).2.1
        have hil : i < List.length (Fe (shareOf pos P mk)) := (List.getElem?_eq_some_iff.mp hE).1
        have hil' : i < List.length (roundHist S.cfg.rnd (Fp (shareOf pos P mk))) := by rw [← h2.length_eq]; exact hil
        have h3 := List.Forall₂.get h2 hil hil'
        have e1 : (Fe (shareOf pos P mk)).get ⟨i, hil⟩ = E := (List.getElem?_eq_some_iff.mp hE).2
        rw [e1] at h3
        rw [hHj]
        simp only [Option.bind_some]
        rw [List.getElem?_eq_getElem hil']
        exact h3
      · simp only
        rw [q1]
        exact le_of_eq hgd.valid.symm
      · rintro f b c ⟨bs, tot, a1, a2, a3, a4, a5, a6, a7⟩
        obtain ⟨l', o1, o2, o3, _, _⟩ := q2.offer f b bs tot c a1 a2 a3 a4 a5 a6 a7
        have o1' := (hofferH id j P mk f b l' hP).mp o1
        obtain ⟨l0, o0⟩ := offerAt_of o1'
        obtain ⟨k1, k2⟩ := hclose id (some j) f b l' l0 o1' o0
        obtain ⟨_, _, x, hx, _, hx2⟩ := host_values hp hu hr (hnd id) (hmem id) hdep (hof id hmemid) o0 k1 k2 o2 o3
        exact ⟨x, hx, hx2⟩)
  have hnodeSums : (nodes.map Node.id).map node = nodes.map fun n => (n.sumGrad, n.sumHess) := by
    rw [List.map_map]
    apply List.map_congr_left
    intro n hn
    exact hnode n hn
  rw [hnodeSums] at r1
  refine ⟨ss, masks', ?_, by simpa using r2, ?_⟩
  · unfold batchSplits
    rw [hgsd] at g1
    have g1' : getHistograms (Histogram.floats S.cfg.rnd) S.guest.splits S.guest.sparse
        (some S.guest.valid) (nodes.map Node.id) dataPos S.gh = .ok HG := g1
    have hsides := hostSides_ok S hpos (nodes.map Node.id) S.hosts masks (hs.map Fe) hlen (by
      rw [List.forall₂_map_right_iff, List.forall₂_same]
      exact fun H hH => (hFF H hH).1)
    rw [← hhs, hzip] at hsides
    simp only [bind, Except.bind, g1', hsides]
    exact r1
  · intro idx n s hn hs'
    have hid : (nodes.map Node.id)[idx]? = some n.id := by rw [List.getElem?_map, hn]; rfl
    have hnm : n.id ∈ nodes.map Node.id := List.mem_of_getElem? hid
    have hch := r4 idx n.id (node n.id) s hid (by rw [List.getElem?_map, hid]; rfl) hs'
    refine follows_of_choice hr ?_ ?_ ?_ hch
    · intro j f b l x hv
      cases j with
      | none =>
        obtain ⟨hist, hh, bs, tot, c, a1, a2, a3, a4, a5, a6, a7, rfl, hx⟩ := hv
        obtain ⟨_, q2⟩ := hgf idx n.id hist hid hh
        obtain ⟨l0, o1, o2, o3, o4, o5⟩ := q2.offer f b bs tot c a1 a2 a3 a4 a5 a6 a7
        rw [hsumAt] at o4 o5
        have o1' := (hofferG _ f b l0).mp o1
        obtain ⟨k1, k2, y, hy, hy2, _⟩ := guest_values hp hu hr (hnd _) (hmem _) o1' o2 o3 o4 o5
        rw [hx, Except.ok.injEq] at hy
        subst hy
        exact ⟨l0, o1', k1, k2, hy2⟩
      | some j =>
        obtain ⟨H', hH', c, ⟨bs, tot, a1, a2, a3, a4, a5, a6, a7⟩, rfl, hx⟩ := hv
        obtain ⟨P, mk, hP, hHj, rfl⟩ := hget hH'
        obtain ⟨_, q2⟩ := hDj j idx n.id P mk hP hHj hid
        obtain ⟨l', o1, o2, o3, _, _⟩ := q2.offer f b bs tot c a1 a2 a3 a4 a5 a6 a7
        have o1' := (hofferH n.id j P mk f b l' hP).mp o1
        obtain ⟨l0, o0⟩ := offerAt_of o1'
        obtain ⟨k1, k2⟩ := hclose n.id (some j) f b l' l0 o1' o0
        obtain ⟨k3, k4, y, hy, hy2, _⟩ := host_values hp hu hr (hnd _) (hmem _) hdep (hof _ hnm) o0 k1 k2 o2 o3
        rw [hx, Except.ok.injEq] at hy
        subst hy
        exact ⟨l0, o0, k3, k4, hy2⟩
    · intro j f b l0 ho
      cases j with
      | none =>
        have hil : idx < (nodes.map Node.id).length := (List.getElem?_eq_some_iff.mp hid).1
        have hh : HG[idx]? = some HG[idx] := List.getElem?_eq_getElem (by omega)
        obtain ⟨_, q2⟩ := hgf idx n.id _ hid hh
        obtain ⟨bs, tot, c, a1, a2, a3, a4, a5, a6, a7, o2, o3, o4, o5⟩ := q2.cell f b l0 ((hofferG _ f b l0).mpr ho)
        rw [hsumAt] at o4 o5
        obtain ⟨_, _, y, hy, hy2, _⟩ := guest_values hp hu hr (hnd _) (hmem _) ho o2 o3 o4 o5
        exact ⟨_, y, ⟨_, hh, bs, tot, c, a1, a2, a3, a4, a5, a6, a7, rfl, hy⟩, hy2⟩
      | some j =>
        obtain ⟨P, _, hP, _⟩ := id ho
        obtain ⟨mk, hHj⟩ := hshareOf j P hP
        obtain ⟨l', o1⟩ := offerWith_of V ho
        obtain ⟨_, q2⟩ := hDj j idx n.id P mk hP hHj hid
        obtain ⟨bs, tot, c, a1, a2, a3, a4, a5, a6, a7, o2, o3, _, _⟩ :=
          q2.cell f b l' ((hofferH n.id j P mk f b l' hP).mpr o1)
        obtain ⟨k1, k2⟩ := hclose n.id (some j) f b l' l0 o1 ho
        obtain ⟨_, _, y, hy, hy2, _⟩ := host_values hp hu hr (hnd _) (hmem _) hdep (hof _ hnm) ho k1 k2 o2 o3
        refine ⟨_, y, ⟨⟨P.idx, P.valid, Fe (shareOf pos P mk), mk⟩, by rw [List.getElem?_map, hHj]; rfl, c,
          ⟨bs, tot, a1, a2, a3, a4, a5, a6, a7⟩, rfl, hy⟩, hy2⟩
    · intro j P hP
      obtain ⟨mk, hHj⟩ := hshareOf j P hP
      simp only [List.getElem?_map, hHj, Option.map_some, Option.getD_some]
      rfl

end

end DTree
end Verif
