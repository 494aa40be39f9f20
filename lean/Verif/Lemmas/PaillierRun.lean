import Verif.Lemmas.EncView
import Verif.Lemmas.RawRun

/-! # Paillier runs make the federated choice -/

set_option autoImplicit false

namespace Verif
namespace DTree

open Spec Histogram Paillier
open Binning (Cell SparseVec)

variable {K : Type} [DecidableEq K] {α : Type}

/-- The guest can read gains and histograms of the hosts, and gains can be computed. -/
structure Readers (S : Setup K α) (V : View K) (δ B : Rat) : Prop where
  small : δ ≤ 1 / 10 ^ 6
  base : |S.cfg.minImpurity - 1 / 10 ^ 6| ≤ B
  cipher : ∀ d b, Faithful (S.cipher d b) δ B
  keys : V.gh.data.keys = S.gh.data.keys
  hists : ∀ d b (H : Share K) ids Hp,
    getHistograms plain H.splits H.sparse (some H.valid) ids H.data V.gh = .ok Hp →
    (∀ fh ∈ Hp, ∀ bins ∈ fh, ∀ c ∈ bins, |c.1| ≤ (V.gh.data.map fun x => |x.2.1|).sum ∧
      |c.2.1| ≤ (V.gh.data.map fun x => |x.2.2|).sum) →
    ∃ HE, getHistograms S.arith H.splits H.sparse (some H.valid) ids H.data S.encGh = .ok HE ∧
      List.Forall₂ (List.Forall₂ (List.Forall₂ (Readable (S.cipher d b) S.cfg.minLeaf))) HE Hp
  safe : ∀ d A s j f b l, d < S.maxDepth → A.Nodup → (∀ k ∈ A, k ∈ S.gh.data.keys) → V.near d A s →
    OfferWith S V A (some j) f b l →
    Safe S.cfg.regLambda s l ∧ |gain S.cfg.regLambda s l| ≤ B

theorem Readers.chooses {δ B m : Rat} {S : Setup K α} [S.cfg.Exact] {V : View K} (hp : Prepared S) (hu : Usual S m)
    (hr : Readers S V δ B) : Chooses S V δ := by
  intro dep batch pos dataPos nodes masks hpos hjoin hnodes hids hlen hdep hsums
  have hguestKeys : ∀ j P, partyAt S j = some P → ∀ k ∈ S.gh.data.keys, k ∈ P.data.data.keys :=
    fun j P hP k hk => ((hp.parties j P hP).2.2.2.2 k).mpr hk
  have hjoinOf : ∀ P : Party K, P.data.join pos (fun v p => (v, p)) =
      .ok ⟨DTable.joinLoop P.data.data (fun v p => (v, p)) pos.data⟩ := fun P => DTable.join_ok P.data hpos _
  have hdp : dataPos = ⟨DTable.joinLoop S.guest.data.data (fun v p => (v, p)) pos.data⟩ := by
    rw [hjoinOf S.guest] at hjoin; exact (Except.ok.inj hjoin).symm
  set gs := shareOf pos S.guest [] with hgs
  have hgsd : gs.data = dataPos := by rw [hdp]; rfl
  set hs := List.zipWith (shareOf pos) S.hosts masks with hhs
  have hgood : ∀ j P mk, partyAt S j = some P → (shareOf pos P mk).Good := by
    intro j P mk hP
    obtain ⟨h1, h2, _, h4, _⟩ := hp.parties j P hP
    refine ⟨h1, h2, fun k x hx => ?_⟩
    obtain ⟨_, jj⟩ := DTable.join_inv (hjoinOf P)
    obtain ⟨v, w, a1, _, rfl⟩ := (jj k x).mp hx
    exact h4 k v a1
  have hagree : ∀ j P mk, partyAt S j = some P → (shareOf pos P mk).Agrees gs := by
    intro j P mk hP k
    have hiff : k ∈ P.data.data.keys ↔ k ∈ S.guest.data.data.keys := by
      rw [(hp.parties j P hP).2.2.2.2 k, (hp.parties none S.guest rfl).2.2.2.2 k]
    simp only [shareOf, hgs]
    rw [DTable.joinLoop_get?, DTable.joinLoop_get?]
    cases h1 : P.data.data.get? k with
    | none =>
      have h2 : S.guest.data.data.get? k = none := by
        rw [Dict.get?_eq_none_iff, ← hiff, ← Dict.get?_eq_none_iff]; exact h1
      rw [h2]
    | some v =>
      obtain ⟨w, h2⟩ := Dict.exists_get?_of_mem (hiff.mp (Dict.mem_keys_of_get? h1))
      rw [h2]
      cases pos.data.get? k <;> rfl
  have hpartyOf : ∀ (j : Nat) H, hs[j]? = some H → ∃ P mk, partyAt S (some j) = some P ∧ H = shareOf pos P mk := by
    intro j H hj
    rw [hhs, List.getElem?_zipWith] at hj
    cases h1 : S.hosts[j]? with
    | none => rw [h1] at hj; cases hj
    | some P =>
      cases h2 : masks[j]? with
      | none => rw [h1, h2] at hj; cases hj
      | some mk => rw [h1, h2] at hj; exact ⟨P, mk, h1, (Option.some.inj hj).symm⟩
  have hwV : V.gh.WF := by unfold DTable.WF Dict.WF; rw [hr.keys]; exact hp.wf
  have hwj : ∀ j, (seenBy S V j).WF := fun j => by cases j; exacts [hp.wf, hwV]
  have hkj : ∀ j, (seenBy S V j).data.keys = S.gh.data.keys := fun j => by cases j; exacts [rfl, hr.keys]
  have hmj : ∀ j id, membersOf (seenBy S V j) pos id = membersOf S.gh pos id := fun j id => by
    unfold membersOf; rw [hkj j]
  have hat : ∀ j P mk id, partyAt S j = some P → atNode (shareOf pos P mk).data (seenBy S V j) id =
      (membersOf S.gh pos id).map fun k => (rowOf P k, ghOf (seenBy S V j) k) := by
    intro j P mk id hP
    rw [← hmj j id]
    exact atNode_members (hwj j) (fun k hk => hguestKeys j P hP k (by rw [← hkj j]; exact hk)) (hjoinOf P) id
  have hsumAt : ∀ id, sumsOf (atNode gs.data S.gh id) = sumKeys S.gh (membersOf S.gh pos id) := by
    intro id
    rw [hgs, show atNode (shareOf pos S.guest []).data S.gh id = _ from hat none S.guest [] id rfl, sumsOf_members]
    rfl
  have hmem : ∀ id, ∀ k ∈ membersOf S.gh pos id, k ∈ S.gh.data.keys := fun id k hk =>
    (List.mem_filter.mp hk).1
  have hoffer : ∀ j P mk id f b l, partyAt S j = some P →
      (OfferedOn S.cfg P.valid P.splits P.sparse (atNode (shareOf pos P mk).data (seenBy S V j) id) f b l ↔
        OfferWith S V (membersOf S.gh pos id) j f b l) := by
    intro j P mk id f b l hP
    rw [hat j P mk id hP, offeredOn_members S P _ (seenBy S V j) fun k hk => hguestKeys j P hP k (hmem id k hk)]
    unfold OfferWith
    constructor
    · rintro ⟨sp, h⟩; exact ⟨P, sp, hP, h⟩
    · rintro ⟨P', sp, hP', h⟩
      rw [hP, Option.some.injEq] at hP'
      subst hP'
      exact ⟨sp, h⟩
  have hcentral : ∀ id, mixedOffers S.cfg S.gh V.gh id gs hs = OfferWith S V (membersOf S.gh pos id) := by
    intro id
    funext j f b l
    apply propext
    cases j with
    | none => exact hoffer none S.guest [] id f b l rfl
    | some j =>
      unfold mixedOffers
      simp only
      constructor
      · rintro ⟨H, hH, ho⟩
        obtain ⟨P, mk, hP, rfl⟩ := hpartyOf j H hH
        exact (hoffer (some j) P mk id f b l hP).mp ho
      · intro ho
        have ho' := ho
        obtain ⟨P, sp, hP, _⟩ := ho'
        have hjl : j < S.hosts.length := (List.getElem?_eq_some_iff.mp hP).1
        refine ⟨shareOf pos P masks[j], ?_, (hoffer (some j) P _ _ f b l hP).mpr ho⟩
        simp only [partyAt] at hP
        rw [hhs, List.getElem?_zipWith, hP, List.getElem?_eq_getElem (by omega)]
  have hmG : ∀ id, Regular S.cfg (atNode gs.data S.gh id) := by
    intro id
    have hh : ∀ s ∈ atNode gs.data S.gh id, 0 ≤ s.2.2 ∧ m ≤ s.2.2 + S.cfg.regLambda := by
      intro s hs'
      rw [hgs, show atNode (shareOf pos S.guest []).data S.gh id = _ from hat none S.guest [] id rfl] at hs'
      obtain ⟨k, hk, rfl⟩ := List.mem_map.mp hs'
      exact hu.hess.2 _ (ghOf_mem (hmem id k hk))
    rcases lt_or_eq_of_le hu.lam with h | h
    · exact .inl ⟨h, fun s hs' => (hh s hs').1⟩
    · refine .inr ⟨hu.lam, hu.leaf, fun s hs' => ?_⟩
      have h1 := (hh s hs').2
      have h2 := hu.hess.1
      rw [← h] at h1
      linarith
  have hnode : ∃ node : Nat → Rat × Rat, ∀ n ∈ nodes, node n.id = (n.sumGrad, n.sumHess) := by
    refine ⟨fun id => ((nodes.find? fun n => n.id == id).map fun n => (n.sumGrad, n.sumHess)).getD (0, 0), ?_⟩
    intro n hn
    have : nodes.find? (fun x => x.id == n.id) = some n := by
      clear hnodes hsums
      induction nodes with
      | nil => cases hn
      | cons x nodes ih =>
        simp only [List.map_cons, List.nodup_cons] at hids
        rcases List.mem_cons.mp hn with rfl | hn
        · simp
        · have hne : x.id ≠ n.id := fun h => hids.1 (h ▸ List.mem_map_of_mem hn)
          rw [List.find?_cons_of_neg (by simpa using hne)]
          exact ih hids.2 hn
    simp only [this, Option.map_some, Option.getD_some]
  obtain ⟨node, hnode⟩ := hnode
  have hof : ∀ id ∈ nodes.map Node.id, V.near dep (membersOf S.gh pos id) (node id) := by
    intro id hid
    obtain ⟨n, hn, rfl⟩ := List.mem_map.mp hid
    rw [hnode n hn]
    exact hsums n hn
  obtain ⟨HG, HEs, r1, r2, ss, masks', r3, r4, r5, r6, r7⟩ :=
    mixed_choice S.arith (S.cipher dep batch) δ B (hr.cipher dep batch) hr.small S.cfg
      hr.base gs (hgood none S.guest [] rfl) hs (by
        intro hc
        have hl : hs.length = 0 := by rw [hc]; rfl
        rw [hhs, List.length_zipWith, ← hlen, min_self] at hl
        exact hu.hosts (List.eq_nil_of_length_eq_zero hl)) (by
        intro H hH
        obtain ⟨j, hj⟩ := List.mem_iff_getElem?.mp hH
        obtain ⟨P, mk, hP, rfl⟩ := hpartyOf j H hj
        exact ⟨hgood _ P mk hP, hagree _ P mk hP⟩)
      (nodes.map Node.id) hids (by simpa using hnodes) S.encGh S.gh V.gh hp.wf hwV node
      (fun H _ Hp h1 h2 => hr.hists dep batch H _ Hp h1 h2)
      (by
        intro id _ f b l ho
        obtain ⟨_, _, _, e3, e4, e5⟩ := ho
        rw [e5]
        exact safe_of_regular S.cfg gs.sparse _ (hmG id) f b e3 e4)
      (by
        intro id hid j f b l ho
        rw [hcentral id] at ho
        exact (hr.safe dep _ _ j f b l hdep (List.Nodup.filter _ hp.wf) (hmem id) (hof id hid) ho).1)
      (by
        intro id hid j f b l ho
        rw [hcentral id] at ho
        exact (hr.safe dep _ _ j f b l hdep (List.Nodup.filter _ hp.wf) (hmem id) (hof id hid) ho).2)
  have hnodeSums : (nodes.map Node.id).map node = nodes.map fun n => (n.sumGrad, n.sumHess) := by
    rw [List.map_map]
    apply List.map_congr_left
    intro n hn
    exact hnode n hn
  rw [hnodeSums] at r3
  refine ⟨ss, masks', ?_, by simpa using r4, ?_⟩
  · unfold batchSplits
    simp only [hgsd] at r1
    have hsides := hostSides_ok S hpos (nodes.map Node.id) S.hosts masks HEs hlen r2
    simp only [bind, Except.bind]
    have r1' : getHistograms (Histogram.floats S.cfg.rnd) S.guest.splits S.guest.sparse
        (some S.guest.valid) (nodes.map Node.id) dataPos S.gh = .ok HG := by
      rw [Config.Exact.rnd_eq]; exact r1
    rw [r1']
    simp only
    rw [hsides]
    simp only
    exact r3
  · intro idx n s hn hs'
    have := r7 idx n.id s (by rw [List.getElem?_map, hn]; rfl) hs'
    rw [hcentral, hsumAt, hnode n (List.mem_of_getElem? hn)] at this
    have hsite : (fun j : Nat => Site.host ((hs[j]?.map Share.idx).getD 0)) =
        (fun j : Nat => Site.host ((S.hosts[j]?.map Party.idx).getD 0)) := by
      funext j
      congr 2
      rw [hhs, List.getElem?_zipWith]
      cases h1 : S.hosts[j]? with
      | none => rfl
      | some P =>
        have hj : j < S.hosts.length := (List.getElem?_eq_some_iff.mp h1).1
        rw [List.getElem?_eq_getElem (by omega : j < masks.length)]
        rfl
    rw [hsite] at this
    exact this

theorem safe_exact {S : Setup K α} {m : Rat} (hp : Prepared S) (hu : Usual S m) {d : Nat}
    (hd : d < S.maxDepth) {A : List K} {s : Rat × Rat} (hA : A.Nodup) (hk : ∀ k ∈ A, k ∈ S.gh.data.keys)
    (hn : (exactView S).near d A s) {j : Option Nat} {f b : Nat} {l : Rat × Rat}
    (ho : OfferWith S (exactView S) A j f b l) :
    Safe S.cfg.regLambda s l ∧ |gain S.cfg.regLambda s l| ≤
      max (2 * gradSize S 0 ^ 2 / m) |S.cfg.minImpurity - 1 / 10 ^ 6| := by
  have hn : s = sumKeys S.gh A := hn
  have hm := hu.hess.1
  obtain ⟨s1, s2⟩ := safe_enc hp hu (Close.refl S.gh) (by simp; linarith) hd hk
    (s := s) ⟨hA, by rw [hn]; simp, by rw [hn]; simp⟩ rfl ho
  refine ⟨s1, s2.trans ?_⟩
  simp [gradSize]

omit [DecidableEq K] in
/-- The numbers that the ciphertexts stand for. -/
theorem encrypted_values {sk : PrivKey} {lo hi : Int} {eg eh : Rat} :
    ∀ {enc : List (K × EncNum × EncNum)} {gh : List (K × Rat × Rat)},
      List.Forall₂ (fun a b => a.1 = b.1 ∧ EncryptionOf sk lo hi eg a.2.1 b.2.1 ∧
        EncryptionOf sk lo hi eh a.2.2 b.2.2) enc gh →
      ∃ gh' : List (K × Rat × Rat),
        List.Forall₂ (fun a b => a.1 = b.1 ∧ CiphertextOf sk lo hi a.2.1 b.2.1 ∧
          CiphertextOf sk lo hi a.2.2 b.2.2) enc gh' ∧
        List.Forall₂ (fun a b => a.1 = b.1 ∧ |a.2.1 - b.2.1| ≤ eg ∧ |a.2.2 - b.2.2| ≤ eh) gh' gh
  | _, _, .nil => ⟨[], .nil, .nil⟩
  | _, _, .cons (a := a) (b := b) ⟨h1, ⟨w, h2, h3⟩, v, h4, h5⟩ t => by
    obtain ⟨gh', g1, g2⟩ := encrypted_values t
    exact ⟨(b.1, w, v) :: gh', .cons ⟨h1, h2, h4⟩ g1, .cons ⟨rfl, h3, h5⟩ g2⟩

omit [DecidableEq K] in
theorem sum_abs_close {r : K × Rat × Rat → K × Rat × Rat → Prop} {f : K × Rat × Rat → Rat} {e : Rat}
    (hr : ∀ a b, r a b → |f a - f b| ≤ e) : ∀ {l l' : List (K × Rat × Rat)}, List.Forall₂ r l l' →
      (l.map fun x => |f x|).sum ≤ (l'.map fun x => |f x|).sum + l'.length * e
  | _, _, .nil => by simp
  | _, _, .cons (a := a) (b := b) h t => by
    have ih := sum_abs_close hr t
    have h1 := hr _ _ h
    have h2 := abs_sub_abs_le_abs_sub (f a) (f b)
    simp only [List.map_cons, List.sum_cons, List.length_cons]
    push_cast
    linarith

/-- What the hosts' ciphertexts stand for, and that the guest can read it. -/
theorem paillier_readers {p q : Nat} {sk : PrivKey} {lo hi : Int} {m eg eh : Rat} {S : Setup K Histogram.Num}
    (hp : Prepared S) (hu : Usual S m) (hr : PaillierRun p q sk lo hi m eg eh S) :
    ∃ gh', Close gh' S.gh (S.gh.data.length * eg) (S.gh.data.length * eh) ∧
      Readers S (encView S gh' (S.gh.data.length * eg) (S.gh.data.length * eh)) (gainError S m eg)
        (max (2 * gradSize S eg ^ 2 / m) |S.cfg.minImpurity - 1 / 10 ^ 6|) := by
  obtain ⟨draw, hdraw, hcipher⟩ := hr.cipher
  obtain ⟨enc, henc, hencs⟩ := hr.enc
  obtain ⟨gh', g1, g2⟩ := encrypted_values hencs
  have hc : Close ⟨gh'⟩ S.gh (S.gh.data.length * eg) (S.gh.data.length * eh) := close_of hp.wf hr.errors g2
  have h16 : (0 : Rat) ≤ (16 : Rat) ^ hi := zpow_nonneg (by norm_num) _
  have hw' : (⟨gh'⟩ : DTable K (Rat × Rat)).WF := by unfold DTable.WF Dict.WF; rw [hc.keys]; exact hp.wf
  refine ⟨⟨gh'⟩, hc, hr.accuracy, le_max_right _ _, fun d b => ?_, hc.keys, fun d b H ids Hp h1 h2 => ?_,
    fun d A s j f b l hd hA hk hn ho => ?_⟩
  · rw [hcipher]
    exact paillier_faithful p q sk hr.key hr.big _ (hdraw d b) _
  · rw [hr.arith, henc, hcipher]
    refine paillier_reads p q sk hr.key lo hi hr.hi0 hr.gap _ S.cfg hu.leaf H ids enc ⟨gh'⟩ hw' g1 ?_ ?_ Hp h1 h2
    · refine le_trans (mul_le_mul_of_nonneg_right ?_ h16) hr.windowG
      exact sum_abs_close (f := fun x => x.2.1) (fun a b h => h.2.1) g2
    · refine le_trans (mul_le_mul_of_nonneg_right ?_ h16) hr.windowH
      exact sum_abs_close (f := fun x => x.2.2) (fun a b h => h.2.2) g2
  · obtain ⟨s1, s2⟩ := safe_enc hp hu hc hr.room hd hk hn rfl ho
    exact ⟨s1, s2.trans (le_max_left _ _)⟩

theorem encrypts_zero {sk : PrivKey} {lo hi : Int} {X : EncNum} {v : Rat} (h : EncryptionOf sk lo hi 0 X v) :
    CiphertextOf sk lo hi X v := by
  obtain ⟨w, h1, h2⟩ := h
  have : w = v := by
    have := abs_nonpos_iff.mp h2
    linarith
  rw [← this]; exact h1

theorem paillier_readers_exact {p q : Nat} {sk : PrivKey} {lo hi : Int} {m : Rat} {S : Setup K Histogram.Num}
    (hp : Prepared S) (hu : Usual S m) (hr : PaillierRun p q sk lo hi m 0 0 S) :
    Readers S (exactView S) (gainError S m 0)
      (max (2 * gradSize S 0 ^ 2 / m) |S.cfg.minImpurity - 1 / 10 ^ 6|) := by
  obtain ⟨draw, hdraw, hcipher⟩ := hr.cipher
  obtain ⟨enc, henc, hencs⟩ := hr.enc
  refine ⟨hr.accuracy, le_max_right _ _, fun d b => ?_, rfl, fun d b H ids Hp h1 h2 => ?_,
    fun d A s j f b l hd hA hk hn ho => safe_exact hp hu hd hA hk hn ho⟩
  · rw [hcipher]
    exact paillier_faithful p q sk hr.key hr.big _ (hdraw d b) _
  · rw [hr.arith, henc, hcipher]
    exact paillier_reads p q sk hr.key lo hi hr.hi0 hr.gap _ S.cfg hu.leaf H ids enc S.gh hp.wf
      (hencs.imp fun a b h => ⟨h.1, encrypts_zero h.2.1, encrypts_zero h.2.2⟩)
      (by simpa using hr.windowG) (by simpa using hr.windowH) Hp h1 h2

theorem paillier_chooses {p q : Nat} {sk : PrivKey} {lo hi : Int} {m : Rat} {S : Setup K Histogram.Num} [S.cfg.Exact]
    (hp : Prepared S) (hu : Usual S m) (hr : PaillierRun p q sk lo hi m 0 0 S) :
    Chooses S (exactView S) (gainError S m 0) := (paillier_readers_exact hp hu hr).chooses hp hu

end DTree
end Verif
