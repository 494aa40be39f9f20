import Verif.Lemmas.Redispatch
import Verif.Lemmas.RawWalk
import Verif.Lemmas.DTableM

/-! # Moving the samples succeeds -/

set_option autoImplicit false

namespace Verif

namespace DTable
variable {K V W X : Type} [DecidableEq K]

omit [DecidableEq K] in
theorem evalRecords_total (f : V → Except PyErr W) (l : List (K × V))
    (h : ∀ p ∈ l, ∃ w, f p.2 = .ok w) : ∃ r, evalRecords f l = .ok r := by
  induction l with
  | nil => exact ⟨[], rfl⟩
  | cons p l ih =>
    obtain ⟨k, v⟩ := p
    obtain ⟨w, hw⟩ := h (k, v) (by simp)
    obtain ⟨r, hr⟩ := ih fun q hq => h q (by simp [hq])
    refine ⟨(k, w) :: r, ?_⟩
    unfold evalRecords
    simp only at hw
    rw [hw]
    simp only
    rw [hr]

theorem mapValuesM_succeeds {t : DTable K V} (ht : t.WF) (f : V → Except PyErr W)
    (h : ∀ k v, t.data.get? k = some v → ∃ w, f v = .ok w) : ∃ r, t.mapValuesM f = .ok r := by
  obtain ⟨r, hr⟩ := evalRecords_total f t.data fun p hp => h p.1 p.2 (Dict.get?_of_mem ht hp)
  refine ⟨⟨r⟩, ?_⟩
  unfold mapValuesM
  rw [hr]
  simp only [Except.bind]
  apply ofPairs_ok
  rw [(evalRecords_inv f _ r hr).1]
  exact ht

theorem joinM_succeeds (t : DTable K V) {o : DTable K W} (ho : o.WF) (f : V → W → Except PyErr X)
    (h : ∀ k v w, t.data.get? k = some v → o.data.get? k = some w → ∃ x, f v w = .ok x) :
    ∃ r, t.joinM o f = .ok r := by
  have hwf := joinLoop_WF t.data (Prod.mk : V → W → V × W) ho
  obtain ⟨r, hr⟩ := evalRecords_total (fun p : V × W => f p.1 p.2) (joinLoop t.data Prod.mk o.data) (by
    intro p hp
    have hg := Dict.get?_of_mem hwf hp
    rw [joinLoop_get?] at hg
    cases h1 : t.data.get? p.1 with
    | none => rw [h1] at hg; cases hg
    | some v =>
      cases h2 : o.data.get? p.1 with
      | none => rw [h1, h2] at hg; cases hg
      | some w =>
        rw [h1, h2] at hg
        simp only [Option.some.injEq] at hg
        rw [← hg]
        exact h p.1 v w h1 h2)
  refine ⟨⟨r⟩, ?_⟩
  unfold joinM
  rw [hr]
  simp only [Except.bind]
  apply ofPairs_ok
  rw [(evalRecords_inv _ _ r hr).1]
  exact hwf

end DTable

namespace DTree

open Spec
open Binning (Cell SparseVec)

variable {K : Type} [DecidableEq K] {α : Type}

theorem binTest_ok {mask : Dict Nat Int} {sparse : Dict Nat Nat} {nid f z : Nat} {bid : Int}
    (row : SparseVec Cell) (h1 : mask.get? nid = some bid) (h2 : sparse.get? f = some z) :
    ∃ b, binTest mask sparse nid (some (f : Int)) row = .ok b := by
  unfold binTest decodeVal atFid
  rw [h1]
  simp only [bind, Except.bind]
  rw [if_neg (by omega)]
  simp only [Int.toNat_natCast, h2]
  exact ⟨_, rfl⟩

/-- The node can decide every sample. -/
def Decides (S : Setup K α) (gm : Dict Nat Int) (ms : List (Dict Nat Int)) (i : Nat) (n : Node) : Prop :=
  ∃ j P m f z bid l, partyAt S j = some P ∧ n.site = siteName P j ∧ maskAt gm ms j = some m ∧
    Dict.get? m i = some bid ∧ n.fid = some ((f : Nat) : Int) ∧ P.sparse.get? f = some z ∧
    n.left = some l ∧ n.right = some (l + 1)

theorem combine_ok : ∀ (ts : List (DTable K Disp)) (a : DTable K Disp), a.WF → (∀ t ∈ ts, t.WF) →
    ∃ d, combine (some a) ts = .ok (some d) ∧ d.WF
  | [], a, ha, _ => ⟨a, rfl, ha⟩
  | t :: ts, a, ha, ht => by
    unfold combine
    rw [DTable.join_ok a (ht t (by simp))]
    exact combine_ok ts _ (DTable.joinLoop_WF _ _ (ht t (by simp))) fun u hu => ht u (by simp [hu])

theorem hostAnswers_ok {toHost : DTable K Disp} :
    ∀ (Hs : List (Party K)) (ms : List (Dict Nat Int)),
      (∀ (j : Nat) H m, Hs[j]? = some H → ms[j]? = some m →
        ∃ t, toHost.joinM H.data (dispatchHost (.host H.idx) m H.sparse) = .ok t) →
      ∃ ts, hostAnswers toHost Hs ms = .ok ts ∧ ∀ t ∈ ts, t.WF
  | [], ms, _ => ⟨[], by unfold hostAnswers; rfl, by simp⟩
  | _ :: _, [], _ => ⟨[], by unfold hostAnswers; rfl, by simp⟩
  | H :: Hs, m :: ms, h => by
    obtain ⟨t, ht⟩ := h 0 H m rfl rfl
    obtain ⟨ts, hts, hwf⟩ := hostAnswers_ok Hs ms fun j H m h1 h2 =>
      h (j + 1) H m (by simpa using h1) (by simpa using h2)
    refine ⟨t :: ts, ?_, ?_⟩
    · unfold hostAnswers
      simp only [bind, Except.bind, ht, hts]
      rfl
    · intro u hu
      rcases List.mem_cons.mp hu with rfl | hu
      · exact (DTable.joinM_inv ht).1
      · exact hwf u hu

theorem redispatch_ok {S : Setup K α} {g : Grow} {masks : List (Dict Nat Int)}
    {dataPos : DTable K (SparseVec Cell × Nat × Nat)} {w : Option (DTable K Rat)}
    (hidx : (S.hosts.map Party.idx).Nodup) (hwf : dataPos.WF) (hw : ∀ t, w = some t → t.WF)
    (hdata : ∀ H ∈ S.hosts, H.data.WF)
    (hnode : ∀ k row st nid, dataPos.data.get? k = some (row, st, nid) → ∃ n, g.tree[nid]? = some n ∧
      (n.isLeaf = true ∨ Decides S g.mask masks nid n)) :
    ∃ r, redispatch S g masks dataPos w = .ok r := by
  have hdn : ∀ k v, dataPos.data.get? k = some v →
      ∃ d, dispatchNode g.tree g.mask S.guest.sparse v = .ok d := by
    rintro k ⟨row, st, nid⟩ hk
    obtain ⟨n, hn, hc⟩ := hnode k row st nid hk
    unfold dispatchNode
    simp only [hn]
    by_cases hl : n.isLeaf = true
    · rw [if_pos hl]; exact ⟨_, rfl⟩
    · rw [if_neg hl]
      rcases hc with hc | ⟨j, P, m, f, z, bid, l, h1, h2, h3, h4, h5, h6, h7, h8⟩
      · exact absurd hc hl
      have hkids : kids n = .ok (l, l + 1) := by unfold kids; rw [h7, h8]
      cases j with
      | none =>
        simp only [partyAt, Option.some.injEq] at h1
        simp only [maskAt, Option.some.injEq] at h3
        subst h1 h3
        simp only [siteName] at h2
        rw [h2]
        obtain ⟨b, hb⟩ := binTest_ok (nid := nid) row h4 h6
        simp only [bind, Except.bind, h5, hb, hkids]
        exact ⟨_, rfl⟩
      | some j =>
        simp only [siteName] at h2
        rw [h2]
        simp only [bind, Except.bind, hkids]
        exact ⟨_, rfl⟩
  obtain ⟨res0, e0⟩ := DTable.mapValuesM_succeeds hwf _ hdn
  obtain ⟨w0, i0⟩ := DTable.mapValuesM_inv e0
  have e1 := DTable.filter_ok w0 fun _ d => d.isAsk
  set toHost : DTable K Disp := ⟨res0.data.filter fun p => p.2.isAsk⟩ with htoHost
  obtain ⟨wH, iH⟩ := DTable.filter_inv w0 e1
  have e2 := DTable.subtractByKey_ok w0 toHost
  obtain ⟨w2, _⟩ := DTable.subtractByKey_inv w0 e2
  have e3 := DTable.filter_ok w2 fun _ d => d.isLeaf
  obtain ⟨w3, _⟩ := DTable.filter_inv w2 e3
  have e4 := DTable.mapValues_ok w3 Disp.weight
  unfold redispatch
  simp only [bind, Except.bind, e0, e1, e2, e3, e4]
  have e5 : ∀ lw, ∃ t, addWeights w lw = .ok t := by
    intro lw
    unfold addWeights
    cases w with
    | none => exact ⟨_, rfl⟩
    | some t => exact ⟨_, DTable.union_ok (hw t rfl) _ _⟩
  obtain ⟨t, ht⟩ := e5 _
  rw [ht]
  have e6 : ∀ {W : Type} (o : DTable K W), _ := fun {W} o => DTable.subtractByKey_ok w2 o
  simp only [e6]
  have hans : ∀ (j : Nat) H m, S.hosts[j]? = some H → masks[j]? = some m →
      ∃ t, toHost.joinM H.data (dispatchHost (.host H.idx) m H.sparse) = .ok t := by
    intro j H m hj hm
    apply DTable.joinM_succeeds _ (hdata H (List.mem_of_getElem? hj))
    intro k d row hk hrow
    obtain ⟨hk, hask⟩ := (iH k d).mp hk
    obtain ⟨v, hv, hd⟩ := (i0 k d).mp hk
    obtain ⟨row', st, nid⟩ := v
    obtain ⟨n, hn, hc⟩ := dispatchNode_inv hd
    obtain ⟨n', hn', hc'⟩ := hnode k row' st nid hv
    simp only at hn
    rw [hn, Option.some.injEq] at hn'
    subst hn'
    rcases hc with ⟨_, rfl⟩ | ⟨_, _, b, l, r, _, _, _, rfl⟩ | ⟨hl, i, l, r, hs, _, _, rfl⟩
    · cases hask
    · cases hask
    · unfold dispatchHost
      simp only [ne_eq, Site.host.injEq]
      by_cases hi : i = H.idx
      · rw [if_neg (by simpa using hi)]
        rcases hc' with hc' | ⟨j', P, m', f, z, bid, l', h1, h2, h3, h4, h5, h6, _⟩
        · rw [hl] at hc'; cases hc'
        have hjj : j' = some j := party_unique hidx h1 (show partyAt S (some j) = some H from hj) (by
          rw [← h2, hs, hi]; rfl)
        subst hjj
        simp only [partyAt] at h1
        rw [hj, Option.some.injEq] at h1
        simp only [maskAt] at h3
        rw [hm, Option.some.injEq] at h3
        subst h1 h3
        obtain ⟨b, hb⟩ := binTest_ok (nid := nid) row h4 h6
        simp only [bind, Except.bind, h5, hb]
        exact ⟨_, rfl⟩
      · rw [if_pos (by simpa using hi)]
        exact ⟨_, rfl⟩
  obtain ⟨ts, hts, htw⟩ := hostAnswers_ok S.hosts masks hans
  simp only [hts]
  have hcomb : ∃ r, combine none ts = .ok r ∧ ∀ d, r = some d → d.WF := by
    cases ts with
    | nil => exact ⟨none, rfl, by simp⟩
    | cons t0 ts =>
      unfold combine
      obtain ⟨d, h1, h2⟩ := combine_ok ts t0 (htw t0 (by simp)) fun u hu => htw u (by simp [hu])
      exact ⟨_, h1, fun d' h => by cases h; exact h2⟩
  obtain ⟨r, hr, hrw⟩ := hcomb
  simp only [hr]
  unfold addPositions
  cases r with
  | none => exact ⟨_, rfl⟩
  | some d =>
    simp only [DTable.union_ok (hrw d rfl)]
    exact ⟨_, rfl⟩

end DTree
end Verif
