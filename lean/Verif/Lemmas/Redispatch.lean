import Verif.Lemmas.Sites
import Verif.Lemmas.Tables

/-! # Moving the samples one level down -/

set_option autoImplicit false

namespace Verif
namespace DTree

open Spec
open Binning (Cell SparseVec)

variable {K : Type} [DecidableEq K] {α : Type}

/-- The recorded bins of a party. -/
def maskAt (gmask : Dict Nat Int) (masks : List (Dict Nat Int)) : Option Nat → Option (Dict Nat Int)
  | none => some gmask
  | some j => masks[j]?

/-- The side sample `k` takes at the inner node `n` (number `i`), by the recorded bins. -/
def BinSide (S : Setup K α) (gmask : Dict Nat Int) (masks : List (Dict Nat Int)) (k : K) (i : Nat)
    (n : Node) (b : Bool) : Prop :=
  ∃ j P m row f z bid, partyAt S j = some P ∧ n.site = siteName P j ∧
    maskAt gmask masks j = some m ∧ Dict.get? m i = some bid ∧ P.data.data.get? k = some row ∧
    n.fid = some ((f : Nat) : Int) ∧ P.sparse.get? f = some z ∧
    b = decide ((row.getData f (.bin z)).val ≤ (bid : Rat))

theorem binTest_inv {mask : Dict Nat Int} {sparse : Dict Nat Nat} {nid : Nat} {fid : Option Int}
    {row : SparseVec Cell} {b : Bool} (h : binTest mask sparse nid fid row = .ok b) :
    ∃ (bid : Int) (f z : Nat), mask.get? nid = some bid ∧ fid = some (f : Int) ∧
      sparse.get? f = some z ∧ b = decide ((row.getData f (.bin z)).val ≤ (bid : Rat)) := by
  unfold binTest decodeVal at h
  cases h1 : mask.get? nid with
  | none => rw [h1] at h; cases h
  | some bid =>
    rw [h1] at h
    simp only [bind, Except.bind] at h
    unfold atFid at h
    cases fid with
    | none => cases h
    | some f =>
      simp only at h
      by_cases hf : f < 0
      · rw [if_pos hf] at h; cases h
      · rw [if_neg hf] at h
        cases h2 : sparse.get? f.toNat with
        | none => rw [h2] at h; cases h
        | some z =>
          rw [h2] at h
          cases h
          exact ⟨bid, f.toNat, z, rfl, by rw [Int.toNat_of_nonneg (by omega)], h2, rfl⟩

theorem kids_inv {n : Node} {p : Nat × Nat} (h : kids n = .ok p) :
    n.left = some p.1 ∧ n.right = some p.2 := by
  unfold kids at h
  split at h
  · rename_i l r h1 h2
    cases h; exact ⟨h1, h2⟩
  · cases h

/-- The three kinds of answers of the guest. -/
theorem dispatchNode_inv {tree : List Node} {mask : Dict Nat Int} {sparse : Dict Nat Nat}
    {v : SparseVec Cell × Nat × Nat} {d : Disp} (h : dispatchNode tree mask sparse v = .ok d) :
    ∃ n, tree[v.2.2]? = some n ∧
      ((n.isLeaf = true ∧ d = .leaf n.weight) ∨
       (n.isLeaf = false ∧ n.site = .guest ∧ ∃ b l r, binTest mask sparse v.2.2 n.fid v.1 = .ok b ∧
          n.left = some l ∧ n.right = some r ∧ d = .at 1 (if b then l else r)) ∨
       (n.isLeaf = false ∧ ∃ j l r, n.site = .host j ∧ n.left = some l ∧ n.right = some r ∧
          d = .ask 1 n.fid n.bid (.host j) v.2.2 l r)) := by
  unfold dispatchNode at h
  cases h1 : tree[v.2.2]? with
  | none => rw [h1] at h; cases h
  | some n =>
    rw [h1] at h
    simp only at h
    refine ⟨n, rfl, ?_⟩
    by_cases hl : n.isLeaf = true
    · rw [if_pos hl] at h; cases h; exact Or.inl ⟨hl, rfl⟩
    · rw [if_neg hl] at h
      have hl' : n.isLeaf = false := by simpa using hl
      right
      cases hs : n.site with
      | guest =>
        rw [hs] at h
        simp only [bind, Except.bind] at h
        cases h2 : binTest mask sparse v.2.2 n.fid v.1 with
        | error e => rw [h2] at h; cases h
        | ok b =>
          rw [h2] at h
          simp only at h
          cases h3 : kids n with
          | error e => rw [h3] at h; cases h
          | ok p =>
            obtain ⟨l, r⟩ := p
            rw [h3] at h
            obtain ⟨k1, k2⟩ := kids_inv h3
            refine Or.inl ⟨hl', rfl, b, l, r, rfl, k1, k2, ?_⟩
            cases b <;> cases h <;> rfl
      | host j =>
        rw [hs] at h
        simp only [bind, Except.bind] at h
        cases h3 : kids n with
        | error e => rw [h3] at h; cases h
        | ok p =>
          obtain ⟨l, r⟩ := p
          rw [h3] at h
          obtain ⟨k1, k2⟩ := kids_inv h3
          cases h
          exact Or.inr ⟨hl', j, l, r, rfl, k1, k2, rfl⟩

theorem hostAnswers_inv {toHost : DTable K Disp} :
    ∀ (Hs : List (Party K)) (ms : List (Dict Nat Int)) (ts : List (DTable K Disp)),
      Hs.length = ms.length → hostAnswers toHost Hs ms = .ok ts →
      ts.length = Hs.length ∧ ∀ (j : Nat) H m, Hs[j]? = some H → ms[j]? = some m →
        ∃ t, ts[j]? = some t ∧ toHost.joinM H.data (dispatchHost (.host H.idx) m H.sparse) = .ok t
  | [], [], ts, _, h => by unfold hostAnswers at h; cases h; simp
  | [], _ :: _, _, hl, _ => by simp at hl
  | _ :: _, [], _, hl, _ => by simp at hl
  | H :: Hs, m :: ms, ts, hl, h => by
    unfold hostAnswers at h
    cases h1 : toHost.joinM H.data (dispatchHost (.host H.idx) m H.sparse) with
    | error e => simp only [bind, Except.bind, h1] at h; cases h
    | ok t =>
      simp only [bind, Except.bind, h1] at h
      cases h2 : hostAnswers toHost Hs ms with
      | error e => rw [h2] at h; cases h
      | ok ts' =>
        rw [h2] at h
        cases h
        obtain ⟨i1, i2⟩ := hostAnswers_inv Hs ms ts' (by simpa using hl) h2
        refine ⟨by simp [i1], fun j H' m' hH hm => ?_⟩
        cases j with
        | zero =>
          simp only [List.getElem?_cons_zero, Option.some.injEq] at hH hm
          subst hH hm
          exact ⟨t, rfl, h1⟩
        | succ j =>
          simp only [List.getElem?_cons_succ] at hH hm ⊢
          exact i2 j H' m' hH hm

theorem combine_inv : ∀ (ts : List (DTable K Disp)) (a : DTable K Disp) (r : Option (DTable K Disp)),
    combine (some a) ts = .ok r → a.WF →
    ∃ d, r = some d ∧ d.WF ∧ (∀ k, a.data.get? k = none → d.data.get? k = none) ∧
      ∀ k q v, v.isAt = true → q.isAt = false →
        (∀ t ∈ a :: ts, t.data.get? k = some q ∨ t.data.get? k = some v) →
        (∃ t ∈ a :: ts, t.data.get? k = some v) → d.data.get? k = some v
  | [], a, r, h, ha => by
    unfold combine at h
    cases h
    refine ⟨a, rfl, ha, fun k hk => hk, ?_⟩
    rintro k q v _ _ _ ⟨t, ht, htk⟩
    rw [List.mem_singleton] at ht; subst ht; exact htk
  | t :: ts, a, r, h, ha => by
    unfold combine at h
    cases h1 : a.join t (fun x y => if x.isAt then x else y) with
    | error e => rw [h1] at h; cases h
    | ok a1 =>
      rw [h1] at h
      obtain ⟨w1, j1⟩ := DTable.join_inv h1
      obtain ⟨d, d1, d2, d3, d4⟩ := combine_inv ts a1 r h w1
      refine ⟨d, d1, d2, ?_, ?_⟩
      · intro k hk
        apply d3
        cases hx : a1.data.get? k with
        | none => rfl
        | some x =>
          obtain ⟨v, w, e1, _⟩ := (j1 k x).mp hx
          rw [hk] at e1; cases e1
      · intro k q v hv hq hall hex
        have hx : ∀ x y, a.data.get? k = some x → t.data.get? k = some y →
            a1.data.get? k = some (if x.isAt then x else y) := fun x y hx hy =>
          (j1 k _).mpr ⟨x, y, hx, hy, rfl⟩
        have ha0 := hall a (by simp)
        have ht0 := hall t (by simp)
        have hne : q ≠ v := by rintro rfl; rw [hv] at hq; cases hq
        apply d4 k q v hv hq
        · intro u hu
          rcases List.mem_cons.mp hu with rfl | hu
          · rcases ha0 with ha0 | ha0 <;> rcases ht0 with ht0 | ht0 <;>
              rw [hx _ _ ha0 ht0] <;> simp [hv, hq]
          · exact hall u (by simp [hu])
        · obtain ⟨u, hu, huk⟩ := hex
          simp only [List.mem_cons] at hu
          rcases hu with rfl | rfl | hu
          · refine ⟨a1, by simp, ?_⟩
            rcases ht0 with ht0 | ht0 <;> rw [hx _ _ huk ht0] <;> simp [hv]
          · refine ⟨a1, by simp, ?_⟩
            rcases ha0 with ha0 | ha0 <;> rw [hx _ _ ha0 huk] <;> simp [hv, hq]
          · exact ⟨u, by simp [hu], huk⟩

/-- The weight recorded for a sample. -/
def weightOf (w : Option (DTable K Rat)) (k : K) : Option Rat := w.bind fun t => t.data.get? k

theorem redispatch_inv {S : Setup K α} {g : Grow} {masks : List (Dict Nat Int)}
    {dataPos : DTable K (SparseVec Cell × Nat × Nat)} {w w' : Option (DTable K Rat)}
    {disp : DTable K Disp} (hlen : S.hosts.length = masks.length)
    (hguest : ∀ k v, dataPos.data.get? k = some v → S.guest.data.data.get? k = some v.1)
    (hkeys : ∀ H ∈ S.hosts, ∀ k v, dataPos.data.get? k = some v → ∃ row, H.data.data.get? k = some row)
    (hsites : ∀ n ∈ g.tree, SiteOk S.hosts n) (hidx : (S.hosts.map Party.idx).Nodup)
    (h : redispatch S g masks dataPos w = .ok (disp, w')) :
    disp.WF ∧ (∃ t, w' = some t ∧ t.WF) ∧
    (∀ k, dataPos.data.get? k = none → disp.data.get? k = none ∧ weightOf w' k = weightOf w k) ∧
    ∀ k row st nid, dataPos.data.get? k = some (row, st, nid) → ∃ n, g.tree[nid]? = some n ∧
      ((n.isLeaf = true ∧ disp.data.get? k = none ∧
          weightOf w' k = (weightOf w k).or (some n.weight)) ∨
       (n.isLeaf = false ∧ weightOf w' k = weightOf w k ∧ ∃ b c, BinSide S g.mask masks k nid n b ∧
          (if b then n.left else n.right) = some c ∧ disp.data.get? k = some (.at 1 c))) := by
  unfold redispatch at h
  simp only [bind, Except.bind] at h
  cases h1 : dataPos.mapValuesM (dispatchNode g.tree g.mask S.guest.sparse) with
  | error e => rw [h1] at h; cases h
  | ok res0 =>
  rw [h1] at h
  simp only at h
  obtain ⟨w0, i0⟩ := DTable.mapValuesM_inv h1
  cases h2 : res0.filter (fun _ d => d.isAsk) with
  | error e => rw [h2] at h; cases h
  | ok toHost =>
  rw [h2] at h
  simp only at h
  obtain ⟨wH, iH⟩ := DTable.filter_inv w0 h2
  cases h3 : res0.subtractByKey toHost with
  | error e => rw [h3] at h; cases h
  | ok res1 =>
  rw [h3] at h
  simp only at h
  obtain ⟨w1, i1⟩ := DTable.subtractByKey_inv w0 h3
  cases h4 : res1.filter (fun _ d => d.isLeaf) with
  | error e => rw [h4] at h; cases h
  | ok leaf =>
  rw [h4] at h
  simp only at h
  obtain ⟨wL, iL⟩ := DTable.filter_inv w1 h4
  cases h5 : leaf.mapValues Disp.weight with
  | error e => rw [h5] at h; cases h
  | ok leafW =>
  rw [h5] at h
  simp only at h
  obtain ⟨wLW, iLW⟩ := DTable.mapValues_inv h5
  cases h6 : addWeights w leafW with
  | error e => rw [h6] at h; cases h
  | ok wt =>
  rw [h6] at h
  simp only at h
  have hweights : wt.WF ∧ ∀ k, wt.data.get? k = (weightOf w k).or (leafW.data.get? k) := by
    unfold addWeights at h6
    cases w with
    | none => cases h6; exact ⟨wLW, fun k => rfl⟩
    | some w => exact DTable.union_inv wLW h6
  obtain ⟨wwt, iwt⟩ := hweights
  cases h7 : res1.subtractByKey leaf with
  | error e => rw [h7] at h; cases h
  | ok res2 =>
  rw [h7] at h
  simp only at h
  obtain ⟨w2, i2⟩ := DTable.subtractByKey_inv w1 h7
  cases h8 : hostAnswers toHost S.hosts masks with
  | error e => rw [h8] at h; cases h
  | ok answers =>
  rw [h8] at h
  simp only at h
  obtain ⟨hal, hans⟩ := hostAnswers_inv S.hosts masks answers hlen h8
  -- the answers for a question
  have hask : ∀ k fid bid i nid l r, toHost.data.get? k = some (.ask 1 fid bid (.host i) nid l r) →
      (∃ v, dataPos.data.get? k = some v) → ∀ (j : Nat) H, S.hosts[j]? = some H → ∃ m t, masks[j]? = some m ∧
        answers[j]? = some t ∧ ∃ row, H.data.data.get? k = some row ∧
        ((H.idx ≠ i ∧ t.data.get? k = some (.ask 1 fid bid (.host i) nid l r)) ∨
         (H.idx = i ∧ ∃ b, binTest m H.sparse nid fid row = .ok b ∧
            t.data.get? k = some (.at 1 (if b then l else r)))) := by
    intro k fid bid i nid l r hk ⟨v, hv⟩ j H hj
    have hjm : j < masks.length := by
      have := (List.getElem?_eq_some_iff.mp hj).1; omega
    obtain ⟨t, t1, t2⟩ := hans j H _ hj (List.getElem?_eq_getElem hjm)
    obtain ⟨row, hrow⟩ := hkeys H (List.mem_of_getElem? hj) k v hv
    obtain ⟨_, _, j3⟩ := DTable.joinM_inv t2
    obtain ⟨x, x1, x2⟩ := j3 k _ _ hk hrow
    refine ⟨_, t, List.getElem?_eq_getElem hjm, t1, row, hrow, ?_⟩
    unfold dispatchHost at x1
    simp only [ne_eq, Site.host.injEq] at x1
    by_cases hi : i = H.idx
    · rw [if_neg (by simpa using hi)] at x1
      simp only [bind, Except.bind] at x1
      cases hb : binTest masks[j] H.sparse nid fid row with
      | error e => rw [hb] at x1; cases x1
      | ok b =>
        rw [hb] at x1
        refine Or.inr ⟨hi.symm, b, rfl, ?_⟩
        rw [x2]
        cases b <;> cases x1 <;> rfl
    · rw [if_pos (by simpa using hi)] at x1
      cases x1
      exact Or.inl ⟨fun hc => hi hc.symm, x2⟩
  have hfinal : disp.WF ∧ w' = some wt ∧
      (∀ k x, res2.data.get? k = some x → toHost.data.get? k = none → disp.data.get? k = some x) ∧
      (∀ k, res2.data.get? k = none → toHost.data.get? k = none → disp.data.get? k = none) ∧
      ∀ k q v, v.isAt = true → q.isAt = false →
        (∀ t ∈ answers, t.data.get? k = some q ∨ t.data.get? k = some v) →
        (∃ t ∈ answers, t.data.get? k = some v) → disp.data.get? k = some v := by
    cases hA : answers with
    | nil =>
      rw [hA] at h
      simp only [combine, addPositions] at h
      cases h
      refine ⟨w2, rfl, fun k x hx _ => hx, fun k hk _ => hk, ?_⟩
      rintro k q v _ _ _ ⟨t, ht, _⟩
      simp at ht
    | cons t0 ts =>
      rw [hA] at h
      simp only [combine] at h
      obtain ⟨H0, hH0⟩ : ∃ H0, S.hosts[0]? = some H0 := by
        rw [hA] at hal
        exact ⟨S.hosts[0]'(by simp at hal; omega), List.getElem?_eq_getElem _⟩
      obtain ⟨m0, hm0⟩ : ∃ m0, masks[0]? = some m0 := by
        have := (List.getElem?_eq_some_iff.mp hH0).1
        exact ⟨masks[0]'(by omega), List.getElem?_eq_getElem _⟩
      obtain ⟨t0', e0, q0⟩ := hans 0 H0 m0 hH0 hm0
      rw [hA, List.getElem?_cons_zero, Option.some.injEq] at e0
      subst e0
      obtain ⟨wt0, it0, _⟩ := DTable.joinM_inv q0
      cases hc : combine (some t0) ts with
      | error e => rw [hc] at h; cases h
      | ok r =>
        obtain ⟨d, rfl, d2, d3, d4⟩ := combine_inv ts t0 r hc wt0
        rw [hc] at h
        simp only [addPositions] at h
        cases hu : d.union res2 with
        | error e => rw [hu] at h; cases h
        | ok du =>
          rw [hu] at h
          cases h
          obtain ⟨u1, u2⟩ := DTable.union_inv w2 hu
          have hnone : ∀ k, toHost.data.get? k = none → d.data.get? k = none := by
            intro k hk
            apply d3
            cases hx : t0.data.get? k with
            | none => rfl
            | some x =>
              obtain ⟨v, _, e1, _⟩ := (it0 k x).mp hx
              rw [hk] at e1; cases e1
          refine ⟨u1, rfl, ?_, ?_, ?_⟩
          · intro k x hx hk
            rw [u2, hnone k hk, hx]; rfl
          · intro k hk hk'
            rw [u2, hnone k hk', hk]; rfl
          · intro k q v hv hq hall hex
            rw [u2, d4 k q v hv hq hall hex]; rfl
  obtain ⟨f1, rfl, f3, f4, f5⟩ := hfinal
  refine ⟨f1, ⟨wt, rfl, wwt⟩, ?_, ?_⟩
  · intro k hk
    have hr0 : res0.data.get? k = none := by
      cases hx : res0.data.get? k with
      | none => rfl
      | some x =>
        obtain ⟨v, e1, _⟩ := (i0 k x).mp hx
        rw [hk] at e1; cases e1
    have hr1 : res1.data.get? k = none := by
      cases hx : res1.data.get? k with
      | none => rfl
      | some x => have := ((i1 k x).mp hx).1; rw [hr0] at this; cases this
    have hr2 : res2.data.get? k = none := by
      cases hx : res2.data.get? k with
      | none => rfl
      | some x => have := ((i2 k x).mp hx).1; rw [hr1] at this; cases this
    have hrH : toHost.data.get? k = none := by
      cases hx : toHost.data.get? k with
      | none => rfl
      | some x => have := ((iH k x).mp hx).1; rw [hr0] at this; cases this
    have hrL : leaf.data.get? k = none := by
      cases hx : leaf.data.get? k with
      | none => rfl
      | some x => have := ((iL k x).mp hx).1; rw [hr1] at this; cases this
    refine ⟨f4 k hr2 hrH, ?_⟩
    show wt.data.get? k = _
    rw [iwt, iLW, hrL]; simp
  · intro k row st nid hk
    obtain ⟨d, hd, hd0⟩ := DTable.mapValuesM_total h1 k _ hk
    obtain ⟨n, hn, hcase⟩ := dispatchNode_inv hd
    refine ⟨n, hn, ?_⟩
    rcases hcase with ⟨hl, rfl⟩ | ⟨hl, hs, b, l, r, hb, hkl, hkr, rfl⟩ | ⟨hl, i, l, r, hs, hkl, hkr, rfl⟩
    · -- leaf
      have hrH : toHost.data.get? k = none := by
        cases hx : toHost.data.get? k with
        | none => rfl
        | some x =>
          obtain ⟨a, b⟩ := (iH k x).mp hx
          rw [hd0, Option.some.injEq] at a; subst a; cases b
      have hr1 := (i1 k _).mpr ⟨hd0, hrH⟩
      have hrL : leaf.data.get? k = some (.leaf n.weight) := (iL k _).mpr ⟨hr1, rfl⟩
      have hr2 : res2.data.get? k = none := by
        cases hx : res2.data.get? k with
        | none => rfl
        | some x => have := ((i2 k x).mp hx).2; rw [hrL] at this; cases this
      refine Or.inl ⟨hl, f4 k hr2 hrH, ?_⟩
      show wt.data.get? k = _
      rw [iwt, iLW, hrL]; rfl
    · -- split of the guest
      have hrH : toHost.data.get? k = none := by
        cases hx : toHost.data.get? k with
        | none => rfl
        | some x =>
          obtain ⟨a, b⟩ := (iH k x).mp hx
          rw [hd0, Option.some.injEq] at a; subst a; cases b
      have hr1 := (i1 k _).mpr ⟨hd0, hrH⟩
      have hrL : leaf.data.get? k = none := by
        cases hx : leaf.data.get? k with
        | none => rfl
        | some x =>
          obtain ⟨a, b⟩ := (iL k x).mp hx
          rw [hr1, Option.some.injEq] at a; subst a; cases b
      have hr2 := (i2 k _).mpr ⟨hr1, hrL⟩
      refine Or.inr ⟨hl, ?_, b, if b then l else r, ?_, ?_, f3 k _ hr2 hrH⟩
      · show wt.data.get? k = _
        rw [iwt, iLW, hrL]; simp
      · obtain ⟨bid, f, z, a1, a2, a3, a4⟩ := binTest_inv hb
        exact ⟨none, S.guest, g.mask, row, f, z, bid, rfl, hs, rfl, a1, hguest k _ hk, a2, a3, a4⟩
      · cases b <;> simp [hkl, hkr]
    · -- split of a host
      have hrH : toHost.data.get? k = some (.ask 1 n.fid n.bid (.host i) nid l r) :=
        (iH k _).mpr ⟨hd0, rfl⟩
      have hr1 : res1.data.get? k = none := by
        cases hx : res1.data.get? k with
        | none => rfl
        | some x => have := ((i1 k x).mp hx).2; rw [hrH] at this; cases this
      have hrL : leaf.data.get? k = none := by
        cases hx : leaf.data.get? k with
        | none => rfl
        | some x => have := ((iL k x).mp hx).1; rw [hr1] at this; cases this
      obtain ⟨H, hH, hi⟩ : ∃ H ∈ S.hosts, i = H.idx := by
        rcases hsites n (List.mem_of_getElem? hn) with hc | hc | ⟨H, hH, hc⟩
        · rw [hl] at hc; cases hc
        · rw [hs] at hc; cases hc
        · rw [hs, Site.host.injEq] at hc; exact ⟨H, hH, hc⟩
      obtain ⟨j, hj⟩ := List.mem_iff_getElem?.mp hH
      obtain ⟨m, t, m1, t1, rowH, r1, hcase⟩ := hask k _ _ _ _ _ _ hrH ⟨_, hk⟩ j H hj
      rcases hcase with ⟨hne, _⟩ | ⟨_, b, hb, htk⟩
      · exact absurd hi.symm hne
      have hdisp : disp.data.get? k = some (.at 1 (if b then l else r)) := by
        refine f5 k (.ask 1 n.fid n.bid (.host i) nid l r) _ rfl rfl ?_
          ⟨t, List.mem_of_getElem? t1, htk⟩
        intro t' ht'
        obtain ⟨j', hj'⟩ := List.mem_iff_getElem?.mp ht'
        have hlt : j' < S.hosts.length := by
          have := (List.getElem?_eq_some_iff.mp hj').1; omega
        obtain ⟨m', t'', _, e2, rowH', r1', hcase'⟩ :=
          hask k _ _ _ _ _ _ hrH ⟨_, hk⟩ j' _ (List.getElem?_eq_getElem hlt)
        rw [hj', Option.some.injEq] at e2
        subst e2
        rcases hcase' with ⟨_, hq⟩ | ⟨heq, b', hb', hv'⟩
        · exact Or.inl hq
        · right
          have hjj : j' = j := by
            have a1 : (S.hosts.map Party.idx)[j']? = some i := by
              rw [List.getElem?_map, List.getElem?_eq_getElem hlt, Option.map_some, heq]
            have a2 : (S.hosts.map Party.idx)[j]? = some i := by
              rw [List.getElem?_map, hj, Option.map_some, hi]
            have hl1 := (List.getElem?_eq_some_iff.mp a1).1
            exact (List.getElem?_inj hl1 hidx).mp (a1.trans a2.symm)
          subst hjj
          rw [hj', Option.some.injEq] at t1
          subst t1
          exact htk
      refine Or.inr ⟨hl, ?_, b, if b then l else r, ?_, ?_, hdisp⟩
      · show wt.data.get? k = _
        rw [iwt, iLW, hrL]; simp
      · obtain ⟨bid, f, z, a1, a2, a3, a4⟩ := binTest_inv hb
        exact ⟨some j, H, m, rowH, f, z, bid, hj, by rw [hs, hi]; rfl, m1, a1, r1, a2, a3, a4⟩
      · cases b <;> simp [hkl, hkr]

end DTree
end Verif
