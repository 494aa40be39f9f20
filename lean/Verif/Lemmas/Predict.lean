import Verif.Model.Predict
import Verif.Spec.C29
import Verif.Lemmas.RedispatchOk

/-! # Prediction walks the tree -/

set_option autoImplicit false

namespace Verif
namespace DTree

open Spec
open Binning (SparseVec dataFormatTransform)

variable {K : Type} [DecidableEq K] {α : Type}

theorem getFeature_transform (row : List Rat) (f : Nat) :
    getFeature (dataFormatTransform row) (some (f : Int)) = value row f := by
  unfold getFeature SparseVec.getData value snap
  simp only [if_neg (show ¬ ((f : Int) < 0) by omega), Int.toNat_natCast]
  rw [Binning.dataFormatTransform_get?]
  have hfz : Quantile.floatZero = 1 / 10 ^ 6 := rfl
  rw [hfz]
  cases row[f]? with
  | none => simp
  | some x =>
    simp only [Option.getD_some]
    split <;> simp_all

/-- One comparison is one step of the walk. -/
theorem step_ok {S : Setup K α} {F : Fitted K} (hu : UsableTree S F)
    {rows : Option Nat → DTable K (List Rat)} {k : K} {row : List Rat} {j : Option Nat} {P : Party K}
    {d : Dict Nat Rat} (hP : partyAt S j = some P) (hd : thresholds F j = some d)
    (hrow : (rows j).data.get? k = some row) {i : Nat} {n : Node} (hn : F.tree[i]? = some n)
    (hl : n.isLeaf = false) (hs : n.site = siteName P j) :
    ∃ b l r, threshTest d i n.fid (dataFormatTransform row) = .ok b ∧ kids n = .ok (l, r) ∧
      Step S F rows k i (if b then l else r) ∧ i < (if b then l else r) ∧
      (if b then l else r) < F.tree.length := by
  obtain ⟨j', f, t, n', P', d', h1, h2, h3, h4, h5, h6, h7⟩ := hu.split i n hn hl
  rw [hn, Option.some.injEq] at h1
  subst h1
  have hj := party_unique hu.names hP h4 (by rw [← hs, h5])
  subst hj
  rw [hd, Option.some.injEq] at h6
  subst h6
  rcases hu.wf.shape i n hn with ⟨hc, _⟩ | ⟨_, l, r, e1, e2, _, e4, e5, e6, e7⟩
  · rw [hl] at hc; cases hc
  refine ⟨decide (value row f ≤ t), l, r, ?_, by unfold kids; rw [e1, e2], ?_, ?_, ?_⟩
  · unfold threshTest decodeVal
    rw [h7, h3, getFeature_transform]
    rfl
  · refine ⟨j, f, t, row, n, ⟨n, P', d, hn, hl, h3, h4, h5, hd, h7⟩, hrow, hn, ?_⟩
    by_cases hb : value row f ≤ t
    · left; simp [hb, e1]
    · right; simp [hb, e2]; exact not_le.mp hb
  · split
    · exact e4
    · exact e5
  · split
    · exact e6
    · exact e7

theorem walkGuest_ok {S : Setup K α} {F : Fitted K} (hu : UsableTree S F)
    {rows : Option Nat → DTable K (List Rat)} {k : K} {row : List Rat}
    (hrow : (rows none).data.get? k = some row) :
    ∀ (fuel nid : Nat), nid < F.tree.length → F.tree.length ≤ fuel + nid → Reaches S F rows k nid →
      (∃ w, walkGuest F.tree F.guestMask (dataFormatTransform row) fuel nid = .ok (.weight w) ∧
        LeafWeight S F rows k w) ∨
      ∃ i n, walkGuest F.tree F.guestMask (dataFormatTransform row) fuel nid = .ok (.node i 1) ∧
        nid ≤ i ∧ Reaches S F rows k i ∧ F.tree[i]? = some n ∧ n.isLeaf = false ∧ n.site ≠ .guest
  | 0, nid, h1, h2, _ => by omega
  | fuel + 1, nid, h1, h2, hr => by
    have hn := List.getElem?_eq_getElem h1
    unfold walkGuest
    rw [hn]
    simp only
    by_cases hs : F.tree[nid].site = .guest
    · rw [if_neg (by simp [hs])]
      by_cases hl : F.tree[nid].isLeaf = true
      · left
        rw [if_pos hl]
        exact ⟨_, rfl, nid, _, hr, hn, hl, rfl⟩
      · rw [if_neg hl]
        have hl' : F.tree[nid].isLeaf = false := by simpa using hl
        obtain ⟨b, l, r, e1, e2, e3, e4, e5⟩ := step_ok hu (j := none) (P := S.guest) rfl rfl hrow hn hl' hs
        rw [e1, e2]
        simp only [bind, Except.bind]
        rcases walkGuest_ok hu hrow fuel _ e5 (by omega) (hr.tail e3) with h | ⟨i, n, h, h'⟩
        · exact Or.inl h
        · exact Or.inr ⟨i, n, h, by omega, h'.2⟩
    · right
      rw [if_pos hs]
      refine ⟨nid, _, rfl, le_refl _, hr, hn, ?_, hs⟩
      by_contra hl
      exact hs (hu.leaf nid _ hn (by simpa using hl))

theorem walkHost_ok {S : Setup K α} {F : Fitted K} (hu : UsableTree S F)
    {rows : Option Nat → DTable K (List Rat)} {k : K} {row : List Rat} {j : Nat} {P : Party K}
    {d : Dict Nat Rat} (hP : S.hosts[j]? = some P) (hd : F.hostMasks[j]? = some d)
    (hrow : (rows (some j)).data.get? k = some row) :
    ∀ (fuel nid : Nat), nid < F.tree.length → F.tree.length ≤ fuel + nid → Reaches S F rows k nid →
      ∃ i, walkHost F.tree d (.host P.idx) (dataFormatTransform row) fuel nid = .ok (.node i 0) ∧
        i < F.tree.length ∧ nid ≤ i ∧ Reaches S F rows k i ∧
        ∀ n, F.tree[nid]? = some n → n.site = .host P.idx → nid < i
  | 0, nid, h1, h2, _ => by omega
  | fuel + 1, nid, h1, h2, hr => by
    have hn := List.getElem?_eq_getElem h1
    unfold walkHost
    rw [hn]
    simp only
    by_cases hs : F.tree[nid].site = .host P.idx
    · rw [if_neg (by simp [hs])]
      have hl' : F.tree[nid].isLeaf = false := by
        by_contra hl
        have := hu.leaf nid _ hn (by simpa using hl)
        rw [hs] at this; cases this
      obtain ⟨b, l, r, e1, e2, e3, e4, e5⟩ := step_ok hu (j := some j) (P := P) hP hd hrow hn hl' hs
      rw [e1, e2]
      simp only [bind, Except.bind]
      obtain ⟨i, h, h3, h4, h5, _⟩ := walkHost_ok hu hP hd hrow fuel _ e5 (by omega) (hr.tail e3)
      exact ⟨i, h, h3, by omega, h5, fun _ _ _ => by omega⟩
    · rw [if_pos hs]
      refine ⟨nid, rfl, h1, le_refl _, hr, fun n e1 e2 => ?_⟩
      obtain rfl := Option.some.inj e1
      exact absurd e2 hs

theorem alignRows_ok {rows : DTable K (List Rat)} (hw : rows.WF) (hne : rows.data ≠ []) :
    ∃ t, alignRows rows = .ok t ∧ t.WF ∧
      ∀ k, t.data.get? k = (rows.data.get? k).map dataFormatTransform := by
  unfold alignRows
  rw [if_neg (by simpa using hne)]
  have h := DTable.mapValues_ok hw dataFormatTransform
  exact ⟨_, h, DTable.mapValues_inv h⟩

theorem alignAll_ok : ∀ (L : List (DTable K (List Rat))),
    (∀ t ∈ L, t.WF ∧ t.data ≠ []) → ∃ hs, alignAll L = .ok hs ∧ hs.length = L.length ∧
      ∀ (j : Nat) t, L[j]? = some t → ∃ a, hs[j]? = some a ∧ a.WF ∧
        ∀ k, a.data.get? k = (t.data.get? k).map dataFormatTransform
  | [], _ => ⟨[], rfl, rfl, by simp⟩
  | t :: L, h => by
    obtain ⟨a, h1, h2, h3⟩ := alignRows_ok (h t (by simp)).1 (h t (by simp)).2
    obtain ⟨hs, e1, e2, e3⟩ := alignAll_ok L fun x hx => h x (by simp [hx])
    refine ⟨a :: hs, ?_, by simp [e2], ?_⟩
    · unfold alignAll; rw [h1, e1]; rfl
    · intro j x hx
      cases j with
      | zero =>
        simp only [List.getElem?_cons_zero, Option.some.injEq] at hx
        subst hx
        exact ⟨a, by simp, h2, h3⟩
      | succ j =>
        simp only [List.getElem?_cons_succ] at hx ⊢
        exact e3 j x hx

omit [DecidableEq K] in
theorem predHosts_get : ∀ (Hs : List (Party K)) (ms : List (Dict Nat Rat))
    (ts : List (DTable K (SparseVec Rat))) (j : Nat) (Q : PredHost K),
    (predHosts Hs ms ts)[j]? = some Q ↔
      ∃ H m t, Hs[j]? = some H ∧ ms[j]? = some m ∧ ts[j]? = some t ∧ Q = ⟨H.idx, m, t⟩
  | [], _, _, j, Q => by simp [predHosts]
  | _ :: _, [], _, j, Q => by simp [predHosts]
  | _ :: _, _ :: _, [], j, Q => by simp [predHosts]
  | H :: Hs, m :: ms, t :: ts, j, Q => by
    unfold predHosts
    cases j with
    | zero => simp [eq_comm]
    | succ j => simpa using predHosts_get Hs ms ts j Q

/-- The hosts of a prediction. -/
structure HostsOk (S : Setup K α) (F : Fitted K) (rows : Option Nat → DTable K (List Rat))
    (Hs : List (PredHost K)) : Prop where
  each : ∀ Q ∈ Hs, ∃ (j : Nat) (P : Party K), S.hosts[j]? = some P ∧ F.hostMasks[j]? = some Q.mask ∧
    Q.idx = P.idx ∧ Q.rows.WF ∧
    ∀ k, Q.rows.data.get? k = ((rows (some j)).data.get? k).map dataFormatTransform
  all : ∀ (j : Nat) (P : Party K), S.hosts[j]? = some P → ∃ Q ∈ Hs, Q.idx = P.idx

theorem hostsOk {S : Setup K α} {F : Fitted K} (hu : UsableTree S F)
    {rows : Option Nat → DTable K (List Rat)} (hr : SameSamples S rows) :
    ∃ hs, alignAll (hostRows S rows) = .ok hs ∧
      HostsOk S F rows (predHosts S.hosts F.hostMasks hs) := by
  have hget : ∀ j : Nat, j < S.hosts.length → (hostRows S rows)[j]? = some (rows (some j)) := by
    intro j hj
    unfold hostRows
    rw [List.getElem?_map, List.getElem?_range hj]; rfl
  obtain ⟨hs, h1, h2, h3⟩ := alignAll_ok (hostRows S rows) (by
    intro t ht
    obtain ⟨j, hj, rfl⟩ := List.mem_map.mp ht
    have hj' := List.mem_range.mp hj
    have hP : partyAt S (some j) = some S.hosts[j] := List.getElem?_eq_getElem hj'
    refine ⟨hr.wf _ _ hP, fun hc => ?_⟩
    obtain ⟨p, l, hpl⟩ := List.exists_cons_of_ne_nil hr.some
    have := (hr.keys _ _ hP p.1).mpr (by rw [hpl]; simp [Dict.keys])
    rw [hc] at this
    simp [Dict.keys] at this)
  refine ⟨hs, h1, ?_, ?_⟩
  · intro Q hQ
    obtain ⟨j, hj⟩ := List.mem_iff_getElem?.mp hQ
    obtain ⟨H, m, t, e1, e2, e3, rfl⟩ := (predHosts_get _ _ _ j Q).mp hj
    obtain ⟨a, a1, a2, a3⟩ := h3 j _ (hget j (List.getElem?_eq_some_iff.mp e1).1)
    rw [e3, Option.some.injEq] at a1
    subst a1
    exact ⟨j, H, e1, e2, rfl, a2, a3⟩
  · intro j P hP
    have hj := (List.getElem?_eq_some_iff.mp hP).1
    obtain ⟨a, a1, _⟩ := h3 j _ (hget j hj)
    refine ⟨⟨P.idx, F.hostMasks[j]'(by rw [hu.masks]; exact hj), a⟩, ?_, rfl⟩
    exact List.mem_of_getElem? ((predHosts_get _ _ _ j _).mpr
      ⟨P, _, a, hP, List.getElem?_eq_getElem _, a1, rfl⟩)

theorem hostWalks_ok {tree : List Node} {fuel : Nat} {todo : DTable K PState} :
    ∀ (Hs : List (PredHost K)),
      (∀ Q ∈ Hs, Q.rows.WF ∧ ∀ k s row, todo.data.get? k = some s → Q.rows.data.get? k = some row →
        ∃ x, traverseHost tree Q.mask (.host Q.idx) fuel s row = .ok x) →
      ∃ ts, hostWalks tree fuel todo Hs = .ok ts ∧ List.Forall₂ (fun Q t => DTable.WF t ∧
        ∀ k s row, todo.data.get? k = some s → Q.rows.data.get? k = some row →
          ∃ x, traverseHost tree Q.mask (.host Q.idx) fuel s row = .ok x ∧ t.data.get? k = some x) Hs ts
  | [], _ => ⟨[], rfl, .nil⟩
  | Q :: Hs, h => by
    obtain ⟨h1, h2⟩ := h Q (by simp)
    obtain ⟨t, ht⟩ := DTable.joinM_succeeds todo h1 (traverseHost tree Q.mask (.host Q.idx) fuel) h2
    obtain ⟨ts, e1, e2⟩ := hostWalks_ok Hs fun x hx => h x (by simp [hx])
    obtain ⟨w1, _, w2⟩ := DTable.joinM_inv ht
    refine ⟨t :: ts, ?_, .cons ⟨w1, w2⟩ e2⟩
    unfold hostWalks; rw [ht, e1]; rfl

theorem mergeWalks_ok : ∀ (ts : List (DTable K PState)) (todo : DTable K PState),
    (∀ t ∈ ts, t.WF) → todo.WF → ∃ r, mergeWalks todo ts = .ok r ∧ r.WF ∧
      (∀ k, todo.data.get? k = none → r.data.get? k = none) ∧
      ∀ k a bs, todo.data.get? k = some a →
        List.Forall₂ (fun t b => t.data.get? k = some b) ts bs →
        r.data.get? k = some (bs.foldl keepMoved a)
  | [], todo, _, hw => ⟨todo, rfl, hw, fun _ h => h, fun k a bs h hb => by cases hb; exact h⟩
  | t :: ts, todo, h, _ => by
    have h1 := DTable.join_ok todo (h t (by simp)) keepMoved
    obtain ⟨w1, w2⟩ := DTable.join_inv h1
    obtain ⟨r, e1, e2, e3, e4⟩ := mergeWalks_ok ts _ (fun x hx => h x (by simp [hx])) w1
    refine ⟨r, by unfold mergeWalks; rw [h1]; exact e1, e2, fun k hk => e3 k ?_, fun k a bs ha hb => ?_⟩
    · by_contra hc
      obtain ⟨x, hx⟩ := Option.ne_none_iff_exists'.mp hc
      obtain ⟨v, w, a1, _⟩ := (w2 k x).mp hx
      rw [hk] at a1; cases a1
    · cases hb with
      | cons hb hbs =>
        rename_i b bs
        exact e4 k _ bs ((w2 k _).mpr ⟨a, b, ha, hb, rfl⟩) hbs

/-- The first host that has moved the sample decides. -/
theorem fold_moved {i : Nat} {G : Nat → Prop} : ∀ (bs : List PState) (a : PState),
    (a = .node i 1 ∨ ∃ c, a = .node c 0 ∧ G c) →
    (∀ b ∈ bs, b = .node i 1 ∨ ∃ c, b = .node c 0 ∧ G c) →
    ((∃ c, a = .node c 0 ∧ G c) ∨ ∃ b ∈ bs, ∃ c, b = .node c 0 ∧ G c) →
    ∃ c, bs.foldl keepMoved a = .node c 0 ∧ G c
  | [], a, _, _, h => by
    rcases h with h | ⟨b, hb, _⟩
    · exact h
    · cases hb
  | b :: bs, a, ha, hb, h => by
    rw [List.foldl_cons]
    rcases ha with rfl | ⟨c, rfl, hc⟩
    · have hk : keepMoved (.node i 1) b = b := rfl
      rw [hk]
      refine fold_moved bs b (hb b (by simp)) (fun x hx => hb x (by simp [hx])) ?_
      rcases h with ⟨c, h1, _⟩ | ⟨x, hx, h2⟩
      · cases h1
      · rcases List.mem_cons.mp hx with rfl | hx
        · exact Or.inl h2
        · exact Or.inr ⟨x, hx, h2⟩
    · have hk : keepMoved (.node c 0) b = .node c 0 := rfl
      rw [hk]
      exact fold_moved bs _ (Or.inr ⟨c, rfl, hc⟩) (fun x hx => hb x (by simp [hx])) (Or.inl ⟨c, rfl, hc⟩)

theorem forall₂_mem_right {β γ : Type} {R : β → γ → Prop} {l : List β} {l' : List γ}
    (h : List.Forall₂ R l l') : ∀ y ∈ l', ∃ x ∈ l, R x y := by
  induction h with
  | nil => simp
  | cons hxy _ ih =>
    intro y hy
    rcases List.mem_cons.mp hy with rfl | hy
    · exact ⟨_, by simp, hxy⟩
    · obtain ⟨x, hx, hr⟩ := ih y hy
      exact ⟨x, by simp [hx], hr⟩

theorem forall₂_mem_left {β γ : Type} {R : β → γ → Prop} {l : List β} {l' : List γ}
    (h : List.Forall₂ R l l') : ∀ x ∈ l, ∃ y ∈ l', R x y := by
  induction h with
  | nil => simp
  | cons hxy _ ih =>
    intro x hx
    rcases List.mem_cons.mp hx with rfl | hx
    · exact ⟨_, by simp, hxy⟩
    · obtain ⟨y, hy, hr⟩ := ih x hx
      exact ⟨y, by simp [hy], hr⟩

theorem forall₂_bridge {β γ ε : Type} {R : β → γ → Prop} {A : γ → ε → Prop} {B : β → ε → Prop}
    {l : List β} {l' : List γ} (hb : ∀ x ∈ l, ∀ y, R x y → ∃ z, A y z ∧ B x z)
    (h : List.Forall₂ R l l') : ∃ zs, List.Forall₂ A l' zs ∧ List.Forall₂ B l zs := by
  induction h with
  | nil => exact ⟨[], .nil, .nil⟩
  | cons hxy _ ih =>
    obtain ⟨zs, h1, h2⟩ := ih fun x hx => hb x (by simp [hx])
    obtain ⟨z, h3, h4⟩ := hb _ (by simp) _ hxy
    exact ⟨z :: zs, .cons h3 h1, .cons h4 h2⟩

/-- State between two rounds of a prediction. -/
structure PInv (S : Setup K α) (F : Fitted K) (rows : Option Nat → DTable K (List Rat)) (c : Nat)
    (todo : DTable K PState) (result : Option (DTable K Rat)) : Prop where
  twf : todo.WF
  open_ : ∀ k s, todo.data.get? k = some s → k ∈ (rows none).data.keys ∧
    ∃ i tag, s = .node i tag ∧ c ≤ i ∧ i < F.tree.length ∧ Reaches S F rows k i
  rwf : ∀ t, result = some t → t.WF
  res : ∀ t k w, result = some t → t.data.get? k = some w →
    k ∈ (rows none).data.keys ∧ LeafWeight S F rows k w
  cover : ∀ k ∈ (rows none).data.keys, (∃ s, todo.data.get? k = some s) ∨
    ∃ t w, result = some t ∧ t.data.get? k = some w

theorem addWeights_ok {result : Option (DTable K Rat)} {leaf : DTable K Rat}
    (hr : ∀ t, result = some t → t.WF) (hl : leaf.WF) :
    ∃ T, addWeights result leaf = .ok T ∧ T.WF ∧
      ∀ k w, T.data.get? k = some w ↔ (∃ t, result = some t ∧ t.data.get? k = some w) ∨
        ((∀ t, result = some t → t.data.get? k = none) ∧ leaf.data.get? k = some w) := by
  cases result with
  | none => exact ⟨leaf, rfl, hl, fun k w => by simp⟩
  | some t =>
    have h := DTable.union_ok (hr t rfl) leaf (fun v _ => v)
    obtain ⟨h1, h2⟩ := DTable.union_inv hl h
    refine ⟨_, h, h1, fun k w => ?_⟩
    rw [h2]
    cases h3 : t.data.get? k <;> simp [h3]

theorem predictLoop_ok {S : Setup K α} {F : Fitted K} (hu : UsableTree S F)
    {rows : Option Nat → DTable K (List Rat)} (hr : SameSamples S rows)
    {g : DTable K (SparseVec Rat)} (hg : g.WF)
    (hgr : ∀ k, g.data.get? k = ((rows none).data.get? k).map dataFormatTransform)
    {Hs : List (PredHost K)} (hH : HostsOk S F rows Hs) (fuel : Nat) (hfuel : F.tree.length ≤ fuel) :
    ∀ (r c : Nat) (todo : DTable K PState) (result : Option (DTable K Rat)), 1 ≤ r →
      F.tree.length ≤ r + c → PInv S F rows c todo result →
      ∃ T, predictLoop F.tree F.guestMask g Hs fuel r todo result = .ok T ∧ T.WF ∧
        (∀ k w, T.data.get? k = some w → k ∈ (rows none).data.keys ∧ LeafWeight S F rows k w) ∧
        ∀ k ∈ (rows none).data.keys, ∃ w, T.data.get? k = some w
  | 0, _, _, _, h, _, _ => by omega
  | r + 1, c, todo, result, _, hlen, hi => by
    -- the guest's part
    have hgk : ∀ k s, todo.data.get? k = some s → ∃ row, (rows none).data.get? k = some row ∧
        g.data.get? k = some (dataFormatTransform row) := by
      intro k s hs
      obtain ⟨row, hrow⟩ := Dict.exists_get?_of_mem (hi.open_ k s hs).1
      exact ⟨row, hrow, by rw [hgr, hrow]; rfl⟩
    have hstep : ∀ k s, todo.data.get? k = some s → ∃ row, (rows none).data.get? k = some row ∧
        ((∃ w, traverseGuest F.tree F.guestMask fuel s (dataFormatTransform row) = .ok (.weight w) ∧
          LeafWeight S F rows k w) ∨
        ∃ i n, traverseGuest F.tree F.guestMask fuel s (dataFormatTransform row) = .ok (.node i 1) ∧
          c ≤ i ∧ Reaches S F rows k i ∧ F.tree[i]? = some n ∧ n.isLeaf = false ∧ n.site ≠ .guest) := by
      intro k s hs
      obtain ⟨_, i, tag, rfl, h1, h2, h3⟩ := hi.open_ k s hs
      obtain ⟨row, hrow, _⟩ := hgk k _ hs
      refine ⟨row, hrow, ?_⟩
      rcases walkGuest_ok hu hrow fuel i h2 (by omega) h3 with h | ⟨i', n, e1, e2, e3⟩
      · exact Or.inl h
      · exact Or.inr ⟨i', n, e1, by omega, e3⟩
    obtain ⟨moved, hm⟩ := DTable.joinM_succeeds todo hg (traverseGuest F.tree F.guestMask fuel) (by
      intro k s row' hs hrow'
      obtain ⟨row, h1, h2⟩ := hstep k s hs
      rw [hgr, h1] at hrow'
      obtain rfl := Option.some.inj hrow'
      rcases h2 with ⟨w, h, _⟩ | ⟨i, n, h, _⟩
      · exact ⟨_, h⟩
      · exact ⟨_, h⟩)
    obtain ⟨mw, m1, m2⟩ := DTable.joinM_inv hm
    have hmoved : ∀ k x, moved.data.get? k = some x → k ∈ (rows none).data.keys ∧
        ((∃ w, x = .weight w ∧ LeafWeight S F rows k w) ∨
        ∃ i n, x = .node i 1 ∧ c ≤ i ∧ Reaches S F rows k i ∧ F.tree[i]? = some n ∧
          n.isLeaf = false ∧ n.site ≠ .guest) := by
      intro k x hx
      obtain ⟨s, row', h1, h2, h3⟩ := (m1 k x).mp hx
      obtain ⟨row, e1, e2⟩ := hstep k s h1
      rw [hgr, e1] at h2
      obtain rfl := Option.some.inj h2
      refine ⟨(hi.open_ k s h1).1, ?_⟩
      rcases e2 with ⟨w, h, h'⟩ | ⟨i, n, h, h'⟩
      · rw [h] at h3; cases h3
        exact Or.inl ⟨w, rfl, h'⟩
      · rw [h] at h3; cases h3
        exact Or.inr ⟨i, n, rfl, h'⟩
    have hkept : ∀ k s, todo.data.get? k = some s → ∃ x, moved.data.get? k = some x := by
      intro k s hs
      obtain ⟨row, _, h2⟩ := hgk k s hs
      obtain ⟨x, _, hx⟩ := m2 k s _ hs h2
      exact ⟨x, hx⟩
    have hf := DTable.filter_ok mw (fun _ s => s.isWeight)
    set leaf : DTable K PState := ⟨moved.data.filter fun p => p.2.isWeight⟩ with hleaf
    obtain ⟨lw, l1⟩ := DTable.filter_inv mw hf
    have hv := DTable.mapValues_ok lw PState.getWeight
    set leafW : DTable K Rat := ⟨leaf.data.map fun p => (p.1, p.2.getWeight)⟩ with hleafW
    obtain ⟨vw, v1⟩ := DTable.mapValues_inv hv
    have hlw : ∀ k w, leafW.data.get? k = some w ↔ moved.data.get? k = some (.weight w) := by
      intro k w
      rw [v1]
      constructor
      · intro h
        cases hx : leaf.data.get? k with
        | none => rw [hx] at h; cases h
        | some x =>
          rw [hx] at h
          obtain ⟨q1, q2⟩ := (l1 k x).mp hx
          cases x with
          | node i t => cases q2
          | weight w' =>
            cases h
            exact q1
      · intro h
        rw [(l1 k _).mpr ⟨h, rfl⟩]
        rfl
    obtain ⟨T, ht, tw, t1⟩ := addWeights_ok hi.rwf vw
    have hs := DTable.subtractByKey_ok mw leaf
    set rest : DTable K PState := ⟨moved.data.filter fun p => !(leaf.data.has p.1)⟩ with hrest
    obtain ⟨rw', r1⟩ := DTable.subtractByKey_inv mw hs
    have hrest' : ∀ k x, rest.data.get? k = some x → k ∈ (rows none).data.keys ∧
        ∃ i n, x = .node i 1 ∧ c ≤ i ∧ Reaches S F rows k i ∧ F.tree[i]? = some n ∧
          n.isLeaf = false ∧ n.site ≠ .guest := by
      intro k x hx
      obtain ⟨h1, h2⟩ := (r1 k x).mp hx
      obtain ⟨h3, h4⟩ := hmoved k x h1
      refine ⟨h3, ?_⟩
      rcases h4 with ⟨w, rfl, _⟩ | h
      · rw [(l1 k _).mpr ⟨h1, rfl⟩] at h2; cases h2
      · exact h
    have hT : ∀ k w, T.data.get? k = some w → k ∈ (rows none).data.keys ∧ LeafWeight S F rows k w := by
      intro k w h
      rcases (t1 k w).mp h with ⟨t, e1, e2⟩ | ⟨_, e2⟩
      · exact hi.res t k w e1 e2
      · obtain ⟨h1, h2⟩ := hmoved k _ ((hlw k w).mp e2)
        refine ⟨h1, ?_⟩
        rcases h2 with ⟨w', e, h⟩ | ⟨i, n, e, _⟩
        · cases e; exact h
        · cases e
    have hcover : ∀ k ∈ (rows none).data.keys, (∃ s, rest.data.get? k = some s) ∨
        ∃ w, T.data.get? k = some w := by
      intro k hk
      by_cases hres : ∃ t w, result = some t ∧ t.data.get? k = some w
      · obtain ⟨t, w, e1, e2⟩ := hres
        exact Or.inr ⟨w, (t1 k w).mpr (Or.inl ⟨t, e1, e2⟩)⟩
      · rcases hi.cover k hk with ⟨s, hs'⟩ | h
        · obtain ⟨x, hx⟩ := hkept k s hs'
          cases x with
          | weight w =>
            right
            refine ⟨w, (t1 k w).mpr (Or.inr ⟨?_, (hlw k w).mpr hx⟩)⟩
            intro t e
            by_contra hc
            obtain ⟨w', hw'⟩ := Option.ne_none_iff_exists'.mp hc
            exact hres ⟨t, w', e, hw'⟩
          | node i t =>
            left
            refine ⟨_, (r1 k _).mpr ⟨hx, ?_⟩⟩
            by_contra hc
            obtain ⟨y, hy⟩ := Option.ne_none_iff_exists'.mp hc
            obtain ⟨q1, q2⟩ := (l1 k y).mp hy
            rw [hx] at q1
            cases q1
            cases q2
        · exact absurd h hres
    unfold predictLoop
    simp only [bind, Except.bind, hm, hf, hv, ht, hs]
    by_cases hc : rest.count = 0
    · rw [if_pos hc]
      refine ⟨T, rfl, tw, hT, fun k hk => ?_⟩
      rcases hcover k hk with ⟨s, h⟩ | h
      · unfold DTable.count at hc
        rw [List.length_eq_zero_iff.mp hc] at h
        cases h
      · exact h
    · rw [if_neg hc]
      -- the hosts' part
      have htrav : ∀ Q ∈ Hs, ∀ k x, rest.data.get? k = some x → ∃ srow y,
          Q.rows.data.get? k = some srow ∧ traverseHost F.tree Q.mask (.host Q.idx) fuel x srow = .ok y ∧
          ∀ i n, x = .node i 1 → F.tree[i]? = some n →
            (n.site ≠ .host Q.idx → y = .node i 1) ∧
            (n.site = .host Q.idx → ∃ c, y = .node c 0 ∧ i < c ∧ c < F.tree.length ∧ Reaches S F rows k c) := by
        intro Q hQ k x hx
        obtain ⟨j, P, q1, q2, q3, q4, q5⟩ := hH.each Q hQ
        obtain ⟨hk, i, n, rfl, hci, hre, hn, hl, hsite⟩ := hrest' k x hx
        have hkj := (hr.keys (some j) P q1 k).mpr hk
        obtain ⟨row, hrow⟩ := Dict.exists_get?_of_mem hkj
        have hil : i < F.tree.length := (List.getElem?_eq_some_iff.mp hn).1
        by_cases hsn : n.site = .host Q.idx
        · obtain ⟨c', e1, e2, e3, e4, e5⟩ := walkHost_ok hu q1 q2 hrow fuel i hil (by omega) hre
          refine ⟨dataFormatTransform row, .node c' 0, by rw [q5, hrow]; rfl, ?_, ?_⟩
          · unfold traverseHost
            simp only
            rw [hn]
            simp only [hsn, ne_eq, not_true_eq_false, if_false]
            rw [q3]; exact e1
          · intro i' n' ei en
            cases ei
            rw [hn, Option.some.injEq] at en
            subst en
            exact ⟨fun h => absurd hsn h, fun _ => ⟨c', rfl, e5 n hn (by rw [hsn, q3]), e2, e4⟩⟩
        · refine ⟨dataFormatTransform row, .node i 1, by rw [q5, hrow]; rfl, ?_, ?_⟩
          · unfold traverseHost
            simp only
            rw [hn]
            simp only
            rw [if_pos hsn]
          · intro i' n' ei en
            cases ei
            rw [hn, Option.some.injEq] at en
            subst en
            exact ⟨fun _ => rfl, fun h => absurd h hsn⟩
      obtain ⟨ts, w1, w2⟩ := hostWalks_ok (tree := F.tree) (fuel := fuel) (todo := rest) Hs (by
        intro Q hQ
        obtain ⟨_, _, _, _, _, q4, _⟩ := hH.each Q hQ
        refine ⟨q4, fun k s row hs' hrow => ?_⟩
        obtain ⟨srow, y, h1, h2, _⟩ := htrav Q hQ k s hs'
        rw [hrow, Option.some.injEq] at h1
        subst h1
        exact ⟨y, h2⟩)
      have hbs : ∀ k i n, rest.data.get? k = some (.node i 1) → F.tree[i]? = some n →
          ∃ bs, List.Forall₂ (fun t b => t.data.get? k = some b) ts bs ∧
            List.Forall₂ (fun Q b => (n.site ≠ .host Q.idx → b = .node i 1) ∧
              (n.site = .host Q.idx → ∃ c, b = .node c 0 ∧ i < c ∧ c < F.tree.length ∧
                Reaches S F rows k c)) Hs bs := by
        intro k i n hx hn
        refine forall₂_bridge (fun Q hQ t hqt => ?_) w2
        obtain ⟨srow, y, h1, h2, h3⟩ := htrav Q hQ k _ hx
        obtain ⟨y', h4, h5⟩ := hqt.2 k _ srow hx h1
        rw [h2] at h4
        cases h4
        exact ⟨y, h5, h3 i n rfl hn⟩
      obtain ⟨todo', u1, u2, u3, u4⟩ := mergeWalks_ok ts rest (by
        intro t ht'
        obtain ⟨Q, _, hq, _⟩ := forall₂_mem_right w2 t ht'
        exact hq) rw'
      simp only [w1, u1]
      have hnew : ∀ k s, rest.data.get? k = some s → ∃ c', todo'.data.get? k = some (.node c' 0) ∧
          c + 1 ≤ c' ∧ c' < F.tree.length ∧ Reaches S F rows k c' := by
        intro k s hx
        obtain ⟨hk, i, n, rfl, hci, hre, hn, hl, hsite⟩ := hrest' k s hx
        obtain ⟨bs, b1, b2⟩ := hbs k i n hx hn
        obtain ⟨c', f1, f2⟩ := fold_moved (i := i)
          (G := fun c => i < c ∧ c < F.tree.length ∧ Reaches S F rows k c) bs (.node i 1) (Or.inl rfl) (by
            intro b hb
            obtain ⟨Q, _, hq1, hq2⟩ := forall₂_mem_right b2 b hb
            by_cases hsn : n.site = .host Q.idx
            · exact Or.inr (hq2 hsn)
            · exact Or.inl (hq1 hsn)) (by
            right
            obtain ⟨j, f, t, n', P, d, p1, p2, p3, p4, p5, p6, p7⟩ := hu.split i n hn hl
            rw [hn, Option.some.injEq] at p1
            subst p1
            cases j with
            | none => exact absurd p5 hsite
            | some j =>
              obtain ⟨Q, hQ, hQi⟩ := hH.all j P p4
              obtain ⟨b, hb, _, hq2⟩ := forall₂_mem_left b2 Q hQ
              exact ⟨b, hb, hq2 (by rw [p5, hQi]; rfl)⟩)
        exact ⟨c', by rw [u4 k _ bs hx b1, f1], by omega, f2.2⟩
      have hr1 : 1 ≤ r := by
        have hne : rest.data ≠ [] := fun h => hc (by unfold DTable.count; rw [h]; rfl)
        obtain ⟨p, l, hpl⟩ := List.exists_cons_of_ne_nil hne
        have hp : rest.data.get? p.1 = some p.2 := by rw [hpl]; simp [Dict.get?]
        obtain ⟨c', _, e2, e3, _⟩ := hnew p.1 p.2 hp
        omega
      refine predictLoop_ok hu hr hg hgr hH fuel hfuel r (c + 1) todo' (some T) hr1 (by omega)
        ⟨u2, ?_, ?_, ?_, ?_⟩
      · intro k s hs'
        cases hx : rest.data.get? k with
        | none => rw [u3 k hx] at hs'; cases hs'
        | some x =>
          obtain ⟨c', e1, e2, e3, e4⟩ := hnew k x hx
          rw [e1] at hs'
          cases hs'
          exact ⟨(hrest' k x hx).1, c', 0, rfl, e2, e3, e4⟩
      · rintro t ⟨⟩; exact tw
      · rintro t k w ⟨⟩ h; exact hT k w h
      · intro k hk
        rcases hcover k hk with ⟨s, h⟩ | ⟨w, h⟩
        · obtain ⟨c', e1, _⟩ := hnew k s h
          exact Or.inl ⟨_, e1⟩
        · exact Or.inr ⟨T, w, rfl, h⟩

/-- Prediction with one tree. -/
theorem predictRows_ok {S : Setup K α} {F : Fitted K} (hu : UsableTree S F)
    {rows : Option Nat → DTable K (List Rat)} (hr : SameSamples S rows) {fuel : Nat}
    (hfuel : F.tree.length ≤ fuel) :
    ∃ T, predictRows S F (rows none) (hostRows S rows) fuel = .ok T ∧ T.WF ∧
      (∀ k w, T.data.get? k = some w → k ∈ (rows none).data.keys ∧ LeafWeight S F rows k w) ∧
      ∀ k ∈ (rows none).data.keys, ∃ w, T.data.get? k = some w := by
  obtain ⟨g, g1, g2, g3⟩ := alignRows_ok (hr.wf none S.guest rfl) hr.some
  obtain ⟨hs, h1, h2⟩ := hostsOk hu hr
  have hm := DTable.mapValues_ok g2 (fun _ => PState.node 0 1)
  obtain ⟨m1, m2⟩ := DTable.mapValues_inv hm
  have hlen : 0 < F.tree.length := List.length_pos_iff.mpr hu.wf.root
  obtain ⟨T, t1, t2⟩ := predictLoop_ok hu hr g2 g3 h2 fuel hfuel fuel 0 _ none (by omega) (by omega)
    ⟨m1, by
      intro k s hk
      rw [m2, g3] at hk
      cases hrow : (rows none).data.get? k with
      | none => rw [hrow] at hk; cases hk
      | some row =>
        rw [hrow] at hk
        cases hk
        exact ⟨Dict.mem_keys_of_get? hrow, 0, 1, rfl, le_refl _, hlen, .refl⟩,
     by simp, by simp, by
      intro k hk
      obtain ⟨row, hrow⟩ := Dict.exists_get?_of_mem hk
      exact Or.inl ⟨.node 0 1, by rw [m2, g3, hrow]; rfl⟩⟩
  refine ⟨T, ?_, t2⟩
  unfold predictRows predictTree
  simp only [bind, Except.bind, g1, h1, hm]
  exact t1

end DTree
end Verif
