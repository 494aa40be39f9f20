import Verif.Lemmas.Redispatch

/-! # Where the samples are between two levels -/

set_option autoImplicit false

namespace Verif
namespace DTree

open Spec
open Binning (Cell SparseVec)

variable {K : Type} [DecidableEq K] {α : Type}

/-- Sample `k` comes to node `i` by the recorded bins. -/
inductive BinReach (S : Setup K α) (tree : List Node) (gmask : Dict Nat Int)
    (masks : List (Dict Nat Int)) (k : K) : Nat → Prop
  | root : BinReach S tree gmask masks k 0
  | step {i : Nat} {n : Node} {b : Bool} {c : Nat} : BinReach S tree gmask masks k i →
      tree[i]? = some n → n.isLeaf = false → BinSide S gmask masks k i n b →
      (if b then n.left else n.right) = some c → BinReach S tree gmask masks k c

/-- The guest records bins for the nodes of the level only. -/
theorem updateLoop_mask {cfg : Config} {kind : ImpType} {reach : Bool} :
    ∀ (rem : List Node) (ss : List (SplitInfo (Option Rat) Rat)) (g g' : Grow),
    updateLoop cfg kind reach rem ss g = .ok g' →
    ∀ id, id ∉ rem.map Node.id → Dict.get? g'.mask id = Dict.get? g.mask id
  | [], _, g, g', hu, id, _ => by unfold updateLoop at hu; cases hu; rfl
  | n :: rem, ss, g, g', hu, id, hid => by
    simp only [List.map_cons, List.mem_cons, not_or] at hid
    unfold updateLoop at hu
    by_cases hr : reach = true
    · rw [if_pos hr] at hu
      exact updateLoop_mask rem _ _ g' hu id hid.2
    · rw [if_neg hr] at hu
      cases ss with
      | nil => cases hu
      | cons s ss =>
        simp only at hu
        by_cases hg : s.gain ≤ cfg.rnd (cfg.minImpurity + Quantile.floatZero)
        · rw [if_pos hg] at hu
          exact updateLoop_mask rem _ _ g' hu id hid.2
        · rw [if_neg hg] at hu
          cases h1 : splitNode cfg.rnd cfg.regLambda kind n s g with
          | error e => rw [h1] at hu; cases hu
          | ok g1 =>
            rw [h1] at hu
            rw [updateLoop_mask rem ss g1 g' hu id hid.2]
            obtain ⟨gl, hl, wl, wr, bid, imps, _, _, _, _, _, m1, m2, _⟩ := splitNode_inv h1
            by_cases hsite : s.site = .guest
            · obtain ⟨b, _, _, hm⟩ := m1 hsite
              rw [hm, Dict.get?_set]
              rw [if_neg (Ne.symm hid.1)]
            · rw [(m2 hsite).2]

theorem BinSide.mono {S : Setup K α} {gm gm' : Dict Nat Int} {ms ms' : List (Dict Nat Int)}
    {k : K} {i : Nat} {n : Node} {b : Bool} (h : BinSide S gm ms k i n b)
    (hg : Dict.get? gm' i = Dict.get? gm i)
    (hm : List.Forall₂ (fun m m' => Dict.get? m' i = Dict.get? m i) ms ms') :
    BinSide S gm' ms' k i n b := by
  obtain ⟨j, P, m, row, f, z, bid, h1, h2, h3, h4, h5, h6, h7, h8⟩ := h
  cases j with
  | none =>
    simp only [maskAt, Option.some.injEq] at h3
    subst h3
    exact ⟨none, P, gm', row, f, z, bid, h1, h2, rfl, by rw [hg, h4], h5, h6, h7, h8⟩
  | some j =>
    simp only [maskAt] at h3
    obtain ⟨hj, rfl⟩ := List.getElem?_eq_some_iff.mp h3
    have hj' : j < ms'.length := by rw [← hm.length_eq]; exact hj
    have := List.Forall₂.get hm hj hj'
    simp only [List.get_eq_getElem] at this
    exact ⟨some j, P, ms'[j], row, f, z, bid, h1, h2, List.getElem?_eq_getElem hj', by rw [this, h4],
      h5, h6, h7, h8⟩

theorem BinReach.mono {S : Setup K α} {tree tree' : List Node} {gm gm' : Dict Nat Int}
    {ms ms' : List (Dict Nat Int)} {k : K} {i : Nat} (h : BinReach S tree gm ms k i)
    (ht : ∀ (i : Nat) n, tree[i]? = some n → tree'[i]? = some n)
    (hg : ∀ i < tree.length, Dict.get? gm' i = Dict.get? gm i)
    (hm : List.Forall₂ (fun m m' => ∀ i < tree.length, Dict.get? m' i = Dict.get? m i) ms ms') :
    BinReach S tree' gm' ms' k i := by
  induction h with
  | root => exact .root
  | @step i n b c _ hn hl hs hc ih =>
    have hi : i < tree.length := (List.getElem?_eq_some_iff.mp hn).1
    exact .step ih (ht i n hn) hl (hs.mono (hg i hi) (hm.imp fun a b h => h i hi)) hc

/-- Nodes are stored at the position of their number, also in the middle of a run. -/
theorem Inv.position {rnd : Rat → Rat} {lam : Rat} {lev : Nat → Nat} {sums : Nat → Rat × Rat} {dep num : Nat}
    {tree rem new : List Node} (h : Inv rnd lam lev sums dep tree rem new num) :
    (∀ (i : Nat) n, tree[i]? = some n → n.id = i) ∧
    (∀ n ∈ rem ++ new, tree.length ≤ n.id ∧ n.id ≤ num) ∧ tree.length ≤ num + 1 := by
  have hids := h.ids
  rw [List.map_append] at hids
  have hlen : tree.length + (rem ++ new).length = num + 1 := by
    simpa using congrArg List.length hids
  refine ⟨fun i n hi => ?_, fun n hn => ?_, by omega⟩
  · have hi' := (List.getElem?_eq_some_iff.mp hi).1
    have h1 : (tree.map Node.id ++ (rem ++ new).map Node.id)[i]? = some n.id := by
      rw [List.getElem?_append_left (by simpa using hi'), List.getElem?_map, hi]; rfl
    rw [hids, List.getElem?_range (by omega)] at h1
    simpa using h1.symm
  · obtain ⟨i, hi⟩ := List.mem_iff_getElem?.mp hn
    have hi' := (List.getElem?_eq_some_iff.mp hi).1
    have h1 : (tree.map Node.id ++ (rem ++ new).map Node.id)[tree.length + i]? = some n.id := by
      rw [List.getElem?_append_right (by simp), List.length_map, Nat.add_sub_cancel_left,
        List.getElem?_map, hi]; rfl
    rw [hids, List.getElem?_range (by omega)] at h1
    simp only [Option.some.injEq] at h1
    omega

/-- Every training sample is at a node still to be done or has the weight of the leaf it came
to. -/
structure Track (S : Setup K α) (dep : Nat) (st : State K) : Prop where
  ready : ∃ lev sums, Ready S.cfg.rnd S.cfg.regLambda lev sums dep st.grow
  len : S.hosts.length = st.masks.length
  sites : ∀ n ∈ st.grow.tree, SiteOk S.hosts n
  wf : st.disp.WF
  outside : ∀ k, S.guest.data.data.get? k = none →
    st.disp.data.get? k = none ∧ weightOf st.weights k = none
  inside : ∀ k row, S.guest.data.data.get? k = some row →
    (∃ nid, st.disp.data.get? k = some (.at 1 nid) ∧ nid ∈ st.grow.queue.map Node.id ∧
      weightOf st.weights k = none ∧ BinReach S st.grow.tree st.grow.mask st.masks k nid) ∨
    (st.disp.data.get? k = none ∧ ∃ i n, st.grow.tree[i]? = some n ∧ n.isLeaf = true ∧
      weightOf st.weights k = some n.weight ∧ BinReach S st.grow.tree st.grow.mask st.masks k i)

/-- All parties have the guest's samples. -/
def SameKeys (S : Setup K α) : Prop :=
  ∀ H ∈ S.hosts, ∀ k row, S.guest.data.data.get? k = some row → ∃ row', H.data.data.get? k = some row'

theorem dataPos_get {disp : DTable K Disp} {pos : DTable K (Nat × Nat)} {data : DTable K (SparseVec Cell)}
    {dataPos : DTable K (SparseVec Cell × Nat × Nat)}
    (h1 : disp.mapValuesM unpackPos = .ok pos)
    (h2 : data.join pos (fun v p => (v, p)) = .ok dataPos) (k : K) (row : SparseVec Cell) (s n : Nat) :
    dataPos.data.get? k = some (row, s, n) ↔
      data.data.get? k = some row ∧ disp.data.get? k = some (.at s n) := by
  obtain ⟨_, p2⟩ := DTable.mapValuesM_inv h1
  obtain ⟨_, p3⟩ := DTable.join_inv h2
  rw [p3]
  constructor
  · rintro ⟨v, w, a1, a2, a3⟩
    cases a3
    obtain ⟨d, b1, b2⟩ := (p2 k _).mp a2
    refine ⟨a1, ?_⟩
    cases d with
    | «at» s' n' => cases b2; exact b1
    | ask => cases b2
    | leaf => cases b2
  · rintro ⟨a1, a2⟩
    exact ⟨row, (s, n), a1, (p2 k _).mpr ⟨_, a2, rfl⟩, rfl⟩

/-- What a level does to tree and recorded bins: the finished part does not change. -/
theorem level_frame {S : Setup K α} {dep : Nat} {reach : Bool} {st st' : State K}
    (ht : Track S dep st) (h : level S dep reach st = .ok st') :
    (∃ done, st'.grow.tree = st.grow.tree ++ done) ∧
    (∀ i < st.grow.tree.length, Dict.get? st'.grow.mask i = Dict.get? st.grow.mask i) ∧
    List.Forall₂ (fun m m' => ∀ i < st.grow.tree.length, Dict.get? m' i = Dict.get? m i)
      st.masks st'.masks := by
  obtain ⟨lev, sums, hr⟩ := ht.ready
  obtain ⟨_, _, ss, _, _, _, h3, h4, _⟩ := level_inv h
  obtain ⟨_, _, a3⟩ := level_sites ht.len ht.sites h
  obtain ⟨_, _, _, _, ⟨done, hd, _⟩, _⟩ := hr.update h4
  have hq : ∀ i < st.grow.tree.length, i ∉ st.grow.queue.map Node.id := by
    intro i hi hc
    obtain ⟨n, hn, rfl⟩ := List.mem_map.mp hc
    have := (hr.inv.position.2.1 n (by simpa using hn)).1
    omega
  refine ⟨⟨done, hd⟩, fun i hi => ?_, a3.imp fun m m' hm i hi => hm i (hq i hi)⟩
  exact updateLoop_mask _ _ { st.grow with queue := [] } _ h4 i (hq i hi)

theorem Track.step {S : Setup K α} (hkeys : SameKeys S) (hidx : (S.hosts.map Party.idx).Nodup)
    {dep : Nat} {reach : Bool} {st st' : State K} (ht : Track S dep st)
    (h : level S dep reach st = .ok st') : Track S (dep + 1) st' := by
  obtain ⟨⟨done, hdone⟩, hgm, hms⟩ := level_frame ht h
  obtain ⟨lev, sums, hr⟩ := ht.ready
  obtain ⟨pos, dataPos, ss, h1, h2, _, h3, h4, h5⟩ := level_inv h
  obtain ⟨s1, s2, _⟩ := level_sites ht.len ht.sites h
  obtain ⟨lev', sums', u1, u2, _, u4, _⟩ := hr.update h4
  have hdp := dataPos_get h1 h2
  have hguest : ∀ k v, dataPos.data.get? k = some v → S.guest.data.data.get? k = some v.1 := by
    rintro k ⟨row, s, n⟩ hk
    exact ((hdp k row s n).mp hk).1
  obtain ⟨r1, _, r3, r4⟩ := redispatch_inv s1 hguest
    (fun H hH k v hk => hkeys H hH k _ (hguest k v hk)) s2 hidx h5
  have happ : ∀ (i : Nat) n, st.grow.tree[i]? = some n → st'.grow.tree[i]? = some n := by
    intro i n hn
    rw [hdone, List.getElem?_append_left (List.getElem?_eq_some_iff.mp hn).1]
    exact hn
  refine ⟨⟨lev', sums', u2⟩, s1, s2, r1, ?_, ?_⟩
  · intro k hk
    obtain ⟨o1, o2⟩ := ht.outside k hk
    have hn : dataPos.data.get? k = none := by
      cases hc : dataPos.data.get? k with
      | none => rfl
      | some v => rw [hguest k v hc] at hk; cases hk
    obtain ⟨q1, q2⟩ := r3 k hn
    exact ⟨q1, by rw [q2, o2]⟩
  · intro k row hk
    rcases ht.inside k row hk with ⟨nid, d1, d2, d3, d4⟩ | ⟨d1, i, n, d2, d3, d4, d5⟩
    · have hpos := (hdp k row 1 nid).mpr ⟨hk, d1⟩
      obtain ⟨n, hn, hcase⟩ := r4 k row 1 nid hpos
      have hreach := d4.mono happ hgm hms
      rcases hcase with ⟨c1, c2, c3⟩ | ⟨c1, c2, b, c, c3, c4, c5⟩
      · right
        refine ⟨c2, nid, n, hn, c1, ?_, hreach⟩
        rw [c3, d3]; rfl
      · left
        refine ⟨c, c5, ?_, by rw [c2, d3], .step hreach hn c1 c3 c4⟩
        obtain ⟨q, hq, rfl⟩ := List.mem_map.mp d2
        have hlev : lev' q.id = dep + 1 := by
          rw [(u1 q.id (hr.inv.position.2.1 q (by simpa using hq)).2).1]
          exact hr.inv.levRem q hq
        have hnid := u2.inv.position.1 _ n hn
        rcases u2.inv.shape n (List.mem_of_getElem? hn) with ⟨e1, _⟩ | ⟨_, l, e1, e2, e3, e4, e5, e6, _⟩
        · rw [c1] at e1; cases e1
        have hc : c ≤ st'.grow.num ∧ lev' c = dep + 2 := by
          rw [hnid, hlev] at e5 e6
          cases b with
          | true => simp only [if_true] at c4; rw [e1] at c4; cases c4; exact ⟨by omega, e5⟩
          | false =>
            simp only [Bool.false_eq_true, if_false] at c4; rw [e2] at c4; cases c4; exact ⟨by omega, e6⟩
        have hmem : c ∈ (st'.grow.tree ++ (st'.grow.queue ++ [])).map Node.id := by
          rw [u2.inv.ids, List.mem_range]; omega
        rw [List.append_nil, List.map_append, List.mem_append] at hmem
        rcases hmem with hm | hm
        · obtain ⟨m, hm', rfl⟩ := List.mem_map.mp hm
          have := u2.lev m hm'
          omega
        · exact hm
    · right
      have hn : dataPos.data.get? k = none := by
        cases hc : dataPos.data.get? k with
        | none => rfl
        | some v =>
          obtain ⟨r, s, m⟩ := v
          have := ((hdp k r s m).mp hc).2
          rw [d1] at this; cases this
      obtain ⟨q1, q2⟩ := r3 k hn
      exact ⟨q1, i, n, happ i n d2, d3, by rw [q2, d4], d5.mono happ hgm hms⟩

theorem Track.init {S : Setup K α} {st : State K} (h : initState S = .ok st) : Track S 0 st := by
  obtain ⟨g, hs, w, disp, a1, a2, a3, rfl⟩ := initState_inv h
  obtain ⟨w1, w2⟩ := DTable.mapValues_inv a3
  refine ⟨⟨_, _, Ready.root _ _ g hs w a2 [] []⟩, by simp, by simp, w1, ?_, ?_⟩
  · intro k hk
    exact ⟨by rw [w2, hk]; rfl, rfl⟩
  · intro k row hk
    exact Or.inl ⟨0, by rw [w2, hk]; rfl, by simp [Node.fresh], rfl, .root⟩

/-- At the end of a run every sample has the weight of the leaf it came to. -/
theorem fit_track {S : Setup K α} (hkeys : SameKeys S) (hidx : (S.hosts.map Party.idx).Nodup)
    (hd : 1 ≤ S.maxDepth) {F : Fitted K} (h : fit S = .ok F) :
    ∃ st : State K, F.tree = st.grow.tree ∧ S.hosts.length = st.masks.length ∧
      (∀ n ∈ F.tree, SiteOk S.hosts n) ∧
      convert .guest S.guest.splits st.grow.mask F.tree [] = .ok F.guestMask ∧
      convertHosts F.tree S.hosts st.masks = .ok F.hostMasks ∧
      (∀ k, S.guest.data.data.get? k = none → weightOf F.weights k = none) ∧
      ∀ k row, S.guest.data.data.get? k = some row → ∃ i n, F.tree[i]? = some n ∧ n.isLeaf = true ∧
        weightOf F.weights k = some n.weight ∧ BinReach S F.tree st.grow.mask st.masks k i := by
  obtain ⟨st0, st, h1, h2, h3, h4, ht, hw, _⟩ := fit_inv h
  have hq : st.grow.queue = [] := levels_done level_last _ 0 _ st (fun h => by omega) h2
  obtain ⟨dep, _, t⟩ := levels_induct (Track S)
    (fun dep reach st st' ht _ hl => ht.step hkeys hidx hl) _ 0 st0 st (Track.init h1) h2
  rw [← ht] at h3 h4
  refine ⟨st, ht, t.len, by rw [ht]; exact t.sites, h3, h4, ?_, ?_⟩
  · intro k hk
    rw [hw]; exact (t.outside k hk).2
  · intro k row hk
    rcases t.inside k row hk with ⟨nid, _, d2, _⟩ | ⟨_, i, n, d2, d3, d4, d5⟩
    · rw [hq] at d2; simp at d2
    · rw [ht, hw]; exact ⟨i, n, d2, d3, d4, d5⟩

end DTree
end Verif
