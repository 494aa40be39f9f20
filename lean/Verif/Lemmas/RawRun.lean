import Verif.Lemmas.Run

/-! # From raw rows: the recorded bins and the thresholds of a run separate samples alike -/

set_option autoImplicit false

namespace Verif
namespace DTree

open Spec
open Binning (Cell SparseVec getBinNum)

variable {K : Type} [DecidableEq K] {α : Type}

theorem RawRun.binned {S : Setup K α} {rows : Option Nat → DTable K (List Rat)} (h : RawRun S rows)
    (j : Option Nat) (P : Party K) (hP : partyAt S j = some P) : Binned P (rows j) :=
  binned_of_fromRaw (h.parties j P hP).1

theorem RawRun.prepared {S : Setup K α} {rows : Option Nat → DTable K (List Rat)} (h : RawRun S rows) :
    Prepared S := by
  refine ⟨fun j P hP => ?_, h.names, h.wf, ?_⟩
  · have hb := RawRun.binned h j P hP
    obtain ⟨_, h2, h3⟩ := h.parties j P hP
    refine ⟨h2, hb.zero, hb.wf, fun k v hk => ?_, fun k => by rw [hb.keys]; exact h3 k⟩
    obtain ⟨_, _, h, _⟩ := hb.rows k v hk
    exact h
  · obtain ⟨⟨_, _, _, _, _, _, _, _, hne, _⟩, _, h3⟩ := h.parties none S.guest rfl
    intro hc
    cases hd : (rows none).data with
    | nil => exact hne hd
    | cons p l =>
      have := (h3 p.1).mp (by rw [hd]; simp [Dict.keys])
      rw [hc] at this
      simp [Dict.keys] at this

theorem binAt_raw {P : Party K} {rows : DTable K (List Rat)} (hb : Binned P rows) {k : K}
    (hk : k ∈ P.data.data.keys) {f : Nat} {sp : List Rat} (hf : P.splits[f]? = some sp) :
    ∃ row, rows.data.get? k = some row ∧ binAt P f k = (getBinNum (value row f) sp : Nat) := by
  obtain ⟨v, hv⟩ := Dict.exists_get?_of_mem hk
  obtain ⟨row, r1, _, r3⟩ := hb.rows k v hv
  obtain ⟨z, z1, z2⟩ := r3 f sp hf
  refine ⟨row, r1, ?_⟩
  unfold binAt
  rw [hv]
  simp only [binOf, z1, Option.getD_some, z2, Binning.Cell.val]

/-- A whole run from raw rows. -/
structure GrownBy (S : Setup K α) (R : Rules K) (rows : Option Nat → DTable K (List Rat)) (F : Fitted K) (lev : Nat → Nat) (mem : Nat → List K) : Prop where
  fit : fit S = .ok F
  inv : ∃ sums dep num, dep ≤ S.maxDepth ∧ Inv S.cfg.rnd S.cfg.regLambda lev sums dep F.tree [] [] num
  lists : ∀ i < F.tree.length, Lists (mem i) fun k => k ∈ S.gh.data.keys ∧ Reaches S F rows k i
  sums : ∀ n ∈ F.tree, mem n.id ≠ [] ∧
    R.near (lev n.id - 1) (mem n.id) (n.sumGrad, n.sumHess)
  nodes : ∀ n ∈ F.tree, LeafBy S R lev mem n ∨ (n.isLeaf = false ∧ ∃ j P f b l sp t,
    partyAt S j = some P ∧ P.splits[f]? = some sp ∧ sp[b]? = some t ∧ SplitAt S F n.id j f t ∧
    R.pick (mem n.id) (n.sumGrad, n.sumHess) j f b l)
  ends : ∀ k ∈ S.gh.data.keys, ∃ i n, F.tree[i]? = some n ∧ n.isLeaf = true ∧
    Reaches S F rows k i ∧ trainedWeight F k = some n.weight
  imps : ∃ gains num, ImpInv S.kind (S.cfg.rnd (S.cfg.minImpurity + Quantile.floatZero)) R.gain gains F.tree
    [] num F.imps

/-- The bins of the splits that the rules allow and their split points separate all values alike. -/
def PicksOk (S : Setup K α) (R : Rules K) : Prop :=
  ∀ A s j P f b l sp t, (∀ k ∈ A, k ∈ S.gh.data.keys) → partyAt S j = some P → P.splits[f]? = some sp →
    sp[b]? = some t → R.pick A s j f b l → BinOk sp b t

theorem grownBy {S : Setup K α} {R : Rules K} {m : Rat} {rows : Option Nat → DTable K (List Rat)}
    (hr : RawRun S rows) (hu : Usual S m) (hc : ChoosesBy S R) (hv : SteadyBy S R) (hpk : PicksOk S R) :
    ∃ F lev mem, GrownBy S R rows F lev mem := by
  have hp := RawRun.prepared hr
  have hb := RawRun.binned hr
  obtain ⟨F, st, dep, lev, mem, hfit, ht, hw, hi, hq, h3, h4, g, hdep⟩ := fit_ok hp hu hc hv
  obtain ⟨sums, hready⟩ := g.ready
  have hinv := hready.inv
  rw [hq, ← ht] at hinv
  obtain ⟨hlen, hnum⟩ := hinv.number
  have hnd : (F.tree.map Node.id).Nodup := by
    have := hinv.ids
    simp only [List.append_nil] at this
    rw [this]; exact List.nodup_range
  have hmemk : ∀ i, ∀ k ∈ mem i, k ∈ S.gh.data.keys := by
    intro i k hk
    obtain ⟨p, hp'⟩ := g.sub i
    rw [hp'] at hk
    exact List.mem_of_mem_filter hk
  have hok : ∀ (i : Nat) n j P m f b sp t, F.tree[i]? = some n → n.isLeaf = false →
      partyAt S j = some P → n.site = siteName P j → maskAt st.grow.mask st.masks j = some m →
      Dict.get? m i = some ((b : Nat) : Int) → n.fid = some ((f : Nat) : Int) →
      P.splits[f]? = some sp → sp[b]? = some t → BinOk sp b t := by
    intro i n j P mk f b sp t hn hl hP hs hm hg hf hsp hbt
    have hid := hnum i n hn
    rw [ht] at hn
    rcases g.done n (List.mem_of_getElem? hn) with ⟨d1, _⟩ |
      ⟨_, j', P', mk', f', b', l, c, sp', c1, c2, c3, c4, c5, c6, _⟩
    · rw [hl] at d1; cases d1
    have hj := party_unique hp.names c1 hP (by rw [← c2, ← hs])
    subst hj
    rw [hP, Option.some.injEq] at c1
    subst c1
    rw [hm, Option.some.injEq] at c3
    subst c3
    rw [hid, hg, Option.some.injEq] at c4
    rw [hf, Option.some.injEq] at c5
    have e1 : b = b' := by exact_mod_cast c4
    have e2 : f = f' := by exact_mod_cast c5
    subst e1 e2
    exact hpk _ _ _ _ _ _ _ _ _ (hmemk n.id) hP hsp hbt c6
  have hlenm := g.track.len
  have hreach : ∀ i < F.tree.length, ∀ k, k ∈ mem i ↔
      k ∈ S.gh.data.keys ∧ BinReach S F.tree st.grow.mask st.masks k i := by
    intro i hi k
    rw [ht] at hi ⊢
    exact g.reach hp hq i hi k
  have hfwd : ∀ {k i}, BinReach S F.tree st.grow.mask st.masks k i → Reaches S F rows k i :=
    fun h => reaches_of_binReach hnd hnum hlenm h3 h4 hb hok h
  have hinner : ∀ n ∈ F.tree, n.isLeaf = false → InnerBy S R st.grow.mask st.masks mem n := by
    intro n hn hl
    rw [ht] at hn
    rcases g.done n hn with ⟨d1, _⟩ | h
    · rw [hl] at d1; cases d1
    · exact h
  have hback : ∀ {k i}, k ∈ S.gh.data.keys → Reaches S F rows k i →
      BinReach S F.tree st.grow.mask st.masks k i := by
    intro k i hk h
    induction h with
    | refl => exact .root
    | @tail i c _ hstep ih =>
      obtain ⟨_, _, _, _, _, ⟨n, _, _, hn, hl, _⟩, _⟩ := id hstep
      obtain ⟨_, j, P, mk, f, b, l, c', sp, c1, c2, c3, c4, c5, _, c7, c8, _, _, q2, _⟩ :=
        hinner n (List.mem_of_getElem? hn) hl
      obtain ⟨_, hz, _, _, hkeys⟩ := hp.parties j P c1
      obtain ⟨v, hv⟩ := Dict.exists_get?_of_mem ((hkeys k).mpr hk)
      obtain ⟨z, z1, _⟩ := hz f sp q2
      rw [hnum i n hn] at c4
      have hbs : BinSide S st.grow.mask st.masks k i n (decide ((v.getData f (.bin z)).val ≤ ((b : Int) : Rat))) :=
        ⟨j, P, mk, v, f, z, b, c1, c2, c3, c4, hv, c5, z1, rfl⟩
      have hch : ∃ c2, (if (decide ((v.getData f (.bin z)).val ≤ ((b : Int) : Rat))) then n.left else n.right) = some c2 := by
        split
        · exact ⟨_, c7⟩
        · exact ⟨_, c8⟩
      obtain ⟨c2, hc2⟩ := hch
      have := step_of_binSide (rows := rows) hnd hnum hlenm h3 h4 hb hok hn hl hbs hc2
      have hcc := step_unique hp.names k this hstep
      subst hcc
      exact .step ih hn hl hbs hc2
  have himps : ∃ gains num, ImpInv S.kind (S.cfg.rnd (S.cfg.minImpurity + Quantile.floatZero)) R.gain gains F.tree
      [] num F.imps := by
    obtain ⟨gains, h⟩ := g.imps
    rw [hq] at h
    exact ⟨gains, _, by rw [ht, hi]; exact h⟩
  refine ⟨F, lev, mem, hfit, ⟨sums, dep, _, hdep, hinv⟩, ?_, ?_, ?_, ?_, himps⟩
  · intro i hi
    obtain ⟨p, hp'⟩ := g.sub i
    refine ⟨by rw [hp']; exact List.Nodup.filter _ hp.wf, fun k => ?_⟩
    rw [hreach i hi k]
    exact ⟨fun h => ⟨h.1, hfwd h.2⟩, fun h => ⟨h.1, hback h.1 h.2⟩⟩
  · intro n hn
    rw [ht] at hn
    exact g.sums n (by simp [hn])
  · intro n hn
    by_cases hl : n.isLeaf = true
    · left
      have hn' := hn
      rw [ht] at hn'
      rcases g.done n hn' with h | ⟨h, _⟩
      · exact h
      · rw [hl] at h; cases h
    · right
      have hl : n.isLeaf = false := by simpa using hl
      refine ⟨hl, ?_⟩
      obtain ⟨_, j, P, mk, f, b, l, c, sp0, c1, c2, c3, c4, c5, c6, _⟩ := hinner n hn hl
      obtain ⟨i, hi⟩ := List.mem_iff_getElem?.mp hn
      have hid := hnum i n hi
      obtain ⟨mk', f', b', sp, t, a1, a2, a3, a4, a5, a6⟩ := threshold_of_mask hnd hnum hlenm h3 h4 hi hl c1 c2
      rw [c3, Option.some.injEq] at a1
      subst a1
      rw [← hid, c4, Option.some.injEq] at a2
      rw [c5, Option.some.injEq] at a3
      have e1 : b = b' := by exact_mod_cast a2
      have e2 : f = f' := by exact_mod_cast a3
      subst e1 e2
      exact ⟨j, P, f, b, l, sp, t, c1, a4, a5, by rw [hid]; exact a6, c6⟩
  · intro k hk
    obtain ⟨v, hv⟩ := Dict.exists_get?_of_mem (((hp.parties none S.guest rfl).2.2.2.2 k).mpr hk)
    rcases g.track.inside k v hv with ⟨nid, _, d2, _⟩ | ⟨_, i, n, d2, d3, d4, d5⟩
    · rw [hq] at d2; simp at d2
    · rw [← ht] at d2 d5
      refine ⟨i, n, d2, d3, hfwd d5, ?_⟩
      unfold trainedWeight
      rw [hw]; exact d4

/-- A run that makes the federated choice, up to `δ`. -/
abbrev GrownRun (S : Setup K α) (V : View K) (rows : Option Nat → DTable K (List Rat)) (δ : Rat)
    (F : Fitted K) (lev : Nat → Nat) (mem : Nat → List K) : Prop := GrownBy S (rulesOf S V δ) rows F lev mem

theorem grownRun {S : Setup K α} [S.cfg.Exact] {V : View K} {m δ : Rat} {rows : Option Nat → DTable K (List Rat)}
    (hr : RawRun S rows) (hu : Usual S m) (hδ : 0 ≤ δ) (hc : Chooses S V δ) (hv : Steady S V) :
    ∃ F lev mem, GrownRun S V rows δ F lev mem := by
  have hp := RawRun.prepared hr
  refine grownBy hr hu (hc.by hδ hp.wf) (hv.by hp) fun A s j P f b l sp t hA hP hsp hbt hpick => ?_
  obtain ⟨k, hk, hkb⟩ := best_bin_mem hp hu hA hP hpick
  obtain ⟨row, _, hrow⟩ := binAt_raw (RawRun.binned hr j P hP)
    (((hp.parties j P hP).2.2.2.2 k).mpr (hA k hk)) hsp
  rw [hrow] at hkb
  exact binOk_of_mem (by exact_mod_cast hkb) hbt

theorem steady_exact {S : Setup K α} {m : Rat} (hu : Usual S m) : Steady S (exactView S) := by
  refine ⟨rfl, fun d A s j f b l P _ _ hn ho hP => ?_, fun d A s _ hA hne hn => ?_⟩
  · rw [offerWith_exact] at ho
    obtain ⟨P', sp, o1, _, _, _, _, _, _, o4⟩ := ho
    rw [hP, Option.some.injEq] at o1
    subst o1
    refine ⟨o4, ?_⟩
    have hn : s = sumKeys S.gh A := hn
    rw [hn, o4]
    exact (sumKeys_filter S.gh A _ _ fun k => by simp [← not_le]).symm
  · have hn : s = sumKeys S.gh A := hn
    have h := sumKeys_hess hu hA hne
    have h0 := hu.hess.1
    rw [hn]
    intro hc
    linarith

/-- A whole run from raw rows, in exact arithmetic. -/
structure GreedyRun (S : Setup K α) (rows : Option Nat → DTable K (List Rat)) (δ : Rat)
    (F : Fitted K) (lev : Nat → Nat) (mem : Nat → List K) : Prop where
  fit : fit S = .ok F
  inv : ∃ sums dep num, dep ≤ S.maxDepth ∧ Inv S.cfg.rnd S.cfg.regLambda lev sums dep F.tree [] [] num
  lists : ∀ i < F.tree.length, Lists (mem i) fun k => k ∈ S.gh.data.keys ∧ Reaches S F rows k i
  sums : ∀ n ∈ F.tree, mem n.id ≠ [] ∧ (n.sumGrad, n.sumHess) = sumKeys S.gh (mem n.id)
  nodes : ∀ n ∈ F.tree, (n.isLeaf = true ∧ (lev n.id = S.maxDepth ∨ NoSplit S (2 / 10 ^ 6 + 3 * δ) (mem n.id))) ∨
    (n.isLeaf = false ∧ ∃ j P f b l sp t,
    partyAt S j = some P ∧ P.splits[f]? = some sp ∧ sp[b]? = some t ∧ SplitAt S F n.id j f t ∧
    BestSplit S (1 / 10 ^ 6 + 2 * δ) (mem n.id) j f b l)
  ends : ∀ k ∈ S.gh.data.keys, ∃ i n, F.tree[i]? = some n ∧ n.isLeaf = true ∧
    Reaches S F rows k i ∧ trainedWeight F k = some n.weight
  imps : ∃ gains num, ImpInv S.kind (S.cfg.minImpurity + Quantile.floatZero) (GainOk S δ) gains F.tree
    [] num F.imps

theorem greedyRun {S : Setup K α} [S.cfg.Exact] {m δ : Rat} {rows : Option Nat → DTable K (List Rat)}
    (hr : RawRun S rows) (hu : Usual S m) (hδ : 0 ≤ δ) (hc : Chooses S (exactView S) δ) :
    ∃ F lev mem, GreedyRun S rows δ F lev mem := by
  obtain ⟨F, lev, mem, h⟩ := grownRun hr hu hδ hc (steady_exact hu)
  have hs : ∀ n ∈ F.tree, (n.sumGrad, n.sumHess) = sumKeys S.gh (mem n.id) := fun n hn => (h.sums n hn).2
  refine ⟨F, lev, mem, h.fit, h.inv, h.lists, h.sums, fun n hn => ?_, h.ends, ?_⟩
  · rcases h.nodes n hn with ⟨h1, h2⟩ | ⟨h1, j, P, f, b, l, sp, t, h2, h3, h4, h5, h6⟩
    · refine .inl ⟨h1, h2.imp_right fun h2 => ?_⟩
      rw [hs n hn] at h2
      exact noSplit_of_noneWorth h2
    · refine .inr ⟨h1, j, P, f, b, l, sp, t, h2, h3, h4, h5, ?_⟩
      rw [hs n hn] at h6
      exact bestSplit_of_bestOf h6
  · obtain ⟨gains, num, h⟩ := h.imps
    rw [Config.rnd_apply] at h
    exact ⟨gains, num, h.mono fun _ _ _ _ => gainOk_of_near hδ⟩

end DTree
end Verif
