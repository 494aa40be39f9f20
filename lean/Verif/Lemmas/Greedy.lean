import Verif.Lemmas.BatchOk
import Verif.Lemmas.Detail
import Verif.Lemmas.Importance
import Verif.Lemmas.RedispatchOk

/-! # Greedy growing: one level -/

set_option autoImplicit false

namespace Verif
namespace DTree

open Spec
open Quantile (floatZero)
open Binning (Cell SparseVec)

variable {K : Type} [DecidableEq K] {α : Type}

/-- What the choice of a split means for the samples, if the node becomes a leaf. -/
theorem choice_leaf {gn : Option Nat → Rat × Rat → Rat} {minImp δ : Rat} (hδ : 0 ≤ δ) {offers : Offers}
    {siteOf : Nat → Site} {bidAt : Nat → Option Int} {s : SplitInfo (Option Rat) Rat}
    (h : FederatedChoiceBy gn minImp δ offers siteOf bidAt s)
    (hg : s.gain ≤ minImp + floatZero) : NoneWorth gn minImp (2 / 10 ^ 6 + 3 * δ) offers := by
  unfold floatZero at hg
  intro j f b l ho
  rcases h with ⟨_, _, _, _, h1, h2⟩ | ⟨f0, b0, l0, _, _, _, _, _, e, _, _, h1, h2⟩ |
    ⟨j0, f0, b0, l0, _, _, _, _, _, _, e, _, _, h1, h2, _⟩
  · cases j with
    | none => have := h1 f b l ho; linarith
    | some j => have := h2 j f b l ho; linarith
  · cases j with
    | none => have := (h1 f b l ho).1; linarith
    | some j => have := h2 j f b l ho; linarith
  · have e' := (abs_le.mp e).1
    cases j with
    | none => rcases h1 f b l ho with h | ⟨h, _⟩ <;> linarith
    | some j => have := (h2 j f b l ho).1; linarith

/-- What the choice of a split means for the samples, if the node is split. -/
theorem choice_inner {S : Setup K α} {V : View K} {gn : Option Nat → Rat × Rat → Rat} {δ : Rat} (hδ : 0 ≤ δ)
    {A : List K} {bidAt : Nat → Option Int} {s : SplitInfo (Option Rat) Rat}
    (h : FederatedChoiceBy gn S.cfg.minImpurity δ (OfferWith S V A)
      (fun j => .host ((S.hosts[j]?.map Party.idx).getD 0)) bidAt s)
    (hg : ¬ s.gain ≤ S.cfg.minImpurity + floatZero) :
    ∃ j P f b l, partyAt S j = some P ∧ s.site = siteName P j ∧ s.fid = some ((f : Nat) : Int) ∧
      s.sumGrad = some l.1 ∧ s.sumHess = some l.2 ∧ (j = none → s.bid = some ((b : Nat) : Int)) ∧
      (∀ i, j = some i → bidAt i = some (b : Int)) ∧
      BestOf gn S.cfg.minImpurity (1 / 10 ^ 6 + 2 * δ) (OfferWith S V A) j f b l := by
  unfold floatZero at hg
  rcases h with ⟨_, _, _, h1, _⟩ | ⟨f0, b0, l0, e1, e2, e3, e4, e5, e6, e7, e8, h1, h2⟩ |
    ⟨j0, f0, b0, l0, e1, e2, _, e4, e5, e6, e7, e8, e9, h1, h2, h3⟩
  · exact absurd (by linarith) hg
  · refine ⟨none, S.guest, f0, b0, l0, rfl, e1, e2, e4, e5, fun _ => e3, by simp, e7, e8, ?_, h1, fun j' _ _ _ he => by cases j' <;> exact he.elim⟩
    intro j' f' b' l' ho
    cases j' with
    | none => have := (h1 f' b' l' ho).1; linarith
    | some j' => have := h2 j' f' b' l' ho; linarith
  · obtain ⟨P, sp, hP, _⟩ := id e8
    refine ⟨some j0, P, f0, b0, l0, hP, ?_, e2, e5, e6, by simp, ?_, e8, e9, ?_, h3, ?_⟩
    · rw [e1]
      simp only [partyAt] at hP
      simp only [hP]; rfl
    · intro i hi; cases hi; exact e4
    · intro j' f' b' l' ho
      cases j' with
      | none => rcases h1 f' b' l' ho with h | ⟨h, _⟩ <;> linarith
      | some j' => have := (h2 j' f' b' l' ho).1; linarith
    · intro j' f' b' l' he ho heq
      cases j' with
      | none => rcases h1 f' b' l' ho with h | ⟨_, h⟩ <;> linarith
      | some j' => exact ((h2 j' f' b' l' ho).2 he).2 heq

theorem sumKeys_filter (gh : DTable K (Rat × Rat)) (A : List K) (p q : K → Bool)
    (h : ∀ k, q k = !p k) :
    sumKeys gh (A.filter q) = ((sumKeys gh A).1 - (sumKeys gh (A.filter p)).1,
      (sumKeys gh A).2 - (sumKeys gh (A.filter p)).2) := by
  unfold sumKeys
  induction A with
  | nil => simp
  | cons x A ih =>
    simp only [Prod.mk.injEq] at ih
    obtain ⟨ih1, ih2⟩ := ih
    by_cases hp : p x = true
    · rw [List.filter_cons_of_neg (by rw [h, hp]; simp), List.filter_cons_of_pos hp]
      simp only [List.map_cons, List.sum_cons, Prod.mk.injEq]
      constructor <;> linarith
    · rw [List.filter_cons_of_pos (by rw [h]; simpa using hp), List.filter_cons_of_neg hp]
      simp only [List.map_cons, List.sum_cons, Prod.mk.injEq]
      constructor <;> linarith

theorem sumKeys_hess {S : Setup K α} {m : Rat} (hu : Usual S m) {A : List K}
    (hA : ∀ k ∈ A, k ∈ S.gh.data.keys) (hne : A ≠ []) : m ≤ (sumKeys S.gh A).2 + S.cfg.regLambda := by
  cases A with
  | nil => exact absurd rfl hne
  | cons k A =>
    have h0 := (hu.hess.2 _ (ghOf_mem (hA k (by simp)))).2
    have h1 : 0 ≤ (A.map fun k => (ghOf S.gh k).2).sum := by
      apply List.sum_nonneg
      intro x hx
      obtain ⟨k', hk', rfl⟩ := List.mem_map.mp hx
      exact (hu.hess.2 _ (ghOf_mem (hA k' (by simp [hk'])))).1
    unfold sumKeys
    simp only [List.map_cons, List.sum_cons] at h0 ⊢
    linarith

theorem nodeWeight_of {cfg : Config} [cfg.Exact] {s : Rat × Rat} (h : cfg.regLambda + s.2 ≠ 0) :
    ∃ w, nodeWeight cfg.rnd cfg.regLambda s.1 s.2 = .ok w := by
  unfold nodeWeight div
  rw [if_neg (by simpa using h)]
  exact ⟨_, rfl⟩

theorem nodeWeight_ok {S : Setup K α} [S.cfg.Exact] {m : Rat} (hu : Usual S m) {A : List K}
    (hA : ∀ k ∈ A, k ∈ S.gh.data.keys) (hne : A ≠ []) :
    ∃ w, nodeWeight S.cfg.rnd S.cfg.regLambda (sumKeys S.gh A).1 (sumKeys S.gh A).2 = .ok w := by
  have h := sumKeys_hess hu hA hne
  have h0 := hu.hess.1
  unfold nodeWeight div
  rw [if_neg (by intro hc; rw [Config.rnd_apply] at hc; linarith)]
  exact ⟨_, rfl⟩

/-- A finished leaf. -/
def LeafBy (S : Setup K α) (R : Rules K) (lev : Nat → Nat) (mem : Nat → List K) (n : Node) : Prop :=
  n.isLeaf = true ∧ (lev n.id = S.maxDepth ∨ R.leaf (mem n.id) (n.sumGrad, n.sumHess))

/-- A finished inner node. -/
def InnerBy (S : Setup K α) (R : Rules K) (gm : Dict Nat Int) (ms : List (Dict Nat Int))
    (mem : Nat → List K) (n : Node) : Prop :=
  n.isLeaf = false ∧ ∃ j P mk f b l c sp, partyAt S j = some P ∧ n.site = siteName P j ∧
    maskAt gm ms j = some mk ∧ Dict.get? mk n.id = some ((b : Nat) : Int) ∧
    n.fid = some ((f : Nat) : Int) ∧
    R.pick (mem n.id) (n.sumGrad, n.sumHess) j f b l ∧
    n.left = some c ∧ n.right = some (c + 1) ∧
    mem c = (mem n.id).filter (fun k => decide (binAt P f k ≤ (b : Rat))) ∧
    mem (c + 1) = (mem n.id).filter (fun k => decide ((b : Rat) < binAt P f k)) ∧
    P.splits[f]? = some sp ∧ mem c ≠ [] ∧ mem (c + 1) ≠ []

/-- The recorded gain of a split: exact for a split of the guest, up to `δ` for one of a host. -/
def GainOk (S : Setup K α) (δ : Rat) (site : Site) (node left : Rat × Rat) (x : Rat) : Prop :=
  (site = .guest → x = gain S.cfg.regLambda node left) ∧ |x - gain S.cfg.regLambda node left| ≤ δ

/-- The same if the recorded sums need not be exact: the guest takes the exact sums instead. -/
def GainNear (S : Setup K α) (V : View K) (δ : Rat) (site : Site) (node left : Rat × Rat) (x : Rat) : Prop :=
  (site = .guest ∧ ∃ d A, (∀ k ∈ A, k ∈ S.gh.data.keys) ∧ V.near d A node ∧
    x = gain S.cfg.regLambda (sumKeys S.gh A) left) ∨
  (site ≠ .guest ∧ |x - gain S.cfg.regLambda node left| ≤ δ)

theorem gainOk_of_near {S : Setup K α} {δ : Rat} (hδ : 0 ≤ δ) {site : Site} {node left : Rat × Rat} {x : Rat}
    (h : GainNear S (exactView S) δ site node left x) : GainOk S δ site node left x := by
  rcases h with ⟨h1, d, A, _, hn, hx⟩ | ⟨h1, hx⟩
  · have hn : node = sumKeys S.gh A := hn
    rw [← hn] at hx
    exact ⟨fun _ => hx, by rw [hx]; simpa using hδ⟩
  · exact ⟨fun h => absurd h h1, hx⟩

theorem ImpInv.mono {kind : ImpType} {thr : Rat} {Q Q' : Site → Rat × Rat → Rat × Rat → Rat → Prop}
    {gains : Nat → Rat} {tree rest : List Node} {num : Nat} {imps : Dict (Site × Option Int) Rat}
    (h : ImpInv kind thr Q gains tree rest num imps) (hQ : ∀ s a b x, Q s a b x → Q' s a b x) :
    ImpInv kind thr Q' gains tree rest num imps := by
  refine ⟨h.wf, h.get, h.sum, fun n hn hl => ?_⟩
  obtain ⟨a1, c, l, a2, a3, a4, a5⟩ := h.inner n hn hl
  exact ⟨a1, c, l, a2, a3, hQ _ _ _ _ a4, a5⟩

theorem choice_gain {S : Setup K α} {V : View K} {δ : Rat} {d : Nat} {A : List K} {node : Rat × Rat}
    (hA : ∀ k ∈ A, k ∈ S.gh.data.keys) (hn : V.near d A node)
    {bidAt : Nat → Option Int} {s : SplitInfo (Option Rat) Rat}
    (h : FederatedChoiceBy (gainAt S A node) S.cfg.minImpurity δ (OfferWith S V A)
      (fun j => .host ((S.hosts[j]?.map Party.idx).getD 0)) bidAt s)
    (hg : ¬ s.gain ≤ S.cfg.minImpurity + floatZero) (gl hl : Rat) (h1 : s.sumGrad = some gl)
    (h2 : s.sumHess = some hl) : GainNear S V δ s.site node (gl, hl) s.gain := by
  unfold floatZero at hg
  rcases h with ⟨_, _, _, h, _⟩ | ⟨f0, b0, l0, e1, e2, e3, e4, e5, e6, _⟩ |
    ⟨j0, f0, b0, l0, e1, e2, _, e4, e5, e6, e7, _⟩
  · exact absurd (by linarith) hg
  · rw [h1, Option.some.injEq] at e4
    rw [h2, Option.some.injEq] at e5
    subst e4 e5
    exact .inl ⟨e1, d, A, hA, hn, e6⟩
  · rw [h1, Option.some.injEq] at e5
    rw [h2, Option.some.injEq] at e6
    subst e5 e6
    exact .inr ⟨fun hc => absurd (e1.symm.trans hc) (by simp), e7⟩

/-- The rules of a run that makes the federated choice, up to `δ`. -/
def rulesOf (S : Setup K α) (V : View K) (δ : Rat) : Rules K where
  near := V.near
  leaf A s := NoneWorth (gainAt S A s) S.cfg.minImpurity (2 / 10 ^ 6 + 3 * δ) (OfferWith S V A)
  pick A s := BestOf (gainAt S A s) S.cfg.minImpurity (1 / 10 ^ 6 + 2 * δ) (OfferWith S V A)
  gain := GainNear S V δ

theorem Chooses.by {S : Setup K α} [S.cfg.Exact] {V : View K} {δ : Rat} (hδ : 0 ≤ δ) (hw : S.gh.WF) (hc : Chooses S V δ) :
    ChoosesBy S (rulesOf S V δ) := by
  intro dep batch pos dataPos nodes masks h1 h2 h3 h4 h5 h6 h7
  obtain ⟨ss, masks', a1, a2, a3⟩ := hc dep batch pos dataPos nodes masks h1 h2 h3 h4 h5 h6 h7
  refine ⟨ss, masks', a1, a2, fun idx n s i1 i2 => ?_⟩
  have hf := a3 idx n s i1 i2
  refine ⟨fun hg => ?_, fun hg => ?_⟩
  · rw [Config.rnd_apply] at hg
    exact choice_leaf hδ hf hg
  · rw [Config.rnd_apply] at hg
    obtain ⟨j, P, f, b, l, b1, b2, b3, b4, b5, b6, b7, b8⟩ := choice_inner hδ hf hg
    obtain ⟨P', sp, o1, _, o3, _, _, o6, o7, _⟩ := id b8.1
    rw [b1, Option.some.injEq] at o1
    subst o1
    exact ⟨j, P, f, b, l, sp, b1, b2, b3, b4, b5, b6, b7, o3, o6, o7, b8,
      choice_gain (fun k hk => ((membersOf_lists hw pos n.id).2 k |>.mp hk).1)
        (h7 n (List.mem_of_getElem? i1)) hf hg _ _ b4 b5⟩

/-- State between two levels; `mem` lists the samples of each node. -/
structure Greedy (S : Setup K α) (R : Rules K) (dep : Nat) (lev : Nat → Nat) (mem : Nat → List K)
    (st : State K) : Prop where
  track : Track S dep st
  ready : ∃ sums, Ready S.cfg.rnd S.cfg.regLambda lev sums dep st.grow
  wwf : ∀ t, st.weights = some t → t.WF
  root : mem 0 = S.gh.data.keys
  sub : ∀ i, ∃ p, mem i = S.gh.data.keys.filter p
  sums : ∀ n ∈ st.grow.tree ++ st.grow.queue, mem n.id ≠ [] ∧
    R.near (lev n.id - 1) (mem n.id) (n.sumGrad, n.sumHess)
  here : ∀ n ∈ st.grow.queue, ∀ k, k ∈ mem n.id ↔ st.disp.data.get? k = some (.at 1 n.id)
  done : ∀ n ∈ st.grow.tree, LeafBy S R lev mem n ∨ InnerBy S R st.grow.mask st.masks mem n
  imps : ∃ gains, ImpInv S.kind (S.cfg.rnd (S.cfg.minImpurity + floatZero)) R.gain gains st.grow.tree
    st.grow.queue st.grow.num st.grow.imps

theorem binAt_binSide {S : Setup K α} (hidx : (S.hosts.map Party.idx).Nodup) {gm : Dict Nat Int}
    {ms : List (Dict Nat Int)} {k : K} {i : Nat} {n : Node} {s : Bool}
    (h : BinSide S gm ms k i n s) {j : Option Nat} {P : Party K} {mk : Dict Nat Int} {f b : Nat}
    (h1 : partyAt S j = some P) (h2 : n.site = siteName P j) (h3 : maskAt gm ms j = some mk)
    (h4 : Dict.get? mk i = some (b : Int)) (h5 : n.fid = some (f : Int)) :
    s = decide (binAt P f k ≤ (b : Rat)) := by
  obtain ⟨j', P', m', row, f', z, bid, a1, a2, a3, a4, a5, a6, a7, rfl⟩ := h
  have hj := party_unique hidx a1 h1 (by rw [← a2, ← h2])
  subst hj
  rw [h1, Option.some.injEq] at a1
  subst a1
  rw [h3, Option.some.injEq] at a3
  subst a3
  rw [h4, Option.some.injEq] at a4
  subst a4
  rw [h5, Option.some.injEq] at a6
  have : f = f' := by exact_mod_cast a6
  subst this
  unfold binAt
  rw [a5]
  simp only [binOf, a7, Option.getD_some, Int.cast_natCast]

theorem filter_ne_nil {β : Type} {p : β → Bool} {A : List β} {m : Int} (hm : 1 ≤ m)
    (h : m ≤ (A.filter p).length) : A.filter p ≠ [] := by
  intro hc
  rw [hc] at h
  simp at h
  omega

/-- The list of the samples of a node is determined by its elements. -/
theorem filter_unique {β : Type} {l A B : List β} {p q : β → Bool} (hA : A = l.filter p)
    (hB : B = l.filter q) (h : ∀ k ∈ l, k ∈ A ↔ k ∈ B) : A = B := by
  subst hA hB
  apply List.filter_congr
  intro k hk
  have := h k hk
  simp only [List.mem_filter, hk, true_and] at this
  exact Bool.eq_iff_iff.mpr this

theorem Greedy.step {S : Setup K α} {R : Rules K} {m : Rat} (hp : Prepared S) (hu : Usual S m)
    (hc : ChoosesBy S R) (hv : SteadyBy S R) {dep : Nat} (hdep : dep < S.maxDepth) {lev : Nat → Nat}
    {mem : Nat → List K} {st : State K} (hg : Greedy S R dep lev mem st) (reach : Bool)
    (hreach : reach = true → dep + 1 = S.maxDepth) :
    ∃ st' lev' mem', level S dep reach st = .ok st' ∧ Greedy S R (dep + 1) lev' mem' st' := by
  have hkeysOf : ∀ j P, partyAt S j = some P → ∀ k, k ∈ P.data.data.keys ↔ k ∈ S.gh.data.keys :=
    fun j P hP => (hp.parties j P hP).2.2.2.2
  have hsame : SameKeys S := by
    intro H hH k row hrow
    obtain ⟨j, hj⟩ := List.mem_iff_getElem?.mp hH
    apply Dict.exists_get?_of_mem
    rw [hkeysOf (some j) H hj, ← hkeysOf none S.guest rfl]
    exact Dict.mem_keys_of_get? hrow
  obtain ⟨sums, hr⟩ := hg.ready
  have hmemk : ∀ i, ∀ k ∈ mem i, k ∈ S.gh.data.keys := by
    intro i k hk
    obtain ⟨p, hp'⟩ := hg.sub i
    rw [hp'] at hk
    exact List.mem_of_mem_filter hk
  -- positions
  have hat : ∀ k d, st.disp.data.get? k = some d → ∃ nid, d = .at 1 nid ∧ nid ∈ st.grow.queue.map Node.id ∧
      ∃ row, S.guest.data.data.get? k = some row := by
    intro k d hd
    cases hrow : S.guest.data.data.get? k with
    | none => rw [(hg.track.outside k hrow).1] at hd; cases hd
    | some row =>
      rcases hg.track.inside k row hrow with ⟨nid, d1, d2, _⟩ | ⟨d1, _⟩
      · rw [d1, Option.some.injEq] at hd
        exact ⟨nid, hd.symm, d2, row, rfl⟩
      · rw [d1] at hd; cases hd
  obtain ⟨pos, e1⟩ := DTable.mapValuesM_succeeds hg.track.wf unpackPos (by
    intro k d hd
    obtain ⟨nid, rfl, _⟩ := hat k d hd
    exact ⟨_, rfl⟩)
  obtain ⟨hposwf, hposv⟩ := DTable.mapValuesM_inv e1
  have e2 := DTable.join_ok S.guest.data hposwf (fun v p => (v, p))
  set dataPos : DTable K (SparseVec Cell × Nat × Nat) :=
    ⟨DTable.joinLoop S.guest.data.data (fun v p => (v, p)) pos.data⟩ with hdataPos
  obtain ⟨hdpwf, _⟩ := DTable.join_inv e2
  have hdp := dataPos_get e1 e2
  -- the samples of the nodes
  have hmem : ∀ n ∈ st.grow.queue, membersOf S.gh pos n.id = mem n.id := by
    intro n hn
    obtain ⟨p, hp'⟩ := hg.sub n.id
    refine filter_unique rfl hp' fun k hk => ?_
    rw [(membersOf_lists hp.wf pos n.id).2, hg.here n hn]
    constructor
    · rintro ⟨_, s, _, hs⟩
      obtain ⟨d, d1, d2⟩ := (hposv k _).mp hs
      obtain ⟨nid, rfl, _⟩ := hat k d d1
      cases d2
      exact d1
    · intro hd
      exact ⟨hk, 1, by decide, (hposv k _).mpr ⟨_, hd, rfl⟩⟩
  have hnd : (st.grow.queue.map Node.id).Nodup := by
    have := hr.inv.ids
    rw [List.append_nil, List.map_append] at this
    exact (List.nodup_append.mp (this ▸ List.nodup_range)).2.1
  have hnear : ∀ n ∈ st.grow.queue, R.near dep (mem n.id) (n.sumGrad, n.sumHess) := by
    intro n hn
    have := (hg.sums n (by simp [hn])).2
    rwa [hr.inv.levRem n hn, Nat.add_sub_cancel] at this
  obtain ⟨ss, masks', e3, hsslen, hfed⟩ := batchLoop_ok hc hu.batch hdep hposwf e2
    st.grow.queue.length 0 st.grow.queue st.masks le_rfl hnd hg.track.len (by
      intro n hn
      rw [hmem n hn]
      exact hnear n hn)
  have hfed' : ∀ (idx : Nat) n s, st.grow.queue[idx]? = some n → ss[idx]? = some s →
      Follows S R (mem n.id) (n.sumGrad, n.sumHess)
        (fun j => masks'[j]?.bind fun m => Dict.get? m n.id) s := by
    intro idx n s h1 h2
    have := hfed idx n s h1 h2
    rwa [hmem n (List.mem_of_getElem? h1)] at this
  -- the sides of a best split
  have hsides : ∀ A s j P f (b : Nat) l, (∀ k ∈ A, k ∈ S.gh.data.keys) → R.near dep A s → partyAt S j = some P →
      S.cfg.minLeaf ≤ (A.filter fun k => decide (binAt P f k ≤ (b : Rat))).length →
      S.cfg.minLeaf ≤ (A.filter fun k => decide ((b : Rat) < binAt P f k)).length →
      R.pick A s j f b l →
      (A.filter fun k => decide (binAt P f k ≤ (b : Rat))) ≠ [] ∧
      (A.filter fun k => decide ((b : Rat) < binAt P f k)) ≠ [] ∧
      R.near (dep + 1) (A.filter fun k => decide (binAt P f k ≤ (b : Rat))) l ∧
      R.near (dep + 1) (A.filter fun k => decide ((b : Rat) < binAt P f k))
        (S.cfg.rnd (s.1 - l.1), S.cfg.rnd (s.2 - l.2)) := by
    intro A s j P f b l hA hn hP o2 o3 ho
    exact ⟨filter_ne_nil hu.leaf o2, filter_ne_nil hu.leaf o3, hv.split dep A s j f b l P hdep hA hn hP ho⟩
  obtain ⟨g', e4⟩ := updateLoop_ok (cfg := S.cfg) (reach := reach) hu.kind st.grow.queue ss
    { st.grow with queue := [] } hsslen (by
      intro idx n s h1 h2 hgain
      have hn := List.mem_of_getElem? h1
      obtain ⟨j, P, f, b, l, sp, a1, a2, a3, a4, a5, a6, a7, _, a9, a10, a8, _⟩ := (hfed' idx n s h1 h2).2 hgain
      obtain ⟨s2, s3, s1, s4⟩ := hsides _ _ j P f b l (hmemk n.id) (hnear n hn) a1 a9 a10 a8
      obtain ⟨wl, hwl⟩ := hv.weight _ _ _ hdep
        (fun k hk => hmemk n.id k (List.mem_of_mem_filter hk)) s2 s1
      obtain ⟨wr, hwr⟩ := hv.weight _ _ _ hdep
        (fun k hk => hmemk n.id k (List.mem_of_mem_filter hk)) s3 s4
      refine ⟨l.1, l.2, wl, wr, a4, a5, hwl, hwr, ?_⟩
      · intro hs
        cases j with
        | none => exact ⟨b, a6 rfl⟩
        | some j => rw [a2] at hs; simp [siteName] at hs)
  have e4' : updateQueue S.cfg S.kind reach ss st.grow = .ok g' := e4
  obtain ⟨houts, horig⟩ := updateLoop_detail st.grow.queue ss { st.grow with queue := [] } g' hnd hsslen e4
  obtain ⟨lev', sums', u1, u2, ⟨doneN, u3, u3'⟩, u4, u5⟩ := hr.update e4'
  have hposn := u2.inv.position.1
  have hfr := (batchLoop_inv _ _ _ _ _ _ hg.track.len e3).2
  have hlen' : S.hosts.length = masks'.length := by rw [hg.track.len]; exact hfr.length_eq
  have hgetNode : ∀ n ∈ g'.tree, g'.tree[n.id]? = some n := by
    intro n hn
    obtain ⟨i, hi⟩ := List.mem_iff_getElem?.mp hn
    rw [hposn i n hi]; exact hi
  -- every queue node has been dealt with
  have hinner : ∀ (idx : Nat) n s, st.grow.queue[idx]? = some n → ss[idx]? = some s →
      ({ n with isLeaf := true } ∈ g'.tree ∧
        (reach = true ∨ R.leaf (mem n.id) (n.sumGrad, n.sumHess))) ∨
      ∃ (n' : Node) (j : Option Nat) (P : Party K) (mk : Dict Nat Int) (f b : Nat) (l : Rat × Rat) (num : Nat) (sp : List Rat),
        n' ∈ g'.tree ∧ n'.isLeaf = false ∧ n'.id = n.id ∧ (n'.sumGrad, n'.sumHess) = (n.sumGrad, n.sumHess) ∧
        partyAt S j = some P ∧ n'.site = siteName P j ∧ maskAt g'.mask masks' j = some mk ∧
        Dict.get? mk n.id = some (b : Int) ∧ n'.fid = some (f : Int) ∧
        R.pick (mem n.id) (n.sumGrad, n.sumHess) j f b l ∧ n'.left = some (num + 1) ∧
        n'.right = some (num + 2) ∧ s.sumGrad = some l.1 ∧ s.sumHess = some l.2 ∧ P.splits[f]? = some sp ∧
        S.cfg.minLeaf ≤ ((mem n.id).filter fun k => decide (binAt P f k ≤ (b : Rat))).length ∧
        S.cfg.minLeaf ≤ ((mem n.id).filter fun k => decide ((b : Rat) < binAt P f k)).length := by
    intro idx n s h1 h2
    have hn := List.mem_of_getElem? h1
    have houts := houts idx n s h1 h2
    simp only [Outcome] at houts
    rcases houts with ⟨o1, o2⟩ | ⟨_, o2, num, gl, hl, wl, wr, bid, o3, o4, o5, _, _, o8⟩
    · left
      refine ⟨o1, ?_⟩
      rcases o2 with o2 | o2
      · exact .inl o2
      · exact .inr ((hfed' idx n s h1 h2).1 o2)
    · right
      obtain ⟨j, P, f, b, l, sp, a1, a2, a3, a4, a5, a6, a7, a9, a10, a11, a8, _⟩ := (hfed' idx n s h1 h2).2 o2
      have hmk : ∃ mk, maskAt g'.mask masks' j = some mk ∧ Dict.get? mk n.id = some (b : Int) := by
        cases j with
        | none =>
          obtain ⟨b', b1, b2⟩ := o8 a2
          rw [a6 rfl, Option.some.injEq] at b1
          subst b1
          exact ⟨_, rfl, b2⟩
        | some j =>
          have := a7 j rfl
          simp only at this
          cases hm : masks'[j]? with
          | none => rw [hm] at this; cases this
          | some mk => rw [hm] at this; exact ⟨mk, hm, this⟩
      obtain ⟨mk, m1, m2⟩ := hmk
      exact ⟨_, j, P, mk, f, b, l, num, sp, o5, (hr.inv.fresh n (by simpa using hn)).1, rfl, rfl, a1, a2, m1, m2,
        a3, a8, rfl, rfl, a4, a5, a9, a10, a11⟩
  have hidxOf : ∀ n ∈ st.grow.queue, ∃ (idx : Nat) (s : _), st.grow.queue[idx]? = some n ∧ ss[idx]? = some s := by
    intro n hn
    obtain ⟨idx, hi⟩ := List.mem_iff_getElem?.mp hn
    have : idx < ss.length := by rw [hsslen]; exact (List.getElem?_eq_some_iff.mp hi).1
    exact ⟨idx, ss[idx], hi, List.getElem?_eq_getElem this⟩
  obtain ⟨⟨disp', w'⟩, e5⟩ := redispatch_ok (S := S) (g := g') (masks := masks') (w := st.weights) hp.names hdpwf
    hg.wwf (fun H hH => by
      obtain ⟨j, hj⟩ := List.mem_iff_getElem?.mp hH
      exact (hp.parties (some j) H hj).2.2.1) (by
      intro k row s nid hk
      obtain ⟨_, hd⟩ := (hdp k row s nid).mp hk
      obtain ⟨nid', h1, h2, _⟩ := hat k _ hd
      cases h1
      obtain ⟨n, hn, rfl⟩ := List.mem_map.mp h2
      obtain ⟨idx, s, i1, i2⟩ := hidxOf n hn
      rcases hinner idx n s i1 i2 with ⟨o1, _⟩ | ⟨n', j, P, mk, f, b, l, num, sp, o1, o2, o3, o3', o4, o5, o6, o7, o8, o9, o10, o11, _, _, q2, _⟩
      · exact ⟨{ n with isLeaf := true }, hgetNode { n with isLeaf := true } o1, .inl rfl⟩
      · refine ⟨n', by rw [← o3]; exact hgetNode _ o1, .inr ?_⟩
        obtain ⟨z, hz, _⟩ := (hp.parties j P o4).2.1 f sp q2
        exact ⟨j, P, mk, f, z, b, num + 1, o4, o5, o6, o7, o8, hz, o10, o11⟩)
  have elevel : level S dep reach st = .ok ⟨g', disp', w', masks'⟩ := by
    unfold level
    simp only [bind, Except.bind, e1, e2]
    rw [if_neg hu.batch]
    simp only [hdataPos] at e3 e5
    rw [e3]
    simp only [e4']
    rw [e5]
    rfl
  have ht' := hg.track.step hsame hp.names elevel
  obtain ⟨s1, s2, _⟩ := level_sites hg.track.len hg.track.sites elevel
  obtain ⟨_, hgm, hms⟩ := level_frame hg.track elevel
  have hguest : ∀ k v, dataPos.data.get? k = some v → S.guest.data.data.get? k = some v.1 := by
    rintro k ⟨row, s, n⟩ hk
    exact ((hdp k row s n).mp hk).1
  obtain ⟨r1, ⟨t', hw', hwf'⟩, r3, r4⟩ := redispatch_inv s1 hguest
    (fun H hH k v hk => hsame H hH k _ (hguest k v hk)) s2 hp.names e5
  -- numbers of old and new nodes
  have hold : ∀ n ∈ st.grow.tree, n.id < st.grow.tree.length ∧ n.id ≤ st.grow.num := by
    intro n hn
    obtain ⟨i, hi⟩ := List.mem_iff_getElem?.mp hn
    have h1 := hr.inv.position.1 i n hi
    have h2 := (List.getElem?_eq_some_iff.mp hi).1
    have h3 := hr.inv.position.2.2
    omega
  have hqid : ∀ n ∈ st.grow.queue, st.grow.tree.length ≤ n.id ∧ n.id ≤ st.grow.num := by
    intro n hn
    exact hr.inv.position.2.1 n (by simpa using hn)
  have hkidsD : ∀ n' ∈ doneN, ∀ c ∈ n'.children, st.grow.num < c := by
    intro n' hn' c hcc
    have h1 := u2.inv.kids
    rw [u3, List.flatMap_append, hr.inv.kids] at h1
    have h2 : doneN.flatMap Node.children = List.range' (1 + st.grow.num) (g'.num - st.grow.num) := by
      have h3 : List.range' 1 g'.num = List.range' 1 st.grow.num ++
          List.range' (1 + st.grow.num) (g'.num - st.grow.num) := by
        rw [List.range'_append_1]
        congr 1
        omega
      rw [h3] at h1
      exact List.append_cancel_left h1
    have h3 : c ∈ doneN.flatMap Node.children := List.mem_flatMap.mpr ⟨n', hn', hcc⟩
    rw [h2, List.mem_range'_1] at h3
    omega
  have hdone : ∀ n' ∈ g'.tree, ∀ n ∈ st.grow.queue, n'.id = n.id → n' ∈ doneN := by
    intro n' hn' n hn he
    rw [u3, List.mem_append] at hn'
    rcases hn' with h | h
    · have := (hold n' h).1
      have := (hqid n hn).1
      omega
    · exact h
  have hsameNode : ∀ a ∈ g'.tree, ∀ b ∈ g'.tree, a.id = b.id → a = b := by
    intro a ha b hb he
    have h1 := hgetNode a ha
    rw [he, hgetNode b hb, Option.some.injEq] at h1
    exact h1.symm
  -- where the samples of a split node go
  have hmove : ∀ n ∈ st.grow.queue, ∀ (n' : Node) (j : Option Nat) (P : Party K) (mk : Dict Nat Int) (f b num : Nat),
      n' ∈ g'.tree → n'.isLeaf = false → n'.id = n.id → partyAt S j = some P → n'.site = siteName P j →
      maskAt g'.mask masks' j = some mk → Dict.get? mk n.id = some (b : Int) → n'.fid = some (f : Int) →
      n'.left = some (num + 1) → n'.right = some (num + 2) → ∀ k,
      (disp'.data.get? k = some (.at 1 (num + 1)) ↔ k ∈ mem n.id ∧ binAt P f k ≤ (b : Rat)) ∧
      (disp'.data.get? k = some (.at 1 (num + 2)) ↔ k ∈ mem n.id ∧ (b : Rat) < binAt P f k) := by
    intro n hn n' j P mk f b num o1 o2 o3 o4 o5 o6 o7 o8 o9 o10 k
    have back : ∀ c, c ∈ n'.children → disp'.data.get? k = some (.at 1 c) → k ∈ mem n.id ∧
        c = if binAt P f k ≤ (b : Rat) then num + 1 else num + 2 := by
      intro c hcc hd
      cases hk : dataPos.data.get? k with
      | none => rw [(r3 k hk).1] at hd; cases hd
      | some v =>
        obtain ⟨row, s, nid⟩ := v
        obtain ⟨hrow, hd0⟩ := (hdp k row s nid).mp hk
        obtain ⟨nid', h1, h2, _⟩ := hat k _ hd0
        cases h1
        obtain ⟨n2, hn2, hcase⟩ := r4 k row 1 nid hk
        rcases hcase with ⟨_, q, _⟩ | ⟨q1, _, side, c', q2, q3, q4⟩
        · rw [q] at hd; cases hd
        · rw [q4, Option.some.injEq, Disp.at.injEq] at hd
          obtain ⟨_, rfl⟩ := hd
          have hc2 : c' ∈ n2.children := by
            rw [mem_children]
            cases side
            · exact .inr (by simpa using q3)
            · exact .inl (by simpa using q3)
          have hkn : (g'.tree.flatMap Node.children).Nodup := by
            rw [u2.inv.kids]; exact List.nodup_range'
          have hpp := flatMap_unique Node.children g'.tree hkn nid n'.id n2 n' hn2 (hgetNode n' o1) c' hc2 hcc
          subst hpp
          rw [hgetNode n' o1, Option.some.injEq] at hn2
          subst hn2
          rw [o3] at hd0 q2
          refine ⟨(hg.here n hn k).mpr hd0, ?_⟩
          have hs := binAt_binSide hp.names q2 o4 o5 o6 o7 o8
          by_cases hb : binAt P f k ≤ (b : Rat)
          · rw [if_pos hb]
            rw [hs, decide_eq_true hb] at q3
            simp only [if_true] at q3
            rw [o9] at q3; exact (Option.some.inj q3).symm
          · rw [if_neg hb]
            rw [hs, decide_eq_false hb] at q3
            simp only [Bool.false_eq_true, if_false] at q3
            rw [o10] at q3; exact (Option.some.inj q3).symm
    have forth : k ∈ mem n.id → disp'.data.get? k =
        some (.at 1 (if binAt P f k ≤ (b : Rat) then num + 1 else num + 2)) := by
      intro hk
      have hd0 := (hg.here n hn k).mp hk
      obtain ⟨_, _, _, row, hrow⟩ := hat k _ hd0
      obtain ⟨n2, hn2, hcase⟩ := r4 k row 1 n.id ((hdp k row 1 n.id).mpr ⟨hrow, hd0⟩)
      rw [← o3, hgetNode n' o1, Option.some.injEq] at hn2
      subst hn2
      rcases hcase with ⟨q, _⟩ | ⟨q1, _, side, c', q2, q3, q4⟩
      · rw [o2] at q; cases q
      · rw [q4]
        have hs := binAt_binSide hp.names q2 o4 o5 o6 o7 o8
        congr 2
        by_cases hb : binAt P f k ≤ (b : Rat)
        · rw [if_pos hb]
          rw [hs, decide_eq_true hb] at q3
          simp only [if_true] at q3
          rw [o9] at q3; exact (Option.some.inj q3).symm
        · rw [if_neg hb]
          rw [hs, decide_eq_false hb] at q3
          simp only [Bool.false_eq_true, if_false] at q3
          rw [o10] at q3; exact (Option.some.inj q3).symm
    constructor
    · constructor
      · intro hd
        obtain ⟨h1, h2⟩ := back _ ((mem_children _ _).mpr (.inl o9)) hd
        refine ⟨h1, ?_⟩
        by_contra hb
        rw [if_neg hb] at h2
        omega
      · rintro ⟨h1, h2⟩
        rw [forth h1, if_pos h2]
    · constructor
      · intro hd
        obtain ⟨h1, h2⟩ := back _ ((mem_children _ _).mpr (.inr o10)) hd
        refine ⟨h1, ?_⟩
        by_contra hb
        rw [if_pos (not_lt.mp hb)] at h2
        omega
      · rintro ⟨h1, h2⟩
        rw [forth h1, if_neg (not_le.mpr h2)]
  set mem' : Nat → List K := fun i => if i ≤ st.grow.num then mem i else
    S.gh.data.keys.filter (fun k => decide (disp'.data.get? k = some (.at 1 i))) with hmem'
  have hm1 : ∀ i ≤ st.grow.num, mem' i = mem i := fun i hi => if_pos hi
  have hm2 : ∀ i, st.grow.num < i → mem' i =
      S.gh.data.keys.filter (fun k => decide (disp'.data.get? k = some (.at 1 i))) :=
    fun i hi => if_neg (by omega)
  have hkidmem : ∀ n ∈ st.grow.queue, ∀ (n' : Node) (j : Option Nat) (P : Party K) (mk : Dict Nat Int) (f b num : Nat),
      n' ∈ g'.tree → n'.isLeaf = false → n'.id = n.id → partyAt S j = some P → n'.site = siteName P j →
      maskAt g'.mask masks' j = some mk → Dict.get? mk n.id = some (b : Int) → n'.fid = some (f : Int) →
      n'.left = some (num + 1) → n'.right = some (num + 2) →
      mem' (num + 1) = (mem n.id).filter (fun k => decide (binAt P f k ≤ (b : Rat))) ∧
      mem' (num + 2) = (mem n.id).filter (fun k => decide ((b : Rat) < binAt P f k)) := by
    intro n hn n' j P mk f b num o1 o2 o3 o4 o5 o6 o7 o8 o9 o10
    have hmv := hmove n hn n' j P mk f b num o1 o2 o3 o4 o5 o6 o7 o8 o9 o10
    have hd := hdone n' o1 n hn o3
    obtain ⟨p, hpp⟩ := hg.sub n.id
    constructor
    · rw [hm2 _ (hkidsD n' hd _ ((mem_children _ _).mpr (.inl o9)))]
      refine filter_unique rfl (by rw [hpp, List.filter_filter]) fun k hk => ?_
      simp only [List.mem_filter, hk, true_and, decide_eq_true_eq]
      exact (hmv k).1
    · rw [hm2 _ (hkidsD n' hd _ ((mem_children _ _).mpr (.inr o10)))]
      refine filter_unique rfl (by rw [hpp, List.filter_filter]) fun k hk => ?_
      simp only [List.mem_filter, hk, true_and, decide_eq_true_eq]
      exact (hmv k).2
  have hdoneQ : ∀ n' ∈ doneN, ∃ n ∈ st.grow.queue, n.id = n'.id := by
    intro n' hn'
    have : n'.id ∈ st.grow.queue.map Node.id := by
      rw [← u3']; exact List.mem_map.mpr ⟨n', hn', rfl⟩
    obtain ⟨n, h1, h2⟩ := List.mem_map.mp this
    exact ⟨n, h1, h2⟩
  have hintree : ∀ n' ∈ doneN, n' ∈ g'.tree := fun n' h => by rw [u3]; simp [h]
  -- the new queue
  have hnew : ∀ q ∈ g'.queue, st.grow.num < q.id ∧ mem' q.id ≠ [] ∧
      R.near (dep + 1) (mem' q.id) (q.sumGrad, q.sumHess) := by
    intro q hq
    rcases horig q hq with h | ⟨idx, n, s, num, gl, hl, w, bid, i1, i2, i3, i4, i5, i6⟩
    · simp at h
    have hn := List.mem_of_getElem? i1
    rcases hinner idx n s i1 i2 with ⟨o1, _⟩ | ⟨n', j, P, mk, f, b, l, num', sp, o1, o2, o3, o3', o4, o5, o6, o7, o8, o9, o10, o11, o12, o13, _, o14, o15⟩
    · have := hsameNode _ o1 _ i5 rfl
      have := congrArg Node.left this
      simp only at this
      rw [(hr.inv.fresh n (by simpa using hn)).2.1] at this
      cases this
    · have heq := hsameNode _ o1 _ i5 o3
      have hnum : num' = num := by
        have := congrArg Node.left heq
        simp only at this
        rw [o10] at this
        simpa using this
      subst hnum
      rw [i3, Option.some.injEq] at o12
      rw [i4, Option.some.injEq] at o13
      subst o12 o13
      obtain ⟨k1, k2⟩ := hkidmem n hn n' j P mk f b num' o1 o2 o3 o4 o5 o6 o7 o8 o10 o11
      have hd := hdone n' o1 n hn o3
      obtain ⟨s2, s3, s1, s4⟩ := hsides _ _ j P f b l (hmemk n.id) (hnear n hn) o4 o14 o15 o9
      rcases i6 with rfl | rfl
      · refine ⟨hkidsD n' hd _ ((mem_children _ _).mpr (.inl o10)), ?_, ?_⟩
        · simp only [Node.fresh]; rw [k1]; exact s2
        · simp only [Node.fresh]; rw [k1]; exact s1
      · refine ⟨hkidsD n' hd _ ((mem_children _ _).mpr (.inr o11)), ?_, ?_⟩
        · simp only [Node.fresh]; rw [k2]; exact s3
        · simp only [Node.fresh]; rw [k2]; exact s4
  have himps : ∃ gains, ImpInv S.kind (S.cfg.rnd (S.cfg.minImpurity + floatZero)) R.gain gains g'.tree
      g'.queue g'.num g'.imps := by
    obtain ⟨gains, hi⟩ := hg.imps
    refine hi.update hr (fun idx n s h1 h2 hgain gl hl h3 h4 => ?_) e4'
    obtain ⟨j, P, f, b, l, sp, _, _, _, a4, a5, _, _, _, _, _, _, a6⟩ := (hfed' idx n s h1 h2).2 hgain
    rw [a4, Option.some.injEq] at h3
    rw [a5, Option.some.injEq] at h4
    subst h3 h4
    exact a6
  refine ⟨_, lev', mem', elevel, ht', ⟨sums', u2⟩, ?_, ?_, ?_, ?_, ?_, ?_, himps⟩
  · intro t h
    simp only at h
    rw [hw', Option.some.injEq] at h
    rw [← h]; exact hwf'
  · rw [hm1 0 (Nat.zero_le _)]; exact hg.root
  · intro i
    by_cases hi : i ≤ st.grow.num
    · rw [hm1 i hi]; exact hg.sub i
    · rw [hm2 i (by omega)]; exact ⟨_, rfl⟩
  · intro n hn
    simp only at hn
    rcases List.mem_append.mp hn with hn | hn
    · rw [u3, List.mem_append] at hn
      rcases hn with hn | hn
      · rw [hm1 _ (hold n hn).2, (u1 n.id (hold n hn).2).1]
        exact hg.sums n (by simp [hn])
      · obtain ⟨n0, q1, q2⟩ := hdoneQ n hn
        obtain ⟨idx, s, i1, i2⟩ := hidxOf n0 q1
        have hsn := hg.sums n0 (by simp [q1])
        rw [hm1 _ (by rw [← q2]; exact (hqid n0 q1).2), ← q2, (u1 n0.id (hqid n0 q1).2).1]
        refine ⟨hsn.1, ?_⟩
        suffices h : (n.sumGrad, n.sumHess) = (n0.sumGrad, n0.sumHess) by rw [h]; exact hsn.2
        rcases hinner idx n0 s i1 i2 with ⟨o1, _⟩ | ⟨n', j, P, mk, f, b, l, num', sp, o1, o2, o3, o3', _⟩
        · have := hsameNode n (hintree n hn) _ o1 q2.symm
          rw [this]
        · have := hsameNode n (hintree n hn) _ o1 (by rw [o3, q2])
          rw [this]; exact o3'
    · rw [u2.inv.levRem n hn, Nat.add_sub_cancel]
      exact (hnew n hn).2
  · intro n hn k
    simp only at hn ⊢
    rw [hm2 _ (hnew n hn).1, List.mem_filter, decide_eq_true_eq]
    constructor
    · exact fun h => h.2
    · intro h
      refine ⟨?_, h⟩
      rw [← hkeysOf none S.guest rfl]
      by_contra hc
      have := (ht'.outside k ((Dict.get?_eq_none_iff _ _).mpr hc)).1
      simp only at this
      rw [h] at this; cases this
  · intro n hn
    simp only at hn ⊢
    rw [u3, List.mem_append] at hn
    rcases hn with hn | hn
    · have hid := hold n hn
      rcases hg.done n hn with ⟨d1, d2⟩ | ⟨d1, j, P, mk, f, b, l, c, sp, c1, c2, c3, c4, c5, c6, c7, c8, c9, c10, c11, c12, c13⟩
      · left
        refine ⟨d1, ?_⟩
        rw [(u1 n.id hid.2).1, hm1 _ hid.2]
        exact d2
      · right
        have hcn : c + 1 ≤ st.grow.num := by
          rcases hr.inv.shape n hn with ⟨x, _⟩ | ⟨_, l', x1, _, _, x4, _⟩
          · rw [d1] at x; cases x
          · rw [c7] at x1; cases x1; exact x4
        have hmk : ∃ mk', maskAt g'.mask masks' j = some mk' ∧ Dict.get? mk' n.id = some (b : Int) := by
          cases j with
          | none =>
            simp only [maskAt, Option.some.injEq] at c3
            subst c3
            exact ⟨_, rfl, by rw [← c4]; exact hgm n.id hid.1⟩
          | some j =>
            simp only [maskAt] at c3
            obtain ⟨hj, rfl⟩ := List.getElem?_eq_some_iff.mp c3
            have hj' : j < masks'.length := by rw [← hms.length_eq]; exact hj
            have := List.Forall₂.get hms hj hj'
            simp only [List.get_eq_getElem] at this
            exact ⟨masks'[j], List.getElem?_eq_getElem hj', by rw [this n.id hid.1, c4]⟩
        obtain ⟨mk', m1, m2⟩ := hmk
        refine ⟨d1, j, P, mk', f, b, l, c, sp, c1, c2, m1, m2, c5, ?_, c7, c8, ?_, ?_, c11, ?_, ?_⟩
        · rw [hm1 _ hid.2]; exact c6
        · rw [hm1 _ (by omega), hm1 _ hid.2]; exact c9
        · rw [hm1 _ hcn, hm1 _ hid.2]; exact c10
        · rw [hm1 _ (by omega)]; exact c12
        · rw [hm1 _ hcn]; exact c13
    · obtain ⟨n0, q1, q2⟩ := hdoneQ n hn
      obtain ⟨idx, s, i1, i2⟩ := hidxOf n0 q1
      have hidn : n.id ≤ st.grow.num := by rw [← q2]; exact (hqid n0 q1).2
      rcases hinner idx n0 s i1 i2 with ⟨o1, o2⟩ | ⟨n', j, P, mk, f, b, l, num, sp, o1, o2, o3, o3', o4, o5, o6, o7, o8, o9, o10, o11, o12, o13, o14, o15, o16⟩
      · left
        have hnn := hsameNode n (hintree n hn) _ o1 q2.symm
        refine ⟨by rw [hnn], ?_⟩
        rcases o2 with o2 | o2
        · left
          rw [(u1 n.id hidn).1, ← q2, hr.inv.levRem n0 q1]
          exact hreach o2
        · right
          rw [hm1 _ hidn, ← q2, show (n.sumGrad, n.sumHess) = (n0.sumGrad, n0.sumHess) by rw [hnn]]
          exact o2
      · right
        have hnn := hsameNode n (hintree n hn) _ o1 (by rw [o3, q2])
        subst hnn
        obtain ⟨k1, k2⟩ := hkidmem n0 q1 n j P mk f b num o1 o2 o3 o4 o5 o6 o7 o8 o10 o11
        refine ⟨o2, j, P, mk, f, b, l, num + 1, sp, o4, o5, o6, by rw [o3]; exact o7, o8, ?_, o10, o11, ?_, ?_,
          o14, ?_, ?_⟩
        · rw [hm1 _ hidn, o3, o3']; exact o9
        · rw [k1, hm1 _ hidn, o3]
        · rw [k2, hm1 _ hidn, o3]
        · rw [k1]; exact filter_ne_nil hu.leaf o15
        · rw [k2]; exact filter_ne_nil hu.leaf o16

end DTree
end Verif
