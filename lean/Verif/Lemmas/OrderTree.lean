import Verif.Lemmas.OrderPrepare
import Verif.Lemmas.Levels
import Verif.Lemmas.Save
import Verif.Model.Boost

/-! # Training and prediction when only the order of the values is kept -/

set_option autoImplicit false

namespace Verif

/-- Lists of the same length with related entries; the relation depends on the position. -/
def IdxRel {A B : Type} (Q : Nat → A → B → Prop) : Nat → List A → List B → Prop
  | _, [], [] => True
  | i, a :: as, b :: bs => Q i a b ∧ IdxRel Q (i + 1) as bs
  | _, _, _ => False

theorem DictRel.to_eq {A V : Type} {d e : Dict A V} (h : DictRel (fun _ v w => v = w) d e) : d = e := by
  induction h with
  | nil => rfl
  | @cons a b d e hab _ ih =>
    obtain ⟨ka, va⟩ := a
    obtain ⟨kb, vb⟩ := b
    obtain ⟨rfl, hv⟩ := hab
    simp only at hv
    rw [hv, ih]

theorem DTable.mapValues_same {K V W X : Type} [DecidableEq K] {Q : K → V → W → Prop} {t : DTable K V} {u : DTable K W}
    (h : DictRel Q t.data u.data) (x : X) : t.mapValues (fun _ => x) = u.mapValues (fun _ => x) := by
  have := DTable.mapValues_rel h (f := fun _ => x) (g := fun _ => x) (Q' := fun _ v w => v = w) fun _ _ _ _ => rfl
  revert this
  generalize t.mapValues (fun _ => x) = a
  generalize u.mapValues (fun _ => x) = b
  intro this
  cases a <;> cases b
  · exact congrArg _ this
  · exact this.elim
  · exact this.elim
  · rename_i a b
    cases a; cases b
    exact congrArg (fun d => Except.ok (DTable.mk d)) (DictRel.to_eq this)

namespace Binning

variable {R : Nat → Rat → Rat → Prop}

theorem SplitsRel.lengths {S S' : List (List Rat)} (h : SplitsRel R S S') : S.map List.length = S'.map List.length := by
  apply List.ext_getElem?
  intro i
  rw [List.getElem?_map, List.getElem?_map]
  cases h1 : S[i]? with
  | none =>
    have : S'[i]? = none := by
      rw [List.getElem?_eq_none_iff] at h1 ⊢
      have := h.1
      omega
    rw [this]
  | some s =>
    obtain ⟨hlt, _⟩ := List.getElem?_eq_some_iff.mp h1
    have h2 := List.getElem?_eq_getElem (l := S') (i := i) (by have := h.1; omega)
    rw [h2]
    simp only [Option.map_some, Option.some.injEq]
    exact (h.2 i _ _ h1 h2).length_eq

end Binning

namespace Histogram

variable {α : Type}

theorem template_lengths (A : Arith α) (valid : Option (List Bool)) : ∀ (fid : Nat) (S S' : List (List Rat)),
    S.map List.length = S'.map List.length → template A valid fid S = template A valid fid S'
  | _, [], [], _ => rfl
  | _, [], _ :: _, h => by simp at h
  | _, _ :: _, [], h => by simp at h
  | fid, s :: S, s' :: S', h => by
    simp only [List.map_cons, List.cons.injEq] at h
    simp only [template]
    rw [template_lengths A valid (fid + 1) S S' h.2, h.1]

theorem getHistograms_lengths {K : Type} [DecidableEq K] (A : Arith α) {S S' : List (List Rat)}
    (h : S.map List.length = S'.map List.length) (sparse : Dict Nat Nat) (valid : Option (List Bool)) (ids : List Nat)
    (data : DTable K (Binning.SparseVec Binning.Cell × Nat × Nat)) (gh : DTable K (α × α)) :
    getHistograms A S sparse valid ids data gh = getHistograms A S' sparse valid ids data gh := by
  have hl : S.length = S'.length := by simpa using congrArg List.length h
  unfold getHistograms calculate batch
  rw [template_lengths A valid 0 S S' h, hl]

end Histogram

namespace DTree

open Binning (SparseVec Cell SplitsRel Orders RowRel)

variable {K : Type} [DecidableEq K] {α L : Type}

/-- Parties that differ only in the split points, which are in step. -/
structure PartyRel (R : Nat → Rat → Rat → Prop) (P P' : Party K) : Prop where
  idx : P'.idx = P.idx
  sparse : P'.sparse = P.sparse
  valid : P'.valid = P.valid
  data : P'.data = P.data
  splits : SplitsRel R P.splits P'.splits

/-- Inputs of a run that differ only in the split points. -/
structure SetupRel (R : Option Nat → Nat → Rat → Rat → Prop) (S S' : Setup K α) : Prop where
  cfg : S'.cfg = S.cfg
  kind : S'.kind = S.kind
  depth : S'.maxDepth = S.maxDepth
  nodes : S'.maxSplitNodes = S.maxSplitNodes
  arith : S'.arith = S.arith
  cipher : S'.cipher = S.cipher
  gh : S'.gh = S.gh
  encGh : S'.encGh = S.encGh
  guest : PartyRel (R none) S.guest S'.guest
  hosts : IdxRel (fun j => PartyRel (R (some j))) 0 S.hosts S'.hosts

variable {R : Option Nat → Nat → Rat → Rat → Prop} {S S' : Setup K α}

theorem hostAnswers_rel (t : DTable K Disp) {R : Nat → Nat → Rat → Rat → Prop} : ∀ (i : Nat) (Hs Hs' : List (Party K)) (ms : List (Dict Nat Int)),
    IdxRel (fun j => PartyRel (R j)) i Hs Hs' → hostAnswers t Hs' ms = hostAnswers t Hs ms
  | _, [], [], _, _ => rfl
  | _, [], _ :: _, _, h => h.elim
  | _, _ :: _, [], _, h => h.elim
  | _, _ :: _, _ :: _, [], _ => rfl
  | i, H :: Hs, H' :: Hs', m :: ms, h => by
    simp only [hostAnswers]
    rw [hostAnswers_rel t (i + 1) Hs Hs' ms h.2, h.1.data, h.1.idx, h.1.sparse]

theorem hostSides_rel (h : SetupRel R S S') (pos : DTable K (Nat × Nat)) (ids : List Nat) {R : Nat → Nat → Rat → Rat → Prop} :
    ∀ (i : Nat) (Hs Hs' : List (Party K)) (ms : List (Dict Nat Int)),
    IdxRel (fun j => PartyRel (R j)) i Hs Hs' → hostSides S' pos ids Hs' ms = hostSides S pos ids Hs ms
  | _, [], [], _, _ => rfl
  | _, [], _ :: _, _, h => h.elim
  | _, _ :: _, [], _, h => h.elim
  | _, _ :: _, _ :: _, [], _ => rfl
  | i, H :: Hs, H' :: Hs', m :: ms, hh => by
    simp only [hostSides]
    rw [hostSides_rel h pos ids (i + 1) Hs Hs' ms hh.2, hh.1.data, hh.1.idx, hh.1.sparse, hh.1.valid, h.arith, h.encGh]
    simp only [Histogram.getHistograms_lengths S.arith hh.1.splits.lengths]

theorem batchSplits_rel (h : SetupRel R S S') (dep batch : Nat) (dataPos : DTable K (SparseVec Cell × Nat × Nat))
    (pos : DTable K (Nat × Nat)) (nodes : List Node) (masks : List (Dict Nat Int)) :
    batchSplits S' dep batch dataPos pos nodes masks = batchSplits S dep batch dataPos pos nodes masks := by
  unfold batchSplits
  simp only
  rw [hostSides_rel h pos (nodes.map Node.id) 0 _ _ masks h.hosts, h.cfg, h.cipher, h.gh, h.guest.sparse, h.guest.valid]
  simp only [Histogram.getHistograms_lengths _ h.guest.splits.lengths]

theorem batchLoop_rel (h : SetupRel R S S') (dep : Nat) (dataPos : DTable K (SparseVec Cell × Nat × Nat))
    (pos : DTable K (Nat × Nat)) : ∀ (fuel batch : Nat) (nodes : List Node) (masks : List (Dict Nat Int)),
    batchLoop S' dep dataPos pos fuel batch nodes masks = batchLoop S dep dataPos pos fuel batch nodes masks
  | 0, _, [], _ => rfl
  | _ + 1, _, [], _ => rfl
  | 0, _, _ :: _, _ => rfl
  | fuel + 1, batch, n :: ns, masks => by
    simp only [batchLoop]
    rw [batchSplits_rel h, h.nodes]
    simp only [batchLoop_rel h dep dataPos pos fuel]

theorem redispatch_rel (h : SetupRel R S S') (g : Grow) (masks : List (Dict Nat Int))
    (dataPos : DTable K (SparseVec Cell × Nat × Nat)) (weights : Option (DTable K Rat)) :
    redispatch S' g masks dataPos weights = redispatch S g masks dataPos weights := by
  unfold redispatch
  rw [h.guest.sparse]
  simp only [fun t => hostAnswers_rel (K := K) t 0 _ _ masks h.hosts]

theorem level_rel (h : SetupRel R S S') (dep : Nat) (reach : Bool) (st : State K) :
    level S' dep reach st = level S dep reach st := by
  unfold level
  rw [h.guest.data, h.nodes, h.cfg, h.kind]
  simp only [batchLoop_rel h, redispatch_rel h]

theorem levels_rel (h : SetupRel R S S') : ∀ (r dep : Nat) (st : State K), levels S' r dep st = levels S r dep st
  | 0, _, _ => rfl
  | r + 1, dep, st => by
    simp only [levels]
    rw [level_rel h]
    simp only [levels_rel h r]

theorem IdxRel.map_const {A B C : Type} {Q : Nat → A → B → Prop} (c : C) : ∀ (i : Nat) (as : List A) (bs : List B), IdxRel Q i as bs →
    bs.map (fun _ => c) = as.map (fun _ => c)
  | _, [], [], _ => rfl
  | _, [], _ :: _, h => h.elim
  | _, _ :: _, [], h => h.elim
  | i, _ :: as, _ :: bs, h => by
    simp only [List.map_cons]
    rw [IdxRel.map_const c (i + 1) as bs h.2]

theorem initState_rel (h : SetupRel R S S') : initState S' = initState S := by
  unfold initState
  rw [h.cfg, h.gh, h.guest.data, IdxRel.map_const _ _ _ _ h.hosts]

/-- Thresholds of the nodes of a tree, in step. -/
def MaskRel (R : Nat → Rat → Rat → Prop) (tree : List Node) (m m' : Dict Nat Rat) : Prop :=
  DictRel (fun i x y => ∀ n, tree[i]? = some n → ∃ f : Nat, n.fid = some (f : Int) ∧ R f x y) m m'

theorem realValue_rel {R : Nat → Rat → Rat → Prop} {sp sp' : List (List Rat)} (h : SplitsRel R sp sp') {fid : Option Int} {bid : Int}
    {x : Rat} (hx : realValue sp fid bid = .ok x) : ∃ (f : Nat) (y : Rat), fid = some (f : Int) ∧ realValue sp' fid bid = .ok y ∧ R f x y := by
  unfold realValue at hx ⊢
  cases fid with
  | none => cases hx
  | some f =>
    simp only at hx ⊢
    split at hx
    · cases hx
    rename_i hc
    rw [if_neg hc]
    split at hx
    · cases hx
    rename_i s hs
    split at hx
    · cases hx
    rename_i z hz
    cases hx
    obtain ⟨hlt, _⟩ := List.getElem?_eq_some_iff.mp hs
    have h2 := List.getElem?_eq_getElem (l := sp') (i := f.toNat) (by have := h.1; omega)
    have h3 := h.2 _ _ _ hs h2
    obtain ⟨hlt', e⟩ := List.getElem?_eq_some_iff.mp hz
    have h4 := List.getElem?_eq_getElem (l := sp'[f.toNat]'(by have := h.1; omega)) (i := bid.toNat) (by have := h3.length_eq; omega)
    have h5 := h3.get hlt' (by have := h3.length_eq; omega)
    refine ⟨f.toNat, (sp'[f.toNat]'(by have := h.1; omega))[bid.toNat]'(by have := h3.length_eq; omega),
      by rw [Int.toNat_of_nonneg (by omega)], ?_, ?_⟩
    · rw [h2]; simp only; rw [h4]
    · subst e
      exact h5

theorem convert_rel {R : Nat → Rat → Rat → Prop} {sp sp' : List (List Rat)} (h : SplitsRel R sp sp') (site : Site) (mask : Dict Nat Int)
    {tree : List Node} (hid : ∀ (i : Nat) n, tree[i]? = some n → n.id = i) : ∀ (ns : List Node), (∀ n ∈ ns, n ∈ tree) →
    ∀ (acc acc' r : Dict Nat Rat), MaskRel R tree acc acc' → convert site sp mask ns acc = .ok r →
    ∃ r', convert site sp' mask ns acc' = .ok r' ∧ MaskRel R tree r r'
  | [], _, acc, acc', r, ha, hc => by cases hc; exact ⟨acc', rfl, ha⟩
  | n :: ns, hn, acc, acc', r, ha, hc => by
    have hns : ∀ n ∈ ns, n ∈ tree := fun n h => hn n (List.mem_cons_of_mem _ h)
    simp only [convert] at hc ⊢
    split at hc
    · rename_i h1
      rw [if_pos h1]
      exact convert_rel h site mask hid ns hns acc acc' r ha hc
    rename_i h1
    rw [if_neg h1]
    split at hc
    · rename_i h2
      rw [if_pos h2]
      exact convert_rel h site mask hid ns hns acc acc' r ha hc
    rename_i h2
    rw [if_neg h2]
    split at hc
    · cases hc
    rename_i bid hb
    split at hc
    · cases hc
    rename_i x hx
    obtain ⟨f, y, e1, e2, e3⟩ := realValue_rel h hx
    rw [e2]
    simp only
    refine convert_rel h site mask hid ns hns _ _ r (DictRel.set ha ?_) hc
    intro m hm
    obtain ⟨i, hi⟩ := List.mem_iff_getElem?.mp (hn n (List.mem_cons_self ..))
    have := hid i n hi
    rw [this, hi, Option.some.injEq] at hm
    subst hm
    exact ⟨f, e1, e3⟩

omit [DecidableEq K] in
theorem convertHosts_rel {R : Nat → Nat → Rat → Rat → Prop} {tree : List Node} (hid : ∀ (i : Nat) n, tree[i]? = some n → n.id = i) :
    ∀ (i : Nat) (Hs Hs' : List (Party K)) (ms : List (Dict Nat Int)) (r : List (Dict Nat Rat)),
    IdxRel (fun j => PartyRel (R j)) i Hs Hs' → convertHosts tree Hs ms = .ok r →
    ∃ r', convertHosts tree Hs' ms = .ok r' ∧ IdxRel (fun j => MaskRel (R j) tree) i r r'
  | _, [], [], _, r, _, hr => by cases hr; exact ⟨[], rfl, trivial⟩
  | _, [], _ :: _, _, _, h, _ => h.elim
  | _, _ :: _, [], _, _, h, _ => h.elim
  | _, _ :: _, _ :: _, [], r, _, hr => by cases hr; exact ⟨[], rfl, trivial⟩
  | i, H :: Hs, H' :: Hs', m :: ms, r, h, hr => by
    simp only [convertHosts, bind, Except.bind] at hr ⊢
    split at hr
    · cases hr
    rename_i d hd
    split at hr
    · cases hr
    rename_i ds hds
    cases hr
    obtain ⟨d', e1, e2⟩ := convert_rel h.1.splits (.host H.idx) m hid tree (fun _ h => h) [] [] d .nil hd
    obtain ⟨ds', e3, e4⟩ := convertHosts_rel hid (i + 1) Hs Hs' ms ds h.2 hds
    rw [h.1.idx, e1]
    simp only
    rw [e3]
    exact ⟨d' :: ds', rfl, e2, e4⟩

/-- Trees that differ only in the thresholds, which are in step. -/
structure FittedRel (R : Option Nat → Nat → Rat → Rat → Prop) (F F' : Fitted K) : Prop where
  tree : F'.tree = F.tree
  weights : F'.weights = F.weights
  imps : F'.imps = F.imps
  guest : MaskRel (R none) F.tree F.guestMask F'.guestMask
  hosts : IdxRel (fun j => MaskRel (R (some j)) F.tree) 0 F.hostMasks F'.hostMasks

/-- Training with split points in step. -/
theorem fit_rel (h : SetupRel R S S') (hd : 1 ≤ S.maxDepth) {F : Fitted K} (hF : fit S = .ok F) :
    ∃ F', fit S' = .ok F' ∧ FittedRel R F F' := by
  obtain ⟨st0, st, a1, a2, a3, a4, a5, a6, a7⟩ := fit_inv hF
  obtain ⟨lev, sums, dep, num, _, _, hi, _⟩ := fit_ready hd hF
  have hid := hi.number.2
  rw [a5] at hid
  obtain ⟨gm, e1, e2⟩ := convert_rel h.guest.splits .guest st.grow.mask hid st.grow.tree (fun _ h => h) [] [] _ .nil a3
  obtain ⟨hm, e3, e4⟩ := convertHosts_rel hid 0 _ _ st.masks _ h.hosts a4
  refine ⟨⟨st.grow.tree, gm, hm, st.weights, st.grow.imps⟩, ?_, ⟨a5.symm, a6.symm, a7.symm, by rw [a5]; exact e2, by rw [a5]; exact e4⟩⟩
  unfold fit
  rw [initState_rel h, a1, h.depth]
  simp only [bind, Except.bind]
  rw [levels_rel h, a2]
  simp only
  rw [e1]
  simp only
  rw [e3]
  rfl

/-! ## Prediction -/

theorem threshTest_rel {R : Nat → Rat → Rat → Prop} (hR : Orders R) {tree : List Node} {m m' : Dict Nat Rat} (h : MaskRel R tree m m')
    {w : Nat} {r s : SparseVec Rat} (hr : RowRel R w r s) {i : Nat} {n : Node} (hn : tree[i]? = some n) :
    threshTest m' i n.fid s = threshTest m i n.fid r := by
  unfold threshTest decodeVal
  rcases DictRel.get? h i with ⟨e1, e2⟩ | ⟨x, y, e1, e2, h1⟩
  · rw [e1, e2]; rfl
  rw [e1, e2]
  obtain ⟨f, hf, hxy⟩ := h1 n hn
  have hg : R f (getFeature r n.fid) (getFeature s n.fid) := by
    rw [hf]
    unfold getFeature SparseVec.getData
    simp only [Int.toNat_natCast]
    rw [if_neg (by omega), if_neg (by omega)]
    rcases hr.1.get? f with ⟨e1, e2⟩ | ⟨u, v, e1, e2, h2⟩
    · rw [e1, e2]; exact hR.zero f
    · rw [e1, e2]; exact h2.2
  have := hR.order f _ _ _ _ hg hxy
  simp only [bind, Except.bind, pure, Except.pure, Except.ok.injEq, decide_eq_decide]
  exact this.symm

theorem walkGuest_rel {R : Nat → Rat → Rat → Prop} (hR : Orders R) {tree : List Node} {m m' : Dict Nat Rat} (h : MaskRel R tree m m')
    {w : Nat} {r s : SparseVec Rat} (hr : RowRel R w r s) : ∀ (fuel i : Nat), walkGuest tree m' s fuel i = walkGuest tree m r fuel i
  | 0, _ => rfl
  | fuel + 1, i => by
    simp only [walkGuest]
    cases hn : tree[i]? with
    | none => rfl
    | some n =>
      simp only
      rw [threshTest_rel hR h hr hn]
      simp only [walkGuest_rel hR h hr fuel]

theorem walkHost_rel {R : Nat → Rat → Rat → Prop} (hR : Orders R) {tree : List Node} {m m' : Dict Nat Rat} (h : MaskRel R tree m m')
    (site : Site) {w : Nat} {r s : SparseVec Rat} (hr : RowRel R w r s) : ∀ (fuel i : Nat),
    walkHost tree m' site s fuel i = walkHost tree m site r fuel i
  | 0, _ => rfl
  | fuel + 1, i => by
    simp only [walkHost]
    cases hn : tree[i]? with
    | none => rfl
    | some n =>
      simp only
      rw [threshTest_rel hR h hr hn]
      simp only [walkHost_rel hR h site hr fuel]

/-- Rows in step. -/
abbrev RowsRel (R : Nat → Rat → Rat → Prop) (t u : DTable K (SparseVec Rat)) : Prop :=
  DictRel (fun _ r s => ∃ w, RowRel R w r s) t.data u.data

/-- Hosts at prediction time, in step. -/
structure PredRel (R : Nat → Rat → Rat → Prop) (tree : List Node) (H H' : PredHost K) : Prop where
  idx : H'.idx = H.idx
  mask : MaskRel R tree H.mask H'.mask
  rows : RowsRel R H.rows H'.rows

theorem hostWalks_rel {R : Nat → Nat → Rat → Rat → Prop} (hR : ∀ j, Orders (R j)) {tree : List Node} (fuel : Nat) (todo : DTable K PState) :
    ∀ (i : Nat) (Hs Hs' : List (PredHost K)), IdxRel (fun j => PredRel (R j) tree) i Hs Hs' →
    hostWalks tree fuel todo Hs' = hostWalks tree fuel todo Hs
  | _, [], [], _ => rfl
  | _, [], _ :: _, h => h.elim
  | _, _ :: _, [], h => h.elim
  | i, H :: Hs, H' :: Hs', h => by
    simp only [hostWalks]
    rw [hostWalks_rel hR fuel todo (i + 1) Hs Hs' h.2, h.1.idx]
    rw [DTable.joinM_rel (a := todo) h.1.rows (f := traverseHost tree H.mask (.host H.idx) fuel)
      (g := traverseHost tree H'.mask (.host H.idx) fuel)]
    rintro k x v w ⟨_, hvw⟩
    unfold traverseHost
    cases x with
    | weight w => rfl
    | node nid tag =>
      simp only
      rw [walkHost_rel (hR i) h.1.mask _ hvw]

theorem predictLoop_rel (hR : ∀ j, Orders (R j)) {tree : List Node} {m m' : Dict Nat Rat} (h : MaskRel (R none) tree m m')
    {rows rows' : DTable K (SparseVec Rat)} (hr : RowsRel (R none) rows rows') {Hs Hs' : List (PredHost K)}
    (hh : IdxRel (fun j => PredRel (R (some j)) tree) 0 Hs Hs') (fuel : Nat) : ∀ (r : Nat) (todo : DTable K PState) (res : Option (DTable K Rat)),
    predictLoop tree m' rows' Hs' fuel r todo res = predictLoop tree m rows Hs fuel r todo res
  | 0, _, _ => rfl
  | r + 1, todo, res => by
    have hj : todo.joinM rows (traverseGuest tree m fuel) = todo.joinM rows' (traverseGuest tree m' fuel) := by
      apply DTable.joinM_rel hr
      rintro k x v w ⟨_, hvw⟩
      unfold traverseGuest
      cases x with
      | weight w => rfl
      | node nid tag => exact (walkGuest_rel (hR none) h hvw fuel nid).symm
    simp only [predictLoop]
    rw [hj]
    simp only [fun t => hostWalks_rel (K := K) (fun j => hR (some j)) fuel t 0 Hs Hs' hh, predictLoop_rel hR h hr hh fuel r]

theorem predictTree_rel (hR : ∀ j, Orders (R j)) {tree : List Node} {m m' : Dict Nat Rat} (h : MaskRel (R none) tree m m')
    {rows rows' : DTable K (SparseVec Rat)} (hr : RowsRel (R none) rows rows') {Hs Hs' : List (PredHost K)}
    (hh : IdxRel (fun j => PredRel (R (some j)) tree) 0 Hs Hs') (fuel : Nat) :
    predictTree tree m' rows' Hs' fuel = predictTree tree m rows Hs fuel := by
  unfold predictTree
  rw [DTable.mapValues_same hr]
  simp only [predictLoop_rel hR h hr hh]

omit [DecidableEq K] in
theorem predHosts_rel {R : Nat → Nat → Rat → Rat → Prop} {tree : List Node} : ∀ (i : Nat) (Hs Hs' : List (Party K)) (ms ms' : List (Dict Nat Rat))
    (ts ts' : List (DTable K (SparseVec Rat))), IdxRel (fun _ (H H' : Party K) => H'.idx = H.idx) i Hs Hs' → IdxRel (fun j => MaskRel (R j) tree) i ms ms' →
    IdxRel (fun j => RowsRel (R j)) i ts ts' →
    IdxRel (fun j => PredRel (R j) tree) i (predHosts Hs ms ts) (predHosts Hs' ms' ts')
  | _, [], [], _, _, _, _, _, _, _ => trivial
  | _, [], _ :: _, _, _, _, _, h, _, _ => h.elim
  | _, _ :: _, [], _, _, _, _, h, _, _ => h.elim
  | _, _ :: _, _ :: _, [], [], _, _, _, _, _ => trivial
  | _, _ :: _, _ :: _, [], _ :: _, _, _, _, h, _ => h.elim
  | _, _ :: _, _ :: _, _ :: _, [], _, _, _, h, _ => h.elim
  | _, _ :: _, _ :: _, _ :: _, _ :: _, [], [], _, _, _ => trivial
  | _, _ :: _, _ :: _, _ :: _, _ :: _, [], _ :: _, _, _, h => h.elim
  | _, _ :: _, _ :: _, _ :: _, _ :: _, _ :: _, [], _, _, h => h.elim
  | i, _ :: Hs, _ :: Hs', _ :: ms, _ :: ms', _ :: ts, _ :: ts', h1, h2, h3 =>
    ⟨⟨h1.1, h2.1, h3.1⟩, predHosts_rel (i + 1) Hs Hs' ms ms' ts ts' h1.2 h2.2 h3.2⟩

/-! ## Whole runs -/

/-- Stored trees that differ only in the thresholds, which are in step. -/
structure SavedRel (R : Option Nat → Nat → Rat → Rat → Prop) (P P' : Saved) : Prop where
  nodes : P'.nodes = P.nodes
  guest : MaskRel (R none) (P.nodes.map loadNode) P.guestMask P'.guestMask
  hosts : IdxRel (fun j => MaskRel (R (some j)) (P.nodes.map loadNode)) 0 P.hostMasks P'.hostMasks

theorem saveMask_rel {Q : Nat → Rat → Rat → Prop} {m m' r : Dict Nat Rat} (h : DictRel Q m m') (hs : saveMask m = .ok r) :
    saveMask m' = .ok m' := by
  induction h generalizing r with
  | nil => rfl
  | @cons a b d e hab _ ih =>
    obtain ⟨ka, va⟩ := a
    obtain ⟨kb, vb⟩ := b
    obtain ⟨rfl, _⟩ := hab
    simp only [saveMask, bind, Except.bind] at hs ⊢
    split at hs
    · cases hs
    rename_i hk
    split at hs
    · cases hs
    rename_i hk'
    rw [ih hk']
    rfl

theorem saveMasks_rel {Q : Nat → Nat → Rat → Rat → Prop} : ∀ (i : Nat) (ms ms' r : List (Dict Nat Rat)),
    IdxRel (fun j => DictRel (Q j)) i ms ms' → evalList saveMask ms = .ok r → evalList saveMask ms' = .ok ms'
  | _, [], [], _, _, _ => rfl
  | _, [], _ :: _, _, h, _ => h.elim
  | _, _ :: _, [], _, h, _ => h.elim
  | i, m :: ms, m' :: ms', r, h, hr => by
    simp only [evalList, bind, Except.bind] at hr ⊢
    split at hr
    · cases hr
    rename_i d hd
    split at hr
    · cases hr
    rename_i ds hds
    rw [saveMask_rel h.1 hd]
    simp only
    rw [saveMasks_rel (i + 1) ms ms' ds h.2 hds]
    rfl

theorem IdxRel.imp {A B : Type} {Q Q' : Nat → A → B → Prop} (hq : ∀ i a b, Q i a b → Q' i a b) : ∀ (i : Nat) (as : List A) (bs : List B),
    IdxRel Q i as bs → IdxRel Q' i as bs
  | _, [], [], _ => trivial
  | _, [], _ :: _, h => h.elim
  | _, _ :: _, [], h => h.elim
  | i, a :: as, b :: bs, h => ⟨hq i a b h.1, IdxRel.imp hq (i + 1) as bs h.2⟩

theorem MaskRel.norm {R : Nat → Rat → Rat → Prop} {tree : List Node} {m m' : Dict Nat Rat} (h : MaskRel R tree m m') :
    MaskRel R (tree.map norm) m m' := by
  refine DictRel.imp h fun i x y hq n hn => ?_
  rw [norm_get] at hn
  cases ht : tree[i]? with
  | none => rw [ht] at hn; cases hn
  | some n' =>
    rw [ht] at hn
    cases hn
    obtain ⟨f, e1, e2⟩ := hq n' ht
    exact ⟨f, by rw [norm_fid (by rw [e1]; simp)]; exact e1, e2⟩

theorem save_rel {F F' : Fitted K} (h : FittedRel R F F') {P : Saved} (hP : save F = .ok P) :
    ∃ P', save F' = .ok P' ∧ SavedRel R P P' := by
  have hl := save_load hP
  unfold load at hl
  simp only [Fitted.mk.injEq, and_true] at hl
  obtain ⟨l1, l2, l3⟩ := hl
  unfold save at hP ⊢
  simp only [bind, Except.bind] at hP ⊢
  split at hP
  · cases hP
  rename_i a ha
  split at hP
  · cases hP
  rename_i b hb
  split at hP
  · cases hP
  rename_i c hc
  cases hP
  rw [h.tree, ha]
  simp only
  rw [saveMask_rel h.guest hb]
  simp only
  rw [saveMasks_rel (Q := fun j i x y => ∀ n, F.tree[i]? = some n → ∃ f : Nat, n.fid = some (f : Int) ∧ R (some j) f x y)
    0 _ _ _ h.hosts hc]
  simp only at l1 l2 l3
  refine ⟨_, rfl, rfl, ?_, ?_⟩
  · simp only [l1, l2]; exact h.guest.norm
  · simp only [l1, l3]; exact IdxRel.imp (fun _ _ _ h => h.norm) _ _ _ h.hosts

/-- Runs that differ only in the split points. -/
structure BoostRel (R : Option Nat → Nat → Rat → Rat → Prop) (B B' : Boost K α L) : Prop where
  base : SetupRel R B.base B'.base
  valid : B'.valid = B.valid
  cipher : B'.cipher = B.cipher
  enc : B'.enc = B.enc
  gradHess : B'.gradHess = B.gradHess
  loss : B'.loss = B.loss
  rounds : B'.rounds = B.rounds
  dim : B'.dim = B.dim
  rate : B'.rate = B.rate
  early : B'.early = B.early
  tol : B'.tol = B.tol

variable {B B' : Boost K α L}

omit [DecidableEq K] in
theorem hosts_valid {R : Nat → Nat → Rat → Rat → Prop} : ∀ (i : Nat) (Hs Hs' : List (Party K)),
    IdxRel (fun j => PartyRel (R j)) i Hs Hs' → ∀ g : Nat → List Bool,
    IdxRel (fun j => PartyRel (R j)) i (Hs.mapIdx fun j H => { H with valid := g j }) (Hs'.mapIdx fun j H => { H with valid := g j })
  | _, [], [], _, _ => trivial
  | _, [], _ :: _, h, _ => h.elim
  | _, _ :: _, [], h, _ => h.elim
  | i, H :: Hs, H' :: Hs', h, g => by
    simp only [List.mapIdx_cons]
    exact ⟨⟨h.1.idx, h.1.sparse, rfl, h.1.data, h.1.splits⟩, hosts_valid (i + 1) Hs Hs' h.2 fun j => g (j + 1)⟩

theorem treeSetup_rel (h : BoostRel R B B') (i t : Nat) (gh : DTable K (Rat × Rat)) (egh : DTable K (α × α)) :
    SetupRel R (treeSetup B i t gh egh) (treeSetup B' i t gh egh) where
  cfg := h.base.cfg
  kind := h.base.kind
  depth := h.base.depth
  nodes := h.base.nodes
  arith := h.base.arith
  cipher := by simp only [treeSetup, h.cipher]
  gh := rfl
  encGh := rfl
  guest := ⟨h.base.guest.idx, h.base.guest.sparse, by simp only [treeSetup, h.valid], h.base.guest.data, h.base.guest.splits⟩
  hosts := by
    simp only [treeSetup, h.valid]
    exact hosts_valid 0 _ _ h.base.hosts fun j => B.valid i t (some j)

/-- States that differ only in the thresholds of the trees, which are in step. -/
structure StateRel (R : Option Nat → Nat → Rat → Rat → Prop) (st st' : BoostState K) : Prop where
  scores : st'.scores = st.scores
  trees : List.Forall₂ (SavedRel R) st.trees st'.trees
  imps : st'.imps = st.imps
  losses : st'.losses = st.losses
  pre : st'.pre = st.pre
  flags : st'.flags = st.flags

theorem boostTree_rel (h : BoostRel R B B') (hd : 1 ≤ B.base.maxDepth) (gh : DTable K (List Rat × List Rat)) (i t : Nat)
    {st st' fin : BoostState K} (hs : StateRel R st st') (hb : boostTree B gh i t st = .ok fin) :
    ∃ fin', boostTree B' gh i t st' = .ok fin' ∧ StateRel R fin fin' := by
  unfold boostTree at hb ⊢
  simp only [bind, Except.bind] at hb ⊢
  split at hb
  · cases hb
  rename_i g hg
  split at hb
  · cases hb
  rename_i e he
  rw [h.enc, he]
  simp only
  split at hb
  · cases hb
  rename_i F hF
  obtain ⟨F', f1, f2⟩ := fit_rel (treeSetup_rel h i t g e) hd hF
  rw [f1]
  simp only
  split at hb
  · cases hb
  rename_i P hP
  obtain ⟨P', p1, p2⟩ := save_rel f2 hP
  rw [p1]
  simp only
  split at hb
  · cases hb
  rename_i s hsc
  rw [h.rate, hs.scores, f2.weights, hsc]
  cases hb
  exact ⟨_, rfl, rfl, Quantile.append_rel hs.trees (.cons p2 .nil), by simp only [hs.imps, f2.imps], hs.losses, hs.pre, hs.flags⟩

theorem boostTrees_rel (h : BoostRel R B B') (hd : 1 ≤ B.base.maxDepth) (gh : DTable K (List Rat × List Rat)) (i : Nat) :
    ∀ (r t : Nat) {st st' fin : BoostState K}, StateRel R st st' → boostTrees B gh i r t st = .ok fin →
    ∃ fin', boostTrees B' gh i r t st' = .ok fin' ∧ StateRel R fin fin'
  | 0, _, st, st', fin, hs, hb => by cases hb; exact ⟨st', rfl, hs⟩
  | r + 1, t, st, st', fin, hs, hb => by
    simp only [boostTrees, bind, Except.bind] at hb ⊢
    split at hb
    · cases hb
    rename_i st1 h1
    obtain ⟨st1', e1, e2⟩ := boostTree_rel h hd gh i t hs h1
    rw [e1]
    exact boostTrees_rel h hd gh i r (t + 1) e2 hb

theorem boostRound_rel (h : BoostRel R B B') (hd : 1 ≤ B.base.maxDepth) (y : DTable K L) (i : Nat)
    {st st' fin : BoostState K} (hs : StateRel R st st') (hb : boostRound B y i st = .ok fin) :
    ∃ fin', boostRound B' y i st' = .ok fin' ∧ StateRel R fin fin' := by
  unfold boostRound at hb ⊢
  simp only [bind, Except.bind] at hb ⊢
  split at hb
  · cases hb
  rename_i g hg
  rw [hs.scores, h.gradHess, hg]
  simp only
  split at hb
  · cases hb
  rename_i st1 h1
  obtain ⟨st1', e1, e2⟩ := boostTrees_rel h hd g i _ 0 hs h1
  rw [h.dim, e1]
  simp only
  split at hb
  · cases hb
  rename_i l hl
  rw [h.loss, e2.scores, hl]
  cases hb
  exact ⟨_, rfl, rfl, e2.trees, e2.imps, by simp only [e2.losses], e2.pre, e2.flags⟩

omit [DecidableEq K] in
theorem stopTest_rel (h : BoostRel R B B') {st st' : BoostState K} (hs : StateRel R st st') :
    (stopTest B' st').1 = (stopTest B st).1 ∧ StateRel R (stopTest B st).2 (stopTest B' st').2 := by
  unfold stopTest
  rw [h.early, hs.losses]
  split
  · split
    · exact ⟨rfl, hs⟩
    · rw [h.tol, hs.pre]
      exact ⟨rfl, hs.scores, hs.trees, hs.imps, rfl, rfl, by simp only [hs.flags]⟩
  · exact ⟨rfl, hs⟩

theorem boostLoop_rel (h : BoostRel R B B') (hd : 1 ≤ B.base.maxDepth) (y : DTable K L) :
    ∀ (r i : Nat) {st st' fin : BoostState K}, StateRel R st st' → boostLoop B y r i st = .ok fin →
    ∃ fin', boostLoop B' y r i st' = .ok fin' ∧ StateRel R fin fin'
  | 0, _, st, st', fin, hs, hb => by cases hb; exact ⟨st', rfl, hs⟩
  | r + 1, i, st, st', fin, hs, hb => by
    simp only [boostLoop, bind, Except.bind] at hb ⊢
    split at hb
    · cases hb
    rename_i st1 h1
    obtain ⟨st1', e1, e2⟩ := boostRound_rel h hd y i hs h1
    rw [e1]
    simp only
    obtain ⟨s1, s2⟩ := stopTest_rel h e2
    rw [s1]
    split at hb
    · rename_i hc
      rw [if_pos hc]
      cases hb
      exact ⟨_, rfl, s2⟩
    · rename_i hc
      rw [if_neg hc]
      exact boostLoop_rel h hd y r (i + 1) s2 hb

theorem boost_rel (h : BoostRel R B B') (hd : 1 ≤ B.base.maxDepth) (init : List Rat) (y : DTable K L)
    {fin : BoostState K} (hb : boost B init y = .ok fin) :
    ∃ fin', boost B' init y = .ok fin' ∧ StateRel R fin fin' := by
  unfold boost at hb ⊢
  simp only [bind, Except.bind] at hb ⊢
  split at hb
  · cases hb
  rename_i s hs
  rw [h.rounds]
  exact boostLoop_rel h hd y _ 0 ⟨rfl, .nil, rfl, rfl, rfl, rfl⟩ hb

section Predict

variable {Hs Hs' : List (Party K)} (hR : ∀ j, Orders (R j)) (hH : IdxRel (fun _ (H H' : Party K) => H'.idx = H.idx) 0 Hs Hs')
  {rows rows' : DTable K (SparseVec Rat)} (hr : RowsRel (R none) rows rows') {ts ts' : List (DTable K (SparseVec Rat))}
  (ht : IdxRel (fun j => RowsRel (R (some j))) 0 ts ts') {trees trees' : List Saved} (hT : List.Forall₂ (SavedRel R) trees trees')

include hR hH hr ht

theorem predictAdd_rel (rate : Rate) (t fuel : Nat) {P P' : Saved} (hP : SavedRel R P P') (scores : DTable K (List Rat)) :
    predictAdd Hs' rate t rows' ts' fuel P' scores = predictAdd Hs rate t rows ts fuel P scores := by
  unfold predictAdd load
  simp only
  rw [hP.nodes, predictTree_rel hR hP.guest hr (predHosts_rel (R := fun j => R (some j)) 0 _ _ _ _ _ _ hH hP.hosts ht) fuel]

include hT

theorem getAt_rel (i : Nat) : ERel (SavedRel R) (Histogram.getAt trees i) (Histogram.getAt trees' i) := by
  clear hr ht hH hR
  unfold Histogram.getAt
  induction hT generalizing i with
  | nil => rfl
  | cons hab _ ih =>
    cases i with
    | zero => exact hab
    | succ i => exact ih i

theorem predictRound_rel (rate : Rate) (dim fuel i : Nat) : ∀ (r t : Nat) (scores : DTable K (List Rat)),
    predictRound Hs' rate dim trees' rows' ts' fuel i r t scores = predictRound Hs rate dim trees rows ts fuel i r t scores
  | 0, _, _ => rfl
  | r + 1, t, scores => by
    simp only [predictRound]
    have := getAt_rel hR hH hr ht hT (i * dim + t)
    revert this
    generalize Histogram.getAt trees (i * dim + t) = a
    generalize Histogram.getAt trees' (i * dim + t) = b
    intro this
    cases a <;> cases b
    · exact congrArg _ (Eq.symm this)
    · exact this.elim
    · exact this.elim
    · simp only [bind, Except.bind]
      rw [predictAdd_rel hR hH hr ht rate t fuel this]
      simp only [predictRound_rel rate dim fuel i r]

theorem predictRounds_rel (rate : Rate) (dim fuel : Nat) : ∀ (r i : Nat) (scores : DTable K (List Rat)),
    predictRounds Hs' rate dim trees' rows' ts' fuel r i scores = predictRounds Hs rate dim trees rows ts fuel r i scores
  | 0, _, _ => rfl
  | r + 1, i, scores => by
    simp only [predictRounds]
    rw [predictRound_rel hR hH hr ht hT]
    simp only [predictRounds_rel rate dim fuel r]

end Predict

/-- Raw rows in step. -/
abbrev RawRel (R : Nat → Rat → Rat → Prop) (t u : DTable K (List Rat)) : Prop :=
  DictRel (fun _ r s => r.length = s.length ∧ ∀ f, R f (Spec.value r f) (Spec.value s f)) t.data u.data

theorem alignRows_rel {R : Nat → Rat → Rat → Prop} (hR : Orders R) {t u : DTable K (List Rat)} (h : RawRel R t u) :
    ERel (RowsRel R) (alignRows t) (alignRows u) := by
  have h1 := DTable.mapValues_rel (Q' := fun _ r s => ∃ w, RowRel R w r s) h (f := Binning.dataFormatTransform)
    (g := Binning.dataFormatTransform) fun k r s hrs => ⟨_, Binning.transform_rel hR hrs.1 (le_refl _) hrs.2⟩
  have he : t.data.isEmpty = u.data.isEmpty := by
    clear h1
    revert h
    unfold RawRel
    generalize t.data = d
    generalize u.data = e
    intro h
    cases h <;> rfl
  unfold alignRows
  rw [he]
  split
  · rfl
  · exact h1

theorem alignAll_rel {R : Nat → Nat → Rat → Rat → Prop} (hR : ∀ j, Orders (R j)) : ∀ (i : Nat) (ts us : List (DTable K (List Rat))),
    IdxRel (fun j => RawRel (R j)) i ts us → ERel (IdxRel (fun j => RowsRel (R j)) i) (alignAll ts) (alignAll us)
  | _, [], [], _ => trivial
  | _, [], _ :: _, h => h.elim
  | _, _ :: _, [], h => h.elim
  | i, t :: ts, u :: us, h => by
    have h1 := alignRows_rel (hR i) h.1
    have h2 := alignAll_rel hR (i + 1) ts us h.2
    simp only [alignAll]
    exact ERel.bind h1 fun a b hab => ERel.bind h2 fun as bs habs => ⟨hab, habs⟩

/-- Predictions of models in step, for rows in step. -/
theorem predictScores_rel {Hs Hs' : List (Party K)} (hR : ∀ j, Orders (R j))
    (hH : IdxRel (fun _ (H H' : Party K) => H'.idx = H.idx) 0 Hs Hs') {g g' : DTable K (List Rat)} (hg : RawRel (R none) g g')
    {ts ts' : List (DTable K (List Rat))} (ht : IdxRel (fun j => RawRel (R (some j))) 0 ts ts') {trees trees' : List Saved}
    (hT : List.Forall₂ (SavedRel R) trees trees') (rate : Rate) (dim : Nat) (init : List Rat) (fuel : Nat) :
    predictScores Hs' rate dim init trees' g' ts' fuel = predictScores Hs rate dim init trees g ts fuel := by
  have h1 := alignRows_rel (hR none) hg
  have h2 := alignAll_rel (fun j => hR (some j)) 0 ts ts' ht
  unfold predictScores
  revert h1 h2
  generalize alignRows g = a
  generalize alignRows g' = a'
  generalize alignAll ts = b
  generalize alignAll ts' = b'
  intro h1 h2
  cases a <;> cases a'
  · exact congrArg _ (Eq.symm h1)
  · exact h1.elim
  · exact h1.elim
  cases b <;> cases b'
  · exact congrArg _ (Eq.symm h2)
  · exact h2.elim
  · exact h2.elim
  simp only [bind, Except.bind]
  have h1 : RowsRel (R none) _ _ := h1
  rw [← DTable.mapValues_same h1]
  simp only [hT.length_eq, predictRounds_rel hR hH h1 h2 hT]

end DTree
end Verif
