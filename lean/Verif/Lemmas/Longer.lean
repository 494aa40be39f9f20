import Verif.Lemmas.BoostStop
import Verif.Lemmas.Track
import Verif.Spec.C71

/-! # Longer runs continue shorter ones -/

set_option autoImplicit false

namespace Verif
namespace DTree

open Spec

variable {K : Type} [DecidableEq K] {α L : Type}

/-! ### Rounds -/

theorem boostLoop_rounds (B : Boost K α L) (y : DTable K L) (n : Nat) :
    ∀ (r i : Nat) (st : BoostState K),
      boostLoop { B with rounds := n } y r i st = boostLoop B y r i st := by
  have ht : ∀ (gh : DTable K (List Rat × List Rat)) (i r t : Nat) (st : BoostState K),
      boostTrees { B with rounds := n } gh i r t st = boostTrees B gh i r t st := by
    intro gh i r
    induction r with
    | zero => intro t st; rfl
    | succ r ih =>
      intro t st
      unfold boostTrees
      have h1 : boostTree { B with rounds := n } gh i t st = boostTree B gh i t st := rfl
      rw [h1]
      simp only [ih]
  have hr : ∀ i st, boostRound { B with rounds := n } y i st = boostRound B y i st := by
    intro i st
    unfold boostRound
    simp only [ht]
  have hs : ∀ st : BoostState K, stopTest { B with rounds := n } st = stopTest B st := fun _ => rfl
  intro r
  induction r with
  | zero => intro i st; rfl
  | succ r ih =>
    intro i st
    unfold boostLoop
    rw [hr]
    simp only [hs, ih]

/-- Everything that is recorded round by round has been added to. -/
def Grows (st st' : BoostState K) : Prop :=
  st.trees <+: st'.trees ∧ st.losses <+: st'.losses ∧ st.flags <+: st'.flags

omit [DecidableEq K] in
theorem Grows.refl (st : BoostState K) : Grows st st :=
  ⟨List.prefix_refl _, List.prefix_refl _, List.prefix_refl _⟩

omit [DecidableEq K] in
theorem Grows.trans {a b c : BoostState K} (h : Grows a b) (h' : Grows b c) : Grows a c :=
  ⟨h.1.trans h'.1, h.2.1.trans h'.2.1, h.2.2.trans h'.2.2⟩

theorem boostTree_grows {B : Boost K α L} {gh : DTable K (List Rat × List Rat)} {i t : Nat}
    {st st' : BoostState K} (h : boostTree B gh i t st = .ok st') : Grows st st' := by
  unfold boostTree at h
  simp only [bind, Except.bind] at h
  split at h; · cases h
  split at h; · cases h
  split at h; · cases h
  split at h; · cases h
  split at h; · cases h
  cases h
  exact ⟨List.prefix_append _ _, List.prefix_refl _, List.prefix_refl _⟩

theorem boostTrees_grows {B : Boost K α L} {gh : DTable K (List Rat × List Rat)} {i : Nat} :
    ∀ (r t : Nat) (st st' : BoostState K), boostTrees B gh i r t st = .ok st' → Grows st st'
  | 0, t, st, st', h => by cases h; exact Grows.refl _
  | r + 1, t, st, st', h => by
    unfold boostTrees at h
    simp only [bind, Except.bind] at h
    split at h; · cases h
    rename_i st1 h1
    exact (boostTree_grows h1).trans (boostTrees_grows r (t + 1) st1 st' h)

theorem boostRound_grows {B : Boost K α L} {y : DTable K L} {i : Nat} {st st' : BoostState K}
    (h : boostRound B y i st = .ok st') : Grows st st' := by
  unfold boostRound at h
  simp only [bind, Except.bind] at h
  split at h; · cases h
  split at h; · cases h
  rename_i st1 h1
  split at h; · cases h
  cases h
  obtain ⟨a, b, c⟩ := boostTrees_grows _ _ _ _ h1
  exact ⟨a, b.trans (List.prefix_append _ _), c⟩

theorem stopTest_grows (B : Boost K α L) (st : BoostState K) : Grows st (stopTest B st).2 := by
  unfold stopTest
  split
  · split
    · exact Grows.refl _
    · exact ⟨List.prefix_refl _, List.prefix_refl _, List.prefix_append _ _⟩
  · exact Grows.refl _

theorem stopTest_losses (B : Boost K α L) (st : BoostState K) :
    (stopTest B st).2.losses = st.losses := by
  unfold stopTest
  split
  · split <;> rfl
  · rfl

theorem boostLoop_grows {B : Boost K α L} {y : DTable K L} :
    ∀ (r i : Nat) (st st' : BoostState K), boostLoop B y r i st = .ok st' → Grows st st'
  | 0, i, st, st', h => by cases h; exact Grows.refl _
  | r + 1, i, st, st', h => by
    unfold boostLoop at h
    simp only [bind, Except.bind] at h
    split at h; · cases h
    rename_i st1 h1
    have hg := (boostRound_grows h1).trans (stopTest_grows B st1)
    split at h
    · cases h; exact hg
    · exact hg.trans (boostLoop_grows r (i + 1) _ st' h)

theorem boostLoop_prefix {B : Boost K α L} {y : DTable K L} :
    ∀ (r k i : Nat) (st st' : BoostState K), boostLoop B y (r + k) i st = .ok st' →
      ∃ s, boostLoop B y r i st = .ok s ∧ Grows s st'
  | 0, k, i, st, st', h => ⟨st, rfl, boostLoop_grows _ _ _ _ h⟩
  | r + 1, k, i, st, st', h => by
    rw [Nat.add_right_comm] at h
    unfold boostLoop at h ⊢
    simp only [bind, Except.bind] at h ⊢
    split at h; · cases h
    rename_i st1 h1
    split at h
    · rename_i hs
      rw [if_pos hs]
      cases h
      exact ⟨_, rfl, Grows.refl _⟩
    · rename_i hs
      rw [if_neg hs]
      exact boostLoop_prefix r k (i + 1) _ st' h

theorem boostLoop_stopped {B : Boost K α L} {y : DTable K L} :
    ∀ (r i : Nat) (st s : BoostState K), boostLoop B y r i st = .ok s →
      s.losses.length < st.losses.length + r →
      ∀ r', s.losses.length ≤ st.losses.length + r' → boostLoop B y r' i st = .ok s
  | 0, i, st, s, h, hlt, r', _ => by cases h; omega
  | r + 1, i, st, s, h, hlt, r', hle => by
    unfold boostLoop at h
    simp only [bind, Except.bind] at h
    split at h; · cases h
    rename_i st1 h1
    obtain ⟨⟨l, hl⟩, _⟩ := boostRound_keeps h1
    have hlen : (stopTest B st1).2.losses.length = st.losses.length + 1 := by
      rw [stopTest_losses, hl]; simp
    have hge : st.losses.length + 1 ≤ s.losses.length := by
      rw [← hlen]
      split at h
      · cases h; exact le_rfl
      · exact (boostLoop_grows _ _ _ _ h).2.1.length_le
    obtain ⟨r', rfl⟩ : ∃ m, r' = m + 1 := ⟨r' - 1, by omega⟩
    unfold boostLoop
    simp only [bind, Except.bind]
    rw [h1]
    simp only
    split at h
    · rename_i hs
      rw [if_pos hs]
      exact h
    · rename_i hs
      rw [if_neg hs]
      exact boostLoop_stopped r (i + 1) _ s h (by omega) r' (by omega)

/-! ### Levels -/

/-- What a queued node and the finished node share. -/
def SameStats (n n' : Node) : Prop :=
  n'.id = n.id ∧ n'.sumGrad = n.sumGrad ∧ n'.sumHess = n.sumHess ∧ n'.weight = n.weight

theorem updateLoop_stats {cfg : Config} {kind : ImpType} {reach : Bool} :
    ∀ (rem : List Node) (ss : List (SplitInfo (Option Rat) Rat)) (g g' : Grow),
    updateLoop cfg kind reach rem ss g = .ok g' →
    ∃ done, g'.tree = g.tree ++ done ∧ List.Forall₂ SameStats rem done ∧
      (reach = true → ∀ n ∈ done, n.isLeaf = true)
  | [], _, g, g', hu => by unfold updateLoop at hu; cases hu; exact ⟨[], by simp, .nil, by simp⟩
  | n :: rem, ss, g, g', hu => by
    unfold updateLoop at hu
    by_cases hr : reach = true
    · rw [if_pos hr] at hu
      obtain ⟨done, h1, h2, h3⟩ := updateLoop_stats rem _ _ g' hu
      refine ⟨{ n with isLeaf := true } :: done, by rw [h1]; simp, .cons ⟨rfl, rfl, rfl, rfl⟩ h2, ?_⟩
      intro hr m hm
      rcases List.mem_cons.mp hm with rfl | hm
      · rfl
      · exact h3 hr m hm
    · rw [if_neg hr] at hu
      cases ss with
      | nil => cases hu
      | cons s ss =>
        simp only at hu
        by_cases hg : s.gain ≤ cfg.rnd (cfg.minImpurity + Quantile.floatZero)
        · rw [if_pos hg] at hu
          obtain ⟨done, h1, h2, h3⟩ := updateLoop_stats rem _ _ g' hu
          exact ⟨{ n with isLeaf := true } :: done, by rw [h1]; simp, .cons ⟨rfl, rfl, rfl, rfl⟩ h2,
            fun h => absurd h hr⟩
        · rw [if_neg hg] at hu
          cases h1 : splitNode cfg.rnd cfg.regLambda kind n s g with
          | error e => rw [h1] at hu; cases hu
          | ok g1 =>
            rw [h1] at hu
            obtain ⟨done, h2, h3, h4⟩ := updateLoop_stats rem ss g1 g' hu
            obtain ⟨gl, hl, wl, wr, bid, imps, _, _, _, _, _, _, _, m3, _⟩ := splitNode_inv h1
            refine ⟨{ n with left := some (g.num + 1), right := some (g.num + 2),
                             site := s.site, fid := s.fid, bid := bid } :: done,
              by rw [h2, m3]; simp, .cons ⟨rfl, rfl, rfl, rfl⟩ h3, fun h => absurd h hr⟩

/-- How the state of a deeper run relates to that of a shallower one. -/
structure Deeper (a b : State K) : Prop where
  nodes : ∀ (i : Nat) n, a.grow.tree[i]? = some n → ∃ n', b.grow.tree[i]? = some n' ∧
    SameStats n n' ∧ (n.isLeaf = false → n' = n ∧
      Dict.get? b.grow.mask i = Dict.get? a.grow.mask i ∧
      List.Forall₂ (fun m m' => Dict.get? m' i = Dict.get? m i) a.masks b.masks)

omit [DecidableEq K] in
theorem Deeper.refl (a : State K) : Deeper a a :=
  ⟨fun _ n h => ⟨n, h, ⟨rfl, rfl, rfl, rfl⟩, fun _ =>
    ⟨rfl, rfl, List.forall₂_same.mpr fun _ _ => rfl⟩⟩⟩

/-- The finished part of `a` is unchanged in `b`. -/
structure Kept (a b : State K) : Prop where
  nodes : ∃ done, b.grow.tree = a.grow.tree ++ done
  mask : ∀ i < a.grow.tree.length, Dict.get? b.grow.mask i = Dict.get? a.grow.mask i
  masks : List.Forall₂ (fun m m' => ∀ i < a.grow.tree.length, Dict.get? m' i = Dict.get? m i)
    a.masks b.masks

omit [DecidableEq K] in
theorem Kept.trans {a b c : State K} (h : Kept a b) (h' : Kept b c) : Kept a c := by
  obtain ⟨⟨d1, e1⟩, m1, f1⟩ := h
  obtain ⟨⟨d2, e2⟩, m2, f2⟩ := h'
  have hlen : a.grow.tree.length ≤ b.grow.tree.length := by rw [e1]; simp
  refine ⟨⟨d1 ++ d2, by rw [e2, e1]; simp⟩, fun i hi => by rw [m2 i (by omega), m1 i hi], ?_⟩
  clear e1 e2 m1 m2
  generalize a.masks = x, b.masks = z, c.masks = w at f1 f2
  induction f1 generalizing w with
  | nil => cases f2; exact .nil
  | cons p _ ih =>
    cases f2 with
    | cons q f2 => exact .cons (fun i hi => by rw [q i (by omega), p i hi]) (ih _ f2)

omit [DecidableEq K] in
theorem Kept.refl (a : State K) : Kept a a :=
  ⟨⟨[], by simp⟩, fun _ _ => rfl, List.forall₂_same.mpr fun _ _ _ _ => rfl⟩

omit [DecidableEq K] in
theorem Kept.deeper {a b : State K} (h : Kept a b) : Deeper a b := by
  refine ⟨fun i n hi => ?_⟩
  have hlt := (List.getElem?_eq_some_iff.mp hi).1
  obtain ⟨d, e⟩ := h.nodes
  exact ⟨n, by rw [e, List.getElem?_append_left hlt]; exact hi, ⟨rfl, rfl, rfl, rfl⟩, fun _ =>
    ⟨rfl, h.mask i hlt, h.masks.imp fun _ _ hm => hm i hlt⟩⟩

theorem levels_kept {S : Setup K α} (hkeys : SameKeys S) (hidx : (S.hosts.map Party.idx).Nodup)
    {r dep : Nat} {st st' : State K} (ht : Track S dep st) (h : levels S r dep st = .ok st') :
    Kept st st' := by
  obtain ⟨_, _, _, hk⟩ := levels_induct (fun dep s => Track S dep s ∧ Kept st s)
    (fun dep reach a b ⟨h1, h2⟩ _ hl => by
      obtain ⟨c1, c2, c3⟩ := level_frame h1 hl
      exact ⟨h1.step hkeys hidx hl, h2.trans ⟨c1, c2, c3⟩⟩) r dep st st' ⟨ht, Kept.refl st⟩ h
  exact hk

/-- A last level (all leaves) against the same level in a run that goes on. -/
theorem level_deeper {S : Setup K α} {dep : Nat} {a a' b : State K}
    (h : level S dep true a = .ok a') (h' : level S dep false a = .ok b) :
    ∃ done done', a'.grow.tree = a.grow.tree ++ done ∧ b.grow.tree = a.grow.tree ++ done' ∧
      List.Forall₂ SameStats done done' ∧ (∀ n ∈ done, n.isLeaf = true) := by
  obtain ⟨_, _, ss, _, _, _, _, h4, _⟩ := level_inv h
  obtain ⟨_, _, ss', _, _, _, _, h4', _⟩ := level_inv h'
  obtain ⟨done, e1, e2, e3⟩ := updateLoop_stats _ _ _ _ h4
  obtain ⟨done', f1, f2, _⟩ := updateLoop_stats _ _ _ _ h4'
  refine ⟨done, done', e1, f1, ?_, e3 rfl⟩
  have : ∀ (x y z : List Node), List.Forall₂ SameStats x y → List.Forall₂ SameStats x z →
      List.Forall₂ SameStats y z := by
    intro x y z h1
    induction h1 generalizing z with
    | nil => intro h; cases h; exact .nil
    | cons p _ ih =>
      intro h
      cases h with
      | cons q h =>
        obtain ⟨p1, p2, p3, p4⟩ := p
        obtain ⟨q1, q2, q3, q4⟩ := q
        exact .cons ⟨q1.trans p1.symm, q2.trans p2.symm, q3.trans p3.symm, q4.trans p4.symm⟩ (ih _ h)
  exact this _ _ _ e2 f2

theorem levels_deeper {S : Setup K α} (hkeys : SameKeys S) (hidx : (S.hosts.map Party.idx).Nodup) :
    ∀ (r m dep : Nat) (st a b : State K), Track S dep st → levels S (r + 1) dep st = .ok a →
      levels S (r + 1 + m) dep st = .ok b → Deeper a b
  | r, 0, dep, st, a, b, _, ha, hb => by
    rw [Nat.add_zero, ha] at hb; cases hb; exact Deeper.refl _
  | 0, m + 1, dep, st, a, b, ht, ha, hb => by
    rw [show 0 + 1 + (m + 1) = (m + 1) + 1 by omega] at hb
    unfold levels at ha hb
    by_cases hq : st.grow.queue.isEmpty = true
    · rw [if_pos hq] at ha hb
      cases ha; cases hb; exact Deeper.refl _
    · rw [if_neg hq] at ha hb
      cases h1 : level S dep (decide (0 = 0)) st with
      | error e => rw [h1] at ha; cases ha
      | ok a1 =>
        rw [h1] at ha
        unfold levels at ha
        cases ha
        cases h2 : level S dep (decide (m + 1 = 0)) st with
        | error e => rw [h2] at hb; cases hb
        | ok b1 =>
          rw [h2] at hb
          have h2' : level S dep false st = .ok b1 := by simpa using h2
          obtain ⟨done, done', e1, e2, e3, e4⟩ := level_deeper (by simpa using h1) h2'
          have hk := levels_kept hkeys hidx (ht.step hkeys hidx h2') hb
          obtain ⟨⟨d1, f1⟩, f2, f3⟩ := level_frame ht (show level S dep true st = .ok a by simpa using h1)
          obtain ⟨⟨d2, g1⟩, g2, g3⟩ := level_frame ht h2'
          refine ⟨fun i n hi => ?_⟩
          by_cases hlt : i < st.grow.tree.length
          · have hi' : st.grow.tree[i]? = some n := by
              rw [e1, List.getElem?_append_left hlt] at hi; exact hi
            have hk0 : Kept st b := Kept.trans ⟨⟨d2, g1⟩, g2, g3⟩ hk
            obtain ⟨n', k1, k2, k3⟩ := hk0.deeper.nodes i n hi'
            refine ⟨n', k1, k2, fun hl => ?_⟩
            obtain ⟨l1, l2, l3⟩ := k3 hl
            refine ⟨l1, by rw [l2, f2 i hlt], ?_⟩
            clear hk0 k1 k2 k3 hk g1 g2 g3 f1 f2 h2 h2' h1 hb
            generalize st.masks = x, a.masks = z, b.masks = w at f3 l3
            induction f3 generalizing w with
            | nil => cases l3; exact .nil
            | cons p _ ih =>
              cases l3 with
              | cons q l3 => exact .cons (by rw [q, p i hlt]) (ih _ l3)
          · have hi' : done[i - st.grow.tree.length]? = some n := by
              rw [e1, List.getElem?_append_right (by omega)] at hi; exact hi
            obtain ⟨hj, hjn⟩ := List.getElem?_eq_some_iff.mp hi'
            have hj' : i - st.grow.tree.length < done'.length := by rw [← e3.length_eq]; exact hj
            have hs := List.Forall₂.get e3 hj hj'
            simp only [List.get_eq_getElem, hjn] at hs
            obtain ⟨d, e⟩ := hk.nodes
            refine ⟨done'[i - st.grow.tree.length], ?_, hs, fun hl => ?_⟩
            · rw [e, e2, List.append_assoc, List.getElem?_append_right (by omega),
                List.getElem?_append_left hj', List.getElem?_eq_getElem hj']
            · rw [e4 n (List.mem_of_getElem? hi')] at hl; cases hl
  | r + 1, m + 1, dep, st, a, b, ht, ha, hb => by
    rw [show r + 1 + 1 + (m + 1) = (r + 1 + (m + 1)) + 1 by omega] at hb
    unfold levels at ha hb
    by_cases hq : st.grow.queue.isEmpty = true
    · rw [if_pos hq] at ha hb
      cases ha; cases hb; exact Deeper.refl _
    · rw [if_neg hq] at ha hb
      have h0 : decide (r + 1 = 0) = false := by simp
      have h0' : decide (r + 1 + (m + 1) = 0) = false := by simp
      rw [h0] at ha
      rw [h0'] at hb
      cases h1 : level S dep false st with
      | error e => rw [h1] at ha; cases ha
      | ok s1 =>
        rw [h1] at ha hb
        exact levels_deeper hkeys hidx r (m + 1) (dep + 1) s1 a b (ht.step hkeys hidx h1) ha hb

theorem levels_maxDepth (S : Setup K α) (d : Nat) : ∀ (r dep : Nat) (st : State K),
    levels { S with maxDepth := d } r dep st = levels S r dep st := by
  have hh : ∀ (pos : DTable K (Nat × Nat)) (ids : List Nat) Hs (ms : List (Dict Nat Int)),
      hostSides { S with maxDepth := d } pos ids Hs ms = hostSides S pos ids Hs ms := by
    intro pos ids Hs
    induction Hs with
    | nil => intro ms; rfl
    | cons H Hs ih =>
      intro ms
      cases ms with
      | nil => rfl
      | cons m ms => unfold hostSides; simp only [ih]
  have hb : ∀ dep dataPos pos fuel batch nodes masks,
      batchLoop { S with maxDepth := d } dep dataPos pos fuel batch nodes masks =
        batchLoop S dep dataPos pos fuel batch nodes masks := by
    intro dep dataPos pos fuel
    induction fuel with
    | zero => intro batch nodes masks; cases nodes <;> rfl
    | succ fuel ih =>
      intro batch nodes masks
      cases nodes with
      | nil => rfl
      | cons n ns =>
        unfold batchLoop batchSplits
        simp only [hh, ih]
  have hl : ∀ dep reach st, level { S with maxDepth := d } dep reach st = level S dep reach st := by
    intro dep reach st
    unfold level
    simp only [hb]
    rfl
  intro r
  induction r with
  | zero => intro dep st; rfl
  | succ r ih =>
    intro dep st
    unfold levels
    simp only [hl, ih]

/-- Thresholds kept by both runs agree on the inner nodes of the shallower tree. -/
theorem convert_deeper {site : Site} {splits : List (List Rat)} {mask mask' : Dict Nat Int}
    {tree tree' : List Node} {d d' : Dict Nat Rat} (hnd : (tree.map Node.id).Nodup)
    (hnd' : (tree'.map Node.id).Nodup) (h : convert site splits mask tree [] = .ok d)
    (h' : convert site splits mask' tree' [] = .ok d') {i : Nat} {n : Node}
    (hi : tree[i]? = some n) (hid : n.id = i) (hi' : tree'[i]? = some n) (hl : n.isLeaf = false)
    (hs : n.site = site) (hm : Dict.get? mask' i = Dict.get? mask i) :
    Dict.get? d' i = Dict.get? d i := by
  obtain ⟨b, x, a1, a2, a3⟩ := (convert_inv _ _ _ hnd h).1 n (List.mem_of_getElem? hi) hl hs
  obtain ⟨b', x', c1, c2, c3⟩ := (convert_inv _ _ _ hnd' h').1 n (List.mem_of_getElem? hi') hl hs
  rw [hid] at a1 a3 c1 c3
  rw [hm, a1] at c1
  cases c1
  rw [a2] at c2
  cases c2
  rw [a3, c3]

theorem fit_deeper {S : Setup K α} (hkeys : SameKeys S) (hidx : (S.hosts.map Party.idx).Nodup)
    (hd : 1 ≤ S.maxDepth) {d : Nat} (hle : S.maxDepth ≤ d) {F F' : Fitted K}
    (h : fit S = .ok F) (h' : fit { S with maxDepth := d } = .ok F') : Continues S F F' := by
  obtain ⟨st0, a, i1, i2, i3, i4, i5, _⟩ := fit_inv h
  obtain ⟨st0', b, j1, j2, j3, j4, j5, _⟩ := fit_inv h'
  have hst : st0' = st0 := by
    have : initState { S with maxDepth := d } = initState S := rfl
    rw [this, i1] at j1
    cases j1; rfl
  subst hst
  rw [levels_maxDepth] at j2
  obtain ⟨r, hr⟩ : ∃ r, S.maxDepth = r + 1 := ⟨S.maxDepth - 1, by omega⟩
  obtain ⟨m, hm⟩ : ∃ m, d = r + 1 + m := ⟨d - (r + 1), by omega⟩
  rw [hr] at i2
  simp only [hm] at j2
  have hD := levels_deeper hkeys hidx r m 0 st0' a b (Track.init i1) i2 j2
  obtain ⟨lev, sums, dep, num, _, _, hi, _⟩ := fit_ready hd h
  obtain ⟨lev', sums', dep', num', _, _, hi', _⟩ := fit_ready (S := { S with maxDepth := d }) (by simp only; omega) h'
  have hnd : (F.tree.map Node.id).Nodup := by
    have := hi.ids
    simp only [List.append_nil] at this
    rw [this]; exact List.nodup_range
  have hnd' : (F'.tree.map Node.id).Nodup := by
    have := hi'.ids
    simp only [List.append_nil] at this
    rw [this]; exact List.nodup_range
  have hlen : S.hosts.length = a.masks.length := by
    obtain ⟨_, _, t⟩ := levels_induct (Track S)
      (fun dep reach st st' ht _ hl => ht.step hkeys hidx hl) _ 0 st0' a (Track.init i1) i2
    exact t.len
  have hlen' : S.hosts.length = b.masks.length := by
    obtain ⟨_, _, t⟩ := levels_induct (Track S)
      (fun dep reach st st' ht _ hl => ht.step hkeys hidx hl) _ 0 st0' b (Track.init i1) j2
    exact t.len
  rw [← i5] at i3 i4
  rw [← j5] at j3 j4
  constructor
  · intro i n hn
    rw [i5] at hn
    obtain ⟨n', k1, ⟨k2, k3, k4, k5⟩, k6⟩ := hD.nodes i n hn
    exact ⟨n', by rw [j5]; exact k1, k2, k3, k4, k5, fun hl => (k6 hl).1⟩
  · rintro i j f t ⟨n, P, dd, s1, s2, s3, s4, s5, s6, s7⟩
    have hid := hi.number.2 i n s1
    obtain ⟨n', k1, _, k6⟩ := hD.nodes i n (by rw [← i5]; exact s1)
    obtain ⟨rfl, km, kms⟩ := k6 s2
    rw [← j5] at k1
    cases j with
    | none =>
      simp only [thresholds, Option.some.injEq] at s6
      subst s6
      simp only [partyAt, Option.some.injEq] at s4
      subst s4
      refine ⟨n', _, _, k1, s2, s3, rfl, s5, rfl, ?_⟩
      rw [← s7]
      exact convert_deeper hnd hnd' i3 j3 s1 hid k1 s2 s5 km
    | some j =>
      simp only [partyAt] at s4
      simp only [thresholds] at s6
      obtain ⟨c1, c2⟩ := convertHosts_inv _ _ _ hlen i4
      obtain ⟨d1, d2⟩ := convertHosts_inv _ _ _ hlen' j4
      have hj : j < S.hosts.length := (List.getElem?_eq_some_iff.mp s4).1
      obtain ⟨x, e1, e2⟩ := c2 j P _ s4 (List.getElem?_eq_getElem (by omega : j < a.masks.length))
      obtain ⟨x', f1, f2⟩ := d2 j P _ s4 (List.getElem?_eq_getElem (by omega : j < b.masks.length))
      rw [s6] at e1
      cases e1
      refine ⟨n', P, x', k1, s2, s3, s4, s5, f1, ?_⟩
      rw [← s7]
      have hmj := List.Forall₂.get kms (show j < a.masks.length by omega) (show j < b.masks.length by omega)
      exact convert_deeper hnd hnd' e2 f2 s1 hid k1 s2 s5 hmj

end DTree
end Verif
