import Verif.Lemmas.Grow
import Verif.Spec.C26

/-! # The levels of a training run and the finished tree -/

set_option autoImplicit false

namespace Verif
namespace DTree

open Spec

variable {K : Type} [DecidableEq K] {α : Type}

/-- A level as a chain of steps. -/
theorem level_inv {S : Setup K α} {dep : Nat} {reach : Bool} {st st' : State K}
    (h : level S dep reach st = .ok st') :
    ∃ pos dataPos ss, st.disp.mapValuesM unpackPos = .ok pos ∧
      S.guest.data.join pos (fun v p => (v, p)) = .ok dataPos ∧ S.maxSplitNodes ≠ 0 ∧
      batchLoop S dep dataPos pos st.grow.queue.length 0 st.grow.queue st.masks = .ok (ss, st'.masks) ∧
      updateQueue S.cfg S.kind reach ss st.grow = .ok st'.grow ∧
      redispatch S st'.grow st'.masks dataPos st.weights = .ok (st'.disp, st'.weights) := by
  unfold level at h
  cases h1 : st.disp.mapValuesM unpackPos with
  | error e => rw [h1] at h; cases h
  | ok pos =>
    rw [h1] at h
    cases h2 : S.guest.data.join pos (fun v p => (v, p)) with
    | error e => simp only [bind, Except.bind, h2] at h; cases h
    | ok dataPos =>
      simp only [bind, Except.bind, h2] at h
      by_cases h0 : S.maxSplitNodes = 0
      · rw [if_pos h0] at h; cases h
      · rw [if_neg h0] at h
        cases h3 : batchLoop S dep dataPos pos st.grow.queue.length 0 st.grow.queue st.masks with
        | error e => rw [h3] at h; cases h
        | ok r =>
          obtain ⟨ss, masks⟩ := r
          rw [h3] at h
          simp only at h
          cases h4 : updateQueue S.cfg S.kind reach ss st.grow with
          | error e => rw [h4] at h; cases h
          | ok g =>
            rw [h4] at h
            simp only at h
            cases h5 : redispatch S g masks dataPos st.weights with
            | error e => rw [h5] at h; cases h
            | ok r =>
              obtain ⟨disp, weights⟩ := r
              rw [h5] at h
              cases h
              exact ⟨pos, dataPos, ss, rfl, h2, h0, h3, h4, h5⟩

theorem levels_induct {S : Setup K α} (P : Nat → State K → Prop)
    (hstep : ∀ dep reach st st', P dep st → st.grow.queue ≠ [] →
      level S dep reach st = .ok st' → P (dep + 1) st') :
    ∀ (r dep : Nat) (st st' : State K), P dep st → levels S r dep st = .ok st' →
      ∃ dep' ≤ dep + r, P dep' st'
  | 0, dep, st, st', h, hl => by
    unfold levels at hl; cases hl; exact ⟨dep, le_rfl, h⟩
  | r + 1, dep, st, st', h, hl => by
    unfold levels at hl
    by_cases hq : st.grow.queue.isEmpty = true
    · rw [if_pos hq] at hl; cases hl; exact ⟨dep, by omega, h⟩
    · rw [if_neg hq] at hl
      cases h1 : level S dep (r = 0) st with
      | error e => rw [h1] at hl; cases hl
      | ok st1 =>
        rw [h1] at hl
        obtain ⟨d, h2, h3⟩ := levels_induct P hstep r (dep + 1) st1 st'
          (hstep dep _ st st1 h (by simpa using hq) h1) hl
        exact ⟨d, by omega, h3⟩

/-- A run of at least one level ends with an empty queue. -/
theorem levels_done {S : Setup K α}
    (hlast : ∀ dep st st', level S dep true st = .ok st' → st'.grow.queue = []) :
    ∀ (r dep : Nat) (st st' : State K), (r = 0 → st.grow.queue = []) →
      levels S r dep st = .ok st' → st'.grow.queue = []
  | 0, _, st, st', h, hl => by unfold levels at hl; cases hl; exact h rfl
  | r + 1, dep, st, st', _, hl => by
    unfold levels at hl
    by_cases hq : st.grow.queue.isEmpty = true
    · rw [if_pos hq] at hl; cases hl; simpa using hq
    · rw [if_neg hq] at hl
      cases h1 : level S dep (r = 0) st with
      | error e => rw [h1] at hl; cases hl
      | ok st1 =>
        rw [h1] at hl
        refine levels_done hlast r (dep + 1) st1 st' (fun hr => ?_) hl
        subst hr
        exact hlast dep st st1 (by simpa using h1)

theorem updateLoop_reach {cfg : Config} {kind : ImpType} :
    ∀ (rem : List Node) (ss : List (SplitInfo (Option Rat) Rat)) (g g' : Grow),
    updateLoop cfg kind true rem ss g = .ok g' → g'.queue = g.queue
  | [], _, g, g', hu => by unfold updateLoop at hu; cases hu; rfl
  | n :: rem, ss, g, g', hu => by
    unfold updateLoop at hu
    rw [if_pos rfl] at hu
    have := updateLoop_reach rem _ _ g' hu
    exact this

theorem level_last {S : Setup K α} (dep : Nat) (st st' : State K)
    (h : level S dep true st = .ok st') : st'.grow.queue = [] := by
  obtain ⟨_, _, ss, _, _, _, _, h4, _⟩ := level_inv h
  exact updateLoop_reach _ _ _ _ h4

/-- Steps of a whole run. -/
theorem fit_inv {S : Setup K α} {F : Fitted K} (h : fit S = .ok F) :
    ∃ st0 st, initState S = .ok st0 ∧ levels S S.maxDepth 0 st0 = .ok st ∧
      convert .guest S.guest.splits st.grow.mask st.grow.tree [] = .ok F.guestMask ∧
      convertHosts st.grow.tree S.hosts st.masks = .ok F.hostMasks ∧
      F.tree = st.grow.tree ∧ F.weights = st.weights ∧ F.imps = st.grow.imps := by
  unfold fit at h
  cases h1 : initState S with
  | error e => rw [h1] at h; cases h
  | ok st0 =>
    rw [h1] at h
    simp only [bind, Except.bind] at h
    cases h2 : levels S S.maxDepth 0 st0 with
    | error e => rw [h2] at h; cases h
    | ok st =>
      rw [h2] at h
      simp only at h
      cases h3 : convert .guest S.guest.splits st.grow.mask st.grow.tree [] with
      | error e => rw [h3] at h; cases h
      | ok gm =>
        rw [h3] at h
        simp only at h
        cases h4 : convertHosts st.grow.tree S.hosts st.masks with
        | error e => rw [h4] at h; cases h
        | ok hm =>
          rw [h4] at h
          cases h
          exact ⟨st0, st, rfl, h2, h3, h4, rfl, rfl, rfl⟩

theorem initState_inv {S : Setup K α} {st : State K} (h : initState S = .ok st) :
    ∃ g h w disp, gradHessSum S.cfg.rnd S.gh = .ok (g, h) ∧ nodeWeight S.cfg.rnd S.cfg.regLambda g h = .ok w ∧
      S.guest.data.mapValues (fun _ => Disp.at 1 0) = .ok disp ∧
      st = ⟨⟨[], [Node.fresh 0 g h w], 0, [], []⟩, disp, none, S.hosts.map fun _ => []⟩ := by
  unfold initState at h
  cases h1 : gradHessSum S.cfg.rnd S.gh with
  | error e => rw [h1] at h; cases h
  | ok r =>
    obtain ⟨g, hs⟩ := r
    rw [h1] at h
    simp only [bind, Except.bind] at h
    cases h2 : nodeWeight S.cfg.rnd S.cfg.regLambda g hs with
    | error e => rw [h2] at h; cases h
    | ok w =>
      rw [h2] at h
      simp only at h
      cases h3 : S.guest.data.mapValues (fun _ => Disp.at 1 0) with
      | error e => rw [h3] at h; cases h
      | ok disp =>
        rw [h3] at h
        cases h
        exact ⟨g, hs, w, disp, rfl, h2, rfl, rfl⟩

/-- The tree of a finished run. -/
theorem fit_ready {S : Setup K α} {F : Fitted K} (hd : 1 ≤ S.maxDepth) (h : fit S = .ok F) :
    ∃ lev sums dep num, dep ≤ S.maxDepth ∧ gradHessSum S.cfg.rnd S.gh = .ok (sums 0) ∧
      Inv S.cfg.rnd S.cfg.regLambda lev sums dep F.tree [] [] num ∧
      (∀ n ∈ F.tree, lev n.id ≤ dep) ∧ F.tree.length + 1 ≤ 2 ^ dep := by
  obtain ⟨st0, st, h1, h2, _, _, ht, _⟩ := fit_inv h
  obtain ⟨g, hs, w, disp, a1, a2, a3, rfl⟩ := initState_inv h1
  have hq : st.grow.queue = [] := levels_done level_last _ 0 _ st (fun h => by omega) h2
  obtain ⟨dep, hdep, lev, sums, b0, b1⟩ := levels_induct
    (fun dep st => ∃ lev sums, sums 0 = (g, hs) ∧ Ready S.cfg.rnd S.cfg.regLambda lev sums dep st.grow)
    (by
      rintro dep reach st st' ⟨lev, sums, c0, c1⟩ _ hl
      obtain ⟨_, _, ss, _, _, _, _, h4, _⟩ := level_inv hl
      obtain ⟨lev', sums', k1, k2, _⟩ := c1.update h4
      exact ⟨lev', sums', by rw [(k1 0 (Nat.zero_le _)).2, c0], k2⟩)
    _ 0 _ st ⟨_, _, rfl, Ready.root _ _ g hs w a2 [] []⟩ h2
  refine ⟨lev, sums, dep, st.grow.num, by omega, by rw [b0]; exact a1, ?_, ?_, ?_⟩
  · rw [ht]; have := b1.inv; rw [hq] at this; exact this
  · rw [ht]; exact b1.lev
  · rw [ht]; exact b1.size

section Finished
variable {rnd : Rat → Rat} {lam : Rat} {lev : Nat → Nat} {sums : Nat → Rat × Rat} {dep num : Nat} {tree : List Node}

theorem Inv.number (h : Inv rnd lam lev sums dep tree [] [] num) :
    tree.length = num + 1 ∧ ∀ (i : Nat) n, tree[i]? = some n → n.id = i := by
  have hids := h.ids
  simp only [List.append_nil] at hids
  refine ⟨by simpa using congrArg List.length hids, fun i n hi => ?_⟩
  have h1 : (tree.map Node.id)[i]? = some n.id := by rw [List.getElem?_map, hi]; rfl
  rw [hids, List.getElem?_range] at h1
  · simpa using h1.symm
  · have := List.getElem?_eq_some_iff.mp hi
    obtain ⟨h2, _⟩ := this
    have h3 : tree.length = num + 1 := by simpa using congrArg List.length hids
    omega

theorem flatMap_unique {β γ : Type} (f : β → List γ) (l : List β) (h : (l.flatMap f).Nodup)
    (i j : Nat) (a b : β) (ha : l[i]? = some a) (hb : l[j]? = some b) (x : γ) (hxa : x ∈ f a)
    (hxb : x ∈ f b) : i = j := by
  induction l generalizing i j with
  | nil => simp at ha
  | cons c l ih =>
    rw [List.flatMap_cons, List.nodup_append] at h
    obtain ⟨h1, h2, h3⟩ := h
    cases i with
    | zero =>
      cases j with
      | zero => rfl
      | succ j =>
        simp only [List.getElem?_cons_zero, Option.some.injEq, List.getElem?_cons_succ] at ha hb
        subst ha
        exact absurd rfl (h3 x hxa x (List.mem_flatMap.mpr ⟨b, List.mem_of_getElem? hb, hxb⟩))
    | succ i =>
      cases j with
      | zero =>
        simp only [List.getElem?_cons_zero, Option.some.injEq, List.getElem?_cons_succ] at ha hb
        subst hb
        exact absurd rfl (h3 x hxb x (List.mem_flatMap.mpr ⟨a, List.mem_of_getElem? ha, hxa⟩))
      | succ j =>
        simp only [List.getElem?_cons_succ] at ha hb
        rw [ih h2 i j ha hb]

theorem mem_children (n : Node) (c : Nat) : c ∈ n.children ↔ n.left = some c ∨ n.right = some c := by
  unfold Node.children
  rw [List.mem_append, Option.mem_toList, Option.mem_toList]

theorem Inv.wellFormed (h : Inv rnd lam lev sums dep tree [] [] num) : WellFormed tree := by
  obtain ⟨hlen, hnum⟩ := h.number
  refine ⟨fun hc => by rw [hc] at hlen; simp at hlen, hnum, ?_, ?_⟩
  · intro i n hi
    rcases h.shape n (List.mem_of_getElem? hi) with hl | ⟨h1, l, h2, h3, h4, h5, _⟩
    · exact Or.inl hl
    · rw [hnum i n hi] at h4
      exact Or.inr ⟨h1, l, l + 1, h2, h3, by omega, h4, by omega, by omega, by omega⟩
  · intro c hc hc'
    have hmem : c ∈ tree.flatMap Node.children := by
      rw [h.kids, List.mem_range'_1]; omega
    obtain ⟨n, hn, hcn⟩ := List.mem_flatMap.mp hmem
    obtain ⟨i, hi⟩ := List.mem_iff_getElem?.mp hn
    refine ⟨i, ⟨n, hi, (mem_children n c).mp hcn⟩, ?_⟩
    rintro j ⟨m, hj, hm⟩
    refine flatMap_unique Node.children tree ?_ j i m n hj hi c ((mem_children m c).mpr hm) hcn
    rw [h.kids]; exact List.nodup_range'

theorem Inv.depth (h : Inv rnd lam lev sums dep tree [] [] num) (i d : Nat) (hd : DepthAt tree i d) :
    lev i = d := by
  obtain ⟨hlen, hnum⟩ := h.number
  induction hd with
  | root => exact h.lev0
  | @child p c d _ hc ih =>
    obtain ⟨n, hp, hcn⟩ := hc
    rcases h.shape n (List.mem_of_getElem? hp) with ⟨_, h2, h3⟩ | ⟨_, l, h2, h3, _, _, h6, h7, _⟩
    · rw [h2, h3] at hcn; simp at hcn
    · rw [hnum p n hp] at h6 h7
      rw [h2, h3, Option.some.injEq, Option.some.injEq] at hcn
      rcases hcn with rfl | rfl
      · rw [h6, ih]
      · rw [h7, ih]

end Finished

end DTree
end Verif
