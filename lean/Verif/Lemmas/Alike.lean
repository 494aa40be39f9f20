import Verif.Lemmas.Talk

/-! # Split points do not influence what is sent -/

set_option autoImplicit false

namespace Verif
namespace Network

open DTree Spec Binning Histogram

variable {K : Type} [DecidableEq K] {α : Type}

theorem template_shape (A : Arith α) (valid : Option (List Bool)) : ∀ (s s' : List (List Rat)) (i : Nat),
    SameCounts s s' → template A valid i s = template A valid i s'
  | [], [], _, _ => rfl
  | [], _ :: _, _, h => by simp [SameCounts] at h
  | _ :: _, [], _, h => by simp [SameCounts] at h
  | x :: s, y :: s', i, h => by
    simp only [SameCounts, List.map_cons, List.cons.injEq] at h
    simp only [template, h.1, template_shape A valid s s' (i + 1) h.2]

theorem getHistograms_shape (A : Arith α) {s s' : List (List Rat)} (h : SameCounts s s')
    (sparse : Dict Nat Nat) (valid : Option (List Bool)) (ids : List Nat)
    (data : DTable K (SparseVec Cell × Nat × Nat)) (gh : DTable K (α × α)) :
    getHistograms A s sparse valid ids data gh = getHistograms A s' sparse valid ids data gh := by
  have hl : s.length = s'.length := by simpa using congrArg List.length h
  simp only [getHistograms, calculate, batch, template_shape A valid s s' 0 h, hl]

/-- Computations that fail alike, with related results. -/
inductive Rel {β γ : Type} (Q : β → γ → Prop) : Except PyErr β → Except PyErr γ → Prop
  | ok (x : β) (y : γ) (h : Q x y) : Rel Q (.ok x) (.ok y)
  | error (e : PyErr) : Rel Q (.error e) (.error e)

theorem Alike.lift {P M β γ : Type} {Q : β → γ → Prop} {x : Except PyErr β} {y : Except PyErr γ}
    (h : Rel Q x y) : Alike Q (lift x : Proc P M β) (lift y) := by
  cases h with
  | ok x y h => exact .done x y h
  | error e => exact .fail e

theorem realValue_shape {s s' : List (List Rat)} (h : SameCounts s s') (fid : Option Int) (bid : Int) :
    Rel (fun _ _ => True) (realValue s fid bid) (realValue s' fid bid) := by
  unfold realValue
  cases fid with
  | none => exact .error _
  | some f =>
    simp only
    split
    · exact .error _
    · have h1 := congrArg (fun l => l[f.toNat]?) h
      simp only [List.getElem?_map] at h1
      cases hs : s[f.toNat]? with
      | none =>
        rw [hs] at h1
        cases hs' : s'[f.toNat]? with
        | none => exact .error _
        | some y => rw [hs'] at h1; simp at h1
      | some x =>
        rw [hs] at h1
        cases hs' : s'[f.toNat]? with
        | none => rw [hs'] at h1; simp at h1
        | some y =>
          rw [hs'] at h1
          simp only [Option.map_some, Option.some.injEq] at h1
          simp only
          by_cases hb : bid.toNat < x.length
          · rw [List.getElem?_eq_getElem hb, List.getElem?_eq_getElem (h1 ▸ hb)]
            exact .ok _ _ trivial
          · rw [List.getElem?_eq_none (by omega), List.getElem?_eq_none (by omega)]
            exact .error _

theorem convert_shape {s s' : List (List Rat)} (h : SameCounts s s') (site : Site)
    (mask : Dict Nat Int) : ∀ (ns : List Node) (acc acc' : Dict Nat Rat), acc.keys = acc'.keys →
    Rel (fun m m' => m.keys = m'.keys) (convert site s mask ns acc) (convert site s' mask ns acc')
  | [], acc, acc', ha => .ok _ _ ha
  | n :: ns, acc, acc', ha => by
    simp only [convert]
    split
    · exact convert_shape h site mask ns acc acc' ha
    split
    · exact convert_shape h site mask ns acc acc' ha
    split
    · exact .error _
    · rename_i bid _
      have := realValue_shape h n.fid bid
      cases hx : realValue s n.fid bid with
      | error e =>
        rw [hx] at this
        cases hy : realValue s' n.fid bid with
        | error e' => rw [hy] at this; cases this; exact .error _
        | ok y => rw [hy] at this; cases this
      | ok x =>
        rw [hx] at this
        cases hy : realValue s' n.fid bid with
        | error e' => rw [hy] at this; cases this
        | ok y =>
          refine convert_shape h site mask ns _ _ ?_
          rw [Dict.keys_set, Dict.keys_set, ha]

theorem saveMask_keys : ∀ (m m' : Dict Nat Rat), m.keys = m'.keys →
    Rel (fun m m' => m.keys = m'.keys) (saveMask m) (saveMask m')
  | [], [], _ => .ok _ _ rfl
  | [], _ :: _, h => by simp [Dict.keys] at h
  | _ :: _, [], h => by simp [Dict.keys] at h
  | (k, v) :: m, (k', v') :: m', h => by
    simp only [Dict.keys, List.map_cons, List.cons.injEq] at h
    obtain ⟨rfl, h⟩ := h
    simp only [saveMask, bind, Except.bind]
    cases int32 k with
    | error e => exact .error _
    | ok x =>
      have := saveMask_keys m m' h
      simp only
      cases h1 : saveMask m with
      | error e =>
        rw [h1] at this
        cases h2 : saveMask m' with
        | error e' => rw [h2] at this; cases this; exact .error _
        | ok y => rw [h2] at this; cases this
      | ok x =>
        rw [h1] at this
        cases h2 : saveMask m' with
        | error e' => rw [h2] at this; cases this
        | ok y =>
          rw [h2] at this
          cases this with
          | ok _ _ hk =>
            refine .ok _ _ ?_
            simp only [Dict.keys, List.map_cons, List.cons.injEq, true_and]
            exact hk

theorem savePart_keys (tree : List Node) {m m' : Dict Nat Rat} (h : m.keys = m'.keys) :
    Rel (fun _ _ => True) (savePart tree m) (savePart tree m') := by
  simp only [savePart, bind, Except.bind]
  cases evalList saveNode tree with
  | error e => exact .error _
  | ok nodes =>
    have := saveMask_keys m m' h
    simp only
    cases h1 : saveMask m with
    | error e =>
      rw [h1] at this
      cases h2 : saveMask m' with
      | error e' => rw [h2] at this; cases this; exact .error _
      | ok y => rw [h2] at this; cases this
    | ok x =>
      rw [h1] at this
      cases h2 : saveMask m' with
      | error e' => rw [h2] at this; cases this
      | ok y => exact .ok _ _ trivial

/-! ## Host -/

/-- A host's input with other split points. -/
def HostIn.withSplits (P : HostIn K α) (s : List (List Rat)) : HostIn K α :=
  { P with party := { P.party with splits := s } }

theorem hostBatches_shape (P : HostIn K α) {s : List (List Rat)} (h : SameCounts P.party.splits s)
    (egh : DTable K (α × α)) (dep : Nat) (data : DTable K (SparseVec Cell × Nat × Nat)) :
    ∀ (fuel batch : Nat) (ids : List Nat) (mask : Dict Nat Int),
    hostBatches (P.withSplits s) egh dep data fuel batch ids mask
      = hostBatches P egh dep data fuel batch ids mask
  | 0, _, [], _ => rfl
  | _ + 1, _, [], _ => rfl
  | 0, _, _ :: _, _ => rfl
  | fuel + 1, batch, n :: ns, mask => by
    have := hostBatches_shape P h egh dep data fuel
    simp only [hostBatches, this]
    congr 1
    simp only [hostBatchP, HostIn.withSplits, getHistograms_shape P.arith h]

theorem hostLevels_shape (P : HostIn K α) {s : List (List Rat)} (h : SameCounts P.party.splits s)
    (egh : DTable K (α × α)) : ∀ (r dep : Nat) (mask : Dict Nat Int),
    hostLevels (P.withSplits s) egh r dep mask = hostLevels P egh r dep mask
  | 0, _, _ => rfl
  | r + 1, dep, mask => by
    have := hostLevels_shape P h egh r
    simp only [hostLevels, this, hostLevel, hostBatches_shape P h]
    rfl

theorem hostFit_shape (P : HostIn K α) {s : List (List Rat)} (h : SameCounts P.party.splits s) :
    Alike (fun x y => x.1 = y.1 ∧ x.2.keys = y.2.keys) (hostFit P) (hostFit (P.withSplits s)) := by
  unfold hostFit
  simp only [hostLevels_shape P h]
  refine Alike.after _ fun egh => ?_
  refine Alike.after _ fun mask => ?_
  refine Alike.after _ fun tree => ?_
  refine Alike.bind (Alike.lift (convert_shape h (.host P.party.idx) mask tree [] [] rfl))
    fun m m' hm => .done _ _ ⟨rfl, hm⟩

theorem hostTrees_shape (B : HostBoost K α) {s : List (List Rat)}
    (h : SameCounts B.base.party.splits s) (i : Nat) : ∀ (r t : Nat)
    (trees trees' : List (List NodeParam × Dict Nat Rat)),
    Alike (fun _ _ => True) (hostTrees B i r t trees) (hostTrees (hostWith B s) i r t trees')
  | 0, _, _, _ => .done _ _ trivial
  | r + 1, t, trees, trees' => by
    unfold hostTrees
    refine Alike.bind (hostFit_shape (B.treeIn i t) h) fun x y hxy => ?_
    refine Alike.bind (Q := fun _ _ => True) (Alike.lift ?_) fun P P' _ => hostTrees_shape B h i r _ _ _
    rw [← hxy.1]
    exact savePart_keys x.1 hxy.2

theorem hostLoop_shape (B : HostBoost K α) {s : List (List Rat)}
    (h : SameCounts B.base.party.splits s) (dim : Nat) : ∀ (r i : Nat)
    (trees trees' : List (List NodeParam × Dict Nat Rat)),
    Alike (fun _ _ => True) (hostLoop B dim r i trees) (hostLoop (hostWith B s) dim r i trees')
  | 0, _, _, _ => .done _ _ trivial
  | r + 1, i, trees, trees' => by
    unfold hostLoop
    refine Alike.bind (hostTrees_shape B h i dim 0 trees trees') fun x y _ => ?_
    show Alike _ (if B.early = true then _ else _) (if B.early = true then _ else _)
    split
    · refine Alike.after _ fun b => ?_
      split
      · exact .done _ _ trivial
      · exact hostLoop_shape B h dim r _ _ _
    · exact hostLoop_shape B h dim r _ _ _

theorem hostBoost_shape (B : HostBoost K α) {s : List (List Rat)}
    (h : SameCounts B.base.party.splits s) :
    Alike (fun _ _ => True) (hostBoost B) (hostBoost (hostWith B s)) := by
  unfold hostBoost
  refine Alike.after _ fun dim => ?_
  exact Alike.bind (hostLoop_shape B h dim B.rounds 0 [] []) fun _ _ _ => .done _ _ trivial

/-! ## Guest -/

/-- The guest's input with other split points. -/
def GuestIn.withSplits (G : GuestIn K α) (s : List (List Rat)) : GuestIn K α :=
  { G with party := { G.party with splits := s } }

theorem guestBatches_shape (G : GuestIn K α) {s : List (List Rat)} (h : SameCounts G.party.splits s)
    (dep : Nat) (data : DTable K (SparseVec Cell × Nat × Nat)) :
    ∀ (fuel batch : Nat) (nodes : List Node),
    guestBatches (G.withSplits s) dep data fuel batch nodes
      = guestBatches G dep data fuel batch nodes
  | 0, _, [] => rfl
  | _ + 1, _, [] => rfl
  | 0, _, _ :: _ => rfl
  | fuel + 1, batch, n :: ns => by
    have := guestBatches_shape G h dep data fuel
    simp only [guestBatches, this]
    congr 1
    simp only [guestBatch, GuestIn.withSplits, getHistograms_shape (Histogram.floats G.cfg.rnd) h]

theorem guestLevels_shape (G : GuestIn K α) {s : List (List Rat)} (h : SameCounts G.party.splits s) :
    ∀ (r dep : Nat) (st : GuestState K),
    guestLevels (G.withSplits s) r dep st = guestLevels G r dep st
  | 0, _, _ => rfl
  | r + 1, dep, st => by
    have := guestLevels_shape G h r
    simp only [guestLevels, this, guestLevel, guestBatches_shape G h]
    rfl

theorem guestFit_shape (G : GuestIn K α) {s : List (List Rat)} (h : SameCounts G.party.splits s) :
    Alike (fun x y => x.tree = y.tree ∧ x.mask.keys = y.mask.keys ∧ x.weights = y.weights ∧
      x.imps = y.imps) (guestFit G) (guestFit (G.withSplits s)) := by
  unfold guestFit
  simp only [guestLevels_shape G h]
  refine Alike.after _ fun _ => ?_
  refine Alike.after _ fun st => ?_
  refine Alike.after _ fun st => ?_
  refine Alike.after _ fun _ => ?_
  refine Alike.bind (Alike.lift (convert_shape h .guest st.grow.mask st.grow.tree [] [] rfl))
    fun m m' hm => .done _ _ ⟨rfl, hm, rfl, rfl⟩

variable {L : Type}

/-- States that differ in the thresholds of the trees only. -/
def SameBut (st st' : GuestBoostState K) : Prop :=
  st.scores = st'.scores ∧ st.imps = st'.imps ∧ st.losses = st'.losses ∧ st.pre = st'.pre

theorem guestTrees_shape (B : GuestBoost K α L) {s : List (List Rat)}
    (h : SameCounts B.base.party.splits s) (gh : DTable K (List Rat × List Rat)) (i : Nat) :
    ∀ (r t : Nat) (st st' : GuestBoostState K), SameBut st st' →
    Alike SameBut (guestTrees B gh i r t st) (guestTrees (guestWith B s) gh i r t st')
  | 0, _, _, _, hs => .done _ _ hs
  | r + 1, t, st, st', hs => by
    unfold guestTrees
    refine Alike.bind (Q := SameBut) ?_ fun st st' hs => guestTrees_shape B h gh i r _ st st' hs
    unfold guestTree
    refine Alike.after _ fun g => ?_
    refine Alike.after _ fun e => ?_
    refine Alike.bind (guestFit_shape (B.treeIn i t g e) h) fun x y hxy => ?_
    obtain ⟨h1, h2, h3, h4⟩ := hxy
    refine Alike.bind (Q := fun _ _ => True) (Alike.lift ?_) fun P P' _ => ?_
    · rw [← h1]
      exact savePart_keys x.tree h2
    rw [← h3, ← h4, ← hs.1, ← hs.2.1]
    refine Alike.after _ fun scores => .done _ _ ⟨rfl, rfl, hs.2.2⟩

theorem guestLoop_shape (B : GuestBoost K α L) {s : List (List Rat)}
    (h : SameCounts B.base.party.splits s) (y : DTable K L) :
    ∀ (r i : Nat) (st st' : GuestBoostState K), SameBut st st' →
    Alike SameBut (guestLoop B y r i st) (guestLoop (guestWith B s) y r i st')
  | 0, _, _, _, hs => .done _ _ hs
  | r + 1, i, st, st', hs => by
    unfold guestLoop
    refine Alike.bind (Q := SameBut) ?_ fun st st' hs => ?_
    · unfold guestRound
      rw [← hs.1]
      refine Alike.after _ fun gh => ?_
      refine Alike.bind (guestTrees_shape B h gh i B.dim 0 st st' hs) fun st st' hs => ?_
      rw [← hs.1]
      refine Alike.after _ fun l => .done _ _ ⟨rfl, hs.2.1, ?_, hs.2.2.2⟩
      rw [hs.2.2.1]
    show Alike _ (if B.early = true then _ else _) (if B.early = true then _ else _)
    split
    · have hc : (guestConverge B.tol st).1 = (guestConverge B.tol st').1 ∧
          SameBut (guestConverge B.tol st).2 (guestConverge B.tol st').2 := by
        unfold guestConverge
        have e := hs.2.2.1
        rw [← e]
        cases st.losses.getLast? with
        | none => exact ⟨rfl, hs⟩
        | some l =>
          rw [← hs.2.2.2]
          exact ⟨rfl, hs.1, hs.2.1, rfl, rfl⟩
      show Alike _ (sendAll (.stop (guestConverge B.tol st).1) _ >>= _)
        (sendAll (.stop (guestConverge B.tol st').1) _ >>= _)
      rw [← hc.1]
      refine Alike.after _ fun _ => ?_
      split
      · rename_i hb
        rw [if_pos (show (guestConverge (guestWith B s).tol st').1 = true from hc.1 ▸ hb)]
        exact .done _ _ hc.2
      · rename_i hb
        rw [if_neg (show ¬ (guestConverge (guestWith B s).tol st').1 = true from hc.1 ▸ hb)]
        exact guestLoop_shape B h y r _ _ _ hc.2
    · exact guestLoop_shape B h y r _ _ _ hs

theorem guestBoost_shape (B : GuestBoost K α L) {s : List (List Rat)}
    (h : SameCounts B.base.party.splits s) (init : List Rat) (y : DTable K L) :
    Alike SameBut (guestBoost B init y) (guestBoost (guestWith B s) init y) := by
  unfold guestBoost
  refine Alike.after _ fun scores => ?_
  refine Alike.after _ fun _ => ?_
  exact guestLoop_shape B h y B.rounds 0 _ _ ⟨rfl, rfl, rfl, rfl⟩

end Network
end Verif
