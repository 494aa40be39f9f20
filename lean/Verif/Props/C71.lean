import Verif.Lemmas.Longer
import Verif.Props.C34
import Verif.Examples.Demo

/-!
# C71: longer runs continue shorter ones
-/

set_option autoImplicit false

namespace Verif

open DTree Spec

variable {K : Type} [DecidableEq K] {α L : Type}

/-- **More rounds keep the first rounds.**  If training with `r'` rounds ends without an exception,
so does training with fewer rounds `r` (all other settings, data and draws the same), and its
trees, losses and stop flags are the first ones of the longer run. -/
theorem C71_rounds (B : Boost K α L) (y : DTable K L) (init : List Rat) (r r' : Nat) (hr : r ≤ r')
    (st' : BoostState K) (h : boost { B with rounds := r' } init y = .ok st') :
    ∃ st, boost { B with rounds := r } init y = .ok st ∧ st.losses.length ≤ r ∧
      st.trees = st'.trees.take (st.losses.length * B.dim) ∧
      st.losses = st'.losses.take st.losses.length ∧ st.flags <+: st'.flags := by
  obtain ⟨k, rfl⟩ : ∃ k, r' = r + k := ⟨r' - r, by omega⟩
  have key : ∃ st, boost { B with rounds := r } init y = .ok st ∧ Grows st st' := by
    unfold boost at h ⊢
    simp only [bind, Except.bind] at h ⊢
    split at h; · cases h
    rw [boostLoop_rounds] at h
    simp only [boostLoop_rounds]
    exact boostLoop_prefix r k _ _ _ h
  obtain ⟨st, h1, g1, g2, g3⟩ := key
  obtain ⟨c1, c2, _⟩ := C34_stop _ _ _ _ h1
  exact ⟨st, h1, c1, by rw [← c2]; exact List.prefix_iff_eq_take.mp g1,
    List.prefix_iff_eq_take.mp g2, g3⟩

/-- **Rounds that were not needed do not matter.**  A run that has stopped early gives the same
result for every number of rounds from the one it has performed. -/
theorem C71_stopped (B : Boost K α L) (y : DTable K L) (init : List Rat) (r r' : Nat)
    (st : BoostState K) (h : boost { B with rounds := r } init y = .ok st)
    (hstop : st.losses.length < r) (hr : st.losses.length ≤ r') :
    boost { B with rounds := r' } init y = .ok st := by
  unfold boost at h ⊢
  simp only [bind, Except.bind] at h ⊢
  split at h; · cases h
  rw [boostLoop_rounds] at h
  simp only [boostLoop_rounds]
  exact boostLoop_stopped r 0 _ st h (by simpa using hstop) r' (by simpa using hr)

/-- **A deeper tree keeps the upper levels.**  Trees grown from the same data with maximal depths
`S.maxDepth ≤ d` have the same nodes with the same sums and weights as far as the shallower tree
goes, and the same splits with the same thresholds; only leaves of the shallower tree are split
further.  Every sample's walk through the shallower tree is the beginning of its walk through the
deeper one. -/
theorem C71_depth (S : Setup K α) (hd : 1 ≤ S.maxDepth) (d : Nat) (hle : S.maxDepth ≤ d)
    (hkeys : ∀ H ∈ S.hosts, ∀ k row, S.guest.data.data.get? k = some row →
      ∃ row', H.data.data.get? k = some row')
    (hidx : (S.hosts.map Party.idx).Nodup) (F F' : Fitted K) (h : fit S = .ok F)
    (h' : fit { S with maxDepth := d } = .ok F') :
    Continues S F F' ∧ ∀ rows k i, Reaches S F rows k i → Reaches S F' rows k i := by
  have hc := fit_deeper hkeys hidx hd hle h h'
  refine ⟨hc, fun rows k i hi => ?_⟩
  refine Relation.ReflTransGen.mono ?_ _ _ hi
  rintro a b ⟨j, f, t, row, n, h1, h2, h3, h4⟩
  obtain ⟨n', e1, _, _, _, _, e2⟩ := hc.nodes a n h3
  have hl : n.isLeaf = false := by
    obtain ⟨m, _, _, q1, q2, _⟩ := h1
    rw [h3] at q1; cases q1; exact q2
  obtain rfl := e2 hl
  exact ⟨j, f, t, row, n', hc.splits a j f t h1, h2, e1, h4⟩

/-- Runs of one and of two rounds, and a run that stops after two of five rounds. -/
example : ∃ st st' s5, boost { DemoBoost.clear with rounds := 1 } [0, 1] DemoBoost.labels = .ok st ∧
    boost { DemoBoost.clear with rounds := 2 } [0, 1] DemoBoost.labels = .ok st' ∧
    st.trees.length < st'.trees.length ∧
    boost { DemoBoost.clear with rounds := 5, tol := 10 } [0, 1] DemoBoost.labels = .ok s5 ∧
    s5.losses.length < 5 := by
  have h2 : boost { DemoBoost.clear with rounds := 2 } [0, 1] DemoBoost.labels = .ok DemoBoost.final := by
    decide +kernel
  refine ⟨(match boost { DemoBoost.clear with rounds := 1 } [0, 1] DemoBoost.labels with
    | .ok st => st
    | .error _ => DemoBoost.final), _, (match boost { DemoBoost.clear with rounds := 5, tol := 10 } [0, 1] DemoBoost.labels with
    | .ok st => st
    | .error _ => DemoBoost.final), by decide +kernel, h2, by decide +kernel, by decide +kernel,
    by decide +kernel⟩

/-- A tree of depth two is continued by one of depth four with more nodes. -/
example : ∃ F F', fit { Demo.setup with maxDepth := 2 } = .ok F ∧
    fit { Demo.setup with maxDepth := 4 } = .ok F' ∧ F.tree.length < F'.tree.length := by
  refine ⟨(match fit { Demo.setup with maxDepth := 2 } with
    | .ok F => F
    | .error _ => Demo.fitted), Demo.fitted, by decide +kernel, Demo.fit_ok, by decide +kernel⟩

end Verif
