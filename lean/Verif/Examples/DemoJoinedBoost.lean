import Verif.Examples.DemoBoost
import Verif.Examples.DemoJoined
import Verif.Spec.C55
import Verif.Lemmas.BoostRun

/-!
# A federated boosting run and its centralised counterpart

The parties of `DemoJoined`, the labels and the loss of `DemoBoost`.
-/

set_option autoImplicit false

namespace Verif
namespace DemoJoinedBoost

open DTree Spec Paillier Histogram

def secure (sk : PrivKey) : Boost Nat Num Rat :=
  { DemoBoost.secure sk with base := DemoJoined.setup sk }

/-- Absolute errors, added up in the order of the labels. -/
def loss (y : DTable Nat Rat) (s : DTable Nat (List Rat)) : Except PyErr Rat :=
  .ok (y.data.map fun x => (((s.data.get? x.1).getD []).map fun f => |f - x.2|).sum).sum

def secureRun (sk : PrivKey) : Boost Nat Num Rat := { secure sk with loss := loss }

/-- The centralised run. -/
def central : CBoost Nat Rat where
  base := DemoJoined.central
  valid := fun _ _ => [true, true, true, true]
  gradHess := DemoBoost.gradHess
  loss := loss
  rounds := 3
  dim := 2
  rate := ⟨1 / 2, id⟩
  early := true
  tol := 1 / 10

theorem run {sk : PrivKey} (hk : KeyPair (2 ^ 31 - 1) (2 ^ 61 - 1) sk)
    (hn : sk.pk.n = (2 ^ 31 - 1) * (2 ^ 61 - 1)) :
    PaillierBoost (2 ^ 31 - 1) (2 ^ 61 - 1) sk 12 13 (11 / 10) 1 1 0 0 DemoBoost.Signs (secureRun sk)
      DemoBoost.labels DemoJoined.rows := by
  have h := DemoBoost.run hk hn
  have hr := DemoJoined.raw sk
  have hl : DemoBoost.labels.data.keys = [0, 1, 2, 3, 4, 5] := by decide
  have hg : (DemoJoined.setup sk).gh.data.keys = [0, 1, 2, 3, 4, 5] := by
    show Demo.gh.data.keys = _
    decide
  refine ⟨?_, hr.names, h.wf, h.depth, h.batch, h.kind, (DemoJoined.usual sk).hosts, h.leaf, h.lam, h.grads,
    fun _ _ _ => ⟨_, rfl⟩, h.bounds, h.pos, h.key, h.hi0, h.gap, h.big, h.cipher, h.arith, h.enc, h.errors, h.room, h.windowG,
    h.windowH, h.accuracy⟩
  intro j P hP
  obtain ⟨r1, r2, r3⟩ := hr.parties j P hP
  have hv : ∀ i t, ((secureRun sk).valid i t j).length = P.splits.length := by
    intro i t
    rw [← r2]
    exact DemoJoined.cases (DemoJoined.setup sk) rfl
      (fun j P => ((secureRun sk).valid i t j).length = P.valid.length)
      (by show 2 = DemoRaw.setup.guest.valid.length; decide +kernel)
      (by show 1 = (DemoRaw.party 1 ["c"] DemoJoined.hostRows1).valid.length; decide +kernel)
      (by show 1 = (DemoRaw.party 2 ["d"] DemoRaw.hostRows2).valid.length; decide +kernel) j P hP
  refine ⟨r1, hv, ?_, fun k => ?_⟩
  · rw [← hv 0 0]
    match j with
    | none => show 2 ≤ _; norm_num
    | some _ => show 1 ≤ _; norm_num
  · rw [r3, hg, hl]

theorem centralised (sk : PrivKey) :
    CentralisedBoost (secureRun sk) DemoBoost.labels DemoJoined.rows central DemoJoined.joined := by
  refine ⟨DemoJoined.columns_of _ rfl rfl, rfl, rfl, by decide, by decide, ?_, fun i t => ?_, rfl, ?_, rfl, rfl,
    rfl, rfl, rfl⟩
  · have : central.base.party.splits.length = 4 := by decide +kernel
    rw [this]; norm_num
  · show [true, true, true, true] = sideBySide (DemoJoined.setup sk) (DemoBoost.clear.valid i t)
    unfold sideBySide
    show _ = _ ++ (List.range DemoJoined.hosts.length).flatMap _
    rfl
  · intro s s' _ _ h
    show loss _ s' = loss _ s
    unfold loss
    simp only [h]

/-! ### With gradients 1 and -1 the choice is always clear -/

/-- Gain of a split of `n` samples, `u` of them with gradient 1, into `a` samples, `v` of them with
gradient 1, and the rest. -/
def signGain (n u a v : Nat) : Rat := gain (1 / 10) (2 * (u : Rat) - n, n) (2 * (v : Rat) - a, a)

theorem signGain_clear : ∀ n ∈ List.range 7, ∀ u ∈ List.range (n + 1), ∀ a ∈ List.range n, 1 ≤ a →
    ∀ v ∈ List.range (a + 1), v ≤ u → u ≤ v + (n - a) →
    (signGain n u a v ≤ 1 / 1000 ∨ 1 / 1000 + 5 / 10 ^ 6 < signGain n u a v) ∧
    ∀ a' ∈ List.range n, 1 ≤ a' → ∀ v' ∈ List.range (a' + 1), v' ≤ u → u ≤ v' + (n - a') →
      (signGain n u a' v' ≤ signGain n u a v → signGain n u a' v' = signGain n u a v ∨
        signGain n u a' v' + 5 / 10 ^ 6 < signGain n u a v) := by
  decide +kernel

theorem sum_signs {gh : DTable Nat (Rat × Rat)} : ∀ (A : List Nat),
    (∀ k ∈ A, ∃ x, gh.data.get? k = some x ∧ DemoBoost.Signs x) →
    sumKeys gh A =
      (2 * ((A.countP fun k => decide ((ghOf gh k).1 = 1) : Nat) : Rat) - (A.length : Rat), (A.length : Rat))
  | [], _ => by simp [sumKeys]
  | k :: A, h => by
    have ih := sum_signs A fun k' hk' => h k' (by simp [hk'])
    obtain ⟨x, hx, h1, h2⟩ := h k (by simp)
    have hx' : ghOf gh k = x := by unfold ghOf; rw [hx]; rfl
    unfold sumKeys at ih ⊢
    simp only [List.map_cons, List.sum_cons, Prod.mk.injEq] at ih ⊢
    rw [ih.1, ih.2, hx', h2, List.countP_cons, hx']
    rcases h1 with h1 | h1
    · rw [h1]
      simp only [decide_true, if_true, List.length_cons]
      push_cast
      constructor <;> ring
    · rw [h1]
      have : ¬ ((-1 : Rat) = 1) := by norm_num
      simp only [this, decide_false, Bool.false_eq_true, if_false, List.length_cons]
      push_cast
      constructor <;> ring

theorem offer_sign {α : Type} {S : Setup Nat α} (hcfg : S.cfg = ⟨1/10, 1/1000, 2, 1, id⟩) {A : List Nat}
    (hA : ∀ k ∈ A, ∃ x, S.gh.data.get? k = some x ∧ DemoBoost.Signs x) {j : Option Nat} {f b : Nat}
    {l : Rat × Rat} (h : OfferAt S A j f b l) :
    ∃ a v, a < A.length ∧ 1 ≤ a ∧ v ≤ a ∧ v ≤ A.countP (fun k => decide ((ghOf S.gh k).1 = 1)) ∧
      A.countP (fun k => decide ((ghOf S.gh k).1 = 1)) ≤ v + (A.length - a) ∧
      gain S.cfg.regLambda (sumKeys S.gh A) l =
        signGain A.length (A.countP fun k => decide ((ghOf S.gh k).1 = 1)) a v := by
  obtain ⟨P, sp, _, _, _, _, _, h6, h7, rfl⟩ := h
  rw [hcfg] at h6 h7
  simp only at h6 h7
  have hrest : (A.filter fun k => decide ((b : Rat) < binAt P f k)) =
      A.filter fun k => !decide (binAt P f k ≤ (b : Rat)) := by
    apply List.filter_congr
    intro k _
    by_cases hb : binAt P f k ≤ (b : Rat)
    · simp [hb]
    · simp [hb, not_le.mp hb]
  rw [hrest] at h7
  have hlen := List.length_eq_length_filter_add (l := A) fun k => decide (binAt P f k ≤ (b : Rat))
  have hcount : A.countP (fun k => decide ((ghOf S.gh k).1 = 1)) =
      (A.filter fun k => decide (binAt P f k ≤ (b : Rat))).countP (fun k => decide ((ghOf S.gh k).1 = 1)) +
      (A.filter fun k => !decide (binAt P f k ≤ (b : Rat))).countP (fun k => decide ((ghOf S.gh k).1 = 1)) := by
    have := List.countP_eq_countP_filter_add A (fun k => decide ((ghOf S.gh k).1 = 1))
      (fun k => decide (binAt P f k ≤ (b : Rat)))
    simpa using this
  have hle := List.countP_le_length (l := A.filter fun k => decide (binAt P f k ≤ (b : Rat)))
    (p := fun k => decide ((ghOf S.gh k).1 = 1))
  have hle' := List.countP_le_length (l := A.filter fun k => !decide (binAt P f k ≤ (b : Rat)))
    (p := fun k => decide ((ghOf S.gh k).1 = 1))
  refine ⟨_, _, ?_, by omega, hle, by omega, by omega, ?_⟩
  · omega
  · rw [sum_signs A hA, sum_signs _ fun k hk => hA k (List.mem_of_mem_filter hk), hcfg]
    rfl

theorem sign_decisive {α : Type} {S : Setup Nat α} (hcfg : S.cfg = ⟨1/10, 1/1000, 2, 1, id⟩) {A : List Nat}
    (hlen : A.length ≤ 6) (hA : ∀ k ∈ A, ∃ x, S.gh.data.get? k = some x ∧ DemoBoost.Signs x) :
    Decisive S A := by
  have hu := List.countP_le_length (l := A) (p := fun k => decide ((ghOf S.gh k).1 = 1))
  have hall := signGain_clear A.length (List.mem_range.mpr (by omega))
    (A.countP fun k => decide ((ghOf S.gh k).1 = 1)) (List.mem_range.mpr (by omega))
  constructor
  · intro j f b l h
    obtain ⟨a, v, h1, h2, h3, h4, h5, h6⟩ := offer_sign hcfg hA h
    rw [h6, hcfg]
    exact (hall a (List.mem_range.mpr h1) h2 v (List.mem_range.mpr (by omega)) h4 h5).1
  · intro j f b l j' f' b' l' h h' _ hmax
    obtain ⟨a, v, h1, h2, h3, h4, h5, h6⟩ := offer_sign hcfg hA h
    obtain ⟨a', v', g1, g2, g3, g4, g5, g6⟩ := offer_sign hcfg hA h'
    have hle := hmax j' f' b' l' h'
    rw [h6, g6] at hle ⊢
    exact (hall a (List.mem_range.mpr h1) h2 v (List.mem_range.mpr (by omega)) h4 h5).2 a'
      (List.mem_range.mpr g1) g2 v' (List.mem_range.mpr (by omega)) g4 g5 hle

theorem decisive (sk : PrivKey) (init : List Rat) (fits : List (Fitted Nat)) :
    DecisiveRun (secureRun sk) DemoBoost.labels init DemoJoined.rows fits := by
  intro n F gh egh _ hg i _ A hA
  have hl : DemoBoost.labels.data.keys = [0, 1, 2, 3, 4, 5] := by decide
  have hsub : ∀ k ∈ A, k ∈ DemoBoost.labels.data.keys := fun k hk => (hg.2.1 k).mp ((hA.2 k).mp hk).1
  apply sign_decisive rfl
  · have h1 : A ⊆ DemoBoost.labels.data.keys := hsub
    rw [hl] at h1
    have := (List.subperm_of_subset hA.1 h1).length_le
    simpa using this
  · intro k hk
    obtain ⟨l, hlk⟩ := Dict.exists_get?_of_mem (hsub k hk)
    obtain ⟨g, h, a, b, e1, e2, e3, e4⟩ := hg.2.2 k l hlk
    refine ⟨(a, b), e4, ?_⟩
    cases e1
    rw [List.getElem?_map] at e2 e3
    cases hx : (scoreAfter init (secureRun sk).rate (secureRun sk).dim (weightIn fits k)
        (n / (secureRun sk).dim * (secureRun sk).dim))[n % (secureRun sk).dim]? with
    | none => rw [hx] at e2; cases e2
    | some x =>
      rw [hx] at e2 e3
      simp only [Option.map_some, Option.some.injEq] at e2 e3
      refine ⟨?_, e3.symm⟩
      show a = 1 ∨ a = -1
      rw [← e2]
      split
      · exact Or.inl rfl
      · exact Or.inr rfl

end DemoJoinedBoost
end Verif
