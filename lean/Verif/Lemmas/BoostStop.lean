import Verif.Spec.C34
import Verif.Lemmas.Boost

set_option autoImplicit false

namespace Verif
namespace DTree

open Spec

variable {K : Type} [DecidableEq K] {α L : Type}

theorem boostTree_keeps {B : Boost K α L} {gh : DTable K (List Rat × List Rat)} {i t : Nat}
    {st st' : BoostState K} (h : boostTree B gh i t st = .ok st') :
    st'.losses = st.losses ∧ st'.pre = st.pre ∧ st'.flags = st.flags ∧
      st'.trees.length = st.trees.length + 1 := by
  unfold boostTree at h
  simp only [bind, Except.bind] at h
  split at h; · cases h
  split at h; · cases h
  split at h; · cases h
  split at h; · cases h
  split at h; · cases h
  cases h
  exact ⟨rfl, rfl, rfl, by simp⟩

theorem boostTrees_keeps {B : Boost K α L} {gh : DTable K (List Rat × List Rat)} {i : Nat} :
    ∀ (r t : Nat) (st st' : BoostState K), boostTrees B gh i r t st = .ok st' →
      st'.losses = st.losses ∧ st'.pre = st.pre ∧ st'.flags = st.flags ∧
      st'.trees.length = st.trees.length + r
  | 0, t, st, st', h => by cases h; exact ⟨rfl, rfl, rfl, rfl⟩
  | r + 1, t, st, st', h => by
    unfold boostTrees at h
    simp only [bind, Except.bind] at h
    split at h; · cases h
    rename_i st1 h1
    obtain ⟨a1, a2, a3, a4⟩ := boostTree_keeps h1
    obtain ⟨b1, b2, b3, b4⟩ := boostTrees_keeps r (t + 1) st1 st' h
    exact ⟨by rw [b1, a1], by rw [b2, a2], by rw [b3, a3], by omega⟩

theorem boostRound_keeps {B : Boost K α L} {y : DTable K L} {i : Nat} {st st' : BoostState K}
    (h : boostRound B y i st = .ok st') :
    (∃ l, st'.losses = st.losses ++ [l]) ∧ st'.pre = st.pre ∧ st'.flags = st.flags ∧
      st'.trees.length = st.trees.length + B.dim := by
  unfold boostRound at h
  simp only [bind, Except.bind] at h
  split at h; · cases h
  split at h; · cases h
  rename_i st1 h1
  split at h; · cases h
  rename_i l hl
  cases h
  obtain ⟨b1, b2, b3, b4⟩ := boostTrees_keeps _ _ _ _ h1
  exact ⟨⟨l, by rw [b1]⟩, b2, b3, b4⟩

/-- The run has not stopped yet. -/
structure Running (B : Boost K α L) (i : Nat) (st : BoostState K) : Prop where
  len : st.losses.length = i
  trees : st.trees.length = i * B.dim
  early : B.early = true → st.pre = st.losses.getLast? ∧ st.flags = List.replicate i false ∧
    ∀ j, ¬ Converged B.tol st.losses j
  late : B.early = false → st.flags = []

/-- A finished run. -/
structure Finished (B : Boost K α L) (st : BoostState K) : Prop where
  le : st.losses.length ≤ B.rounds
  trees : st.trees.length = st.losses.length * B.dim
  first : B.early = true → ∀ j, j + 2 < st.losses.length → ¬ Converged B.tol st.losses j
  last : st.losses.length < B.rounds → B.early = true ∧ 2 ≤ st.losses.length ∧
    Converged B.tol st.losses (st.losses.length - 2)
  early : B.early = true → (st.flags = List.replicate st.losses.length false ∧
      st.losses.length = B.rounds) ∨
    (1 ≤ st.losses.length ∧ st.flags = List.replicate (st.losses.length - 1) false ++ [true])
  late : B.early = false → st.flags = []

theorem converged_append {tol : Rat} {ls : List Rat} {l : Rat} {j : Nat}
    (h : Converged tol (ls ++ [l]) j) :
    Converged tol ls j ∨ (ls.length = j + 1 ∧ ∃ a, ls.getLast? = some a ∧ |a - l| < tol) := by
  obtain ⟨a, b, h1, h2, h3⟩ := h
  have hlt := (List.getElem?_eq_some_iff.mp h2).1
  simp only [List.length_append, List.length_singleton] at hlt
  by_cases hj : j + 1 < ls.length
  · rw [List.getElem?_append_left (by omega)] at h1
    rw [List.getElem?_append_left hj] at h2
    exact Or.inl ⟨a, b, h1, h2, h3⟩
  · have hj' : ls.length = j + 1 := by omega
    rw [List.getElem?_append_left (by omega)] at h1
    rw [List.getElem?_append_right (by omega), hj', Nat.sub_self] at h2
    simp only [List.getElem?_cons_zero, Option.some.injEq] at h2
    subst h2
    refine Or.inr ⟨hj', a, ?_, h3⟩
    rw [List.getLast?_eq_getElem?, hj']
    exact h1

theorem boostLoop_stop {B : Boost K α L} {y : DTable K L} :
    ∀ (r i : Nat) (st st' : BoostState K), i + r = B.rounds → Running B i st →
      boostLoop B y r i st = .ok st' → Finished B st'
  | 0, i, st, st', hr, hs, h => by
    cases h
    refine ⟨by rw [hs.len]; omega, by rw [hs.len]; exact hs.trees, fun he j _ => (hs.early he).2.2 j,
      fun hlt => by rw [hs.len] at hlt; omega, fun he => Or.inl ?_, hs.late⟩
    rw [hs.len]
    exact ⟨(hs.early he).2.1, by omega⟩
  | r + 1, i, st, st', hr, hs, h => by
    unfold boostLoop at h
    simp only [bind, Except.bind] at h
    split at h; · cases h
    rename_i st1 h1
    obtain ⟨⟨l, k1⟩, k2, k3, k4⟩ := boostRound_keeps h1
    obtain ⟨s1, s2, s3, s4⟩ := stopTest_keeps B st1
    have htrees : st1.trees.length = (i + 1) * B.dim := by rw [k4, hs.trees]; ring
    have hlen : st1.losses.length = i + 1 := by rw [k1]; simp [hs.len]
    cases he : B.early with
    | false =>
      have hstop : stopTest B st1 = (false, st1) := by unfold stopTest; rw [he]; rfl
      rw [hstop] at h
      simp only at h
      refine boostLoop_stop r (i + 1) st1 st' (by omega) ⟨hlen, htrees, ?_, ?_⟩ h
      · intro hc; rw [he] at hc; cases hc
      · intro _; rw [k3]; exact hs.late he
    | true =>
      obtain ⟨e1, e2, e3⟩ := hs.early he
      have hstop : stopTest B st1 = ((isConverge B.tol st.pre l).1,
          { st1 with pre := some l, flags := st1.flags ++ [(isConverge B.tol st.pre l).1] }) := by
        unfold stopTest
        rw [he, k1, k2]
        simp [isConverge]
      rw [hstop] at h
      simp only at h
      by_cases hc : (isConverge B.tol st.pre l).1 = true
      · rw [if_pos hc] at h
        cases h
        obtain ⟨a, ha, hal⟩ : ∃ a, st.losses.getLast? = some a ∧ |a - l| < B.tol := by
          rw [e1] at hc
          unfold isConverge at hc
          cases hp : st.losses.getLast? with
          | none => rw [hp] at hc; cases hc
          | some p => rw [hp] at hc; exact ⟨p, rfl, by simpa using hc⟩
        have hi : 1 ≤ i := by
          rw [← hs.len]
          cases hl : st.losses with
          | nil => rw [hl] at ha; cases ha
          | cons => simp
        refine ⟨by simp only [hlen]; omega, by simp only [hlen]; exact htrees, ?_, ?_, ?_, ?_⟩
        · intro _ j hj hcv
          simp only [hlen] at hj
          rw [k1] at hcv
          rcases converged_append hcv with hcv | ⟨hl, _⟩
          · exact e3 j hcv
          · rw [hs.len] at hl; omega
        · intro _
          refine ⟨he, by simp only [hlen]; omega, ?_⟩
          show Converged B.tol st1.losses (st1.losses.length - 2)
          rw [hlen, k1]
          refine ⟨a, l, ?_, ?_, hal⟩
          · rw [List.getElem?_append_left (by rw [hs.len]; omega)]
            rw [List.getLast?_eq_getElem?, hs.len] at ha
            rw [show i + 1 - 2 = i - 1 by omega]
            exact ha
          · have : i + 1 - 2 + 1 = st.losses.length := by rw [hs.len]; omega
            rw [this, List.getElem?_append_right (le_refl _)]
            simp
        · intro _
          refine Or.inr ⟨by simp only [hlen]; omega, ?_⟩
          simp only [hlen, k3, e2, hc, Nat.add_sub_cancel]
        · intro hf; rw [he] at hf; cases hf
      · rw [if_neg hc] at h
        refine boostLoop_stop r (i + 1) { st1 with pre := some l, flags := st1.flags ++ [(isConverge B.tol st.pre l).1] }
          st' (by omega) ⟨hlen, htrees, ?_, ?_⟩ h
        · intro _
          refine ⟨?_, ?_, ?_⟩
          · rw [k1]; simp
          · simp only [k3, e2]
            have : (isConverge B.tol st.pre l).1 = false := by simpa using hc
            rw [this, List.replicate_succ']
          · intro j hcv
            simp only [k1] at hcv
            rcases converged_append hcv with hcv | ⟨hl, a, ha, hal⟩
            · exact e3 j hcv
            · apply hc
              rw [e1, ha]
              simp [isConverge, hal]
        · intro hf; rw [he] at hf; cases hf

theorem boost_stop {B : Boost K α L} {y : DTable K L} {init : List Rat} {st : BoostState K}
    (h : boost B init y = .ok st) : Finished B st := by
  unfold boost at h
  simp only [bind, Except.bind] at h
  split at h; · cases h
  refine boostLoop_stop B.rounds 0 _ st (by omega) ⟨rfl, by simp, fun _ => ⟨rfl, rfl, ?_⟩, fun _ => rfl⟩ h
  rintro j ⟨a, b, h1, _⟩
  simp at h1

/-- The losses of a run, with the scores they belong to. -/
theorem boostLoop_losses {B : Boost K α L} {y : DTable K L} (hd : 1 ≤ B.base.maxDepth)
    (hsame : SameData B y) {init : List Rat} (hdim : init.length = B.dim) :
    ∀ (r i : Nat) (st st' : BoostState K) (fits : List (Fitted K)), fits.length = i * B.dim →
    st.losses.length = i →
    TrainInv B y init st fits →
    (∀ (j : Nat) l, st.losses[j]? = some l → ∃ s : DTable K (List Rat), B.loss y s = .ok l ∧
      ∀ k, s.data.get? k = if k ∈ y.data.keys then
        some (scoreAfter init B.rate B.dim (weightIn fits k) ((j + 1) * B.dim)) else none) →
    boostLoop B y r i st = .ok st' →
    ∃ more, List.Forall₂ (fun F P => save F = .ok P) (fits ++ more) st'.trees ∧
      ∀ (j : Nat) l, st'.losses[j]? = some l → ∃ s : DTable K (List Rat), B.loss y s = .ok l ∧
        ∀ k, s.data.get? k = if k ∈ y.data.keys then
          some (scoreAfter init B.rate B.dim (weightIn (fits ++ more) k) ((j + 1) * B.dim)) else none
  | 0, i, st, st', fits, hlen, hl, hi, hls, h => by
    cases h
    exact ⟨[], by simpa using hi.saved, by simpa using hls⟩
  | r + 1, i, st, st', fits, hlen, hl, hi, hls, h => by
    unfold boostLoop at h
    simp only [bind, Except.bind] at h
    split at h; · cases h
    rename_i st1 h1
    obtain ⟨more, l, m1, m2, m3, m4, _⟩ := boostRound_inv hd hsame hdim hlen hi h1
    obtain ⟨s1, s2, s3, s4⟩ := stopTest_keeps B st1
    have hnew : ∀ (j : Nat) l', (st.losses ++ [l])[j]? = some l' → ∃ s : DTable K (List Rat),
        B.loss y s = .ok l' ∧ ∀ k, s.data.get? k = if k ∈ y.data.keys then
          some (scoreAfter init B.rate B.dim (weightIn (fits ++ more) k) ((j + 1) * B.dim)) else none := by
      intro j l' hj
      by_cases hlt : j < st.losses.length
      · rw [List.getElem?_append_left hlt] at hj
        obtain ⟨s, a, b⟩ := hls j l' hj
        refine ⟨s, a, fun k => ?_⟩
        rw [b k]
        have : scoreAfter init B.rate B.dim (weightIn (fits ++ more) k) ((j + 1) * B.dim) =
            scoreAfter init B.rate B.dim (weightIn fits k) ((j + 1) * B.dim) := by
          apply scoreAfter_congr
          intro n hn
          have : (j + 1) * B.dim ≤ fits.length := by
            rw [hlen]; exact Nat.mul_le_mul_right _ (by omega)
          unfold weightIn
          rw [List.getElem?_append_left (by omega)]
        rw [this]
      · have hj' : j = i := by
          have := (List.getElem?_eq_some_iff.mp hj).1
          simp at this; omega
        subst hj'
        rw [List.getElem?_append_right (by omega), hl, Nat.sub_self] at hj
        simp only [List.getElem?_cons_zero, Option.some.injEq] at hj
        subst hj
        refine ⟨st1.scores, m3, fun k => ?_⟩
        rw [m1.scores k, m2]
    by_cases hs : (stopTest B st1).1 = true
    · rw [if_pos hs] at h
      cases h
      exact ⟨more, by rw [s2]; exact m1.saved, by rw [s4, m4]; exact hnew⟩
    · rw [if_neg hs] at h
      obtain ⟨more', n1, n2⟩ := boostLoop_losses hd hsame hdim r (i + 1) _ st' (fits ++ more) m2
        (by rw [s4, m4]; simp [hl]) m1.stop (by rw [s4, m4]; exact hnew) h
      exact ⟨more ++ more', by simpa using n1, by simpa using n2⟩

theorem boost_losses {B : Boost K α L} {y : DTable K L} (hd : 1 ≤ B.base.maxDepth)
    (hsame : SameData B y) {init : List Rat} (hdim : init.length = B.dim) {st : BoostState K}
    (h : boost B init y = .ok st) :
    ∃ fits : List (Fitted K), List.Forall₂ (fun F P => save F = .ok P) fits st.trees ∧
      ∀ (j : Nat) l, st.losses[j]? = some l → ∃ s : DTable K (List Rat), B.loss y s = .ok l ∧
        ∀ k, s.data.get? k = if k ∈ y.data.keys then
          some (scoreAfter init B.rate B.dim (weightIn fits k) ((j + 1) * B.dim)) else none := by
  unfold boost at h
  simp only [bind, Except.bind] at h
  split at h; · cases h
  rename_i scores h1
  obtain ⟨w1, w2⟩ := DTable.mapValues_inv h1
  obtain ⟨more, m1, m2⟩ := boostLoop_losses hd hsame hdim B.rounds 0 _ st [] (by simp) rfl
    ⟨.nil, w1, by
      intro k
      simp only [List.length_nil]
      rw [scoreAfter_zero, w2]
      by_cases hk : k ∈ y.data.keys
      · obtain ⟨l, hl⟩ := Dict.exists_get?_of_mem hk
        rw [if_pos hk, hl]; rfl
      · rw [if_neg hk, (Dict.get?_eq_none_iff _ _).mpr hk]; rfl, by simp⟩ (by simp) h
  exact ⟨more, by simpa using m1, by simpa using m2⟩

theorem hostRounds_late (flags : List Bool) : ∀ r, hostRounds false r flags = .ok (r, flags)
  | 0 => rfl
  | r + 1 => by
    unfold hostRounds
    simp only [Bool.false_eq_true, if_false, bind, Except.bind, hostRounds_late flags r]
    rfl

theorem hostRounds_all : ∀ r, hostRounds true r (List.replicate r false) = .ok (r, [])
  | 0 => rfl
  | r + 1 => by
    unfold hostRounds
    rw [List.replicate_succ]
    simp only [if_true, bind, Except.bind, hostRounds_all r]
    rfl

theorem hostRounds_stop : ∀ n r, n < r →
    hostRounds true r (List.replicate n false ++ [true]) = .ok (n + 1, [])
  | 0, 0, h => by omega
  | 0, r + 1, _ => rfl
  | n + 1, 0, h => by omega
  | n + 1, r + 1, h => by
    unfold hostRounds
    rw [List.replicate_succ]
    simp only [if_true, bind, Except.bind, List.cons_append, hostRounds_stop n r (by omega)]
    rfl

end DTree
end Verif
