import Verif.Lemmas.Save
import Verif.Props.C27
import Verif.Props.C29

/-!
# C36: a saved and reloaded model predicts the same
-/

set_option autoImplicit false

namespace Verif

open DTree Spec

variable {K : Type} [DecidableEq K] {α : Type}

/-- **Saving loses nothing prediction needs.**  If every party saves its part of a usable tree and
loads it again, prediction has the same outcome on all rows: the same table, or the same
exception. -/
theorem C36_reload (S : Setup K α) (F : Fitted K) (hu : UsableTree S F) (P : Saved)
    (hs : save F = .ok P) (guest : DTable K (List Rat)) (hosts : List (DTable K (List Rat)))
    (fuel : Nat) :
    predictRows S (load P) guest hosts fuel = predictRows S F guest hosts fuel := by
  unfold predictRows
  rw [save_load hs]
  simp only [predictTree_norm (walkable hu)]

/-- A trained tree of depth at most 31 can be saved (identifiers are 32-bit numbers), and the
result predicts the same. -/
theorem C36_trained (S : Setup K α) (hd : 1 ≤ S.maxDepth) (hd' : S.maxDepth ≤ 31)
    (hidx : (S.hosts.map Party.idx).Nodup)
    (hf : ∀ j P, partyAt S j = some P → P.splits.length ≤ 2 ^ 31) (F : Fitted K)
    (h : fit S = .ok F) :
    ∃ P, save F = .ok P ∧ ∀ (guest : DTable K (List Rat)) (hosts : List (DTable K (List Rat))) fuel,
      predictRows S (load P) guest hosts fuel = predictRows S F guest hosts fuel := by
  have hu := C29_trained_usable S hd hidx F h
  have hsize := C27_size S hd F h
  have hpow : 2 ^ S.maxDepth ≤ 2 ^ 31 := Nat.pow_le_pow_right (by omega) hd'
  have h31 : (2 : Nat) ^ 31 = 2147483648 := by norm_num
  rw [h31] at hpow
  obtain ⟨m1, m2⟩ := fit_maskKeys hd h
  obtain ⟨P, hP⟩ := save_ok hu (by omega) (by
    intro n hn f hnf
    obtain ⟨i, hi⟩ := List.mem_iff_getElem?.mp hn
    rcases C26_decided S hd F h i n hi with ⟨hl, _⟩ | ⟨j, P, f', sp, t, p1, p2, _, n', P', d, q1, q2, q3, _⟩
    · rw [(fit_leafSites h n hn hl).2] at hnf; cases hnf
    · rw [hi, Option.some.injEq] at q1
      subst q1
      rw [hnf, Option.some.injEq] at q3
      have hlt := (List.getElem?_eq_some_iff.mp p2).1
      have := hf j P p1
      rw [h31] at this
      omega) m1 m2
  exact ⟨P, hP, fun guest hosts fuel => C36_reload S F hu P hP guest hosts fuel⟩

/-- Without the tree being usable the claim fails: an inner node without a feature
number is read differently after a reload, because the missing number becomes 0. -/
example : ∃ (S : Setup Nat Rat) (F : Fitted Nat) (P : Saved) (guest : DTable Nat (List Rat))
    (hosts : List (DTable Nat (List Rat))) (fuel : Nat), save F = .ok P ∧
    predictRows S (load P) guest hosts fuel ≠ predictRows S F guest hosts fuel := by
  refine ⟨DemoRaw.setup,
    ⟨[⟨0, .guest, none, none, 0, false, 0, 0, some 1, some 2⟩, ⟨1, .guest, none, none, 1, true, 0, 0, none, none⟩,
      ⟨2, .guest, none, none, 2, true, 0, 0, none, none⟩], [(0, 1)], [[], []], none, []⟩,
    ⟨[⟨0, .guest, 0, 0, 0, false, 1, 2⟩, ⟨1, .guest, 0, 0, 1, true, -1, -1⟩, ⟨2, .guest, 0, 0, 2, true, -1, -1⟩],
      [(0, 1)], [[], []]⟩,
    ⟨[(0, [5])]⟩, [⟨[(0, [])]⟩, ⟨[(0, [])]⟩], 5, by decide +kernel, by decide +kernel⟩

/-- The tree of `DemoRaw` can be saved; it predicts the same after loading. -/
example : ∃ P, save DemoRaw.fitted = .ok P ∧ P.nodes.length = 7 ∧
    predictRows DemoRaw.setup (load P) (DemoRaw.rows none) (hostRows DemoRaw.setup DemoRaw.rows) 7 =
      .ok ⟨[(0, -20 / 21), (1, 160 / 21), (2, 20 / 11), (3, -50 / 11), (4, 160 / 21), (5, -20 / 21)]⟩ := by
  have e : ∃ P, save DemoRaw.fitted = .ok P := by
    cases h : save DemoRaw.fitted with
    | ok P => exact ⟨P, rfl⟩
    | error e =>
      exfalso
      have : (match save DemoRaw.fitted with | .ok _ => true | .error _ => false) = true := by decide +kernel
      rw [h] at this; cases this
  obtain ⟨P, hP⟩ := e
  refine ⟨P, hP, ?_, ?_⟩
  · have : (match save DemoRaw.fitted with | .ok P => P.nodes.length | .error _ => 0) = 7 := by decide +kernel
    rw [hP] at this; exact this
  · rw [C36_reload _ _ (C29_trained_usable _ (by decide) (by decide +kernel) _ DemoRaw.fit_ok) P hP]
    decide +kernel

end Verif
