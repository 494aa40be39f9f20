import Verif.Lemmas.Transport
import Verif.Model.Closing
import Mathlib.Tactic.Set

/-! # Messages cut short by the end of a connection -/

set_option autoImplicit false

namespace Verif
namespace Transport

theorem bodyLoopClosed_short (σ : Nat → Nat) (length : Nat) : ∀ (fuel i : Nat) (full s : List Byte),
    full.length + s.length < length → bodyLoopClosed σ length fuel i full s = .hang
  | 0, i, full, s, h => by unfold bodyLoopClosed; rw [if_pos (by omega)]
  | fuel + 1, i, full, s, h => by
    unfold bodyLoopClosed
    rw [if_pos (by omega)]
    refine bodyLoopClosed_short σ length fuel (i + 1) _ _ ?_
    simp only [recv, List.length_append, List.length_take, List.length_drop]
    omega

theorem bodyLoopClosed_ok (σ : Nat → Nat) (length : Nat) : ∀ (fuel i : Nat) (full tail rest : List Byte),
    full.length + tail.length = length → tail.length ≤ fuel →
      bodyLoopClosed σ length fuel i full (tail ++ rest) = .ok (full ++ tail) rest
  | 0, i, full, tail, rest, h, hf => by
    have : tail = [] := List.length_eq_zero_iff.mp (by omega)
    subst this
    unfold bodyLoopClosed
    rw [if_neg (by simp at h; omega)]
    simp
  | fuel + 1, i, full, tail, rest, h, hf => by
    unfold bodyLoopClosed
    by_cases ht : tail = []
    · subst ht
      rw [if_neg (by simp at h; omega)]
      simp
    · have hp : 0 < tail.length := List.length_pos_iff.mpr ht
      rw [if_pos (by omega)]
      set n := min (max 1 (σ i)) (length - full.length) with hn
      have hle : n ≤ tail.length := by omega
      have e1 : (tail ++ rest).take n = tail.take n := List.take_append_of_le_length hle
      have e2 : (tail ++ rest).drop n = tail.drop n ++ rest := List.drop_append_of_le_length hle
      simp only [recv]
      rw [← hn, e1, e2, bodyLoopClosed_ok σ length fuel (i + 1) (full ++ tail.take n) (tail.drop n) rest
        (by simp only [List.length_append, List.length_take, List.length_drop]; omega)
        (by simp only [List.length_drop]; omega), List.append_assoc, List.take_append_drop]

theorem decAux_head (f n : Nat) (h : 0 < n) (hf : n ≤ f) : ∃ d ds, decAux f n = d :: ds ∧ 0 < d := by
  induction f generalizing n with
  | zero => omega
  | succ f ih =>
    unfold decAux
    split
    · exact ⟨n, [], rfl, h⟩
    · obtain ⟨d, ds, h1, h2⟩ := ih (n / 10) (by omega) (by omega)
      exact ⟨d, ds ++ [n % 10], by rw [h1]; rfl, h2⟩

theorem digitsValue_pos (ds : List Nat) (h : ∀ d ∈ ds, d < 10) : ∀ acc, 0 < acc →
    ∃ v, digitsValue acc (ds.map ascii) = some v ∧ 0 < v := by
  induction ds with
  | nil => intro acc ha; exact ⟨acc, rfl, ha⟩
  | cons d ds ih =>
    intro acc ha
    have hd := h d (by simp)
    simp only [List.map_cons, digitsValue, ascii]
    rw [if_pos (by omega)]
    exact ih (fun d hd => h d (List.mem_cons_of_mem _ hd)) _ (by omega)

/-- A piece of a header is read as a positive number. -/
theorem parseInt_piece (n k : Nat) (hn : 0 < n) (hk : 0 < k) (hk' : k ≤ 16) :
    ∃ v, parseInt ((header n).take k) = .ok v ∧ 0 < v := by
  have hmem := decAux_mem n n
  obtain ⟨d, ds, h1, h2⟩ := decAux_head n n hn (Nat.le_refl _)
  obtain ⟨k, rfl⟩ : ∃ k', k = k' + 1 := ⟨k - 1, by omega⟩
  rw [h1] at hmem
  have hsp : ∀ l : List Nat, (∀ x ∈ l, x < 10) → ∀ b ∈ l.map ascii, isSpace b = false := by
    intro l hl b hb
    obtain ⟨x, hx, rfl⟩ := List.mem_map.mp hb
    have := hl x hx
    have h1 : ¬ (48 + x = 32) := by omega
    have h2 : ¬ (48 + x ≤ 13) := by omega
    simp [isSpace, ascii, h1, h2]
  have hpre : ∀ x ∈ d :: ds.take k, x < 10 := by
    intro x hx
    rcases List.mem_cons.mp hx with rfl | hx
    · exact hmem _ (by simp)
    · exact hmem x (List.mem_cons_of_mem _ (List.mem_of_mem_take hx))
  have htake : (header n).take (k + 1) = (d :: ds.take k).map ascii ++
      List.replicate (min (k - ds.length) (16 - (ds.length + 1))) 32 := by
    unfold header dec
    simp only [h1, List.map_cons, List.cons_append, List.take_succ_cons, List.length_cons, List.length_map]
    rw [List.take_append, List.length_map, List.take_replicate, List.map_take]
  unfold parseInt
  rw [List.take_take, show min 16 (k + 1) = k + 1 by omega, htake,
    strip_header _ _ (hsp _ hpre) (by simp)]
  obtain ⟨v, hv, hp⟩ := digitsValue_pos (ds.take k) (fun x hx => hpre x (List.mem_cons_of_mem _ hx)) d h2
  have hd : d < 10 := hpre d (by simp)
  refine ⟨v, ?_, hp⟩
  have : digitsValue 0 ((d :: ds.take k).map ascii) = some v := by
    simp only [List.map_cons, digitsValue, ascii]
    rw [if_pos (by omega)]
    simpa [ascii] using hv
  rw [List.map_cons] at this ⊢
  simp only [this]

end Transport
end Verif
