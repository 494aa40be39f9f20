import Verif.Model.Transport

set_option autoImplicit false

namespace Verif
namespace Transport

theorem digitsValue_append (acc : Nat) (xs ys : List Nat) :
    digitsValue acc (xs ++ ys) = (digitsValue acc xs).bind fun a => digitsValue a ys := by
  induction xs generalizing acc with
  | nil => rfl
  | cons x xs ih =>
    simp only [List.cons_append, digitsValue]
    split
    · exact ih _
    · rfl

theorem digitsValue_decAux (f n : Nat) (h : n ≤ f) :
    digitsValue 0 ((decAux f n).map ascii) = some n := by
  induction f generalizing n with
  | zero =>
    have : n = 0 := by omega
    subst this; rfl
  | succ f ih =>
    unfold decAux
    split
    · rename_i hlt
      simp only [List.map_cons, List.map_nil, digitsValue, ascii]
      rw [if_pos (by omega)]
      simp
    · rename_i hge
      rw [List.map_append, digitsValue_append, ih (n / 10) (by omega)]
      simp only [Option.bind, List.map_cons, List.map_nil, digitsValue, ascii]
      rw [if_pos (by omega)]
      simp; omega

theorem decAux_mem (f n : Nat) : ∀ d ∈ decAux f n, d < 10 := by
  induction f generalizing n with
  | zero => intro d hd; simp [decAux] at hd; omega
  | succ f ih =>
    intro d hd
    unfold decAux at hd
    split at hd
    · simp at hd; omega
    · simp at hd
      rcases hd with h | h
      · exact ih _ d h
      · omega

theorem decAux_ne_nil (f n : Nat) : decAux f n ≠ [] := by
  cases f with
  | zero => simp [decAux]
  | succ f => unfold decAux; split <;> simp

theorem decAux_length (f n k : Nat) (hk : 1 ≤ k) (h : n < 10 ^ k) : (decAux f n).length ≤ k := by
  induction f generalizing n k with
  | zero => simpa [decAux] using hk
  | succ f ih =>
    unfold decAux
    split
    · simpa using hk
    · rename_i hge
      cases k with
      | zero => omega
      | succ k =>
        have hk1 : 1 ≤ k := by
          cases k with
          | zero => simp at h; omega
          | succ k => omega
        have : n / 10 < 10 ^ k := by
          rw [Nat.div_lt_iff_lt_mul (by omega)]
          rw [Nat.pow_succ] at h; omega
        simpa using ih (n / 10) k hk1 this

theorem dropWhile_space_replicate (k : Nat) (l : List Byte) :
    (List.replicate k 32 ++ l).dropWhile isSpace = l.dropWhile isSpace := by
  induction k with
  | zero => rfl
  | succ k ih => simpa [List.replicate_succ, isSpace] using ih

theorem dropWhile_not_space (l : List Byte) (h : ∀ b ∈ l, isSpace b = false) :
    l.dropWhile isSpace = l := by
  cases l with
  | nil => rfl
  | cons b l => simp [h b (by simp)]

theorem strip_header (ds : List Byte) (k : Nat) (h : ∀ b ∈ ds, isSpace b = false) (hne : ds ≠ []) :
    strip (ds ++ List.replicate k 32) = ds := by
  unfold strip
  have h1 : (ds ++ List.replicate k 32).dropWhile isSpace = ds ++ List.replicate k 32 := by
    cases ds with
    | nil => exact absurd rfl hne
    | cons b l => simp [h b (by simp)]
  rw [h1, List.reverse_append, List.reverse_replicate, dropWhile_space_replicate,
    dropWhile_not_space, List.reverse_reverse]
  intro b hb
  exact h b (by simpa using hb)

theorem header_length (n : Nat) (h : n < 10 ^ 16) : (header n).length = 16 := by
  unfold header
  have : (dec n).length ≤ 16 := decAux_length n n 16 (by omega) h
  simp only [List.length_append, List.length_map, List.length_replicate]
  omega

theorem parseInt_header (n : Nat) (h : n < 10 ^ 16) : parseInt (header n) = .ok n := by
  unfold parseInt
  rw [List.take_of_length_le (by rw [header_length n h]; exact Nat.le_refl _)]
  unfold header
  simp only
  have hm : ∀ b ∈ (dec n).map ascii, isSpace b = false := by
    intro b hb
    obtain ⟨d, hd, rfl⟩ := List.mem_map.mp hb
    have := decAux_mem n n d hd
    have h1 : ¬ (48 + d = 32) := by omega
    have h2 : ¬ (48 + d ≤ 13) := by omega
    simp [isSpace, ascii, h1, h2]
  have hne : (dec n).map ascii ≠ [] := by
    simpa [dec] using decAux_ne_nil n n
  rw [strip_header _ _ hm hne]
  have hv : digitsValue 0 ((dec n).map ascii) = some n := digitsValue_decAux n n (Nat.le_refl _)
  cases hl : (dec n).map ascii with
  | nil => exact absurd hl hne
  | cons b bs => rw [hl] at hv; simp [hv]

/-- The body loop returns exactly the next `length` bytes, whatever the schedule. -/
theorem bodyLoop_ok (σ : Nat → Nat) (length fuel i : Nat) (full tail rest : List Byte)
    (hlen : full.length + tail.length = length) (hfuel : tail.length ≤ fuel) :
    bodyLoop σ length fuel i full (tail ++ rest) = .ok (full ++ tail) rest := by
  induction fuel generalizing i full tail with
  | zero =>
    have : tail = [] := by
      cases tail with
      | nil => rfl
      | cons _ _ => simp at hfuel
    subst this
    unfold bodyLoop
    simp at hlen
    simp [hlen]
  | succ fuel ih =>
    unfold bodyLoop
    by_cases hlt : full.length < length
    · rw [if_pos hlt]
      have hne : tail ≠ [] := by
        intro h; subst h; simp at hlen; omega
      have htl : 1 ≤ tail.length := by
        cases tail with
        | nil => exact absurd rfl hne
        | cons _ _ => simp
      have hnil : ¬ (tail ++ rest = []) := by simp [hne]
      simp only [hnil, if_false]
      have hj : min (max 1 (σ i)) (length - full.length) ≤ tail.length := by omega
      have hj1 : 1 ≤ min (max 1 (σ i)) (length - full.length) := by omega
      simp only [recv]
      rw [List.take_append_of_le_length hj, List.drop_append_of_le_length hj, ih]
      · simp
      · simp; omega
      · simp; omega
    · rw [if_neg hlt]
      have : tail = [] := by
        cases tail with
        | nil => rfl
        | cons _ _ => simp at hlen; omega
      subst this; simp

/-- If fewer than `length` bytes are left the body loop never returns. -/
theorem bodyLoop_short (σ : Nat → Nat) (length fuel i : Nat) (full s : List Byte)
    (hshort : full.length + s.length < length) :
    bodyLoop σ length fuel i full s = .hang := by
  induction fuel generalizing i full s with
  | zero => unfold bodyLoop; rw [if_pos (by omega)]
  | succ fuel ih =>
    unfold bodyLoop
    rw [if_pos (by omega)]
    by_cases hs : s = []
    · simp [hs]
    · simp only [hs, if_false]
      apply ih
      simp only [recv, List.length_append, List.length_take, List.length_drop]
      omega

end Transport
end Verif
