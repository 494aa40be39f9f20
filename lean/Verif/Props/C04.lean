import Verif.Lemmas.Transport

/-!
# C04 – messages survive every segmentation of the byte stream

Full statement wanted: for *every* schedule of partial reads.  The code reads the
16-byte header with one `recv(16)` call and does not loop, so the statement is
false for schedules that cut a header (`C04_short_header_refuted`); it is proved for
every schedule in which the header arrives in one piece (`…_partial`), the body being
cut arbitrarily.
-/

set_option autoImplicit false

namespace Verif
open Transport

/-- Round trip of any sequence of messages, for every way the network cuts the bodies,
provided each header read yields its 16 bytes (missing: shorter header reads). -/
theorem C04_roundtrip_partial {M : Type*} (dumps : M → List Byte) (loads : List Byte → M)
    (hpickle : ∀ m, loads (dumps m) = m) (ms : List M)
    (hsize : ∀ m ∈ ms, (dumps m).length < 10 ^ 16)
    (scheds : List (Nat × (Nat → Nat))) (hcount : scheds.length = ms.length)
    (hhdr : ∀ p ∈ scheds, 16 ≤ p.1) (rest : List Byte) :
    recvMany loads scheds (sendMany dumps ms ++ rest) = .ok ms rest := by
  induction ms generalizing scheds with
  | nil =>
    have : scheds = [] := by cases scheds with
      | nil => rfl
      | cons _ _ => simp at hcount
    subst this; rfl
  | cons m ms ih =>
    cases scheds with
    | nil => simp at hcount
    | cons p scheds =>
      obtain ⟨c, σ⟩ := p
      have hc : 16 ≤ c := hhdr (c, σ) (by simp)
      have hsz := hsize m (by simp)
      have hl := header_length (dumps m).length hsz
      have hs : sendMany dumps (m :: ms) ++ rest =
          header (dumps m).length ++ (dumps m ++ (sendMany dumps ms ++ rest)) := by
        simp [sendMany, frame]
      rw [hs]
      have hne : ¬ (header (dumps m).length ++ (dumps m ++ (sendMany dumps ms ++ rest)) = []) := by
        intro h
        have := congrArg List.length h
        simp [hl] at this
      have hmin : min (max 1 c) 16 = 16 := by omega
      have h1 : recv c 16 (header (dumps m).length ++ (dumps m ++ (sendMany dumps ms ++ rest))) =
          (header (dumps m).length, dumps m ++ (sendMany dumps ms ++ rest)) := by
        unfold recv
        rw [hmin]
        congr 1
        · rw [← hl]; simp
        · rw [← hl]; simp
      have hb := bodyLoop_ok σ (dumps m).length (dumps m).length 0 [] (dumps m)
        (sendMany dumps ms ++ rest) (by simp) (Nat.le_refl _)
      have hr : recvData loads c σ
          (header (dumps m).length ++ (dumps m ++ (sendMany dumps ms ++ rest))) =
          .ok m (sendMany dumps ms ++ rest) := by
        unfold recvData
        rw [if_neg hne, h1]
        simp only [parseInt_header _ hsz, hb]
        simp [hpickle]
      simp only [recvMany, hr]
      rw [ih (fun m hm => hsize m (by simp [hm])) scheds (by simpa using hcount)
        (fun p hp => hhdr p (by simp [hp]))]

/-- Non-vacuity: two messages, bodies delivered one byte at a time. -/
example : recvMany (M := List Byte) id [(16, fun _ => 1), (16, fun _ => 2)]
    (sendMany id [[7, 8, 9], [1]]) = .ok [[7, 8, 9], [1]] [] := by decide

/-- Refutation of the full claim: if the network delivers only the first byte of the
header (allowed for a stream socket), a 12-byte message is received as the single
byte that followed it in the header – a different message, without any error. -/
theorem C04_short_header_refuted :
    ∃ (c : Nat) (σ : Nat → Nat) (body : List Byte), body.length < 10 ^ 16 ∧
      ∃ m rest, recvData (M := List Byte) id c σ (frame body) = .ok m rest ∧ m ≠ body :=
  ⟨1, fun _ => 100, List.replicate 12 5, by decide, [50],
    List.replicate 14 32 ++ List.replicate 12 5, by decide, by decide⟩

/-- A stream that ends (`cut`) before the announced length never yields a message: the
receiver keeps waiting (in the code: loops) and in particular never returns a
truncated message – for every schedule. -/
theorem C04_truncated_never_returned {M : Type*} (loads : List Byte → M) (body cut : List Byte)
    (hsz : body.length < 10 ^ 16) (hlt : cut.length < body.length)
    (c : Nat) (hc : 16 ≤ c) (σ : Nat → Nat) :
    recvData loads c σ (header body.length ++ cut) = .hang := by
  have hl := header_length body.length hsz
  have hne : ¬ (header body.length ++ cut = []) := by
    intro h
    have := congrArg List.length h
    simp [hl] at this
  have hmin : min (max 1 c) 16 = 16 := by omega
  have h1 : recv c 16 (header body.length ++ cut) = (header body.length, cut) := by
    unfold recv
    rw [hmin]
    congr 1
    · rw [← hl]; simp
    · rw [← hl]; simp
  unfold recvData
  rw [if_neg hne, h1]
  simp only [parseInt_header _ hsz]
  rw [bodyLoop_short]
  simpa using hlt

example : recvData (M := List Byte) id 16 (fun _ => 5) (header 3 ++ [1, 2]) = .hang := by decide

/-- Messages of 10^16 bytes or more would overflow the fixed-width header: the
receiver then decodes a tenth of the length. -/
theorem C04_header_width (n : Nat) (h : 10 ^ 16 ≤ n) (h' : n < 10 ^ 17) :
    (header n).length = 17 := by
  have hlen : (dec n).length ≤ 17 := decAux_length n n 17 (by omega) h'
  have hge : 17 ≤ (dec n).length := by
    have key : ∀ (f n k : Nat), n ≤ f → 10 ^ k ≤ n → k + 1 ≤ (decAux f n).length := by
      intro f
      induction f with
      | zero => intro n k h1 h2; have : 0 < 10 ^ k := Nat.pow_pos (by omega); omega
      | succ f ih =>
        intro n k h1 h2
        cases k with
        | zero => unfold decAux; split <;> simp
        | succ k =>
          have hp : 0 < 10 ^ k := Nat.pow_pos (by omega)
          have h10 : ¬ n < 10 := by rw [Nat.pow_succ] at h2; omega
          unfold decAux
          rw [if_neg h10]
          have := ih (n / 10) k (by omega) (by rw [Nat.le_div_iff_mul_le (by omega)]; rw [Nat.pow_succ] at h2; exact h2)
          simp; omega
    exact key n n 16 (Nat.le_refl _) h
  unfold header
  simp; omega

end Verif
