import Verif.Lemmas.C15
import Mathlib.Tactic.NormNum

/-!
# C15 – incremental encryption decrypts to the current data

The claim is proved for histories whose tables only contain records of the preceding table
(`Nested`), which is how the training loop uses the calculator (the gradients of the same
instances, round after round); for `strict` mode no such hypothesis is needed.  Without it
the claim is false (`C15_new_record_refuted`): in `fast` mode a record that was not in the
previous table is silently dropped.
-/

set_option autoImplicit false

namespace Verif
open EncryptMode Spec
variable {K C : Type} [DecidableEq K]

private theorem run_aux {dec : C → Rat} {ε₀ ε₁ ε₂ : Rat} (sub : Rat → Rat → Rat) (addS : Rat → C → C)
    (calls : List (Call K C)) (hacc : Accurate dec sub addS calls ε₀ ε₁ ε₂)
    (hwf : ∀ c ∈ calls, c.input.WF) (δ : Rat) (hδ : ε₀ ≤ δ) (hε : 0 ≤ ε₁ + ε₂)
    (s : State K C) (hs : EncryptMode.Inv dec δ s)
    (hnest : s.mode ≠ .strict → Nested calls)
    (hfirst : s.mode ≠ .strict → ∀ d e, s.prev = some (d, e) → ∀ c ∈ calls.head?, SameShape c.input d) :
    ∃ outs, runAll sub addS s calls = .ok outs ∧ outs.length = calls.length ∧
      ∀ (j : Nat) (o : DTable K (List C)) (c : Call K C), outs[j]? = some o → calls[j]? = some c →
        DecryptsTo dec (if s.mode = .strict then ε₀ else
          if s.prev = none then δ + j * (ε₁ + ε₂) else δ + (j + 1) * (ε₁ + ε₂)) o c.input := by
  induction calls generalizing s δ with
  | nil => exact ⟨[], rfl, rfl, by intro j o c h; simp at h⟩
  | cons c cs ih =>
    obtain ⟨out, s', hstep, hd, howf, hmode, hrate, hprev⟩ :=
      step_ok sub addS hacc.addS hacc.sub c.enc (hacc.enc c (by simp)) c.draw s hs c.input
        (hwf c (by simp)) (fun d e hp hm => hfirst hm d e hp c (by simp)) (by linarith)
    have hacc' : Accurate dec sub addS cs ε₀ ε₁ ε₂ :=
      ⟨fun c' h => hacc.enc c' (by simp [h]), hacc.addS, hacc.sub⟩
    let δ' := if s.prev = none then δ else δ + (ε₁ + ε₂)
    have hδ' : ε₀ ≤ δ' := by simp only [δ']; split <;> linarith
    have hs' : EncryptMode.Inv dec δ' s' := by
      unfold EncryptMode.Inv
      rw [hprev]
      refine ⟨hwf c (by simp), howf, ?_⟩
      refine EncryptMode.DecryptsTo.mono ?_ hd
      simp only [δ']
      split
      · split <;> linarith
      · rename_i h; rw [not_or] at h; rw [if_neg h.2]
    obtain ⟨outs, hrun, hlen, hall⟩ := ih hacc' (fun c' h => hwf c' (by simp [h])) δ' hδ' s' hs'
      (by
        rw [hmode]; intro hm
        have := hnest hm
        cases cs with
        | nil => trivial
        | cons b cs' => exact this.2)
      (by
        rw [hmode, hprev]
        intro hm d e hde b hb
        cases hde
        have := hnest hm
        cases cs with
        | nil => simp at hb
        | cons b' cs' =>
          simp only [List.head?_cons, Option.mem_def, Option.some.injEq] at hb
          subst hb
          exact this.1)
    refine ⟨out :: outs, ?_, by simp [hlen], ?_⟩
    · simp [runAll, hstep, hrun, bind, Except.bind]
    · intro j o c' ho hc'
      cases j with
      | zero =>
        simp only [List.getElem?_cons_zero, Option.some.injEq] at ho hc'
        subst ho; subst hc'
        refine EncryptMode.DecryptsTo.mono ?_ hd
        by_cases h1 : s.mode = .strict
        · simp [h1]
        · by_cases h2 : s.prev = none
          · simp [h1, h2]; exact hδ
          · simp [h1, h2]
      | succ j =>
        simp only [List.getElem?_cons_succ] at ho hc'
        have := hall j o c' ho hc'
        refine EncryptMode.DecryptsTo.mono ?_ this
        rw [hmode, hprev]
        by_cases h1 : s.mode = .strict
        · simp [h1]
        · by_cases h2 : s.prev = none
          · simp [h1, h2, δ']
          · simp only [h1, h2, δ', if_false]
            push_cast
            linarith

/-- **Strict mode**: every table of every history, whatever its records, decrypts to the
table just passed in, within the accuracy of a single encryption. -/
theorem C15_strict {dec : C → Rat} {ε₀ ε₁ ε₂ : Rat} (sub : Rat → Rat → Rat) (addS : Rat → C → C)
    (calls : List (Call K C)) (hacc : Accurate dec sub addS calls ε₀ ε₁ ε₂)
    (hwf : ∀ c ∈ calls, c.input.WF) (hε : 0 ≤ ε₁ + ε₂) (rate : Rat) :
    ∃ outs, runAll sub addS (.init .strict rate) calls = .ok outs ∧ outs.length = calls.length ∧
      ∀ (j : Nat) (o : DTable K (List C)) (c : Call K C), outs[j]? = some o → calls[j]? = some c →
        DecryptsTo dec ε₀ o c.input := by
  obtain ⟨outs, h1, h2, h3⟩ := run_aux sub addS calls hacc hwf ε₀ (le_refl _) hε
    (.init .strict rate) (by simp [EncryptMode.Inv, State.init]) (by simp [State.init]) (by simp [State.init])
  refine ⟨outs, h1, h2, fun j o c ho hc => ?_⟩
  simpa [State.init] using h3 j o c ho hc

/-- **Any mode, any rate, any random draws** (partial: nested histories): the `j`-th table
returned decrypts to the `j`-th table passed in, within `ε₀ + j (ε₁ + ε₂)` – the rounding
of incremental updates accumulates linearly. -/
theorem C15_incremental_partial {dec : C → Rat} {ε₀ ε₁ ε₂ : Rat} (sub : Rat → Rat → Rat)
    (addS : Rat → C → C) (calls : List (Call K C))
    (hacc : Accurate dec sub addS calls ε₀ ε₁ ε₂)
    (hwf : ∀ c ∈ calls, c.input.WF) (hε : 0 ≤ ε₁ + ε₂) (mode : Mode) (rate : Rat)
    (hnest : Nested calls) :
    ∃ outs, runAll sub addS (.init mode rate) calls = .ok outs ∧ outs.length = calls.length ∧
      ∀ (j : Nat) (o : DTable K (List C)) (c : Call K C), outs[j]? = some o → calls[j]? = some c →
        DecryptsTo dec (ε₀ + j * (ε₁ + ε₂)) o c.input := by
  obtain ⟨outs, h1, h2, h3⟩ := run_aux sub addS calls hacc hwf ε₀ (le_refl _) hε
    (.init mode rate) (by simp [EncryptMode.Inv, State.init]) (fun _ => hnest) (by simp [State.init])
  refine ⟨outs, h1, h2, fun j o c ho hc => ?_⟩
  refine EncryptMode.DecryptsTo.mono ?_ (h3 j o c ho hc)
  simp only [State.init]
  split
  · have : (0 : Rat) ≤ j * (ε₁ + ε₂) := mul_nonneg (by exact_mod_cast Nat.zero_le j) hε
    linarith
  · simp

/-- With exact arithmetic the decryption is exact. -/
theorem C15_exact_partial {dec : C → Rat} (addS : Rat → C → C)
    (calls : List (Call K C)) (henc : ∀ c ∈ calls, ∀ k i v, dec (c.enc k i v) = v)
    (hadd : ∀ d c, dec (addS d c) = d + dec c)
    (hwf : ∀ c ∈ calls, c.input.WF) (mode : Mode) (rate : Rat) (hnest : Nested calls) :
    ∃ outs, runAll (fun a b => a - b) addS (.init mode rate) calls = .ok outs ∧
      outs.length = calls.length ∧
      ∀ (j : Nat) (o : DTable K (List C)) (c : Call K C), outs[j]? = some o → calls[j]? = some c →
        DecryptsTo dec 0 o c.input := by
  have hacc : Accurate dec (fun a b => a - b) addS calls 0 0 0 :=
    ⟨fun c hc k i v => by rw [henc c hc]; simp, fun d c => by rw [hadd]; simp, fun a b => by simp⟩
  obtain ⟨outs, h1, h2, h3⟩ := C15_incremental_partial (fun a b => a - b) addS calls hacc hwf
    (by norm_num) mode rate hnest
  exact ⟨outs, h1, h2, fun j o c ho hc => by simpa using h3 j o c ho hc⟩

/-- The nested hypothesis is needed: in fast mode, a record that the previous table did not
hold is missing from the result. -/
theorem C15_new_record_refuted :
    ∃ outs, runAll (K := Nat) (C := Rat) (fun a b => a - b) (fun d c => d + c) (.init .fast 1)
        [⟨⟨[(0, [1])]⟩, fun _ _ v => v, 0⟩, ⟨⟨[(0, [2]), (1, [5])]⟩, fun _ _ v => v, 0⟩] = .ok outs ∧
      outs[1]?.map (fun o => o.data.get? 1) = some none :=
  ⟨[⟨[(0, [1])]⟩, ⟨[(0, [2])]⟩], by decide +kernel, by decide⟩

/-- A concrete nested history in balance mode: re-encrypted, updated, re-encrypted. -/
example : runAll (K := Nat) (C := Rat × Nat) (fun a b => a - b) (fun d c => (d + c.1, c.2 + 1))
    (.init .balance (1 / 2))
    [⟨⟨[(3, [1, 2]), (0, [4, 4])]⟩, fun _ _ v => (v, 0), 0⟩,
     ⟨⟨[(0, [5, 5]), (3, [7, 0])]⟩, fun _ _ v => (v, 0), 9 / 10⟩,
     ⟨⟨[(3, [1, 1])]⟩, fun _ _ v => (v, 0), 1 / 10⟩]
    = .ok [⟨[(3, [(1, 0), (2, 0)]), (0, [(4, 0), (4, 0)])]⟩,
           ⟨[(3, [(7, 1), (0, 1)]), (0, [(5, 1), (5, 1)])]⟩,
           ⟨[(3, [(1, 0), (1, 0)])]⟩] := by decide +kernel

end Verif
