import Verif.Examples.DemoRounded
import Verif.Examples.DemoNear
import Verif.Spec.C75

/-!
# The columns of `DemoRounded`, held by other parties

The guest has the column of the first host, one host has the other columns in another order, and the
samples are in the reverse order.
-/

set_option autoImplicit false

namespace Verif
namespace DemoMoved

open DTree Spec

def hostRows : DTable Nat (List Rat) :=
  ⟨[(2, [4, -1, 2]), (0, [4, -2, 0]), (1, [0, -1 / 2, 1]), (5, [1 / 10 ^ 7, -1, 0]), (3, [0, -2, 3]),
    (4, [0, 0, 5 / 2])]⟩

/-- The rows of the parties. -/
def rows : Option Nat → DTable Nat (List Rat)
  | none => DemoRaw.hostRows1
  | some _ => hostRows

def guest : Party Nat := DemoRaw.party 0 ["c"] DemoRaw.hostRows1
def host : Party Nat := DemoRaw.party 7 ["b", "d", "a"] hostRows

def setup (sk : Paillier.PrivKey) (rnd : Rat → Rat) (least : Int) (kind : ImpType) (batch : Nat) :
    Setup Nat Histogram.Num :=
  { DemoRounded.setup sk rnd least kind batch with
    guest := guest, hosts := [host], gh := ⟨Demo.gh.data.reverse⟩
    encGh := ⟨(DemoRounded.setup sk rnd least kind batch).encGh.data.reverse⟩ }

theorem sum_reverse {β : Type} (l : List β) (f : β → Rat) : (l.reverse.map f).sum = (l.map f).sum := by
  rw [List.map_reverse, List.sum_reverse]

theorem grad_range (sk : Paillier.PrivKey) (rnd : Rat → Rat) (least : Int) (kind : ImpType) (batch : Nat) :
    gradRange (setup sk rnd least kind batch) 4 (1 / 2 ^ 60) 0 =
      gradRange (DemoRounded.setup sk rnd least kind batch) 4 (1 / 2 ^ 60) 0 := by
  unfold gradRange
  rw [← sum_reverse (DemoRounded.setup sk rnd least kind batch).gh.data]
  rfl

theorem hess_range (sk : Paillier.PrivKey) (rnd : Rat → Rat) (least : Int) (kind : ImpType) (batch : Nat) :
    hessRange (setup sk rnd least kind batch) 4 (1 / 2 ^ 60) 0 =
      hessRange (DemoRounded.setup sk rnd least kind batch) 4 (1 / 2 ^ 60) 0 := by
  unfold hessRange
  rw [← sum_reverse (DemoRounded.setup sk rnd least kind batch).gh.data]
  rfl

theorem run {sk : Paillier.PrivKey} (hk : KeyPair (2 ^ 31 - 1) (2 ^ 61 - 1) sk)
    (hn : sk.pk.n = (2 ^ 31 - 1) * (2 ^ 61 - 1)) {rnd : Rat → Rat} (hrnd : RoundsWithin rnd 10000 (1 / 2 ^ 60))
    (least : Int) (kind : ImpType) (batch : Nat) :
    RoundedRun (2 ^ 31 - 1) (2 ^ 61 - 1) sk 12 13 (11 / 10) 0 0 4 10000 (1 / 2 ^ 60) (setup sk rnd least kind batch) := by
  have h := DemoRounded.run hk hn hrnd least kind batch
  have e1 : ∀ e, sumError (setup sk rnd least kind batch) 4 (1 / 2 ^ 60) e =
    sumError (DemoRounded.setup sk rnd least kind batch) 4 (1 / 2 ^ 60) e := fun _ => rfl
  have e2 := grad_range sk rnd least kind batch
  have e3 := hess_range sk rnd least kind batch
  have e4 : gainRange (setup sk rnd least kind batch) 4 (11 / 10) (1 / 2 ^ 60) 0 =
      gainRange (DemoRounded.setup sk rnd least kind batch) 4 (11 / 10) (1 / 2 ^ 60) 0 := by
    unfold gainRange; rw [e2]; rfl
  refine ⟨h.key, h.hi0, h.gap, h.big, h.cipher, h.arith, h.errors, ?_, ?_, ?_, h.eps, h.rounds,
    by show ∀ sp ∈ guest.splits, sp.length ≤ 4; decide +kernel, by rw [e1]; exact h.room, by rw [e2, e3]; exact h.sizes,
    by rw [e2]; exact h.weights, by rw [e2]; exact h.square, by rw [e4]; exact h.gains,
    by unfold roundedError; rw [e4]; exact h.accuracy⟩
  · obtain ⟨enc, h1, h2⟩ := h.enc
    refine ⟨⟨enc.data.reverse⟩, ?_, List.forall₂_reverse_iff.mpr h2⟩
    show (⟨(DemoRounded.setup sk rnd least kind batch).encGh.data.reverse⟩ : DTable _ _) = _
    rw [h1]
    simp only [Histogram.liftGh, List.map_reverse]
  · have := h.windowG
    rwa [← sum_reverse, ← List.length_reverse] at this
  · have := h.windowH
    rwa [← sum_reverse, ← List.length_reverse] at this

theorem parties {sk : Paillier.PrivKey} {rnd : Rat → Rat} {least : Int} {kind : ImpType} {batch : Nat}
    {Q : Option Nat → Party Nat → Prop} (h0 : Q none guest) (h1 : Q (some 0) host) :
    ∀ j P, partyAt (setup sk rnd least kind batch) j = some P → Q j P := by
  intro j P hP
  match j with
  | none => cases hP; exact h0
  | some 0 => cases hP; exact h1
  | some (j + 1) => simp [partyAt, setup] at hP

theorem raw (sk : Paillier.PrivKey) (rnd : Rat → Rat) (least : Int) (kind : ImpType) (batch : Nat) :
    RawRun (setup sk rnd least kind batch) rows := by
  have hwidth : ∀ (t : DTable Nat (List Rat)) (n : Nat), (∀ p ∈ t.data, p.2.length = n) →
      ∀ k row, t.data.get? k = some row → row.length = n :=
    fun t n h k row hk => h (k, row) (Dict.get?_mem hk)
  have hk0 : (setup sk rnd least kind batch).gh.data.keys = [5, 4, 3, 2, 1, 0] := by
    show Dict.keys Demo.gh.data.reverse = _
    decide
  refine ⟨parties ⟨?_, ?_, ?_⟩ ⟨?_, ?_, ?_⟩, ?_, ?_⟩
  · exact ⟨DemoRaw.qcfg, 4, ["c"], by decide +kernel, rfl, by decide, by decide, by unfold DTable.WF Dict.WF; decide,
      by decide, hwidth _ 1 (by decide +kernel), by decide +kernel⟩
  · decide +kernel
  · intro k
    have h1 : (rows none).data.keys = [5, 4, 3, 2, 1, 0] := by decide
    rw [h1, hk0]
  · exact ⟨DemoRaw.qcfg, 4, ["b", "d", "a"], by decide +kernel, rfl, by decide, by decide,
      by unfold DTable.WF Dict.WF; decide, by decide, hwidth _ 3 (by decide +kernel), by decide +kernel⟩
  · decide +kernel
  · intro k
    have h1 : (rows (some 0)).data.keys = [2, 0, 1, 5, 3, 4] := by decide
    rw [h1, hk0]; simp; omega
  · show ([host].map Party.idx).Nodup
    decide +kernel
  · show Dict.WF Demo.gh.data.reverse
    unfold Dict.WF; decide

theorem usual (sk : Paillier.PrivKey) (rnd : Rat → Rat) (least : Int) {kind : ImpType} {batch : Nat}
    (hk : kind ≠ .other) (hb : batch ≠ 0) : Usual (setup sk rnd least kind batch) (11 / 10) := by
  have h := DemoRounded.usual sk rnd least hk hb
  exact ⟨h.depth, hb, hk, by show [host] ≠ []; simp, h.leaf, h.lam, h.hess.1,
    fun x hx => h.hess.2 x (List.mem_reverse.mp hx)⟩

theorem increasing (sk : Paillier.PrivKey) (rnd : Rat → Rat) (least : Int) (kind : ImpType) (batch : Nat) :
    ∀ j P, partyAt (setup sk rnd least kind batch) j = some P → ∀ sp ∈ P.splits, sp.Pairwise (· < ·) :=
  parties (by decide +kernel) (by decide +kernel)

/-- A check of `SameColumn` on concrete tables. -/
theorem same_of_check {keys : List Nat} {P P' : Party Nat} {t t' : DTable Nat (List Rat)} {f f' : Nat}
    (h1 : P'.splits[f']? = P.splits[f]?) (h2 : P'.valid[f']? = P.valid[f]?)
    (h3 : ∀ k ∈ keys, value ((t'.data.get? k).getD []) f' = value ((t.data.get? k).getD []) f) :
    SameColumn keys P t f P' t' f' := by
  refine ⟨h1, h2, fun k hk row row' e e' => ?_⟩
  have := h3 k hk
  rw [e, e'] at this
  exact this

/-- Both runs have the same columns. -/
theorem moved (sk sk' : Paillier.PrivKey) (rnd rnd' : Rat → Rat) (least : Int) (kind kind' : ImpType) (batch batch' : Nat) :
    Redistributed (DemoRounded.setup sk rnd least kind batch) DemoRaw.rows (setup sk' rnd' least kind' batch') rows := by
  have hk : (DemoRounded.setup sk rnd least kind batch).gh.data.keys = [0, 1, 2, 3, 4, 5] := by
    show Demo.gh.data.keys = _
    decide
  have hk' : (setup sk' rnd' least kind' batch').gh.data.keys = [5, 4, 3, 2, 1, 0] := by
    show Dict.keys Demo.gh.data.reverse = _
    decide
  refine ⟨rfl, rfl, rfl, rfl, rfl, List.reverse_perm _, ?_, ?_⟩
  · intro j P hP
    rw [hk]
    match j with
    | none =>
      cases hP
      intro f hf
      have hl : (DemoRaw.party 0 ["a", "b"] DemoRaw.guestRows).splits.length = 2 := by decide +kernel
      have hf : f < 2 := hl ▸ hf
      match f, hf with
      | 0, _ => exact ⟨some 0, host, 2, rfl, same_of_check
          (by show host.splits[2]? = DemoRaw.setup.guest.splits[0]?; decide +kernel)
          (by show host.valid[2]? = DemoRaw.setup.guest.valid[0]?; decide +kernel) (by decide +kernel)⟩
      | 1, _ => exact ⟨some 0, host, 0, rfl, same_of_check
          (by show host.splits[0]? = DemoRaw.setup.guest.splits[1]?; decide +kernel)
          (by show host.valid[0]? = DemoRaw.setup.guest.valid[1]?; decide +kernel) (by decide +kernel)⟩
    | some 0 =>
      cases hP
      intro f hf
      have hl : (DemoRaw.party 1 ["c"] DemoRaw.hostRows1).splits.length = 1 := by decide +kernel
      have hf : f < 1 := hl ▸ hf
      match f, hf with
      | 0, _ => exact ⟨none, guest, 0, rfl, same_of_check (by decide +kernel) (by decide +kernel) (by decide +kernel)⟩
    | some 1 =>
      cases hP
      intro f hf
      have hl : (DemoRaw.party 2 ["d"] DemoRaw.hostRows2).splits.length = 1 := by decide +kernel
      have hf : f < 1 := hl ▸ hf
      match f, hf with
      | 0, _ => exact ⟨some 0, host, 1, rfl, same_of_check (by decide +kernel) (by decide +kernel) (by decide +kernel)⟩
    | some (j + 2) => simp [partyAt, DemoRounded.setup, DemoPaillier.setup, DemoRaw.setup] at hP
  · rw [ColumnsOf, hk']
    refine parties ?_ ?_
    · intro f hf
      have hl : guest.splits.length = 1 := by decide +kernel
      have hf : f < 1 := hl ▸ hf
      match f, hf with
      | 0, _ => exact ⟨some 0, DemoRaw.party 1 ["c"] DemoRaw.hostRows1, 0, rfl,
          same_of_check (by decide +kernel) (by decide +kernel) (by decide +kernel)⟩
    · intro f hf
      have hl : host.splits.length = 3 := by decide +kernel
      have hf : f < 3 := hl ▸ hf
      match f, hf with
      | 0, _ => exact ⟨none, DemoRaw.party 0 ["a", "b"] DemoRaw.guestRows, 1, rfl,
          same_of_check (by decide +kernel) (by decide +kernel) (by decide +kernel)⟩
      | 1, _ => exact ⟨some 1, DemoRaw.party 2 ["d"] DemoRaw.hostRows2, 0, rfl,
          same_of_check (by decide +kernel) (by decide +kernel) (by decide +kernel)⟩
      | 2, _ => exact ⟨none, DemoRaw.party 0 ["a", "b"] DemoRaw.guestRows, 0, rfl,
          same_of_check (by decide +kernel) (by decide +kernel) (by decide +kernel)⟩

/-! ### `DemoNear` with the columns of the two parties exchanged -/

def nearRows : Option Nat → DTable Nat (List Rat)
  | none => DemoNear.hostRows
  | some _ => DemoNear.guestRows

def near : Setup Nat Rat :=
  { DemoNear.setup with
    guest := DemoRaw.party 0 ["b"] DemoNear.hostRows
    hosts := [DemoRaw.party 1 ["a"] DemoNear.guestRows] }

theorem near_cases (Q : Option Nat → Party Nat → Prop) (h0 : Q none (DemoRaw.party 0 ["b"] DemoNear.hostRows))
    (h1 : Q (some 0) (DemoRaw.party 1 ["a"] DemoNear.guestRows)) : ∀ j P, partyAt near j = some P → Q j P := by
  intro j P hP
  match j with
  | none => cases hP; exact h0
  | some 0 => cases hP; exact h1
  | some (j + 1) => simp [partyAt, near] at hP

theorem near_raw : RawRun near nearRows := by
  have hwidth : ∀ (t : DTable Nat (List Rat)) (n : Nat), (∀ p ∈ t.data, p.2.length = n) →
      ∀ k row, t.data.get? k = some row → row.length = n :=
    fun t n h k row hk => h (k, row) (Dict.get?_mem hk)
  have hk0 : near.gh.data.keys = [0, 1, 2] := by decide +kernel
  refine ⟨near_cases _ ⟨?_, by decide +kernel, ?_⟩ ⟨?_, by decide +kernel, ?_⟩, by decide +kernel,
    by unfold DTable.WF Dict.WF; decide⟩
  · exact ⟨DemoRaw.qcfg, 4, ["b"], by decide +kernel, rfl, by decide, by decide,
      by unfold DTable.WF Dict.WF; decide, by decide, hwidth _ 1 (by decide +kernel), by decide +kernel⟩
  · intro k
    have h1 : (nearRows none).data.keys = [0, 1, 2] := by decide
    rw [h1, hk0]
  · exact ⟨DemoRaw.qcfg, 4, ["a"], by decide +kernel, rfl, by decide, by decide,
      by unfold DTable.WF Dict.WF; decide, by decide, hwidth _ 1 (by decide +kernel), by decide +kernel⟩
  · intro k
    have h1 : (nearRows (some 0)).data.keys = [0, 1, 2] := by decide
    rw [h1, hk0]

theorem near_usual : Usual near 1 :=
  ⟨by decide, by decide, by decide, by unfold near; simp, by decide, by decide +kernel, by norm_num, by decide +kernel⟩

theorem near_moved : Redistributed DemoNear.setup DemoNear.rows near nearRows := by
  refine ⟨rfl, rfl, rfl, rfl, rfl, .refl _, DemoNear.cases _ ?_ ?_, near_cases _ ?_ ?_⟩ <;> intro f hf
  · have hl : (DemoRaw.party 0 ["a"] DemoNear.guestRows).splits.length = 1 := by decide +kernel
    obtain rfl : f = 0 := by omega
    exact ⟨some 0, _, 0, rfl, same_of_check (by decide +kernel) (by decide +kernel) (by decide +kernel)⟩
  · have hl : (DemoRaw.party 1 ["b"] DemoNear.hostRows).splits.length = 1 := by decide +kernel
    obtain rfl : f = 0 := by omega
    exact ⟨none, _, 0, rfl, same_of_check (by decide +kernel) (by decide +kernel) (by decide +kernel)⟩
  · have hl : (DemoRaw.party 0 ["b"] DemoNear.hostRows).splits.length = 1 := by decide +kernel
    obtain rfl : f = 0 := by omega
    exact ⟨some 0, _, 0, rfl, same_of_check (by decide +kernel) (by decide +kernel) (by decide +kernel)⟩
  · have hl : (DemoRaw.party 1 ["a"] DemoNear.guestRows).splits.length = 1 := by decide +kernel
    obtain rfl : f = 0 := by omega
    exact ⟨none, _, 0, rfl, same_of_check (by decide +kernel) (by decide +kernel) (by decide +kernel)⟩

end DemoMoved
end Verif
