import Verif.Examples.DemoMoved
import Verif.Spec.C78

/-!
# The run of `DemoRounded` with all tables in other orders
-/

set_option autoImplicit false

namespace Verif
namespace DemoReorder

open DTree Spec

def guestRows : DTable Nat (List Rat) := ⟨DemoRaw.guestRows.data.reverse⟩
def hostRows1 : DTable Nat (List Rat) := ⟨[(0, [2]), (5, [1]), (3, [0]), (2, [8]), (1, [5]), (4, [7])]⟩

def rows : Option Nat → DTable Nat (List Rat)
  | none => guestRows
  | some 0 => hostRows1
  | some _ => DemoRaw.hostRows2

def guest : Party Nat := DemoRaw.party 0 ["a", "b"] guestRows
def host1 : Party Nat := DemoRaw.party 1 ["c"] hostRows1
def host2 : Party Nat := DemoRaw.party 2 ["d"] DemoRaw.hostRows2

def setup (sk : Paillier.PrivKey) (rnd : Rat → Rat) (least : Int) (kind : ImpType) (batch : Nat) :
    Setup Nat Histogram.Num :=
  { DemoMoved.setup sk rnd least kind batch with guest := guest, hosts := [host1, host2] }

theorem run {sk : Paillier.PrivKey} (hk : KeyPair (2 ^ 31 - 1) (2 ^ 61 - 1) sk)
    (hn : sk.pk.n = (2 ^ 31 - 1) * (2 ^ 61 - 1)) {rnd : Rat → Rat} (hrnd : RoundsWithin rnd 10000 (1 / 2 ^ 60))
    (least : Int) (kind : ImpType) (batch : Nat) :
    RoundedRun (2 ^ 31 - 1) (2 ^ 61 - 1) sk 12 13 (11 / 10) 0 0 4 10000 (1 / 2 ^ 60) (setup sk rnd least kind batch) := by
  have h := DemoMoved.run hk hn hrnd least kind batch
  exact ⟨h.key, h.hi0, h.gap, h.big, h.cipher, h.arith, h.errors, h.enc, h.windowG, h.windowH, h.eps, h.rounds,
    by show ∀ sp ∈ guest.splits, sp.length ≤ 4; decide +kernel, h.room, h.sizes, h.weights, h.square, h.gains, h.accuracy⟩

theorem parties {sk : Paillier.PrivKey} {rnd : Rat → Rat} {least : Int} {kind : ImpType} {batch : Nat}
    {Q : Option Nat → Party Nat → Prop} (h0 : Q none guest) (h1 : Q (some 0) host1) (h2 : Q (some 1) host2) :
    ∀ j P, partyAt (setup sk rnd least kind batch) j = some P → Q j P := by
  intro j P hP
  match j with
  | none => cases hP; exact h0
  | some 0 => cases hP; exact h1
  | some 1 => cases hP; exact h2
  | some (j + 2) => simp [partyAt, setup] at hP

theorem raw (sk : Paillier.PrivKey) (rnd : Rat → Rat) (least : Int) (kind : ImpType) (batch : Nat) :
    RawRun (setup sk rnd least kind batch) rows := by
  have hwidth : ∀ (t : DTable Nat (List Rat)) (n : Nat), (∀ p ∈ t.data, p.2.length = n) →
      ∀ k row, t.data.get? k = some row → row.length = n :=
    fun t n h k row hk => h (k, row) (Dict.get?_mem hk)
  have hk0 : (setup sk rnd least kind batch).gh.data.keys = [5, 4, 3, 2, 1, 0] := by
    show Dict.keys Demo.gh.data.reverse = _
    decide
  refine ⟨parties ⟨?_, ?_, ?_⟩ ⟨?_, ?_, ?_⟩ ⟨?_, ?_, ?_⟩, ?_, ?_⟩
  · exact ⟨DemoRaw.qcfg, 4, ["a", "b"], by decide +kernel, rfl, by decide, by decide, by unfold DTable.WF Dict.WF; decide,
      by decide, hwidth _ 2 (by decide +kernel), by decide +kernel⟩
  · decide +kernel
  · intro k
    have h1 : (rows none).data.keys = [5, 4, 3, 2, 1, 0] := by decide
    rw [h1, hk0]
  · exact ⟨DemoRaw.qcfg, 4, ["c"], by decide +kernel, rfl, by decide, by decide, by unfold DTable.WF Dict.WF; decide,
      by decide, hwidth _ 1 (by decide +kernel), by decide +kernel⟩
  · decide +kernel
  · intro k
    have h1 : (rows (some 0)).data.keys = [0, 5, 3, 2, 1, 4] := by decide
    rw [h1, hk0]; simp; omega
  · exact ⟨DemoRaw.qcfg, 4, ["d"], by decide +kernel, rfl, by decide, by decide, by unfold DTable.WF Dict.WF; decide,
      by decide, hwidth _ 1 (by decide +kernel), by decide +kernel⟩
  · decide +kernel
  · intro k
    have h1 : (rows (some 1)).data.keys = [0, 1, 2, 3, 4, 5] := by decide
    rw [h1, hk0]; simp; omega
  · show ([host1, host2].map Party.idx).Nodup
    decide +kernel
  · show Dict.WF Demo.gh.data.reverse
    unfold Dict.WF; decide

theorem usual (sk : Paillier.PrivKey) (rnd : Rat → Rat) (least : Int) {kind : ImpType} {batch : Nat}
    (hk : kind ≠ .other) (hb : batch ≠ 0) : Usual (setup sk rnd least kind batch) (11 / 10) := by
  have h := DemoMoved.usual sk rnd least hk hb
  exact ⟨h.depth, hb, hk, by show [host1, host2] ≠ []; simp, h.leaf, h.lam, h.hess⟩

theorem increasing (sk : Paillier.PrivKey) (rnd : Rat → Rat) (least : Int) (kind : ImpType) (batch : Nat) :
    ∀ j P, partyAt (setup sk rnd least kind batch) j = some P → ∀ sp ∈ P.splits, sp.Pairwise (· < ·) :=
  parties (by decide +kernel) (by decide +kernel) (by decide +kernel)

theorem reordered (sk sk' : Paillier.PrivKey) (rnd rnd' : Rat → Rat) (least : Int) (kind kind' : ImpType)
    (batch batch' : Nat) :
    Reordered (DemoRounded.setup sk rnd least kind batch) DemoRaw.rows (setup sk' rnd' least kind' batch') rows := by
  refine ⟨rfl, rfl, rfl, rfl, rfl, List.reverse_perm _, rfl, ?_⟩
  suffices h : ∀ j P', partyAt (setup sk' rnd' least kind' batch') j = some P' →
      ∀ P, partyAt (DemoRounded.setup sk rnd least kind batch) j = some P →
        P'.valid = P.valid ∧ SameRows P P' (DemoRaw.rows j) (rows j) from fun j P P' hP hP' => h j P' hP' P hP
  refine parties ?_ ?_ ?_
  · intro P hP
    cases hP
    exact ⟨by show guest.valid = DemoRaw.setup.guest.valid; decide +kernel, List.reverse_perm _, DemoRaw.qcfg, 4, ["a", "b"], by decide,
      by decide +kernel, by decide +kernel,
      by show _ = Except.ok (DemoRaw.setup.guest.data, DemoRaw.setup.guest.splits, DemoRaw.setup.guest.sparse); decide +kernel,
      by decide +kernel⟩
  · intro P hP
    cases hP
    exact ⟨by decide +kernel, by decide +kernel, DemoRaw.qcfg, 4, ["c"], by decide,
      by decide +kernel, by decide +kernel, by decide +kernel, by decide +kernel⟩
  · intro P hP
    cases hP
    exact ⟨by decide +kernel, List.Perm.refl _, DemoRaw.qcfg, 4, ["d"], by decide,
      by decide +kernel, by decide +kernel, by decide +kernel, by decide +kernel⟩

end DemoReorder
end Verif
