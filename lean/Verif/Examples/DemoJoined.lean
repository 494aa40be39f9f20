import Verif.Examples.DemoPaillier
import Verif.Lemmas.OfferList

/-!
# A federated run and its centralised counterpart

The rows of `DemoRaw` in the same order at all parties, and with the columns side by side.
-/

set_option autoImplicit false

namespace Verif
namespace DemoJoined

open DTree Spec Paillier Histogram

def hostRows1 : DTable Nat (List Rat) :=
  ⟨[(0, [2]), (1, [5]), (2, [8]), (3, [0]), (4, [7]), (5, [1])]⟩

/-- The rows of the parties. -/
def rows : Option Nat → DTable Nat (List Rat)
  | none => DemoRaw.guestRows
  | some 0 => hostRows1
  | some _ => DemoRaw.hostRows2

/-- The columns side by side. -/
def joined : DTable Nat (List Rat) :=
  ⟨[(0, [0, 4, 2, -2]), (1, [1, 0, 5, -1 / 2]), (2, [2, 4, 8, -1]), (3, [3, 0, 0, -2]),
    (4, [5 / 2, 0, 7, 0]), (5, [0, 1 / 10 ^ 7, 1, -1])]⟩

def hosts : List (Party Nat) :=
  [DemoRaw.party 1 ["c"] hostRows1, DemoRaw.party 2 ["d"] DemoRaw.hostRows2]

/-- The federated run, with encryption. -/
def setup (sk : PrivKey) : Setup Nat Num := { DemoPaillier.setup sk with hosts := hosts }

/-- The federated run in the clear. -/
def clear : Setup Nat Rat := { DemoRaw.setup with hosts := hosts }

/-- The centralised run. -/
def central : Central Nat where
  cfg := ⟨1/10, 1/1000, 2, 1, id⟩
  kind := .gain
  maxDepth := 4
  maxSplitNodes := 3
  party := DemoRaw.party 0 ["a", "b", "c", "d"] joined
  gh := Demo.gh

theorem cases {α : Type} (S : Setup Nat α) (hh : S.hosts = hosts) (Q : Option Nat → Party Nat → Prop)
    (h0 : Q none S.guest) (h1 : Q (some 0) (DemoRaw.party 1 ["c"] hostRows1))
    (h2 : Q (some 1) (DemoRaw.party 2 ["d"] DemoRaw.hostRows2)) :
    ∀ j P, partyAt S j = some P → Q j P := by
  intro j P hP
  match j with
  | none => cases hP; exact h0
  | some j =>
    simp only [partyAt, hh] at hP
    match j with
    | 0 => cases hP; exact h1
    | 1 => cases hP; exact h2
    | j + 2 => simp [hosts] at hP

theorem raw_of {α : Type} (S : Setup Nat α) (hh : S.hosts = hosts) (hg : S.guest = DemoRaw.setup.guest)
    (hgh : S.gh = Demo.gh) : RawRun S rows := by
  have hwidth : ∀ (t : DTable Nat (List Rat)) (n : Nat), (∀ p ∈ t.data, p.2.length = n) →
      ∀ k row, t.data.get? k = some row → row.length = n :=
    fun t n h k row hk => h (k, row) (Dict.get?_mem hk)
  have hk0 : S.gh.data.keys = [0, 1, 2, 3, 4, 5] := by
    rw [hgh]
    decide
  refine ⟨cases S hh _ ⟨?_, ?_, ?_⟩ ⟨?_, ?_, ?_⟩ ⟨?_, ?_, ?_⟩, ?_, ?_⟩
  · rw [hg]
    exact ⟨DemoRaw.qcfg, 4, ["a", "b"], by decide +kernel, rfl, by decide, by decide,
      by unfold DTable.WF Dict.WF; decide, by decide, hwidth _ 2 (by decide +kernel), by decide +kernel⟩
  · rw [hg]; decide +kernel
  · intro k
    have h1 : (rows none).data.keys = [0, 1, 2, 3, 4, 5] := by decide
    rw [h1, hk0]
  · exact ⟨DemoRaw.qcfg, 4, ["c"], by decide +kernel, rfl, by decide, by decide,
      by unfold DTable.WF Dict.WF; decide, by decide, hwidth _ 1 (by decide +kernel), by decide +kernel⟩
  · decide +kernel
  · intro k
    have h1 : (rows (some 0)).data.keys = [0, 1, 2, 3, 4, 5] := by decide
    rw [h1, hk0]
  · exact ⟨DemoRaw.qcfg, 4, ["d"], by decide +kernel, rfl, by decide, by decide,
      by unfold DTable.WF Dict.WF; decide, by decide, hwidth _ 1 (by decide +kernel), by decide +kernel⟩
  · decide +kernel
  · intro k
    have h1 : (rows (some 1)).data.keys = [0, 1, 2, 3, 4, 5] := by decide
    rw [h1, hk0]
  · rw [hh]
    decide +kernel
  · rw [hgh]
    unfold DTable.WF Dict.WF; decide

theorem raw (sk : PrivKey) : RawRun (setup sk) rows := raw_of _ rfl rfl rfl

theorem usual (sk : PrivKey) : Usual (setup sk) (11 / 10) := by
  have h := DemoPaillier.usual sk
  exact ⟨h.depth, h.batch, h.kind, by show hosts ≠ []; unfold hosts; simp, h.leaf, h.lam, h.hess⟩

theorem run {sk : PrivKey} (hk : KeyPair (2 ^ 31 - 1) (2 ^ 61 - 1) sk)
    (hn : sk.pk.n = (2 ^ 31 - 1) * (2 ^ 61 - 1)) :
    PaillierRun (2 ^ 31 - 1) (2 ^ 61 - 1) sk 12 13 (11 / 10) 0 0 (setup sk) := by
  have h := DemoPaillier.run hk hn
  exact ⟨h.key, h.hi0, h.gap, h.big, h.cipher, h.arith, h.errors, h.enc, h.room, h.windowG,
    h.windowH, h.accuracy⟩

theorem joined_of {α : Type} (S : Setup Nat α) (hh : S.hosts = hosts)
    (hg : S.guest = DemoRaw.setup.guest) : JoinedRows S rows joined := by
  have hw : ∀ (t : DTable Nat (List Rat)) (n : Nat) (P : Party Nat), (∀ p ∈ t.data, p.2.length = n) →
      P.splits.length = n → ∀ k row, t.data.get? k = some row → row.length = P.splits.length :=
    fun t n P h hP k row hk => by rw [hP]; exact h (k, row) (Dict.get?_mem hk)
  have hkj : joined.data.keys = [0, 1, 2, 3, 4, 5] := by decide
  refine ⟨by unfold DTable.WF Dict.WF; decide, cases S hh _ ?_ ?_ ?_, cases S hh _ ?_ ?_ ?_, ?_⟩
  · intro k
    have h1 : (rows none).data.keys = [0, 1, 2, 3, 4, 5] := by decide
    rw [h1, hkj]
  · intro k
    have h1 : (rows (some 0)).data.keys = [0, 1, 2, 3, 4, 5] := by decide
    rw [h1, hkj]
  · intro k
    have h1 : (rows (some 1)).data.keys = [0, 1, 2, 3, 4, 5] := by decide
    rw [h1, hkj]
  · exact hw _ 2 _ (by decide +kernel) (by rw [hg]; decide +kernel)
  · exact hw _ 1 _ (by decide +kernel) (by decide +kernel)
  · exact hw _ 1 _ (by decide +kernel) (by decide +kernel)
  · intro k row hk
    have := Dict.get?_mem hk
    have hside : ∀ p ∈ joined.data, p.2 = ((rows none).data.get? p.1).getD [] ++
        (List.range 2).flatMap fun j => ((rows (some j)).data.get? p.1).getD [] := by decide +kernel
    have h := hside _ this
    unfold sideBySide
    rw [hh]
    exact h

theorem columns_of {α : Type} (S : Setup Nat α) (hh : S.hosts = hosts)
    (hg : S.guest = DemoRaw.setup.guest) : JoinedColumns S rows central.party joined := by
  refine ⟨joined_of S hh hg, cases S hh _ (by decide) (by decide) (by decide), ?_⟩
  refine ⟨DemoRaw.qcfg, 4, fun j => match j with
    | none => ["a", "b"]
    | some 0 => ["c"]
    | some _ => ["d"], by decide +kernel, rfl, by decide, ?_, cases S hh _ ?_ ?_ ?_, ?_⟩
  · unfold sideBySide; rw [hh]; decide
  · rw [hg]; decide +kernel
  · decide +kernel
  · decide +kernel
  · unfold sideBySide; rw [hh]; decide +kernel

theorem central_of {α : Type} (S : Setup Nat α) (hh : S.hosts = hosts)
    (hg : S.guest = DemoRaw.setup.guest) (hgh : S.gh = Demo.gh) (hc : S.cfg = ⟨1/10, 1/1000, 2, 1, id⟩)
    (hd : S.maxDepth = 4) : Centralised S rows central joined := by
  refine ⟨columns_of S hh hg, hc.symm, hd.symm, by decide, by decide,
    ⟨by unfold DTable.WF Dict.WF; decide, fun k => by rw [hgh]; rfl⟩, ?_⟩
  · unfold sideBySide
    rw [hh]
    have h0 : partyAt S none = some DemoRaw.setup.guest := by rw [← hg]; rfl
    have h1 : partyAt S (some 0) = some (DemoRaw.party 1 ["c"] hostRows1) := by
      show S.hosts[0]? = _; rw [hh]; rfl
    have h2 : partyAt S (some 1) = some (DemoRaw.party 2 ["d"] DemoRaw.hostRows2) := by
      show S.hosts[1]? = _; rw [hh]; rfl
    rw [show hosts.length = 2 from rfl, show List.range 2 = [0, 1] from rfl]
    simp only [List.flatMap_cons, List.flatMap_nil, h0, h1, h2]
    decide +kernel

theorem centralised (sk : PrivKey) : Centralised (setup sk) rows central joined :=
  central_of _ rfl rfl rfl rfl rfl

theorem clear_decisive : ∀ B ∈ ([0, 1, 2, 3, 4, 5] : List Nat).sublists,
    DecisiveGains (1 / 1000) (gainList clear B) := by decide +kernel

theorem decisive (sk : PrivKey) (F : Fitted Nat) : DecisiveTree (setup sk) F rows := by
  intro i _ A hA
  have hk : Demo.gh.data.keys = [0, 1, 2, 3, 4, 5] := by decide
  exact decisive_of_sublists (keys := [0, 1, 2, 3, 4, 5]) (by decide) hA.1
    (fun k h => by rw [← hk]; exact ((hA.2 k).mp h).1) clear_decisive

end DemoJoined
end Verif
