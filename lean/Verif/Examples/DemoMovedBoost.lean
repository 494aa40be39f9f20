import Verif.Examples.DemoBoost
import Verif.Examples.DemoMoved
import Verif.Spec.C79

/-!
# Boosting runs with the columns held by other parties

The parties of `DemoRaw` and of `DemoMoved`; a label consists of a gradient and a hessian.
-/

set_option autoImplicit false

namespace Verif
namespace DemoMovedBoost

open DTree Spec Paillier Histogram

/-- The gradient of the label for every component, and the hessian. -/
def gradHess (y : Rat × Rat) (f : List Rat) : Except PyErr (List Rat × List Rat) :=
  .ok (f.map fun _ => y.1, f.map fun _ => y.2)

/-- Scores times gradients. -/
def loss (y : DTable Nat (Rat × Rat)) (s : DTable Nat (List Rat)) : Except PyErr Rat :=
  .ok (y.data.map fun x => (((s.data.get? x.1).getD []).map fun f => f * x.2.1).sum).sum

/-- Three parties, with two, one and one columns. -/
def first (sk : PrivKey) : Boost Nat Num (Rat × Rat) where
  base := { DemoPaillier.setup sk with cfg := ⟨1/10, 1/1000, 5, 1, id⟩ }
  valid := DemoBoost.clear.valid
  cipher := fun _ _ _ _ => paillierCipher sk fun _ => 1
  enc := fun _ _ gh => .ok (liftGh ⟨gh.data.map fun x =>
    (x.1, DemoPaillier.encOf sk.pk x.2.1, DemoPaillier.encOf sk.pk x.2.2)⟩)
  gradHess := gradHess
  loss := loss
  rounds := 3
  dim := 2
  rate := ⟨1 / 2, id⟩
  early := true
  tol := 1 / 10

/-- Two parties, with one and three columns, and other batches. -/
def second (sk : PrivKey) : Boost Nat Num (Rat × Rat) :=
  { first sk with
    base := { (first sk).base with guest := DemoMoved.guest, hosts := [DemoMoved.host], maxSplitNodes := 3 }
    valid := fun _ _ j => match j with
      | none => [true]
      | some _ => [true, true, true] }

def labels : DTable Nat (Rat × Rat) := Demo.gh

def reversed : DTable Nat (Rat × Rat) := ⟨Demo.gh.data.reverse⟩

instance (sk : PrivKey) : (first sk).base.cfg.Exact := ⟨rfl⟩
instance (sk : PrivKey) : (second sk).base.cfg.Exact := ⟨rfl⟩

/-- The gradients and hessians that occur. -/
def Occurs (p : Rat × Rat) : Prop := (p.1 = 1 ∨ p.1 = -8 ∨ p.1 = -2 ∨ p.1 = 5) ∧ p.2 = 1

theorem occurs : ∀ x ∈ Demo.gh.data, Occurs x.2 := by unfold Occurs; decide +kernel

theorem grads {l : Rat × Rat} (hl : Occurs l) (f : List Rat) (hf : f.length = 2) :
    ∃ g h, gradHess l f = .ok (g, h) ∧ g.length = 2 ∧ h.length = 2 ∧
      ∀ (c : Nat) a b, g[c]? = some a → h[c]? = some b → Occurs (a, b) := by
  refine ⟨_, _, rfl, by simpa using hf, by simpa using hf, ?_⟩
  intro c a b ha hb
  rw [List.getElem?_map] at ha hb
  cases hx : f[c]? with
  | none => rw [hx] at ha; cases ha
  | some x =>
    rw [hx] at ha hb
    simp only [Option.map_some, Option.some.injEq] at ha hb
    subst ha hb
    exact hl

theorem encodes {sk : PrivKey} (hk : KeyPair (2 ^ 31 - 1) (2 ^ 61 - 1) sk)
    (hn : sk.pk.n = (2 ^ 31 - 1) * (2 ^ 61 - 1)) {p : Rat × Rat} (hp : Occurs p) :
    EncryptionOf sk 12 13 0 (DemoPaillier.encOf sk.pk p.1) p.1 ∧
      EncryptionOf sk 12 13 0 (DemoPaillier.encOf sk.pk p.2) p.2 := by
  have hc : ∀ v e, 12 ≤ e → e ≤ 13 →
      encoded ((2 ^ 31 - 1) * (2 ^ 61 - 1)) (.float v) none = some (v, e) →
      EncryptionOf sk 12 13 0 (DemoPaillier.encOf sk.pk v) v :=
    fun v e h1 h2 h3 => DemoPaillier.encrypts (DemoPaillier.cipher hk hn h1 h2 h3)
  have c1 := hc 1 13 (by decide) (by decide) (by decide +kernel)
  have c2 := hc (-8) 12 (by decide) (by decide) (by decide +kernel)
  have c3 := hc (-2) 12 (by decide) (by decide) (by decide +kernel)
  have c4 := hc 5 12 (by decide) (by decide) (by decide +kernel)
  obtain ⟨h1, h2⟩ := hp
  rw [h2]
  rcases h1 with h | h | h | h <;> rw [h]
  · exact ⟨c1, c1⟩
  · exact ⟨c2, c1⟩
  · exact ⟨c3, c1⟩
  · exact ⟨c4, c1⟩

theorem encodes_all {sk : PrivKey} (hk : KeyPair (2 ^ 31 - 1) (2 ^ 61 - 1) sk)
    (hn : sk.pk.n = (2 ^ 31 - 1) * (2 ^ 61 - 1)) : ∀ d : List (Nat × Rat × Rat), (∀ x ∈ d, Occurs x.2) →
    List.Forall₂ (fun x y => x.1 = y.1 ∧ EncryptionOf sk 12 13 0 x.2.1 y.2.1 ∧ EncryptionOf sk 12 13 0 x.2.2 y.2.2)
      (d.map fun x => (x.1, DemoPaillier.encOf sk.pk x.2.1, DemoPaillier.encOf sk.pk x.2.2)) d
  | [], _ => .nil
  | x :: d, h => .cons ⟨rfl, encodes hk hn (h x (by simp))⟩ (encodes_all hk hn d fun y hy => h y (by simp [hy]))

theorem run {sk : PrivKey} (hk : KeyPair (2 ^ 31 - 1) (2 ^ 61 - 1) sk)
    (hn : sk.pk.n = (2 ^ 31 - 1) * (2 ^ 61 - 1)) :
    PaillierBoost (2 ^ 31 - 1) (2 ^ 61 - 1) sk 12 13 (11 / 10) 8 1 0 0 Occurs (first sk) labels DemoRaw.rows := by
  have h := DemoBoost.run hk hn
  refine ⟨?_, h.names, by unfold labels DTable.WF Dict.WF; decide, h.depth, h.batch, h.kind, h.hosts, h.leaf, h.lam, ?_,
    fun _ _ _ => ⟨_, rfl⟩, ?_, h.pos, hk, h.hi0, h.gap, h.big, h.cipher, h.arith, ?_, h.errors, ?_, ?_, ?_, ?_⟩
  · have hl : labels.data.keys = DemoBoost.labels.data.keys := by decide
    rw [hl]
    exact h.raw
  · intro k l f hl hf
    exact grads (occurs (k, l) (Dict.get?_mem hl)) f hf
  · rintro a b ⟨h1, h2⟩
    simp only at h1 h2
    subst h2
    refine ⟨?_, by norm_num, le_refl _, ?_⟩
    · rcases h1 with rfl | rfl | rfl | rfl <;> norm_num [abs_of_neg, abs_of_pos]
    · show (11 / 10 : Rat) ≤ 1 + 1 / 10; norm_num
  · intro i t gh _ hG
    exact ⟨_, rfl, encodes_all hk hn gh.data hG⟩
  · rw [mul_zero, mul_zero]; norm_num
  · rw [hn, add_zero]
    show ((6 : Nat) : Rat) * 8 * (16 : Rat) ^ (13 : Int) ≤ _
    decide +kernel
  · rw [hn, add_zero]
    show ((6 : Nat) : Rat) * 1 * (16 : Rat) ^ (13 : Int) ≤ _
    decide +kernel
  · rw [mul_zero, mul_zero, add_zero]
    show max (2 * (((6 : Nat) : Rat) * 8) ^ 2 / (11 / 10)) |(1 / 1000 : Rat) - 1 / 10 ^ 6| / 2 ^ 50 +
      FP.tiny ≤ 1 / 10 ^ 6
    decide +kernel

theorem cases {sk : PrivKey} {Q : Option Nat → Party Nat → Prop} (h0 : Q none DemoMoved.guest)
    (h1 : Q (some 0) DemoMoved.host) : ∀ j P, partyAt (second sk).base j = some P → Q j P := by
  intro j P hP
  match j with
  | none => cases hP; exact h0
  | some 0 => cases hP; exact h1
  | some (j + 1) => simp [partyAt, second] at hP

theorem run_second {sk : PrivKey} (hk : KeyPair (2 ^ 31 - 1) (2 ^ 61 - 1) sk)
    (hn : sk.pk.n = (2 ^ 31 - 1) * (2 ^ 61 - 1)) :
    PaillierBoost (2 ^ 31 - 1) (2 ^ 61 - 1) sk 12 13 (11 / 10) 8 1 0 0 Occurs (second sk) reversed DemoMoved.rows := by
  have h := run hk hn
  have hr := DemoMoved.raw sk id 5 .split 1
  have hkeys : ∀ k, k ∈ (DemoMoved.setup sk id 5 .split 1).gh.data.keys ↔ k ∈ reversed.data.keys := fun k => Iff.rfl
  have hlen : (reversed.data.length : Rat) = labels.data.length := by
    show ((List.length Demo.gh.data.reverse : Nat) : Rat) = _
    rw [List.length_reverse]; rfl
  refine ⟨cases ?_ ?_, by show ([DemoMoved.host].map Party.idx).Nodup; decide +kernel,
    by unfold reversed DTable.WF Dict.WF; decide, h.depth,
    by show 3 ≠ 0; decide, h.kind, by show [DemoMoved.host] ≠ []; simp, h.leaf, h.lam, ?_,
    fun _ _ _ => ⟨_, rfl⟩, h.bounds, h.pos, hk, h.hi0, h.gap, h.big, h.cipher, h.arith, h.enc, h.errors, ?_, ?_, ?_, ?_⟩
  · obtain ⟨r1, r2, r3⟩ := hr.parties none DemoMoved.guest rfl
    refine ⟨r1, fun i t => ?_, ?_, fun k => by rw [r3, hkeys]⟩
    · show 1 = DemoMoved.guest.splits.length; decide +kernel
    · have : DemoMoved.guest.splits.length = 1 := by decide +kernel
      rw [this]; norm_num
  · obtain ⟨r1, r2, r3⟩ := hr.parties (some 0) DemoMoved.host rfl
    refine ⟨r1, fun i t => ?_, ?_, fun k => by rw [r3, hkeys]⟩
    · show 3 = DemoMoved.host.splits.length; decide +kernel
    · have : DemoMoved.host.splits.length = 3 := by decide +kernel
      rw [this]; norm_num
  · intro k l f hl hf
    exact grads (occurs (k, l) (List.mem_reverse.mp (Dict.get?_mem hl))) f hf
  · rw [hlen]; exact h.room
  · rw [hlen]; exact h.windowG
  · rw [hlen]; exact h.windowH
  · rw [hlen]; exact h.accuracy

/-- A check of the columns on concrete tables. -/
theorem column {B B' : Boost Nat Num (Rat × Rat)} {rows rows' : Option Nat → DTable Nat (List Rat)} {j : Option Nat}
    {P : Party Nat} {f : Nat} (j' : Option Nat) (P' : Party Nat) (f' : Nat) (hP' : partyAt B'.base j' = some P')
    (h1 : P'.splits[f']? = P.splits[f]?) (h2 : ∀ i t, (B'.valid i t j')[f']? = (B.valid i t j)[f]?)
    (h3 : ∀ k ∈ [0, 1, 2, 3, 4, 5], value (((rows' j').data.get? k).getD []) f' = value (((rows j).data.get? k).getD []) f) :
    ∃ j' P' f', partyAt B'.base j' = some P' ∧
    P'.splits[f']? = P.splits[f]? ∧ (∀ i t, (B'.valid i t j')[f']? = (B.valid i t j)[f]?) ∧
    ∀ k ∈ [0, 1, 2, 3, 4, 5], ∀ row row', (rows j).data.get? k = some row → (rows' j').data.get? k = some row' →
      value row' f' = value row f := by
  refine ⟨j', P', f', hP', h1, h2, fun k hk row row' e e' => ?_⟩
  have := h3 k hk
  rw [e, e'] at this
  exact this

theorem moved (sk : PrivKey) : RedistributedBoost (first sk) labels DemoRaw.rows (second sk) reversed DemoMoved.rows := by
  have hk : labels.data.keys = [0, 1, 2, 3, 4, 5] := by decide
  refine ⟨rfl, rfl, rfl, rfl, rfl, List.reverse_perm _, ?_, ?_, rfl, ?_, rfl, rfl, rfl, rfl, rfl⟩
  · intro j P hP
    rw [hk]
    match j with
    | none =>
      cases hP
      intro f hf
      have hl : (DemoRaw.party 0 ["a", "b"] DemoRaw.guestRows).splits.length = 2 := by decide +kernel
      have hf : f < 2 := hl ▸ hf
      match f, hf with
      | 0, _ => exact (column (some 0) DemoMoved.host 2 rfl
          (by show DemoMoved.host.splits[2]? = DemoRaw.setup.guest.splits[0]?; decide +kernel) (fun _ _ => rfl)
          (by decide +kernel))
      | 1, _ => exact (column (some 0) DemoMoved.host 0 rfl
          (by show DemoMoved.host.splits[0]? = DemoRaw.setup.guest.splits[1]?; decide +kernel) (fun _ _ => rfl)
          (by decide +kernel))
    | some 0 =>
      cases hP
      intro f hf
      have hl : (DemoRaw.party 1 ["c"] DemoRaw.hostRows1).splits.length = 1 := by decide +kernel
      have hf : f < 1 := hl ▸ hf
      match f, hf with
      | 0, _ => exact (column none DemoMoved.guest 0 rfl (by decide +kernel) (fun _ _ => rfl) (by decide +kernel))
    | some 1 =>
      cases hP
      intro f hf
      have hl : (DemoRaw.party 2 ["d"] DemoRaw.hostRows2).splits.length = 1 := by decide +kernel
      have hf : f < 1 := hl ▸ hf
      match f, hf with
      | 0, _ => exact (column (some 0) DemoMoved.host 1 rfl (by decide +kernel) (fun _ _ => rfl) (by decide +kernel))
    | some (j + 2) => simp [partyAt, first, DemoPaillier.setup, DemoRaw.setup] at hP
  · rw [ColumnsOfRun, hk]
    refine cases ?_ ?_
    · intro f hf
      have hl : DemoMoved.guest.splits.length = 1 := by decide +kernel
      have hf : f < 1 := hl ▸ hf
      match f, hf with
      | 0, _ => exact (column (some 0) (DemoRaw.party 1 ["c"] DemoRaw.hostRows1) 0 rfl (by decide +kernel)
          (fun _ _ => rfl) (by decide +kernel))
    · intro f hf
      have hl : DemoMoved.host.splits.length = 3 := by decide +kernel
      have hf : f < 3 := hl ▸ hf
      match f, hf with
      | 0, _ => exact (column none (DemoRaw.party 0 ["a", "b"] DemoRaw.guestRows) 1 rfl (by decide +kernel)
          (fun _ _ => rfl) (by decide +kernel))
      | 1, _ => exact (column (some 1) (DemoRaw.party 2 ["d"] DemoRaw.hostRows2) 0 rfl (by decide +kernel)
          (fun _ _ => rfl) (by decide +kernel))
      | 2, _ => exact (column none (DemoRaw.party 0 ["a", "b"] DemoRaw.guestRows) 0 rfl (by decide +kernel)
          (fun _ _ => rfl) (by decide +kernel))
  · intro s s' _ _ h
    show loss reversed s' = loss labels s
    unfold loss
    simp only [h]
    exact congrArg Except.ok ((List.reverse_perm Demo.gh.data).map _).sum_eq

end DemoMovedBoost
end Verif
