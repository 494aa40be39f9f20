import Verif.Lemmas.Track
import Verif.Spec.C28
import Verif.Props.C20
import Verif.Props.C21

/-! # From bins to thresholds -/

set_option autoImplicit false

namespace Verif
namespace DTree

open Spec
open Binning (Cell SparseVec getBinNum)

variable {K : Type} [DecidableEq K] {α : Type}

/-- What preparation guarantees for a party. -/
structure Binned (P : Party K) (rows : DTable K (List Rat)) : Prop where
  wf : P.data.WF
  keys : P.data.data.keys = rows.data.keys
  zero : ZeroBins P.splits P.sparse
  width : ∀ k row, rows.data.get? k = some row → row.length = P.splits.length
  rows : ∀ k v, P.data.data.get? k = some v → ∃ row, rows.data.get? k = some row ∧
    BinnedRow P.splits v ∧
    ∀ (f : Nat) (sp : List Rat), P.splits[f]? = some sp → ∃ z, P.sparse.get? f = some z ∧
      v.getData f (.bin z) = .bin (getBinNum (value row f) sp)

theorem binned_of_fromRaw {P : Party K} {rows : DTable K (List Rat)} (h : FromRaw P rows) :
    Binned P rows := by
  obtain ⟨cfg, binNum, header, h1, h2, h3, h4, h5, h6, h7, h8⟩ := h
  obtain ⟨table, S, sb, p1, p2, p3, p4, p5, p6, p7⟩ :=
    C21_table cfg h1 h2 binNum h3 header h4 rows h5 h6 h7
  rw [h8] at p1
  simp only [Except.ok.injEq, Prod.mk.injEq] at p1
  obtain ⟨e1, e2, e3⟩ := p1
  rw [← e1] at p2 p5 p7
  rw [← e2] at p3 p6 p7
  rw [← e3] at p6 p7
  refine ⟨p2, p5, p6, fun k row hk => by rw [h7 k row hk, p3], fun k v hk => ?_⟩
  have : k ∈ rows.data.keys := by rw [← p5]; exact Dict.mem_keys_of_get? hk
  obtain ⟨row, hr⟩ := Dict.exists_get?_of_mem this
  obtain ⟨v', v1, v2, v3⟩ := p7 k row hr
  rw [hk] at v1
  obtain rfl := Option.some.inj v1
  refine ⟨row, hr, v2, fun f sp hf => ?_⟩
  have hfl : f < row.length := by
    rw [h7 k row hr, ← p3]; exact (List.getElem?_eq_some_iff.mp hf).1
  obtain ⟨z, z1, z2⟩ := v3 f row[f] sp (List.getElem?_eq_getElem hfl) hf
  refine ⟨z, z1, ?_⟩
  rw [z2]
  unfold value
  rw [List.getElem?_eq_getElem hfl]
  rfl

theorem Binned.lookup {P : Party K} {rows : DTable K (List Rat)} (h : Binned P rows) {k : K}
    {row : List Rat} (hk : rows.data.get? k = some row) : ∃ v, P.data.data.get? k = some v := by
  apply Dict.exists_get?_of_mem
  rw [h.keys]
  exact Dict.mem_keys_of_get? hk

/-- The bin test and the threshold test agree for bin `b` of the split points. -/
def BinOk (sp : List Rat) (b : Nat) (t : Rat) : Prop := ∀ v, getBinNum v sp ≤ b ↔ v ≤ t

theorem realValue_inv {splits : List (List Rat)} {fid : Option Int} {bid : Int} {x : Rat}
    (h : realValue splits fid bid = .ok x) :
    ∃ (f b : Nat) (sp : List Rat), fid = some (f : Int) ∧ bid = (b : Int) ∧ splits[f]? = some sp ∧
      sp[b]? = some x := by
  unfold realValue at h
  cases fid with
  | none => cases h
  | some f =>
    simp only at h
    split at h
    · cases h
    · rename_i hn
      push Not at hn
      split at h
      · cases h
      · rename_i sp hsp
        split at h
        · cases h
        · rename_i y hy
          cases h
          exact ⟨f.toNat, bid.toNat, sp, by rw [Int.toNat_of_nonneg hn.1], by omega, hsp, hy⟩

omit [DecidableEq K] in
/-- The recorded bin of a party's own inner node becomes its threshold. -/
theorem threshold_of_mask {S : Setup K α} {F : Fitted K} {gm : Dict Nat Int}
    {ms : List (Dict Nat Int)} (hnd : (F.tree.map Node.id).Nodup)
    (hpos : ∀ (i : Nat) n, F.tree[i]? = some n → n.id = i)
    (hlen : S.hosts.length = ms.length)
    (h3 : convert .guest S.guest.splits gm F.tree [] = .ok F.guestMask)
    (h4 : convertHosts F.tree S.hosts ms = .ok F.hostMasks)
    {i : Nat} {n : Node} (hn : F.tree[i]? = some n) (hl : n.isLeaf = false)
    {j : Option Nat} {P : Party K} (hP : partyAt S j = some P) (hs : n.site = siteName P j) :
    ∃ (m : Dict Nat Int) (f b : Nat) (sp : List Rat) (t : Rat), maskAt gm ms j = some m ∧
      Dict.get? m i = some (b : Int) ∧ n.fid = some (f : Int) ∧ P.splits[f]? = some sp ∧
      sp[b]? = some t ∧ SplitAt S F i j f t := by
  have hid := hpos i n hn
  have hmem := List.mem_of_getElem? hn
  cases j with
  | none =>
    simp only [partyAt, Option.some.injEq] at hP
    subst hP
    obtain ⟨b, x, c1, c2, c3⟩ := (convert_inv F.tree [] _ hnd h3).1 n hmem hl hs
    obtain ⟨f, b, sp, e1, rfl, e3, e4⟩ := realValue_inv c2
    rw [hid] at c1 c3
    exact ⟨gm, f, b, sp, x, rfl, c1, e1, e3, e4, n, S.guest, F.guestMask, hn, hl, e1, rfl, hs, rfl, c3⟩
  | some j =>
    simp only [partyAt] at hP
    have hjl : j < ms.length := by
      have := (List.getElem?_eq_some_iff.mp hP).1; omega
    obtain ⟨d, d1, d2⟩ := (convertHosts_inv _ _ _ hlen h4).2 j P _ hP (List.getElem?_eq_getElem hjl)
    obtain ⟨b, x, c1, c2, c3⟩ := (convert_inv F.tree [] _ hnd d2).1 n hmem hl hs
    obtain ⟨f, b, sp, e1, rfl, e3, e4⟩ := realValue_inv c2
    rw [hid] at c1 c3
    exact ⟨ms[j], f, b, sp, x, List.getElem?_eq_getElem hjl, c1, e1, e3, e4, n, P, d, hn, hl, e1, hP,
      hs, d1, c3⟩

/-- One step by bins is one step by thresholds if the two tests agree for the recorded bins. -/
theorem step_of_binSide {S : Setup K α} {F : Fitted K} {gm : Dict Nat Int}
    {ms : List (Dict Nat Int)} {rows : Option Nat → DTable K (List Rat)}
    (hnd : (F.tree.map Node.id).Nodup)
    (hpos : ∀ (i : Nat) n, F.tree[i]? = some n → n.id = i) (hlen : S.hosts.length = ms.length)
    (h3 : convert .guest S.guest.splits gm F.tree [] = .ok F.guestMask)
    (h4 : convertHosts F.tree S.hosts ms = .ok F.hostMasks)
    (hraw : ∀ j P, partyAt S j = some P → Binned P (rows j))
    (hok : ∀ (i : Nat) n j P m f b sp t, F.tree[i]? = some n → n.isLeaf = false →
      partyAt S j = some P → n.site = siteName P j → maskAt gm ms j = some m →
      Dict.get? m i = some ((b : Nat) : Int) → n.fid = some ((f : Nat) : Int) →
      P.splits[f]? = some sp → sp[b]? = some t → BinOk sp b t)
    {k : K} {i c : Nat} {n : Node} {b : Bool} (hn : F.tree[i]? = some n) (hl : n.isLeaf = false)
    (hs : BinSide S gm ms k i n b) (hc : (if b then n.left else n.right) = some c) :
    Step S F rows k i c := by
  obtain ⟨j, P, m, brow, f, z, bid, h1, h2, h5, h6, h7, h8, h9, rfl⟩ := hs
  obtain ⟨m', f', b', sp, t, a1, a2, a3, a4, a5, a6⟩ :=
    threshold_of_mask hnd hpos hlen h3 h4 hn hl h1 h2
  rw [h5, Option.some.injEq] at a1
  subst a1
  rw [h6, Option.some.injEq] at a2
  subst a2
  rw [h8, Option.some.injEq] at a3
  have hff : f = f' := by exact_mod_cast a3
  subst hff
  obtain ⟨row, r1, _, r3⟩ := (hraw j P h1).rows k brow h7
  obtain ⟨z', z1, z2⟩ := r3 f sp a4
  rw [h9, Option.some.injEq] at z1
  subst z1
  have hiff := hok i n j P m f b' sp t hn hl h1 h2 h5 h6 h8 a4 a5 (value row f)
  rw [z2] at hc
  refine ⟨j, f, t, row, n, a6, r1, hn, ?_⟩
  by_cases hv : value row f ≤ t
  · left
    have : (Cell.bin (getBinNum (value row f) sp)).val ≤ ((b' : Int) : Rat) := by
      simp only [Binning.Cell.val, Int.cast_natCast, Nat.cast_le]
      exact hiff.mpr hv
    rw [decide_eq_true this] at hc
    exact ⟨hv, by simpa using hc⟩
  · right
    have : ¬ (Cell.bin (getBinNum (value row f) sp)).val ≤ ((b' : Int) : Rat) := by
      simp only [Binning.Cell.val, Int.cast_natCast, Nat.cast_le]
      exact fun hc => hv (hiff.mp hc)
    rw [decide_eq_false this] at hc
    exact ⟨not_le.mp hv, by simpa using hc⟩

/-- Walking by bins is walking by thresholds if the two tests agree for the recorded bins. -/
theorem reaches_of_binReach {S : Setup K α} {F : Fitted K} {gm : Dict Nat Int}
    {ms : List (Dict Nat Int)} {rows : Option Nat → DTable K (List Rat)}
    (hnd : (F.tree.map Node.id).Nodup)
    (hpos : ∀ (i : Nat) n, F.tree[i]? = some n → n.id = i) (hlen : S.hosts.length = ms.length)
    (h3 : convert .guest S.guest.splits gm F.tree [] = .ok F.guestMask)
    (h4 : convertHosts F.tree S.hosts ms = .ok F.hostMasks)
    (hraw : ∀ j P, partyAt S j = some P → Binned P (rows j))
    (hok : ∀ (i : Nat) n j P m f b sp t, F.tree[i]? = some n → n.isLeaf = false →
      partyAt S j = some P → n.site = siteName P j → maskAt gm ms j = some m →
      Dict.get? m i = some ((b : Nat) : Int) → n.fid = some ((f : Nat) : Int) →
      P.splits[f]? = some sp → sp[b]? = some t → BinOk sp b t)
    {k : K} {i : Nat} (h : BinReach S F.tree gm ms k i) : Reaches S F rows k i := by
  induction h with
  | root => exact .refl
  | @step i n b c _ hn hl hs hc ih =>
    exact ih.tail (step_of_binSide hnd hpos hlen h3 h4 hraw hok hn hl hs hc)

omit [DecidableEq K] in
/-- A party is known by its name. -/
theorem party_unique {S : Setup K α} (hidx : (S.hosts.map Party.idx).Nodup) {j j' : Option Nat}
    {P P' : Party K} (h : partyAt S j = some P) (h' : partyAt S j' = some P')
    (hs : siteName P j = siteName P' j') : j = j' := by
  cases j with
  | none =>
    cases j' with
    | none => rfl
    | some j' => simp [siteName] at hs
  | some j =>
    cases j' with
    | none => simp [siteName] at hs
    | some j' =>
      simp only [siteName, Site.host.injEq] at hs
      simp only [partyAt] at h h'
      have e1 : (S.hosts.map Party.idx)[j]? = some P.idx := by rw [List.getElem?_map, h]; rfl
      have e2 : (S.hosts.map Party.idx)[j']? = some P.idx := by rw [List.getElem?_map, h', hs]; rfl
      obtain ⟨l1, l2⟩ := List.getElem?_eq_some_iff.mp e1
      rw [← e2] at e1
      rw [(List.getElem?_inj l1 hidx).mp e1]

/-- A walk has no choice. -/
theorem step_unique {S : Setup K α} {F : Fitted K} {rows : Option Nat → DTable K (List Rat)}
    (hidx : (S.hosts.map Party.idx).Nodup) (k : K) : Relator.RightUnique (Step S F rows k) := by
  rintro i c c' ⟨j, f, t, row, n, ⟨n1, P, d, a1, a2, a3, a4, a5, a6, a7⟩, h2, h3, h4⟩
    ⟨j', f', t', row', n', ⟨n1', P', d', b1, b2, b3, b4, b5, b6, b7⟩, h2', h3', h4'⟩
  rw [h3, Option.some.injEq] at a1 h3'
  subst h3' a1
  rw [h3, Option.some.injEq] at b1
  subst b1
  have hj := party_unique hidx a4 b4 (by rw [← a5, ← b5])
  subst hj
  rw [a6, Option.some.injEq] at b6; subst b6
  rw [a7, Option.some.injEq] at b7; subst b7
  rw [h2, Option.some.injEq] at h2'; subst h2'
  rw [a3, Option.some.injEq] at b3
  have : f = f' := by exact_mod_cast b3
  subst this
  rcases h4 with ⟨q1, q2⟩ | ⟨q1, q2⟩ <;> rcases h4' with ⟨q3, q4⟩ | ⟨q3, q4⟩
  · rw [q2] at q4; exact Option.some.inj q4
  · exact absurd q1 (not_le.mpr q3)
  · exact absurd q3 (not_le.mpr q1)
  · rw [q2] at q4; exact Option.some.inj q4

/-- A walk ends in one leaf. -/
theorem reaches_unique {S : Setup K α} {F : Fitted K} {rows : Option Nat → DTable K (List Rat)}
    (hidx : (S.hosts.map Party.idx).Nodup) {k : K} {i i' : Nat} {n n' : Node}
    (h : Reaches S F rows k i) (h' : Reaches S F rows k i')
    (hn : F.tree[i]? = some n) (hl : n.isLeaf = true) (hn' : F.tree[i']? = some n')
    (hl' : n'.isLeaf = true) : i = i' := by
  have hstop : ∀ (a b : Nat) m, F.tree[a]? = some m → m.isLeaf = true →
      Relation.ReflTransGen (Step S F rows k) a b → a = b := by
    intro a b m ha hm hr
    rcases Relation.ReflTransGen.cases_head hr with rfl | ⟨c, hc, _⟩
    · rfl
    · obtain ⟨_, _, _, _, _, ⟨n1, P, d, a1, a2, _⟩, _⟩ := hc
      rw [ha, Option.some.injEq] at a1
      subst a1
      rw [hm] at a2; cases a2
  rcases Relation.ReflTransGen.total_of_right_unique (step_unique hidx k) h h' with hr | hr
  · exact hstop i i' n hn hl hr
  · exact (hstop i' i n' hn' hl' hr).symm

end DTree
end Verif
