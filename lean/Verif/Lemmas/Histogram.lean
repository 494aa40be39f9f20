import Verif.Model.Histogram
import Verif.Lemmas.DTable
import Verif.Lemmas.DTableM
import Mathlib.Algebra.Group.Prod
import Mathlib.Algebra.BigOperators.Group.List.Basic
import Mathlib.Algebra.Order.Ring.Rat
import Mathlib.Tactic.Abel
import Mathlib.Tactic.Linarith

/-! # Lemmas about the histogram code on plain numbers -/

set_option autoImplicit false

namespace Verif
namespace Histogram

open Binning (Cell SparseVec)

/-! ### Cells -/

theorem addCell_plain (d c : HCell Rat) : addCell plain d c = .ok (c + d) := rfl

theorem subCell_plain (a b : HCell Rat) : subCell plain a b = .ok (a - b) := rfl

theorem zeroCell_plain : zeroCell plain = (0 : HCell Rat) := rfl

/-! ### `updAt` -/

theorem updAt_ok {β : Type} (l : List β) (i : Nat) (f : β → Except PyErr β) (x y : β)
    (hx : l[i]? = some x) (hy : f x = .ok y) : updAt l i f = .ok (l.set i y) := by
  induction l generalizing i with
  | nil => simp at hx
  | cons a l ih =>
    cases i with
    | zero =>
      simp only [List.getElem?_cons_zero, Option.some.injEq] at hx
      subst hx
      simp [updAt, hy, bind, Except.bind, pure, Except.pure]
    | succ i =>
      simp only [List.getElem?_cons_succ] at hx
      simp [updAt, ih i hx, bind, Except.bind, pure, Except.pure]

theorem getElem?_getD_cell {β : Type} (l : List β) (i : Nat) (d : β) : l.getD i d = (l[i]?).getD d := by
  simp

/-- Reading a cell of a list of bins; missing cells read as zero. -/
def at1 (l : List (HCell Rat)) (b : Nat) : HCell Rat := (l[b]?).getD 0

/-- Reading a row. -/
def row {β : Type} (l : List (List β)) (f : Nat) : List β := (l[f]?).getD []

/-- The indicator sum term. -/
def ind (p : Prop) [Decidable p] (d : HCell Rat) : HCell Rat := if p then d else 0

theorem row_set {β : Type} (l : List (List β)) (f f' : Nat) (r : List β) (hf : f < l.length) :
    row (l.set f r) f' = if f' = f then r else row l f' := by
  unfold row
  by_cases h : f' = f
  · subst h; simp [hf]
  · rw [if_neg h, List.getElem?_set_ne (by omega)]

theorem row_lt {β : Type} {l : List (List β)} {f : Nat} (h : row l f ≠ []) : f < l.length := by
  by_contra hc
  apply h
  unfold row
  rw [List.getElem?_eq_none (by omega)]
  rfl

theorem row_some {β : Type} {l : List (List β)} {f : Nat} (h : f < l.length) :
    l[f]? = some (row l f) := by
  unfold row
  rw [List.getElem?_eq_getElem h]; rfl

theorem updAt_cell (l : List (HCell Rat)) (b : Nat) (d : HCell Rat) (hb : b < l.length) :
    ∃ l', updAt l b (addCell plain d) = .ok l' ∧ l'.length = l.length ∧
      ∀ b', at1 l' b' = at1 l b' + ind (b' = b) d := by
  refine ⟨l.set b (l[b] + d), updAt_ok l b _ l[b] _ (List.getElem?_eq_getElem hb) (addCell_plain d _),
    by simp, ?_⟩
  intro b'
  unfold at1 ind
  by_cases h : b' = b
  · subst h; simp [hb]
  · rw [List.getElem?_set_ne (by omega), if_neg h, add_zero]

/-- Reading a cell of a feature histogram. -/
def at2 (l : List (List (HCell Rat))) (f b : Nat) : HCell Rat := at1 (row l f) b

theorem updAt_row (l : List (List (HCell Rat))) (f b : Nat) (d : HCell Rat) (hb : b < (row l f).length) :
    ∃ l', (updAt l f fun bins => updAt bins b (addCell plain d)) = .ok l' ∧ l'.length = l.length ∧
      (∀ f', (row l' f').length = (row l f').length) ∧
      ∀ f' b', at2 l' f' b' = at2 l f' b' + ind (f' = f ∧ b' = b) d := by
  have hf : f < l.length := row_lt (by intro h; rw [h] at hb; simp at hb)
  obtain ⟨r, r1, r2, r3⟩ := updAt_cell (row l f) b d hb
  refine ⟨l.set f r, updAt_ok l f _ (row l f) r (row_some hf) r1, by simp, ?_, ?_⟩
  · intro f'
    rw [row_set l f f' r hf]
    by_cases h : f' = f
    · subst h; rw [if_pos rfl, r2]
    · rw [if_neg h]
  · intro f' b'
    unfold at2
    rw [row_set l f f' r hf]
    by_cases h : f' = f
    · subst h; rw [if_pos rfl, r3]; simp [ind]
    · rw [if_neg h]; simp [ind, h]

/-- Reading a cell of all histograms. -/
def at3 (l : Hist Rat) (n f b : Nat) : HCell Rat := at2 (row l n) f b

theorem updAt_node (l : Hist Rat) (n f b : Nat) (d : HCell Rat) (hb : b < (row (row l n) f).length) :
    ∃ l', (updAt l n fun fh => updAt fh f fun bins => updAt bins b (addCell plain d)) = .ok l' ∧
      l'.length = l.length ∧ (∀ n', (row l' n').length = (row l n').length) ∧
      (∀ n' f', (row (row l' n') f').length = (row (row l n') f').length) ∧
      ∀ n' f' b', at3 l' n' f' b' = at3 l n' f' b' + ind (n' = n ∧ f' = f ∧ b' = b) d := by
  have hn : n < l.length := row_lt (by intro h; rw [h] at hb; simp [row] at hb)
  obtain ⟨r, r1, r2, r3, r4⟩ := updAt_row (row l n) f b d hb
  refine ⟨l.set n r, updAt_ok l n _ (row l n) r (row_some hn) r1, by simp, ?_, ?_, ?_⟩
  · intro n'
    rw [row_set l n n' r hn]
    by_cases h : n' = n
    · subst h; rw [if_pos rfl, r2]
    · rw [if_neg h]
  · intro n' f'
    rw [row_set l n n' r hn]
    by_cases h : n' = n
    · subst h; rw [if_pos rfl, r3]
    · rw [if_neg h]
  · intro n' f' b'
    unfold at3
    rw [row_set l n n' r hn]
    by_cases h : n' = n
    · subst h; rw [if_pos rfl, r4]; simp [ind]
    · rw [if_neg h]; simp [ind, h]

/-! ### The record loop -/

theorem isDisabled_some (v : List Bool) (f : Nat) (h : f < v.length) :
    isDisabled (some v) f = .ok (!v.getD f false) := by
  simp [isDisabled, getAt, bind, Except.bind, pure, Except.pure, h]

theorem isEnabled_some (v : List Bool) (f : Nat) (h : f < v.length) :
    isEnabled (some v) f = .ok (v.getD f false) := by
  simp [isEnabled, getAt, h]

/-- What the stored entries of a record add to the cell of feature `f` and bin `b`. -/
def entrySum (v : List Bool) (d : HCell Rat) (f b : Nat) (l : List (Nat × Cell)) : HCell Rat :=
  (l.map fun e => ind (v.getD e.1 false = true ∧ f = e.1 ∧ e.2 = .bin b) d).sum

/-- What the stored entries of a record add to the `zero_optim` cell of feature `f`. -/
def storedSum (v : List Bool) (d : HCell Rat) (f : Nat) (l : List (Nat × Cell)) : HCell Rat :=
  (l.map fun e => ind (v.getD e.1 false = true ∧ f = e.1) d).sum

/-- Sizes of the accumulators. -/
structure Shape (N F : Nat) (len : Nat → Nat) (v : List Bool) (acc : Acc Rat) : Prop where
  hist : acc.hist.length = N
  nodes : ∀ n < N, (row acc.hist n).length = F
  bins : ∀ n < N, ∀ f < F, (row (row acc.hist n) f).length = if v.getD f false then len f else 0
  zo : acc.zeroOptim.length = N
  zos : ∀ n < N, (row acc.zeroOptim n).length = F
  ns : acc.nodeSum.length = N

theorem featureLoop_ok (N F : Nat) (len : Nat → Nat) (v : List Bool) (hv : v.length = F) (nid : Nat)
    (hn : nid < N) (d : HCell Rat) (l : List (Nat × Cell))
    (hl : ∀ e ∈ l, e.1 < F ∧ ∃ b, e.2 = .bin b ∧ b < len e.1) (acc : Acc Rat)
    (hs : Shape N F len v acc) :
    ∃ acc', featureLoop plain (some v) nid d l acc = .ok acc' ∧ Shape N F len v acc' ∧
      acc'.nodeSum = acc.nodeSum ∧
      (∀ n f b, at3 acc'.hist n f b = at3 acc.hist n f b + ind (n = nid) (entrySum v d f b l)) ∧
      ∀ n f, at2 acc'.zeroOptim n f = at2 acc.zeroOptim n f + ind (n = nid) (storedSum v d f l) := by
  induction l generalizing acc with
  | nil =>
    exact ⟨acc, rfl, hs, rfl, by intros; simp [entrySum, ind], by intros; simp [storedSum, ind]⟩
  | cons e l ih =>
    obtain ⟨fid, c⟩ := e
    obtain ⟨hf, b, hb, hbl⟩ := hl (fid, c) (by simp)
    simp only at hf hb hbl
    subst hb
    have hl' : ∀ e ∈ l, e.1 < F ∧ ∃ b, e.2 = .bin b ∧ b < len e.1 := fun e he => hl e (by simp [he])
    have hdis := isDisabled_some v fid (by omega)
    cases hen : v.getD fid false with
    | false =>
      obtain ⟨acc', a1, a2, a3, a4, a5⟩ := ih hl' acc hs
      refine ⟨acc', ?_, a2, a3, ?_, ?_⟩
      · unfold featureLoop
        rw [hdis, hen]
        simpa [bind, Except.bind] using a1
      · intro n f b'
        rw [a4]
        congr 2
        unfold entrySum
        rw [List.map_cons, List.sum_cons]
        simp [ind, hen, -List.getD_eq_getElem?_getD]
      · intro n f
        rw [a5]
        congr 2
        unfold storedSum
        rw [List.map_cons, List.sum_cons]
        simp [ind, hen, -List.getD_eq_getElem?_getD]
    | true =>
      obtain ⟨h', h1, h2, h3, h4, h5⟩ := updAt_node acc.hist nid fid b d (by
        rw [hs.bins nid hn fid hf, hen]; simpa using hbl)
      obtain ⟨z', z1, z2, z3, z4⟩ := updAt_row acc.zeroOptim nid fid d (by
        rw [hs.zos nid hn]; exact hf)
      obtain ⟨acc', a1, a2, a3, a4, a5⟩ := ih hl' { acc with hist := h', zeroOptim := z' } ⟨
        by rw [← hs.hist, ← h2], fun n hn' => by rw [← hs.nodes n hn', ← h3 n],
        fun n hn' f hf' => by rw [← hs.bins n hn' f hf', ← h4 n f],
        by rw [← hs.zo, ← z2], fun n hn' => by rw [← hs.zos n hn', ← z3 n], hs.ns⟩
      refine ⟨acc', ?_, a2, a3, ?_, ?_⟩
      · unfold featureLoop
        rw [hdis, hen]
        simp only [bind, Except.bind, Bool.not_true, Bool.false_eq_true, if_false]
        rw [h1]
        simp only
        rw [z1]
        exact a1
      · intro n f b'
        rw [a4]
        simp only
        rw [h5, add_assoc]
        congr 1
        unfold entrySum
        rw [List.map_cons, List.sum_cons]
        by_cases hnn : n = nid
        · subst hnn
          simp only [ind, true_and, if_true, hen, Cell.bin.injEq]
          congr 1
          by_cases hff : f = fid
          · by_cases hbb : b' = b
            · subst hff hbb; simp
            · have : ¬ b = b' := fun h => hbb h.symm
              simp [hbb, this]
          · simp [hff]
        · simp [ind, hnn]
      · intro n f
        rw [a5]
        simp only
        rw [z4, add_assoc]
        congr 1
        unfold storedSum
        rw [List.map_cons, List.sum_cons]
        by_cases hnn : n = nid
        · subst hnn
          simp [ind, hen, -List.getD_eq_getElem?_getD]
        · simp [ind, hnn]

/-- The amounts a record adds. -/
def amount (r : Record Rat) : HCell Rat := (r.grad, r.hess, 1)

theorem recordLoop_ok (N F : Nat) (len : Nat → Nat) (v : List Bool) (hv : v.length = F)
    (nodeMap : Dict Nat Nat) (rs : List (Record Rat))
    (hr : ∀ r ∈ rs, (∃ n, nodeMap.get? r.nodeId = some n ∧ n < N) ∧
      ∀ e ∈ r.features.vec, e.1 < F ∧ ∃ b, e.2 = .bin b ∧ b < len e.1)
    (acc : Acc Rat) (hs : Shape N F len v acc) :
    ∃ acc', recordLoop plain (some v) nodeMap rs acc = .ok acc' ∧ Shape N F len v acc' ∧
      (∀ n, at1 acc'.nodeSum n = at1 acc.nodeSum n +
        (rs.map fun r => ind (nodeMap.get? r.nodeId = some n) (amount r)).sum) ∧
      (∀ n f b, at3 acc'.hist n f b = at3 acc.hist n f b +
        (rs.map fun r => ind (nodeMap.get? r.nodeId = some n)
          (entrySum v (amount r) f b r.features.vec)).sum) ∧
      ∀ n f, at2 acc'.zeroOptim n f = at2 acc.zeroOptim n f +
        (rs.map fun r => ind (nodeMap.get? r.nodeId = some n)
          (storedSum v (amount r) f r.features.vec)).sum := by
  induction rs generalizing acc with
  | nil => exact ⟨acc, rfl, hs, by simp, by simp, by simp⟩
  | cons r rs ih =>
    obtain ⟨⟨nid, hnid, hn⟩, hent⟩ := hr r (by simp)
    obtain ⟨s', s1, s2, s3⟩ := updAt_cell acc.nodeSum nid (amount r) (by rw [hs.ns]; exact hn)
    obtain ⟨acc1, b1, b2, b3, b4, b5⟩ := featureLoop_ok N F len v hv nid hn (amount r) r.features.vec hent
      { acc with nodeSum := s' } ⟨hs.hist, hs.nodes, hs.bins, hs.zo, hs.zos, by rw [← hs.ns, ← s2]⟩
    obtain ⟨acc', a1, a2, a3, a4, a5⟩ := ih (fun r hr' => hr r (by simp [hr'])) acc1 b2
    refine ⟨acc', ?_, a2, ?_, ?_, ?_⟩
    · unfold recordLoop
      rw [hnid]
      simp only [bind, Except.bind]
      have : updAt acc.nodeSum nid (addCell plain (r.grad, r.hess, 1)) = .ok s' := s1
      rw [this]
      simp only
      have : featureLoop plain (some v) nid (r.grad, r.hess, 1) r.features.allData
        { acc with nodeSum := s' } = .ok acc1 := b1
      rw [this]
      exact a1
    · intro n
      rw [a3, b3]
      simp only
      rw [s3, List.map_cons, List.sum_cons, add_assoc, hnid]
      congr 2
      simp [ind, eq_comm]
    · intro n f b
      rw [a4, b4, List.map_cons, List.sum_cons, add_assoc, hnid]
      simp only
      congr 2
      simp [ind, eq_comm]
    · intro n f
      rw [a5, b5, List.map_cons, List.sum_cons, add_assoc, hnid]
      simp only
      congr 2
      simp [ind, eq_comm]

/-! ### The correction for entries that are not stored -/

theorem zeroFixNode_ok (F : Nat) (len : Nat → Nat) (v : List Bool) (hv : v.length = F)
    (sparse : Dict Nat Nat) (s : HCell Rat)
    (hsp : ∀ f < F, ∃ z, sparse.get? f = some z ∧ z < len f) :
    ∀ (fid : Nat) (zs : List (HCell Rat)) (fh : List (List (HCell Rat))),
      fid + zs.length = F → fh.length = zs.length →
      (∀ i < zs.length, (row fh i).length = if v.getD (fid + i) false then len (fid + i) else 0) →
      ∃ fh', zeroFixNode plain (some v) sparse s fid zs fh = .ok fh' ∧ fh'.length = fh.length ∧
        (∀ i, (row fh' i).length = (row fh i).length) ∧
        ∀ i < zs.length, ∀ b, at2 fh' i b = at2 fh i b +
          ind (v.getD (fid + i) false = true ∧ sparse.get? (fid + i) = some b) (s - at1 zs i) := by
  intro fid zs
  induction zs generalizing fid with
  | nil =>
    intro fh _ _ _
    exact ⟨fh, by simp [zeroFixNode], rfl, fun _ => rfl, by simp⟩
  | cons z zs ih =>
    intro fh h1 h2 h3
    cases fh with
    | nil => simp at h2
    | cons bins fh =>
      simp only [List.length_cons] at h1 h2
      have hlen0 := h3 0 (by simp)
      simp only [Nat.add_zero] at hlen0
      have hrow0 : row (bins :: fh) 0 = bins := rfl
      rw [hrow0] at hlen0
      obtain ⟨fh', r1, r2, r3, r4⟩ := ih (fid + 1) fh (by omega) (by omega) (by
        intro i hi
        have := h3 (i + 1) (by simp; omega)
        have e : fid + (i + 1) = fid + 1 + i := by omega
        rw [e] at this
        exact this)
      have hen := isEnabled_some v fid (by omega)
      obtain ⟨zb, z1, z2⟩ := hsp fid (by omega)
      have hbins : ∃ bins', zeroFixIf plain sparse s z fid bins (v.getD fid false) = .ok bins' ∧
          bins'.length = bins.length ∧ ∀ b, at1 bins' b = at1 bins b +
            ind (v.getD fid false = true ∧ sparse.get? fid = some b) (s - z) := by
        cases he : v.getD fid false with
        | false => exact ⟨bins, rfl, rfl, fun b => by simp [ind]⟩
        | true =>
          rw [he] at hlen0
          obtain ⟨l', l1, l2, l3⟩ := updAt_cell bins zb (s - z) (by rw [hlen0]; simpa using z2)
          refine ⟨l', ?_, l2, ?_⟩
          · unfold zeroFixIf zeroFix
            rw [z1]
            simpa [subCell_plain, bind, Except.bind] using l1
          · intro b
            rw [l3, z1]
            simp [ind, eq_comm]
      obtain ⟨bins', c1, c2, c3⟩ := hbins
      refine ⟨bins' :: fh', ?_, by simp [r2], ?_, ?_⟩
      · unfold zeroFixNode
        rw [hen]
        simp only [bind, Except.bind]
        rw [c1]
        simp only
        rw [r1]
        rfl
      · intro i
        cases i with
        | zero => exact c2
        | succ i => exact r3 i
      · intro i hi b
        cases i with
        | zero => exact c3 b
        | succ i =>
          have := r4 i (by simpa using hi) b
          have e : fid + (i + 1) = fid + 1 + i := by omega
          rw [e]
          exact this

theorem zeroFixAll_ok (F : Nat) (len : Nat → Nat) (v : List Bool) (hv : v.length = F)
    (sparse : Dict Nat Nat) (hsp : ∀ f < F, ∃ z, sparse.get? f = some z ∧ z < len f) :
    ∀ (ss : List (HCell Rat)) (zs : List (List (HCell Rat))) (h : Hist Rat),
      zs.length = ss.length → h.length = ss.length →
      (∀ n < ss.length, (row zs n).length = F) → (∀ n < ss.length, (row h n).length = F) →
      (∀ n < ss.length, ∀ f < F, (row (row h n) f).length = if v.getD f false then len f else 0) →
      ∃ h', zeroFixAll plain (some v) sparse ss zs h = .ok h' ∧ h'.length = h.length ∧
        (∀ n, (row h' n).length = (row h n).length) ∧
        (∀ n f, (row (row h' n) f).length = (row (row h n) f).length) ∧
        ∀ n < ss.length, ∀ f < F, ∀ b, at3 h' n f b = at3 h n f b +
          ind (v.getD f false = true ∧ sparse.get? f = some b) (at1 ss n - at2 zs n f) := by
  intro ss
  induction ss with
  | nil =>
    intro zs h _ _ _ _ _
    exact ⟨h, by simp [zeroFixAll], rfl, fun _ => rfl, fun _ _ => rfl, by simp⟩
  | cons s ss ih =>
    intro zs h h1 h2 h3 h4 h5
    cases zs with
    | nil => simp at h1
    | cons z zs =>
      cases h with
      | nil => simp at h2
      | cons fh h =>
        simp only [List.length_cons] at h1 h2
        have e3 : z.length = F := h3 0 (by simp)
        have e4 : fh.length = F := h4 0 (by simp)
        have e5 : ∀ f < F, (row fh f).length = if v.getD f false then len f else 0 := h5 0 (by simp)
        obtain ⟨fh', a1, a2, a3, a4⟩ := zeroFixNode_ok F len v hv sparse s hsp 0 z fh (by omega) (by omega)
          (by intro i hi; rw [Nat.zero_add]; exact e5 i (by omega))
        obtain ⟨h', b1, b2, b3, b4, b5⟩ := ih zs h (by omega) (by omega)
          (fun n hn => h3 (n + 1) (by simp; omega)) (fun n hn => h4 (n + 1) (by simp; omega))
          (fun n hn => h5 (n + 1) (by simp; omega))
        refine ⟨fh' :: h', ?_, by simp [b2], ?_, ?_, ?_⟩
        · unfold zeroFixAll
          simp only [bind, Except.bind]
          rw [a1]
          simp only
          rw [b1]
          rfl
        · intro n
          cases n with
          | zero => exact a2
          | succ n => exact b3 n
        · intro n f
          cases n with
          | zero => exact a3 f
          | succ n => exact b4 n f
        · intro n hn f hf b
          cases n with
          | zero =>
            have := a4 f (by omega) b
            rw [Nat.zero_add] at this
            exact this
          | succ n => exact b5 n (by simpa using hn) f hf b

end Histogram
end Verif
