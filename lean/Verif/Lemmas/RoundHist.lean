import Verif.Lemmas.HistogramSum

/-! # The histogram code with rounded sums: which sums every cell holds -/

set_option autoImplicit false

namespace Verif
namespace Histogram

open Binning (Cell SparseVec)
open Spec

/-- `c + d`, rounded; counts are ints. -/
def radd (rnd : Rat → Rat) (c d : HCell Rat) : HCell Rat :=
  (rnd (c.1 + d.1), rnd (c.2.1 + d.2.1), c.2.2 + d.2.2)

/-- `c - d`, rounded; counts are ints. -/
def rsub (rnd : Rat → Rat) (c d : HCell Rat) : HCell Rat :=
  (rnd (c.1 - d.1), rnd (c.2.1 - d.2.1), c.2.2 - d.2.2)

/-- Adding the cells of a list, one after the other. -/
def rsum (rnd : Rat → Rat) : HCell Rat → List (HCell Rat) → HCell Rat
  | c, [] => c
  | c, d :: l => rsum rnd (radd rnd c d) l

theorem rsum_append (rnd : Rat → Rat) (c : HCell Rat) (l l' : List (HCell Rat)) :
    rsum rnd c (l ++ l') = rsum rnd (rsum rnd c l) l' := by
  induction l generalizing c with
  | nil => rfl
  | cons d l ih => exact ih _

variable (rnd : Rat → Rat)

theorem addCell_floats (d c : HCell Rat) : addCell (floats rnd) d c = .ok (radd rnd c d) := rfl

theorem subCell_floats (a b : HCell Rat) : subCell (floats rnd) a b = .ok (rsub rnd a b) := rfl

theorem zeroCell_floats : zeroCell (floats rnd) = (0 : HCell Rat) := rfl

/-! ### `updAt` -/

theorem updAt_cellR (l : List (HCell Rat)) (b : Nat) (d : HCell Rat) (hb : b < l.length) :
    ∃ l', updAt l b (addCell (floats rnd) d) = .ok l' ∧ l'.length = l.length ∧
      ∀ b', at1 l' b' = if b' = b then radd rnd (at1 l b') d else at1 l b' := by
  refine ⟨l.set b (radd rnd l[b] d), updAt_ok l b _ l[b] _ (List.getElem?_eq_getElem hb) (addCell_floats rnd d _),
    by simp, ?_⟩
  intro b'
  unfold at1
  by_cases h : b' = b
  · subst h; simp [hb]
  · rw [List.getElem?_set_ne (by omega), if_neg h]

theorem updAt_rowR (l : List (List (HCell Rat))) (f b : Nat) (d : HCell Rat) (hb : b < (row l f).length) :
    ∃ l', (updAt l f fun bins => updAt bins b (addCell (floats rnd) d)) = .ok l' ∧ l'.length = l.length ∧
      (∀ f', (row l' f').length = (row l f').length) ∧
      ∀ f' b', at2 l' f' b' = if f' = f ∧ b' = b then radd rnd (at2 l f' b') d else at2 l f' b' := by
  have hf : f < l.length := row_lt (by intro h; rw [h] at hb; simp at hb)
  obtain ⟨r, r1, r2, r3⟩ := updAt_cellR rnd (row l f) b d hb
  refine ⟨l.set f r, updAt_ok l f _ (row l f) r (row_some hf) r1, by simp, ?_, ?_⟩
  · intro f'
    rw [row_set l f f' r hf]
    by_cases h : f' = f
    · subst h; rw [if_pos rfl, r2]
    · rw [if_neg h]
  · intro f' b'
    unfold at2
    rw [row_set l f f' r hf]
    by_cases h : f' = f
    · subst h; rw [if_pos rfl, r3]; simp
    · rw [if_neg h]; simp [h]

theorem updAt_nodeR (l : Hist Rat) (n f b : Nat) (d : HCell Rat) (hb : b < (row (row l n) f).length) :
    ∃ l', (updAt l n fun fh => updAt fh f fun bins => updAt bins b (addCell (floats rnd) d)) = .ok l' ∧
      l'.length = l.length ∧ (∀ n', (row l' n').length = (row l n').length) ∧
      (∀ n' f', (row (row l' n') f').length = (row (row l n') f').length) ∧
      ∀ n' f' b', at3 l' n' f' b' =
        if n' = n ∧ f' = f ∧ b' = b then radd rnd (at3 l n' f' b') d else at3 l n' f' b' := by
  have hn : n < l.length := row_lt (by intro h; rw [h] at hb; simp [row] at hb)
  obtain ⟨r, r1, r2, r3, r4⟩ := updAt_rowR rnd (row l n) f b d hb
  refine ⟨l.set n r, updAt_ok l n _ (row l n) r (row_some hn) r1, by simp, ?_, ?_, ?_⟩
  · intro n'
    rw [row_set l n n' r hn]
    by_cases h : n' = n
    · subst h; rw [if_pos rfl, r2]
    · rw [if_neg h]
  · intro n' f'
    rw [row_set l n n' r hn]
    by_cases h : n' = n
    · subst h; rw [if_pos rfl, r3]
    · rw [if_neg h]
  · intro n' f' b'
    unfold at3
    rw [row_set l n n' r hn]
    by_cases h : n' = n
    · subst h; rw [if_pos rfl, r4]; simp
    · rw [if_neg h]; simp [h]

/-! ### The record loop -/

/-- The amount added for entries with property `p`, once for every entry. -/
def hits (p : Nat × Cell → Bool) (d : HCell Rat) (l : List (Nat × Cell)) : List (HCell Rat) :=
  (l.filter p).map fun _ => d

/-- An entry of the enabled feature `f` in bin `b`. -/
def isEntry (v : List Bool) (f b : Nat) (e : Nat × Cell) : Bool :=
  decide (v.getD e.1 false = true ∧ f = e.1 ∧ e.2 = .bin b)

/-- An entry of the enabled feature `f`. -/
def isStored (v : List Bool) (f : Nat) (e : Nat × Cell) : Bool :=
  decide (v.getD e.1 false = true ∧ f = e.1)

theorem hits_pos {p : Nat × Cell → Bool} {d : HCell Rat} {e : Nat × Cell} {l : List (Nat × Cell)}
    (h : p e = true) : hits p d (e :: l) = d :: hits p d l := by
  unfold hits; rw [List.filter_cons_of_pos h, List.map_cons]

theorem hits_neg {p : Nat × Cell → Bool} {d : HCell Rat} {e : Nat × Cell} {l : List (Nat × Cell)}
    (h : ¬ p e = true) : hits p d (e :: l) = hits p d l := by
  unfold hits; rw [List.filter_cons_of_neg h]

theorem featureLoop_okR (N F : Nat) (len : Nat → Nat) (v : List Bool) (hv : v.length = F) (nid : Nat)
    (hn : nid < N) (d : HCell Rat) (l : List (Nat × Cell))
    (hl : ∀ e ∈ l, e.1 < F ∧ ∃ b, e.2 = .bin b ∧ b < len e.1) (acc : Acc Rat)
    (hs : Shape N F len v acc) :
    ∃ acc', featureLoop (floats rnd) (some v) nid d l acc = .ok acc' ∧ Shape N F len v acc' ∧
      acc'.nodeSum = acc.nodeSum ∧
      (∀ n f b, at3 acc'.hist n f b =
        if n = nid then rsum rnd (at3 acc.hist n f b) (hits (isEntry v f b) d l) else at3 acc.hist n f b) ∧
      ∀ n f, at2 acc'.zeroOptim n f =
        if n = nid then rsum rnd (at2 acc.zeroOptim n f) (hits (isStored v f) d l) else at2 acc.zeroOptim n f := by
  induction l generalizing acc with
  | nil =>
    exact ⟨acc, rfl, hs, rfl, by intros; simp [hits, rsum], by intros; simp [hits, rsum]⟩
  | cons e l ih =>
    obtain ⟨fid, c⟩ := e
    obtain ⟨hf, b, hb, hbl⟩ := hl (fid, c) (by simp)
    simp only at hf hb hbl
    subst hb
    have hl' : ∀ e ∈ l, e.1 < F ∧ ∃ b, e.2 = .bin b ∧ b < len e.1 := fun e he => hl e (by simp [he])
    have hdis := isDisabled_some v fid (by omega)
    cases hen : v.getD fid false with
    | false =>
      obtain ⟨acc', a1, a2, a3, a4, a5⟩ := ih hl' acc hs
      refine ⟨acc', ?_, a2, a3, ?_, ?_⟩
      · unfold featureLoop
        rw [hdis, hen]
        simpa [bind, Except.bind] using a1
      · intro n f b'
        rw [a4, hits_neg (by simp only [isEntry, hen]; simp)]
      · intro n f
        rw [a5, hits_neg (by simp only [isStored, hen]; simp)]
    | true =>
      obtain ⟨h', h1, h2, h3, h4, h5⟩ := updAt_nodeR rnd acc.hist nid fid b d (by
        rw [hs.bins nid hn fid hf, hen]; simpa using hbl)
      obtain ⟨z', z1, z2, z3, z4⟩ := updAt_rowR rnd acc.zeroOptim nid fid d (by
        rw [hs.zos nid hn]; exact hf)
      obtain ⟨acc', a1, a2, a3, a4, a5⟩ := ih hl' { acc with hist := h', zeroOptim := z' } ⟨
        by rw [← hs.hist, ← h2], fun n hn' => by rw [← hs.nodes n hn', ← h3 n],
        fun n hn' f hf' => by rw [← hs.bins n hn' f hf', ← h4 n f],
        by rw [← hs.zo, ← z2], fun n hn' => by rw [← hs.zos n hn', ← z3 n], hs.ns⟩
      refine ⟨acc', ?_, a2, a3, ?_, ?_⟩
      · unfold featureLoop
        rw [hdis, hen]
        simp only [bind, Except.bind, Bool.not_true, Bool.false_eq_true, if_false]
        rw [h1]
        simp only
        rw [z1]
        exact a1
      · intro n f b'
        rw [a4]
        simp only
        rw [h5]
        by_cases hnn : n = nid
        · subst hnn
          by_cases hff : f = fid ∧ b' = b
          · obtain ⟨rfl, rfl⟩ := hff
            rw [hits_pos (by simp only [isEntry, hen]; simp)]
            simp [rsum]
          · rw [hits_neg (by
              simp only [isEntry, hen, Cell.bin.injEq, true_and, decide_eq_true_eq]
              rintro ⟨h1, h2⟩; exact hff ⟨h1, h2.symm⟩)]
            simp [hff]
        · simp [hnn]
      · intro n f
        rw [a5]
        simp only
        rw [z4]
        by_cases hnn : n = nid
        · subst hnn
          by_cases hff : f = fid
          · subst hff
            rw [hits_pos (by simp only [isStored, hen]; simp)]
            simp [rsum]
          · rw [hits_neg (by simp only [isStored, hen]; simpa using hff)]
            simp [hff]
        · simp [hnn]

/-- What the records of node `n` add, each by `g`. -/
def recSum (nodeMap : Dict Nat Nat) (n : Nat) (g : Record Rat → List (HCell Rat)) (rs : List (Record Rat)) :
    List (HCell Rat) :=
  (rs.filter fun r => decide (nodeMap.get? r.nodeId = some n)).flatMap g

theorem recSum_pos {nodeMap : Dict Nat Nat} {n : Nat} {g : Record Rat → List (HCell Rat)} {r : Record Rat}
    {rs : List (Record Rat)} (h : nodeMap.get? r.nodeId = some n) :
    recSum nodeMap n g (r :: rs) = g r ++ recSum nodeMap n g rs := by
  unfold recSum; rw [List.filter_cons_of_pos (by simpa using h), List.flatMap_cons]

theorem recSum_neg {nodeMap : Dict Nat Nat} {n : Nat} {g : Record Rat → List (HCell Rat)} {r : Record Rat}
    {rs : List (Record Rat)} (h : ¬ nodeMap.get? r.nodeId = some n) :
    recSum nodeMap n g (r :: rs) = recSum nodeMap n g rs := by
  unfold recSum; rw [List.filter_cons_of_neg (by simpa using h)]

theorem recordLoop_okR (N F : Nat) (len : Nat → Nat) (v : List Bool) (hv : v.length = F)
    (nodeMap : Dict Nat Nat) (rs : List (Record Rat))
    (hr : ∀ r ∈ rs, (∃ n, nodeMap.get? r.nodeId = some n ∧ n < N) ∧
      ∀ e ∈ r.features.vec, e.1 < F ∧ ∃ b, e.2 = .bin b ∧ b < len e.1)
    (acc : Acc Rat) (hs : Shape N F len v acc) :
    ∃ acc', recordLoop (floats rnd) (some v) nodeMap rs acc = .ok acc' ∧ Shape N F len v acc' ∧
      (∀ n, at1 acc'.nodeSum n = rsum rnd (at1 acc.nodeSum n) (recSum nodeMap n (fun r => [amount r]) rs)) ∧
      (∀ n f b, at3 acc'.hist n f b = rsum rnd (at3 acc.hist n f b)
        (recSum nodeMap n (fun r => hits (isEntry v f b) (amount r) r.features.vec) rs)) ∧
      ∀ n f, at2 acc'.zeroOptim n f = rsum rnd (at2 acc.zeroOptim n f)
        (recSum nodeMap n (fun r => hits (isStored v f) (amount r) r.features.vec) rs) := by
  induction rs generalizing acc with
  | nil => exact ⟨acc, rfl, hs, by simp [recSum, rsum], by simp [recSum, rsum], by simp [recSum, rsum]⟩
  | cons r rs ih =>
    obtain ⟨⟨nid, hnid, hn⟩, hent⟩ := hr r (by simp)
    obtain ⟨s', s1, s2, s3⟩ := updAt_cellR rnd acc.nodeSum nid (amount r) (by rw [hs.ns]; exact hn)
    obtain ⟨acc1, b1, b2, b3, b4, b5⟩ := featureLoop_okR rnd N F len v hv nid hn (amount r) r.features.vec hent
      { acc with nodeSum := s' } ⟨hs.hist, hs.nodes, hs.bins, hs.zo, hs.zos, by rw [← hs.ns, ← s2]⟩
    obtain ⟨acc', a1, a2, a3, a4, a5⟩ := ih (fun r hr' => hr r (by simp [hr'])) acc1 b2
    refine ⟨acc', ?_, a2, ?_, ?_, ?_⟩
    · unfold recordLoop
      rw [hnid]
      simp only [bind, Except.bind]
      have : updAt acc.nodeSum nid (addCell (floats rnd) (r.grad, r.hess, 1)) = .ok s' := s1
      rw [this]
      simp only
      have : featureLoop (floats rnd) (some v) nid (r.grad, r.hess, 1) r.features.allData
        { acc with nodeSum := s' } = .ok acc1 := b1
      rw [this]
      exact a1
    · intro n
      rw [a3, b3]
      simp only
      rw [s3]
      by_cases h : n = nid
      · subst h; rw [if_pos rfl, recSum_pos hnid]; rfl
      · rw [if_neg h, recSum_neg (by rw [hnid]; simpa [eq_comm] using h)]
    · intro n f b
      rw [a4, b4]
      simp only
      by_cases h : n = nid
      · subst h; rw [if_pos rfl, recSum_pos hnid, rsum_append]
      · rw [if_neg h, recSum_neg (by rw [hnid]; simpa [eq_comm] using h)]
    · intro n f
      rw [a5, b5]
      simp only
      by_cases h : n = nid
      · subst h; rw [if_pos rfl, recSum_pos hnid, rsum_append]
      · rw [if_neg h, recSum_neg (by rw [hnid]; simpa [eq_comm] using h)]

/-! ### The correction for entries that are not stored -/

theorem zeroFixNode_okR (F : Nat) (len : Nat → Nat) (v : List Bool) (hv : v.length = F)
    (sparse : Dict Nat Nat) (s : HCell Rat)
    (hsp : ∀ f < F, ∃ z, sparse.get? f = some z ∧ z < len f) :
    ∀ (fid : Nat) (zs : List (HCell Rat)) (fh : List (List (HCell Rat))),
      fid + zs.length = F → fh.length = zs.length →
      (∀ i < zs.length, (row fh i).length = if v.getD (fid + i) false then len (fid + i) else 0) →
      ∃ fh', zeroFixNode (floats rnd) (some v) sparse s fid zs fh = .ok fh' ∧ fh'.length = fh.length ∧
        (∀ i, (row fh' i).length = (row fh i).length) ∧
        ∀ i < zs.length, ∀ b, at2 fh' i b =
          if v.getD (fid + i) false = true ∧ sparse.get? (fid + i) = some b then
            radd rnd (at2 fh i b) (rsub rnd s (at1 zs i)) else at2 fh i b := by
  intro fid zs
  induction zs generalizing fid with
  | nil =>
    intro fh _ _ _
    exact ⟨fh, by simp [zeroFixNode], rfl, fun _ => rfl, by simp⟩
  | cons z zs ih =>
    intro fh h1 h2 h3
    cases fh with
    | nil => simp at h2
    | cons bins fh =>
      simp only [List.length_cons] at h1 h2
      have hlen0 := h3 0 (by simp)
      simp only [Nat.add_zero] at hlen0
      have hrow0 : row (bins :: fh) 0 = bins := rfl
      rw [hrow0] at hlen0
      obtain ⟨fh', r1, r2, r3, r4⟩ := ih (fid + 1) fh (by omega) (by omega) (by
        intro i hi
        have := h3 (i + 1) (by simp; omega)
        have e : fid + (i + 1) = fid + 1 + i := by omega
        rw [e] at this
        exact this)
      have hen := isEnabled_some v fid (by omega)
      obtain ⟨zb, z1, z2⟩ := hsp fid (by omega)
      have hbins : ∃ bins', zeroFixIf (floats rnd) sparse s z fid bins (v.getD fid false) = .ok bins' ∧
          bins'.length = bins.length ∧ ∀ b, at1 bins' b =
            if v.getD fid false = true ∧ sparse.get? fid = some b then
              radd rnd (at1 bins b) (rsub rnd s z) else at1 bins b := by
        cases he : v.getD fid false with
        | false => exact ⟨bins, rfl, rfl, fun b => by simp⟩
        | true =>
          rw [he] at hlen0
          obtain ⟨l', l1, l2, l3⟩ := updAt_cellR rnd bins zb (rsub rnd s z) (by rw [hlen0]; simpa using z2)
          refine ⟨l', ?_, l2, ?_⟩
          · unfold zeroFixIf zeroFix
            rw [z1]
            simpa [subCell_floats, bind, Except.bind] using l1
          · intro b
            rw [l3, z1]
            simp [eq_comm]
      obtain ⟨bins', c1, c2, c3⟩ := hbins
      refine ⟨bins' :: fh', ?_, by simp [r2], ?_, ?_⟩
      · unfold zeroFixNode
        rw [hen]
        simp only [bind, Except.bind]
        rw [c1]
        simp only
        rw [r1]
        rfl
      · intro i
        cases i with
        | zero => exact c2
        | succ i => exact r3 i
      · intro i hi b
        cases i with
        | zero => exact c3 b
        | succ i =>
          have := r4 i (by simpa using hi) b
          have e : fid + (i + 1) = fid + 1 + i := by omega
          rw [e]
          exact this

theorem zeroFixAll_okR (F : Nat) (len : Nat → Nat) (v : List Bool) (hv : v.length = F)
    (sparse : Dict Nat Nat) (hsp : ∀ f < F, ∃ z, sparse.get? f = some z ∧ z < len f) :
    ∀ (ss : List (HCell Rat)) (zs : List (List (HCell Rat))) (h : Hist Rat),
      zs.length = ss.length → h.length = ss.length →
      (∀ n < ss.length, (row zs n).length = F) → (∀ n < ss.length, (row h n).length = F) →
      (∀ n < ss.length, ∀ f < F, (row (row h n) f).length = if v.getD f false then len f else 0) →
      ∃ h', zeroFixAll (floats rnd) (some v) sparse ss zs h = .ok h' ∧ h'.length = h.length ∧
        (∀ n, (row h' n).length = (row h n).length) ∧
        (∀ n f, (row (row h' n) f).length = (row (row h n) f).length) ∧
        ∀ n < ss.length, ∀ f < F, ∀ b, at3 h' n f b =
          if v.getD f false = true ∧ sparse.get? f = some b then
            radd rnd (at3 h n f b) (rsub rnd (at1 ss n) (at2 zs n f)) else at3 h n f b := by
  intro ss
  induction ss with
  | nil =>
    intro zs h _ _ _ _ _
    exact ⟨h, by simp [zeroFixAll], rfl, fun _ => rfl, fun _ _ => rfl, by simp⟩
  | cons s ss ih =>
    intro zs h h1 h2 h3 h4 h5
    cases zs with
    | nil => simp at h1
    | cons z zs =>
      cases h with
      | nil => simp at h2
      | cons fh h =>
        simp only [List.length_cons] at h1 h2
        have e3 : z.length = F := h3 0 (by simp)
        have e4 : fh.length = F := h4 0 (by simp)
        have e5 : ∀ f < F, (row fh f).length = if v.getD f false then len f else 0 := h5 0 (by simp)
        obtain ⟨fh', a1, a2, a3, a4⟩ := zeroFixNode_okR rnd F len v hv sparse s hsp 0 z fh (by omega) (by omega)
          (by intro i hi; rw [Nat.zero_add]; exact e5 i (by omega))
        obtain ⟨h', b1, b2, b3, b4, b5⟩ := ih zs h (by omega) (by omega)
          (fun n hn => h3 (n + 1) (by simp; omega)) (fun n hn => h4 (n + 1) (by simp; omega))
          (fun n hn => h5 (n + 1) (by simp; omega))
        refine ⟨fh' :: h', ?_, by simp [b2], ?_, ?_, ?_⟩
        · unfold zeroFixAll
          simp only [bind, Except.bind]
          rw [a1]
          simp only
          rw [b1]
          rfl
        · intro n
          cases n with
          | zero => exact a2
          | succ n => exact b3 n
        · intro n f
          cases n with
          | zero => exact a3 f
          | succ n => exact b4 n f
        · intro n hn f hf b
          cases n with
          | zero =>
            have := a4 f (by omega) b
            rw [Nat.zero_add] at this
            exact this
          | succ n => exact b5 n (by simpa using hn) f hf b

/-! ### One batch -/

theorem template_floats (v : List Bool) (fid : Nat) (splits : List (List Rat)) :
    template (floats rnd) (some v) fid splits = template plain (some v) fid splits := by
  induction splits generalizing fid with
  | nil => rfl
  | cons sp splits ih => unfold template; rw [ih]; rfl

/-- The sums in a cell of the histogram of a node before accumulation: those of the stored entries, and in
the bin of zero the sums of the node minus those of all stored entries. -/
def rawCell (sparse : Dict Nat Nat) (v : List Bool) (nodeMap : Dict Nat Nat) (rs : List (Record Rat)) (n f b : Nat) :
    HCell Rat :=
  let c := rsum rnd 0 (recSum nodeMap n (fun r => hits (isEntry v f b) (amount r) r.features.vec) rs)
  if sparse.get? f = some b then
    radd rnd c (rsub rnd (rsum rnd 0 (recSum nodeMap n (fun r => [amount r]) rs))
      (rsum rnd 0 (recSum nodeMap n (fun r => hits (isStored v f) (amount r) r.features.vec) rs)))
  else c

theorem batch_okR (splits : List (List Rat)) (sparse : Dict Nat Nat) (v : List Bool)
    (hv : v.length = splits.length) (hz : ZeroBins splits sparse) (nodeMap : Dict Nat Nat)
    (hN : nodeMap ≠ []) (hmap : ∀ id n, nodeMap.get? id = some n → n < nodeMap.length)
    (kvs : List ((SparseVec Cell × Nat × Nat) × Rat × Rat))
    (hk : ∀ p ∈ kvs, BinnedRow splits p.1.1) :
    ∃ H, batch (floats rnd) splits sparse (some v) nodeMap kvs = .ok H ∧ H.length = nodeMap.length ∧
      (∀ n < nodeMap.length, (row H n).length = splits.length) ∧
      ∀ n < nodeMap.length, ∀ f < splits.length,
        (row (row H n) f).length = (if v.getD f false then (splits.getD f []).length + 1 else 0) ∧
        (v.getD f false = true → ∀ b, at3 H n f b =
          rawCell rnd sparse v nodeMap (collectRecords nodeMap kvs) n f b) := by
  have hpos : 0 < nodeMap.length := List.length_pos_iff.mpr hN
  set N := nodeMap.length with hNdef
  set F := splits.length with hF
  set len : Nat → Nat := fun f => (splits.getD f []).length + 1 with hlen
  have hsplit : ∀ f < F, splits[f]? = some (splits.getD f []) := by
    intro f hf
    simp [hF ▸ hf]
  have hz' : ∀ f < F, ∃ z, sparse.get? f = some z ∧ z < len f := by
    intro f hf
    obtain ⟨z, z1, z2⟩ := hz f _ (hsplit f hf)
    exact ⟨z, z1, by simp only [hlen]; omega⟩
  obtain ⟨t, t1, t2, t3⟩ := template_ok v 0 splits (by omega)
  have hrowlen : ∀ f < F, (row t f).length = if v.getD f false then len f else 0 := by
    intro f hf
    rw [t3 f hf, Nat.zero_add]
    cases v.getD f false <;> simp [hlen]
  have hrow0 : ∀ f b, at2 t f b = 0 := by
    intro f b
    unfold at2
    by_cases hf : f < F
    · rw [t3 f hf]
      split
      · exact at1_replicate _ _
      · rfl
    · have : row t f = [] := by unfold row; rw [List.getElem?_eq_none (by omega)]; rfl
      rw [this]; rfl
  set acc0 : Acc Rat := ⟨List.replicate N t, List.replicate N (List.replicate F 0), List.replicate N 0⟩ with hacc0
  have hshape : Shape N F len v acc0 := by
    refine ⟨by simp [hacc0], ?_, ?_, by simp [hacc0], ?_, by simp [hacc0]⟩
    · intro n hn; simp only [hacc0]; rw [row_replicate, if_pos hn]; exact t2
    · intro n hn f hf; simp only [hacc0]; rw [row_replicate, if_pos hn]; exact hrowlen f hf
    · intro n hn; simp only [hacc0]; rw [row_replicate, if_pos hn]; simp
  have hrec : ∀ r ∈ collectRecords nodeMap kvs, (∃ n, nodeMap.get? r.nodeId = some n ∧ n < N) ∧
      BinnedRow splits r.features := by
    intro r hr
    obtain ⟨a, st, _, c⟩ := collectRecords_mem nodeMap kvs r hr
    refine ⟨?_, hk _ c⟩
    rw [Dict.has_iff] at a
    obtain ⟨n, hn⟩ := Dict.exists_get?_of_mem a
    exact ⟨n, hn, hmap _ _ hn⟩
  obtain ⟨acc, a1, a2, a3, a4, a5⟩ := recordLoop_okR rnd N F len v hv nodeMap (collectRecords nodeMap kvs) (by
    intro r hr
    obtain ⟨h1, h2⟩ := hrec r hr
    refine ⟨h1, ?_⟩
    intro e he
    obtain ⟨b, sp, b1, b2, b3⟩ := h2.bins e.1 e.2 (Dict.get?_of_mem h2.wf he)
    have hlt : e.1 < F := by
      by_contra hc
      rw [List.getElem?_eq_none (by omega)] at b2
      cases b2
    refine ⟨hlt, b, b1, ?_⟩
    rw [hsplit e.1 hlt] at b2
    simp only [hlen]
    rw [Option.some.inj b2]
    omega) acc0 hshape
  obtain ⟨H, h1, h2, h3, h4, h5⟩ := zeroFixAll_okR rnd F len v hv sparse hz' acc.nodeSum acc.zeroOptim acc.hist
    (by rw [a2.zo, a2.ns]) (by rw [a2.hist, a2.ns]) (by rw [a2.ns]; exact a2.zos) (by rw [a2.ns]; exact a2.nodes)
    (by rw [a2.ns]; exact a2.bins)
  refine ⟨H, ?_, by rw [h2, a2.hist], fun n hn => by rw [h3, a2.nodes n hn], ?_⟩
  · unfold batch
    rw [template_floats, t1]
    simp only [bind, Except.bind]
    rw [if_neg (by omega)]
    have e : zeroCell (floats rnd) = (0 : HCell Rat) := rfl
    rw [e]
    have : recordLoop (floats rnd) (some v) nodeMap (collectRecords nodeMap kvs)
      ⟨List.replicate nodeMap.length t, List.replicate nodeMap.length (List.replicate splits.length 0),
        List.replicate nodeMap.length 0⟩ = .ok acc := a1
    rw [this]
    exact h1
  · intro n hn f hf
    refine ⟨by rw [h4, a2.bins n hn f hf], ?_⟩
    intro hen b
    rw [h5 n (by rw [a2.ns]; exact hn) f hf b, a3, a4, a5]
    have e1 : at1 acc0.nodeSum n = 0 := at1_replicate _ _
    have e2 : at3 acc0.hist n f b = 0 := by
      unfold at3
      simp only [hacc0]
      rw [row_replicate, if_pos hn]
      exact hrow0 f b
    have e3 : at2 acc0.zeroOptim n f = 0 := by
      unfold at2
      simp only [hacc0]
      rw [row_replicate, if_pos hn]
      exact at1_replicate _ _
    rw [e1, e2, e3]
    unfold rawCell
    simp only [hen, true_and]

/-! ### Accumulation -/

theorem accBins_okR (p : HCell Rat) (l : List (HCell Rat)) :
    ∃ l', accBins (floats rnd) p l = .ok l' ∧ l'.length = l.length ∧
      ∀ b < l.length, at1 l' b = radd rnd (at1 l b) (if b = 0 then p else at1 l' (b - 1)) := by
  induction l generalizing p with
  | nil => exact ⟨[], rfl, rfl, by simp⟩
  | cons c l ih =>
    obtain ⟨l', l1, l2, l3⟩ := ih (radd rnd c p)
    refine ⟨radd rnd c p :: l', ?_, by simp [l2], ?_⟩
    · unfold accBins
      rw [addCell_floats]
      simp only [bind, Except.bind]
      rw [l1]
      rfl
    · intro b hb
      cases b with
      | zero => rfl
      | succ b =>
        have := l3 b (by simpa using hb)
        rw [if_neg (by omega), Nat.add_sub_cancel]
        have e1 : at1 (radd rnd c p :: l') (b + 1) = at1 l' b := rfl
        have e2 : at1 (c :: l) (b + 1) = at1 l b := rfl
        rw [e1, e2, this]
        cases b with
        | zero => rfl
        | succ b => rfl

/-- Relation between a list of bins and its accumulated version. -/
def AccdR (l l' : List (HCell Rat)) : Prop :=
  l'.length = l.length ∧ at1 l' 0 = at1 l 0 ∧
    ∀ b, b + 1 < l.length → at1 l' (b + 1) = radd rnd (at1 l (b + 1)) (at1 l' b)

theorem accFeature_okR (l : List (HCell Rat)) :
    ∃ l', accFeature (floats rnd) l = .ok l' ∧ AccdR rnd l l' := by
  cases l with
  | nil => exact ⟨[], rfl, rfl, rfl, by simp⟩
  | cons c l =>
    obtain ⟨l', l1, l2, l3⟩ := accBins_okR rnd c l
    refine ⟨c :: l', ?_, by simp [l2], rfl, ?_⟩
    · unfold accFeature
      simp only [bind, Except.bind]
      rw [l1]
      rfl
    · intro b hb
      have := l3 b (by simpa using hb)
      have e1 : at1 (c :: l') (b + 1) = at1 l' b := rfl
      have e2 : at1 (c :: l) (b + 1) = at1 l b := rfl
      rw [e1, e2, this]
      cases b with
      | zero => rfl
      | succ b => rfl

theorem accumulate_okR (H : Hist Rat) : ∃ H', accumulate (floats rnd) H = .ok H' ∧ H'.length = H.length ∧
    (∀ n, (row H' n).length = (row H n).length) ∧ ∀ n f, AccdR rnd (row (row H n) f) (row (row H' n) f) := by
  obtain ⟨H', h1, h2⟩ := forEach_ok (forEach (accFeature (floats rnd))) (List.Forall₂ (AccdR rnd))
    (forEach_ok (accFeature (floats rnd)) (AccdR rnd) (accFeature_okR rnd)) H
  refine ⟨H', h1, h2.length_eq.symm, ?_, ?_⟩
  · intro n; exact (forall₂_row (P := List.Forall₂ (AccdR rnd)) .nil h2 n).length_eq.symm
  · intro n f
    exact forall₂_row (P := AccdR rnd) ⟨rfl, rfl, by simp⟩ (forall₂_row (P := List.Forall₂ (AccdR rnd)) .nil h2 n) f

end Histogram
end Verif
