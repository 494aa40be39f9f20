import Verif.Lemmas.OrderQuantile
import Verif.Lemmas.DTableM
import Verif.Lemmas.Tables
import Verif.Spec.C28

/-! # Binning only compares values of the same column -/

set_option autoImplicit false

namespace Verif

/-- The same keys in the same order, related values. -/
def DictRel {A V W : Type} (Q : A → V → W → Prop) (d : Dict A V) (e : Dict A W) : Prop :=
  List.Forall₂ (fun a b => a.1 = b.1 ∧ Q a.1 a.2 b.2) d e

namespace DictRel

variable {A V W : Type} [DecidableEq A] {Q : A → V → W → Prop} {d : Dict A V} {e : Dict A W}

theorem get? (h : DictRel Q d e) (k : A) :
    (Dict.get? d k = none ∧ Dict.get? e k = none) ∨ ∃ v w, Dict.get? d k = some v ∧ Dict.get? e k = some w ∧ Q k v w := by
  induction h with
  | nil => exact .inl ⟨rfl, rfl⟩
  | @cons a b d e hab _ ih =>
    obtain ⟨ka, va⟩ := a
    obtain ⟨kb, vb⟩ := b
    obtain ⟨rfl, hq⟩ := hab
    simp only [Dict.get?]
    by_cases hc : ka = k
    · rw [if_pos hc, if_pos hc]
      subst hc
      exact .inr ⟨va, vb, rfl, rfl, hq⟩
    · rw [if_neg hc, if_neg hc]
      exact ih

theorem set (h : DictRel Q d e) {k : A} {v : V} {w : W} (hq : Q k v w) : DictRel Q (Dict.set d k v) (Dict.set e k w) := by
  induction h with
  | nil => exact .cons ⟨rfl, hq⟩ .nil
  | @cons a b d e hab hde ih =>
    obtain ⟨ka, va⟩ := a
    obtain ⟨kb, vb⟩ := b
    obtain ⟨rfl, hq'⟩ := hab
    simp only [Dict.set]
    by_cases hc : ka = k
    · rw [if_pos hc, if_pos hc]
      subst hc
      exact .cons ⟨rfl, hq⟩ hde
    · rw [if_neg hc, if_neg hc]
      exact .cons ⟨rfl, hq'⟩ ih

omit [DecidableEq A] in
theorem keys (h : DictRel Q d e) : Dict.keys e = Dict.keys d := by
  unfold Dict.keys
  induction h with
  | nil => rfl
  | cons hab _ ih => rw [List.map_cons, List.map_cons, ih, hab.1]

omit [DecidableEq A] in
theorem imp {Q' : A → V → W → Prop} (h : DictRel Q d e) (hq : ∀ k v w, Q k v w → Q' k v w) : DictRel Q' d e :=
  List.Forall₂.imp (fun _ _ hab => ⟨hab.1, hq _ _ _ hab.2⟩) h

omit [DecidableEq A] in
theorem map {V' W' : Type} {Q' : A → V' → W' → Prop} (h : DictRel Q d e) {f : V → V'} {g : W → W'}
    (hq : ∀ k v w, Q k v w → Q' k (f v) (g w)) :
    DictRel Q' (List.map (fun p => (p.1, f p.2)) d) (List.map (fun p => (p.1, g p.2)) e) := by
  induction h with
  | nil => exact .nil
  | cons hab _ ih => exact .cons ⟨hab.1, hq _ _ _ hab.2⟩ ih

theorem foldl_set {ps : List (A × V)} {qs : List (A × W)} (hp : DictRel Q ps qs) : ∀ {d : Dict A V} {e : Dict A W}, DictRel Q d e →
    DictRel Q (ps.foldl (fun d p => Dict.set d p.1 p.2) d) (qs.foldl (fun d p => Dict.set d p.1 p.2) e) := by
  induction hp with
  | nil => intro d e h; exact h
  | @cons a b ps qs hab _ ih =>
    intro d e h
    obtain ⟨ka, va⟩ := a
    obtain ⟨kb, vb⟩ := b
    obtain ⟨rfl, hq⟩ := hab
    exact ih (h.set hq)

end DictRel

namespace DTable

variable {K V W : Type} [DecidableEq K]

theorem ofPairs_rel {Q : K → V → W → Prop} {ps : List (K × V)} {qs : List (K × W)} (h : DictRel Q ps qs) :
    ERel (fun t u : DTable K _ => DictRel Q t.data u.data) (ofPairs ps) (ofPairs qs) := by
  have hk : qs.map Prod.fst = ps.map Prod.fst := h.keys
  rw [ofPairs_eq, ofPairs_eq, hk]
  split
  · exact h
  · rfl

theorem mapValues_rel {V' W' : Type} {Q : K → V → W → Prop} {Q' : K → V' → W' → Prop} {t : DTable K V} {u : DTable K W}
    (h : DictRel Q t.data u.data) {f : V → V'} {g : W → W'} (hq : ∀ k v w, Q k v w → Q' k (f v) (g w)) :
    ERel (fun t u : DTable K _ => DictRel Q' t.data u.data) (t.mapValues f) (u.mapValues g) :=
  ofPairs_rel (h.map hq)

omit [DecidableEq K] in
theorem evalRecords_rel {X : Type} {Q : K → V → W → Prop} {d : List (K × V)} {e : List (K × W)} (h : DictRel Q d e)
    {f : V → Except PyErr X} {g : W → Except PyErr X} (hq : ∀ k v w, Q k v w → f v = g w) :
    evalRecords f d = evalRecords g e := by
  induction h with
  | nil => rfl
  | @cons a b d e hab _ ih =>
    obtain ⟨ka, va⟩ := a
    obtain ⟨kb, vb⟩ := b
    obtain ⟨rfl, hq'⟩ := hab
    simp only [evalRecords]
    rw [hq _ _ _ hq', ih]

theorem mapValuesM_rel {X : Type} {Q : K → V → W → Prop} {t : DTable K V} {u : DTable K W} (h : DictRel Q t.data u.data)
    {f : V → Except PyErr X} {g : W → Except PyErr X} (hq : ∀ k v w, Q k v w → f v = g w) :
    t.mapValuesM f = u.mapValuesM g := by
  unfold mapValuesM
  rw [evalRecords_rel h hq]

/-- Joining the same table with related tables. -/
theorem joinM_rel {X Y : Type} {Q : K → V → W → Prop} {a : DTable K X} {t : DTable K V} {u : DTable K W}
    (h : DictRel Q t.data u.data) {f : X → V → Except PyErr Y} {g : X → W → Except PyErr Y}
    (hq : ∀ k x v w, Q k v w → f x v = g x w) : a.joinM t f = a.joinM u g := by
  unfold joinM
  have hj : DictRel (fun k (p : X × V) (q : X × W) => p.1 = q.1 ∧ Q k p.2 q.2) (joinLoop a.data Prod.mk t.data)
      (joinLoop a.data Prod.mk u.data) := by
    revert h
    generalize t.data = d
    generalize u.data = e
    intro h
    induction h with
    | nil => exact .nil
    | @cons b c d e hab _ ih =>
      obtain ⟨kb, vb⟩ := b
      obtain ⟨kc, vc⟩ := c
      obtain ⟨rfl, hq'⟩ := hab
      simp only at hq'
      simp only [joinLoop]
      split
      · exact .cons ⟨rfl, rfl, hq'⟩ ih
      · exact ih
  rw [evalRecords_rel hj (g := fun p : X × W => g p.1 p.2)]
  rintro k ⟨x, v⟩ ⟨y, w⟩ ⟨h1, h2⟩
  simp only at h1 h2 ⊢
  subst h1
  exact hq k x v w h2

end DTable

namespace Binning

open Spec

/-- For every column a relation of snapped values that compare in the same way, zero paired with zero. -/
structure Orders (R : Nat → Rat → Rat → Prop) : Prop where
  order : ∀ f, Quantile.Order (R f)
  zero : ∀ f, R f 0 0
  snapped : ∀ f x y, R f x y → snap x = x ∧ snap y = y

variable {R : Nat → Rat → Rat → Prop}

theorem snap_iff (x : Rat) : |x| < Quantile.floatZero ↔ snap x = 0 := by
  unfold snap Quantile.floatZero
  constructor
  · intro h; rw [if_pos h]
  · intro h
    by_contra hc
    rw [if_neg hc] at h
    rw [h] at hc
    norm_num at hc

theorem snap_of_not {x : Rat} (h : ¬ |x| < Quantile.floatZero) : snap x = x := by
  unfold snap
  exact if_neg h

theorem small_iff {x : Rat} (h : snap x = x) : x < Quantile.floatZero ↔ x ≤ 0 := by
  constructor
  · intro hx
    by_contra hc
    push Not at hc
    have h1 : |x| < Quantile.floatZero := by rwa [abs_of_pos hc]
    rw [snap_iff, h] at h1
    exact hc.ne' h1
  · intro hx
    exact lt_of_le_of_lt hx (by unfold Quantile.floatZero; norm_num)

theorem Orders.small (hR : Orders R) (f : Nat) (x y : Rat) (h : R f x y) : x < Quantile.floatZero ↔ y < Quantile.floatZero := by
  obtain ⟨h1, h2⟩ := hR.snapped f x y h
  rw [small_iff h1, small_iff h2]
  exact hR.order f _ _ _ _ h (hR.zero f)

/-- Stored values of the same columns, related. -/
abbrev RowRel (R : Nat → Rat → Rat → Prop) (w : Nat) (r s : SparseVec Rat) : Prop :=
  DictRel (fun i x y => i < w ∧ R i x y) r.vec s.vec ∧ r.shape = s.shape

theorem transformLoop_rel (hR : Orders R) (w : Nat) : ∀ (i : Nat) (xs ys : List Rat), xs.length = ys.length → i + xs.length ≤ w →
    (∀ j, R (i + j) (value xs j) (value ys j)) →
    DictRel (fun i x y => i < w ∧ R i x y) ((transformLoop i xs).1.zip (transformLoop i xs).2)
      ((transformLoop i ys).1.zip (transformLoop i ys).2)
  | i, [], [], _, _, _ => .nil
  | i, [], _ :: _, h, _, _ => by simp at h
  | i, _ :: _, [], h, _, _ => by simp at h
  | i, x :: xs, y :: ys, h, hw, hv => by
    have ih := transformLoop_rel hR w (i + 1) xs ys (by simpa using h) (by simp only [List.length_cons] at hw; omega) fun j => by
      have := hv (j + 1)
      rw [show i + 1 + j = i + (j + 1) by omega]
      exact this
    have h0 : R i (snap x) (snap y) := hv 0
    have heq := (hR.order i).eq h0 (hR.zero i)
    simp only [transformLoop]
    by_cases hc : |x| < Quantile.floatZero
    · rw [if_pos hc, if_pos ((snap_iff y).mpr (heq.mp ((snap_iff x).mp hc)))]
      exact ih
    · have hd : ¬ |y| < Quantile.floatZero := fun hd => hc ((snap_iff x).mpr (heq.mpr ((snap_iff y).mp hd)))
      rw [if_neg hc, if_neg hd]
      rw [snap_of_not hc, snap_of_not hd] at h0
      simp only [List.length_cons] at hw
      exact .cons ⟨rfl, by omega, h0⟩ ih

theorem transform_rel (hR : Orders R) {w : Nat} {xs ys : List Rat} (hl : xs.length = ys.length) (hw : xs.length ≤ w)
    (hv : ∀ j, R j (value xs j) (value ys j)) : RowRel R w (dataFormatTransform xs) (dataFormatTransform ys) := by
  refine ⟨?_, hl⟩
  exact DictRel.foldl_set (transformLoop_rel hR w 0 xs ys hl (by omega) fun j => by rw [Nat.zero_add]; exact hv j) .nil

/-- The relation of the column with a name. -/
def byName (header : List String) (R : Nat → Rat → Rat → Prop) (name : String) : Rat → Rat → Prop := R (header.idxOf name)

theorem byName_at {header : List String} (hn : header.Nodup) {i : Nat} {name : String} (h : header[i]? = some name) :
    byName header R name = R i := by
  unfold byName
  obtain ⟨hi, rfl⟩ := List.getElem?_eq_some_iff.mp h
  rw [hn.idxOf_getElem i hi]

/-- Summaries in step. -/
abbrev SumRel (header : List String) (R : Nat → Rat → Rat → Prop) (d e : Dict String Quantile.Sparse) : Prop :=
  DictRel (fun name s t => Quantile.SparseRel (byName header R name) s t ∧ s.qs.cfg.abnormal = []) d e

theorem insertRow_rel (hR : Orders R) {header : List String} (hn : header.Nodup) {w : Nat} {r s : Dict Nat Rat}
    (h : DictRel (fun i x y => i < w ∧ R i x y) r s) : ∀ {d e : Dict String Quantile.Sparse}, SumRel header R d e →
      ERel (SumRel header R) (insertRow header r d) (insertRow header s e) := by
  induction h with
  | nil => intro d e hd; exact hd
  | @cons a b r s hab _ ih =>
    intro d e hd
    obtain ⟨i, x⟩ := a
    obtain ⟨j, y⟩ := b
    obtain ⟨rfl, _, hxy⟩ := hab
    simp only [insertRow]
    cases hh : header[i]? with
    | none => rfl
    | some name =>
      simp only
      rcases hd.get? name with ⟨e1, e2⟩ | ⟨v, u, e1, e2, h1, h2⟩
      · rw [e1, e2]; rfl
      · rw [e1, e2]
        simp only
        refine ih (hd.set ⟨?_, by rw [Quantile.sparseInsert_cfg]; exact h2⟩)
        rw [byName_at hn hh] at h1 ⊢
        exact Quantile.sparseInsert_rel (hR.order i) (hR.small i) h1 h2 hxy

theorem insertRows_rel (hR : Orders R) {header : List String} (hn : header.Nodup) {w : Nat} {rs ss : List (SparseVec Rat)}
    (h : List.Forall₂ (RowRel R w) rs ss) : ∀ {d e : Dict String Quantile.Sparse}, SumRel header R d e →
      ERel (SumRel header R) (insertRows header rs d) (insertRows header ss e) := by
  induction h with
  | nil => intro d e hd; exact hd
  | @cons r s rs ss hrs _ ih =>
    intro d e hd
    have h1 := insertRow_rel hR hn hrs.1 hd
    simp only [insertRows, SparseVec.allData]
    revert h1
    generalize insertRow header r.vec d = a
    generalize insertRow header s.vec e = b
    intro h1
    cases a with
    | error e1 =>
      cases b with
      | error e2 => exact h1
      | ok b => exact h1.elim
    | ok a =>
      cases b with
      | error e2 => exact h1.elim
      | ok b => exact ih h1

theorem fresh_rel (_hR : Orders R) {cfg : Quantile.Config} (ha : cfg.abnormal = []) (header names : List String) :
    ∀ {d e : Dict String Quantile.Sparse}, SumRel header R d e →
      SumRel header R (names.foldl (fun d name => Dict.set d name (Quantile.Sparse.new cfg)) d)
        (names.foldl (fun d name => Dict.set d name (Quantile.Sparse.new cfg)) e) := by
  induction names with
  | nil => intro d e h; exact h
  | cons name names ih =>
    intro d e h
    exact ih (h.set ⟨⟨⟨rfl, .nil, .nil, rfl⟩, rfl, rfl, rfl⟩, ha⟩)

/-- Split points in step. -/
abbrev SplitRel (header : List String) (R : Nat → Rat → Rat → Prop) (d e : Dict String (List Rat)) : Prop :=
  DictRel (fun name s t => List.Forall₂ (byName header R name) s t) d e

theorem allSplits_rel (hR : Orders R) (header : List String) (binNum : Nat) {d e : Dict String Quantile.Sparse}
    (h : DictRel (fun name s t => Quantile.SparseRel (byName header R name) s t) d e) :
    ERel (SplitRel header R) (allSplits binNum d) (allSplits binNum e) := by
  induction h with
  | nil => exact .nil
  | @cons a b d e hab _ ih =>
    obtain ⟨na, s⟩ := a
    obtain ⟨nb, t⟩ := b
    obtain ⟨rfl, hst⟩ := hab
    have h1 := Quantile.splitPoints_rel (hR.order _) (Quantile.sparseQuery_rel (hR.order _) (hR.zero _) hst) binNum
    simp only [allSplits]
    revert h1 ih
    generalize Quantile.splitPoints s.query binNum = x
    generalize Quantile.splitPoints t.query binNum = y
    generalize allSplits binNum d = x'
    generalize allSplits binNum e = y'
    intro ih h1
    cases x with
    | error e1 =>
      cases y with
      | error e2 => exact h1
      | ok y => exact h1.elim
    | ok x =>
      cases y with
      | error e2 => exact h1.elim
      | ok y =>
        cases x' with
        | error e1 =>
          cases y' with
          | error e2 => exact ih
          | ok y' => exact ih.elim
        | ok x' =>
          cases y' with
          | error e2 => exact ih.elim
          | ok y' => exact .cons ⟨rfl, h1⟩ ih

theorem values_rel {K : Type} {w : Nat} {d e : List (K × SparseVec Rat)} (h : DictRel (fun _ r s => RowRel R w r s) d e) :
    List.Forall₂ (RowRel R w) (Dict.values d) (Dict.values e) := by
  unfold Dict.values
  induction h with
  | nil => exact .nil
  | cons hab _ ih => exact .cons hab.2 ih

theorem fitSplitPoints_rel {K : Type} (hR : Orders R) {cfg : Quantile.Config} (ha : cfg.abnormal = []) (binNum : Nat)
    {header : List String} (hn : header.Nodup) {w : Nat} {rows rows' : DTable K (SparseVec Rat)}
    (h : DictRel (fun _ r s => RowRel R w r s) rows.data rows'.data) :
    ERel (SplitRel header R) (fitSplitPoints cfg binNum header rows) (fitSplitPoints cfg binNum header rows') := by
  have h1 := insertRows_rel hR hn (values_rel h) (fresh_rel hR ha header header (d := []) (e := []) .nil)
  have hc : rows.count = rows'.count := by
    show rows.data.length = rows'.data.length
    exact List.Forall₂.length_eq h
  unfold fitSplitPoints freshSummaries
  rw [hc]
  revert h1
  generalize insertRows header rows.data.values _ = a
  generalize insertRows header rows'.data.values _ = b
  intro h1
  cases a with
  | error e1 =>
    cases b with
    | error e2 => exact h1
    | ok b => exact h1.elim
  | ok a =>
    cases b with
    | error e2 => exact h1.elim
    | ok b =>
      have h1 : SumRel header R a b := h1
      refine allSplits_rel hR header binNum (DictRel.map (f := fun s : Quantile.Sparse => s.compress.setTotal rows'.count)
        (g := fun s : Quantile.Sparse => s.compress.setTotal rows'.count) h1 ?_)
      rintro k s t ⟨hst, _⟩
      exact ⟨Quantile.compress_rel (hR.order _) hst.qs, hst.smaller, hst.bigger, rfl⟩

theorem lookup_rel {header : List String} (hn : header.Nodup) {sps sps' : Dict String (List Rat)} (h : SplitRel header R sps sps')
    (i : Nat) : ERel (List.Forall₂ (R i)) (lookupSplits header sps i) (lookupSplits header sps' i) := by
  unfold lookupSplits
  cases hh : header[i]? with
  | none => rfl
  | some name =>
    simp only
    rcases h.get? name with ⟨e1, e2⟩ | ⟨v, u, e1, e2, h1⟩
    · rw [e1, e2]; rfl
    · rw [e1, e2]
      rw [byName_at hn hh] at h1
      exact h1

theorem convertLoop_rel (hR : Orders R) {header : List String} (hn : header.Nodup) {sps sps' : Dict String (List Rat)}
    (hs : SplitRel header R sps sps') {cols : List Nat} (hcols : ∀ i < header.length, i ∈ cols) {r s : Dict Nat Rat}
    (h : DictRel (fun i x y => i < header.length ∧ R i x y) r s) :
    convertLoop cols sps header r = convertLoop cols sps' header s := by
  induction h with
  | nil => rfl
  | @cons a b r s hab _ ih =>
    obtain ⟨i, x⟩ := a
    obtain ⟨j, y⟩ := b
    obtain ⟨rfl, hi, hxy⟩ := hab
    simp only at hi hxy
    simp only [convertLoop]
    rw [if_pos (hcols i hi), if_pos (hcols i hi)]
    have h1 := lookup_rel hn hs i
    revert h1
    generalize lookupSplits header sps i = a
    generalize lookupSplits header sps' i = b
    intro h1
    cases a with
    | error e1 =>
      cases b with
      | error e2 => cases h1; rfl
      | ok b => exact h1.elim
    | ok a =>
      cases b with
      | error e2 => exact h1.elim
      | ok b => simp only [ih, getBinNum_rel (hR.order i) hxy h1]

theorem sparseBinLoop_rel (hR : Orders R) {header : List String} (hn : header.Nodup) {sps sps' : Dict String (List Rat)}
    (hs : SplitRel header R sps sps') : ∀ (cols : List Nat) (acc : Dict Nat Nat),
    sparseBinLoop sps header cols acc = sparseBinLoop sps' header cols acc
  | [], _ => rfl
  | c :: cols, acc => by
    simp only [sparseBinLoop]
    have h1 := lookup_rel hn hs c
    revert h1
    generalize lookupSplits header sps c = a
    generalize lookupSplits header sps' c = b
    intro h1
    cases a with
    | error e1 =>
      cases b with
      | error e2 => cases h1; rfl
      | ok b => exact h1.elim
    | ok a =>
      cases b with
      | error e2 => exact h1.elim
      | ok b =>
        simp only
        rw [getBinNum_rel (hR.order c) (hR.zero c) h1]
        exact sparseBinLoop_rel hR hn hs cols _

/-- Lists of split points in step, column by column. -/
def SplitsRel (R : Nat → Rat → Rat → Prop) (S S' : List (List Rat)) : Prop :=
  S.length = S'.length ∧ ∀ (f : Nat) s s', S[f]? = some s → S'[f]? = some s' → List.Forall₂ (R f) s s'

theorem splitArray_rel {header : List String} (hn : header.Nodup) {sps sps' : Dict String (List Rat)}
    (hs : SplitRel header R sps sps') (hk : ∀ n ∈ header, n ∈ Dict.keys sps) :
    SplitsRel R (splitArray header sps) (splitArray header sps') := by
  have key : ∀ (l : List String), (∀ n ∈ l, n ∈ Dict.keys sps) →
      (l.filterMap fun n => Dict.get? sps n).length = l.length ∧
      ∀ (f : Nat) s, (l.filterMap fun n => Dict.get? sps n)[f]? = some s → ∃ n, l[f]? = some n ∧ Dict.get? sps n = some s := by
    intro l
    induction l with
    | nil => intro _; exact ⟨rfl, by simp⟩
    | cons n l ih =>
      intro h
      obtain ⟨i1, i2⟩ := ih fun m hm => h m (List.mem_cons_of_mem _ hm)
      obtain ⟨v, hv⟩ := Dict.exists_get?_of_mem (h n (by simp))
      rw [List.filterMap_cons_some hv]
      refine ⟨by simp [i1], ?_⟩
      intro f s hf
      cases f with
      | zero => simp only [List.getElem?_cons_zero, Option.some.injEq] at hf ⊢; exact ⟨n, rfl, by rw [hv, hf]⟩
      | succ f => simp only [List.getElem?_cons_succ] at hf ⊢; exact i2 f s hf
  have key' : ∀ (l : List String), (∀ n ∈ l, n ∈ Dict.keys sps) →
      (l.filterMap fun n => Dict.get? sps' n).length = l.length ∧
      ∀ (f : Nat) s, (l.filterMap fun n => Dict.get? sps' n)[f]? = some s → ∃ n, l[f]? = some n ∧ Dict.get? sps' n = some s := by
    intro l
    induction l with
    | nil => intro _; exact ⟨rfl, by simp⟩
    | cons n l ih =>
      intro h
      obtain ⟨i1, i2⟩ := ih fun m hm => h m (List.mem_cons_of_mem _ hm)
      obtain ⟨v, hv⟩ := Dict.exists_get?_of_mem (d := sps') (k := n) (by rw [hs.keys]; exact h n (by simp))
      rw [List.filterMap_cons_some hv]
      refine ⟨by simp [i1], ?_⟩
      intro f s hf
      cases f with
      | zero => simp only [List.getElem?_cons_zero, Option.some.injEq] at hf ⊢; exact ⟨n, rfl, by rw [hv, hf]⟩
      | succ f => simp only [List.getElem?_cons_succ] at hf ⊢; exact i2 f s hf
  obtain ⟨a1, a2⟩ := key header hk
  obtain ⟨b1, b2⟩ := key' header hk
  refine ⟨by unfold splitArray; rw [a1, b1], ?_⟩
  intro f s s' h h'
  obtain ⟨n, n1, n2⟩ := a2 f s h
  obtain ⟨m, m1, m2⟩ := b2 f s' h'
  rw [n1, Option.some.injEq] at m1
  subst m1
  rcases hs.get? n with ⟨e1, _⟩ | ⟨v, u, e1, e2, h1⟩
  · rw [n2] at e1; cases e1
  · rw [n2, Option.some.injEq] at e1
    rw [m2, Option.some.injEq] at e2
    subst e1 e2
    rw [byName_at hn n1] at h1
    exact h1

theorem allSplits_keys (binNum : Nat) : ∀ (d : Dict String Quantile.Sparse) {r : Dict String (List Rat)},
    allSplits binNum d = .ok r → Dict.keys r = Dict.keys d
  | [], r, h => by cases h; rfl
  | (n, s) :: d, r, h => by
    simp only [allSplits] at h
    split at h
    · cases h
    · split at h
      · cases h
      · rename_i d' hd
        cases h
        show n :: Dict.keys d' = n :: Dict.keys d
        rw [allSplits_keys binNum d hd]

/-- Preparing rows with related values gives the same bins, and related split points. -/
theorem prepare_rel {K : Type} [DecidableEq K] (hR : Orders R) {cfg : Quantile.Config} (ha : cfg.abnormal = []) (binNum : Nat)
    {header : List String} (hn : header.Nodup) {rows rows' : DTable K (List Rat)}
    (h : DictRel (fun _ r s => r.length = s.length ∧ r.length ≤ header.length ∧ ∀ f, R f (value r f) (value s f)) rows.data rows'.data)
    {t : DTable K (SparseVec Cell)} {S : List (List Rat)} {sb : Dict Nat Nat} (hp : prepare cfg binNum header rows = .ok (t, S, sb)) :
    ∃ S', prepare cfg binNum header rows' = .ok (t, S', sb) ∧ SplitsRel R S S' := by
  have h1 := DTable.mapValues_rel (Q' := fun _ r s => RowRel R header.length r s) h (f := dataFormatTransform) (g := dataFormatTransform)
    fun k r s hrs => transform_rel hR hrs.1 hrs.2.1 hrs.2.2
  unfold prepare at hp ⊢
  revert h1 hp
  generalize rows.mapValues dataFormatTransform = a
  generalize rows'.mapValues dataFormatTransform = b
  intro hp h1
  cases a with
  | error e => cases hp
  | ok a =>
    cases b with
    | error e => exact h1.elim
    | ok b =>
      have h1 : DictRel (fun _ r s => RowRel R header.length r s) a.data b.data := h1
      have h2 := fitSplitPoints_rel hR ha binNum hn h1
      simp only at hp ⊢
      cases hfa : fitSplitPoints cfg binNum header a with
      | error e => rw [hfa] at hp; cases hp
      | ok sps =>
        rw [hfa] at hp h2
        cases hfb : fitSplitPoints cfg binNum header b with
        | error e => rw [hfb] at h2; exact h2.elim
        | ok sps' =>
          rw [hfb] at h2
          have h2 : SplitRel header R sps sps' := h2
          have h3 : a.mapValuesM (convertSparse (List.range header.length) sps header) =
              b.mapValuesM (convertSparse (List.range header.length) sps' header) := by
            refine DTable.mapValuesM_rel h1 fun k r s hrs => ?_
            unfold convertSparse
            rw [SparseVec.allData, SparseVec.allData, convertLoop_rel hR hn h2 (fun i hi => List.mem_range.mpr hi) hrs.1, hrs.2]
          have h4 : getSparseBin (List.range header.length) sps header = getSparseBin (List.range header.length) sps' header :=
            sparseBinLoop_rel hR hn h2 _ _
          simp only at hp ⊢
          unfold convertFeatureToBin at hp ⊢
          rw [← h3, ← h4]
          split at hp
          · cases hp
          · rename_i nd hnd
            split at hp
            · cases hp
            · rename_i sb0 hsb
              cases hp
              refine ⟨_, rfl, splitArray_rel hn h2 ?_⟩
              intro n hn'
              by_contra hc
              obtain ⟨i, hi, rfl⟩ := List.getElem_of_mem hn'
              have : ∀ (cols : List Nat) acc, i ∈ cols → ∀ x, sparseBinLoop sps header cols acc = .ok x → False := by
                intro cols
                induction cols with
                | nil => intro acc hm; simp at hm
                | cons c cols ih =>
                  intro acc hm x hx
                  simp only [sparseBinLoop] at hx
                  split at hx
                  · cases hx
                  · rename_i s hl
                    rcases List.mem_cons.mp hm with rfl | hm
                    · unfold lookupSplits at hl
                      rw [List.getElem?_eq_getElem hi] at hl
                      simp only at hl
                      rw [(Dict.get?_eq_none_iff _ _).mpr hc] at hl
                      cases hl
                    · exact ih _ hm x hx
              exact this _ _ (List.mem_range.mpr hi) _ hsb

end Binning
end Verif
