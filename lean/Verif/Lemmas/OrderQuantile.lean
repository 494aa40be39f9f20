import Verif.Model.Binning
import Mathlib.Data.List.Forall2

/-!
# Quantile summaries only compare values

Two summaries fed with values that compare in the same way stay in step: related values at the
same places, the same counts.
-/

set_option autoImplicit false

namespace Verif

/-- Equal errors, or related results. -/
def ERel {α β : Type} (R : α → β → Prop) : Except PyErr α → Except PyErr β → Prop
  | .ok x, .ok y => R x y
  | .error e, .error e' => e = e'
  | _, _ => False

theorem ERel.bind {α β γ δ : Type} {R : α → β → Prop} {Q : γ → δ → Prop} {a : Except PyErr α} {b : Except PyErr β}
    (h : ERel R a b) {f : α → Except PyErr γ} {g : β → Except PyErr δ} (hf : ∀ x y, R x y → ERel Q (f x) (g y)) :
    ERel Q (a >>= f) (b >>= g) := by
  cases a with
  | error e =>
    cases b with
    | error e' => exact h
    | ok y => exact h.elim
  | ok x =>
    cases b with
    | error e' => exact h.elim
    | ok y => exact hf x y h

theorem ERel.of_eq {α : Type} {a b : Except PyErr α} (h : a = b) : ERel Eq a b := by
  subst h
  cases a <;> rfl

namespace Quantile

/-- `R` pairs values that compare in the same way. -/
def Order (R : Rat → Rat → Prop) : Prop := ∀ x y x' y', R x y → R x' y' → (x ≤ x' ↔ y ≤ y')

variable {R : Rat → Rat → Prop}

theorem Order.lt (hR : Order R) {x y x' y' : Rat} (h : R x y) (h' : R x' y') : x < x' ↔ y < y' := by
  rw [← not_le, ← not_le, hR _ _ _ _ h' h]

theorem Order.eq (hR : Order R) {x y x' y' : Rat} (h : R x y) (h' : R x' y') : x = x' ↔ y = y' := by
  rw [le_antisymm_iff, le_antisymm_iff, hR _ _ _ _ h h', hR _ _ _ _ h' h]

theorem Order.mem (hR : Order R) {x y : Rat} (h : R x y) {xs ys : List Rat} (hs : List.Forall₂ R xs ys) : x ∈ xs ↔ y ∈ ys := by
  induction hs with
  | nil => simp
  | cons h' _ ih => rw [List.mem_cons, List.mem_cons, hR.eq h h', ih]

/-- Related values, equal numbers. -/
structure StatRel (R : Rat → Rat → Prop) (s t : Stat) : Prop where
  value : R s.value t.value
  g : s.g = t.g
  delta : s.delta = t.delta

structure QSRel (R : Rat → Rat → Prop) (q r : QS) : Prop where
  cfg : q.cfg = r.cfg
  head : List.Forall₂ R q.head r.head
  sampled : List.Forall₂ (StatRel R) q.sampled r.sampled
  count : q.count = r.count

theorem insert_rel (hR : Order R) {x y : Rat} (h : R x y) {xs ys : List Rat} (hs : List.Forall₂ R xs ys) :
    List.Forall₂ R (xs.orderedInsert (· ≤ ·) x) (ys.orderedInsert (· ≤ ·) y) := by
  induction hs with
  | nil => exact .cons h .nil
  | @cons a b xs ys h' hs ih =>
    simp only [List.orderedInsert]
    by_cases hc : x ≤ a
    · rw [if_pos hc, if_pos ((hR _ _ _ _ h h').mp hc)]
      exact .cons h (.cons h' hs)
    · rw [if_neg hc, if_neg fun hd => hc ((hR _ _ _ _ h h').mpr hd)]
      exact .cons h' ih

theorem sort_rel (hR : Order R) {xs ys : List Rat} (hs : List.Forall₂ R xs ys) :
    List.Forall₂ R (xs.insertionSort (· ≤ ·)) (ys.insertionSort (· ≤ ·)) := by
  induction hs with
  | nil => exact .nil
  | cons h _ ih => exact insert_rel hR h ih

theorem while_rel {α β : Type} {P : α → β → Prop} {p : α → Bool} {q : β → Bool} (h : ∀ a b, P a b → p a = q b) {l : List α}
    {m : List β} (hs : List.Forall₂ P l m) :
    List.Forall₂ P (l.takeWhile p) (m.takeWhile q) ∧ List.Forall₂ P (l.dropWhile p) (m.dropWhile q) := by
  induction hs with
  | nil => exact ⟨.nil, .nil⟩
  | @cons a b l m hab hs ih =>
    rw [List.takeWhile_cons, List.takeWhile_cons, List.dropWhile_cons, List.dropWhile_cons, h a b hab]
    cases q b with
    | true => exact ⟨.cons hab ih.1, ih.2⟩
    | false => exact ⟨.nil, .cons hab hs⟩

theorem nil_rel {α β : Type} {P : α → β → Prop} {l : List α} {m : List β} (h : List.Forall₂ P l m) : l = [] ↔ m = [] := by
  cases h <;> simp

theorem append_rel {α β : Type} {P : α → β → Prop} {l l' : List α} {m m' : List β} (h : List.Forall₂ P l m)
    (h' : List.Forall₂ P l' m') : List.Forall₂ P (l ++ l') (m ++ m') := by
  induction h with
  | nil => exact h'
  | cons a _ ih => exact .cons a ih

theorem headLoop_rel (hR : Order R) (err : Rat) {xs ys : List Rat} (hs : List.Forall₂ R xs ys) :
    ∀ {acc acc' rest rest' : List Stat} (n : Nat), List.Forall₂ (StatRel R) acc acc' → List.Forall₂ (StatRel R) rest rest' →
      List.Forall₂ (StatRel R) (headLoop err xs acc rest n).1 (headLoop err ys acc' rest' n).1 ∧
      (headLoop err xs acc rest n).2 = (headLoop err ys acc' rest' n).2 := by
  induction hs with
  | nil => intro acc acc' rest rest' n ha hr; exact ⟨ha, rfl⟩
  | @cons x y xs ys hxy hs ih =>
    intro acc acc' rest rest' n ha hr
    obtain ⟨w1, w2⟩ := while_rel (p := fun s : Stat => decide (s.value ≤ x)) (q := fun s : Stat => decide (s.value ≤ y))
      (fun a b hab => by rw [decide_eq_decide]; exact hR _ _ _ _ hab.value hxy) hr
    have ha' := append_rel ha w1
    simp only [headLoop]
    have hd : (if acc ++ rest.takeWhile (fun s => decide (s.value ≤ x)) = [] ∨
          (rest.dropWhile (fun s => decide (s.value ≤ x)) = [] ∧ xs = []) then (0 : Int) else ⌊2 * err * ((n + 1 : Nat) : Rat)⌋) =
        (if acc' ++ rest'.takeWhile (fun s => decide (s.value ≤ y)) = [] ∨
          (rest'.dropWhile (fun s => decide (s.value ≤ y)) = [] ∧ ys = []) then (0 : Int) else ⌊2 * err * ((n + 1 : Nat) : Rat)⌋) := by
      simp only [nil_rel ha', nil_rel w2, nil_rel hs]
    exact ih (n + 1) (append_rel ha' (.cons ⟨hxy, rfl, hd⟩ .nil)) w2

theorem insertHeadBuffer_rel (hR : Order R) {q r : QS} (h : QSRel R q r) : QSRel R (insertHeadBuffer q) (insertHeadBuffer r) := by
  unfold insertHeadBuffer
  by_cases hc : q.head = []
  · rw [if_pos hc, if_pos ((nil_rel h.head).mp hc)]
    exact h
  · rw [if_neg hc, if_neg fun hd => hc ((nil_rel h.head).mpr hd)]
    obtain ⟨a, b⟩ := headLoop_rel hR q.cfg.error (sort_rel hR h.head) q.count .nil h.sampled
    rw [h.cfg, h.count] at a b
    refine ⟨h.cfg, .nil, ?_, ?_⟩
    · simp only [h.cfg, h.count]; exact a
    · simp only [h.cfg, h.count]; exact b

theorem compressLoop_rel (thr : Rat) {ts us : List Stat} (hs : List.Forall₂ (StatRel R) ts us) :
    ∀ {s t : Stat} {res res' : List Stat}, StatRel R s t → List.Forall₂ (StatRel R) res res' →
      StatRel R (compressLoop thr s ts res).1 (compressLoop thr t us res').1 ∧
      List.Forall₂ (StatRel R) (compressLoop thr s ts res).2 (compressLoop thr t us res').2 := by
  induction hs with
  | nil => intro s t res res' h hr; exact ⟨h, hr⟩
  | @cons a b ts us hab hs ih =>
    intro s t res res' h hr
    simp only [compressLoop]
    rw [hab.g, h.g, h.delta]
    split
    · exact ih ⟨h.value, rfl, rfl⟩ hr
    · exact ih hab (.cons h hr)

theorem compressImmut_rel (hR : Order R) (thr : Rat) {l m : List Stat} (h : List.Forall₂ (StatRel R) l m) :
    List.Forall₂ (StatRel R) (compressImmut thr l) (compressImmut thr m) := by
  cases h with
  | nil => exact .nil
  | @cons a b l m hab hs =>
    have hr := List.forall₂_reverse_iff.mpr hs
    simp only [compressImmut]
    generalize l.reverse = l' at hr
    generalize m.reverse = m' at hr
    cases hr with
    | nil => exact .cons hab .nil
    | @cons c d l' m' hcd hr =>
      obtain ⟨r1, r2⟩ := compressLoop_rel thr hr hcd .nil
      simp only
      by_cases hc : a.value ≤ (compressLoop thr c l' []).1.value
      · rw [if_pos hc, if_pos ((hR _ _ _ _ hab.value r1.value).mp hc)]
        exact .cons hab (.cons r1 r2)
      · rw [if_neg hc, if_neg fun hd => hc ((hR _ _ _ _ hab.value r1.value).mpr hd)]
        exact .cons r1 r2

theorem compress_rel (hR : Order R) {q r : QS} (h : QSRel R q r) : QSRel R (compress q) (compress r) := by
  have h := insertHeadBuffer_rel hR h
  unfold compress
  refine ⟨h.cfg, h.head, ?_, h.count⟩
  simp only [h.cfg, h.count]
  exact compressImmut_rel hR _ h.sampled

theorem insertOne_rel (hR : Order R) {q r : QS} (h : QSRel R q r) (ha : q.cfg.abnormal = []) {x y : Rat} (hxy : R x y) :
    QSRel R (Quantile.insert q x) (Quantile.insert r y) := by
  have hb : r.cfg.abnormal = [] := by rw [← h.cfg]; exact ha
  unfold Quantile.insert
  rw [ha, hb]
  simp only [List.not_mem_nil, if_false]
  have h1 : QSRel R { q with head := q.head ++ [x] } { r with head := r.head ++ [y] } :=
    ⟨h.cfg, append_rel h.head (.cons hxy .nil), h.sampled, h.count⟩
  have hl : (q.head ++ [x]).length = (r.head ++ [y]).length := h1.head.length_eq
  rw [h.cfg, hl]
  split
  · have h2 := insertHeadBuffer_rel hR h1
    have hl2 := h2.sampled.length_eq
    have hc2 := h2.cfg
    rw [h.cfg] at h2 hl2 hc2
    rw [hc2, hl2]
    split
    · exact compress_rel hR h2
    · exact h2
  · have h1' := h1
    rw [h.cfg] at h1'
    exact h1'

theorem insertHeadBuffer_cfg (q : QS) : (insertHeadBuffer q).cfg = q.cfg := by
  unfold insertHeadBuffer; split <;> rfl

theorem insertOne_cfg (q : QS) (x : Rat) : (Quantile.insert q x).cfg = q.cfg := by
  unfold Quantile.insert
  split
  · rfl
  · simp only
    split
    · split
      · unfold compress; simp only [insertHeadBuffer_cfg]
      · simp only [insertHeadBuffer_cfg]
    · rfl

theorem queryLoop_rel (rank te : Int) {l m : List Stat} (h : List.Forall₂ (StatRel R) l m) : ∀ k : Int,
    (queryLoop rank te k l = none ∧ queryLoop rank te k m = none) ∨
      ∃ x y, queryLoop rank te k l = some x ∧ queryLoop rank te k m = some y ∧ R x y := by
  induction h with
  | nil => intro k; exact .inl ⟨rfl, rfl⟩
  | @cons a b l m hab _ ih =>
    intro k
    simp only [queryLoop]
    rw [hab.g, hab.delta]
    split
    · exact .inr ⟨_, _, rfl, rfl, hab.value⟩
    · exact ih _

theorem head_rel {α β : Type} {P : α → β → Prop} {l : List α} {m : List β} (h : List.Forall₂ P l m) :
    (l.head? = none ∧ m.head? = none) ∨ ∃ a b, l.head? = some a ∧ m.head? = some b ∧ P a b := by
  cases h with
  | nil => exact .inl ⟨rfl, rfl⟩
  | cons h _ => exact .inr ⟨_, _, rfl, rfl, h⟩

theorem last_rel {α β : Type} {P : α → β → Prop} {l : List α} {m : List β} (h : List.Forall₂ P l m) :
    (l.getLast? = none ∧ m.getLast? = none) ∨ ∃ a b, l.getLast? = some a ∧ m.getLast? = some b ∧ P a b := by
  have := head_rel (List.forall₂_reverse_iff.mpr h)
  rwa [List.head?_reverse, List.head?_reverse] at this

theorem inner_rel {α β : Type} {P : α → β → Prop} {l : List α} {m : List β} (h : List.Forall₂ P l m) :
    List.Forall₂ P l.tail.dropLast m.tail.dropLast := by
  have ht : List.Forall₂ P l.tail m.tail := by
    cases h with
    | nil => exact .nil
    | cons _ h => exact h
  have hr := List.forall₂_reverse_iff.mpr ht
  have hr' : List.Forall₂ P l.tail.reverse.tail m.tail.reverse.tail := by
    generalize l.tail.reverse = a at hr
    generalize m.tail.reverse = b at hr
    cases hr with
    | nil => exact .nil
    | cons _ h => exact h
  have := List.forall₂_reverse_iff.mpr hr'
  rwa [List.tail_reverse, List.tail_reverse, List.reverse_reverse, List.reverse_reverse] at this

theorem queryFlushed_rel (h0 : R 0 0) {q r : QS} (h : QSRel R q r) (t : Rat) : ERel R (queryFlushed q t) (queryFlushed r t) := by
  unfold queryFlushed
  rw [h.cfg, h.count]
  split
  · rfl
  split
  · exact h0
  rcases head_rel h.sampled with ⟨e1, e2⟩ | ⟨a, b, e1, e2, hab⟩
  · rw [e1, e2]; rfl
  rcases last_rel h.sampled with ⟨e3, e4⟩ | ⟨c, d, e3, e4, hcd⟩
  · rw [e1, e2, e3, e4]; rfl
  rw [e1, e2, e3, e4]
  simp only
  split
  · exact hab.value
  split
  · exact hcd.value
  rcases queryLoop_rel ⌈t * r.count⌉ ⌈r.cfg.error * r.count⌉ (inner_rel h.sampled) 0 with ⟨e5, e6⟩ | ⟨x, y, e5, e6, hxy⟩
  · rw [e5, e6]; exact hcd.value
  · rw [e5, e6]; exact hxy

theorem query_rel (hR : Order R) (h0 : R 0 0) {q r : QS} (h : QSRel R q r) (t : Rat) : ERel R (query q t) (query r t) := by
  apply queryFlushed_rel h0
  unfold flushed
  by_cases hc : q.head = []
  · rw [if_pos hc, if_pos ((nil_rel h.head).mp hc)]
    exact h
  · rw [if_neg hc, if_neg fun hd => hc ((nil_rel h.head).mpr hd)]
    exact compress_rel hR h

structure SparseRel (R : Rat → Rat → Prop) (s t : Sparse) : Prop where
  qs : QSRel R s.qs t.qs
  smaller : s.smaller = t.smaller
  bigger : s.bigger = t.bigger
  total : s.total = t.total

theorem sparseInsert_rel (hR : Order R) (hz : ∀ x y, R x y → (x < floatZero ↔ y < floatZero)) {s t : Sparse} (h : SparseRel R s t)
    (ha : s.qs.cfg.abnormal = []) {x y : Rat} (hxy : R x y) : SparseRel R (s.insert x) (t.insert y) := by
  have hi := insertOne_rel hR h.qs ha hxy
  unfold Sparse.insert
  by_cases hc : x < floatZero
  · rw [if_pos hc, if_pos ((hz _ _ hxy).mp hc)]
    exact ⟨hi, by simp [h.smaller], h.bigger, h.total⟩
  · rw [if_neg hc, if_neg fun hd => hc ((hz _ _ hxy).mpr hd)]
    exact ⟨hi, h.smaller, by simp [h.bigger], h.total⟩

theorem sparseInsert_cfg (s : Sparse) (x : Rat) : (s.insert x).qs.cfg = s.qs.cfg := by
  unfold Sparse.insert
  split <;> exact insertOne_cfg _ _

theorem sparseFold_rel (hR : Order R) (hz : ∀ x y, R x y → (x < floatZero ↔ y < floatZero)) {xs ys : List Rat}
    (hs : List.Forall₂ R xs ys) : ∀ {s t : Sparse}, SparseRel R s t → s.qs.cfg.abnormal = [] →
      SparseRel R (xs.foldl Sparse.insert s) (ys.foldl Sparse.insert t) := by
  induction hs with
  | nil => intro s t h _; exact h
  | cons hxy _ ih =>
    intro s t h ha
    exact ih (sparseInsert_rel hR hz h ha hxy) (by rw [sparseInsert_cfg]; exact ha)

theorem sparseOf_rel (hR : Order R) (hz : ∀ x y, R x y → (x < floatZero ↔ y < floatZero)) {cfg : Config}
    (ha : cfg.abnormal = []) {xs ys : List Rat} (hs : List.Forall₂ R xs ys) (n : Nat) :
    SparseRel R (sparseOf cfg xs n) (sparseOf cfg ys n) := by
  have h := sparseFold_rel hR hz hs (s := Sparse.new cfg) (t := Sparse.new cfg) ⟨⟨rfl, .nil, .nil, rfl⟩, rfl, rfl, rfl⟩ ha
  exact ⟨compress_rel hR h.qs, h.smaller, h.bigger, rfl⟩

theorem sparseQuery_rel (hR : Order R) (h0 : R 0 0) {s t : Sparse} (h : SparseRel R s t) (q : Rat) :
    ERel R (s.query q) (t.query q) := by
  have hl : s.zeroLower = t.zeroLower := by
    unfold Sparse.zeroLower; rw [h.smaller, h.total]
  have hu : s.zeroUpper = t.zeroUpper := by
    unfold Sparse.zeroUpper; rw [h.smaller, h.total, h.bigger]
  have hc : s.convert q = t.convert q := by
    unfold Sparse.convert; rw [hl, hu, h.total, h.qs.count]
  unfold Sparse.query
  rw [hl, hu, hc]
  refine (ERel.of_eq rfl).bind ?_
  rintro l _ rfl
  have hlast : ∀ b : Bool, ERel R (if b = true then Except.ok 0 else t.convert q >>= fun q' => query s.qs q')
      (if b = true then Except.ok 0 else t.convert q >>= fun q' => query t.qs q') := by
    intro b
    split
    · exact h0
    · refine (ERel.of_eq rfl).bind ?_
      rintro q' _ rfl
      exact query_rel hR h0 h.qs q'
  simp only
  split
  · refine (ERel.of_eq rfl).bind ?_
    rintro u _ rfl
    exact hlast _
  · exact hlast false

theorem splitLoop_rel (hR : Order R) {ask ask' : Rat → Except PyErr Rat} (hask : ∀ q, ERel R (ask q) (ask' q)) :
    ∀ (qs : List Rat) {acc acc' : List Rat}, List.Forall₂ R acc acc' →
      ERel (List.Forall₂ R) (splitLoop ask qs acc) (splitLoop ask' qs acc')
  | [], _, _, h => h
  | q :: qs, acc, acc', h => by
    refine (hask q).bind fun x y hxy => splitLoop_rel hR hask qs ?_
    by_cases hc : x ∈ acc
    · rw [if_pos hc, if_pos ((hR.mem hxy h).mp hc)]
      exact h
    · rw [if_neg hc, if_neg fun hd => hc ((hR.mem hxy h).mpr hd)]
      exact append_rel h (.cons hxy .nil)

theorem splitPoints_rel (hR : Order R) {ask ask' : Rat → Except PyErr Rat} (hask : ∀ q, ERel R (ask q) (ask' q)) (n : Nat) :
    ERel (List.Forall₂ R) (splitPoints ask n) (splitPoints ask' n) := by
  unfold splitPoints
  split
  · rfl
  · exact splitLoop_rel hR hask _ .nil

end Quantile

namespace Binning

theorem getBinNum_rel {R : Rat → Rat → Prop} (hR : Quantile.Order R) {x y : Rat} (h : R x y) {s t : List Rat}
    (hs : List.Forall₂ R s t) : getBinNum x s = getBinNum y t := by
  have hloop : ∀ i, binLoop x i s = binLoop y i t := by
    induction hs with
    | nil => intro i; rfl
    | @cons a b s t hab _ ih =>
      intro i
      simp only [binLoop]
      by_cases hc : x ≤ a
      · rw [if_pos hc, if_pos ((hR _ _ _ _ h hab).mp hc)]
      · rw [if_neg hc, if_neg fun hd => hc ((hR _ _ _ _ h hab).mpr hd)]
        exact ih _
  unfold getBinNum
  rw [hloop 0, hs.length_eq]

end Binning
end Verif
