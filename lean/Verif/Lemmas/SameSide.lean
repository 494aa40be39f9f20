import Verif.Lemmas.Discreet
import Verif.Lemmas.Binning

/-! # Prediction depends on thresholds through comparisons only -/

set_option autoImplicit false

namespace Verif
namespace Network

open DTree Spec Binning

variable {K : Type} [DecidableEq K] {α : Type}

/-- Thresholds that sort the values of one row in the same way. -/
def SameTests (row : SparseVec Rat) (m m' : Dict Nat Rat) : Prop :=
  ∀ nid fid, threshTest m nid fid row = threshTest m' nid fid row

theorem getFeature_cases (row : List Rat) (fid : Option Int) :
    getFeature (dataFormatTransform row) fid = 0 ∨ getFeature (dataFormatTransform row) fid ∈ row := by
  unfold getFeature
  cases fid with
  | none => exact .inl rfl
  | some f =>
    simp only
    split
    · exact .inl rfl
    · unfold SparseVec.getData
      rw [dataFormatTransform_get?]
      cases h : row[f.toNat]? with
      | none => exact .inl rfl
      | some x =>
        simp only
        split
        · exact .inl rfl
        · exact .inr (List.mem_of_getElem? h)

omit [DecidableEq K] in
theorem sameTests {table : DTable K (List Rat)} {m m' : Dict Nat Rat} (h : SameSide table m m')
    {x : K × List Rat} (hx : x ∈ table.data) : SameTests (dataFormatTransform x.2) m m' := by
  intro nid fid
  obtain ⟨h1, h2⟩ := h nid
  unfold threshTest decodeVal
  cases hm : m.get? nid with
  | none => rw [h1.mp hm]
  | some t =>
    cases hm' : m'.get? nid with
    | none => rw [h1.mpr hm'] at hm; cases hm
    | some t' =>
      obtain ⟨h3, h4⟩ := h2 t t' hm hm'
      simp only [bind, Except.bind]
      have : (getFeature (dataFormatTransform x.2) fid ≤ t ↔ getFeature (dataFormatTransform x.2) fid ≤ t') := by
        rcases getFeature_cases x.2 fid with h | h
        · rw [h]; exact h3
        · exact h4 x hx _ h
      simp only [this]

theorem walkHost_same {tree : List Node} {m m' : Dict Nat Rat} {site : Site} {row : SparseVec Rat}
    (h : SameTests row m m') : ∀ fuel nid,
    walkHost tree m site row fuel nid = walkHost tree m' site row fuel nid
  | 0, _ => rfl
  | fuel + 1, nid => by
    simp only [walkHost, h nid, walkHost_same h fuel]

theorem walkGuest_same {tree : List Node} {m m' : Dict Nat Rat} {row : SparseVec Rat}
    (h : SameTests row m m') : ∀ fuel nid,
    walkGuest tree m row fuel nid = walkGuest tree m' row fuel nid
  | 0, _ => rfl
  | fuel + 1, nid => by
    simp only [walkGuest, h nid, walkGuest_same h fuel]

theorem traverseHost_same {tree : List Node} {m m' : Dict Nat Rat} {site : Site} {row : SparseVec Rat}
    (h : SameTests row m m') (fuel : Nat) (s : PState) :
    traverseHost tree m site fuel s row = traverseHost tree m' site fuel s row := by
  cases s with
  | node nid tag => simp only [traverseHost, walkHost_same h]
  | weight w => rfl

theorem traverseGuest_same {tree : List Node} {m m' : Dict Nat Rat} {row : SparseVec Rat}
    (h : SameTests row m m') (fuel : Nat) (s : PState) :
    traverseGuest tree m fuel s row = traverseGuest tree m' fuel s row := by
  cases s with
  | node nid tag => simp only [traverseGuest, walkGuest_same h]
  | weight w => rfl

theorem joinM_congr {V W X : Type} {t : DTable K V} {o : DTable K W} {f f' : V → W → Except PyErr X}
    (h : ∀ v, ∀ w ∈ o.data, f v w.2 = f' v w.2) : t.joinM o f = t.joinM o f' := by
  unfold DTable.joinM
  have : ∀ l : List (K × (V × W)), (∀ p ∈ l, f p.2.1 p.2.2 = f' p.2.1 p.2.2) →
      DTable.evalRecords (fun p : V × W => f p.1 p.2) l
        = DTable.evalRecords (fun p : V × W => f' p.1 p.2) l := by
    intro l
    induction l with
    | nil => exact fun _ => rfl
    | cons p l ih =>
      intro hl
      obtain ⟨k, v, w⟩ := p
      simp only [DTable.evalRecords, ih fun p hp => hl p (by simp [hp])]
      rw [show f v w = f' v w from hl (k, v, w) (by simp)]
  rw [this]
  intro p hp
  obtain ⟨v, w, _, h2, h3⟩ := DTable.mem_joinLoop hp
  rw [h3]
  exact h v _ h2

/-- Rows on which two sets of trees of one party decide alike. -/
def SameOn (rows : DTable K (SparseVec Rat)) (T T' : List NodeParam × Dict Nat Rat) : Prop :=
  T.1 = T'.1 ∧ ∀ x ∈ rows.data, SameTests x.2 T.2 T'.2

theorem sameOn_align {table : DTable K (List Rat)} {rows : DTable K (SparseVec Rat)}
    (ha : alignRows table = .ok rows) {T T' : List NodeParam × Dict Nat Rat} (h1 : T.1 = T'.1)
    (h2 : SameSide table T.2 T'.2) : SameOn rows T T' := by
  refine ⟨h1, fun x hx => ?_⟩
  unfold alignRows at ha
  split at ha
  · cases ha
  · obtain ⟨v, h3, h4⟩ := DTable.mem_mapValues ha hx
    rw [h4]
    exact sameTests h2 (x := (x.1, v)) h3

theorem hostPredictLoop_same (site : Site) (tree : List Node) {m m' : Dict Nat Rat}
    {rows : DTable K (SparseVec Rat)} (h : ∀ x ∈ rows.data, SameTests x.2 m m') (fuel : Nat) : ∀ r : Nat,
    hostPredictLoop (α := α) site tree m rows fuel r = hostPredictLoop site tree m' rows fuel r
  | 0 => rfl
  | r + 1 => by
    have e : ∀ todo : DTable K PState, todo.joinM rows (traverseHost tree m site fuel)
        = todo.joinM rows (traverseHost tree m' site fuel) := fun todo =>
      joinM_congr fun v w hw => traverseHost_same (h w hw) fuel v
    simp only [hostPredictLoop, e, hostPredictLoop_same site tree h fuel r]

theorem guestPredictLoop_same (conns : Nat) (tree : List Node) {m m' : Dict Nat Rat}
    {rows : DTable K (SparseVec Rat)} (h : ∀ x ∈ rows.data, SameTests x.2 m m') (fuel : Nat) :
    ∀ (r : Nat) (todo : DTable K PState) (res : Option (DTable K Rat)),
    guestPredictLoop (α := α) conns tree m rows fuel r todo res
      = guestPredictLoop conns tree m' rows fuel r todo res
  | 0, _, _ => rfl
  | r + 1, todo, res => by
    have e : todo.joinM rows (traverseGuest tree m fuel) = todo.joinM rows (traverseGuest tree m' fuel) :=
      joinM_congr fun v w hw => traverseGuest_same (h w hw) fuel v
    simp only [guestPredictLoop, e, guestPredictLoop_same conns tree h fuel r]

/-- Corresponding trees. -/
theorem getAt_same {β : Type} {Q : β → β → Prop} : ∀ {l l' : List β}, List.Forall₂ Q l l' → ∀ i,
    (∃ x y, Histogram.getAt l i = .ok x ∧ Histogram.getAt l' i = .ok y ∧ Q x y) ∨
    (Histogram.getAt l i = .error .indexError ∧ Histogram.getAt l' i = .error .indexError) := by
  intro l l' h
  induction h with
  | nil => intro i; exact .inr ⟨by simp [Histogram.getAt], by simp [Histogram.getAt]⟩
  | cons hq _ ih =>
    intro i
    cases i with
    | zero => exact .inl ⟨_, _, rfl, rfl, hq⟩
    | succ i => exact ih i

theorem hostPredictRound_same (idx dim : Nat) {trees trees' : List (List NodeParam × Dict Nat Rat)}
    {rows : DTable K (SparseVec Rat)} (h : List.Forall₂ (SameOn rows) trees trees') (fuel i : Nat) :
    ∀ r t : Nat, hostPredictRound (α := α) idx dim trees rows fuel i r t
      = hostPredictRound idx dim trees' rows fuel i r t
  | 0, _ => rfl
  | r + 1, t => by
    have ih := hostPredictRound_same idx dim h fuel i r (t + 1)
    simp only [hostPredictRound, ih]
    rcases getAt_same h (i * dim + t) with ⟨x, y, h1, h2, h3⟩ | ⟨h1, h2⟩
    · rw [h1, h2, lift_ok, lift_ok, h3.1, hostPredictLoop_same _ _ h3.2]
    · rw [h1, h2]

theorem hostPredict_same (idx dim : Nat) {trees trees' : List (List NodeParam × Dict Nat Rat)}
    {table : DTable K (List Rat)}
    (h : List.Forall₂ (fun T T' => T.1 = T'.1 ∧ SameSide table T.2 T'.2) trees trees') (fuel : Nat) :
    hostPredict (α := α) idx dim trees table fuel = hostPredict idx dim trees' table fuel := by
  unfold hostPredict
  cases ha : alignRows table with
  | error e => rfl
  | ok rows =>
    have h' : List.Forall₂ (SameOn rows) trees trees' := h.imp fun T T' hT => sameOn_align ha hT.1 hT.2
    have : ∀ r i, hostPredictRounds (α := α) idx dim trees rows fuel r i
        = hostPredictRounds idx dim trees' rows fuel r i := by
      intro r
      induction r with
      | zero => intro i; rfl
      | succ r ih => intro i; simp only [hostPredictRounds, hostPredictRound_same idx dim h', ih]
    simp only [lift_ok, this, h.length_eq]

theorem guestPredictRound_same (conns : Nat) (rate : Rate) (dim : Nat)
    {trees trees' : List (List NodeParam × Dict Nat Rat)}
    {rows : DTable K (SparseVec Rat)} (h : List.Forall₂ (SameOn rows) trees trees') (fuel i : Nat) :
    ∀ (r t : Nat) (scores : DTable K (List Rat)),
    guestPredictRound (α := α) conns rate dim trees rows fuel i r t scores
      = guestPredictRound conns rate dim trees' rows fuel i r t scores
  | 0, _, _ => rfl
  | r + 1, t, scores => by
    have ih := guestPredictRound_same conns rate dim h fuel i r (t + 1)
    simp only [guestPredictRound, ih]
    rcases getAt_same h (i * dim + t) with ⟨x, y, h1, h2, h3⟩ | ⟨h1, h2⟩
    · rw [h1, h2, lift_ok, lift_ok, h3.1]
      simp only [guestPredictTree, guestPredictLoop_same _ _ h3.2]
    · rw [h1, h2]

theorem guestPredict_same (conns : Nat) (rate : Rate) (dim : Nat) (init : List Rat)
    {trees trees' : List (List NodeParam × Dict Nat Rat)} {table : DTable K (List Rat)}
    (h : List.Forall₂ (fun T T' => T.1 = T'.1 ∧ SameSide table T.2 T'.2) trees trees') (fuel : Nat) :
    guestPredict (α := α) conns rate dim init trees table fuel
      = guestPredict conns rate dim init trees' table fuel := by
  unfold guestPredict
  cases ha : alignRows table with
  | error e => rfl
  | ok rows =>
    have h' : List.Forall₂ (SameOn rows) trees trees' := h.imp fun T T' hT => sameOn_align ha hT.1 hT.2
    have : ∀ r i scores, guestPredictRounds (α := α) conns rate dim trees rows fuel r i scores
        = guestPredictRounds conns rate dim trees' rows fuel r i scores := by
      intro r
      induction r with
      | zero => intro i _; rfl
      | succ r ih => intro i _; simp only [guestPredictRounds, guestPredictRound_same conns rate dim h', ih]
    simp only [lift_ok, this, h.length_eq]

end Network
end Verif
