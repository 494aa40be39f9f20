import Verif.Lemmas.ProgramSetup
import Verif.Lemmas.LosslessBoost
import Verif.Model.CentralProgram

/-! # The program without federation -/

set_option autoImplicit false

namespace Verif
namespace Program

open Spec Labels DTree Histogram
open Data (Cell)

variable {P : Type} {K : Type} [DecidableEq K] {V W X : Type}

/-! ### Tables with the same records in another order -/

omit [DecidableEq K] in
theorem evalRecords_exists (f : V → Except PyErr W) (l : List (K × V))
    (h : ∀ p ∈ l, ∃ w, f p.2 = .ok w) : ∃ r, DTable.evalRecords f l = .ok r ∧ r.map Prod.fst = l.map Prod.fst := by
  induction l with
  | nil => exact ⟨[], rfl, rfl⟩
  | cons p l ih =>
    obtain ⟨r, h1, h2⟩ := ih fun p hp => h p (by simp [hp])
    obtain ⟨w, hw⟩ := h p (by simp)
    refine ⟨(p.1, w) :: r, ?_, by simp [h2]⟩
    obtain ⟨k, v⟩ := p
    simp only at hw
    simp only [DTable.evalRecords, hw, h1]

theorem mapValuesM_exists {t : DTable K V} (ht : t.WF) (f : V → Except PyErr W)
    (h : ∀ k v, t.data.get? k = some v → ∃ w, f v = .ok w) : ∃ r, t.mapValuesM f = .ok r := by
  obtain ⟨r, h1, h2⟩ := evalRecords_exists f t.data fun p hp => h p.1 p.2 (Dict.get?_of_mem ht hp)
  refine ⟨⟨r⟩, ?_⟩
  unfold DTable.mapValuesM
  rw [h1]
  show DTable.ofPairs r = _
  rw [DTable.ofPairs_eq, if_pos (by rw [h2]; exact ht)]

theorem joinM_exists (t : DTable K V) {o : DTable K W} (ho : o.WF) (f : V → W → Except PyErr X)
    (h : ∀ k v w, t.data.get? k = some v → o.data.get? k = some w → ∃ x, f v w = .ok x) :
    ∃ r, t.joinM o f = .ok r := by
  have hj : ∀ l : List (K × W), (l.map Prod.fst).Nodup → (∀ p ∈ l, o.data.get? p.1 = some p.2) →
      ((DTable.joinLoop t.data Prod.mk l).map Prod.fst).Sublist (l.map Prod.fst) ∧
      ∀ p ∈ DTable.joinLoop t.data Prod.mk l, t.data.get? p.1 = some p.2.1 ∧ o.data.get? p.1 = some p.2.2 := by
    intro l
    induction l with
    | nil => intro _ _; exact ⟨List.Sublist.slnil, by simp [DTable.joinLoop]⟩
    | cons p l ih =>
      intro hn hp
      simp only [List.map_cons, List.nodup_cons] at hn
      obtain ⟨h1, h2⟩ := ih hn.2 fun p' hp' => hp p' (by simp [hp'])
      obtain ⟨k, w⟩ := p
      unfold DTable.joinLoop
      cases hk : t.data.get? k with
      | none => exact ⟨h1.cons _, h2⟩
      | some v =>
        simp only
        refine ⟨by simpa using h1, ?_⟩
        intro p' hp'
        rcases List.mem_cons.mp hp' with rfl | hp'
        · exact ⟨hk, hp (k, w) (by simp)⟩
        · exact h2 p' hp'
  obtain ⟨h1, h2⟩ := hj o.data ho fun p hp => Dict.get?_of_mem ho hp
  obtain ⟨r, e1, e2⟩ := evalRecords_exists (fun p : V × W => f p.1 p.2) _ fun p hp =>
    h p.1 p.2.1 p.2.2 (h2 p hp).1 (h2 p hp).2
  refine ⟨⟨r⟩, ?_⟩
  unfold DTable.joinM
  rw [e1]
  show DTable.ofPairs r = _
  rw [DTable.ofPairs_eq, if_pos (by rw [e2]; exact List.Nodup.sublist h1 ho)]

theorem option_ext' {a b : Option X} (h : ∀ x, a = some x ↔ b = some x) : a = b := by
  cases a with
  | none =>
    cases b with
    | none => rfl
    | some x => exact ((h x).mpr rfl)
  | some x => exact ((h x).mp rfl).symm

theorem mapValuesM_same {t t' : DTable K V} (ht' : t'.WF) (hs : ∀ k, t'.data.get? k = t.data.get? k)
    {f : V → Except PyErr W} {r : DTable K W} (h : t.mapValuesM f = .ok r) :
    ∃ r', t'.mapValuesM f = .ok r' ∧ r'.WF ∧ ∀ k, r'.data.get? k = r.data.get? k := by
  obtain ⟨r', h'⟩ := mapValuesM_exists ht' f fun k v hk => by
    rw [hs] at hk
    obtain ⟨w, hw, _⟩ := DTable.mapValuesM_total h k v hk
    exact ⟨w, hw⟩
  refine ⟨r', h', (DTable.mapValuesM_inv h').1, fun k => option_ext' fun x => ?_⟩
  rw [(DTable.mapValuesM_inv h').2, (DTable.mapValuesM_inv h).2, hs]

theorem joinM_same {t : DTable K V} {o o' : DTable K W} (ho' : o'.WF)
    (hs : ∀ k, o'.data.get? k = o.data.get? k) {f : V → W → Except PyErr X} {r : DTable K X}
    (h : t.joinM o f = .ok r) :
    ∃ r', t.joinM o' f = .ok r' ∧ r'.WF ∧ ∀ k, r'.data.get? k = r.data.get? k := by
  obtain ⟨_, a2, a3⟩ := DTable.joinM_inv h
  obtain ⟨r', h'⟩ := joinM_exists t ho' f fun k v w hv hw => by
    rw [hs] at hw
    obtain ⟨x, hx, _⟩ := a3 k v w hv hw
    exact ⟨x, hx⟩
  obtain ⟨b1, b2, _⟩ := DTable.joinM_inv h'
  refine ⟨r', h', b1, fun k => option_ext' fun x => ?_⟩
  rw [b2, a2, hs]

theorem predictRows_same {T : Type} [LinearOrder P] [One P] [Sub P] {sigmoid : Rat → P}
    {softmax : List Rat → List P} {num : Nat} {classes : List (Label T)} {threshold : P}
    {given : DTable K (Option (Label T))} {scores scores' : DTable K (List Rat)} (hw' : scores'.WF)
    (hs : ∀ k, scores'.data.get? k = scores.data.get? k) {res : DTable K (Row T P)}
    (h : Labels.predictRows sigmoid softmax num classes threshold given scores = .ok res) :
    ∃ res', Labels.predictRows sigmoid softmax num classes threshold given scores' = .ok res' ∧
      res.WF ∧ res'.WF ∧ ∀ k, res'.data.get? k = res.data.get? k := by
  unfold Labels.predictRows at h ⊢
  split at h
  · rename_i hn
    simp only [if_pos hn, bind, Except.bind] at h ⊢
    split at h; · cases h
    rename_i ps hps
    obtain ⟨ps', e1, e2, e3⟩ := mapValuesM_same hw' hs hps
    obtain ⟨r', j1, j2, j3⟩ := joinM_same e2 e3 h
    exact ⟨r', by rw [e1]; exact j1, (DTable.joinM_inv h).1, j2, j3⟩
  · rename_i hn
    simp only [if_neg hn, bind, Except.bind] at h ⊢
    split at h; · cases h
    rename_i ps hps
    have e1 := DTable.mapValues_ok hw' softmax
    obtain ⟨e2, e3⟩ := DTable.mapValues_inv e1
    obtain ⟨r', j1, j2, j3⟩ := joinM_same (o := ps) e2
      (fun k => by rw [e3, (DTable.mapValues_inv hps).2, hs]) h
    exact ⟨r', by rw [e1]; exact j1, (DTable.joinM_inv h).1, j2, j3⟩

theorem table_perm {V : Type} {res res' : DTable Nat V} (hw : res.WF) (hw' : res'.WF)
    (hs : ∀ k, res'.data.get? k = res.data.get? k) : res'.data.Perm res.data := by
  have hn : res.data.Nodup := List.Nodup.of_map _ hw
  have hn' : res'.data.Nodup := List.Nodup.of_map _ hw'
  refine (List.perm_ext_iff_of_nodup hn' hn).mpr fun x => ?_
  constructor
  · intro h
    have := Dict.get?_of_mem hw' h
    rw [hs] at this
    exact Dict.get?_mem this
  · intro h
    have := Dict.get?_of_mem hw h
    rw [← hs] at this
    exact Dict.get?_mem this

theorem accuracy_same {res res' : DTable Nat (Row Cell P)} (hw : res.WF) (hw' : res'.WF)
    (hs : ∀ k, res'.data.get? k = res.data.get? k) : accuracy res' = accuracy res := by
  have hp := table_perm hw hw' hs
  by_cases he : res.data = []
  · have he' : res'.data = [] := by rw [he] at hp; exact hp.eq_nil
    unfold accuracy fraction
    simp only [he, he']
    rfl
  · have he' : res'.data ≠ [] := by
      intro h; rw [h] at hp; exact he hp.symm.eq_nil
    rw [accuracy_ok res he, accuracy_ok res' he', hp.countP_eq, hp.length_eq]

/-! ### The scores are tables -/

theorem updateF_wf {rate : Rate} {i : Nat} {s r : DTable K (List Rat)} {w : Option (DTable K Rat)}
    (h : updateF rate i s w = .ok r) : r.WF := by
  unfold updateF at h
  split at h
  · cases h
  · exact (DTable.joinM_inv h).1

theorem centralPredictRound_wf {rate : Rate} {dim : Nat} {trees : List Saved}
    {rows : DTable K (Binning.SparseVec Rat)} {fuel i : Nat} : ∀ (r t : Nat) {s s' : DTable K (List Rat)},
    s.WF → centralPredictRound rate dim trees rows fuel i r t s = .ok s' → s'.WF
  | 0, _, s, s', hs, h => by cases h; exact hs
  | r + 1, t, s, s', hs, h => by
    unfold centralPredictRound at h
    simp only [bind, Except.bind] at h
    split at h; · cases h
    split at h; · cases h
    rename_i s1 h1
    refine centralPredictRound_wf r (t + 1) ?_ h
    unfold centralAdd at h1
    simp only [bind, Except.bind] at h1
    split at h1; · cases h1
    exact updateF_wf h1

theorem centralPredictRounds_wf {rate : Rate} {dim : Nat} {trees : List Saved}
    {rows : DTable K (Binning.SparseVec Rat)} {fuel : Nat} : ∀ (r i : Nat) {s s' : DTable K (List Rat)},
    s.WF → centralPredictRounds rate dim trees rows fuel r i s = .ok s' → s'.WF
  | 0, _, s, s', hs, h => by cases h; exact hs
  | r + 1, i, s, s', hs, h => by
    unfold centralPredictRounds at h
    simp only [bind, Except.bind] at h
    split at h; · cases h
    rename_i s1 h1
    exact centralPredictRounds_wf r (i + 1) (centralPredictRound_wf _ _ hs h1) h

theorem centralScores_wf {rate : Rate} {dim : Nat} {init : List Rat} {trees : List Saved}
    {rows : DTable K (List Rat)} {fuel : Nat} {s : DTable K (List Rat)}
    (h : centralScores rate dim init trees rows fuel = .ok s) : s.WF := by
  unfold centralScores at h
  simp only [bind, Except.bind] at h
  split at h; · cases h
  split at h; · cases h
  rename_i g1 hg1
  split at h
  · cases h
  · exact centralPredictRounds_wf _ _ (DTable.mapValues_inv hg1).1 h

/-! ### Reading -/

/-- The features of the lines of two files side by side. -/
def joinedFeatures (gs : List (Cell × Cell × List Rat)) (hs : List (Cell × List Rat)) : List (List Rat) :=
  List.zipWith (fun a b => a.2.2 ++ b.2) gs hs

/-- The instances of the lines of two files. -/
def joinedInst (a : Cell × Cell × List Rat) (b : Cell × List Rat) : Inst :=
  ⟨a.1, a.2.2 ++ b.2, some (.str a.2.1)⟩

theorem joinedInsts_ok (h h' : List Cell) (gs : List (Cell × Cell × List Rat)) (hs : List (Cell × List Rat))
    (hl : hs.length = gs.length) :
    ∀ (rest pre : List (Cell × Cell × List Rat)) (rest' pre' : List (Cell × List Rat)), pre ++ rest = gs →
      pre' ++ rest' = hs → pre'.length = pre.length →
      joinedInsts ⟨h, gs.map (·.1), gs.map (·.2.2), gs.map (·.2.1)⟩ ⟨h', hs.map (·.1), hs.map (·.2), []⟩
        pre.length (rest.map (·.2.2)) = .ok (List.zipWith joinedInst rest rest')
  | [], _, _, _, _, _, _ => rfl
  | s :: rest, pre, [], pre', e, e', el => by
    have h1 := congrArg List.length e
    have h2 := congrArg List.length e'
    simp at h1 h2
    omega
  | s :: rest, pre, s' :: rest', pre', e, e', el => by
    have hs1 : gs[pre.length]? = some s := by rw [← e]; simp
    have hs2 : hs[pre.length]? = some s' := by rw [← e', ← el]; simp
    have ih := joinedInsts_ok h h' gs hs hl rest (pre ++ [s]) rest' (pre' ++ [s']) (by simp [e]) (by simp [e'])
      (by simp [el])
    simp only [List.length_append, List.length_cons, List.length_nil, Nat.zero_add] at ih
    simp only [List.map_cons, joinedInsts, Histogram.getAt, List.getElem?_map, hs1, hs2, Option.map_some, bind,
      Except.bind, ih]
    rfl

theorem joinedTables_ok {parse : Cell → Option Rat} {text text2 : List Char} {header header2 : List Cell}
    {gs : List (Cell × Cell × List Rat)} {hs : List (Cell × List Rat)}
    (h : LabelledFile parse text header gs) (h2 : PlainFile parse text2 header2 hs) (hl : hs.length = gs.length)
    (scaled : Nat → Rat) (draw : Nat → Nat → Nat) :
    joinedTables parse text text2 scaled draw =
      .ok (tablesOf (header ++ header2) (List.zipWith joinedInst gs hs) scaled draw) := by
  obtain ⟨head, lines, a1, rfl, a3, a4, rfl, rfl⟩ := h
  obtain ⟨first, lines', b1, b2, b3, rfl, rfl⟩ := h2
  unfold joinedTables
  rw [C07_labelled parse head lines a1 a3 a4, C07_unlabelled parse first header2 lines' b1 b2 b3]
  simp only [bind, Except.bind]
  have := joinedInsts_ok head.feats header2 (lines.map fun r => (r.1.id, r.1.label, r.2))
    (lines'.map fun r => (r.1, r.2.2)) hl _ [] _ [] rfl rfl rfl
  simp only [List.map_map, Function.comp_def, List.length_nil] at this
  rw [this]
  simp only [splitTables_ok]

/-! ### Pieces -/

theorem prepareParty_inv {α : Type} {S : Settings α P} {idx : Nat} {header : List String} {insts : List Inst}
    {Q : Party Nat} (h : prepareParty S idx header (numbered insts) = .ok Q) :
    Q.idx = idx ∧ Binning.prepare S.binning S.binNum header (numbered (insts.map Inst.features)) =
      .ok (Q.data, Q.splits, Q.sparse) := by
  unfold prepareParty at h
  split at h
  · cases h
  · simp only [numbered_mapValues, bind, Except.bind] at h
    split at h
    · cases h
    · rename_i r hr
      cases h
      exact ⟨rfl, hr⟩

/-- What the steps of the programs end with. -/
theorem runTables_inv {α : Type} [LinearOrder P] [One P] [Sub P] {S : Settings α P} {hosts : List HostArgs}
    {g : Tables} {hs : List Tables} {out : Outcome P} {guest : Party Nat} {parties : List (Party Nat)}
    {y : DTable Nat (Label Cell)} {R : Checked Nat Cell} {st : BoostState Nat}
    {rows : DTable Nat (List Rat)} {hrows : List (DTable Nat (List Rat))} {T : DTable Nat (List Rat)}
    {given : DTable Nat (Option (Label Cell))}
    (h : runTables S hosts g hs = .ok out) (h1 : prepareParty S 0 g.header g.train = .ok guest)
    (h2 : prepareHosts S hosts hs = .ok parties) (h3 : g.train.mapValuesM givenLabel = .ok y)
    (h4 : checkLabel y = .ok R)
    (h5 : boost (boostOf S guest parties R) (List.replicate R.dim 0) R.y = .ok st)
    (h6 : g.test.mapValues Inst.features = .ok rows) (h7 : testRows hs = .ok hrows)
    (h8 : predictScores parties S.rate R.dim (List.replicate R.dim 0) st.trees rows hrows S.fuel = .ok T)
    (h9 : g.test.mapValues Inst.label = .ok given) :
    out.state = st ∧
    Labels.predictRows S.sigmoid S.softmax R.num R.classes S.threshold given T = .ok out.result ∧
    accuracy out.result = .ok out.accuracy := by
  unfold runTables at h
  simp only [h1, h2, h3, h4, h5, h6, h7, h8, h9, bind, Except.bind] at h
  split at h; · cases h
  rename_i res hres
  split at h; · cases h
  rename_i a ha
  cases h
  exact ⟨rfl, hres, ha⟩

end Program
end Verif
