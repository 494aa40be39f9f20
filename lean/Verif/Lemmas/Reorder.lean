import Verif.Lemmas.Fit
import Verif.Lemmas.DTableM
import Mathlib.Data.List.Perm.Basic

/-! # Quantile summaries and prepared tables of reordered rows -/

set_option autoImplicit false

namespace Verif
namespace Quantile

theorem insertAll_buffered (q : QS) (data : List Rat) (h : q.head.length + data.length < q.cfg.headSize) :
    insertAll q data = { q with head := q.head ++ data.filter fun x => decide (x ∉ q.cfg.abnormal) } := by
  induction data generalizing q with
  | nil => simp [insertAll]
  | cons x data ih =>
    rw [List.length_cons] at h
    have e : insertAll q (x :: data) = insertAll (insert q x) data := rfl
    by_cases hx : x ∈ q.cfg.abnormal
    · have e1 : insert q x = q := by unfold insert; rw [if_pos hx]
      rw [e, e1, ih q (by omega), List.filter_cons_of_neg (by simpa using hx)]
    · have e1 : insert q x = { q with head := q.head ++ [x] } := by
        unfold insert
        rw [if_neg hx]
        simp only
        rw [if_neg]
        simp only [List.length_append, List.length_cons, List.length_nil]
        omega
      rw [e, e1, ih _ (by simp only [List.length_append, List.length_cons, List.length_nil]; omega),
        List.filter_cons_of_pos (by simpa using hx)]
      simp

/-- While everything fits into the buffer, the order of the values does not matter. -/
theorem compress_perm (cfg : Config) {a b : List Rat} (h : a.Perm b) :
    compress ⟨cfg, a, [], 0⟩ = compress ⟨cfg, b, [], 0⟩ := by
  have hs : a.insertionSort (· ≤ ·) = b.insertionSort (· ≤ ·) :=
    List.Perm.eq_of_pairwise' (r := (· ≤ ·)) (List.pairwise_insertionSort (· ≤ ·) a) (List.pairwise_insertionSort (· ≤ ·) b)
      (((List.perm_insertionSort (· ≤ ·) a).trans h).trans (List.perm_insertionSort (· ≤ ·) b).symm)
  have hi : insertHeadBuffer ⟨cfg, a, [], 0⟩ = insertHeadBuffer ⟨cfg, b, [], 0⟩ := by
    unfold insertHeadBuffer
    simp only
    by_cases ha : a = []
    · subst ha
      have hb : b = [] := h.nil_eq.symm
      subst hb
      rfl
    · rw [if_neg ha, if_neg (fun hb => ha (by subst hb; exact h.eq_nil)), hs]
  unfold compress
  rw [hi]

theorem denseOf_perm (cfg : Config) {a b : List Rat} (h : a.Perm b) (hl : a.length < cfg.headSize) :
    denseOf cfg a = denseOf cfg b := by
  unfold denseOf
  rw [insertAll_buffered (.new cfg) a (by simpa [QS.new] using hl),
    insertAll_buffered (.new cfg) b (by rw [← h.length_eq]; simpa [QS.new] using hl)]
  simp only [QS.new, List.nil_append]
  exact compress_perm cfg (h.filter _)

theorem sparseOf_perm (cfg : Config) {a b : List Rat} (h : a.Perm b) (total : Nat) (hl : a.length < cfg.headSize) :
    sparseOf cfg a total = sparseOf cfg b total := by
  obtain ⟨a1, a2, a3⟩ := sparse_foldl cfg a
  obtain ⟨b1, b2, b3⟩ := sparse_foldl cfg b
  have hq : compress (insertAll (.new cfg) a) = compress (insertAll (.new cfg) b) := denseOf_perm cfg h hl
  unfold sparseOf Sparse.compress Sparse.setTotal
  rw [a1, b1, hq, a2, b2, a3, b3, h.countP_eq, h.countP_eq]

end Quantile

namespace Dict

theorem ext_of_keys {K V : Type} [DecidableEq K] {a b : Dict K V} (ha : a.WF) (h : a.keys = b.keys)
    (hg : ∀ k ∈ a.keys, a.get? k = b.get? k) : a = b := by
  induction a generalizing b with
  | nil =>
    cases b with
    | nil => rfl
    | cons p b => simp [keys] at h
  | cons p a ih =>
    cases b with
    | nil => simp [keys] at h
    | cons q b =>
      obtain ⟨k, v⟩ := p
      obtain ⟨k', v'⟩ := q
      have hk : k = k' ∧ keys a = keys b := by simpa using h
      obtain ⟨rfl, hk⟩ := hk
      have ha' : k ∉ keys a ∧ WF a := by unfold WF at ha ⊢; simpa using ha
      have hv := hg k (by simp)
      simp only [get?_cons, if_true, Option.some.injEq] at hv
      subst hv
      congr 1
      refine ih ha'.2 hk fun x hx => ?_
      have := hg x (by simp [hx])
      rwa [get?_cons, get?_cons, if_neg (by rintro rfl; exact ha'.1 hx), if_neg (by rintro rfl; exact ha'.1 hx)] at this

end Dict

namespace DTable

variable {K V W : Type} [DecidableEq K]

/-- A function applied to all values of a reordered table. -/
theorem mapValuesM_perm {t t' : DTable K V} (ht : t.WF) (hp : t'.data.Perm t.data) (f : V → Except PyErr W)
    {r : DTable K W} (h : t.mapValuesM f = .ok r) : ∃ r', t'.mapValuesM f = .ok r' ∧ r'.data.Perm r.data := by
  have ht' : t'.WF := by
    unfold DTable.WF Dict.WF at *
    exact (hp.map Prod.fst).nodup_iff.mpr ht
  have hall : ∀ p ∈ t.data, ∃ w, f p.2 = .ok w := by
    have h0 := h
    unfold mapValuesM at h
    cases he : evalRecords f t.data with
    | error e => rw [he] at h; cases h
    | ok l =>
      clear h h0 hp ht
      revert l he
      generalize t.data = d
      induction d with
      | nil => intro l _ p hp; cases hp
      | cons p d ih =>
        intro l he q hq
        simp only [evalRecords] at he
        cases hf : f p.2 with
        | error e => rw [hf] at he; cases he
        | ok w =>
          rw [hf] at he
          cases hr : evalRecords f d with
          | error e => rw [hr] at he; cases he
          | ok ws =>
            rcases List.mem_cons.mp hq with rfl | hq
            · exact ⟨w, hf⟩
            · exact ih ws hr q hq
  by_cases hne : t.data = []
  · have hne' : t'.data = [] := by rw [hne] at hp; exact hp.eq_nil
    have e : t' = t := by cases t; cases t'; simp_all
    subst e
    exact ⟨r, h, List.Perm.refl _⟩
  · obtain ⟨p0, hp0⟩ := List.exists_mem_of_ne_nil _ hne
    obtain ⟨w0, _⟩ := hall p0 hp0
    let g : V → W := fun v => match f v with | .ok w => w | .error _ => w0
    have hg : ∀ p ∈ t.data, f p.2 = .ok (g p.2) := by
      intro p hp
      obtain ⟨w, hw⟩ := hall p hp
      simp only [g, hw]
    have e1 := mapValuesM_ok ht f g hg
    have e2 := mapValuesM_ok ht' f g fun p hp' => hg p (hp.mem_iff.mp hp')
    rw [h] at e1
    cases e1
    exact ⟨_, e2, hp.map _⟩

end DTable

namespace Binning

/-- A well-formed row stores at most one value per column. -/
theorem colEntries_length {d : Dict Nat Rat} (hd : d.WF) (j : Nat) : (colEntries j d).length ≤ 1 := by
  have h : (colEntries j d).length = (Dict.keys d).count j := by
    unfold colEntries Dict.keys
    rw [List.length_map, List.count, List.countP_map, List.countP_eq_length_filter]
    rfl
  rw [h]
  exact List.nodup_iff_count_le_one.mp hd j

theorem column_length {K : Type} {rows : DTable K (SparseVec Rat)} (h : ∀ p ∈ rows.data, p.2.vec.WF) (j : Nat) :
    (column j rows).length ≤ rows.data.length := by
  unfold column Dict.values
  revert h
  generalize rows.data = d
  induction d with
  | nil => intro _; simp
  | cons p d ih =>
    intro h
    have h1 := ih fun q hq => h q (List.mem_cons_of_mem _ hq)
    have h2 := colEntries_length (h p (by simp)) j
    simp only [List.map_cons, List.flatMap_cons, List.length_append, List.length_cons]
    omega

/-- The split points fitted to reordered rows. -/
theorem fitSplitPoints_perm {K : Type} (cfg : Quantile.Config) (binNum : Nat) (header : List String)
    (hn : header.Nodup) {rows rows' : DTable K (SparseVec Rat)} (hp : rows'.data.Perm rows.data)
    (hl : ∀ p ∈ rows.data, p.2.vec.WF ∧ ∀ q ∈ p.2.vec, q.1 < header.length)
    (hsize : rows.data.length < cfg.headSize) :
    fitSplitPoints cfg binNum header rows' = fitSplitPoints cfg binNum header rows := by
  have hfk : Dict.keys (header.map fun n => (n, Quantile.Sparse.new cfg)) = header := by
    unfold Dict.keys
    rw [List.map_map]
    have : (Prod.fst ∘ fun n => (n, Quantile.Sparse.new cfg)) = (id : String → String) := rfl
    rw [this, List.map_id]
  have hfg : ∀ (j : Nat) name, header[j]? = some name →
      Dict.get? (header.map fun n => (n, Quantile.Sparse.new cfg)) name = some (Quantile.Sparse.new cfg) := by
    intro j name hj
    have hmem : name ∈ header := List.mem_of_getElem? hj
    have hw : Dict.WF (header.map fun n => (n, Quantile.Sparse.new cfg)) := by
      unfold Dict.WF; rw [hfk]; exact hn
    exact Dict.get?_of_mem hw (List.mem_map.mpr ⟨name, hmem, rfl⟩)
  have hvals : ∀ r ∈ rows.data.values, ∀ p ∈ r.vec, p.1 < header.length := by
    intro r hr
    obtain ⟨p, hp, rfl⟩ := List.mem_map.mp hr
    exact (hl p hp).2
  have hpv : rows'.data.values.Perm rows.data.values := hp.map Prod.snd
  obtain ⟨d, d1, d2, d3⟩ := insertRows_ok header hn rows.data.values hvals (fun _ => Quantile.Sparse.new cfg) _ hfk hfg
  obtain ⟨d', e1, e2, e3⟩ := insertRows_ok header hn rows'.data.values
    (fun r hr => hvals r (hpv.mem_iff.mp hr)) (fun _ => Quantile.Sparse.new cfg) _ hfk hfg
  unfold fitSplitPoints
  rw [freshSummaries_ok cfg header hn, d1, e1]
  simp only
  have hc : rows'.count = rows.count := hp.length_eq
  congr 1
  have k1 := Dict.keys_map (fun _ v => Quantile.Sparse.setTotal (Quantile.Sparse.compress v) rows'.count) d'
  have k2 := Dict.keys_map (fun _ v => Quantile.Sparse.setTotal (Quantile.Sparse.compress v) rows.count) d
  apply Dict.ext_of_keys
  · unfold Dict.WF; rw [k1, e2]; exact hn
  · rw [k1, k2, e2, d2]
  · intro k hk
    rw [k1, e2] at hk
    obtain ⟨j, hj, rfl⟩ := List.getElem_of_mem hk
    have hj' : header[j]? = some header[j] := List.getElem?_eq_getElem hj
    rw [Dict.get?_map (fun _ v => Quantile.Sparse.setTotal (Quantile.Sparse.compress v) rows'.count) d',
      Dict.get?_map (fun _ v => Quantile.Sparse.setTotal (Quantile.Sparse.compress v) rows.count) d,
      d3 j _ hj', e3 j _ hj']
    simp only [Option.map_some, Option.some.injEq]
    rw [hc]
    have hcl := column_length (fun p hp => (hl p hp).1) j
    exact (Quantile.sparseOf_perm cfg (a := column j rows) (b := column j rows')
      ((hpv.flatMap_right _).symm) rows.count (by omega)).symm

/-- Preparing reordered rows gives the same split points and the same binned rows, reordered. -/
theorem prepare_perm {K : Type} [DecidableEq K] (cfg : Quantile.Config) (binNum : Nat) (header : List String)
    (hn : header.Nodup) {rows rows' : DTable K (List Rat)} (hwf : rows.WF) (hp : rows'.data.Perm rows.data)
    (hw : ∀ p ∈ rows.data, p.2.length = header.length) (hsize : rows.data.length < cfg.headSize)
    {t : DTable K (SparseVec Cell)} {S : List (List Rat)} {sb : Dict Nat Nat}
    (h : prepare cfg binNum header rows = .ok (t, S, sb)) :
    ∃ t', prepare cfg binNum header rows' = .ok (t', S, sb) ∧ t'.data.Perm t.data := by
  have hwf' : rows'.WF := by
    unfold DTable.WF Dict.WF at *
    exact (hp.map Prod.fst).nodup_iff.mpr hwf
  unfold prepare at h ⊢
  rw [DTable.mapValues_ok hwf] at h
  rw [DTable.mapValues_ok hwf']
  simp only at h ⊢
  have hsp : (rows'.data.map fun p => (p.1, dataFormatTransform p.2)).Perm
    (rows.data.map fun p => (p.1, dataFormatTransform p.2)) := hp.map _
  rw [fitSplitPoints_perm cfg binNum header hn (rows := ⟨rows.data.map fun p => (p.1, dataFormatTransform p.2)⟩) hsp
    (by
      intro p hp
      obtain ⟨q, hq, rfl⟩ := List.mem_map.mp hp
      obtain ⟨w1, w2⟩ := dataFormatTransform_wf q.2
      refine ⟨w1, fun x hx => ?_⟩
      have := w2 x.1 (List.mem_map.mpr ⟨x, hx, rfl⟩)
      rwa [hw q hq] at this)
    (by simpa using hsize)]
  cases hf : fitSplitPoints cfg binNum header ⟨rows.data.map fun p => (p.1, dataFormatTransform p.2)⟩ with
  | error e => rw [hf] at h; cases h
  | ok sps =>
    rw [hf] at h
    simp only at h ⊢
    unfold convertFeatureToBin at h ⊢
    have hswf : (⟨rows.data.map fun p => (p.1, dataFormatTransform p.2)⟩ : DTable K (SparseVec Rat)).WF := by
      unfold DTable.WF Dict.WF
      have := Dict.keys_map (fun _ r => dataFormatTransform r) rows.data
      rw [this]; exact hwf
    cases hm : (⟨rows.data.map fun p => (p.1, dataFormatTransform p.2)⟩ : DTable K (SparseVec Rat)).mapValuesM
        (convertSparse (List.range header.length) sps header) with
    | error e => rw [hm] at h; cases h
    | ok nd =>
      obtain ⟨nd', hm', hpd⟩ := DTable.mapValuesM_perm hswf hsp _ hm
      rw [hm] at h
      rw [hm']
      simp only at h ⊢
      cases hg : getSparseBin (List.range header.length) sps header with
      | error e => rw [hg] at h; cases h
      | ok sb0 =>
        rw [hg] at h
        cases h
        exact ⟨nd', rfl, hpd⟩

end Binning
end Verif
