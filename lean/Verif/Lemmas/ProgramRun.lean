import Verif.Lemmas.Program
import Verif.Lemmas.BoostRun
import Verif.Props.C21
import Verif.Props.C27
import Verif.Props.C33

/-! # The programs after reading and splitting -/

set_option autoImplicit false

namespace Verif
namespace Program

open Spec Labels DTree Histogram
open Data (Cell)

variable {P : Type} {p q : Nat} {sk : Paillier.PrivKey} {lo hi : Int} {m gmax hmax eg eh : Rat}
  {G : Rat × Rat → Prop} {S : Settings Num P} {N : Nat}

theorem ofList_inj : Function.Injective String.ofList := by
  intro a b h
  have := congrArg String.toList h
  simpa using this

theorem prepareParty_ok (hok : ProgramOk p q sk lo hi m gmax hmax eg eh G S N) (idx : Nat)
    {header : List Cell} (hh : header.Nodup) {insts : List Inst} (hne : insts ≠ [])
    (hw : ∀ x ∈ insts, x.features.length = header.length) :
    ∃ Q, prepareParty S idx (header.map String.ofList) (numbered insts) = .ok Q ∧ Q.idx = idx ∧
      FromRaw Q (numbered (insts.map Inst.features)) ∧ Q.splits.length = header.length := by
  have hnd : (header.map String.ofList).Nodup := hh.map ofList_inj
  have hl : insts.length ≠ 0 := by simpa using hne
  have hd : (numbered (insts.map Inst.features)).data ≠ [] := by
    intro h
    have := congrArg List.length h
    rw [numbered_length] at this
    simp at this
    exact hne this
  have hrows : ∀ k row, (numbered (insts.map Inst.features)).data.get? k = some row →
      row.length = (header.map String.ofList).length := by
    intro k row h
    rw [numbered_get] at h
    obtain ⟨x, hx, rfl⟩ := List.mem_map.mp (List.mem_of_getElem? h)
    rw [List.length_map]; exact hw x hx
  obtain ⟨table, Sp, sb, h1, _, h2, _⟩ := C21_table S.binning hok.error hok.abnormal S.binNum hok.bins
    (header.map String.ofList) hnd _ (numbered_wf (insts.map Inst.features)) hd hrows
  refine ⟨⟨idx, Sp, sb, [], table⟩, ?_, rfl, ⟨_, _, _, hok.error, hok.abnormal, hok.bins, hnd,
    numbered_wf _, hd, hrows, h1⟩, by simpa using h2⟩
  unfold prepareParty
  rw [numbered_count, if_neg hl]
  simp only [numbered_mapValues, h1, bind, Except.bind, pure, Except.pure]

theorem prepareHosts_ok (hok : ProgramOk p q sk lo hi m gmax hmax eg eh G S N) {parse : Cell → Option Rat}
    {gs : List (Cell × Cell × List Rat)} {scaled : Nat → Rat} {draw : Nat → Nat → Nat}
    (hne : trainPos gs.length (scaled gs.length) draw ≠ [])
    {hosts : List HostArgs} {files : List (List Cell × List (Cell × List Rat))}
    (hf : List.Forall₂ (HostFile parse gs.length scaled) hosts files) (hnd : ∀ f ∈ files, f.1.Nodup) :
    ∃ Qs, prepareHosts S hosts (List.zipWith (hostTablesOf draw) hosts files) = .ok Qs ∧
      Qs.map Party.idx = hosts.map HostArgs.idx ∧
      List.Forall₂ (fun Q f => FromRaw Q (numbered (entriesAt (f.2.map (·.2))
        (trainPos gs.length (scaled gs.length) draw))) ∧ Q.splits.length = f.1.length) Qs files := by
  induction hf with
  | nil => exact ⟨[], rfl, rfl, .nil⟩
  | @cons h f hosts files hf _ ih =>
    obtain ⟨Qs, q1, q2, q3⟩ := ih fun f hf => hnd f (by simp [hf])
    have hpick : ∀ x ∈ entriesAt (f.2.map hostInst) (trainPos gs.length (scaled gs.length) draw),
        x.features.length = f.1.length := by
      intro x hx
      obtain ⟨s, hs, rfl⟩ := List.mem_map.mp (pick_mem hx)
      exact hf.width s hs
    obtain ⟨Q, e1, e2, e3, e4⟩ := prepareParty_ok hok h.idx (hnd f (by simp)) (insts :=
      entriesAt (f.2.map hostInst) (trainPos gs.length (scaled gs.length) draw)) (by
        intro h
        have := congrArg List.length h
        rw [pick_length fun p hp => by rw [List.length_map, hf.length]; exact trainPos_lt hp] at this
        exact hne (by simpa using this)) hpick
    refine ⟨Q :: Qs, ?_, by simp [q2, e2], .cons ⟨?_, e4⟩ q3⟩
    · simp only [List.zipWith_cons_cons, prepareHosts]
      have : prepareParty S h.idx (hostTablesOf draw h f).header (hostTablesOf draw h f).train = .ok Q := by
        unfold hostTablesOf tablesOf
        simp only [List.length_map, hf.length, hf.scaled]
        exact e1
      simp only [this, q1, bind, Except.bind, pure, Except.pure]
    · rw [← pick_map, List.map_map] at e3
      exact e3

theorem testRows_ok {parse : Cell → Option Rat} {gs : List (Cell × Cell × List Rat)}
    {scaled : Nat → Rat} {draw : Nat → Nat → Nat}
    {hosts : List HostArgs} {files : List (List Cell × List (Cell × List Rat))}
    (hf : List.Forall₂ (HostFile parse gs.length scaled) hosts files) :
    testRows (List.zipWith (hostTablesOf draw) hosts files) =
      .ok (files.map fun f => numbered (entriesAt (f.2.map (·.2)) (testPos gs.length (scaled gs.length) draw))) := by
  induction hf with
  | nil => rfl
  | @cons h f hosts files hf _ ih =>
    simp only [List.zipWith_cons_cons, testRows, ih]
    unfold hostTablesOf tablesOf
    simp only [List.length_map, hf.length, hf.scaled, numbered_mapValues, bind, Except.bind, pure,
      Except.pure, List.map_cons, ← pick_map, List.map_map]
    rfl

/-- The labels of the training rows. -/
theorem labels_ok (insts : List Inst) (ls : List Cell)
    (h : insts.map Inst.label = ls.map fun l => some (.str l)) :
    (numbered insts).mapValuesM givenLabel = .ok (numbered (ls.map .str)) := by
  have hx : ∀ x ∈ insts, ∃ l, x.label = some (.str l) := by
    intro x hx
    have : x.label ∈ insts.map Inst.label := List.mem_map_of_mem hx
    rw [h] at this
    obtain ⟨l, _, hl⟩ := List.mem_map.mp this
    exact ⟨l, hl.symm⟩
  rw [numbered_mapValuesM insts givenLabel (fun x => (x.label).getD (.int 0)) fun x h => by
    obtain ⟨l, hl⟩ := hx x h
    unfold givenLabel; rw [hl]; rfl]
  congr 2
  have := congrArg (List.map fun o : Option (Label Cell) => o.getD (.int 0)) h
  simpa [List.map_map, Function.comp_def] using this

theorem str_comparable (ls : List Cell) : Comparable (ls.map (Label.str (T := Cell))) := by
  right
  intro l hl
  obtain ⟨c, _, rfl⟩ := List.mem_map.mp hl
  rfl

theorem str_value_inj {a b : Cell} (h : (Label.str a).value = (Label.str b).value) : a = b := by
  simpa [Label.value] using h

theorem distinct_str_le {T : Type} [LinearOrder T] (ls d : List T) (h : ∀ l ∈ ls, l ∈ d) :
    (distinct (ls.map (Label.str (T := T)))).length ≤ d.length := by
  unfold distinct
  rw [← List.length_map (f := fun l : T => (Label.str l).value) (as := d)]
  refine (List.nodup_dedup _).length_le_of_subset fun v hv => ?_
  rw [List.mem_dedup, List.map_map] at hv
  obtain ⟨l, hl, rfl⟩ := List.mem_map.mp hv
  exact List.mem_map.mpr ⟨l, h l hl, rfl⟩

/-- What the check of the labels gives for strings. -/
theorem check_ok (ls : List Cell)
    (hn : (distinct (ls.map (Label.str (T := Cell)))).length ≤ 1000) :
    ∃ R, checkLabel (numbered (ls.map .str)) = .ok R ∧ R.dim = components R.num ∧
      R.classes.length = R.num ∧ ClassesOf ls R.classes ∧ R.y.WF ∧
      R.y.data.keys = List.range ls.length ∧
      ∀ i l, ls[i]? = some l → ∃ code, ∃ c : Nat, R.y.data.get? i = some code ∧
        code.value = (Label.int (T := Cell) c).value ∧ R.classes[c]? = some (.str l) := by
  have hv : (numbered (ls.map (Label.str (T := Cell)))).data.values = ls.map .str := numbered_values _
  obtain ⟨R, r0, r1, r2, r3, r4, r5, r6, r7⟩ := C33_encoding (numbered (ls.map .str)) (numbered_wf _)
    (by rw [hv]; exact str_comparable ls) (by rw [hv]; exact hn)
  rw [hv] at r4 r7
  have hcls : ∀ c ∈ R.classes, ∃ l ∈ ls, c = .str l := by
    intro c hc
    obtain ⟨l, hl, e⟩ := List.mem_map.mp (r4 c hc)
    exact ⟨l, hl, e.symm⟩
  have hcode : ∀ i l, ls[i]? = some l → ∃ code, ∃ c : Nat, R.y.data.get? i = some code ∧
        code.value = (Label.int (T := Cell) c).value ∧ R.classes[c]? = some (.str l) := by
    intro i l hl
    obtain ⟨code, c, q1, q2, _, q4, q5⟩ := r7 i (.str l) (by rw [numbered_get, List.getElem?_map, hl]; rfl)
    refine ⟨code, _, q1, q2, ?_⟩
    obtain ⟨l', _, rfl⟩ := hcls c (List.mem_of_getElem? q4)
    rw [q4, str_value_inj q5]
  have hkeys : R.y.data.keys = List.range ls.length := by rw [r6, numbered_keys, List.length_map]
  refine ⟨R, r0, by rw [r2]; rfl, r3, ⟨List.pairwise_map.mp r5, fun c => ⟨hcls c, ?_⟩⟩, ?_, hkeys, hcode⟩
  · rintro ⟨l, hl, rfl⟩
    obtain ⟨i, hi⟩ := List.mem_iff_getElem?.mp hl
    obtain ⟨_, _, _, _, h⟩ := hcode i l hi
    exact List.mem_of_getElem? h
  · unfold DTable.WF Dict.WF
    rw [hkeys]; exact List.nodup_range

/-- The conditions of C53 hold for the run the program carries out. -/
theorem boostOf_ok (hok : ProgramOk p q sk lo hi m gmax hmax eg eh G S N) {guest : Party Nat}
    {parties : List (Party Nat)} {R : Checked Nat Cell} {rows : Option Nat → DTable Nat (List Rat)}
    {n : Nat} (hn : n ≤ N) (hw : R.y.WF) (hy : R.y.data.keys = List.range n)
    (hdim : R.dim = components R.num)
    (hcode : ∀ i code, R.y.data.get? i = some code → ∃ c : Nat, c < R.num ∧
      code.value = (Label.int (T := Cell) c).value)
    (hparty : ∀ j Q, (match j with | none => some guest | some j => parties[j]?) = some Q →
      FromRaw Q (rows j) ∧ (∀ i t, (S.valid i t j).length = Q.splits.length) ∧ Q.splits.length ≤ 2 ^ 31 ∧
      (rows j).data.keys = List.range n)
    (hidx : (parties.map Party.idx).Nodup) (hne : parties ≠ []) :
    PaillierBoost p q sk lo hi m gmax hmax eg eh G (boostOf S guest parties R) R.y rows := by
  have hlen : R.y.data.length = n := by
    have := congrArg List.length hy
    simpa [Dict.keys] using this
  have hnN : (n : Rat) ≤ N := by exact_mod_cast hn
  have h16 : (0 : Rat) ≤ (16 : Rat) ^ hi := by positivity
  have hn0 : (0 : Rat) ≤ n := by positivity
  refine ⟨?_, hidx, hw, hok.depth, hok.batch, hok.kind, hne, hok.leaf, hok.lam, ?_, ?_, hok.bounds, hok.pos,
    hok.key, hok.hi0, hok.gap, hok.big, hok.cipher, hok.arith, hok.enc, hok.errors, ?_, ?_, ?_, ?_⟩
  · intro j Q hQ
    obtain ⟨a, b, c, d⟩ := hparty j Q (by cases j <;> exact hQ)
    exact ⟨a, b, c, fun k => by rw [d, hy]⟩
  · intro k l f hl hf
    obtain ⟨c, hc, hv⟩ := hcode k l hl
    have hd : (boostOf S guest parties R).dim = components R.num := hdim
    rw [hd] at hf ⊢
    exact hok.grads R.num c l f hc hv hf
  · intro s hs hk
    exact hok.loss R.num R.y s hs hk
  · rw [hlen]
    refine le_trans ?_ hok.room
    exact mul_le_mul_of_nonneg_left (mul_le_mul_of_nonneg_right hnN hok.errors.2) (by positivity)
  · rw [hlen]
    refine le_trans ?_ hok.windowG
    exact mul_le_mul_of_nonneg_right (mul_le_mul_of_nonneg_right hnN (add_nonneg hok.gpos hok.errors.1)) h16
  · rw [hlen]
    refine le_trans ?_ hok.windowH
    exact mul_le_mul_of_nonneg_right (mul_le_mul_of_nonneg_right hnN (add_nonneg hok.hpos hok.errors.2)) h16
  · rw [hlen]
    refine le_trans ?_ hok.accuracy
    have hm := hok.pos
    have hg := hok.gpos
    have he := hok.errors.1
    have h1 : (n : Rat) * gmax + (S.maxDepth + 1) * (n * eg) ≤ N * gmax + (S.maxDepth + 1) * (N * eg) := by gcongr
    have h0 : 0 ≤ (n : Rat) * gmax + (S.maxDepth + 1) * (n * eg) := by positivity
    have h2 := pow_le_pow_left₀ h0 h1 2
    show max (2 * ((n : Rat) * gmax + (S.maxDepth + 1) * (n * eg)) ^ 2 / m)
      |S.tree.minImpurity - 1 / 10 ^ 6| / 2 ^ 50 + FP.tiny ≤ _
    gcongr

theorem decides_mem [LinearOrder P] {classes : List (Label Cell)} {n : Nat} {s : List Rat}
    {c : Label Cell} (_ : classes.length = n) (h : Decides S classes s c) : c ∈ classes := by
  by_cases h2 : classes.length = 2
  · match classes, h2 with
    | [c0, c1], _ =>
      obtain ⟨x, _, rfl⟩ := h.1 c0 c1 rfl
      split <;> simp
  · obtain ⟨i, _, hi, _⟩ := h.2 h2
    exact List.mem_of_getElem? hi

/-! ### Accuracy -/

theorem fold_count {K V : Type} (d : List (K × V)) (Q : V → Prop) [DecidablePred Q] (n : Nat) :
    d.foldl (fun c kv => if Q kv.2 then c + 1 else c) n = n + d.countP fun kv => decide (Q kv.2) := by
  induction d generalizing n with
  | nil => simp
  | cons x d ih =>
    simp only [List.foldl_cons, ih, List.countP_cons]
    by_cases h : Q x.2
    · simp only [h, if_true, decide_true]; omega
    · simp only [h, if_false, decide_false]; simp

theorem accuracy_ok (res : DTable Nat (Row Cell P)) (h : res.data ≠ []) :
    accuracy res = .ok (some (((res.data.countP fun kv =>
      decide (kv.2.given.map Label.value = some kv.2.label.value) : Nat) : Rat) / res.data.length)) := by
  have hl : res.data.length ≠ 0 := by simpa using h
  unfold accuracy fraction
  simp only [fold_count res.data (fun v => v.given.map Label.value = some v.label.value), if_neg hl, bind,
    Except.bind, DTable.mapPartitions, DTable.ofValues, pure, Except.pure, Nat.zero_add]
  rfl

theorem countP_table {V : Type} {t : DTable Nat V} (hw : t.WF) {n : Nat}
    (hk : ∀ i, i ∈ t.data.keys ↔ i < n) (Q : V → Bool) :
    t.data.length = n ∧
    t.data.countP (fun kv => Q kv.2) = (List.range n).countP fun i => (t.data.get? i).any Q := by
  have hp : t.data.keys.Perm (List.range n) :=
    (List.perm_ext_iff_of_nodup hw List.nodup_range).mpr fun i => by rw [hk, List.mem_range]
  refine ⟨by simpa [Dict.keys] using hp.length_eq, ?_⟩
  rw [← hp.countP_eq]
  unfold Dict.keys
  rw [List.countP_map]
  apply List.countP_congr
  intro x hx
  have := Dict.get?_of_mem hw hx
  simp [this]

end Program
end Verif
