import Verif.Lemmas.CentralProgram
import Verif.Props.C55
import Verif.Props.C56
import Verif.Examples.DemoCentralProgram

/-! # C64: the comparison program -/

set_option autoImplicit false

namespace Verif

open DTree Spec Program Labels Histogram
open Data (Cell)

variable {P : Type} [LinearOrder P] [One P] [Sub P]

private theorem pick_zip (gs : List (Cell × Cell × List Rat)) (hs : List (Cell × List Rat))
    (hl : hs.length = gs.length) {pos : List Nat} (hp : ∀ p ∈ pos, p < gs.length) (i : Nat) :
    (entriesAt (joinedFeatures gs hs) pos)[i]? =
      pos[i]?.bind fun p => gs[p]?.bind fun a => hs[p]?.map fun b => a.2.2 ++ b.2 := by
  rw [pick_get (by
    intro p h
    unfold joinedFeatures
    rw [List.length_zipWith, hl, Nat.min_self]
    exact hp p h)]
  congr 1
  funext p
  unfold joinedFeatures
  rw [List.getElem?_zipWith]
  cases gs[p]? with
  | none => rfl
  | some a =>
    cases hs[p]? with
    | none => rfl
    | some b => rfl

private theorem sparseBinLoop_found {sps : Dict String (List Rat)} {header : List String} {cols : List Nat}
    {acc r : Dict Nat Nat} (h : Binning.sparseBinLoop sps header cols acc = .ok r) :
    ∀ c ∈ cols, ∃ s, Binning.lookupSplits header sps c = .ok s := by
  induction cols generalizing acc with
  | nil => intro c hc; cases hc
  | cons d cols ih =>
    simp only [Binning.sparseBinLoop] at h
    split at h; · cases h
    rename_i s hs
    intro c hc
    rcases List.mem_cons.mp hc with rfl | hc
    · exact ⟨s, hs⟩
    · exact ih h c hc

/-- The rows of two parties at some lines, and the joined ones. -/
private theorem joinedRows_at {α : Type} {B : Setup Nat α} {Q : Party Nat} (hB : B.hosts = [Q])
    {gs : List (Cell × Cell × List Rat)} {f : List Cell × List (Cell × List Rat)} {header : List Cell}
    (hl : f.2.length = gs.length) (hw : ∀ s ∈ gs, s.2.2.length = header.length)
    (hw' : ∀ s ∈ f.2, s.2.length = f.1.length) (hg : B.guest.splits.length = header.length)
    (hQ : Q.splits.length = f.1.length) {pos : List Nat} (hp : ∀ p ∈ pos, p < gs.length) :
    let X : Features := ⟨gs.map (·.2.2), [f.2.map (·.2)]⟩
    let all := numbered (entriesAt (joinedFeatures gs f.2) pos)
    JoinedRows B (X.at pos) all ∧ ∀ j Q', partyAt B j = some Q' → (X.at pos j).data.keys = all.data.keys := by
  intro X all
  have hall : (entriesAt (joinedFeatures gs f.2) pos).length = pos.length :=
    pick_length fun p h => by
      unfold joinedFeatures
      rw [List.length_zipWith, hl, Nat.min_self]
      exact hp p h
  have hlen : ∀ {V W : Type} (l : List V) (g : V → W), l.length = gs.length →
      (entriesAt (l.map g) pos).length = pos.length := fun l g h =>
    pick_length fun p hp' => by rw [List.length_map, h]; exact hp p hp'
  have hkeys : ∀ j Q', partyAt B j = some Q' → (X.at pos j).data.keys = all.data.keys := by
    intro j Q' hj
    match j with
    | none =>
      show (numbered _).data.keys = _
      rw [numbered_keys, numbered_keys, hall, hlen gs (·.2.2) rfl]
    | some 0 =>
      show (numbered (entriesAt (f.2.map (·.2)) pos)).data.keys = _
      rw [numbered_keys, numbered_keys, hall, hlen f.2 (·.2) hl]
    | some (j + 1) => simp [partyAt, hB] at hj
  have h0 : X.at pos none = numbered (entriesAt (gs.map (·.2.2)) pos) := rfl
  have h1 : X.at pos (some 0) = numbered (entriesAt (f.2.map (·.2)) pos) := rfl
  refine ⟨⟨numbered_wf _, fun j Q' hj k => by rw [hkeys j Q' hj], ?_, ?_⟩, hkeys⟩
  · intro j Q' hj k row hrow
    match j with
    | none =>
      cases hj
      rw [h0, numbered_get] at hrow
      obtain ⟨s, hs, rfl⟩ := List.mem_map.mp (pick_mem (List.mem_of_getElem? hrow))
      rw [hg]; exact hw s hs
    | some 0 =>
      simp only [partyAt, hB, List.getElem?_cons_zero, Option.some.injEq] at hj
      subst hj
      rw [h1, numbered_get] at hrow
      obtain ⟨s, hs, rfl⟩ := List.mem_map.mp (pick_mem (List.mem_of_getElem? hrow))
      rw [hQ]; exact hw' s hs
    | some (j + 1) => simp [partyAt, hB] at hj
  · intro k row hrow
    rw [numbered_get, pick_zip gs f.2 hl hp] at hrow
    unfold sideBySide
    simp only [hB, List.length_cons, List.length_nil, Nat.zero_add, List.range_one, List.flatMap_cons,
      List.flatMap_nil, List.append_nil]
    rw [h0, h1, numbered_get, numbered_get, pick_get fun p h => by rw [List.length_map]; exact hp p h,
      pick_get fun p h => by rw [List.length_map, hl]; exact hp p h]
    cases hk : pos[k]? with
    | none => rw [hk] at hrow; cases hrow
    | some p =>
      rw [hk] at hrow
      simp only [Option.bind_some, List.getElem?_map] at hrow ⊢
      cases ha : gs[p]? with
      | none => rw [ha] at hrow; cases hrow
      | some a =>
        rw [ha] at hrow
        cases hb : f.2[p]? with
        | none => rw [hb] at hrow; cases hrow
        | some b =>
          rw [hb] at hrow
          simp only [Option.bind_some, Option.map_some, Option.some.injEq] at hrow
          rw [← hrow]; rfl

/-- **The comparison program gives what the federated programs give.**  The conditions of C56 for
one host, and no column name that occurs in both files; the comparison program reads both files and
enables the features that the parties enable; the loss does not depend on the order of the samples.
If the choice of the split is clear at every node of the federated trees, the program succeeds with
the same losses, the same row of the result for every test line, and the same accuracy. -/
theorem C64_same_result_partial (p q : Nat) (sk : Paillier.PrivKey) (lo hi : Int) (m gmax hmax : Rat)
    (G : Rat × Rat → Prop) (S : Settings Num P) [S.tree.Exact] (valid : Nat → Nat → List Bool)
    (parse : Cell → Option Rat) (draw : Nat → Nat → Nat) (text : List Char) (header : List Cell)
    (gs : List (Cell × Cell × List Rat)) (scaled : Nat → Rat) (h : HostArgs)
    (f : List Cell × List (Cell × List Rat))
    (hg : LabelledFile parse text header gs) (hwidth : ∀ s ∈ gs, s.2.2.length = header.length)
    (hf : HostFile parse gs.length scaled h f)
    (hhead : HeaderOk S none header) (hheads : HeaderOk S (some 0) f.1)
    (hnames : (header ++ f.1).Nodup) (hshort : (header ++ f.1).length ≤ 2 ^ 31)
    (hvalid : ∀ i t, valid i t = S.valid i t none ++ S.valid i t (some 0))
    (hloss : ∀ num y s s', s.WF → s'.WF → (∀ k, s'.data.get? k = s.data.get? k) →
      S.loss num y s' = S.loss num y s)
    (h1 : 1 ≤ Data.pyInt (scaled gs.length)) (h2 : Data.pyInt (scaled gs.length) < gs.length)
    (hcls : (gs.map (·.2.1)).dedup.length ≤ 1000)
    (hok : ProgramOk p q sk lo hi m gmax hmax 0 0 G S gs.length) :
    let X : Features := ⟨gs.map (·.2.2), [f.2.map (·.2)]⟩
    ∃ out train test B R fits,
      program S parse draw text scaled [h] = .ok out ∧ UsesSettings S R B ∧
      (train ++ test).Perm (List.range gs.length) ∧
      train.length = Data.pyInt (scaled gs.length) ∧ R.y.data.keys = List.range train.length ∧
      (∀ j Q, partyAt B.base j = some Q → FromRaw Q (X.at train j)) ∧
      boost B (List.replicate R.dim 0) R.y = .ok out.state ∧
      List.Forall₂ (fun F T => save F = .ok T) fits out.state.trees ∧
      (∀ (n : Nat) F, fits[n]? = some F → TrainedOn B R.y (List.replicate R.dim 0) fits n F) ∧
      (DecisiveRun B R.y (List.replicate R.dim 0) (X.at train) fits →
        ∃ cout, centralProgram S valid parse draw text h.text scaled = .ok cout ∧
          cout.state.trees.length = out.state.trees.length ∧
          cout.state.losses = out.state.losses ∧ cout.state.flags = out.state.flags ∧
          (∀ i, cout.result.data.get? i = out.result.data.get? i) ∧ cout.accuracy = out.accuracy) := by
  intro X
  have hf' : List.Forall₂ (HostFile parse gs.length scaled) [h] [f] := .cons hf .nil
  have hheads' : ∀ (j : Nat) f', [f][j]? = some f' → HeaderOk S (some j) f'.1 := by
    intro j f' hj
    match j with
    | 0 => cases hj; exact hheads
    | j + 1 => simp at hj
  obtain ⟨out, _, _, _, _, _, hprog, _⟩ := C56_program p q sk lo hi m gmax hmax 0 0 G S parse draw text header gs
    scaled [h] [f] hg hwidth hf' hhead hheads' (by simp) (by simp) h1 h2 hcls hok
  set n := gs.length with hn
  set train := trainPos n (scaled n) draw with htrain
  set test := testPos n (scaled n) draw with htest
  obtain ⟨hs1, hs2⟩ := trainPos_size (n := n) (scaled := scaled n) (draw := draw) h1 h2
  rw [← htrain] at hs1
  rw [← htest] at hs2
  have hperm := pos_perm n (scaled n) draw
  rw [← htrain, ← htest] at hperm
  have htrne : train ≠ [] := by intro h; rw [h] at hs1; simp at hs1; omega
  have htene : test ≠ [] := by intro h; rw [h] at hs2; simp at hs2; omega
  have hlt : ∀ p ∈ train, p < n := fun p hp => trainPos_lt hp
  have hlt' : ∀ p ∈ test, p < n := fun p hp => testPos_lt hp
  obtain ⟨guest, parties, R, g1, q1, q2, hy, r1, r2, r3, r4, r6, r7, hplen', hrun⟩ :=
    setup_ok (draw := draw) hwidth hf' hhead hheads' (by simp) (by simp) hcls hok htrne
  -- the host
  obtain ⟨Q, rfl⟩ : ∃ Q, parties = [Q] := by
    match parties, hplen' with
    | [Q], _ => exact ⟨Q, rfl⟩
  have hQprep : prepareParty S h.idx (f.1.map String.ofList)
      (numbered (entriesAt (f.2.map hostInst) train)) = .ok Q := by
    simp only [List.zipWith_cons_cons, List.zipWith_nil_left, prepareHosts, bind, Except.bind] at q1
    split at q1; · cases q1
    rename_i Q' hQ'
    cases q1
    unfold hostTablesOf tablesOf at hQ'
    simp only [List.length_map, hf.length, hf.scaled] at hQ'
    exact hQ'
  obtain ⟨_, hgp⟩ := prepareParty_inv g1
  obtain ⟨_, hqp⟩ := prepareParty_inv hQprep
  rw [← pick_map, List.map_map] at hgp hqp
  have hgi : (gs.map guestInst).length = n := by rw [List.length_map]
  have hraw := hrun.raw
  have r1' : checkLabel (numbered ((entriesAt (gs.map (·.2.1)) train).map .str)) = .ok R := r1
  have hgs : guest.splits.length = header.length := by
    have := (hraw none guest rfl).2.1 0 0
    rw [← this]; exact hhead.flags 0 0
  have hqs : Q.splits.length = f.1.length := by
    have := (hraw (some 0) Q rfl).2.1 0 0
    rw [← this]; exact hheads.flags 0 0
  -- the joined party
  have hzl : (List.zipWith joinedInst gs f.2).length = n := by
    rw [List.length_zipWith, hf.length, Nat.min_self]
  have hzf : (List.zipWith joinedInst gs f.2).map Inst.features = joinedFeatures gs f.2 := by
    rw [List.map_zipWith]; rfl
  have hzlab : (List.zipWith joinedInst gs f.2).map Inst.label = (gs.map guestInst).map Inst.label := by
    rw [List.map_zipWith, List.map_map]
    have : ∀ (a : List (Cell × Cell × List Rat)) (b : List (Cell × List Rat)), b.length = a.length →
        List.zipWith (fun x y => (joinedInst x y).label) a b = a.map (Inst.label ∘ guestInst) := by
      intro a
      induction a with
      | nil => intro b _; rfl
      | cons x a ih =>
        intro b hb
        cases b with
        | nil => simp at hb
        | cons y b =>
          simp only [List.zipWith_cons_cons, List.map_cons]
          rw [ih b (by simpa using hb)]
          rfl
    exact this gs f.2 hf.length
  obtain ⟨D, d1, d2, d3, d4⟩ := prepareParty_ok hok 0 hnames
    (insts := entriesAt (List.zipWith joinedInst gs f.2) train) (by
      intro h
      have := congrArg List.length h
      rw [pick_length fun p hp => by rw [hzl]; exact hlt p hp] at this
      exact htrne (List.length_eq_zero_iff.mp this)) (by
      intro x hx
      have hx' := pick_mem hx
      obtain ⟨i, hi⟩ := List.mem_iff_getElem?.mp hx'
      rw [List.getElem?_zipWith] at hi
      cases ha : gs[i]? with
      | none => rw [ha] at hi; cases hi
      | some a =>
        cases hb : f.2[i]? with
        | none => rw [ha, hb] at hi; cases hi
        | some b =>
          rw [ha, hb] at hi
          cases hi
          show (a.2.2 ++ b.2).length = _
          rw [List.length_append, List.length_append, hwidth a (List.mem_of_getElem? ha),
            hf.width b (List.mem_of_getElem? hb)])
  obtain ⟨_, hdp⟩ := prepareParty_inv d1
  rw [← pick_map, hzf] at hdp
  obtain ⟨jr, jo⟩ := joinedRows_at (B := (boostOf S guest [Q] R).base) (Q := Q) rfl hf.length hwidth hf.width
    hgs hqs hlt
  have hcb : CentralisedBoost (boostOf S guest [Q] R) R.y (X.at train) (centralOf S valid D R)
      (numbered (entriesAt (joinedFeatures gs f.2) train)) := by
    refine ⟨⟨jr, jo, S.binning, S.binNum, fun j => match j with
      | none => header.map String.ofList
      | some _ => f.1.map String.ofList, hok.error, hok.abnormal, hok.bins, ?_, ?_, ?_⟩, rfl, rfl, hok.batch, hok.kind,
      ?_, ?_, rfl, ?_, rfl, rfl, rfl, rfl, rfl⟩
    · show (header.map String.ofList ++ [0].flatMap fun _ => f.1.map String.ofList).Nodup
      simp only [List.flatMap_cons, List.flatMap_nil, List.append_nil]
      rw [← List.map_append]
      exact hnames.map ofList_inj
    · intro j Q' hj
      match j with
      | none => cases hj; exact ⟨(List.length_map _).trans hgs.symm, hgp⟩
      | some 0 =>
        cases hj
        exact ⟨(List.length_map _).trans hqs.symm, hqp⟩
      | some (j + 1) => simp [partyAt, boostOf] at hj
    · show Binning.prepare S.binning S.binNum
        (header.map String.ofList ++ [0].flatMap fun _ => f.1.map String.ofList) _ = _
      simp only [List.flatMap_cons, List.flatMap_nil, List.append_nil]
      rw [← List.map_append]
      exact hdp
    · show D.splits.length ≤ _
      rw [d4]; exact hshort
    · intro i t
      show valid i t = S.valid i t none ++ [0].flatMap fun j => S.valid i t (some j)
      simp [hvalid]
    · intro s s' hs hs' he
      exact hloss _ _ _ _ hs hs' he
  have hpos : 0 < R.dim := by rw [r2]; unfold components; split <;> omega
  obtain ⟨st, fits, b1, b2, b3, b4⟩ := C55_lossless_run p q sk lo hi m gmax hmax G _ _ _ hrun _ _ hcb
    (List.replicate R.dim 0) (by simp [boostOf]) hpos
  -- the federated programs
  rw [program_eq S hg scaled (hf'.imp fun _ _ h => h.file)] at hprog
  have hnone : X.at test none = numbered (entriesAt (gs.map (·.2.2)) test) := rfl
  have hsome : X.at test (some 0) = numbered (entriesAt (f.2.map (·.2)) test) := rfl
  obtain ⟨tr, tord⟩ := joinedRows_at (B := (boostOf S guest [Q] R).base) (Q := Q) rfl hf.length hwidth hf.width
    hgs hqs hlt'
  have hsame : SameSamples (boostOf S guest [Q] R).base (X.at test) := by
    refine ⟨fun j Q' _ => ?_, fun j Q' hQ' k => ?_, ?_⟩
    · cases j <;> exact numbered_wf _
    · have e1 := tord j Q' hQ'
      have e2 := tord none guest rfl
      show k ∈ (X.at test j).data.keys ↔ k ∈ (X.at test none).data.keys
      rw [e1, e2]
    · rw [hnone]
      intro h
      have := congrArg List.length h
      rw [numbered_length, pick_length fun p hp => by rw [List.length_map]; exact hlt' p hp] at this
      exact htene (by simpa using this)
  have hfuel : ∀ F ∈ fits, F.tree.length ≤ S.fuel := by
    intro F hF
    obtain ⟨i, hi⟩ := List.mem_iff_getElem?.mp hF
    obtain ⟨gh, egh, _, _, hfit, _⟩ := b3 i F hi
    exact le_trans (C27_size (treeSetup (boostOf S guest [Q] R) _ _ gh egh) hrun.depth.1 F hfit) (le_trans (Nat.sub_le _ _) hok.fuel)
  have x1 : prepareParty S 0 (tablesOf header (gs.map guestInst) scaled draw).header
      (tablesOf header (gs.map guestInst) scaled draw).train = .ok guest := by
    unfold tablesOf
    rw [hgi]; exact g1
  have x2 : (tablesOf header (gs.map guestInst) scaled draw).train.mapValuesM givenLabel =
      .ok (numbered ((entriesAt (gs.map (·.2.1)) train).map .str)) := by
    unfold tablesOf
    rw [hgi]; exact hy
  have x3 : (tablesOf header (gs.map guestInst) scaled draw).test.mapValues Inst.features =
      .ok (X.at test none) := by
    unfold tablesOf
    rw [hgi, numbered_mapValues, ← pick_map, List.map_map]; rfl
  have x4 : (tablesOf header (gs.map guestInst) scaled draw).test.mapValues Inst.label =
      .ok (numbered (entriesAt ((gs.map guestInst).map Inst.label) test)) := by
    unfold tablesOf
    rw [hgi, numbered_mapValues, ← htest, ← pick_map]
  have x5 : testRows (List.zipWith (hostTablesOf draw) [h] [f]) =
      .ok (hostRows (boostOf S guest [Q] R).base (X.at test)) := by
    rw [testRows_ok (draw := draw) hf', ← hn, ← htest]
    rfl
  refine ⟨out, train, test, boostOf S guest [Q] R, R, fits, ?_,
    ⟨rfl, rfl, rfl, rfl, rfl, rfl, rfl, rfl, rfl, rfl, rfl, rfl, rfl, rfl, rfl⟩, hperm,
    hs1, r6,
    fun j Q' hQ' => (hraw j Q' hQ').1, ?_⟩
  · rw [program_eq S hg scaled (hf'.imp fun _ _ h => h.file)]; exact hprog
  obtain ⟨W, T0, t4, _, _⟩ := predictScores_ok b2 (fun F hF => by
    obtain ⟨i, hi⟩ := List.mem_iff_getElem?.mp hF
    obtain ⟨gh, egh, _, _, hfit, _⟩ := b3 i F hi
    have hnm := treeSetup_names (boostOf S guest [Q] R) (i / (boostOf S guest [Q] R).dim)
      (i % (boostOf S guest [Q] R).dim) gh egh
    exact usable_of_names hnm.symm (C29_trained_usable (treeSetup (boostOf S guest [Q] R) _ _ gh egh) hrun.depth.1
      (by rw [hnm]; exact hrun.names) F hfit)) hsame (List.replicate R.dim 0) S.rate (dim := R.dim) (by simp) hpos hfuel
  have hcase := (runTables_inv hprog x1 q1 x2 r1' b1 x3 x5 t4 x4).1
  rw [hcase]
  refine ⟨b1, b2, b3, fun hdec => ?_⟩
  obtain ⟨ct, cfits, c1, c2, c3, c4, c5, c6, c7⟩ := b4 hdec
  obtain ⟨T, T', t1, t2, t3⟩ := c7 (X.at test) (numbered (entriesAt (joinedFeatures gs f.2) test)) S.fuel hsame tr hfuel
  obtain ⟨_, o2, o3⟩ := runTables_inv hprog x1 q1 x2 r1' b1 x3 x5 t1 x4
  obtain ⟨res, e1, e2, e3, e4⟩ := predictRows_same (centralScores_wf t2) (fun k => (t3 k).symm) o2
  refine ⟨⟨ct, res, out.accuracy⟩, ?_, ?_, c5, c6, e4, rfl⟩
  · unfold centralProgram
    have y0 := joinedTables_ok hg hf.file hf.length scaled draw
    have y1 : prepareParty S 0 (tablesOf (header ++ f.1) (List.zipWith joinedInst gs f.2) scaled draw).header
        (tablesOf (header ++ f.1) (List.zipWith joinedInst gs f.2) scaled draw).train = .ok D := by
      unfold tablesOf
      rw [hzl]; exact d1
    have y2 : (tablesOf (header ++ f.1) (List.zipWith joinedInst gs f.2) scaled draw).train.mapValuesM givenLabel =
        .ok (numbered ((entriesAt (gs.map (·.2.1)) train).map .str)) := by
      unfold tablesOf
      rw [hzl]
      refine labels_ok _ _ ?_
      rw [← pick_map, hzlab, ← pick_map, List.map_map, List.map_map]; rfl
    have y3 : (tablesOf (header ++ f.1) (List.zipWith joinedInst gs f.2) scaled draw).test.mapValues Inst.features =
        .ok (numbered (entriesAt (joinedFeatures gs f.2) test)) := by
      unfold tablesOf
      rw [hzl, numbered_mapValues, ← pick_map, hzf]
    have y4 : (tablesOf (header ++ f.1) (List.zipWith joinedInst gs f.2) scaled draw).test.mapValues Inst.label =
        .ok (numbered (entriesAt ((gs.map guestInst).map Inst.label) test)) := by
      unfold tablesOf
      rw [hzl, numbered_mapValues, ← pick_map, hzlab]
    have y5 : centralScores S.rate R.dim (List.replicate R.dim 0) ct.trees
        (numbered (entriesAt (joinedFeatures gs f.2) test)) S.fuel = .ok T' := t2
    have y6 := accuracy_same e2 e3 e4
    rw [o3] at y6
    simp only [y0, y1, y2, r1', c1, y3, y5, y4, e1, y6, bind, Except.bind, pure, Except.pure]
  · show ct.trees.length = st.trees.length
    rw [← c2.length_eq, ← b2.length_eq, c3.length_eq]

/-- The conditions are met by the demo files of the guest and the first host (and a run with
encryption), and there the choice of the split is always clear: the comparison program has the same
accuracy. -/
example : ∃ (S : Settings Num Rat) (out cout : Program.Outcome Rat),
    program S DemoProgram.parse DemoProgram.draw DemoProgram.guestText DemoProgram.scaled
      [DemoCentralProgram.host] = .ok out ∧
    centralProgram S (fun _ _ => [true, true, true]) DemoProgram.parse DemoProgram.draw
      DemoProgram.guestText DemoCentralProgram.host.text DemoProgram.scaled = .ok cout ∧
    cout.accuracy = out.accuracy := by
  obtain ⟨sk, k1, k2⟩ := DemoPaillier.key
  obtain ⟨out, train, test, B, R, fits, h1, h2, _, h3, h4, _, _, _, _, h5⟩ := C64_same_result_partial _ _ sk _ _ _ _ _
    _ (DemoProgram.secure sk) (fun _ _ => [true, true, true]) DemoProgram.parse DemoProgram.draw
    DemoProgram.guestText DemoProgram.header DemoProgram.samples DemoProgram.scaled DemoCentralProgram.host
    DemoCentralProgram.file DemoProgram.guestFile (by decide +kernel) DemoCentralProgram.hostFile
    ⟨by decide, fun _ _ => rfl, by norm_num [DemoProgram.header]⟩ ⟨by decide, fun _ _ => rfl, by norm_num [DemoCentralProgram.file]⟩
    (by decide) (by norm_num [DemoProgram.header, DemoCentralProgram.file]) (fun _ _ => rfl)
    (fun _ _ _ _ hw hw' hs => DemoCentralProgram.loss_same hw hw' hs)
    (by decide +kernel) (by decide +kernel) (by decide +kernel) (DemoProgram.ok k1 k2)
  obtain ⟨cout, c1, _, _, _, _, c2⟩ := h5 (DemoCentralProgram.decisive sk h2 (by
    have : train.length = 6 := by
      have : (train.length : Int) = 6 := by rw [h3]; decide +kernel
      exact_mod_cast this
    rw [h4, this]) _ _ fits)
  exact ⟨_, out, cout, h1, c1, c2⟩

/-- **Columns of the same name share their split points**, whatever their values: this is what
happens in the comparison program to a column name that occurs in both files. -/
theorem C64_shared_bins {K : Type} [DecidableEq K] (cfg : Quantile.Config) (binNum : Nat)
    (header : List String) (rows : DTable K (List Rat)) (data : DTable K (Binning.SparseVec Binning.Cell))
    (splits : List (List Rat)) (zeros : Dict Nat Nat)
    (h : Binning.prepare cfg binNum header rows = .ok (data, splits, zeros)) (i j : Nat)
    (hij : header[i]? = header[j]?) : splits.length = header.length ∧ splits[i]? = splits[j]? := by
  unfold Binning.prepare at h
  split at h; · cases h
  split at h; · cases h
  rename_i sps _
  unfold Binning.convertFeatureToBin at h
  split at h; · cases h
  split at h; · cases h
  rename_i sb hsb
  cases h
  have hall : ∀ name ∈ header, ∃ s, sps.get? name = some s := by
    intro name hn
    obtain ⟨c, hc⟩ := List.mem_iff_getElem?.mp hn
    have hlt := (List.getElem?_eq_some_iff.mp hc).1
    obtain ⟨s, hs⟩ := sparseBinLoop_found hsb c (List.mem_range.mpr hlt)
    unfold Binning.lookupSplits at hs
    rw [hc] at hs
    simp only at hs
    split at hs; · cases hs
    exact ⟨_, by assumption⟩
  have heq : Binning.splitArray header sps = header.map fun name => (sps.get? name).getD [] := by
    unfold Binning.splitArray
    rw [← List.filterMap_eq_map]
    refine List.filterMap_congr fun name hn => ?_
    obtain ⟨s, hs⟩ := hall name hn
    simp [hs]
  rw [heq, List.getElem?_map, List.getElem?_map, hij]
  exact ⟨List.length_map _, rfl⟩

/-- Two columns of the name `a`: the only split point separates no values of the first one. -/
example : (Binning.prepare ⟨10, 5, 1 / 100, []⟩ 2 ["a", "b", "a"]
    (numbered [[1, 1, 9], [2, 2, 8], [3, 3, 7]] : DTable Nat (List Rat))).map (fun r => r.2.1) =
      .ok [[7], [2], [7]] := by decide +kernel

/-- **A column name in both files refutes the claim**: on two files of eight lines that both have a
column `a`, the federated programs predict every test line correctly, and the comparison program
none; with the column of the host renamed, the comparison program is right as well. -/
theorem C64_names_refuted :
    ∃ (S : Settings Rat Rat) (valid : Nat → Nat → List Bool) (scaled : Nat → Rat)
      (gs : List (Cell × Cell × List Rat)) (fa fb : List Cell × List (Cell × List Rat)) (ha hb : HostArgs),
      LabelledFile DemoProgram.parse DemoCentralProgram.guestText ["a".toList] gs ∧
      HostFile DemoProgram.parse gs.length scaled ha fa ∧ HostFile DemoProgram.parse gs.length scaled hb fb ∧
      fa.1 = ["a".toList] ∧ fb.1 = ["b".toList] ∧ fa.2 = fb.2 ∧
      (∀ i t, valid i t = S.valid i t none ++ S.valid i t (some 0)) ∧
      (program S DemoProgram.parse DemoProgram.draw DemoCentralProgram.guestText scaled [ha]).map
        Outcome.accuracy = .ok (some 1) ∧
      (program S DemoProgram.parse DemoProgram.draw DemoCentralProgram.guestText scaled [hb]).map
        Outcome.accuracy = .ok (some 1) ∧
      (centralProgram S valid DemoProgram.parse DemoProgram.draw DemoCentralProgram.guestText ha.text scaled).map
        Outcome.accuracy = .ok (some 0) ∧
      (centralProgram S valid DemoProgram.parse DemoProgram.draw DemoCentralProgram.guestText hb.text scaled).map
        Outcome.accuracy = .ok (some 1) :=
  ⟨DemoCentralProgram.settings, fun _ _ => [true, true], DemoProgram.scaled, DemoCentralProgram.samples,
    DemoCentralProgram.plainFile "a", DemoCentralProgram.plainFile "b", DemoCentralProgram.plainHost "a",
    DemoCentralProgram.plainHost "b", DemoCentralProgram.guestFile,
    DemoCentralProgram.plainFile_a, DemoCentralProgram.plainFile_b, rfl, rfl, rfl, fun _ _ => rfl,
    by decide +kernel, by decide +kernel, by decide +kernel, by decide +kernel⟩

end Verif
