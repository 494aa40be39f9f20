import Verif.Lemmas.ProgramSetup
import Verif.Examples.DemoProgram

/-! # C56: the programs from the files to the accuracy -/

set_option autoImplicit false

namespace Verif

open DTree Spec Program Labels Histogram
open Data (Cell)

private theorem usesSettings {α P : Type} (S : Settings α P) (R : Checked Nat Cell) (guest : Party Nat)
    (parties : List (Party Nat)) : UsesSettings S R (boostOf S guest parties R) :=
  ⟨rfl, rfl, rfl, rfl, rfl, rfl, rfl, rfl, rfl, rfl, rfl, rfl, rfl, rfl, rfl⟩

variable {P : Type} [LinearOrder P] [One P] [Sub P]

/-- **From the files to the accuracy.**  All files have the same number of lines, all parties are
given the same proportion, and it leaves lines for training and for testing; the training labels are
strings with at most 1000 different values; the settings suit files of this size.  Then the programs
end without an exception, for any number of hosts, lines, columns, classes and rounds.  There is one
division of the line numbers into training and test lines for all parties.  Every party trains on
what it prepares from its training lines; the guest trains on the positions of their labels among
the classes, which are the different training labels in order.  The result has a row for every test
line: it repeats the label of the file, and its predicted label is decided by the sum of the weights
of the leaves that are reached by walking the trees with the rows of the same line in all files.
The accuracy is the fraction of the test lines for which the two labels are equal. -/
theorem C56_program (p q : Nat) (sk : Paillier.PrivKey) (lo hi : Int) (m gmax hmax eg eh : Rat)
    (G : Rat × Rat → Prop) (S : Settings Num P) [S.tree.Exact] (parse : Cell → Option Rat)
    (draw : Nat → Nat → Nat) (text : List Char) (header : List Cell)
    (gs : List (Cell × Cell × List Rat)) (scaled : Nat → Rat) (hosts : List HostArgs)
    (files : List (List Cell × List (Cell × List Rat)))
    (hg : LabelledFile parse text header gs) (hwidth : ∀ s ∈ gs, s.2.2.length = header.length)
    (hf : List.Forall₂ (HostFile parse gs.length scaled) hosts files)
    (hhead : HeaderOk S none header)
    (hheads : ∀ (j : Nat) f, files[j]? = some f → HeaderOk S (some j) f.1)
    (hidx : (hosts.map HostArgs.idx).Nodup) (hne : hosts ≠ [])
    (h1 : 1 ≤ Data.pyInt (scaled gs.length)) (h2 : Data.pyInt (scaled gs.length) < gs.length)
    (hcls : (gs.map (·.2.1)).dedup.length ≤ 1000)
    (hok : ProgramOk p q sk lo hi m gmax hmax eg eh G S gs.length) :
    let X : Features := ⟨gs.map (·.2.2), files.map fun f => f.2.map (·.2)⟩
    let labels := gs.map (·.2.1)
    ∃ out train test B R fits,
      program S parse draw text scaled hosts = .ok out ∧ UsesSettings S R B ∧
      (train ++ test).Perm (List.range gs.length) ∧
      (train.length : Int) = Data.pyInt (scaled gs.length) ∧
      (∀ j Q, partyAt B.base j = some Q → FromRaw Q (X.at train j)) ∧
      B.base.hosts.map Party.idx = hosts.map HostArgs.idx ∧
      ClassesOf (entriesAt labels train) R.classes ∧ R.num = R.classes.length ∧
      R.dim = components R.num ∧
      R.y.data.keys = List.range train.length ∧
      (∀ i l, (entriesAt labels train)[i]? = some l → ∃ code, ∃ c : Nat, R.y.data.get? i = some code ∧
        code.value = (Label.int (T := Cell) c).value ∧ R.classes[c]? = some (.str l)) ∧
      boost B (List.replicate R.dim 0) R.y = .ok out.state ∧
      List.Forall₂ (fun F T => save F = .ok T) fits out.state.trees ∧
      (∀ (n : Nat) F, fits[n]? = some F →
        TrainedOn B R.y (List.replicate R.dim 0) fits n F) ∧
      (∀ i, i ∈ out.result.data.keys ↔ i < test.length) ∧
      (∀ i l, (entriesAt labels test)[i]? = some l → ∃ row W, out.result.data.get? i = some row ∧
        row.given = some (.str l) ∧
        (∀ (n : Nat) F, fits[n]? = some F →
          LeafWeight B.base F (X.at test) i (W n)) ∧
        Decides S R.classes (scoreAfter (List.replicate R.dim 0) S.rate R.dim W fits.length) row.label) ∧
      out.accuracy = some ((((List.range test.length).countP fun i => (out.result.data.get? i).any
        fun row => decide (row.given = some row.label) : Nat) : Rat) / test.length) := by
  intro X labels
  set n := gs.length with hn
  set train := trainPos n (scaled n) draw with htrain
  set test := testPos n (scaled n) draw with htest
  obtain ⟨hs1, hs2⟩ := trainPos_size (n := n) (scaled := scaled n) (draw := draw) h1 h2
  rw [← htrain] at hs1
  rw [← htest] at hs2
  have hperm := pos_perm n (scaled n) draw
  rw [← htrain, ← htest] at hperm
  have hplen := hperm.length_eq
  simp only [List.length_append, List.length_range] at hplen
  have htrne : train ≠ [] := by intro h; rw [h] at hs1; simp at hs1; omega
  have htene : test ≠ [] := by intro h; rw [h] at hs2; simp at hs2; omega
  have hlt : ∀ p ∈ train, p < n := fun p hp => trainPos_lt hp
  have hlt' : ∀ p ∈ test, p < n := fun p hp => testPos_lt hp
  have hpk : ∀ {V W : Type} (l : List V) (f : V → W), l.length = n →
      (entriesAt (l.map f) train).length = train.length ∧ (entriesAt (l.map f) test).length = test.length :=
    fun l f hl => ⟨pick_length fun p hp => by rw [List.length_map, hl]; exact hlt p hp,
      pick_length fun p hp => by rw [List.length_map, hl]; exact hlt' p hp⟩
  have hgi : (gs.map guestInst).length = n := by rw [List.length_map]
  obtain ⟨guest, parties, R, g1, q1, q2, hy, r1, r2, r3, r4, r6, r7, hplen', hrun⟩ :=
    setup_ok hwidth hf hhead hheads hidx hne hcls hok htrne
  have hdim : (List.replicate R.dim (0 : Rat)).length = (boostOf S guest parties R).dim := by simp [boostOf]
  have hpos : 0 < R.dim := by rw [r2]; unfold components; split <;> omega
  obtain ⟨st, s1⟩ := boost_ok hrun hdim
  obtain ⟨fits, t1, t2, _⟩ := boost_inv hrun.depth.1 hrun.sameData hdim s1
  -- prediction
  have hhost : ∀ (j : Nat) Q, parties[j]? = some Q → ∃ f, files[j]? = some f ∧ f.2.length = n ∧
      X.at test (some j) = numbered (entriesAt (f.2.map (·.2)) test) := by
    intro j Q hQ
    have hj : j < files.length := by rw [← hplen']; exact (List.getElem?_eq_some_iff.mp hQ).1
    have hfj := List.getElem?_eq_getElem hj
    refine ⟨_, hfj, ((List.forall₂_iff_get.mp hf).2 j (by rw [hf.length_eq]; exact hj) hj).length, ?_⟩
    have hX : (X.hosts[j]?).getD [] = files[j].2.map (·.2) := by
      show (((files.map fun f => f.2.map (·.2)))[j]?).getD [] = _
      rw [List.getElem?_map, hfj]; rfl
    show numbered (entriesAt ((X.hosts[j]?).getD []) test) = _
    rw [hX]
  have hnone : X.at test none = numbered (entriesAt (gs.map (·.2.2)) test) := rfl
  have hsame : SameSamples (boostOf S guest parties R).base (X.at test) := by
    refine ⟨fun j Q hQ => ?_, fun j Q hQ k => ?_, ?_⟩
    · cases j <;> exact numbered_wf _
    · cases j with
      | none => rfl
      | some j =>
        obtain ⟨f, _, e2, e3⟩ := hhost j Q hQ
        rw [e3, hnone, numbered_keys, numbered_keys, (hpk f.2 (·.2) e2).2, (hpk gs (·.2.2) rfl).2]
    · rw [hnone]
      intro h
      have := congrArg List.length h
      rw [numbered_length, (hpk gs (·.2.2) rfl).2] at this
      exact htene (by simpa using this)
  have hrows : files.map (fun f => numbered (entriesAt (f.2.map (·.2)) test)) =
      hostRows (boostOf S guest parties R).base (X.at test) := by
    unfold hostRows
    apply List.ext_getElem?
    intro j
    have hbl : (boostOf S guest parties R).base.hosts.length = files.length := hplen'
    rw [List.getElem?_map, List.getElem?_map, hbl]
    rcases Nat.lt_or_ge j files.length with hj | hj
    · have hj' : j < parties.length := by omega
      obtain ⟨f, e1, _, e3⟩ := hhost j _ (List.getElem?_eq_getElem hj')
      rw [e1, List.getElem?_range hj]
      simp [e3]
    · rw [List.getElem?_eq_none hj, List.getElem?_eq_none (by simpa using hj)]
      rfl
  have husable : ∀ F ∈ fits, UsableTree (boostOf S guest parties R).base F ∧ F.tree.length ≤ S.fuel := by
    intro F hF
    obtain ⟨n', hn'⟩ := List.mem_iff_getElem?.mp hF
    obtain ⟨gh, egh, _, _, hfit, _⟩ := t1.trained n' F hn'
    have hnames := treeSetup_names (boostOf S guest parties R) (n' / R.dim) (n' % R.dim) gh egh
    refine ⟨usable_of_names hnames.symm (C29_trained_usable (treeSetup (boostOf S guest parties R)
      (n' / R.dim) (n' % R.dim) gh egh) hrun.depth.1 (by rw [hnames]; exact hrun.names) F hfit), ?_⟩
    have hsz := C27_size (treeSetup (boostOf S guest parties R) (n' / R.dim) (n' % R.dim) gh egh)
      hrun.depth.1 F hfit
    exact le_trans hsz (le_trans (Nat.sub_le _ _) hok.fuel)
  obtain ⟨W, T, p1, p2, p3, p4⟩ := predictScores_ok t1.saved (fun F hF => (husable F hF).1) hsame
    (List.replicate R.dim (0 : Rat)) S.rate (dim := R.dim) (by simp) hpos (fuel := S.fuel)
    (fun F hF => (husable F hF).2)
  have hlen : st.trees.length / R.dim * R.dim = fits.length := by
    have hd : (boostOf S guest parties R).dim = R.dim := rfl
    rw [← t1.saved.length_eq, t2, hd, Nat.mul_div_cancel _ hpos]
  rw [hlen] at p3
  have hkeys : ∀ i, i ∈ (X.at test none).data.keys ↔ i < test.length := by
    intro i
    rw [hnone, numbered_keys, (hpk gs (·.2.2) rfl).2, List.mem_range]
  have hT : ∀ i s, T.data.get? i = some s → s.length = R.dim := by
    intro i s hi
    rw [p3] at hi
    by_cases hc : i ∈ (X.at test none).data.keys
    · rw [if_pos hc, Option.some.injEq] at hi
      subst hi
      unfold scoreAfter
      simp
    · rw [if_neg hc] at hi; cases hi
  -- the result
  have hgiven : (entriesAt (gs.map guestInst) test).map Inst.label =
      (entriesAt labels test).map fun l => some (.str l) := by
    rw [← pick_map, ← pick_map, List.map_map, List.map_map]; rfl
  set given : DTable Nat (Option (Label Cell)) := numbered ((entriesAt labels test).map fun l => some (.str l))
    with hgivendef
  have hgk : ∀ i, i ∈ given.data.keys ↔ i < test.length := by
    intro i
    rw [hgivendef, numbered_keys, List.length_map, (hpk gs (·.2.1) rfl).2, List.mem_range]
  have hres : ∃ res, predictRows S.sigmoid S.softmax R.num R.classes S.threshold given T = .ok res ∧ res.WF ∧
      (∀ i, i ∈ res.data.keys ↔ i < test.length) ∧
      ∀ i row, res.data.get? i = some row → ∃ s, T.data.get? i = some s ∧
        given.data.get? i = some row.given ∧ Decides S R.classes s row.label := by
    by_cases hnum : R.num = 2
    · match hcl : R.classes, r3.trans hnum with
      | [c0, c1], _ =>
        obtain ⟨res, e1, e2⟩ := C33_binary S.sigmoid S.softmax c0 c1 S.threshold given T p2 (by
          intro i s hi
          rw [hT i s hi, r2, hnum]; rfl)
        refine ⟨res, by rw [hnum]; exact e1, ?_, fun i => ⟨fun hi => ?_, fun hi => ?_⟩, ?_⟩
        · unfold Labels.predictRows at e1
          simp only [if_true, bind, Except.bind] at e1
          split at e1; · cases e1
          exact (DTable.joinM_inv e1).1
        · obtain ⟨row, hrow⟩ := Dict.exists_get?_of_mem hi
          obtain ⟨g, x, a1, _⟩ := (e2 i row).mp hrow
          exact (hgk i).mp (Dict.mem_keys_of_get? a1)
        · obtain ⟨g, hgg⟩ := Dict.exists_get?_of_mem ((hgk i).mpr hi)
          have ht := p3 i
          rw [if_pos ((hkeys i).mpr hi)] at ht
          have hl := hT i _ ht
          have hd1 : R.dim = 1 := by rw [r2, hnum]; rfl
          rw [hd1] at hl
          obtain ⟨x, hx⟩ := List.length_eq_one_iff.mp hl
          rw [hd1] at ht
          rw [hx] at ht
          exact Dict.mem_keys_of_get? ((e2 i _).mpr ⟨g, x, hgg, ht, rfl⟩)
        · intro i row hrow
          obtain ⟨g, x, a1, a2, rfl⟩ := (e2 i row).mp hrow
          refine ⟨[x], a2, a1, ?_, fun h => absurd rfl h⟩
          intro d0 d1 hd
          cases hd
          exact ⟨x, rfl, rfl⟩
    · have hcne : R.classes ≠ [] := by
        intro h
        obtain ⟨i, hi⟩ := List.exists_mem_of_ne_nil _ htrne
        have hl : 0 < (entriesAt labels train).length := by
          rw [(hpk gs (·.2.1) rfl).1]; exact List.length_pos_of_mem hi
        obtain ⟨_, _, _, _, e⟩ := r7 0 _ (List.getElem?_eq_getElem hl)
        rw [h] at e; simp at e
      have hd : R.dim = R.num := by
        have : R.num ≠ 0 := by rw [← r3]; simpa using hcne
        rw [r2]; unfold components
        split <;> omega
      obtain ⟨res, e1, e2, e3⟩ := C33_multi S.sigmoid S.softmax R.classes hcne (by rw [r3]; exact hnum)
        S.threshold given T p2 (by
          intro i s hi
          rw [hok.softmax, hT i s hi, hd, r3])
      rw [r3] at e1
      refine ⟨res, e1, ?_, fun i => ?_, fun i row hrow => ?_⟩
      · unfold Labels.predictRows at e1
        simp only [if_neg hnum, bind, Except.bind] at e1
        split at e1; · cases e1
        exact (DTable.joinM_inv e1).1
      · constructor
        · intro hi
          obtain ⟨row, hrow⟩ := Dict.exists_get?_of_mem hi
          exact (hgk i).mp ((e2 i).mp ⟨row, hrow⟩).1
        · intro hi
          obtain ⟨row, hrow⟩ := (e2 i).mpr ⟨(hgk i).mpr hi, Dict.mem_keys_of_get? (by
            rw [p3, if_pos ((hkeys i).mpr hi)])⟩
          exact Dict.mem_keys_of_get? hrow
      · obtain ⟨g, s, c, a1, a2, a3, a4, a5, a6, a7, _⟩ := e3 i row hrow
        refine ⟨s, a2, by rw [a3]; exact a1, ?_, fun _ => ⟨c, row.score, a4, a5, a6, a7⟩⟩
        intro c0 c1 h
        exact absurd (by rw [← r3, h]; rfl) hnum
  obtain ⟨res, e1, e2, e3, e4⟩ := hres
  have hresne : res.data ≠ [] := by
    intro h
    obtain ⟨i, hi⟩ := List.exists_mem_of_ne_nil _ htene
    have := (e3 0).mpr (List.length_pos_of_mem hi)
    rw [h] at this
    simp [Dict.keys] at this
  have hacc := accuracy_ok res hresne
  obtain ⟨c1, c2⟩ := countP_table e2 e3
    (fun row => decide (row.given.map Label.value = some row.label.value))
  rw [c1, c2] at hacc
  obtain ⟨a, ha⟩ : ∃ a, a = some ((((List.range test.length).countP fun i => (res.data.get? i).any
      fun row => decide (row.given.map Label.value = some row.label.value) : Nat) : Rat) / test.length) :=
    ⟨_, rfl⟩
  rw [← ha] at hacc
  refine ⟨⟨st, res, a⟩, train, test, boostOf S guest parties R, R, fits, ?_, usesSettings S R guest parties, hperm, hs1,
    fun j Q hQ => (hrun.raw j Q hQ).1, q2, r4, r3.symm, r2, r6, r7, s1, t1.saved, t1.trained, e3, ?_, ?_⟩
  · rw [program_eq S hg scaled (hf.imp fun _ _ h => h.file)]
    unfold runTables
    have x1 : prepareParty S 0 (tablesOf header (gs.map guestInst) scaled draw).header
        (tablesOf header (gs.map guestInst) scaled draw).train = .ok guest := by
      unfold tablesOf
      rw [hgi]; exact g1
    have x2 : (tablesOf header (gs.map guestInst) scaled draw).train.mapValuesM givenLabel =
        .ok (numbered ((entriesAt labels train).map .str)) := by
      unfold tablesOf
      rw [hgi]; exact hy
    have x3 : (tablesOf header (gs.map guestInst) scaled draw).test.mapValues Inst.features =
        .ok (X.at test none) := by
      unfold tablesOf
      rw [hgi, numbered_mapValues, ← pick_map, List.map_map]; rfl
    have x4 : (tablesOf header (gs.map guestInst) scaled draw).test.mapValues Inst.label = .ok given := by
      unfold tablesOf
      rw [hgi, numbered_mapValues, ← htest, hgiven]
    have x5 := testRows_ok (draw := draw) hf
    rw [← hn, ← htest, hrows] at x5
    have x6 : predictScores parties S.rate R.dim (List.replicate R.dim 0) st.trees (X.at test none)
        (hostRows (boostOf S guest parties R).base (X.at test)) S.fuel = .ok T := p1
    have x7 : checkLabel (numbered ((entriesAt labels train).map .str)) = .ok R := r1
    simp only [x1, q1, x2, x7, s1, x3, x5, x6, x4, e1, hacc, bind, Except.bind, pure, Except.pure]
  · intro i l hl
    have hi : i < test.length := by
      rw [← (hpk gs (·.2.1) rfl).2]; exact (List.getElem?_eq_some_iff.mp hl).1
    obtain ⟨row, hrow⟩ := Dict.exists_get?_of_mem ((e3 i).mpr hi)
    obtain ⟨s, a1, a2, a3⟩ := e4 i row hrow
    refine ⟨row, W i, hrow, ?_, fun n' F hF => p4 n' F hF i ((hkeys i).mpr hi), ?_⟩
    · rw [hgivendef, numbered_get, List.getElem?_map, hl] at a2
      simpa using a2.symm
    · rw [p3, if_pos ((hkeys i).mpr hi), Option.some.injEq] at a1
      rw [a1]; exact a3
  · simp only [ha]
    congr 3
    apply List.countP_congr
    intro i hi
    cases hr : res.data.get? i with
    | none => simp
    | some row =>
      obtain ⟨s, _, a2, a3⟩ := e4 i row hr
      obtain ⟨l, _, hl⟩ := (r4.2 _).mp (decides_mem r3 a3)
      rw [hgivendef, numbered_get, List.getElem?_map] at a2
      obtain ⟨l', _, hl'⟩ := Option.map_eq_some_iff.mp a2
      simp only [Option.any_some, decide_eq_true_eq, ← hl', hl, Option.map_some, Option.some.injEq]
      exact ⟨fun h => by rw [str_value_inj h], fun h => by rw [h]⟩

/-- Three files with eight lines and three classes; a key exists for which all hypotheses are met. -/
example : ∃ p q sk lo hi m gmax hmax G, ∃ S : Settings Num Rat,
    LabelledFile DemoProgram.parse DemoProgram.guestText DemoProgram.header DemoProgram.samples ∧
    (∀ s ∈ DemoProgram.samples, s.2.2.length = DemoProgram.header.length) ∧
    List.Forall₂ (HostFile DemoProgram.parse DemoProgram.samples.length DemoProgram.scaled)
      DemoProgram.hosts DemoProgram.files ∧
    HeaderOk S none DemoProgram.header ∧
    (∀ (j : Nat) f, DemoProgram.files[j]? = some f → HeaderOk S (some j) f.1) ∧
    (DemoProgram.hosts.map HostArgs.idx).Nodup ∧ DemoProgram.hosts.length = 2 ∧
    1 ≤ Data.pyInt (DemoProgram.scaled DemoProgram.samples.length) ∧
    Data.pyInt (DemoProgram.scaled DemoProgram.samples.length) < DemoProgram.samples.length ∧
    (DemoProgram.samples.map (·.2.1)).dedup.length = 3 ∧
    ProgramOk p q sk lo hi m gmax hmax 0 0 G S DemoProgram.samples.length := by
  obtain ⟨sk, h1, h2⟩ := DemoPaillier.key
  refine ⟨_, _, sk, _, _, _, _, _, _, DemoProgram.secure sk, DemoProgram.guestFile, by decide +kernel,
    DemoProgram.hostFiles, ⟨by decide, fun _ _ => rfl, by norm_num [DemoProgram.header]⟩, ?_, by decide +kernel,
    by decide, by decide +kernel, by decide +kernel, by decide +kernel, DemoProgram.ok h1 h2⟩
  intro j f hf
  match j with
  | 0 => cases hf; exact ⟨by decide, fun _ _ => rfl, by norm_num⟩
  | 1 => cases hf; exact ⟨by decide, fun _ _ => rfl, by norm_num⟩
  | j + 2 => simp [DemoProgram.files] at hf

/-- The accuracy of the programs on these files, without encryption. -/
example : (program DemoProgram.clear DemoProgram.parse DemoProgram.draw DemoProgram.guestText
    DemoProgram.scaled DemoProgram.hosts).map Outcome.accuracy = .ok (some 1) := by decide +kernel

/-- **No training lines**: the proportion leaves none, and the programs fail at once. -/
theorem C56_no_train {α : Type} (S : Settings α P) (parse : Cell → Option Rat)
    (draw : Nat → Nat → Nat) (text : List Char) (header : List Cell)
    (gs : List (Cell × Cell × List Rat)) (scaled : Nat → Rat) (hosts : List HostArgs)
    (files : List (List Cell × List (Cell × List Rat)))
    (hg : LabelledFile parse text header gs)
    (hf : List.Forall₂ (fun h f => PlainFile parse h.text f.1 f.2) hosts files)
    (h : Data.pyInt (scaled gs.length) < 1) :
    program S parse draw text scaled hosts = .error .valueError := by
  rw [program_eq S hg scaled hf]
  have : trainPos gs.length (scaled gs.length) draw = [] := by
    unfold trainPos Data.dataSplit
    simp only
    rw [if_pos (by right; exact h)]
  unfold runTables
  have x : prepareParty S 0 (tablesOf header (gs.map guestInst) scaled draw).header
      (tablesOf header (gs.map guestInst) scaled draw).train = .error .valueError := by
    unfold tablesOf prepareParty
    simp only [List.length_map, this, entriesAt, List.filterMap_nil, numbered_count, List.length_nil, if_true]
  simp only [x, bind, Except.bind]

/-- **No test lines**: the proportion leaves none, and the guest's program fails after the whole
training. -/
theorem C56_no_test (p q : Nat) (sk : Paillier.PrivKey) (lo hi : Int) (m gmax hmax eg eh : Rat)
    (G : Rat × Rat → Prop) (S : Settings Num P) [S.tree.Exact] (parse : Cell → Option Rat)
    (draw : Nat → Nat → Nat) (text : List Char) (header : List Cell)
    (gs : List (Cell × Cell × List Rat)) (scaled : Nat → Rat) (hosts : List HostArgs)
    (files : List (List Cell × List (Cell × List Rat)))
    (hg : LabelledFile parse text header gs) (hwidth : ∀ s ∈ gs, s.2.2.length = header.length)
    (hf : List.Forall₂ (HostFile parse gs.length scaled) hosts files)
    (hhead : HeaderOk S none header)
    (hheads : ∀ (j : Nat) f, files[j]? = some f → HeaderOk S (some j) f.1)
    (hidx : (hosts.map HostArgs.idx).Nodup) (hne : hosts ≠ [])
    (h0 : gs ≠ []) (h : gs.length ≤ Data.pyInt (scaled gs.length))
    (hcls : (gs.map (·.2.1)).dedup.length ≤ 1000)
    (hok : ProgramOk p q sk lo hi m gmax hmax eg eh G S gs.length) :
    (∃ B R st, UsesSettings S R B ∧ boost B (List.replicate R.dim 0) R.y = .ok st) ∧
      program S parse draw text scaled hosts = .error .valueError := by
  have hpos : gs.length ≠ 0 := by simpa using h0
  have hsplit : (trainPos gs.length (scaled gs.length) draw).length = gs.length ∧
      testPos gs.length (scaled gs.length) draw = [] := by
    unfold trainPos testPos Data.dataSplit
    simp only [List.length_range]
    rw [if_neg (by omega)]
    simp only [if_true, List.length_take, List.drop_eq_nil_iff, (Data.shuffle_perm _ _).length_eq,
      List.length_range]
    omega
  obtain ⟨guest, parties, R, g1, q1, q2, hy, r1, r2, r3, r4, r6, r7, hplen', hrun⟩ :=
    setup_ok (draw := draw) hwidth hf hhead hheads hidx hne hcls hok (by
      intro h
      rw [h] at hsplit
      exact hpos hsplit.1.symm)
  obtain ⟨st, s1⟩ := boost_ok (init := List.replicate R.dim 0) hrun (by simp [boostOf])
  refine ⟨⟨boostOf S guest parties R, R, st, usesSettings S R guest parties, s1⟩, ?_⟩
  rw [program_eq S hg scaled (hf.imp fun _ _ h => h.file)]
  unfold runTables
  have x1 : prepareParty S 0 (tablesOf header (gs.map guestInst) scaled draw).header
      (tablesOf header (gs.map guestInst) scaled draw).train = .ok guest := by
    unfold tablesOf
    rw [List.length_map]; exact g1
  have x2 : (tablesOf header (gs.map guestInst) scaled draw).train.mapValuesM givenLabel =
      .ok (numbered ((entriesAt (gs.map (·.2.1)) (trainPos gs.length (scaled gs.length) draw)).map .str)) := by
    unfold tablesOf
    rw [List.length_map]; exact hy
  have x3 : (tablesOf header (gs.map guestInst) scaled draw).test.mapValues Inst.features =
      .ok ⟨[]⟩ := by
    unfold tablesOf
    rw [List.length_map, hsplit.2, numbered_mapValues]; rfl
  have x5 := testRows_ok (draw := draw) hf
  simp only [x1, q1, x2, r1, s1, x3, x5, bind, Except.bind]
  rfl

end Verif
