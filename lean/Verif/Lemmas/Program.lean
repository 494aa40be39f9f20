import Verif.Spec.C56
import Verif.Props.C01
import Verif.Props.C06
import Verif.Lemmas.DTableM
import Verif.Lemmas.Tables

/-! # Reading and splitting the files -/

set_option autoImplicit false

namespace Verif
namespace Program

open Spec Labels DTree
open Data (Cell Table dataSplit readLabelled readUnlabelled)

variable {V W : Type}

/-! ### Numbered tables -/

theorem numbered_ofValues (l : List V) : DTable.ofValues (.list l) = .ok (numbered l) := by
  have he : DTable.enumLoop 0 [] l = (l.zipIdx 0).map (fun p => (p.2, p.1)) := by
    simpa using DTable.enumLoop_eq (V := V) 0 [] l (by simp)
  unfold DTable.ofValues numbered
  simp only [he]
  congr 2
  rw [List.mapIdx_eq_zipIdx_map]

theorem numbered_keys (l : List V) : (numbered l).data.keys = List.range l.length := by
  obtain ⟨t, h1, _, _, h2, _⟩ := C01_values l
  rw [numbered_ofValues, Except.ok.injEq] at h1
  rw [h1, h2]

theorem numbered_values (l : List V) : (numbered l).data.values = l := by
  obtain ⟨t, h1, _, _, _, h2, _⟩ := C01_values l
  rw [numbered_ofValues, Except.ok.injEq] at h1
  rw [h1, h2]

theorem numbered_wf (l : List V) : (numbered l).WF := by
  obtain ⟨t, h1, _, h2, _⟩ := C01_values l
  rw [numbered_ofValues, Except.ok.injEq] at h1
  rw [h1]; exact h2

theorem numbered_get (l : List V) (i : Nat) : (numbered l).data.get? i = l[i]? := by
  obtain ⟨t, h1, _, _, _, _, h2⟩ := C01_values l
  rw [numbered_ofValues, Except.ok.injEq] at h1
  rw [h1, h2]

theorem numbered_count (l : List V) : (numbered l).count = l.length := by
  simp [numbered, DTable.count]

theorem numbered_length (l : List V) : (numbered l).data.length = l.length := by simp [numbered]

theorem numbered_map (l : List V) (f : V → W) :
    (⟨(numbered l).data.map fun p => (p.1, f p.2)⟩ : DTable Nat W) = numbered (l.map f) := by
  unfold numbered
  congr 1
  apply List.ext_getElem?
  intro i
  simp [Function.comp_def]

theorem numbered_mapValues (l : List V) (f : V → W) :
    (numbered l).mapValues f = .ok (numbered (l.map f)) := by
  rw [DTable.mapValues_ok (numbered_wf l), numbered_map]

theorem numbered_mem {l : List V} {p : Nat × V} (h : p ∈ (numbered l).data) : p.2 ∈ l := by
  have := Dict.get?_of_mem (numbered_wf l) h
  rw [numbered_get] at this
  exact List.mem_of_getElem? this

theorem numbered_mapValuesM (l : List V) (f : V → Except PyErr W) (g : V → W)
    (h : ∀ v ∈ l, f v = .ok (g v)) : (numbered l).mapValuesM f = .ok (numbered (l.map g)) := by
  rw [DTable.mapValuesM_ok (numbered_wf l) f g fun p hp => h p.2 (numbered_mem hp), numbered_map]

/-! ### Positions -/

theorem pick_map (l : List V) (f : V → W) (pos : List Nat) :
    entriesAt (l.map f) pos = (entriesAt l pos).map f := by
  unfold entriesAt
  rw [List.map_filterMap]
  congr 1
  funext p
  simp

theorem pick_mem {l : List V} {pos : List Nat} {v : V} (h : v ∈ entriesAt l pos) : v ∈ l := by
  obtain ⟨p, _, hp⟩ := List.mem_filterMap.mp h
  exact List.mem_of_getElem? hp

theorem pick_some {l : List V} {pos : List Nat} (h : ∀ p ∈ pos, p < l.length) :
    (entriesAt l pos).map some = pos.map fun p => l[p]? := by
  unfold entriesAt
  induction pos with
  | nil => rfl
  | cons p pos ih =>
    have hp := h p (by simp)
    simp only [List.filterMap_cons, List.getElem?_eq_getElem hp, List.map_cons]
    rw [ih fun p hp => h p (by simp [hp])]

theorem pick_length {l : List V} {pos : List Nat} (h : ∀ p ∈ pos, p < l.length) :
    (entriesAt l pos).length = pos.length := by
  have := congrArg List.length (pick_some h)
  simpa using this

theorem pick_get {l : List V} {pos : List Nat} (h : ∀ p ∈ pos, p < l.length) (i : Nat) :
    (entriesAt l pos)[i]? = pos[i]?.bind fun p => l[p]? := by
  have h1 := congrArg (fun x => x[i]?) (pick_some h)
  simp only [List.getElem?_map] at h1
  cases hi : pos[i]? with
  | none =>
    rw [hi] at h1
    cases h2 : (entriesAt l pos)[i]? with
    | none => rfl
    | some v => rw [h2] at h1; cases h1
  | some p =>
    rw [hi] at h1
    cases h2 : (entriesAt l pos)[i]? with
    | none => rw [h2] at h1; cases h1
    | some v => rw [h2] at h1; exact Option.some.inj h1

/-- The lines that become training rows. -/
def trainPos (n : Nat) (scaled : Rat) (draw : Nat → Nat → Nat) : List Nat :=
  (dataSplit (List.range n) scaled true draw).1

/-- The lines that become test rows. -/
def testPos (n : Nat) (scaled : Rat) (draw : Nat → Nat → Nat) : List Nat :=
  (dataSplit (List.range n) scaled true draw).2.1

theorem pos_perm (n : Nat) (scaled : Rat) (draw : Nat → Nat → Nat) :
    (trainPos n scaled draw ++ testPos n scaled draw).Perm (List.range n) := C06_partition _ _ _ _

theorem trainPos_lt {n : Nat} {scaled : Rat} {draw : Nat → Nat → Nat} {p : Nat}
    (h : p ∈ trainPos n scaled draw) : p < n :=
  List.mem_range.mp ((pos_perm n scaled draw).subset (List.mem_append_left _ h))

theorem testPos_lt {n : Nat} {scaled : Rat} {draw : Nat → Nat → Nat} {p : Nat}
    (h : p ∈ testPos n scaled draw) : p < n :=
  List.mem_range.mp ((pos_perm n scaled draw).subset (List.mem_append_right _ h))

theorem dataSplit_map {β γ : Type} (scaled : Rat) (sh : Bool) (draw : Nat → Nat → Nat) (f : β → γ)
    (l : List β) : (dataSplit (l.map f) scaled sh draw).1 = (dataSplit l scaled sh draw).1.map f ∧
      (dataSplit (l.map f) scaled sh draw).2.1 = (dataSplit l scaled sh draw).2.1.map f := by
  unfold dataSplit
  simp only [List.length_map]
  split
  · exact ⟨rfl, rfl⟩
  · split
    · rw [Data.shuffle_map]; simp [List.map_take, List.map_drop]
    · simp [List.map_take, List.map_drop]

theorem split_pick (l : List V) (scaled : Rat) (draw : Nat → Nat → Nat) :
    (dataSplit l scaled true draw).1 = entriesAt l (trainPos l.length scaled draw) ∧
    (dataSplit l scaled true draw).2.1 = entriesAt l (testPos l.length scaled draw) := by
  have hrange : (List.range l.length).map (fun i => l[i]?) = l.map some := by
    apply List.ext_getElem?
    intro i
    simp only [List.getElem?_map]
    rcases Nat.lt_or_ge i l.length with h | h
    · simp [h]
    · simp [h]
  have h1 := dataSplit_map scaled true draw (fun i => l[i]?) (List.range l.length)
  have h2 := dataSplit_map scaled true draw some l
  rw [hrange] at h1
  have hinj : ∀ a b : List V, a.map some = b.map some → a = b := fun a b h =>
    List.map_injective_iff.mpr (Option.some_injective V) h
  refine ⟨hinj _ _ ?_, hinj _ _ ?_⟩
  · rw [pick_some fun p hp => trainPos_lt hp, ← h2.1, h1.1]; rfl
  · rw [pick_some fun p hp => testPos_lt hp, ← h2.2, h1.2]; rfl

theorem trainPos_size {n : Nat} {scaled : Rat} {draw : Nat → Nat → Nat}
    (h1 : 1 ≤ Data.pyInt scaled) (h2 : Data.pyInt scaled < n) :
    ((trainPos n scaled draw).length : Int) = Data.pyInt scaled ∧
    ((testPos n scaled draw).length : Int) = n - Data.pyInt scaled := by
  have hp := (pos_perm n scaled draw).length_eq
  simp only [List.length_append, List.length_range] at hp
  have : ((trainPos n scaled draw).length : Int) = Data.pyInt scaled := by
    unfold trainPos dataSplit
    simp only [List.length_range]
    rw [if_neg (by omega)]
    simp only [if_true, List.length_take, (Data.shuffle_perm _ _).length_eq, List.length_range]
    omega
  omega

/-! ### Reading -/

/-- The instance of a line of the guest. -/
def guestInst (s : Cell × Cell × List Rat) : Inst := ⟨s.1, s.2.2, some (.str s.2.1)⟩

/-- The instance of a line of a host. -/
def hostInst (s : Cell × List Rat) : Inst := ⟨s.1, s.2, none⟩

theorem guestInsts_ok (h : List Cell) (gs : List (Cell × Cell × List Rat)) :
    ∀ (rest pre : List (Cell × Cell × List Rat)), pre ++ rest = gs →
      guestInsts ⟨h, gs.map (·.1), gs.map (·.2.2), gs.map (·.2.1)⟩ pre.length (rest.map (·.2.2)) =
        .ok (rest.map guestInst)
  | [], _, _ => rfl
  | s :: rest, pre, e => by
    have hs : gs[pre.length]? = some s := by rw [← e]; simp
    have ih := guestInsts_ok h gs rest (pre ++ [s]) (by simp [e])
    simp only [List.length_append, List.length_cons, List.length_nil, Nat.zero_add] at ih
    simp only [List.map_cons, guestInsts, Histogram.getAt, List.getElem?_map, hs, Option.map_some, bind,
      Except.bind, ih]
    rfl

theorem hostInsts_ok (h : List Cell) (gs : List (Cell × List Rat)) :
    ∀ (rest pre : List (Cell × List Rat)), pre ++ rest = gs →
      hostInsts ⟨h, gs.map (·.1), gs.map (·.2), []⟩ pre.length (rest.map (·.2)) =
        .ok (rest.map hostInst)
  | [], _, _ => rfl
  | s :: rest, pre, e => by
    have hs : gs[pre.length]? = some s := by rw [← e]; simp
    have ih := hostInsts_ok h gs rest (pre ++ [s]) (by simp [e])
    simp only [List.length_append, List.length_cons, List.length_nil, Nat.zero_add] at ih
    simp only [List.map_cons, hostInsts, Histogram.getAt, List.getElem?_map, hs, Option.map_some, bind,
      Except.bind, ih]
    rfl

/-- The tables of a party whose lines give the instances. -/
def tablesOf (header : List Cell) (insts : List Inst) (scaled : Nat → Rat) (draw : Nat → Nat → Nat) :
    Tables :=
  ⟨header.map String.ofList,
    numbered (entriesAt insts (trainPos insts.length (scaled insts.length) draw)),
    numbered (entriesAt insts (testPos insts.length (scaled insts.length) draw))⟩

theorem splitTables_ok (header : List Cell) (insts : List Inst) (scaled : Nat → Rat)
    (draw : Nat → Nat → Nat) :
    splitTables header insts scaled draw = .ok (tablesOf header insts scaled draw) := by
  unfold splitTables tablesOf
  obtain ⟨h1, h2⟩ := split_pick insts (scaled insts.length) draw
  simp only [h1, h2, numbered_ofValues, bind, Except.bind, pure, Except.pure]

theorem guestTables_ok {parse : Cell → Option Rat} {text : List Char} {header : List Cell}
    {gs : List (Cell × Cell × List Rat)} (h : LabelledFile parse text header gs) (scaled : Nat → Rat)
    (draw : Nat → Nat → Nat) :
    guestTables parse text scaled draw = .ok (tablesOf header (gs.map guestInst) scaled draw) := by
  obtain ⟨head, lines, h1, rfl, h3, h4, rfl, rfl⟩ := h
  unfold guestTables
  rw [C07_labelled parse head lines h1 h3 h4]
  simp only [bind, Except.bind]
  have := guestInsts_ok head.feats (lines.map fun r => (r.1.id, r.1.label, r.2)) _ [] rfl
  simp only [List.map_map, Function.comp_def, List.length_nil] at this
  rw [this]
  simp only [splitTables_ok, List.map_map, Function.comp_def]

theorem hostTables_ok {parse : Cell → Option Rat} {text : List Char} {header : List Cell}
    {gs : List (Cell × List Rat)} (h : PlainFile parse text header gs) (scaled : Nat → Rat)
    (draw : Nat → Nat → Nat) :
    hostTables parse text scaled draw = .ok (tablesOf header (gs.map hostInst) scaled draw) := by
  obtain ⟨first, lines, h1, h2, h3, rfl, rfl⟩ := h
  unfold hostTables
  rw [C07_unlabelled parse first header lines h1 h2 h3]
  simp only [bind, Except.bind]
  have := hostInsts_ok header (lines.map fun r => (r.1, r.2.2)) _ [] rfl
  simp only [List.map_map, Function.comp_def, List.length_nil] at this
  rw [this]
  simp only [splitTables_ok, List.map_map, Function.comp_def]

/-- The tables of the hosts. -/
def hostTablesOf (draw : Nat → Nat → Nat) (h : HostArgs) (f : List Cell × List (Cell × List Rat)) :
    Tables :=
  tablesOf f.1 (f.2.map hostInst) h.scaled draw

theorem allHostTables_ok {parse : Cell → Option Rat} {draw : Nat → Nat → Nat} {hosts : List HostArgs}
    {files : List (List Cell × List (Cell × List Rat))}
    (h : List.Forall₂ (fun h f => PlainFile parse h.text f.1 f.2) hosts files) :
    allHostTables parse draw hosts = .ok (List.zipWith (hostTablesOf draw) hosts files) := by
  induction h with
  | nil => rfl
  | cons h _ ih =>
    unfold allHostTables
    rw [hostTables_ok h, ih]
    rfl

variable {α P : Type}

/-- The programs after reading and splitting. -/
def runTables [LinearOrder P] [One P] [Sub P] (S : Settings α P) (hosts : List HostArgs) (g : Tables)
    (hs : List Tables) : Except PyErr (Outcome P) := do
  let guest ← prepareParty S 0 g.header g.train
  let parties ← prepareHosts S hosts hs
  let y ← g.train.mapValuesM givenLabel
  let R ← checkLabel y
  let B := boostOf S guest parties R
  let init := List.replicate R.dim (0 : Rat)
  let st ← boost B init R.y
  let rows ← g.test.mapValues Inst.features
  let hrows ← testRows hs
  let scores ← predictScores parties S.rate R.dim init st.trees rows hrows S.fuel
  let given ← g.test.mapValues Inst.label
  let res ← predictRows S.sigmoid S.softmax R.num R.classes S.threshold given scores
  let a ← accuracy res
  pure ⟨st, res, a⟩

theorem program_eq [LinearOrder P] [One P] [Sub P] (S : Settings α P) {parse : Cell → Option Rat}
    {draw : Nat → Nat → Nat} {text : List Char} {header : List Cell}
    {gs : List (Cell × Cell × List Rat)} (hg : LabelledFile parse text header gs) (scaled : Nat → Rat)
    {hosts : List HostArgs} {files : List (List Cell × List (Cell × List Rat))}
    (hf : List.Forall₂ (fun h f => PlainFile parse h.text f.1 f.2) hosts files) :
    program S parse draw text scaled hosts =
      runTables S hosts (tablesOf header (gs.map guestInst) scaled draw)
        (List.zipWith (hostTablesOf draw) hosts files) := by
  unfold program
  rw [guestTables_ok hg, allHostTables_ok hf]
  rfl

/-! ### Identifiers -/

/-- An instance without its identifier. -/
def forget (x : Inst) : Inst := ⟨[], x.features, x.label⟩

theorem prepareParty_forget (S : Settings α P) (idx : Nat) (header : List String) (insts : List Inst) :
    prepareParty S idx header (numbered insts) = prepareParty S idx header (numbered (insts.map forget)) := by
  unfold prepareParty
  simp only [numbered_count, numbered_mapValues, List.length_map, List.map_map]
  rfl

theorem mapValuesM_numbered (f : V → Except PyErr W) (g : V → V) (h : ∀ v, f (g v) = f v) (l : List V) :
    (numbered (l.map g)).mapValuesM f = (numbered l).mapValuesM f := by
  rw [← numbered_map]
  unfold DTable.mapValuesM
  congr 1
  generalize (numbered l).data = d
  induction d with
  | nil => rfl
  | cons x d ih =>
    simp only [List.map_cons, DTable.evalRecords, h, ih]

/-- The tables of a host without identifiers. -/
def forgetTables (draw : Nat → Nat → Nat) (h : HostArgs) (f : List Cell × List (Cell × List Rat)) :
    Tables :=
  tablesOf f.1 ((f.2.map hostInst).map forget) h.scaled draw

theorem tablesOf_forget (header : List Cell) (insts : List Inst) (scaled : Nat → Rat)
    (draw : Nat → Nat → Nat) : tablesOf header (insts.map forget) scaled draw =
      ⟨(tablesOf header insts scaled draw).header,
        numbered ((entriesAt insts (trainPos insts.length (scaled insts.length) draw)).map forget),
        numbered ((entriesAt insts (testPos insts.length (scaled insts.length) draw)).map forget)⟩ := by
  unfold tablesOf
  simp only [List.length_map, pick_map]

theorem runTables_forget [LinearOrder P] [One P] [Sub P] (S : Settings α P) (hosts : List HostArgs)
    (header : List Cell) (insts : List Inst) (scaled : Nat → Rat) (draw : Nat → Nat → Nat)
    (files : List (List Cell × List (Cell × List Rat))) :
    runTables S hosts (tablesOf header insts scaled draw) (List.zipWith (hostTablesOf draw) hosts files) =
      runTables S hosts (tablesOf header (insts.map forget) scaled draw)
        (List.zipWith (forgetTables draw) hosts files) := by
  have h1 : prepareHosts S hosts (List.zipWith (hostTablesOf draw) hosts files) =
      prepareHosts S hosts (List.zipWith (forgetTables draw) hosts files) := by
    induction hosts generalizing files with
    | nil => rfl
    | cons h hosts ih =>
      cases files with
      | nil => rfl
      | cons f files =>
        simp only [List.zipWith_cons_cons, prepareHosts, ih]
        congr 1
        unfold forgetTables hostTablesOf
        rw [tablesOf_forget]
        exact prepareParty_forget _ _ _ _
  have h2 : testRows (List.zipWith (hostTablesOf draw) hosts files) =
      testRows (List.zipWith (forgetTables draw) hosts files) := by
    clear h1
    induction hosts generalizing files with
    | nil => rfl
    | cons h hosts ih =>
      cases files with
      | nil => rfl
      | cons f files =>
        simp only [List.zipWith_cons_cons, testRows, ih]
        congr 1
        unfold forgetTables hostTablesOf
        rw [tablesOf_forget]
        unfold tablesOf
        simp only [numbered_mapValues, List.map_map]
        rfl
  unfold runTables
  rw [h1, h2, tablesOf_forget]
  unfold tablesOf
  simp only [← prepareParty_forget, mapValuesM_numbered givenLabel forget (fun _ => rfl),
    numbered_mapValues, List.map_map, Function.comp_def]
  rfl

theorem guest_forget {gs gs' : List (Cell × Cell × List Rat)} (h : gs.map (·.2) = gs'.map (·.2)) :
    (gs.map guestInst).map forget = (gs'.map guestInst).map forget := by
  have := congrArg (List.map fun s : Cell × List Rat => (⟨[], s.2, some (.str s.1)⟩ : Inst)) h
  simpa [List.map_map, Function.comp_def, forget, guestInst] using this

theorem host_forget {gs gs' : List (Cell × List Rat)} (h : gs.map (·.2) = gs'.map (·.2)) :
    (gs.map hostInst).map forget = (gs'.map hostInst).map forget := by
  have := congrArg (List.map fun s : List Rat => (⟨[], s, none⟩ : Inst)) h
  simpa [List.map_map, Function.comp_def, forget, hostInst] using this

theorem hosts_forget {draw : Nat → Nat → Nat} {hosts : List HostArgs}
    {files files' : List (List Cell × List (Cell × List Rat))}
    (h : List.Forall₂ (fun f f' => f.1 = f'.1 ∧ f.2.map (·.2) = f'.2.map (·.2)) files files') :
    List.zipWith (forgetTables draw) hosts files = List.zipWith (forgetTables draw) hosts files' := by
  induction h generalizing hosts with
  | nil => rfl
  | cons h _ ih =>
    cases hosts with
    | nil => rfl
    | cons x hosts =>
      simp only [List.zipWith_cons_cons, ih]
      congr 1
      unfold forgetTables
      rw [h.1, host_forget h.2]

theorem runTables_hosts [LinearOrder P] [One P] [Sub P] {S : Settings α P} {hosts hosts' : List HostArgs}
    (h : List.Forall₂ (fun h h' => h.idx = h'.idx ∧ h.scaled = h'.scaled) hosts hosts') {g : Tables}
    {draw : Nat → Nat → Nat} {files : List (List Cell × List (Cell × List Rat))} :
    runTables S hosts g (List.zipWith (forgetTables draw) hosts files) =
      runTables S hosts' g (List.zipWith (forgetTables draw) hosts' files) := by
  have h1 : List.zipWith (forgetTables draw) hosts files = List.zipWith (forgetTables draw) hosts' files := by
    induction h generalizing files with
    | nil => rfl
    | cons h _ ih =>
      cases files with
      | nil => rfl
      | cons f files =>
        simp only [List.zipWith_cons_cons, ih]
        congr 1
        unfold forgetTables
        rw [h.2]
  have h2 : ∀ ts, prepareHosts S hosts ts = prepareHosts S hosts' ts := by
    clear h1
    induction h with
    | nil => intro ts; rfl
    | cons h _ ih =>
      intro ts
      cases ts with
      | nil => rfl
      | cons t ts => simp only [prepareHosts, ih, h.1]
  unfold runTables
  rw [h1, h2]

end Program
end Verif
