import Verif.Model.Processes
import Verif.Lemmas.Completes
import Verif.Props.C56

/-! # C65: the programs as separate processes -/

set_option autoImplicit false

namespace Verif

open DTree Spec Network Program Labels
open Data (Cell)

variable {α P : Type}

private theorem allHostTables_inv {parse : Cell → Option Rat} {draw : Nat → Nat → Nat} :
    ∀ {hosts : List HostArgs} {hs : List Tables}, allHostTables parse draw hosts = .ok hs →
      hs.length = hosts.length ∧ ∀ (j : Nat) h t, hosts[j]? = some h → hs[j]? = some t →
        hostTables parse h.text h.scaled draw = .ok t
  | [], _, e => by cases e; exact ⟨rfl, fun j h t h1 => by simp at h1⟩
  | h :: hosts, hs, e => by
    simp only [allHostTables, bind, Except.bind] at e
    split at e; · cases e
    rename_i t ht
    split at e; · cases e
    rename_i rest hr
    cases e
    obtain ⟨a, b⟩ := allHostTables_inv hr
    refine ⟨by simp [a], fun j h' t' h1 h2 => ?_⟩
    cases j with
    | zero =>
      simp only [List.getElem?_cons_zero, Option.some.injEq] at h1 h2
      subst h1; subst h2; exact ht
    | succ j => exact b j h' t' (by simpa using h1) (by simpa using h2)

private theorem prepareHosts_inv {S : Settings α P} :
    ∀ {hosts : List HostArgs} {hs : List Tables} {ps : List (Party Nat)}, hs.length = hosts.length →
      prepareHosts S hosts hs = .ok ps →
      ps.length = hosts.length ∧ ∀ (j : Nat) h t p, hosts[j]? = some h → hs[j]? = some t → ps[j]? = some p →
        prepareParty S h.idx t.header t.train = .ok p
  | [], hs, ps, _, e => by
    simp only [prepareHosts] at e
    cases e; exact ⟨rfl, fun j h t p h1 => by simp at h1⟩
  | h :: hosts, [], ps, hl, e => by simp at hl
  | h :: hosts, t :: hs, ps, hl, e => by
    simp only [prepareHosts, bind, Except.bind] at e
    split at e; · cases e
    rename_i p hp
    split at e; · cases e
    rename_i rest hr
    cases e
    obtain ⟨a, b⟩ := prepareHosts_inv (by simpa using hl) hr
    refine ⟨by simp [a], fun j h' t' p' h1 h2 h3 => ?_⟩
    cases j with
    | zero =>
      simp only [List.getElem?_cons_zero, Option.some.injEq] at h1 h2 h3
      subst h1; subst h2; subst h3; exact hp
    | succ j => exact b j h' t' p' (by simpa using h1) (by simpa using h2) (by simpa using h3)

private theorem testRows_inv :
    ∀ {hs : List Tables} {rs : List (DTable Nat (List Rat))}, testRows hs = .ok rs →
      rs.length = hs.length ∧ ∀ (j : Nat) t r, hs[j]? = some t → rs[j]? = some r →
        t.test.mapValues Inst.features = .ok r
  | [], _, e => by cases e; exact ⟨rfl, fun j h t h1 => by simp at h1⟩
  | t :: hs, rs, e => by
    simp only [testRows, bind, Except.bind] at e
    split at e; · cases e
    rename_i r hr
    split at e; · cases e
    rename_i rest hrest
    cases e
    obtain ⟨a, b⟩ := testRows_inv hrest
    refine ⟨by simp [a], fun j t' r' h1 h2 => ?_⟩
    cases j with
    | zero =>
      simp only [List.getElem?_cons_zero, Option.some.injEq] at h1 h2
      subst h1; subst h2; exact hr
    | succ j => exact b j t' r' (by simpa using h1) (by simpa using h2)

private theorem prepareParty_idx {S : Settings α P} {idx : Nat} {header : List String} {t : DTable Nat Inst}
    {Q : Party Nat} (h : prepareParty S idx header t = .ok Q) : Q.idx = idx := by
  unfold prepareParty at h
  split at h; · cases h
  simp only [bind, Except.bind] at h
  split at h; · cases h
  split at h; · cases h
  cases h
  rfl

/-- **The programs, each with its own file, complete under every order of steps.**  If the programs
composed into one computation end with `out`, the separate processes end whatever their order of
steps and whatever the connections buffer: the guest with the model, the predictions and the
accuracy of `out`, every host normally. -/
theorem C65_processes [LinearOrder P] [One P] [Sub P] (S : Settings α P) (parse : Cell → Option Rat)
    (draw : Nat → Nat → Nat) (text : List Char) (scaled : Nat → Rat) (hosts : List HostArgs)
    (out : Program.Outcome P) (h : program S parse draw text scaled hosts = .ok out) :
    Completes (system (guestProcess S parse draw text scaled hosts.length)
        (hosts.mapIdx fun j a => hostProcess S parse draw j a))
      (results (⟨gpart out.state, out.result, out.accuracy⟩ : GuestEnd P) (hosts.map fun _ => ())) := by
  unfold program at h
  simp only [bind, Except.bind] at h
  split at h; · cases h
  rename_i g hg
  split at h; · cases h
  rename_i hs hhs
  split at h; · cases h
  rename_i guest hguest
  split at h; · cases h
  rename_i parties hparties
  split at h; · cases h
  rename_i y hy
  split at h; · cases h
  rename_i R hR
  split at h; · cases h
  rename_i st hst
  split at h; · cases h
  rename_i rows hrows
  split at h; · cases h
  rename_i hr hhr
  split at h; · cases h
  rename_i T hT
  split at h; · cases h
  rename_i given hgiven
  split at h; · cases h
  rename_i res hres
  split at h; · cases h
  rename_i a ha
  cases h
  obtain ⟨l1, i1⟩ := allHostTables_inv hhs
  obtain ⟨l2, i2⟩ := prepareHosts_inv l1 hparties
  obtain ⟨l3, i3⟩ := testRows_inv hhr
  have hgp : guestPart S hosts.length guest R = guestBoostIn (boostOf S guest parties R) := by
    unfold guestPart guestBoostIn guestIn boostOf
    simp [l2]
  refine completes_system ?_
  obtain ⟨hm, c1⟩ := leads_boost (idle := Network.Outcome.absent) (boostOf S guest parties R)
    (List.replicate R.dim 0) R.y st hst
    (fun s => guestPredict parties.length S.rate R.dim (List.replicate R.dim 0) s.trees rows S.fuel >>= fun T =>
      lift (predictRows S.sigmoid S.softmax R.num R.classes S.threshold given T) >>= fun res =>
        lift (accuracy res) >>= fun a => pure (.guest (⟨s, res, a⟩ : GuestEnd P)))
    (fun x t => hostPredict x.1.idx t.1 t.2 (hr[x.2]?.getD ⟨[]⟩) S.fuel >>= fun _ => pure (.host ()))
  have c2 := leads_predict (α := α) (idle := Network.Outcome.absent) parties S.rate R.dim
    (List.replicate R.dim 0) st.trees rows hr (by omega) hm S.fuel T hT
    (fun T => lift (predictRows S.sigmoid S.softmax R.num R.classes S.threshold given T) >>= fun res =>
        lift (accuracy res) >>= fun a => pure (.guest (⟨gpart st, res, a⟩ : GuestEnd P)))
    (fun _ => pure (.host ()))
  have hzip : parties.zipIdx.zip hr = parties.zipIdx.map fun x => (x, hr[x.2]?.getD ⟨[]⟩) := by
    refine List.ext_getElem (by simp; omega) ?_
    intro i h1 h2
    have hi : i < hr.length := by simp at h1; omega
    simp [hi]
  rw [hzip] at c2
  have hg' : (guestProcess S parse draw text scaled hosts.length >>= fun r => pure (Network.Outcome.guest r) :
        Prog Nat α (Network.Outcome (GuestEnd P) Unit))
      = guestBoost (guestBoostIn (boostOf S guest parties R)) (List.replicate R.dim 0) R.y >>= fun s =>
        guestPredict parties.length S.rate R.dim (List.replicate R.dim 0) s.trees rows S.fuel >>= fun T =>
        lift (predictRows S.sigmoid S.softmax R.num R.classes S.threshold given T) >>= fun res =>
        lift (accuracy res) >>= fun a => pure (.guest (⟨s, res, a⟩ : GuestEnd P)) := by
    unfold guestProcess
    simp only [hg, hguest, hy, hR, hrows, hgiven, lift_ok, bind_bind, pure_bind', hgp, l2]
  have hh' : ((hosts.mapIdx fun j a => hostProcess S parse draw j a).map fun h => h >>= fun r =>
        (pure (Network.Outcome.host r) : Prog Nat α (Network.Outcome (GuestEnd P) Unit)))
      = parties.zipIdx.map fun x => hostBoost (hostBoostIn (boostOf S guest parties R) x.2 x.1) >>= fun t =>
        hostPredict x.1.idx t.1 t.2 (hr[x.2]?.getD ⟨[]⟩) S.fuel >>= fun _ => pure (.host ()) := by
    refine List.ext_getElem (by simp; omega) ?_
    intro i h1 h2
    have hi : i < hosts.length := by simpa using h1
    have e1 := i1 i _ _ (List.getElem?_eq_getElem hi) (List.getElem?_eq_getElem (by omega))
    have e2 := i2 i _ _ _ (List.getElem?_eq_getElem hi) (List.getElem?_eq_getElem (by omega))
      (List.getElem?_eq_getElem (by omega))
    have e3 := i3 i _ _ (List.getElem?_eq_getElem (by omega)) (List.getElem?_eq_getElem (by omega))
    have e4 : hr[i]? = some (hr[i]'(by omega)) := List.getElem?_eq_getElem (by omega)
    have e5 : (parties[i]'(by omega)).idx = (hosts[i]).idx := (prepareParty_idx e2)
    simp only [List.getElem_map, List.getElem_mapIdx, List.getElem_zipIdx, Nat.zero_add, e4, Option.getD_some]
    unfold hostProcess
    simp only [e1, e2, e3, lift_ok, bind_bind, e5]
    rfl
  unfold system
  rw [hh']
  refine Leads.trans (by rw [hg']; exact c1) ?_
  simp only [List.map_map, Function.comp_def] at c2
  refine Leads.trans c2 ?_
  have : (parties.zipIdx.map fun _ => (pure (.host ()) : Prog Nat α (Network.Outcome (GuestEnd P) Unit)))
      = (hosts.map fun _ => ()).map fun h => .done (.host h) := by
    refine List.ext_getElem (by simp; omega) ?_
    intro i h1 h2
    simp
    rfl
  rw [this]
  simp only [hres, ha, lift_ok]
  exact Leads.refl _

/-- **The separate programs end with the accuracy of the labels they wrote down.**  The conditions
concern the files and settings only (they are those of `C56_program`).  Then there is one ending:
however the steps of the parties are ordered, the guest ends with a result that has a row for every
test line and whose accuracy is the fraction of the test lines with equal labels, and every host
ends normally. -/
theorem C65_run [LinearOrder P] [One P] [Sub P] (p q : Nat) (sk : Paillier.PrivKey) (lo hi : Int)
    (m gmax hmax eg eh : Rat) (G : Rat × Rat → Prop) (S : Settings Histogram.Num P) [S.tree.Exact]
    (parse : Cell → Option Rat) (draw : Nat → Nat → Nat) (text : List Char) (header : List Cell)
    (gs : List (Cell × Cell × List Rat)) (scaled : Nat → Rat) (hosts : List HostArgs)
    (files : List (List Cell × List (Cell × List Rat)))
    (hg : LabelledFile parse text header gs) (hwidth : ∀ s ∈ gs, s.2.2.length = header.length)
    (hf : List.Forall₂ (HostFile parse gs.length scaled) hosts files)
    (hhead : HeaderOk S none header)
    (hheads : ∀ (j : Nat) f, files[j]? = some f → HeaderOk S (some j) f.1)
    (hidx : (hosts.map HostArgs.idx).Nodup) (hne : hosts ≠ [])
    (h1 : 1 ≤ Data.pyInt (scaled gs.length)) (h2 : Data.pyInt (scaled gs.length) < gs.length)
    (hcls : (gs.map (·.2.1)).dedup.length ≤ 1000)
    (hok : ProgramOk p q sk lo hi m gmax hmax eg eh G S gs.length) :
    ∃ (fin : GuestEnd P) (test : List Nat), test.Nodup ∧ (∀ l ∈ test, l < gs.length) ∧
      (test.length : Int) = gs.length - Data.pyInt (scaled gs.length) ∧
      Completes (system (guestProcess S parse draw text scaled hosts.length)
        (hosts.mapIdx fun j a => hostProcess S parse draw j a)) (results fin (hosts.map fun _ => ())) ∧
      (∀ i, i ∈ fin.result.data.keys ↔ i < test.length) ∧
      (∀ i l, (entriesAt (gs.map (·.2.1)) test)[i]? = some l →
        ∃ row, fin.result.data.get? i = some row ∧ row.given = some (.str l)) ∧
      fin.accuracy = some ((((List.range test.length).countP fun i => (fin.result.data.get? i).any
        fun row => decide (row.given = some row.label) : Nat) : Rat) / test.length) := by
  obtain ⟨out, train, test, B, R, fits, e, _, hp, ht, _, _, _, _, _, _, _, _, _, _, k, r, a⟩ :=
    C56_program p q sk lo hi m gmax hmax eg eh G S parse draw text header gs scaled hosts files hg hwidth
      hf hhead hheads hidx hne h1 h2 hcls hok
  have hlen := hp.length_eq
  simp only [List.length_append, List.length_range] at hlen
  refine ⟨⟨gpart out.state, out.result, out.accuracy⟩, test,
    (List.nodup_append.mp (hp.nodup_iff.mpr List.nodup_range)).2.1,
    fun l hl => List.mem_range.mp (hp.mem_iff.mp (List.mem_append_right _ hl)), by omega,
    C65_processes S parse draw text scaled hosts out e, k, fun i l hi => ?_, a⟩
  obtain ⟨row, _, h1, h2, _⟩ := r i l hi
  exact ⟨row, h1, h2⟩

/-- The programs without encryption end on the three files, so the separate processes do. -/
example : ∃ out, program DemoProgram.clear DemoProgram.parse DemoProgram.draw DemoProgram.guestText
      DemoProgram.scaled DemoProgram.hosts = .ok out ∧ out.accuracy = some 1 := by
  have h : (program DemoProgram.clear DemoProgram.parse DemoProgram.draw DemoProgram.guestText
      DemoProgram.scaled DemoProgram.hosts).map Outcome.accuracy = .ok (some 1) := by decide +kernel
  generalize program DemoProgram.clear DemoProgram.parse DemoProgram.draw DemoProgram.guestText
      DemoProgram.scaled DemoProgram.hosts = r at h
  cases r with
  | error x => cases h
  | ok out => exact ⟨out, rfl, by simpa [Except.map] using h⟩

/-- A case of `C65_run` with encryption. -/
example (sk : Paillier.PrivKey) (hk : KeyPair (2 ^ 31 - 1) (2 ^ 61 - 1) sk)
    (hn : sk.pk.n = (2 ^ 31 - 1) * (2 ^ 61 - 1)) :
    ∃ (fin : GuestEnd Rat), Completes (system (guestProcess (DemoProgram.secure sk) DemoProgram.parse
        DemoProgram.draw DemoProgram.guestText DemoProgram.scaled DemoProgram.hosts.length)
        (DemoProgram.hosts.mapIdx fun j a =>
          hostProcess (DemoProgram.secure sk) DemoProgram.parse DemoProgram.draw j a))
      (results fin (DemoProgram.hosts.map fun _ => ())) := by
  have heads : ∀ (j : Nat) f, DemoProgram.files[j]? = some f →
      HeaderOk (DemoProgram.secure sk) (some j) f.1 := by
    intro j f hf
    match j with
    | 0 => cases hf; exact ⟨by decide, fun _ _ => rfl, by norm_num⟩
    | 1 => cases hf; exact ⟨by decide, fun _ _ => rfl, by norm_num⟩
    | j + 2 => simp [DemoProgram.files] at hf
  obtain ⟨fin, _, _, _, _, h, _⟩ := C65_run (2 ^ 31 - 1) (2 ^ 61 - 1) sk 12 13 (11 / 10) 1 1 0 0
    DemoBoost.Signs (DemoProgram.secure sk) DemoProgram.parse DemoProgram.draw DemoProgram.guestText
    DemoProgram.header DemoProgram.samples DemoProgram.scaled DemoProgram.hosts DemoProgram.files
    DemoProgram.guestFile (by decide +kernel) DemoProgram.hostFiles
    ⟨by decide, fun _ _ => rfl, by norm_num [DemoProgram.header]⟩ heads (by decide +kernel)
    (by decide) (by decide +kernel) (by decide +kernel) (by decide +kernel) (DemoProgram.ok hk hn)
  exact ⟨fin, h⟩

end Verif
