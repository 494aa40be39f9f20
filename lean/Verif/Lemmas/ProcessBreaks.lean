import Verif.Lemmas.ProtocolBreaks3
import Verif.Model.Processes

/-!
# Failing over the network: the whole programs
-/

set_option autoImplicit false

namespace Verif
namespace Network

open DTree Spec Program Labels
open Data (Cell)

variable {α P : Type}

theorem allHostTables_of {parse : Cell → Option Rat} {draw : Nat → Nat → Nat} (T : HostArgs → Tables)
    (hosts : List HostArgs) (h : ∀ a ∈ hosts, hostTables parse a.text a.scaled draw = .ok (T a)) :
    allHostTables parse draw hosts = .ok (hosts.map T) := by
  induction hosts with
  | nil => rfl
  | cons a hosts ih =>
    simp only [allHostTables, h a (by simp), ih fun b hb => h b (by simp [hb]), bind, Except.bind, pure,
      Except.pure, List.map_cons]

theorem prepareHosts_of {S : Settings α P} (T : HostArgs → Tables) (Q : HostArgs → Party Nat)
    (hosts : List HostArgs) (h : ∀ a ∈ hosts, prepareParty S a.idx (T a).header (T a).train = .ok (Q a)) :
    prepareHosts S hosts (hosts.map T) = .ok (hosts.map Q) := by
  induction hosts with
  | nil => rfl
  | cons a hosts ih =>
    simp only [List.map_cons, prepareHosts, h a (by simp), ih fun b hb => h b (by simp [hb]), bind, Except.bind,
      pure, Except.pure]

theorem testRows_of (T : HostArgs → Tables) (rows : HostArgs → DTable Nat (List Rat)) (hosts : List HostArgs)
    (h : ∀ a ∈ hosts, (T a).test.mapValues Inst.features = .ok (rows a)) :
    testRows (hosts.map T) = .ok (hosts.map rows) := by
  induction hosts with
  | nil => rfl
  | cons a hosts ih =>
    simp only [List.map_cons, testRows, h a (by simp), ih fun b hb => h b (by simp [hb]), bind, Except.bind,
      pure, Except.pure]

theorem prepareParty_index {S : Settings α P} {idx : Nat} {header : List String} {t : DTable Nat Inst}
    {Q : Party Nat} (h : prepareParty S idx header t = .ok Q) : Q.idx = idx := by
  unfold prepareParty at h
  split at h
  · cases h
  simp only [bind, Except.bind] at h
  split at h
  · cases h
  split at h
  · cases h
  cases h
  rfl

theorem breaks_programs [LinearOrder P] [One P] [Sub P] (S : Settings α P) (parse : Cell → Option Rat)
    (draw : Nat → Nat → Nat) (text : List Char) (scaled : Nat → Rat) (hosts : List HostArgs) (e : PyErr)
    (h : program S parse draw text scaled hosts = .error e) :
    Breaks (programs S parse draw text scaled hosts) := by
  unfold programs system
  simp only [guestProcess, bind_bind, pure_bind']
  refine breaks_lift fun g hg => ?_
  refine breaks_lift fun guest hguest => ?_
  refine breaks_lift fun y hy => ?_
  refine breaks_lift fun R hR => ?_
  have e1 : ((hosts.mapIdx fun j a => hostProcess S parse draw j a).map fun h => h >>= fun r =>
        (pure (Network.Outcome.host r) : Prog Nat α (Network.Outcome (GuestEnd P) Unit)))
      = hosts.zipIdx.map fun x => lift (hostTables parse x.1.text x.1.scaled draw) >>= fun t =>
          lift (prepareParty S x.1.idx t.header t.train) >>= fun party =>
          hostBoost (hostPart S x.2 party) >>= fun m =>
          lift (t.test.mapValues Inst.features) >>= fun rows =>
          hostPredict x.1.idx m.1 m.2 rows S.fuel >>= fun r => pure (Network.Outcome.host r) := by
    rw [List.mapIdx_eq_zipIdx_map, List.map_map]
    refine List.map_congr_left fun x _ => ?_
    simp only [Function.comp, hostProcess, bind_bind]
  rw [e1]
  refine breaks_lifts ⟨[], ⟨[]⟩, ⟨[]⟩⟩ _ _ fun hT => ?_
  refine breaks_lifts ⟨0, [], [], [], ⟨[]⟩⟩ _ _ fun hQ => ?_
  let T : HostArgs → Tables := fun a => okOr ⟨[], ⟨[]⟩, ⟨[]⟩⟩ (hostTables parse a.text a.scaled draw)
  let Q : HostArgs → Party Nat := fun a => okOr ⟨0, [], [], [], ⟨[]⟩⟩ (prepareParty S a.idx (T a).header (T a).train)
  have mem : ∀ a ∈ hosts, ∃ x ∈ hosts.zipIdx, x.1 = a := by
    intro a ha
    rw [← List.zipIdx_map_fst 0 hosts] at ha
    obtain ⟨x, hx, rfl⟩ := List.mem_map.mp ha
    exact ⟨x, hx, rfl⟩
  have hhs : allHostTables parse draw hosts = .ok (hosts.map T) := allHostTables_of T hosts fun a ha => by
    obtain ⟨x, hx, rfl⟩ := mem a ha
    exact hT x hx
  have hQ' : ∀ a ∈ hosts, prepareParty S a.idx (T a).header (T a).train = .ok (Q a) := fun a ha => by
    obtain ⟨x, hx, rfl⟩ := mem a ha
    exact hQ x hx
  have hps : prepareHosts S hosts (hosts.map T) = .ok (hosts.map Q) := prepareHosts_of T Q hosts hQ'
  simp only [program, bind, Except.bind, hg, hhs, hguest, hps, hy, hR] at h
  let rowsOf : Nat → Except PyErr (DTable Nat (List Rat)) := fun j =>
    match hosts[j]? with
    | some a => (T a).test.mapValues Inst.features
    | none => .error .indexError
  have hgp : guestPart S hosts.length guest R = guestBoostIn (boostOf S guest (hosts.map Q) R) := by
    unfold guestPart guestBoostIn guestIn boostOf
    simp
  have e2 : (hosts.zipIdx.map fun x => hostBoost (hostPart S x.2 (Q x.1)) >>= fun m =>
          lift ((T x.1).test.mapValues Inst.features) >>= fun rows =>
          hostPredict x.1.idx m.1 m.2 rows S.fuel >>= fun r =>
            (pure (Network.Outcome.host r) : Prog Nat α (Network.Outcome (GuestEnd P) Unit)))
      = (boostOf S guest (hosts.map Q) R).base.hosts.zipIdx.map fun x =>
          hostBoost (hostBoostIn (boostOf S guest (hosts.map Q) R) x.2 x.1) >>= fun m =>
          lift (rowsOf x.2) >>= fun rows =>
          hostPredict x.1.idx m.1 m.2 rows S.fuel >>= fun _ => pure (Network.Outcome.host ()) := by
    refine List.ext_getElem (by simp [boostOf]) ?_
    intro i h1 h2
    have hi : i < hosts.length := by simpa using h1
    have e5 : (Q hosts[i]).idx = hosts[i].idx := prepareParty_index (hQ' _ (List.getElem_mem hi))
    have e6 : rowsOf i = (T hosts[i]).test.mapValues Inst.features := by
      simp [rowsOf, List.getElem?_eq_getElem hi]
    simp only [boostOf, List.getElem_map, List.getElem_zipIdx, Nat.zero_add, e5, e6]
    rfl
  refine Eq.mp (congrArg (fun l => Breaks (lock _ _ l)) e2.symm) ?_
  rw [hgp]
  split at h
  · rename_i x hx
    exact breaks_boost (boostOf S guest (hosts.map Q) R) (List.replicate R.dim 0) R.y x hx _
      (fun x m => lift (rowsOf x.2) >>= fun rows =>
          hostPredict x.1.idx m.1 m.2 rows S.fuel >>= fun _ => pure (Network.Outcome.host ()))
  rename_i st hst
  obtain ⟨hm, c1⟩ := leads_boost (idle := Network.Outcome.absent) (boostOf S guest (hosts.map Q) R)
    (List.replicate R.dim 0) R.y st hst
    (fun st => lift (g.test.mapValues Inst.features) >>= fun rows =>
      guestPredict hosts.length S.rate R.dim (List.replicate R.dim 0) st.trees rows S.fuel >>= fun scores =>
      lift (g.test.mapValues Inst.label) >>= fun given =>
      lift (predictRows S.sigmoid S.softmax R.num R.classes S.threshold given scores) >>= fun res =>
      lift (accuracy res) >>= fun a => pure (.guest (⟨st, res, a⟩ : GuestEnd P)))
    (fun x m => lift (rowsOf x.2) >>= fun rows =>
          hostPredict x.1.idx m.1 m.2 rows S.fuel >>= fun _ => pure (Network.Outcome.host ()))
  refine Breaks.of_leads c1 ?_
  refine breaks_lift fun rows hrows => ?_
  refine breaks_lifts ⟨[]⟩ _ _ fun hr => ?_
  let rw' : HostArgs → DTable Nat (List Rat) := fun a => okOr ⟨[]⟩ ((T a).test.mapValues Inst.features)
  have hrowsOf : ∀ (i : Nat) (hi : i < hosts.length), rowsOf i = (T hosts[i]).test.mapValues Inst.features := by
    intro i hi
    simp [rowsOf, List.getElem?_eq_getElem hi]
  have hhr : testRows (hosts.map T) = .ok (hosts.map rw') := testRows_of T rw' hosts fun a ha => by
    obtain ⟨i, hi, rfl⟩ := List.getElem_of_mem ha
    have hx : ((Q hosts[i], i) : Party Nat × Nat) ∈ (boostOf S guest (hosts.map Q) R).base.hosts.zipIdx := by
      refine List.mem_of_getElem? (i := i) ?_
      simp [boostOf, List.getElem?_zipIdx, List.getElem?_eq_getElem hi]
    have := hr _ hx
    simp only [hrowsOf i hi] at this
    exact this
  simp only [hrows, hhr] at h
  have hl : (hosts.map rw').length = (hosts.map Q).length := by simp
  have e3 : ((boostOf S guest (hosts.map Q) R).base.hosts.zipIdx.map fun x =>
        hostPredict x.1.idx (boostOf S guest (hosts.map Q) R).dim (hpart x.2 st.trees) (okOr ⟨[]⟩ (rowsOf x.2)) S.fuel
          >>= fun _ => (pure (Network.Outcome.host ()) : Prog Nat α (Network.Outcome (GuestEnd P) Unit)))
      = ((hosts.map Q).zipIdx.zip (hosts.map rw')).map fun z => hostPredict z.1.1.idx R.dim (hpart z.1.2 st.trees) z.2
          S.fuel >>= fun _ => pure (Network.Outcome.host ()) := by
    refine List.ext_getElem (by simp [boostOf]) ?_
    intro i h1 h2
    have hi : i < hosts.length := by simpa [boostOf] using h1
    simp only [boostOf, List.getElem_map, List.getElem_zipIdx, List.getElem_zip, Nat.zero_add, hrowsOf i hi]
    rfl
  refine Eq.mp (congrArg (fun l => Breaks (lock _ _ l)) e3.symm) ?_
  have e4 : hosts.length = (hosts.map Q).length := by simp
  rw [e4]
  have hm' : MasksOk (hosts.map Q).length st.trees := hm
  have htr : (gpart st).trees = st.trees.map fun P => (P.nodes, P.guestMask) := rfl
  rw [htr]
  split at h
  · rename_i x hx
    exact breaks_predict (hosts.map Q) S.rate R.dim (List.replicate R.dim 0) st.trees rows (hosts.map rw') hl hm'
      S.fuel x hx _ _
  rename_i sc hsc
  refine Breaks.of_leads (leads_predict (hosts.map Q) S.rate R.dim (List.replicate R.dim 0) st.trees rows
    (hosts.map rw') hl hm' S.fuel sc hsc _ _) ?_
  refine breaks_lift fun given hgiven => ?_
  refine breaks_lift fun res hres => ?_
  refine breaks_lift fun a ha => ?_
  exfalso
  simp only [hgiven, hres, ha, pure, Except.pure] at h
  cases h

end Network
end Verif
