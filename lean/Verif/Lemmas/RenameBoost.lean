import Verif.Lemmas.Rename
import Verif.Model.Boost

/-! # Names of samples and hosts do not matter: boosting and prediction -/

set_option autoImplicit false

namespace Verif
namespace DTree

open Spec
open Histogram (getAt updAt)
open Binning (SparseVec)

variable {K K' : Type} [DecidableEq K] [DecidableEq K'] {α L : Type} {σ : Nat → Nat} {κ : K → K'}

/-! ### Saving -/

omit [DecidableEq K] [DecidableEq K'] in
theorem save_ren (F : Fitted K) : save (renFitted σ κ F) = (save F).map (renSaved σ) := by
  have h1 : ∀ n : Node, saveNode (renNode σ n) =
      (saveNode n).map fun p => { p with site := renSite σ p.site } := by
    intro n
    unfold saveNode
    have e1 : (renNode σ n).id = n.id := rfl
    have e2 : (renNode σ n).fid = n.fid := rfl
    have e3 : (renNode σ n).left = n.left := rfl
    have e4 : (renNode σ n).right = n.right := rfl
    rw [e1, e2, e3, e4]
    simp only [bind, Except.bind]
    cases int32 n.id with
    | error e => rfl
    | ok a =>
      simp only
      cases int32 (n.fid.getD 0) with
      | error e => rfl
      | ok b =>
        simp only
        cases int32 (childId n.left) with
        | error e => rfl
        | ok c =>
          simp only
          cases int32 (childId n.right) with
          | error e => rfl
          | ok d => rfl
  have h2 : ∀ l : List Node, evalList saveNode (l.map (renNode σ)) =
      (evalList saveNode l).map (List.map fun p => { p with site := renSite σ p.site }) := by
    intro l
    induction l with
    | nil => rfl
    | cons n l ih =>
      simp only [List.map_cons, evalList]
      rw [h1, ih]
      cases saveNode n with
      | error e => rfl
      | ok a =>
        cases evalList saveNode l with
        | error e => rfl
        | ok as => rfl
  unfold save
  refine bind_ren (h2 F.tree) fun nodes => ?_
  show (saveMask F.guestMask >>= _) = _
  cases saveMask F.guestMask with
  | error e => rfl
  | ok g =>
    show (evalList saveMask F.hostMasks >>= _) = _
    simp only [bind, Except.bind]
    cases evalList saveMask F.hostMasks with
    | error e => rfl
    | ok hs => rfl

omit [DecidableEq K] [DecidableEq K'] in
theorem load_ren (P : Saved) : (load (renSaved σ P) : Fitted K') = renFitted σ κ (load P) := by
  simp [load, renSaved, renFitted, renNode, loadNode, renImps, List.map_map, Function.comp_def]

/-! ### Training -/

theorem addImportances_ren (hσ : Function.Injective σ) : ∀ (new imps : Dict (Site × Option Int) Rat),
    addImportances (renImps σ imps) (renImps σ new) = renImps σ (addImportances imps new)
  | [], _ => rfl
  | (f, v) :: rest, imps => by
    have hget : Dict.get? (renImps σ imps) (renSite σ f.1, f.2) = imps.get? f := by
      have := Dict.get?_ren (renKey_inj hσ) (id : Rat → Rat) imps f
      simpa [renImps] using this
    have hset : ∀ v, Dict.set (renImps σ imps) (renSite σ f.1, f.2) v = renImps σ (imps.set f v) :=
      fun v => Dict.set_ren (renKey_inj hσ) (id : Rat → Rat) imps f v
    show addImportances (Dict.set (renImps σ imps) (renSite σ f.1, f.2) _) (renImps σ rest) = _
    rw [hset, addImportances_ren hσ rest, hget]
    rfl

theorem updateF_ren (hκ : Function.Injective κ) (rate : Rate) (t : Nat) (scores : DTable K (List Rat))
    (new : Option (DTable K Rat)) :
    updateF rate t (renTable κ id scores) (new.map (renTable κ id)) =
      (updateF rate t scores new).map (renTable κ id) := by
  cases new with
  | none => rfl
  | some w =>
    refine DTable.joinM_ren hκ (f := accumulateF rate t) (fun f x => ?_) scores w
    show accumulateF rate t f x = _
    cases accumulateF rate t f x <;> rfl

omit [DecidableEq K] [DecidableEq K'] in
theorem treeSetup_ren {B : Boost K α L} {B' : Boost K' α L} (h : Renamed σ κ B B') (i t : Nat)
    (gh : DTable K (Rat × Rat)) (egh : DTable K (α × α)) :
    treeSetup B' i t (renTable κ id gh) (renTable κ id egh) = renSetup σ κ (treeSetup B i t gh egh) := by
  unfold treeSetup
  rw [h.base, h.valid, h.cipher]
  simp only [renSetup, renParty, Setup.mk.injEq, true_and, and_true, id]
  refine List.ext_getElem? fun j => ?_
  simp only [List.getElem?_mapIdx, List.getElem?_map, Option.map_map]
  cases B.base.hosts[j]? <;> rfl

theorem boostTree_ren (hσ : Function.Injective σ) (hκ : Function.Injective κ) {B : Boost K α L}
    {B' : Boost K' α L} (h : Renamed σ κ B B') (gh : DTable K (List Rat × List Rat)) (i t : Nat)
    (st : BoostState K) : boostTree B' (renTable κ id gh) i t (renResult σ κ st) =
      (boostTree B gh i t st).map (renResult σ κ) := by
  unfold boostTree
  refine bind_ren (r := renTable κ id) ?_ fun g => ?_
  · refine DTable.mapValuesM_ren hκ (f := component t) (fun v => ?_) gh
    show component t v = _
    cases component t v <;> rfl
  refine bind_ren (r := renTable κ id) (h.enc i t g) fun e => ?_
  refine bind_ren (r := renFitted σ κ) ?_ fun F => ?_
  · rw [treeSetup_ren h, fit_ren hσ hκ]
  refine bind_ren (save_ren F) fun P => ?_
  refine bind_ren (r := renTable κ id) ?_ fun scores => ?_
  · rw [h.rate]; exact updateF_ren hκ B.rate t st.scores F.weights
  show Except.ok _ = Except.ok _
  simp only [renResult, List.map_append, List.map_cons, List.map_nil]
  rw [show (renFitted σ κ F).imps = renImps σ F.imps from rfl, addImportances_ren hσ]

theorem boostTrees_ren (hσ : Function.Injective σ) (hκ : Function.Injective κ) {B : Boost K α L}
    {B' : Boost K' α L} (h : Renamed σ κ B B') (gh : DTable K (List Rat × List Rat)) (i : Nat) :
    ∀ (r t : Nat) (st : BoostState K), boostTrees B' (renTable κ id gh) i r t (renResult σ κ st) =
      (boostTrees B gh i r t st).map (renResult σ κ)
  | 0, _, _ => rfl
  | r + 1, t, st =>
    bind_ren (boostTree_ren hσ hκ h gh i t st) fun st1 => boostTrees_ren hσ hκ h gh i r (t + 1) st1

theorem boostRound_ren (hσ : Function.Injective σ) (hκ : Function.Injective κ) {B : Boost K α L}
    {B' : Boost K' α L} (h : Renamed σ κ B B') (y : DTable K L) (i : Nat) (st : BoostState K) :
    boostRound B' (renTable κ id y) i (renResult σ κ st) =
      (boostRound B y i st).map (renResult σ κ) := by
  unfold boostRound
  refine bind_ren (r := renTable κ id) ?_ fun gh => ?_
  · rw [h.gradHess]
    refine DTable.joinM_ren hκ (f := B.gradHess) (fun l f => ?_) y st.scores
    show B.gradHess l f = _
    cases B.gradHess l f <;> rfl
  refine bind_ren (r := renResult σ κ) ?_ fun st1 => ?_
  · rw [h.dim]; exact boostTrees_ren hσ hκ h gh i B.dim 0 st
  refine bind_ren (r := id) ?_ fun l => ?_
  · refine (h.loss y st1.scores).trans ?_
    cases B.loss y st1.scores <;> rfl
  rfl

omit [DecidableEq K] [DecidableEq K'] in
theorem stopTest_ren {B : Boost K α L} {B' : Boost K' α L} (h : Renamed σ κ B B') (st : BoostState K) :
    stopTest B' (renResult σ κ st) = ((stopTest B st).1, renResult σ κ (stopTest B st).2) := by
  unfold stopTest
  rw [h.early, h.tol]
  have e : (renResult σ κ st).losses = st.losses := rfl
  rw [e]
  split
  · cases st.losses.getLast? <;> rfl
  · rfl

theorem boostLoop_ren (hσ : Function.Injective σ) (hκ : Function.Injective κ) {B : Boost K α L}
    {B' : Boost K' α L} (h : Renamed σ κ B B') (y : DTable K L) :
    ∀ (r i : Nat) (st : BoostState K), boostLoop B' (renTable κ id y) r i (renResult σ κ st) =
      (boostLoop B y r i st).map (renResult σ κ)
  | 0, _, _ => rfl
  | r + 1, i, st => by
    refine bind_ren (boostRound_ren hσ hκ h y i st) fun st1 => ?_
    simp only [stopTest_ren h]
    split
    · rfl
    · exact boostLoop_ren hσ hκ h y r (i + 1) _

theorem boost_ren (hσ : Function.Injective σ) (hκ : Function.Injective κ) {B : Boost K α L}
    {B' : Boost K' α L} (h : Renamed σ κ B B') (init : List Rat) (y : DTable K L) :
    boost B' init (renTable κ id y) = (boost B init y).map (renResult σ κ) := by
  unfold boost
  refine bind_ren (r := renTable κ id) ?_ fun scores => ?_
  · exact DTable.mapValues_ren hκ (fv := id) (fw := id) (f := fun _ => init) (fun _ => rfl) y
  rw [h.rounds]
  exact boostLoop_ren hσ hκ h y B.rounds 0 ⟨scores, [], [], [], none, []⟩

/-! ### Prediction -/

/-- A host at prediction time under the new names. -/
def renPredHost (σ : Nat → Nat) (κ : K → K') (H : PredHost K) : PredHost K' :=
  ⟨σ H.idx, H.mask, renTable κ id H.rows⟩

theorem walkGuest_ren (tree : List Node) (mask : Dict Nat Rat) (row : SparseVec Rat) :
    ∀ (fuel nid : Nat), walkGuest (tree.map (renNode σ)) mask row fuel nid =
      walkGuest tree mask row fuel nid
  | 0, _ => rfl
  | fuel + 1, nid => by
    simp only [walkGuest, List.getElem?_map]
    cases tree[nid]? with
    | none => rfl
    | some n =>
      simp only [Option.map_some]
      have e1 : ((renNode σ n).site ≠ .guest) = (n.site ≠ .guest) := by
        cases hn : n.site <;> simp [renNode, hn, renSite]
      have e2 : (renNode σ n).isLeaf = n.isLeaf := rfl
      have e3 : (renNode σ n).fid = n.fid := rfl
      have e4 : kids (renNode σ n) = kids n := rfl
      have e5 : (renNode σ n).weight = n.weight := rfl
      simp only [e1, e2, e3, e4, e5, walkGuest_ren tree mask row fuel]

theorem walkHost_ren (hσ : Function.Injective σ) (tree : List Node) (mask : Dict Nat Rat) (site : Site)
    (row : SparseVec Rat) : ∀ (fuel nid : Nat),
    walkHost (tree.map (renNode σ)) mask (renSite σ site) row fuel nid =
      walkHost tree mask site row fuel nid
  | 0, _ => rfl
  | fuel + 1, nid => by
    simp only [walkHost, List.getElem?_map]
    cases tree[nid]? with
    | none => rfl
    | some n =>
      simp only [Option.map_some]
      have e1 : ((renNode σ n).site ≠ renSite σ site) = (n.site ≠ site) := by
        show (renSite σ n.site ≠ renSite σ site) = _
        rw [(renSite_inj hσ).ne_iff]
      have e3 : (renNode σ n).fid = n.fid := rfl
      have e4 : kids (renNode σ n) = kids n := rfl
      simp only [e1, e3, e4, walkHost_ren hσ tree mask site row fuel]

theorem traverseGuest_ren (tree : List Node) (mask : Dict Nat Rat) (fuel : Nat) (s : PState)
    (row : SparseVec Rat) : traverseGuest (tree.map (renNode σ)) mask fuel s row =
      traverseGuest tree mask fuel s row := by
  cases s with
  | node nid tag => exact walkGuest_ren tree mask row fuel nid
  | weight w => rfl

theorem traverseHost_ren (hσ : Function.Injective σ) (tree : List Node) (mask : Dict Nat Rat)
    (site : Site) (fuel : Nat) (s : PState) (row : SparseVec Rat) :
    traverseHost (tree.map (renNode σ)) mask (renSite σ site) fuel s row =
      traverseHost tree mask site fuel s row := by
  cases s with
  | weight w => rfl
  | node nid tag =>
    simp only [traverseHost, List.getElem?_map]
    cases tree[nid]? with
    | none => rfl
    | some n =>
      simp only [Option.map_some]
      have e1 : ((renNode σ n).site ≠ renSite σ site) = (n.site ≠ site) := by
        show (renSite σ n.site ≠ renSite σ site) = _
        rw [(renSite_inj hσ).ne_iff]
      simp only [e1, walkHost_ren hσ]

theorem except_map_id {ε A : Type} (x : Except ε A) : x = x.map id := by cases x <;> rfl

theorem hostWalks_ren (hσ : Function.Injective σ) (hκ : Function.Injective κ) (tree : List Node)
    (fuel : Nat) (todo : DTable K PState) : ∀ Hs : List (PredHost K),
    hostWalks (tree.map (renNode σ)) fuel (renTable κ id todo) (Hs.map (renPredHost σ κ)) =
      (hostWalks tree fuel todo Hs).map (List.map (renTable κ id))
  | [] => rfl
  | H :: Hs => by
    simp only [List.map_cons, hostWalks]
    refine bind_ren (r := renTable κ id) ?_ fun t => ?_
    · refine DTable.joinM_ren hκ (f := traverseHost tree H.mask (.host H.idx) fuel) (fun s row => ?_)
        todo H.rows
      rw [← except_map_id]
      exact traverseHost_ren hσ tree H.mask (.host H.idx) fuel s row
    refine bind_ren (hostWalks_ren hσ hκ tree fuel todo Hs) fun ts => ?_
    rfl

theorem mergeWalks_ren (hκ : Function.Injective κ) : ∀ (ts : List (DTable K PState))
    (todo : DTable K PState), mergeWalks (renTable κ id todo) (ts.map (renTable κ id)) =
      (mergeWalks todo ts).map (renTable κ id)
  | [], _ => rfl
  | t :: ts, todo => by
    simp only [List.map_cons, mergeWalks]
    refine bind_ren (r := renTable κ id) ?_ fun t1 => ?_
    · exact DTable.join_ren hκ (fx := id) (f := keepMoved) (fun _ _ => rfl) todo t
    exact mergeWalks_ren hκ ts t1

theorem addWeights_ren (hκ : Function.Injective κ) (result : Option (DTable K Rat)) (w : DTable K Rat) :
    addWeights (result.map (renTable κ id)) (renTable κ id w) =
      (addWeights result w).map (renTable κ id) := by
  cases result with
  | none => rfl
  | some r => exact DTable.union_ren hκ id r w

theorem predictLoop_ren (hσ : Function.Injective σ) (hκ : Function.Injective κ) (tree : List Node)
    (mask : Dict Nat Rat) (rows : DTable K (SparseVec Rat)) (hosts : List (PredHost K)) (fuel : Nat) :
    ∀ (r : Nat) (todo : DTable K PState) (result : Option (DTable K Rat)),
    predictLoop (tree.map (renNode σ)) mask (renTable κ id rows) (hosts.map (renPredHost σ κ)) fuel r
      (renTable κ id todo) (result.map (renTable κ id)) =
      (predictLoop tree mask rows hosts fuel r todo result).map (renTable κ id)
  | 0, _, _ => rfl
  | r + 1, todo, result => by
    simp only [predictLoop]
    refine bind_ren (r := renTable κ id) ?_ fun moved => ?_
    · refine DTable.joinM_ren hκ (f := traverseGuest tree mask fuel) (fun s row => ?_) todo rows
      rw [← except_map_id]
      exact traverseGuest_ren tree mask fuel s row
    refine bind_ren (r := renTable κ id) ?_ fun leaf => ?_
    · exact DTable.filter_ren hκ (fv := id) (p := PState.isWeight) (p' := PState.isWeight)
        (fun _ => rfl) moved
    refine bind_ren (r := renTable κ id) ?_ fun leafW => ?_
    · exact DTable.mapValues_ren hκ (fv := id) (fw := id) (f := PState.getWeight) (fun _ => rfl) leaf
    refine bind_ren (addWeights_ren hκ result leafW) fun result1 => ?_
    refine bind_ren (r := renTable κ id) (DTable.subtractByKey_ren hκ _ _ _ _) fun todo1 => ?_
    have e : (renTable κ id todo1).count = todo1.count := by
      simp [DTable.count, renTable]
    rw [e]
    split
    · rfl
    · refine bind_ren (hostWalks_ren hσ hκ tree fuel todo1 hosts) fun answers => ?_
      refine bind_ren (mergeWalks_ren hκ answers todo1) fun todo2 => ?_
      exact predictLoop_ren hσ hκ tree mask rows hosts fuel r todo2 (some result1)

theorem predictTree_ren (hσ : Function.Injective σ) (hκ : Function.Injective κ) (tree : List Node)
    (mask : Dict Nat Rat) (rows : DTable K (SparseVec Rat)) (hosts : List (PredHost K)) (fuel : Nat) :
    predictTree (tree.map (renNode σ)) mask (renTable κ id rows) (hosts.map (renPredHost σ κ)) fuel =
      (predictTree tree mask rows hosts fuel).map (renTable κ id) := by
  unfold predictTree
  refine bind_ren (r := renTable κ id) ?_ fun todo => ?_
  · exact DTable.mapValues_ren hκ (fv := id) (fw := id) (f := fun _ => PState.node 0 1) (fun _ => rfl) rows
  exact predictLoop_ren hσ hκ tree mask rows hosts fuel fuel todo none

omit [DecidableEq K] [DecidableEq K'] in
theorem predHosts_ren : ∀ (Hs : List (Party K)) (ms : List (Dict Nat Rat))
    (ts : List (DTable K (SparseVec Rat))),
    predHosts (Hs.map (renParty σ κ)) ms (ts.map (renTable κ id)) =
      (predHosts Hs ms ts).map (renPredHost σ κ)
  | [], _, _ => by simp [predHosts]
  | _ :: _, [], _ => by simp [predHosts]
  | _ :: _, _ :: _, [] => by simp [predHosts]
  | H :: Hs, m :: ms, t :: ts => by
    simp only [List.map_cons, predHosts]
    rw [predHosts_ren Hs ms ts]
    rfl

theorem alignRows_ren (hκ : Function.Injective κ) (rows : DTable K (List Rat)) :
    alignRows (renTable κ id rows) = (alignRows rows).map (renTable κ id) := by
  unfold alignRows
  have e : (renTable κ id rows).data.isEmpty = rows.data.isEmpty := by simp [renTable]
  rw [e]
  split
  · rfl
  · exact DTable.mapValues_ren hκ (fv := id) (fw := id) (f := Binning.dataFormatTransform)
      (fun _ => rfl) rows

theorem alignAll_ren (hκ : Function.Injective κ) : ∀ ts : List (DTable K (List Rat)),
    alignAll (ts.map (renTable κ id)) = (alignAll ts).map (List.map (renTable κ id))
  | [] => rfl
  | t :: ts => by
    simp only [List.map_cons, alignAll]
    refine bind_ren (alignRows_ren hκ t) fun a => ?_
    exact bind_ren (alignAll_ren hκ ts) fun rest => rfl

theorem predictAdd_ren (hσ : Function.Injective σ) (hκ : Function.Injective κ) (hosts : List (Party K))
    (rate : Rate) (t : Nat) (rows : DTable K (SparseVec Rat)) (hostRows : List (DTable K (SparseVec Rat)))
    (fuel : Nat) (P : Saved) (scores : DTable K (List Rat)) :
    predictAdd (hosts.map (renParty σ κ)) rate t (renTable κ id rows) (hostRows.map (renTable κ id)) fuel
      (renSaved σ P) (renTable κ id scores) =
      (predictAdd hosts rate t rows hostRows fuel P scores).map (renTable κ id) := by
  unfold predictAdd
  simp only [load_ren (κ := κ) P]
  refine bind_ren (r := renTable κ id) ?_ fun w => ?_
  · have := predictTree_ren hσ hκ (load (K := K) P).tree (load (K := K) P).guestMask rows
      (predHosts hosts (load (K := K) P).hostMasks hostRows) fuel
    rw [← predHosts_ren] at this
    exact this
  exact updateF_ren hκ rate t scores (some w)

theorem predictRound_ren (hσ : Function.Injective σ) (hκ : Function.Injective κ) (hosts : List (Party K))
    (rate : Rate) (dim : Nat) (trees : List Saved) (rows : DTable K (SparseVec Rat))
    (hostRows : List (DTable K (SparseVec Rat))) (fuel i : Nat) :
    ∀ (r t : Nat) (scores : DTable K (List Rat)),
    predictRound (hosts.map (renParty σ κ)) rate dim (trees.map (renSaved σ)) (renTable κ id rows)
      (hostRows.map (renTable κ id)) fuel i r t (renTable κ id scores) =
      (predictRound hosts rate dim trees rows hostRows fuel i r t scores).map (renTable κ id)
  | 0, _, _ => rfl
  | r + 1, t, scores => by
    simp only [predictRound]
    refine bind_ren (getAt_map (renSaved σ) trees _) fun P => ?_
    refine bind_ren (predictAdd_ren hσ hκ hosts rate t rows hostRows fuel P scores) fun s => ?_
    exact predictRound_ren hσ hκ hosts rate dim trees rows hostRows fuel i r (t + 1) s

theorem predictRounds_ren (hσ : Function.Injective σ) (hκ : Function.Injective κ)
    (hosts : List (Party K)) (rate : Rate) (dim : Nat) (trees : List Saved)
    (rows : DTable K (SparseVec Rat)) (hostRows : List (DTable K (SparseVec Rat))) (fuel : Nat) :
    ∀ (r i : Nat) (scores : DTable K (List Rat)),
    predictRounds (hosts.map (renParty σ κ)) rate dim (trees.map (renSaved σ)) (renTable κ id rows)
      (hostRows.map (renTable κ id)) fuel r i (renTable κ id scores) =
      (predictRounds hosts rate dim trees rows hostRows fuel r i scores).map (renTable κ id)
  | 0, _, _ => rfl
  | r + 1, i, scores => by
    simp only [predictRounds]
    refine bind_ren (predictRound_ren hσ hκ hosts rate dim trees rows hostRows fuel i dim 0 scores)
      fun s => ?_
    exact predictRounds_ren hσ hκ hosts rate dim trees rows hostRows fuel r (i + 1) s

theorem predictScores_ren (hσ : Function.Injective σ) (hκ : Function.Injective κ)
    (hosts : List (Party K)) (rate : Rate) (dim : Nat) (init : List Rat) (trees : List Saved)
    (guest : DTable K (List Rat)) (tables : List (DTable K (List Rat))) (fuel : Nat) :
    predictScores (hosts.map (renParty σ κ)) rate dim init (trees.map (renSaved σ))
      (renTable κ id guest) (tables.map (renTable κ id)) fuel =
      (predictScores hosts rate dim init trees guest tables fuel).map (renTable κ id) := by
  unfold predictScores
  refine bind_ren (alignRows_ren hκ guest) fun g => ?_
  refine bind_ren (alignAll_ren hκ tables) fun hs => ?_
  refine bind_ren (r := renTable κ id) ?_ fun scores => ?_
  · exact DTable.mapValues_ren hκ (fv := id) (fw := id) (f := fun _ => init) (fun _ => rfl) g
  split
  · rfl
  · rw [List.length_map]
    exact predictRounds_ren hσ hκ hosts rate dim trees g hs fuel _ 0 scores

end DTree
end Verif
