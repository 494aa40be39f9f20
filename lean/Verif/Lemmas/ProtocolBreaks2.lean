import Verif.Lemmas.ProtocolBreaks

/-!
# Failing over the network: levels, trees, boosting
-/

set_option autoImplicit false

namespace Verif
namespace Network

open DTree Spec
open Histogram (getAt)
open Binning (Cell SparseVec)

variable {K : Type} [DecidableEq K] {α R X L : Type} {idle : R}

/-- All levels. -/
theorem breaks_levels (S : Setup K α) (p : X → Party K) (xs : List X)
    (hxs : S.hosts = xs.map p) (r dep : Nat) (st : State K)
    (hms : st.masks.length = xs.length) (e : PyErr) (h : levels S r dep st = .error e)
    (kg : GuestState K → Prog K α R) (kh : X → Dict Nat Int → Prog K α R) :
    Breaks (lock idle (guestLevels (guestIn S) r dep ⟨st.grow, st.disp, st.weights⟩ >>= kg)
        ((xs.zip st.masks).map fun z => hostLevels (hostIn S (p z.1)) S.encGh r dep z.2 >>= kh z.1)) := by
  induction r generalizing dep st kg kh with
  | zero => simp [levels] at h
  | succ r ih =>
    have hlen : (guestIn S).conns = (xs.zip st.masks).length := by
      show S.hosts.length = _
      simp [hxs, hms]
    simp only [guestLevels, hostLevels, bind_bind]
    refine Breaks.of_leads (leads_sendAll (xs.zip st.masks) (.nodes (st.grow.queue.map Node.id))
      (st.grow.queue.map Node.id) Msg.asNodes rfl _ (fun z ids => _) _ hlen) ?_
    simp only [levels] at h
    by_cases hq : st.grow.queue.isEmpty = true
    · rw [if_pos hq] at h
      cases h
    rw [if_neg hq] at h
    have hq' : ¬ (st.grow.queue.map Node.id).isEmpty = true := by simpa using hq
    simp only [if_neg hq, if_neg hq', bind_bind]
    split at h
    · rename_i x hx
      exact breaks_level S p xs hxs dep _ st hms x hx _
        (fun x m => hostLevels (hostIn S (p x)) S.encGh r (dep + 1) m >>= kh x)
    · rename_i st1 h1
      obtain ⟨l1, c1⟩ := leads_level (idle := idle) S p xs hxs dep _ st st1 hms (by simpa using hq) h1
        (fun st => guestLevels (guestIn S) r (dep + 1) st >>= kg)
        (fun x m => hostLevels (hostIn S (p x)) S.encGh r (dep + 1) m >>= kh x)
      exact Breaks.of_leads c1 (ih (dep + 1) st1 l1 h kg kh)

omit [DecidableEq K] in
/-- Hosts that convert their thresholds make the composed computation succeed. -/
theorem convertHosts_of (p : X → Party K) (tree : List Node) (v : X × Dict Nat Int → Dict Nat Rat) :
    ∀ (xs : List X) (ms : List (Dict Nat Int)), ms.length = xs.length →
      (∀ z ∈ xs.zip ms, convert (.host (p z.1).idx) (p z.1).splits z.2 tree [] = .ok (v z)) →
      convertHosts tree (xs.map p) ms = .ok ((xs.zip ms).map v) := by
  intro xs
  induction xs with
  | nil => intro ms _ _; rfl
  | cons x xs ih =>
    intro ms hl h
    cases ms with
    | nil => simp at hl
    | cons m ms =>
      have h1 := h (x, m) (by simp)
      have h2 := ih ms (by simpa using hl) (fun z hz => h z (by simp [hz]))
      simp only at h1
      simp only [List.map_cons, convertHosts, h1, h2, bind, Except.bind, pure, Except.pure, List.zip_cons_cons]

/-- The start of a tree is the guest's. -/
theorem guestInit_error {S : Setup K α} {e : PyErr} (h : initState S = .error e) :
    ∃ e', guestInit (guestIn S) = .error e' := by
  cases hg : guestInit (guestIn S) with
  | error e' => exact ⟨e', rfl⟩
  | ok s =>
    exfalso
    simp only [guestInit, bind, Except.bind] at hg
    split at hg
    · cases hg
    rename_i gh hgh
    split at hg
    · cases hg
    rename_i w hw
    split at hg
    · cases hg
    rename_i d hd
    have e1 : gradHessSum S.cfg.rnd S.gh = .ok gh := hgh
    have e2 : nodeWeight S.cfg.rnd S.cfg.regLambda gh.1 gh.2 = .ok w := hw
    have e3 : S.guest.data.mapValues (fun _ => Disp.at 1 0) = .ok d := hd
    simp only [initState, bind, Except.bind, e1, e2, e3, pure, Except.pure] at h
    cases h

theorem guestInit_ok {S : Setup K α} {st0 : State K} (h0 : initState S = .ok st0) :
    guestInit (guestIn S) = .ok ⟨st0.grow, st0.disp, st0.weights⟩ ∧ st0.masks = S.hosts.map fun _ => [] := by
  simp only [initState, bind, Except.bind] at h0
  split at h0
  · cases h0
  rename_i gh hgh
  split at h0
  · cases h0
  rename_i w hw
  split at h0
  · cases h0
  rename_i d hd
  simp only [pure, Except.pure, Except.ok.injEq] at h0
  subst h0
  have e1 : gradHessSum (guestIn S).cfg.rnd (guestIn S).gh = .ok gh := hgh
  have e2 : nodeWeight (guestIn S).cfg.rnd (guestIn S).cfg.regLambda gh.1 gh.2 = .ok w := hw
  have e3 : (guestIn S).party.data.mapValues (fun _ => Disp.at 1 0) = .ok d := hd
  simp only [guestInit, bind, Except.bind, e1, e2, e3]
  exact ⟨rfl, trivial⟩

/-- Training one tree. -/
theorem breaks_fit (S : Setup K α) (p : X → Party K) (xs : List X)
    (hxs : S.hosts = xs.map p) (e : PyErr) (h : fit S = .error e)
    (kg : GuestTree K → Prog K α R) (kh : X → List Node × Dict Nat Rat → Prog K α R) :
    Breaks (lock idle (guestFit (guestIn S) >>= kg)
        (xs.map fun x => hostFit (hostIn S (p x)) >>= kh x)) := by
  have hlen : (guestIn S).conns = xs.length := by
    show S.hosts.length = _
    simp [hxs]
  simp only [guestFit, hostFit, bind_bind, pure_bind']
  refine Breaks.of_leads (leads_sendAll xs (.gradHess (guestIn S).encGh) (guestIn S).encGh Msg.asGradHess rfl _
    (fun x egh => _) _ hlen) ?_
  cases h0 : initState S with
  | error x =>
    obtain ⟨e', he⟩ := guestInit_error h0
    rw [he]
    exact breaks_guest e' _
  | ok st0 =>
    obtain ⟨hinit, hmasks⟩ := guestInit_ok h0
    rw [hinit, lift_ok]
    have hl0 : st0.masks.length = xs.length := by rw [hmasks, hxs]; simp
    have e6 : (xs.map fun x => hostLevels (hostIn S (p x)) (guestIn S).encGh (hostIn S (p x)).maxDepth 0 []
            >>= fun mask => recvAs none Msg.asTree >>= fun tree =>
              lift (convert (.host (hostIn S (p x)).party.idx) (hostIn S (p x)).party.splits mask tree [])
                >>= fun m => kh x (tree, m))
        = (xs.zip st0.masks).map fun z => (hostLevels (hostIn S (p z.1)) S.encGh S.maxDepth 0 z.2 >>= fun mask =>
            recvAs none Msg.asTree >>= fun tree =>
              lift (convert (.host (p z.1).idx) (p z.1).splits mask tree []) >>= fun m => kh z.1 (tree, m) : Prog K α R) := by
      rw [hmasks, hxs, List.map_map, show xs.zip (xs.map ((fun _ => ([] : Dict Nat Int)) ∘ p)) = xs.map fun x => (x, []) by
        have := List.zip_map' (f := id) (g := (fun _ => ([] : Dict Nat Int)) ∘ p) (l := xs)
        simpa using this, List.map_map]
      rfl
    rw [e6]
    simp only [fit, h0, bind, Except.bind] at h
    split at h
    · rename_i x hx
      exact breaks_levels S p xs hxs S.maxDepth 0 st0 hl0 x hx _
        (fun x mask => recvAs none Msg.asTree >>= fun tree =>
              lift (convert (.host (p x).idx) (p x).splits mask tree []) >>= fun m => kh x (tree, m))
    rename_i st h1
    obtain ⟨l1, c1⟩ := leads_levels (idle := idle) S p xs hxs S.maxDepth 0 st0 st hl0 h1
      (fun st => sendAll (.tree st.grow.tree) (List.range (guestIn S).conns) >>= fun _ =>
              lift (convert .guest (guestIn S).party.splits st.grow.mask st.grow.tree []) >>= fun m =>
                kg ⟨st.grow.tree, m, st.weights, st.grow.imps⟩)
      (fun x mask => recvAs none Msg.asTree >>= fun tree =>
              lift (convert (.host (p x).idx) (p x).splits mask tree []) >>= fun m => kh x (tree, m))
    refine Breaks.of_leads c1 ?_
    refine Breaks.of_leads (leads_sendAll (xs.zip st.masks) (.tree st.grow.tree) st.grow.tree Msg.asTree rfl _
      (fun z tree => lift (convert (.host (p z.1).idx) (p z.1).splits z.2 tree []) >>= fun m => kh z.1 (tree, m))
      _ (by rw [hlen]; simp [l1])) ?_
    refine breaks_lift fun gm hgm => ?_
    refine breaks_lifts [] _ (fun (z : X × Dict Nat Int) m => kh z.1 (st.grow.tree, m)) fun hc => ?_
    exfalso
    have hgm' : convert .guest S.guest.splits st.grow.mask st.grow.tree [] = .ok gm := hgm
    have hcs := convertHosts_of p st.grow.tree _ xs st.masks l1 hc
    rw [← hxs] at hcs
    simp only [hgm', hcs, pure, Except.pure] at h
    cases h

theorem evalList_saveMask_of (ms : List (Dict Nat Rat)) (h : ∀ m ∈ ms, ∃ v, saveMask m = .ok v) :
    ∃ ds, evalList saveMask ms = .ok ds := by
  induction ms with
  | nil => exact ⟨[], rfl⟩
  | cons m ms ih =>
    obtain ⟨v, hv⟩ := h m (by simp)
    obtain ⟨ds, hds⟩ := ih fun m hm => h m (by simp [hm])
    exact ⟨v :: ds, by simp only [evalList, hv, hds, bind, Except.bind, pure, Except.pure]⟩

/-- One tree of a round. -/
theorem breaks_tree (B : Boost K α L) (gh : DTable K (List Rat × List Rat)) (i t : Nat)
    (st : BoostState K) (e : PyErr) (h : boostTree B gh i t st = .error e)
    (kg : GuestBoostState K → Prog K α R)
    (kh : Party K × Nat → List NodeParam × Dict Nat Rat → Prog K α R) :
    Breaks (lock idle (guestTree (guestBoostIn B) gh i t (gpart st) >>= kg)
          (B.base.hosts.zipIdx.map fun x => hostFit ((hostBoostIn B x.2 x.1).treeIn i t) >>= fun F =>
            lift (savePart F.1 F.2) >>= kh x)) := by
  simp only [guestTree, bind_bind, pure_bind']
  refine breaks_lift fun g hg => ?_
  refine breaks_lift fun c hc => ?_
  have hc' : B.enc i t g = .ok c := hc
  simp only [boostTree, bind, Except.bind, hg, hc'] at h
  rw [← guestIn_treeSetup]
  split at h
  · rename_i x hx
    exact breaks_fit (treeSetup B i t g c)
      (fun x : Party K × Nat => { x.1 with valid := B.valid i t (some x.2) }) B.base.hosts.zipIdx
      (hosts_treeSetup B i t g c) x hx _ (fun x F => lift (savePart F.1 F.2) >>= kh x)
  rename_i F hF
  obtain ⟨l1, c1⟩ := leads_fit (idle := idle) (treeSetup B i t g c)
    (fun x : Party K × Nat => { x.1 with valid := B.valid i t (some x.2) }) B.base.hosts.zipIdx
    (hosts_treeSetup B i t g c) F hF
    (fun F => lift (savePart F.tree F.mask) >>= fun P =>
      lift (updateF (guestBoostIn B).rate t (gpart st).scores F.weights) >>= fun sc =>
      kg { gpart st with scores := sc, trees := (gpart st).trees ++ [P],
                         imps := addImportances (gpart st).imps F.imps })
    (fun x F => lift (savePart F.1 F.2) >>= kh x)
  refine Breaks.of_leads c1 ?_
  refine breaks_lift fun P hP => ?_
  refine breaks_lift fun sc hsc => ?_
  refine breaks_lifts ([], []) (fun z : (Party K × Nat) × Dict Nat Rat => savePart F.tree z.2)
    (fun z => kh z.1) fun hs => ?_
  exfalso
  have hsc' : updateF B.rate t st.scores F.weights = .ok sc := hsc
  simp only [savePart, bind, Except.bind] at hP
  split at hP
  · cases hP
  rename_i nodes hnodes
  split at hP
  · cases hP
  rename_i gm hgm
  obtain ⟨ds, hds⟩ := evalList_saveMask_of F.hostMasks (by
    intro m hm
    have : m ∈ (B.base.hosts.zipIdx.zip F.hostMasks).map Prod.snd := by rwa [List.map_snd_zip (by omega)]
    obtain ⟨z, hz, rfl⟩ := List.mem_map.mp this
    have h1 := hs z hz
    simp only [savePart, bind, Except.bind, hnodes] at h1
    split at h1
    · cases h1
    · exact ⟨_, by assumption⟩)
  simp only [save, bind, Except.bind, hnodes, hgm, hds, pure, Except.pure, hsc'] at h
  cases h

/-- The trees of a round. -/
theorem breaks_trees (B : Boost K α L) (gh : DTable K (List Rat × List Rat)) (i r t : Nat)
    (st : BoostState K) (e : PyErr) (h : boostTrees B gh i r t st = .error e)
    (kg : GuestBoostState K → Prog K α R)
    (kh : Party K × Nat → List (List NodeParam × Dict Nat Rat) → Prog K α R) :
    Breaks (lock idle (guestTrees (guestBoostIn B) gh i r t (gpart st) >>= kg)
          (B.base.hosts.zipIdx.map fun x => hostTrees (hostBoostIn B x.2 x.1) i r t (hpart x.2 st.trees)
            >>= kh x)) := by
  induction r generalizing t st with
  | zero => simp [boostTrees] at h
  | succ r ih =>
    simp only [boostTrees, bind, Except.bind] at h
    simp only [guestTrees, hostTrees, bind_bind]
    split at h
    · rename_i x hx
      exact breaks_tree B gh i t st x hx _
        (fun x P => hostTrees (hostBoostIn B x.2 x.1) i r (t + 1) (hpart x.2 st.trees ++ [P]) >>= kh x)
    rename_i st1 h1
    obtain ⟨P, e1, e2, c1⟩ := leads_tree (idle := idle) B gh i t st st1 h1
      (fun s => guestTrees (guestBoostIn B) gh i r (t + 1) s >>= kg)
      (fun x P => hostTrees (hostBoostIn B x.2 x.1) i r (t + 1) (hpart x.2 st.trees ++ [P]) >>= kh x)
    refine Breaks.of_leads c1 ?_
    have e3 : ∀ j, hpart j st1.trees = hpart j st.trees ++ [hostTree j P] := by
      intro j
      simp [hpart, e1]
    have := ih (t + 1) st1 h
    simp only [e3] at this
    exact this

/-- A round up to the loss. -/
theorem breaks_round (B : Boost K α L) (y : DTable K L) (i : Nat)
    (st : BoostState K) (e : PyErr) (h : boostRound B y i st = .error e)
    (hm : MasksOk B.base.hosts.length st.trees) (kg : GuestBoostState K → Prog K α R)
    (kh : Party K × Nat → List (List NodeParam × Dict Nat Rat) → Prog K α R) :
    Breaks (lock idle (guestRound (guestBoostIn B) y i (gpart st) >>= kg)
          (B.base.hosts.zipIdx.map fun x => hostTrees (hostBoostIn B x.2 x.1) i B.dim 0 (hpart x.2 st.trees)
            >>= kh x)) := by
  simp only [guestRound, bind_bind, pure_bind']
  refine breaks_lift fun gh hgh => ?_
  have hgh' : y.joinM st.scores B.gradHess = .ok gh := hgh
  simp only [boostRound, bind, Except.bind, hgh'] at h
  split at h
  · rename_i x hx
    exact breaks_trees B gh i B.dim 0 st x hx _ kh
  rename_i st1 h1
  obtain ⟨m1, c1⟩ := leads_trees (idle := idle) B gh i B.dim 0 st st1 h1 hm
    (fun s => lift (B.loss y s.scores) >>= fun l => kg { s with losses := s.losses ++ [l] }) kh
  refine Breaks.of_leads c1 ?_
  refine breaks_lift fun l hl => ?_
  exfalso
  have hl' : B.loss y st1.scores = .ok l := hl
  simp only [hl', pure, Except.pure] at h
  cases h

/-- The rounds. -/
theorem breaks_loop (B : Boost K α L) (y : DTable K L) (r i : Nat)
    (st : BoostState K) (e : PyErr) (h : boostLoop B y r i st = .error e)
    (hm : MasksOk B.base.hosts.length st.trees) (kg : GuestBoostState K → Prog K α R)
    (kh : Party K × Nat → List (List NodeParam × Dict Nat Rat) → Prog K α R) :
    Breaks (lock idle (guestLoop (guestBoostIn B) y r i (gpart st) >>= kg)
          (B.base.hosts.zipIdx.map fun x => hostLoop (hostBoostIn B x.2 x.1) B.dim r i (hpart x.2 st.trees)
            >>= kh x)) := by
  induction r generalizing i st with
  | zero => simp [boostLoop] at h
  | succ r ih =>
    have hlen : B.base.hosts.length = B.base.hosts.zipIdx.length := by simp
    have e1 : (guestBoostIn B).early = B.early := rfl
    have e2 : ∀ x : Party K × Nat, (hostBoostIn B x.2 x.1).early = B.early := fun _ => rfl
    simp only [guestLoop, hostLoop, bind_bind, e1, e2]
    simp only [boostLoop, bind, Except.bind] at h
    by_cases he : B.early = true
    · simp only [he, if_true, bind_bind]
      split at h
      · rename_i x hx
        exact breaks_round B y i st x hx hm _ (fun x trees => recvAs none Msg.asStop >>= fun s =>
          (if s then pure trees else hostLoop (hostBoostIn B x.2 x.1) B.dim r (i + 1) trees) >>= kh x)
      rename_i st1 h1
      obtain ⟨m1, n1, c1⟩ := leads_round (idle := idle) B y i st st1 h1 hm
        (fun s => sendAll (.stop (guestConverge B.tol s).1) (List.range B.base.hosts.length) >>= fun _ =>
          (if (guestConverge B.tol s).1 then pure (guestConverge B.tol s).2
            else guestLoop (guestBoostIn B) y r (i + 1) (guestConverge B.tol s).2) >>= kg)
        (fun x trees => recvAs none Msg.asStop >>= fun s =>
          (if s then pure trees else hostLoop (hostBoostIn B x.2 x.1) B.dim r (i + 1) trees) >>= kh x)
      refine Breaks.of_leads c1 ?_
      have hstop : (stopTest B st1).1 = (guestConverge B.tol (gpart st1)).1 ∧
          gpart (stopTest B st1).2 = (guestConverge B.tol (gpart st1)).2 ∧
          (stopTest B st1).2.trees = st1.trees := by
        obtain ⟨l, hl⟩ : ∃ l, st1.losses.getLast? = some l := by
          cases hx : st1.losses.getLast? with
          | none => exact absurd (List.getLast?_eq_none_iff.mp hx) n1
          | some l => exact ⟨l, rfl⟩
        have hl' : (gpart st1).losses.getLast? = some l := hl
        simp only [stopTest, he, if_true, hl, guestConverge, hl']
        refine ⟨?_, ?_, ?_⟩ <;> first | rfl | trivial
      obtain ⟨s1, s2, s3⟩ := hstop
      have c2 := leads_sendAll (idle := idle) B.base.hosts.zipIdx (.stop (guestConverge B.tol (gpart st1)).1)
        (guestConverge B.tol (gpart st1)).1 Msg.asStop rfl
        ((if (guestConverge B.tol (gpart st1)).1 then (pure (guestConverge B.tol (gpart st1)).2 : Prog K α _)
            else guestLoop (guestBoostIn B) y r (i + 1) (guestConverge B.tol (gpart st1)).2) >>= kg)
        (fun x s => (if s then (pure (hpart x.2 st1.trees) : Prog K α _)
            else hostLoop (hostBoostIn B x.2 x.1) B.dim r (i + 1) (hpart x.2 st1.trees)) >>= kh x) _ hlen
      refine Breaks.of_leads c2 ?_
      by_cases hs : (stopTest B st1).1 = true
      · rw [if_pos hs] at h
        cases h
      · rw [if_neg hs] at h
        have c3 := ih (i + 1) _ h (by rw [s3]; exact m1)
        rw [s1] at hs
        rw [s2, s3] at c3
        simp only [hs]
        exact c3
    · simp only [if_neg he]
      split at h
      · rename_i x hx
        exact breaks_round B y i st x hx hm _
          (fun x trees => hostLoop (hostBoostIn B x.2 x.1) B.dim r (i + 1) trees >>= kh x)
      rename_i st1 h1
      obtain ⟨m1, n1, c1⟩ := leads_round (idle := idle) B y i st st1 h1 hm
        (fun s => guestLoop (guestBoostIn B) y r (i + 1) s >>= kg)
        (fun x trees => hostLoop (hostBoostIn B x.2 x.1) B.dim r (i + 1) trees >>= kh x)
      refine Breaks.of_leads c1 ?_
      have e1 : stopTest B st1 = (false, st1) := by simp [stopTest, he]
      rw [e1] at h
      simp only [Bool.false_eq_true, if_false] at h
      exact ih (i + 1) _ h m1

/-- Boosting. -/
theorem breaks_boost (B : Boost K α L) (init : List Rat) (y : DTable K L)
    (e : PyErr) (h : boost B init y = .error e) (kg : GuestBoostState K → Prog K α R)
    (kh : Party K × Nat → Nat × List (List NodeParam × Dict Nat Rat) → Prog K α R) :
    Breaks (lock idle (guestBoost (guestBoostIn B) init y >>= kg)
          (B.base.hosts.zipIdx.map fun x => hostBoost (hostBoostIn B x.2 x.1) >>= kh x)) := by
  have hlen : B.base.hosts.length = B.base.hosts.zipIdx.length := by simp
  simp only [guestBoost, hostBoost, bind_bind, pure_bind']
  refine breaks_lift fun sc hsc => ?_
  simp only [boost, bind, Except.bind, hsc] at h
  refine Breaks.of_leads (leads_sendAll B.base.hosts.zipIdx (.treeDim B.dim) B.dim Msg.asTreeDim rfl _
    (fun x dim => hostLoop (hostBoostIn B x.2 x.1) dim B.rounds 0 [] >>= fun trees => kh x (dim, trees)) _ hlen) ?_
  exact breaks_loop B y B.rounds 0 _ e h (fun P hP => by simp at hP) kg (fun x trees => kh x (B.dim, trees))

end Network
end Verif
