import Verif.Lemmas.ProtocolFit
import Verif.Spec.C31
import Verif.Lemmas.Save

/-!
# Boosting and prediction over the network
-/

set_option autoImplicit false

namespace Verif
namespace Network

open DTree Spec
open Histogram (getAt)
open Binning (Cell SparseVec)

variable {K : Type} [DecidableEq K] {α R X L : Type}

theorem zip_zipIdx {β γ δ : Type} (d : γ) (f : (β × Nat) × γ → δ) :
    ∀ (l : List β) (ms : List γ), ms.length = l.length →
      (l.zipIdx.zip ms).map f = l.zipIdx.map fun x => f (x, ms.getD x.2 d) := by
  intro l ms hl
  refine List.ext_getElem ?_ ?_
  · simp [hl]
  · intro i h1 h2
    simp only [List.length_map, List.length_zip, List.length_zipIdx] at h1
    have : i < ms.length := by omega
    simp [List.getD, this]

omit [DecidableEq K] in
theorem hosts_treeSetup (B : Boost K α L) (i t : Nat) (g : DTable K (Rat × Rat)) (e : DTable K (α × α)) :
    (treeSetup B i t g e).hosts
      = B.base.hosts.zipIdx.map fun x => { x.1 with valid := B.valid i t (some x.2) } := by
  simp [treeSetup, List.mapIdx_eq_zipIdx_map]

omit [DecidableEq K] in
theorem guestIn_treeSetup (B : Boost K α L) (i t : Nat) (g : DTable K (Rat × Rat)) (e : DTable K (α × α)) :
    guestIn (treeSetup B i t g e) = (guestBoostIn B).treeIn i t g e := by
  simp [guestIn, treeSetup, guestBoostIn, GuestBoost.treeIn]

theorem evalList_saveMask (ms ds : List (Dict Nat Rat)) (h : evalList saveMask ms = .ok ds) :
    ds = ms ∧ ∀ m ∈ ms, saveMask m = .ok m := by
  induction ms generalizing ds with
  | nil =>
    simp only [evalList, Except.ok.injEq] at h
    exact ⟨h.symm, fun m hm => by simp at hm⟩
  | cons m ms ih =>
    simp only [evalList, bind, Except.bind] at h
    split at h
    · cases h
    · rename_i a ha
      split at h
      · cases h
      · rename_i as has
        simp only [pure, Except.pure, Except.ok.injEq] at h
        subst h
        obtain ⟨e, h2⟩ := ih as has
        subst e
        have := saveMask_inv ha
        subst this
        refine ⟨rfl, fun z hz => ?_⟩
        rcases List.mem_cons.mp hz with rfl | hz
        · exact ha
        · exact h2 z hz

/-- One tree of a round. -/
theorem leads_tree {idle : R} (B : Boost K α L) (gh : DTable K (List Rat × List Rat)) (i t : Nat)
    (st st' : BoostState K) (h : boostTree B gh i t st = .ok st')
    (kg : GuestBoostState K → Prog K α R)
    (kh : Party K × Nat → List NodeParam × Dict Nat Rat → Prog K α R) :
    ∃ P, st'.trees = st.trees ++ [P] ∧ P.hostMasks.length = B.base.hosts.length ∧
      Leads (lock idle (guestTree (guestBoostIn B) gh i t (gpart st) >>= kg)
          (B.base.hosts.zipIdx.map fun x => hostFit ((hostBoostIn B x.2 x.1).treeIn i t) >>= fun F =>
            lift (savePart F.1 F.2) >>= kh x))
        (lock idle (kg (gpart st')) (B.base.hosts.zipIdx.map fun x => kh x (hostTree x.2 P))) := by
  simp only [boostTree, bind, Except.bind] at h
  split at h
  · cases h
  rename_i g hg
  split at h
  · cases h
  rename_i e he
  split at h
  · cases h
  rename_i F hF
  split at h
  · cases h
  rename_i P hP
  split at h
  · cases h
  rename_i sc hsc
  simp only [pure, Except.pure, Except.ok.injEq] at h
  subst h
  obtain ⟨l1, c1⟩ := leads_fit (idle := idle) (treeSetup B i t g e)
    (fun x : Party K × Nat => { x.1 with valid := B.valid i t (some x.2) }) B.base.hosts.zipIdx
    (hosts_treeSetup B i t g e) F hF
    (fun F => lift (savePart F.tree F.mask) >>= fun P => lift (updateF B.rate t st.scores F.weights) >>= fun sc =>
      kg { gpart st with scores := sc, trees := (gpart st).trees ++ [P], imps := addImportances st.imps F.imps })
    (fun x F => lift (savePart F.1 F.2) >>= kh x)
  simp only [save, bind, Except.bind] at hP
  split at hP
  · cases hP
  rename_i nodes hnodes
  split at hP
  · cases hP
  rename_i gm hgm
  split at hP
  · cases hP
  rename_i hm hhm
  simp only [pure, Except.pure, Except.ok.injEq] at hP
  subst hP
  obtain ⟨e1, e2⟩ := evalList_saveMask _ _ hhm
  subst e1
  refine ⟨_, rfl, by simpa using l1, ?_⟩
  refine Leads.trans ?_ (Leads.trans c1 ?_)
  · have : (guestTree (guestBoostIn B) gh i t (gpart st) >>= kg)
        = guestFit (guestIn (treeSetup B i t g e)) >>= fun F => lift (savePart F.tree F.mask) >>= fun P =>
          lift (updateF B.rate t st.scores F.weights) >>= fun sc =>
          kg { gpart st with scores := sc, trees := (gpart st).trees ++ [P], imps := addImportances st.imps F.imps } := by
      have he' : (guestBoostIn B).enc i t g = .ok e := he
      simp only [guestTree, bind_bind, hg, lift_ok, he', guestIn_treeSetup, pure_bind']
      rfl
    rw [this]
    exact Leads.refl _
  · have s1 : savePart F.tree F.guestMask = .ok (nodes, gm) := by
      simp [savePart, hnodes, hgm, bind, Except.bind, pure, Except.pure]
    simp only [s1, lift_ok, hsc]
    rw [zip_zipIdx [] _ B.base.hosts F.hostMasks (by simpa using l1)]
    have s2 : (B.base.hosts.zipIdx.map fun x => lift (savePart F.tree (F.hostMasks.getD x.2 [])) >>= kh x)
        = B.base.hosts.zipIdx.map fun x => kh x (hostTree x.2 ⟨nodes, gm, F.hostMasks⟩) := by
      refine List.map_congr_left fun x hx => ?_
      have hlt : x.2 < F.hostMasks.length := by
        rw [l1]
        have := List.snd_lt_of_mem_zipIdx hx
        simpa using this
      have h1 : F.hostMasks.getD x.2 [] ∈ F.hostMasks := by
        rw [show F.hostMasks.getD x.2 [] = F.hostMasks[x.2] by simp [List.getD, hlt]]
        exact List.getElem_mem hlt
      have s3 : savePart F.tree (F.hostMasks.getD x.2 []) = .ok (nodes, F.hostMasks.getD x.2 []) := by
        simp only [savePart, hnodes, e2 _ h1, bind, Except.bind, pure, Except.pure]
      rw [s3, lift_ok]
      rfl
    rw [s2]
    have s4 : gpart (K := K) ⟨sc, st.trees ++ [⟨nodes, gm, F.hostMasks⟩], addImportances st.imps F.imps,
          st.losses, st.pre, st.flags⟩
        = ⟨sc, (gpart st).trees ++ [(nodes, gm)], addImportances st.imps F.imps, st.losses, st.pre⟩ := by
      simp [gpart]
    rw [s4]
    exact Leads.refl _

/-- Every tree has the thresholds of every host. -/
def MasksOk (n : Nat) (trees : List Saved) : Prop := ∀ P ∈ trees, P.hostMasks.length = n

/-- The trees of a round. -/
theorem leads_trees {idle : R} (B : Boost K α L) (gh : DTable K (List Rat × List Rat)) (i r t : Nat)
    (st st' : BoostState K) (h : boostTrees B gh i r t st = .ok st')
    (hm : MasksOk B.base.hosts.length st.trees) (kg : GuestBoostState K → Prog K α R)
    (kh : Party K × Nat → List (List NodeParam × Dict Nat Rat) → Prog K α R) :
    MasksOk B.base.hosts.length st'.trees ∧
      Leads (lock idle (guestTrees (guestBoostIn B) gh i r t (gpart st) >>= kg)
          (B.base.hosts.zipIdx.map fun x => hostTrees (hostBoostIn B x.2 x.1) i r t (hpart x.2 st.trees)
            >>= kh x))
        (lock idle (kg (gpart st')) (B.base.hosts.zipIdx.map fun x => kh x (hpart x.2 st'.trees))) := by
  induction r generalizing t st with
  | zero =>
    simp only [boostTrees, Except.ok.injEq] at h
    subst h
    exact ⟨hm, Leads.refl _⟩
  | succ r ih =>
    simp only [boostTrees, bind, Except.bind] at h
    split at h
    · cases h
    rename_i st1 h1
    obtain ⟨P, e1, e2, c1⟩ := leads_tree (idle := idle) B gh i t st st1 h1
      (fun s => guestTrees (guestBoostIn B) gh i r (t + 1) s >>= kg)
      (fun x P => hostTrees (hostBoostIn B x.2 x.1) i r (t + 1) (hpart x.2 st.trees ++ [P]) >>= kh x)
    obtain ⟨m2, c2⟩ := ih (t + 1) st1 h (by
      rw [e1]
      intro Q hQ
      rcases List.mem_append.mp hQ with hQ | hQ
      · exact hm Q hQ
      · rw [List.mem_singleton.mp hQ]
        exact e2)
    refine ⟨m2, ?_⟩
    simp only [guestTrees, hostTrees, bind_bind]
    refine Leads.trans c1 ?_
    have : ∀ j, hpart j st1.trees = hpart j st.trees ++ [hostTree j P] := by
      intro j
      simp [hpart, e1]
    simp only [this] at c2
    exact c2

/-- A round up to the loss. -/
theorem leads_round {idle : R} (B : Boost K α L) (y : DTable K L) (i : Nat)
    (st st' : BoostState K) (h : boostRound B y i st = .ok st')
    (hm : MasksOk B.base.hosts.length st.trees) (kg : GuestBoostState K → Prog K α R)
    (kh : Party K × Nat → List (List NodeParam × Dict Nat Rat) → Prog K α R) :
    MasksOk B.base.hosts.length st'.trees ∧ st'.losses ≠ [] ∧
      Leads (lock idle (guestRound (guestBoostIn B) y i (gpart st) >>= kg)
          (B.base.hosts.zipIdx.map fun x => hostTrees (hostBoostIn B x.2 x.1) i B.dim 0 (hpart x.2 st.trees)
            >>= kh x))
        (lock idle (kg (gpart st')) (B.base.hosts.zipIdx.map fun x => kh x (hpart x.2 st'.trees))) := by
  simp only [boostRound, bind, Except.bind] at h
  split at h
  · cases h
  rename_i gh hgh
  split at h
  · cases h
  rename_i st1 h1
  split at h
  · cases h
  rename_i l hl
  simp only [pure, Except.pure, Except.ok.injEq] at h
  subst h
  obtain ⟨m1, c1⟩ := leads_trees (idle := idle) B gh i B.dim 0 st st1 h1 hm
    (fun s => lift (B.loss y s.scores) >>= fun l => kg { s with losses := s.losses ++ [l] }) kh
  refine ⟨m1, by simp, ?_⟩
  have e1 : (guestRound (guestBoostIn B) y i (gpart st) >>= kg)
      = guestTrees (guestBoostIn B) gh i B.dim 0 (gpart st) >>= fun s =>
          lift (B.loss y s.scores) >>= fun l => kg { s with losses := s.losses ++ [l] } := by
    have h2 : y.joinM (gpart st).scores (guestBoostIn B).gradHess = .ok gh := hgh
    simp only [guestRound, bind_bind, h2, lift_ok, pure_bind']
    rfl
  rw [e1]
  refine Leads.trans c1 ?_
  have h3 : B.loss y (gpart st1).scores = .ok l := hl
  simp only [h3, lift_ok]
  exact Leads.refl _

/-- The rounds. -/
theorem leads_loop {idle : R} (B : Boost K α L) (y : DTable K L) (r i : Nat)
    (st st' : BoostState K) (h : boostLoop B y r i st = .ok st')
    (hm : MasksOk B.base.hosts.length st.trees) (kg : GuestBoostState K → Prog K α R)
    (kh : Party K × Nat → List (List NodeParam × Dict Nat Rat) → Prog K α R) :
    MasksOk B.base.hosts.length st'.trees ∧
      Leads (lock idle (guestLoop (guestBoostIn B) y r i (gpart st) >>= kg)
          (B.base.hosts.zipIdx.map fun x => hostLoop (hostBoostIn B x.2 x.1) B.dim r i (hpart x.2 st.trees)
            >>= kh x))
        (lock idle (kg (gpart st')) (B.base.hosts.zipIdx.map fun x => kh x (hpart x.2 st'.trees))) := by
  induction r generalizing i st with
  | zero =>
    simp only [boostLoop, Except.ok.injEq] at h
    subst h
    exact ⟨hm, Leads.refl _⟩
  | succ r ih =>
    simp only [boostLoop, bind, Except.bind] at h
    split at h
    · cases h
    rename_i st1 h1
    have hlen : B.base.hosts.length = B.base.hosts.zipIdx.length := by simp
    by_cases he : B.early = true
    · obtain ⟨m1, n1, c1⟩ := leads_round (idle := idle) B y i st st1 h1 hm
        (fun s => sendAll (.stop (guestConverge B.tol s).1) (List.range B.base.hosts.length) >>= fun _ =>
          (if (guestConverge B.tol s).1 then pure (guestConverge B.tol s).2
            else guestLoop (guestBoostIn B) y r (i + 1) (guestConverge B.tol s).2) >>= kg)
        (fun x trees => recvAs none Msg.asStop >>= fun s =>
          (if s then pure trees else hostLoop (hostBoostIn B x.2 x.1) B.dim r (i + 1) trees) >>= kh x)
      have hstop : (stopTest B st1).1 = (guestConverge B.tol (gpart st1)).1 ∧
          gpart (stopTest B st1).2 = (guestConverge B.tol (gpart st1)).2 ∧
          (stopTest B st1).2.trees = st1.trees := by
        obtain ⟨l, hl⟩ : ∃ l, st1.losses.getLast? = some l := by
          cases hx : st1.losses.getLast? with
          | none => exact absurd (List.getLast?_eq_none_iff.mp hx) n1
          | some l => exact ⟨l, rfl⟩
        have hl' : (gpart st1).losses.getLast? = some l := hl
        simp only [stopTest, he, if_true, hl, guestConverge, hl']
        refine ⟨?_, ?_, ?_⟩ <;> first | rfl | trivial
      obtain ⟨s1, s2, s3⟩ := hstop
      have c2 := leads_sendAll (idle := idle) B.base.hosts.zipIdx (.stop (guestConverge B.tol (gpart st1)).1)
        (guestConverge B.tol (gpart st1)).1 Msg.asStop rfl
        ((if (guestConverge B.tol (gpart st1)).1 then (pure (guestConverge B.tol (gpart st1)).2 : Prog K α _)
            else guestLoop (guestBoostIn B) y r (i + 1) (guestConverge B.tol (gpart st1)).2) >>= kg)
        (fun x s => (if s then (pure (hpart x.2 st1.trees) : Prog K α _)
            else hostLoop (hostBoostIn B x.2 x.1) B.dim r (i + 1) (hpart x.2 st1.trees)) >>= kh x) _ hlen
      have start : Leads (lock idle (guestLoop (guestBoostIn B) y (r + 1) i (gpart st) >>= kg)
          (B.base.hosts.zipIdx.map fun x => hostLoop (hostBoostIn B x.2 x.1) B.dim (r + 1) i (hpart x.2 st.trees)
            >>= kh x)) _ := Leads.trans (by
        have g1 : (guestLoop (guestBoostIn B) y (r + 1) i (gpart st) >>= kg)
            = guestRound (guestBoostIn B) y i (gpart st) >>= fun s =>
              sendAll (.stop (guestConverge B.tol s).1) (List.range B.base.hosts.length) >>= fun _ =>
              (if (guestConverge B.tol s).1 then pure (guestConverge B.tol s).2
                else guestLoop (guestBoostIn B) y r (i + 1) (guestConverge B.tol s).2) >>= kg := by
          have he' : (guestBoostIn B).early = true := he
          simp only [guestLoop, bind_bind, he', if_true]
          rfl
        have g2 : (B.base.hosts.zipIdx.map fun x => hostLoop (hostBoostIn B x.2 x.1) B.dim (r + 1) i (hpart x.2 st.trees)
              >>= kh x)
            = B.base.hosts.zipIdx.map fun x => hostTrees (hostBoostIn B x.2 x.1) i B.dim 0 (hpart x.2 st.trees)
              >>= fun trees => recvAs none Msg.asStop >>= fun s =>
              (if s then pure trees else hostLoop (hostBoostIn B x.2 x.1) B.dim r (i + 1) trees) >>= kh x := by
          refine List.map_congr_left fun x _ => ?_
          have he' : (hostBoostIn B x.2 x.1).early = true := he
          simp only [hostLoop, bind_bind, he', if_true]
        rw [g1, g2]
        exact c1) c2
      by_cases hs : (stopTest B st1).1 = true
      · rw [if_pos hs] at h
        simp only [pure, Except.pure, Except.ok.injEq] at h
        subst h
        refine ⟨by rw [s3]; exact m1, ?_⟩
        refine Leads.trans start ?_
        rw [s1] at hs
        simp only [hs, if_true, pure_bind', s2, s3]
        exact Leads.refl _
      · rw [if_neg hs] at h
        obtain ⟨m2, c3⟩ := ih (i + 1) _ h (by rw [s3]; exact m1)
        refine ⟨m2, Leads.trans start ?_⟩
        rw [s1] at hs
        rw [s2, s3] at c3
        simp only [hs]
        exact c3
    · obtain ⟨m1, n1, c1⟩ := leads_round (idle := idle) B y i st st1 h1 hm
        (fun s => guestLoop (guestBoostIn B) y r (i + 1) s >>= kg)
        (fun x trees => hostLoop (hostBoostIn B x.2 x.1) B.dim r (i + 1) trees >>= kh x)
      have e1 : stopTest B st1 = (false, st1) := by simp [stopTest, he]
      rw [e1] at h
      simp only [Bool.false_eq_true, if_false] at h
      obtain ⟨m2, c2⟩ := ih (i + 1) _ h m1
      refine ⟨m2, Leads.trans ?_ c2⟩
      have g1 : (guestLoop (guestBoostIn B) y (r + 1) i (gpart st) >>= kg)
          = guestRound (guestBoostIn B) y i (gpart st) >>= fun s =>
            guestLoop (guestBoostIn B) y r (i + 1) s >>= kg := by
        have he' : ¬ (guestBoostIn B).early = true := he
        simp only [guestLoop, bind_bind, if_neg he']
      have g2 : (B.base.hosts.zipIdx.map fun x => hostLoop (hostBoostIn B x.2 x.1) B.dim (r + 1) i (hpart x.2 st.trees)
            >>= kh x)
          = B.base.hosts.zipIdx.map fun x => hostTrees (hostBoostIn B x.2 x.1) i B.dim 0 (hpart x.2 st.trees)
            >>= fun trees => hostLoop (hostBoostIn B x.2 x.1) B.dim r (i + 1) trees >>= kh x := by
        refine List.map_congr_left fun x _ => ?_
        have he' : ¬ (hostBoostIn B x.2 x.1).early = true := he
        simp only [hostLoop, bind_bind, if_neg he']
      rw [g1, g2]
      exact c1

/-- Boosting. -/
theorem leads_boost {idle : R} (B : Boost K α L) (init : List Rat) (y : DTable K L)
    (st : BoostState K) (h : boost B init y = .ok st) (kg : GuestBoostState K → Prog K α R)
    (kh : Party K × Nat → Nat × List (List NodeParam × Dict Nat Rat) → Prog K α R) :
    MasksOk B.base.hosts.length st.trees ∧
      Leads (lock idle (guestBoost (guestBoostIn B) init y >>= kg)
          (B.base.hosts.zipIdx.map fun x => hostBoost (hostBoostIn B x.2 x.1) >>= kh x))
        (lock idle (kg (gpart st)) (B.base.hosts.zipIdx.map fun x => kh x (B.dim, hpart x.2 st.trees))) := by
  simp only [boost, bind, Except.bind] at h
  split at h
  · cases h
  rename_i sc hsc
  obtain ⟨m1, c1⟩ := leads_loop (idle := idle) B y B.rounds 0 _ st h (fun P hP => by simp at hP) kg
    (fun x trees => kh x (B.dim, trees))
  refine ⟨m1, Leads.trans ?_ c1⟩
  have hlen : B.base.hosts.length = B.base.hosts.zipIdx.length := by simp
  have g1 : (guestBoost (guestBoostIn B) init y >>= kg)
      = sendAll (.treeDim B.dim) (List.range B.base.hosts.length) >>= fun _ =>
          guestLoop (guestBoostIn B) y B.rounds 0 ⟨sc, [], [], [], none⟩ >>= kg := by
    simp only [guestBoost, bind_bind, hsc, lift_ok]
    rfl
  have g2 : (B.base.hosts.zipIdx.map fun x => hostBoost (hostBoostIn B x.2 x.1) >>= kh x)
      = B.base.hosts.zipIdx.map fun x => recvAs none Msg.asTreeDim >>= fun dim =>
          hostLoop (hostBoostIn B x.2 x.1) dim B.rounds 0 [] >>= fun trees => kh x (dim, trees) := by
    refine List.map_congr_left fun x _ => ?_
    simp only [hostBoost, bind_bind, pure_bind']
    rfl
  rw [g1, g2]
  exact leads_sendAll B.base.hosts.zipIdx (.treeDim B.dim) B.dim Msg.asTreeDim rfl _
    (fun x dim => hostLoop (hostBoostIn B x.2 x.1) dim B.rounds 0 [] >>= fun trees => kh x (dim, trees)) _ hlen

end Network
end Verif
