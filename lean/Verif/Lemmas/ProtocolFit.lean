import Verif.Lemmas.Lockstep

/-!
# Training one tree over the network

The programs of guest and hosts, run in lockstep, compute what `DTree.fit` computes.
-/

set_option autoImplicit false

namespace Verif
namespace Network

open DTree
open Histogram (Arith getHistograms plain getAt Hist)
open Binning (Cell SparseVec)

variable {K : Type} [DecidableEq K] {α R X : Type}

/-- What a host computes in a batch. -/
structure HB (K α X : Type) where
  x : X
  mask : Dict Nat Int
  data : DTable K (SparseVec Cell × Nat × Nat)
  hist : Hist α
  infos : List (List (SplitInfo α Unit))
  encs : List (List (α × α))
  bests : List (Int × α)
  finals : List (SplitInfo α α)
  mask' : Dict Nat Int

/-- The equations between the fields, for the host at position `j`. -/
structure HB.Good (S : Setup K α) (p : X → Party K) (pos : DTable K (Nat × Nat)) (ids : List Nat)
    (C : Cipher α) (sums : List (Rat × Rat)) (j : Nat) (y : HB K α X) : Prop where
  data : (p y.x).data.join pos (fun v q => (v, q)) = .ok y.data
  hist : getHistograms S.arith (p y.x).splits (p y.x).sparse (some (p y.x).valid) ids y.data S.encGh
    = .ok y.hist
  cands : findSplitHost S.cfg (p y.x).valid (.host (p y.x).idx) y.hist = .ok (y.infos, y.encs)
  bests : bestForHost S.cfg C j 0 sums y.encs = .ok y.bests
  finals : finalSplits C (.host (p y.x).idx) y.mask ids y.infos y.bests = .ok (y.finals, y.mask')

theorem exists_hb (S : Setup K α) (p : X → Party K) (pos : DTable K (Nat × Nat)) (ids : List Nat)
    (C : Cipher α) (sums : List (Rat × Rat)) :
    ∀ (xs : List X) (ms : List (Dict Nat Int)) (sides : List (HostSide α)) (j : Nat)
      (rs : List (List (SplitInfo α α) × Dict Nat Int)), ms.length = xs.length →
      hostSides S pos ids (xs.map p) ms = .ok sides →
      hostsBatch S.cfg C ids sums j sides = .ok rs →
      ∃ ys : List (HB K α X), xs.zip ms = ys.map (fun y => (y.x, y.mask)) ∧
        rs = ys.map (fun y => (y.finals, y.mask')) ∧ xs = ys.map HB.x ∧
        ∀ (i : Nat) (y : HB K α X), ys[i]? = some y → y.Good S p pos ids C sums (j + i) := by
  intro xs
  induction xs with
  | nil =>
    intro ms sides j rs hl h1 h2
    simp only [List.map_nil, hostSides, Except.ok.injEq] at h1
    subst h1
    simp only [hostsBatch, Except.ok.injEq] at h2
    subst h2
    exact ⟨[], rfl, rfl, rfl, fun i y h => by simp at h⟩
  | cons x xs ih =>
    intro ms sides j rs hl h1 h2
    cases ms with
    | nil => simp at hl
    | cons m ms =>
      simp only [List.map_cons, hostSides, bind, Except.bind] at h1
      split at h1
      · cases h1
      · rename_i d hd
        split at h1
        · cases h1
        · rename_i E hE
          split at h1
          · cases h1
          · rename_i sides' hs
            simp only [pure, Except.pure, Except.ok.injEq] at h1
            subst h1
            simp only [hostsBatch, hostBatch, bind, Except.bind] at h2
            split at h2
            · cases h2
            · rename_i r hr
              split at hr
              · cases hr
              · rename_i ie hie
                split at hr
                · cases hr
                · rename_i b hb
                  split at h2
                  · cases h2
                  · rename_i rs' hrs
                    simp only [pure, Except.pure, Except.ok.injEq] at h2
                    subst h2
                    obtain ⟨ys, e1, e2, e3, e4⟩ := ih ms sides' (j + 1) rs' (by simpa using hl) hs hrs
                    refine ⟨⟨x, m, d, E, ie.1, ie.2, b, r.1, r.2⟩ :: ys, ?_, ?_, ?_, ?_⟩
                    · simp [e1]
                    · simp [e2]
                    · simp [← e3]
                    · intro i y hy
                      cases i with
                      | zero =>
                        simp only [List.getElem?_cons_zero, Option.some.injEq] at hy
                        subst hy
                        exact ⟨hd, hE, hie, hb, hr⟩
                      | succ i =>
                        rw [show j + (i + 1) = j + 1 + i by omega]
                        exact e4 i y (by simpa using hy)

omit [DecidableEq K] in
/-- The guest's answers to the hosts. -/
theorem leads_answerHosts {Y : Type} {idle : R} (cfg : Config) (C : Cipher α)
    (sums : List (Rat × Rat)) (k : Prog K α R) (enc : Y → List (List (α × α)))
    (best : Y → List (Int × α)) (cont : Y → List (Int × α) → Prog K α R) (ys : List Y)
    (h : ∀ i y, ys[i]? = some y → bestForHost cfg C i 0 sums (enc y) = .ok (best y)) :
    Leads (lock idle (answerHosts cfg C sums 0 (ys.map enc) >>= fun _ => k)
        (ys.map fun y => recvAs none Msg.asBests >>= cont y))
      (lock idle k (ys.map fun y => cont y (best y))) := by
  suffices H : ∀ (pre : List (Prog K α R)),
      (∀ i y, ys[i]? = some y → bestForHost cfg C (pre.length + i) 0 sums (enc y) = .ok (best y)) →
      Leads (lock idle (answerHosts cfg C sums pre.length (ys.map enc) >>= fun _ => k)
          (pre ++ ys.map fun y => recvAs none Msg.asBests >>= cont y))
        (lock idle k (pre ++ ys.map fun y => cont y (best y))) from
    H [] (fun i y hy => by simpa using h i y hy)
  clear h
  induction ys with
  | nil => exact fun pre _ => Leads.refl _
  | cons y ys ih =>
    intro pre h
    rw [List.map_cons, answerHosts, bind_bind, show bestForHost cfg C pre.length 0 sums (enc y) = _ from h 0 y rfl, lift_ok,
      bind_bind, sendTo_bind]
    refine Leads.trans (leads_to_host (f := fun m => lift (Msg.asBests m) >>= cont y) ?_) ?_
    · simp [recvAs_bind]
    · rw [List.map_cons, set_at_append]
      have := ih (pre ++ [cont y (best y)]) (fun i z hz => by
        have := h (i + 1) z (by simpa using hz)
        rw [List.length_append, List.length_singleton]
        rw [show pre.length + 1 + i = pre.length + (i + 1) by omega]
        exact this)
      rw [List.length_append, List.length_singleton, List.append_assoc, List.append_assoc] at this
      exact this

theorem finalSplit_noKey (C : Cipher α) (site : Site) (mask : Dict Nat Int) (nid : Nat)
    (cands : List (SplitInfo α Unit)) (best : Int × α) :
    finalSplit (noKey C.zero) site mask nid cands best = finalSplit C site mask nid cands best := rfl

theorem finalSplits_noKey (C : Cipher α) (site : Site) (mask : Dict Nat Int) (ids : List Nat)
    (infos : List (List (SplitInfo α Unit))) (bests : List (Int × α)) :
    finalSplits (noKey C.zero) site mask ids infos bests = finalSplits C site mask ids infos bests := by
  induction infos generalizing mask ids bests with
  | nil => cases ids <;> rfl
  | cons c cs ih =>
    cases bests with
    | nil => cases ids <;> rfl
    | cons b bs =>
      cases ids with
      | nil => rfl
      | cons nid ids =>
        simp only [finalSplits, finalSplit_noKey, ih]

/-- A batch of nodes. -/
theorem leads_batch {idle : R} (S : Setup K α) (p : X → Party K) (pos : DTable K (Nat × Nat))
    (dep batch : Nat) (dataPos : DTable K (SparseVec Cell × Nat × Nat)) (nodes : List Node)
    (xs : List X) (hxs : S.hosts = xs.map p) (ms ms' : List (Dict Nat Int))
    (hms : ms.length = xs.length) (ss : List (SplitInfo (Option Rat) Rat))
    (h : batchSplits S dep batch dataPos pos nodes ms = .ok (ss, ms'))
    (D : X → DTable K (SparseVec Cell × Nat × Nat))
    (hD : ∀ x ∈ xs, (p x).data.join pos (fun v q => (v, q)) = .ok (D x))
    (kg : List (SplitInfo (Option Rat) Rat) → Prog K α R) (kh : X → Dict Nat Int → Prog K α R) :
    ms'.length = xs.length ∧
    Leads (lock idle (guestBatch (guestIn S) dep batch dataPos nodes >>= kg)
        ((xs.zip ms).map fun z => hostBatchP (hostIn S (p z.1)) S.encGh dep batch (D z.1)
          (nodes.map Node.id) z.2 >>= kh z.1))
      (lock idle (kg ss) ((xs.zip ms').map fun z => kh z.1 z.2)) := by
  simp only [batchSplits, splitBatch, bind, Except.bind] at h
  split at h
  · cases h
  · rename_i H hH
    split at h
    · cases h
    · rename_i sides hs
      split at h
      · cases h
      · rename_i gs hgs
        split at h
        · cases h
        · rename_i rs hrs
          split at h
          · cases h
          · rename_i best hbest
            simp only [pure, Except.pure, Except.ok.injEq, Prod.mk.injEq] at h
            obtain ⟨rfl, rfl⟩ := h
            rw [hxs] at hs
            obtain ⟨ys, e1, e2, e3, e4⟩ := exists_hb S p pos _ _ _ xs ms sides 0 rs hms hs hrs
            have e4' : ∀ (i : Nat) (y : HB K α X), ys[i]? = some y → y.Good S p pos (nodes.map Node.id) (S.cipher dep batch)
                (nodes.map fun n => (n.sumGrad, n.sumHess)) i := by
              intro i y hy
              have := e4 i y hy
              rwa [Nat.zero_add] at this
            have e5 : ∀ y ∈ ys, ∃ i, y.Good S p pos (nodes.map Node.id) (S.cipher dep batch)
                (nodes.map fun n => (n.sumGrad, n.sumHess)) i := by
              intro y hy
              obtain ⟨i, hi⟩ := List.getElem?_of_mem hy
              exact ⟨i, e4' i y hi⟩
            have hlen : (guestIn S).conns = ys.length := by
              show S.hosts.length = _
              rw [hxs, e3]
              simp
            have e6 : (xs.zip (rs.map Prod.snd)).map (fun z => kh z.1 z.2)
                = ys.map fun y => kh y.x y.mask' := by
              rw [e2, e3]
              simp only [List.map_map]
              rw [List.zip_map']
              simp [Function.comp_def]
            refine ⟨by rw [e2, e3]; simp, ?_⟩
            rw [e6, e1, List.map_map]
            -- the hosts compute their candidates
            have e7 : ys.map ((fun z => hostBatchP (hostIn S (p z.1)) S.encGh dep batch (D z.1)
                  (nodes.map Node.id) z.2 >>= kh z.1) ∘ fun y => (y.x, y.mask))
                = ys.map fun y => sendTo none (.cands y.encs) >>= fun _ =>
                    (recvAs none Msg.asBests >>= fun b => lift (finalSplits (noKey (S.cipher dep batch).zero)
                      (.host (p y.x).idx) y.mask (nodes.map Node.id) y.infos b) >>= fun f =>
                      sendTo none (.finals f.1) >>= fun _ => kh y.x f.2) := by
              refine List.map_congr_left fun y hy => ?_
              obtain ⟨i, g⟩ := e5 y hy
              have hd : D y.x = y.data := by
                have h1 := hD y.x (by rw [e3]; exact List.mem_map_of_mem hy)
                rw [g.data] at h1
                exact (Except.ok.inj h1).symm
              simp only [Function.comp, hostBatchP, hostIn, hd, g.hist, bind_bind, lift_ok, g.cands,
                pure_bind']
            rw [e7]
            -- the guest computes its own splits
            have e8 : (guestBatch (guestIn S) dep batch dataPos nodes >>= kg)
                = recvAll Msg.asCands (List.range (guestIn S).conns) >>= fun encs =>
                    answerHosts S.cfg (S.cipher dep batch) (nodes.map fun n => (n.sumGrad, n.sumHess)) 0 encs
                      >>= fun _ => recvAll Msg.asFinals (List.range (guestIn S).conns) >>= fun finals =>
                        lift (mergeLoop S.cfg.rnd (S.cipher dep batch) finals 0 gs) >>= kg := by
              simp only [guestBatch, guestIn, bind_bind, hH, hgs, lift_ok]
            rw [e8]
            refine Leads.trans (leads_recvAll ys (fun y => Msg.cands y.encs) HB.encs Msg.asCands
              (fun _ _ => rfl) _ _ _ hlen) ?_
            refine Leads.trans (leads_answerHosts S.cfg (S.cipher dep batch) _ _ HB.encs HB.bests _ ys
              (fun i y hy => (e4' i y hy).bests)) ?_
            -- the hosts look up the chosen splits
            have e9 : (ys.map fun y => lift (finalSplits (noKey (S.cipher dep batch).zero)
                      (.host (p y.x).idx) y.mask (nodes.map Node.id) y.infos y.bests) >>= fun f =>
                      sendTo none (.finals f.1) >>= fun _ => kh y.x f.2)
                = ys.map fun y => (sendTo none (.finals y.finals) >>= fun _ => kh y.x y.mask' : Prog K α R) := by
              refine List.map_congr_left fun y hy => ?_
              obtain ⟨i, g⟩ := e5 y hy
              rw [finalSplits_noKey, g.finals, lift_ok]
            rw [e9]
            refine Leads.trans (leads_recvAll ys (fun y => Msg.finals y.finals) HB.finals Msg.asFinals
              (fun _ _ => rfl) _ _ _ hlen) ?_
            have e10 : ys.map HB.finals = rs.map Prod.fst := by
              rw [e2]
              simp
            rw [e10, hbest, lift_ok]
            exact Leads.refl _

theorem join_of_hostSides (S : Setup K α) (p : X → Party K) (pos : DTable K (Nat × Nat))
    (ids : List Nat) : ∀ (xs : List X) (ms : List (Dict Nat Int)) (sides : List (HostSide α)),
      ms.length = xs.length → hostSides S pos ids (xs.map p) ms = .ok sides →
      ∀ x ∈ xs, ∃ d, (p x).data.join pos (fun v q => (v, q)) = .ok d := by
  intro xs
  induction xs with
  | nil => intro _ _ _ _ x hx; simp at hx
  | cons x xs ih =>
    intro ms sides hl h
    cases ms with
    | nil => simp at hl
    | cons m ms =>
      simp only [List.map_cons, hostSides, bind, Except.bind] at h
      split at h
      · cases h
      · rename_i d hd
        split at h
        · cases h
        · split at h
          · cases h
          · rename_i sides' hs
            intro z hz
            rcases List.mem_cons.mp hz with rfl | hz
            · exact ⟨d, hd⟩
            · exact ih ms sides' (by simpa using hl) hs z hz

theorem join_of_batchSplits (S : Setup K α) (p : X → Party K) (pos : DTable K (Nat × Nat))
    (dep batch : Nat) (dataPos : DTable K (SparseVec Cell × Nat × Nat)) (nodes : List Node)
    (xs : List X) (hxs : S.hosts = xs.map p) (ms : List (Dict Nat Int))
    (hms : ms.length = xs.length) (r : List (SplitInfo (Option Rat) Rat) × List (Dict Nat Int))
    (h : batchSplits S dep batch dataPos pos nodes ms = .ok r) :
    ∀ x ∈ xs, ∃ d, (p x).data.join pos (fun v q => (v, q)) = .ok d := by
  simp only [batchSplits, bind, Except.bind] at h
  split at h
  · cases h
  · split at h
    · cases h
    · rename_i sides hs
      rw [hxs] at hs
      exact join_of_hostSides S p pos _ xs ms sides hms hs

/-- The batches of a level. -/
theorem leads_batches {idle : R} (S : Setup K α) (p : X → Party K) (pos : DTable K (Nat × Nat))
    (dep : Nat) (dataPos : DTable K (SparseVec Cell × Nat × Nat)) (xs : List X)
    (hxs : S.hosts = xs.map p) (D : X → DTable K (SparseVec Cell × Nat × Nat))
    (hD : ∀ x ∈ xs, (p x).data.join pos (fun v q => (v, q)) = .ok (D x))
    (fuel batch : Nat) (nodes : List Node) (ms ms' : List (Dict Nat Int))
    (hms : ms.length = xs.length) (ss : List (SplitInfo (Option Rat) Rat))
    (h : batchLoop S dep dataPos pos fuel batch nodes ms = .ok (ss, ms'))
    (kg : List (SplitInfo (Option Rat) Rat) → Prog K α R) (kh : X → Dict Nat Int → Prog K α R) :
    ms'.length = xs.length ∧
    Leads (lock idle (guestBatches (guestIn S) dep dataPos fuel batch nodes >>= kg)
        ((xs.zip ms).map fun z => hostBatches (hostIn S (p z.1)) S.encGh dep (D z.1) fuel batch
          (nodes.map Node.id) z.2 >>= kh z.1))
      (lock idle (kg ss) ((xs.zip ms').map fun z => kh z.1 z.2)) := by
  induction fuel generalizing batch nodes ms ms' ss kg kh with
  | zero =>
    cases nodes with
    | nil =>
      simp only [batchLoop, Except.ok.injEq, Prod.mk.injEq] at h
      obtain ⟨rfl, rfl⟩ := h
      exact ⟨hms, Leads.refl _⟩
    | cons n ns =>
      simp only [batchLoop, Except.ok.injEq, Prod.mk.injEq] at h
      obtain ⟨rfl, rfl⟩ := h
      exact ⟨hms, Leads.refl _⟩
  | succ fuel ih =>
    cases nodes with
    | nil =>
      simp only [batchLoop, Except.ok.injEq, Prod.mk.injEq] at h
      obtain ⟨rfl, rfl⟩ := h
      exact ⟨hms, Leads.refl _⟩
    | cons n ns =>
      simp only [batchLoop, bind, Except.bind] at h
      split at h
      · cases h
      · rename_i r1 h1
        split at h
        · cases h
        · rename_i r2 h2
          simp only [pure, Except.pure, Except.ok.injEq, Prod.mk.injEq] at h
          obtain ⟨rfl, rfl⟩ := h
          obtain ⟨l1, c1⟩ := leads_batch (idle := idle) S p pos dep batch dataPos _ xs hxs ms r1.2 hms r1.1 h1 D hD
            (fun ss => guestBatches (guestIn S) dep dataPos fuel (batch + 1) ((n :: ns).drop S.maxSplitNodes)
              >>= fun rest => kg (ss ++ rest))
            (fun x m => hostBatches (hostIn S (p x)) S.encGh dep (D x) fuel (batch + 1)
              (((n :: ns).drop S.maxSplitNodes).map Node.id) m >>= kh x)
          obtain ⟨l2, c2⟩ := ih (batch + 1) _ r1.2 r2.2 l1 r2.1 h2 (fun rest => kg (r1.1 ++ rest)) kh
          refine ⟨l2, Leads.trans ?_ c2⟩
          rw [guestBatches]
          simp only [List.map_cons, hostBatches, bind_bind, pure_bind']
          simp only [List.map_take, List.map_drop, List.map_cons] at c1 ⊢
          exact c1

/-- What a host computes when samples are moved. -/
theorem exists_answers (p : X → Party K) (q : DTable K Disp) :
    ∀ (xs : List X) (ms : List (Dict Nat Int)) (ts : List (DTable K Disp)),
      ms.length = xs.length → hostAnswers q (xs.map p) ms = .ok ts →
      ∃ ys : List (X × Dict Nat Int × DTable K Disp), xs.zip ms = ys.map (fun y => (y.1, y.2.1)) ∧
        ts = ys.map (fun y => y.2.2) ∧ xs.length = ys.length ∧
        ∀ y ∈ ys, q.joinM (p y.1).data (dispatchHost (.host (p y.1).idx) y.2.1 (p y.1).sparse)
          = .ok y.2.2 := by
  intro xs
  induction xs with
  | nil =>
    intro ms ts hl h
    simp only [List.map_nil, hostAnswers, Except.ok.injEq] at h
    subst h
    exact ⟨[], rfl, rfl, rfl, fun y h => by simp at h⟩
  | cons x xs ih =>
    intro ms ts hl h
    cases ms with
    | nil => simp at hl
    | cons m ms =>
      simp only [List.map_cons, hostAnswers, bind, Except.bind] at h
      split at h
      · cases h
      · rename_i t ht
        split at h
        · cases h
        · rename_i ts' hts
          simp only [pure, Except.pure, Except.ok.injEq] at h
          subst h
          obtain ⟨ys, e1, e2, e3, e4⟩ := ih ms ts' (by simpa using hl) hts
          refine ⟨(x, m, t) :: ys, by simp [e1], by simp [e2], by simp [e3], ?_⟩
          intro y hy
          rcases List.mem_cons.mp hy with rfl | hy
          · exact ht
          · exact e4 y hy

/-- The value of a computation, or a default. -/
def okOr {β : Type} (d : β) : Except PyErr β → β
  | .ok v => v
  | .error _ => d

/-- The samples move to the next level. -/
theorem leads_redispatch {idle : R} (S : Setup K α) (p : X → Party K) (xs : List X)
    (hxs : S.hosts = xs.map p) (g : Grow) (ms : List (Dict Nat Int)) (hms : ms.length = xs.length)
    (dataPos : DTable K (SparseVec Cell × Nat × Nat)) (weights : Option (DTable K Rat))
    (r : DTable K Disp × Option (DTable K Rat)) (h : redispatch S g ms dataPos weights = .ok r)
    (kg : GuestState K → Prog K α R) (kh : X → Dict Nat Int → Prog K α R) :
    Leads (lock idle (guestRedispatch (guestIn S) g dataPos weights >>= kg)
        ((xs.zip ms).map fun z => recvAs none Msg.asQuestions >>= fun q =>
          lift (q.joinM (p z.1).data (dispatchHost (.host (p z.1).idx) z.2 (p z.1).sparse)) >>= fun a =>
          sendTo none (.answers a) >>= fun _ => kh z.1 z.2))
      (lock idle (kg ⟨g, r.1, r.2⟩) ((xs.zip ms).map fun z => kh z.1 z.2)) := by
  simp only [redispatch, bind, Except.bind] at h
  split at h
  · cases h
  rename_i res hres
  split at h
  · cases h
  rename_i q hq
  split at h
  · cases h
  rename_i res2 hres2
  split at h
  · cases h
  rename_i leaf hleaf
  split at h
  · cases h
  rename_i leafW hleafW
  split at h
  · cases h
  rename_i w hw
  split at h
  · cases h
  rename_i res3 hres3
  split at h
  · cases h
  rename_i ts hts
  split at h
  · cases h
  rename_i fh hfh
  split at h
  · cases h
  rename_i disp hdisp
  simp only [pure, Except.pure, Except.ok.injEq] at h
  subst h
  rw [hxs] at hts
  obtain ⟨ys, e1, e2, e3, e4⟩ := exists_answers p q xs ms ts hms hts
  have hlen : (guestIn S).conns = ys.length := by
    show S.hosts.length = _
    rw [hxs, List.length_map, e3]
  have eg : (guestRedispatch (guestIn S) g dataPos weights >>= kg)
      = sendAll (.questions q) (List.range (guestIn S).conns) >>= fun _ =>
          recvAll Msg.asAnswers (List.range (guestIn S).conns) >>= fun answers =>
            lift (combine none answers) >>= fun f => lift (addPositions f res3) >>= fun disp =>
              kg ⟨g, disp, some w⟩ := by
    simp only [guestRedispatch, guestIn, bind_bind, hres, hq, hres2, hleaf, hleafW, hw, hres3, lift_ok,
      pure_bind']
  rw [eg, e1, List.map_map, List.map_map]
  refine Leads.trans (leads_sendAll ys (.questions q) q Msg.asQuestions rfl _
    (fun y q => lift (q.joinM (p y.1).data (dispatchHost (.host (p y.1).idx) y.2.1 (p y.1).sparse))
      >>= fun a => sendTo none (.answers a) >>= fun _ => kh y.1 y.2.1) _ hlen) ?_
  have e5 : (ys.map fun y => lift (q.joinM (p y.1).data
        (dispatchHost (.host (p y.1).idx) y.2.1 (p y.1).sparse))
      >>= fun a => sendTo none (.answers a) >>= fun _ => kh y.1 y.2.1)
      = ys.map fun y => (sendTo none (.answers y.2.2) >>= fun _ => kh y.1 y.2.1 : Prog K α R) := by
    refine List.map_congr_left fun y hy => ?_
    rw [e4 y hy, lift_ok]
  rw [e5]
  refine Leads.trans (leads_recvAll ys (fun y => Msg.answers y.2.2) (fun y => y.2.2) Msg.asAnswers
    (fun _ _ => rfl) _ _ _ hlen) ?_
  rw [← e2, hfh, lift_ok, hdisp, lift_ok]
  exact Leads.refl _

/-- A level. -/
theorem leads_level {idle : R} (S : Setup K α) (p : X → Party K) (xs : List X)
    (hxs : S.hosts = xs.map p) (dep : Nat) (reach : Bool) (st st' : State K)
    (hms : st.masks.length = xs.length) (hq : st.grow.queue ≠ [])
    (h : level S dep reach st = .ok st')
    (kg : GuestState K → Prog K α R) (kh : X → Dict Nat Int → Prog K α R) :
    st'.masks.length = xs.length ∧
    Leads (lock idle (guestLevel (guestIn S) dep reach ⟨st.grow, st.disp, st.weights⟩ >>= kg)
        ((xs.zip st.masks).map fun z => hostLevel (hostIn S (p z.1)) S.encGh dep
          (st.grow.queue.map Node.id) z.2 >>= kh z.1))
      (lock idle (kg ⟨st'.grow, st'.disp, st'.weights⟩) ((xs.zip st'.masks).map fun z => kh z.1 z.2)) := by
  simp only [level, bind, Except.bind] at h
  split at h
  · cases h
  rename_i pos hpos
  split at h
  · cases h
  rename_i dataPos hdp
  split at h
  · cases h
  rename_i hmax
  split at h
  · cases h
  rename_i r hr
  split at h
  · cases h
  rename_i g hg
  split at h
  · cases h
  rename_i r2 hr2
  simp only [pure, Except.pure, Except.ok.injEq] at h
  subst h
  let D : X → DTable K (SparseVec Cell × Nat × Nat) := fun x =>
    okOr ⟨[]⟩ ((p x).data.join pos (fun v q => (v, q)))
  have hD : ∀ x ∈ xs, (p x).data.join pos (fun v q => (v, q)) = .ok (D x) := by
    intro x hx
    have : ∃ r, ∃ ns ms, ms.length = xs.length ∧ batchSplits S dep 0 dataPos pos ns ms = .ok r := by
      cases hqq : st.grow.queue with
      | nil => exact absurd hqq hq
      | cons n ns =>
        rw [hqq] at hr
        simp only [List.length_cons, batchLoop, bind, Except.bind] at hr
        split at hr
        · cases hr
        · rename_i r1 h1
          exact ⟨r1, _, st.masks, hms, h1⟩
    obtain ⟨r, ns, ms, hl, hb⟩ := this
    obtain ⟨d, hd⟩ := join_of_batchSplits S p pos dep 0 dataPos ns xs hxs ms hl r hb x hx
    simp only [D, hd, okOr]
  obtain ⟨l1, c1⟩ := leads_batches (idle := idle) S p pos dep dataPos xs hxs D hD st.grow.queue.length 0 st.grow.queue
    st.masks r.2 hms r.1 hr
    (fun ss => lift (updateQueue S.cfg S.kind reach ss st.grow) >>= fun g =>
      guestRedispatch (guestIn S) g dataPos st.weights >>= kg)
    (fun x m => recvAs none Msg.asQuestions >>= fun q =>
      lift (q.joinM (p x).data (dispatchHost (.host (p x).idx) m (p x).sparse)) >>= fun a =>
      sendTo none (.answers a) >>= fun _ => kh x m)
  have c2 := leads_redispatch (idle := idle) S p xs hxs g r.2 l1 dataPos st.weights r2 hr2 kg kh
  refine ⟨l1, Leads.trans ?_ (Leads.trans c1 ?_)⟩
  · have e1 : (guestLevel (guestIn S) dep reach ⟨st.grow, st.disp, st.weights⟩ >>= kg)
        = sendAll (.positions st.disp) (List.range (guestIn S).conns) >>= fun _ =>
            guestBatches (guestIn S) dep dataPos st.grow.queue.length 0 st.grow.queue >>= fun ss =>
              lift (updateQueue S.cfg S.kind reach ss st.grow) >>= fun g =>
                guestRedispatch (guestIn S) g dataPos st.weights >>= kg := by
      simp only [guestLevel, bind_bind, hpos, lift_ok]
      have h1 : (guestIn S).party.data.join pos (fun v q => (v, q)) = .ok dataPos := hdp
      have h2 : ¬ (guestIn S).maxSplitNodes = 0 := hmax
      simp only [h1, lift_ok, if_neg h2, bind_bind]
      rfl
    rw [e1]
    have hlen : (guestIn S).conns = (xs.zip st.masks).length := by
      show S.hosts.length = _
      simp [hxs, hms]
    have e2 : ((xs.zip st.masks).map fun z => hostLevel (hostIn S (p z.1)) S.encGh dep
          (st.grow.queue.map Node.id) z.2 >>= kh z.1)
        = (xs.zip st.masks).map fun z => recvAs none Msg.asPositions >>= fun disp =>
            lift (disp.mapValuesM unpackPos) >>= fun pos =>
            lift ((p z.1).data.join pos (fun v q => (v, q))) >>= fun data =>
            hostBatches (hostIn S (p z.1)) S.encGh dep data (st.grow.queue.map Node.id).length 0
              (st.grow.queue.map Node.id) z.2 >>= fun mask =>
            recvAs none Msg.asQuestions >>= fun q =>
            lift (q.joinM (p z.1).data (dispatchHost (.host (p z.1).idx) mask (p z.1).sparse)) >>= fun a =>
            sendTo none (.answers a) >>= fun _ => kh z.1 mask := by
      refine List.map_congr_left fun z _ => ?_
      have h2 : ¬ (hostIn S (p z.1)).maxSplitNodes = 0 := hmax
      simp only [hostLevel, bind_bind, if_neg h2, pure_bind']
      rfl
    rw [e2]
    refine Leads.trans (leads_sendAll (xs.zip st.masks) (.positions st.disp) st.disp Msg.asPositions rfl _
      (fun z disp => lift (disp.mapValuesM unpackPos) >>= fun pos =>
            lift ((p z.1).data.join pos (fun v q => (v, q))) >>= fun data =>
            hostBatches (hostIn S (p z.1)) S.encGh dep data (st.grow.queue.map Node.id).length 0
              (st.grow.queue.map Node.id) z.2 >>= fun mask =>
            recvAs none Msg.asQuestions >>= fun q =>
            lift (q.joinM (p z.1).data (dispatchHost (.host (p z.1).idx) mask (p z.1).sparse)) >>= fun a =>
            sendTo none (.answers a) >>= fun _ => kh z.1 mask) _ hlen) ?_
    have e3 : ((xs.zip st.masks).map fun z => lift (st.disp.mapValuesM unpackPos) >>= fun pos =>
            lift ((p z.1).data.join pos (fun v q => (v, q))) >>= fun data =>
            hostBatches (hostIn S (p z.1)) S.encGh dep data (st.grow.queue.map Node.id).length 0
              (st.grow.queue.map Node.id) z.2 >>= fun mask =>
            recvAs none Msg.asQuestions >>= fun q =>
            lift (q.joinM (p z.1).data (dispatchHost (.host (p z.1).idx) mask (p z.1).sparse)) >>= fun a =>
            sendTo none (.answers a) >>= fun _ => kh z.1 mask)
        = (xs.zip st.masks).map fun z =>
            (hostBatches (hostIn S (p z.1)) S.encGh dep (D z.1) st.grow.queue.length 0
              (st.grow.queue.map Node.id) z.2 >>= fun mask =>
            recvAs none Msg.asQuestions >>= fun q =>
            lift (q.joinM (p z.1).data (dispatchHost (.host (p z.1).idx) mask (p z.1).sparse)) >>= fun a =>
            sendTo none (.answers a) >>= fun _ => kh z.1 mask : Prog K α R) := by
      refine List.map_congr_left fun z hz => ?_
      have hx : z.1 ∈ xs := (List.of_mem_zip hz).1
      rw [hpos, lift_ok, hD z.1 hx, lift_ok, List.length_map]
    rw [e3]
    exact Leads.refl _
  · rw [hg, lift_ok]
    exact c2

/-- All levels. -/
theorem leads_levels {idle : R} (S : Setup K α) (p : X → Party K) (xs : List X)
    (hxs : S.hosts = xs.map p) (r dep : Nat) (st st' : State K)
    (hms : st.masks.length = xs.length) (h : levels S r dep st = .ok st')
    (kg : GuestState K → Prog K α R) (kh : X → Dict Nat Int → Prog K α R) :
    st'.masks.length = xs.length ∧
    Leads (lock idle (guestLevels (guestIn S) r dep ⟨st.grow, st.disp, st.weights⟩ >>= kg)
        ((xs.zip st.masks).map fun z => hostLevels (hostIn S (p z.1)) S.encGh r dep z.2 >>= kh z.1))
      (lock idle (kg ⟨st'.grow, st'.disp, st'.weights⟩) ((xs.zip st'.masks).map fun z => kh z.1 z.2)) := by
  induction r generalizing dep st kg kh with
  | zero =>
    simp only [levels, Except.ok.injEq] at h
    subst h
    exact ⟨hms, Leads.refl _⟩
  | succ r ih =>
    have hlen : (guestIn S).conns = (xs.zip st.masks).length := by
      show S.hosts.length = _
      simp [hxs, hms]
    have eg : (guestLevels (guestIn S) (r + 1) dep ⟨st.grow, st.disp, st.weights⟩ >>= kg)
        = sendAll (.nodes (st.grow.queue.map Node.id)) (List.range (guestIn S).conns) >>= fun _ =>
            (if st.grow.queue.isEmpty then pure ⟨st.grow, st.disp, st.weights⟩
              else guestLevel (guestIn S) dep (r = 0) ⟨st.grow, st.disp, st.weights⟩ >>= fun st =>
                guestLevels (guestIn S) r (dep + 1) st) >>= kg := by
      rw [guestLevels, bind_bind]
    have eh : ((xs.zip st.masks).map fun z => hostLevels (hostIn S (p z.1)) S.encGh (r + 1) dep z.2 >>= kh z.1)
        = (xs.zip st.masks).map fun z => recvAs none Msg.asNodes >>= fun ids =>
            (if ids.isEmpty then pure z.2
              else hostLevel (hostIn S (p z.1)) S.encGh dep ids z.2 >>= fun m =>
                hostLevels (hostIn S (p z.1)) S.encGh r (dep + 1) m) >>= kh z.1 := by
      refine List.map_congr_left fun z _ => ?_
      rw [hostLevels, bind_bind]
    rw [eg, eh]
    simp only [levels] at h
    have c0 := leads_sendAll (idle := idle) (xs.zip st.masks) (.nodes (st.grow.queue.map Node.id))
      (st.grow.queue.map Node.id) Msg.asNodes rfl
      ((if st.grow.queue.isEmpty then (pure ⟨st.grow, st.disp, st.weights⟩ : Prog K α (GuestState K))
              else guestLevel (guestIn S) dep (r = 0) ⟨st.grow, st.disp, st.weights⟩ >>= fun st =>
                guestLevels (guestIn S) r (dep + 1) st) >>= kg)
      (fun z ids => (if ids.isEmpty then (pure z.2 : Prog K α (Dict Nat Int))
              else hostLevel (hostIn S (p z.1)) S.encGh dep ids z.2 >>= fun m =>
                hostLevels (hostIn S (p z.1)) S.encGh r (dep + 1) m) >>= kh z.1) _ hlen
    by_cases hq : st.grow.queue.isEmpty = true
    · rw [if_pos hq] at h
      simp only [Except.ok.injEq] at h
      subst h
      refine ⟨hms, Leads.trans c0 ?_⟩
      have hq' : (st.grow.queue.map Node.id).isEmpty = true := by simpa using hq
      simp only [if_pos hq, if_pos hq', pure_bind']
      exact Leads.refl _
    · rw [if_neg hq] at h
      split at h
      · cases h
      · rename_i st1 h1
        have hq' : ¬ (st.grow.queue.map Node.id).isEmpty = true := by simpa using hq
        obtain ⟨l1, c1⟩ := leads_level (idle := idle) S p xs hxs dep _ st st1 hms (by simpa using hq) h1
          (fun st => guestLevels (guestIn S) r (dep + 1) st >>= kg)
          (fun x m => hostLevels (hostIn S (p x)) S.encGh r (dep + 1) m >>= kh x)
        obtain ⟨l2, c2⟩ := ih (dep + 1) st1 l1 h kg kh
        refine ⟨l2, Leads.trans c0 (Leads.trans ?_ c2)⟩
        simp only [if_neg hq, if_neg hq', bind_bind]
        exact c1

omit [DecidableEq K] in
theorem exists_masks (p : X → Party K) (tree : List Node) :
    ∀ (xs : List X) (ms : List (Dict Nat Int)) (ds : List (Dict Nat Rat)), ms.length = xs.length →
      convertHosts tree (xs.map p) ms = .ok ds →
      ∃ ys : List (X × Dict Nat Int × Dict Nat Rat), xs.zip ms = ys.map (fun y => (y.1, y.2.1)) ∧
        xs.zip ds = ys.map (fun y => (y.1, y.2.2)) ∧ ds.length = xs.length ∧ xs.length = ys.length ∧
        ∀ y ∈ ys, convert (.host (p y.1).idx) (p y.1).splits y.2.1 tree [] = .ok y.2.2 := by
  intro xs
  induction xs with
  | nil =>
    intro ms ts hl h
    simp only [List.map_nil, convertHosts, Except.ok.injEq] at h
    subst h
    exact ⟨[], rfl, rfl, rfl, rfl, fun y h => by simp at h⟩
  | cons x xs ih =>
    intro ms ts hl h
    cases ms with
    | nil => simp at hl
    | cons m ms =>
      simp only [List.map_cons, convertHosts, bind, Except.bind] at h
      split at h
      · cases h
      · rename_i t ht
        split at h
        · cases h
        · rename_i ts' hts
          simp only [pure, Except.pure, Except.ok.injEq] at h
          subst h
          obtain ⟨ys, e1, e2, e3, e4, e5⟩ := ih ms ts' (by simpa using hl) hts
          refine ⟨(x, m, t) :: ys, by simp [e1], by simp [e2], by simp [e3], by simp [e4], ?_⟩
          intro y hy
          rcases List.mem_cons.mp hy with rfl | hy
          · exact ht
          · exact e5 y hy

/-- Training one tree. -/
theorem leads_fit {idle : R} (S : Setup K α) (p : X → Party K) (xs : List X)
    (hxs : S.hosts = xs.map p) (F : Fitted K) (h : fit S = .ok F)
    (kg : GuestTree K → Prog K α R) (kh : X → List Node × Dict Nat Rat → Prog K α R) :
    F.hostMasks.length = xs.length ∧
    Leads (lock idle (guestFit (guestIn S) >>= kg)
        (xs.map fun x => hostFit (hostIn S (p x)) >>= kh x))
      (lock idle (kg ⟨F.tree, F.guestMask, F.weights, F.imps⟩)
        ((xs.zip F.hostMasks).map fun z => kh z.1 (F.tree, z.2))) := by
  simp only [fit, bind, Except.bind] at h
  split at h
  · cases h
  rename_i st0 h0
  split at h
  · cases h
  rename_i st h1
  split at h
  · cases h
  rename_i gm hgm
  split at h
  · cases h
  rename_i hm hhm
  simp only [pure, Except.pure, Except.ok.injEq] at h
  subst h
  have hmasks : st0.masks = xs.map fun _ => [] := by
    simp only [initState, bind, Except.bind] at h0
    split at h0
    · cases h0
    split at h0
    · cases h0
    split at h0
    · cases h0
    simp only [pure, Except.pure, Except.ok.injEq] at h0
    rw [← h0, hxs, List.map_map]
    rfl
  have hinit : guestInit (guestIn S) = .ok ⟨st0.grow, st0.disp, st0.weights⟩ := by
    simp only [initState, bind, Except.bind] at h0
    split at h0
    · cases h0
    rename_i gh hgh
    split at h0
    · cases h0
    rename_i w hw
    split at h0
    · cases h0
    rename_i d hd
    simp only [pure, Except.pure, Except.ok.injEq] at h0
    subst h0
    have e1 : gradHessSum (guestIn S).cfg.rnd (guestIn S).gh = .ok gh := hgh
    have e2 : nodeWeight (guestIn S).cfg.rnd (guestIn S).cfg.regLambda gh.1 gh.2 = .ok w := hw
    have e3 : (guestIn S).party.data.mapValues (fun _ => Disp.at 1 0) = .ok d := hd
    simp only [guestInit, bind, Except.bind, e1, e2, e3]
    rfl
  have hl0 : st0.masks.length = xs.length := by rw [hmasks]; simp
  have hlen : (guestIn S).conns = xs.length := by
    show S.hosts.length = _
    simp [hxs]
  have eg : (guestFit (guestIn S) >>= kg)
      = sendAll (.gradHess S.encGh) (List.range (guestIn S).conns) >>= fun _ =>
          guestLevels (guestIn S) S.maxDepth 0 ⟨st0.grow, st0.disp, st0.weights⟩ >>= fun st =>
            sendAll (.tree st.grow.tree) (List.range (guestIn S).conns) >>= fun _ =>
              lift (convert .guest S.guest.splits st.grow.mask st.grow.tree []) >>= fun m =>
                kg ⟨st.grow.tree, m, st.weights, st.grow.imps⟩ := by
    simp only [guestFit, bind_bind, hinit, lift_ok, pure_bind']
    rfl
  have eh : (xs.map fun x => hostFit (hostIn S (p x)) >>= kh x)
      = xs.map fun x => recvAs none Msg.asGradHess >>= fun egh =>
          hostLevels (hostIn S (p x)) egh S.maxDepth 0 [] >>= fun mask =>
            recvAs none Msg.asTree >>= fun tree =>
              lift (convert (.host (p x).idx) (p x).splits mask tree []) >>= fun m => kh x (tree, m) := by
    refine List.map_congr_left fun x _ => ?_
    simp only [hostFit, bind_bind, pure_bind']
    rfl
  obtain ⟨l1, c1⟩ := leads_levels (idle := idle) S p xs hxs S.maxDepth 0 st0 st hl0 h1
    (fun st => sendAll (.tree st.grow.tree) (List.range (guestIn S).conns) >>= fun _ =>
              lift (convert .guest S.guest.splits st.grow.mask st.grow.tree []) >>= fun m =>
                kg ⟨st.grow.tree, m, st.weights, st.grow.imps⟩)
    (fun x mask => recvAs none Msg.asTree >>= fun tree =>
              lift (convert (.host (p x).idx) (p x).splits mask tree []) >>= fun m => kh x (tree, m))
  rw [hxs] at hhm
  obtain ⟨ys, e1, e2, e3, e4, e5⟩ := exists_masks p st.grow.tree xs st.masks hm l1 hhm
  refine ⟨e3, ?_⟩
  rw [eg, eh]
  refine Leads.trans (leads_sendAll xs (.gradHess S.encGh) S.encGh Msg.asGradHess rfl _
    (fun x egh => hostLevels (hostIn S (p x)) egh S.maxDepth 0 [] >>= fun mask =>
            recvAs none Msg.asTree >>= fun tree =>
              lift (convert (.host (p x).idx) (p x).splits mask tree []) >>= fun m => kh x (tree, m)) _ hlen) ?_
  have e6 : (xs.map fun x => hostLevels (hostIn S (p x)) S.encGh S.maxDepth 0 [] >>= fun mask =>
            recvAs none Msg.asTree >>= fun tree =>
              lift (convert (.host (p x).idx) (p x).splits mask tree []) >>= fun m => kh x (tree, m))
      = (xs.zip st0.masks).map fun z => (hostLevels (hostIn S (p z.1)) S.encGh S.maxDepth 0 z.2 >>= fun mask =>
            recvAs none Msg.asTree >>= fun tree =>
              lift (convert (.host (p z.1).idx) (p z.1).splits mask tree []) >>= fun m => kh z.1 (tree, m) : Prog K α R) := by
    rw [hmasks, show xs.zip (xs.map fun _ => ([] : Dict Nat Int)) = xs.map fun x => (x, []) by
      have := List.zip_map' (f := id) (g := fun _ : X => ([] : Dict Nat Int)) (l := xs)
      simpa using this, List.map_map]
    rfl
  rw [e6]
  refine Leads.trans c1 ?_
  rw [e1, e2, List.map_map, List.map_map]
  refine Leads.trans (leads_sendAll ys (.tree st.grow.tree) st.grow.tree Msg.asTree rfl _
    (fun y tree => lift (convert (.host (p y.1).idx) (p y.1).splits y.2.1 tree []) >>= fun m => kh y.1 (tree, m))
    _ (by rw [hlen, e4])) ?_
  have e7 : (ys.map fun y => lift (convert (.host (p y.1).idx) (p y.1).splits y.2.1 st.grow.tree [])
        >>= fun m => kh y.1 (st.grow.tree, m))
      = ys.map fun y => kh y.1 (st.grow.tree, y.2.2) := by
    refine List.map_congr_left fun y hy => ?_
    rw [e5 y hy, lift_ok]
  rw [e7, hgm, lift_ok]
  exact Leads.refl _

end Network
end Verif
