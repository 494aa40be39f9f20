import Verif.Lemmas.Breaks

/-!
# Failing over the network

Where the composed computation raises, one of the parties, each running its own program, raises.
-/

set_option autoImplicit false

namespace Verif
namespace Network

open DTree Spec
open Histogram (Arith getHistograms plain getAt Hist)
open Binning (Cell SparseVec)

variable {K : Type} [DecidableEq K] {α R X L : Type} {idle : R}

/-- Hosts that compute everything in a batch make the composed computation succeed. -/
theorem of_hb (S : Setup K α) (p : X → Party K) (pos : DTable K (Nat × Nat)) (ids : List Nat)
    (C : Cipher α) (sums : List (Rat × Rat)) (ys : List (HB K α X)) (j : Nat)
    (h : ∀ (i : Nat) (y : HB K α X), ys[i]? = some y → y.Good S p pos ids C sums (j + i)) :
    ∃ sides, hostSides S pos ids (ys.map fun y => p y.x) (ys.map HB.mask) = .ok sides ∧
      hostsBatch S.cfg C ids sums j sides = .ok (ys.map fun y => (y.finals, y.mask')) := by
  induction ys generalizing j with
  | nil => exact ⟨[], rfl, rfl⟩
  | cons y ys ih =>
    obtain ⟨sides, h1, h2⟩ := ih (j + 1) (fun i z hz => by
      rw [show j + 1 + i = j + (i + 1) by omega]
      exact h (i + 1) z (by simpa using hz))
    have g := h 0 y rfl
    refine ⟨⟨(p y.x).idx, (p y.x).valid, y.hist, y.mask⟩ :: sides, ?_, ?_⟩
    · simp only [List.map_cons, hostSides, g.data, g.hist, h1, bind, Except.bind, pure, Except.pure]
    · have hb : bestForHost S.cfg C j 0 sums y.encs = .ok y.bests := g.bests
      simp only [hostsBatch, hostBatch, g.cands, hb, g.finals, h2, bind, Except.bind, pure,
        Except.pure, List.map_cons]

omit [DecidableEq K] in
/-- The guest's answers to the hosts, one of which cannot be computed. -/
theorem breaks_answerHosts {Y : Type} (cfg : Config) (C : Cipher α)
    (sums : List (Rat × Rat)) (k : Prog K α R) (enc : Y → List (List (α × α)))
    (cont : Y → List (Int × α) → Prog K α R) (ys : List Y)
    (h : ∃ (i : Nat) (y : Y) (e : PyErr), ys[i]? = some y ∧
      bestForHost cfg C i 0 sums (enc y) = .error e) :
    Breaks (lock idle (answerHosts cfg C sums 0 (ys.map enc) >>= fun _ => k)
        (ys.map fun y => recvAs none Msg.asBests >>= cont y)) := by
  suffices H : ∀ (pre : List (Prog K α R)),
      (∃ (i : Nat) (y : Y) (e : PyErr), ys[i]? = some y ∧
        bestForHost cfg C (pre.length + i) 0 sums (enc y) = .error e) →
      Breaks (lock idle (answerHosts cfg C sums pre.length (ys.map enc) >>= fun _ => k)
          (pre ++ ys.map fun y => recvAs none Msg.asBests >>= cont y)) from
    H [] (by simpa using h)
  clear h
  induction ys with
  | nil => rintro pre ⟨i, y, e, h, _⟩; simp at h
  | cons y ys ih =>
    rintro pre ⟨i, z, e, hz, he⟩
    rw [List.map_cons, answerHosts, bind_bind]
    refine breaks_lift fun b hb => ?_
    rw [bind_bind, sendTo_bind]
    refine Breaks.of_leads (leads_to_host (f := fun m => lift (Msg.asBests m) >>= cont y) ?_) ?_
    · simp [recvAs_bind]
    · rw [List.map_cons, set_at_append]
      cases i with
      | zero =>
        simp only [List.getElem?_cons_zero, Option.some.injEq] at hz
        subst hz
        rw [Nat.add_zero, hb] at he
        cases he
      | succ i =>
        have := ih (pre ++ [cont y b]) ⟨i, z, e, by simpa using hz, by
          rw [List.length_append, List.length_singleton,
            show pre.length + 1 + i = pre.length + (i + 1) by omega]
          exact he⟩
        rw [List.length_append, List.length_singleton, List.append_assoc] at this
        exact this

/-- A batch of nodes. -/
theorem breaks_batch (S : Setup K α) (p : X → Party K) (pos : DTable K (Nat × Nat))
    (dep batch : Nat) (dataPos : DTable K (SparseVec Cell × Nat × Nat)) (nodes : List Node)
    (xs : List X) (hxs : S.hosts = xs.map p) (ms : List (Dict Nat Int))
    (hms : ms.length = xs.length) (e : PyErr)
    (h : batchSplits S dep batch dataPos pos nodes ms = .error e)
    (D : X → DTable K (SparseVec Cell × Nat × Nat))
    (hD : ∀ x ∈ xs, (p x).data.join pos (fun v q => (v, q)) = .ok (D x))
    (kg : List (SplitInfo (Option Rat) Rat) → Prog K α R) (kh : X → Dict Nat Int → Prog K α R) :
    Breaks (lock idle (guestBatch (guestIn S) dep batch dataPos nodes >>= kg)
        ((xs.zip ms).map fun z => hostBatchP (hostIn S (p z.1)) S.encGh dep batch (D z.1)
          (nodes.map Node.id) z.2 >>= kh z.1)) := by
  rw [guestBatch, bind_bind]
  refine breaks_lift fun H hH => ?_
  rw [bind_bind]
  refine breaks_lift fun gs hgs => ?_
  rw [bind_bind]
  have hlen : (guestIn S).conns = (xs.zip ms).zipIdx.length := by
    show S.hosts.length = _
    simp [hxs, hms]
  have e1 : ((xs.zip ms).map fun z => hostBatchP (hostIn S (p z.1)) S.encGh dep batch (D z.1)
          (nodes.map Node.id) z.2 >>= kh z.1)
      = (xs.zip ms).zipIdx.map fun y => lift (getHistograms S.arith (p y.1.1).splits (p y.1.1).sparse
          (some (p y.1.1).valid) (nodes.map Node.id) (D y.1.1) S.encGh) >>= fun E =>
          lift (findSplitHost S.cfg (p y.1.1).valid (.host (p y.1.1).idx) E) >>= fun s =>
          sendTo none (.cands s.2) >>= fun _ => recvAs none Msg.asBests >>= fun b =>
          lift (finalSplits (noKey (S.cipher dep batch).zero) (.host (p y.1.1).idx) y.1.2 (nodes.map Node.id) s.1 b)
            >>= fun f => sendTo none (.finals f.1) >>= fun _ => kh y.1.1 f.2 := by
    conv_lhs => rw [← List.zipIdx_map_fst 0 (xs.zip ms)]
    rw [List.map_map]
    refine List.map_congr_left fun y _ => ?_
    simp only [Function.comp, hostBatchP, hostIn, bind_bind, pure_bind']
  rw [e1]
  generalize hzs : (xs.zip ms).zipIdx = zs at *
  refine breaks_lifts [] _ _ fun hhist => ?_
  refine breaks_lifts ([], []) _ _ fun hcands => ?_
  set hist : (X × Dict Nat Int) × Nat → Hist α := fun y => okOr [] (getHistograms S.arith (p y.1.1).splits
    (p y.1.1).sparse (some (p y.1.1).valid) (nodes.map Node.id) (D y.1.1) S.encGh) with hhist'
  set cands : (X × Dict Nat Int) × Nat → List (List (SplitInfo α Unit)) × List (List (α × α)) := fun y =>
    okOr ([], []) (findSplitHost S.cfg (p y.1.1).valid (.host (p y.1.1).idx) (hist y)) with hcands'
  refine Breaks.of_leads (leads_recvAll zs (fun y => Msg.cands (cands y).2) (fun y => (cands y).2) Msg.asCands
    (fun _ _ => rfl) _ _ _ hlen) ?_
  rw [bind_bind]
  by_cases hb : ∃ (i : Nat) (y : (X × Dict Nat Int) × Nat) (e : PyErr), zs[i]? = some y ∧
      bestForHost S.cfg (S.cipher dep batch) i 0 (nodes.map fun n => (n.sumGrad, n.sumHess)) (cands y).2
        = .error e
  · exact breaks_answerHosts S.cfg (S.cipher dep batch) _ _ _ _ zs hb
  set bests : (X × Dict Nat Int) × Nat → List (Int × α) := fun y => okOr []
    (bestForHost S.cfg (S.cipher dep batch) y.2 0 (nodes.map fun n => (n.sumGrad, n.sumHess)) (cands y).2) with hbests'
  have hidx : ∀ (i : Nat) (y : (X × Dict Nat Int) × Nat), zs[i]? = some y → y.2 = i := by
    intro i y hy
    rw [← hzs, List.getElem?_zipIdx] at hy
    simp only [Option.map_eq_some_iff] at hy
    obtain ⟨a, _, rfl⟩ := hy
    simp
  have hbests : ∀ (i : Nat) y, zs[i]? = some y →
      bestForHost S.cfg (S.cipher dep batch) i 0 (nodes.map fun n => (n.sumGrad, n.sumHess)) (cands y).2
        = .ok (bests y) := by
    intro i y hy
    rw [hbests']
    simp only [hidx i y hy]
    cases hr : bestForHost S.cfg (S.cipher dep batch) i 0 (nodes.map fun n => (n.sumGrad, n.sumHess)) (cands y).2 with
    | ok v => rfl
    | error e => exact (hb ⟨i, y, e, hy, hr⟩).elim
  refine Breaks.of_leads (leads_answerHosts S.cfg (S.cipher dep batch) _ _ (fun y => (cands y).2) bests _ zs
    hbests) ?_
  refine breaks_lifts ([], []) _ _ fun hfin => ?_
  rw [bind_bind]
  set fin : (X × Dict Nat Int) × Nat → List (SplitInfo α α) × Dict Nat Int := fun y =>
    okOr ([], []) (finalSplits (noKey (S.cipher dep batch).zero) (.host (p y.1.1).idx) y.1.2
      (nodes.map Node.id) (cands y).1 (bests y)) with hfin'
  refine Breaks.of_leads (leads_recvAll zs (fun y => Msg.finals (fin y).1) (fun y => (fin y).1) Msg.asFinals
    (fun _ _ => rfl) _ _ _ hlen) ?_
  refine breaks_lift fun best hbest => ?_
  exfalso
  let ys : List (HB K α X) := zs.map fun y => ⟨y.1.1, y.1.2, D y.1.1, hist y, (cands y).1, (cands y).2, bests y,
    (fin y).1, (fin y).2⟩
  have hmem : ∀ y ∈ zs, y.1.1 ∈ xs := by
    intro y hy
    have : y.1 ∈ xs.zip ms := by
      rw [← List.zipIdx_map_fst 0 (xs.zip ms), hzs]
      exact List.mem_map_of_mem hy
    exact (List.of_mem_zip this).1
  obtain ⟨sides, s1, s2⟩ := of_hb S p pos (nodes.map Node.id) (S.cipher dep batch)
    (nodes.map fun n => (n.sumGrad, n.sumHess)) ys 0 (by
      intro i y hy
      rw [List.getElem?_map, Option.map_eq_some_iff] at hy
      obtain ⟨z, hz, rfl⟩ := hy
      have hm := List.mem_of_getElem? hz
      refine ⟨hD _ (hmem z hm), hhist z hm, hcands z hm, ?_, ?_⟩
      · rw [Nat.zero_add]
        exact hbests i z hz
      · exact (finalSplits_noKey ..).symm.trans (hfin z hm))
  have x1 : ys.map (fun y => p y.x) = S.hosts := by
    rw [hxs, List.map_map]
    rw [show xs.map p = ((xs.zip ms).map Prod.fst).map p by rw [List.map_fst_zip (by omega)],
      ← List.zipIdx_map_fst 0 (xs.zip ms), hzs]
    simp [Function.comp_def]
  have x2 : ys.map HB.mask = ms := by
    rw [List.map_map]
    rw [show ms = (xs.zip ms).map Prod.snd by rw [List.map_snd_zip (by omega)]]
    conv_rhs => rw [← List.zipIdx_map_fst 0 (xs.zip ms)]
    rw [hzs]
    simp [Function.comp_def]
  rw [x1, x2] at s1
  have x3 : zs.map (fun y => (fin y).1) = (ys.map fun y => (y.finals, y.mask')).map Prod.fst := by
    simp [ys, Function.comp_def]
  rw [x3] at hbest
  have hH' : getHistograms (Histogram.floats S.cfg.rnd) S.guest.splits S.guest.sparse (some S.guest.valid) (nodes.map Node.id) dataPos S.gh
    = .ok H := hH
  have hgs' : findSplit S.cfg S.guest.valid H = .ok gs := hgs
  have hbest' : mergeLoop S.cfg.rnd (S.cipher dep batch) ((ys.map fun y => (y.finals, y.mask')).map Prod.fst) 0 gs
    = .ok best := hbest
  simp only [batchSplits, splitBatch, bind, Except.bind, hH', s1, hgs', s2, hbest', pure, Except.pure] at h
  cases h

/-- The batches of a level. -/
theorem breaks_batches (S : Setup K α) (p : X → Party K) (pos : DTable K (Nat × Nat))
    (dep : Nat) (dataPos : DTable K (SparseVec Cell × Nat × Nat)) (xs : List X)
    (hxs : S.hosts = xs.map p) (D : X → DTable K (SparseVec Cell × Nat × Nat))
    (hD : ∀ x ∈ xs, (p x).data.join pos (fun v q => (v, q)) = .ok (D x))
    (fuel batch : Nat) (nodes : List Node) (ms : List (Dict Nat Int))
    (hms : ms.length = xs.length) (e : PyErr)
    (h : batchLoop S dep dataPos pos fuel batch nodes ms = .error e)
    (kg : List (SplitInfo (Option Rat) Rat) → Prog K α R) (kh : X → Dict Nat Int → Prog K α R) :
    Breaks (lock idle (guestBatches (guestIn S) dep dataPos fuel batch nodes >>= kg)
        ((xs.zip ms).map fun z => hostBatches (hostIn S (p z.1)) S.encGh dep (D z.1) fuel batch
          (nodes.map Node.id) z.2 >>= kh z.1)) := by
  induction fuel generalizing batch nodes ms kg kh e with
  | zero => cases nodes <;> simp [batchLoop] at h
  | succ fuel ih =>
    cases nodes with
    | nil => simp [batchLoop] at h
    | cons n ns =>
      have start : Breaks (lock idle (guestBatch (guestIn S) dep batch dataPos ((n :: ns).take S.maxSplitNodes)
            >>= fun ss => guestBatches (guestIn S) dep dataPos fuel (batch + 1) ((n :: ns).drop S.maxSplitNodes)
              >>= fun rest => kg (ss ++ rest))
          ((xs.zip ms).map fun z => hostBatchP (hostIn S (p z.1)) S.encGh dep batch (D z.1)
            (((n :: ns).take S.maxSplitNodes).map Node.id) z.2 >>= fun m =>
            hostBatches (hostIn S (p z.1)) S.encGh dep (D z.1) fuel (batch + 1)
              (((n :: ns).drop S.maxSplitNodes).map Node.id) m >>= kh z.1)) := by
        simp only [batchLoop, bind, Except.bind] at h
        split at h
        · rename_i x h1
          exact breaks_batch S p pos dep batch dataPos _ xs hxs ms hms x h1 D hD _
            (fun x m => hostBatches (hostIn S (p x)) S.encGh dep (D x) fuel (batch + 1)
              (((n :: ns).drop S.maxSplitNodes).map Node.id) m >>= kh x)
        · rename_i r1 h1
          obtain ⟨l1, c1⟩ := leads_batch (idle := idle) S p pos dep batch dataPos _ xs hxs ms r1.2 hms r1.1 h1 D hD
            (fun ss => guestBatches (guestIn S) dep dataPos fuel (batch + 1) ((n :: ns).drop S.maxSplitNodes)
              >>= fun rest => kg (ss ++ rest))
            (fun x m => hostBatches (hostIn S (p x)) S.encGh dep (D x) fuel (batch + 1)
              (((n :: ns).drop S.maxSplitNodes).map Node.id) m >>= kh x)
          refine Breaks.of_leads c1 ?_
          split at h
          · rename_i x h2
            exact ih (batch + 1) _ r1.2 l1 x h2 (fun rest => kg (r1.1 ++ rest)) kh
          · cases h
      rw [guestBatches]
      simp only [List.map_cons, hostBatches, bind_bind, pure_bind']
      simp only [List.map_take, List.map_drop, List.map_cons] at start ⊢
      exact start

/-- Hosts that answer make the composed computation succeed. -/
theorem hostAnswers_of (p : X → Party K) (q : DTable K Disp) (v : X × Dict Nat Int → DTable K Disp) :
    ∀ (xs : List X) (ms : List (Dict Nat Int)), ms.length = xs.length →
      (∀ z ∈ xs.zip ms, q.joinM (p z.1).data (dispatchHost (.host (p z.1).idx) z.2 (p z.1).sparse)
        = .ok (v z)) → hostAnswers q (xs.map p) ms = .ok ((xs.zip ms).map v) := by
  intro xs
  induction xs with
  | nil => intro ms _ _; rfl
  | cons x xs ih =>
    intro ms hl h
    cases ms with
    | nil => simp at hl
    | cons m ms =>
      have h1 := h (x, m) (by simp)
      have h2 := ih ms (by simpa using hl) (fun z hz => h z (by simp [hz]))
      simp only at h1
      simp only [List.map_cons, hostAnswers, h1, h2, bind, Except.bind, pure, Except.pure, List.zip_cons_cons]

/-- The samples move to the next level. -/
theorem breaks_redispatch (S : Setup K α) (p : X → Party K) (xs : List X)
    (hxs : S.hosts = xs.map p) (g : Grow) (ms : List (Dict Nat Int)) (hms : ms.length = xs.length)
    (dataPos : DTable K (SparseVec Cell × Nat × Nat)) (weights : Option (DTable K Rat)) (e : PyErr)
    (h : redispatch S g ms dataPos weights = .error e)
    (kg : GuestState K → Prog K α R) (kh : X → Dict Nat Int → Prog K α R) :
    Breaks (lock idle (guestRedispatch (guestIn S) g dataPos weights >>= kg)
        ((xs.zip ms).map fun z => recvAs none Msg.asQuestions >>= fun q =>
          lift (q.joinM (p z.1).data (dispatchHost (.host (p z.1).idx) z.2 (p z.1).sparse)) >>= fun a =>
          sendTo none (.answers a) >>= fun _ => kh z.1 z.2)) := by
  have hlen : (guestIn S).conns = (xs.zip ms).length := by
    show S.hosts.length = _
    simp [hxs, hms]
  simp only [guestRedispatch, bind_bind]
  refine breaks_lift fun res hres => ?_
  refine breaks_lift fun q hq => ?_
  refine breaks_lift fun res2 hres2 => ?_
  refine breaks_lift fun leaf hleaf => ?_
  refine breaks_lift fun leafW hleafW => ?_
  refine breaks_lift fun w hw => ?_
  refine breaks_lift fun res3 hres3 => ?_
  refine Breaks.of_leads (leads_sendAll (xs.zip ms) (.questions q) q Msg.asQuestions rfl _
    (fun z q => lift (q.joinM (p z.1).data (dispatchHost (.host (p z.1).idx) z.2 (p z.1).sparse))
      >>= fun a => sendTo none (.answers a) >>= fun _ => kh z.1 z.2) _ hlen) ?_
  refine breaks_lifts ⟨[]⟩ _ _ fun ha => ?_
  refine Breaks.of_leads (leads_recvAll (xs.zip ms) (fun z => Msg.answers (okOr ⟨[]⟩ (q.joinM (p z.1).data
    (dispatchHost (.host (p z.1).idx) z.2 (p z.1).sparse)))) _ Msg.asAnswers
    (fun _ _ => rfl) _ _ _ hlen) ?_
  refine breaks_lift fun f hf => ?_
  refine breaks_lift fun disp hdisp => ?_
  exfalso
  have hts := hostAnswers_of p q _ xs ms hms ha
  rw [← hxs] at hts
  have hres' : dataPos.mapValuesM (dispatchNode g.tree g.mask S.guest.sparse) = .ok res := hres
  simp only [redispatch, bind, Except.bind, hres', hq, hres2, hleaf, hleafW, hw, hres3, hts, hf, hdisp,
    pure, Except.pure] at h
  cases h

/-- A level. -/
theorem breaks_level (S : Setup K α) (p : X → Party K) (xs : List X)
    (hxs : S.hosts = xs.map p) (dep : Nat) (reach : Bool) (st : State K)
    (hms : st.masks.length = xs.length) (e : PyErr) (h : level S dep reach st = .error e)
    (kg : GuestState K → Prog K α R) (kh : X → Dict Nat Int → Prog K α R) :
    Breaks (lock idle (guestLevel (guestIn S) dep reach ⟨st.grow, st.disp, st.weights⟩ >>= kg)
        ((xs.zip st.masks).map fun z => hostLevel (hostIn S (p z.1)) S.encGh dep
          (st.grow.queue.map Node.id) z.2 >>= kh z.1)) := by
  have hlen : (guestIn S).conns = (xs.zip st.masks).length := by
    show S.hosts.length = _
    simp [hxs, hms]
  simp only [guestLevel, hostLevel, bind_bind]
  refine Breaks.of_leads (leads_sendAll (xs.zip st.masks) (.positions st.disp) st.disp Msg.asPositions rfl _
    (fun z disp => _) _ hlen) ?_
  refine breaks_lift fun pos hpos => ?_
  refine breaks_lift fun dataPos hdp => ?_
  simp only [hpos, lift_ok]
  have hdp' : S.guest.data.join pos (fun v p => (v, p)) = .ok dataPos := hdp
  simp only [level, hpos, hdp', bind, Except.bind] at h
  by_cases hmax : S.maxSplitNodes = 0
  · have hmax' : (guestIn S).maxSplitNodes = 0 := hmax
    rw [if_pos hmax']
    exact breaks_guest .valueError _
  have hmax' : ¬ (guestIn S).maxSplitNodes = 0 := hmax
  have hmax'' : ∀ H, ¬ (hostIn S H).maxSplitNodes = 0 := fun _ => hmax
  simp only [if_neg hmax', if_neg (hmax'' _), bind_bind, pure_bind']
  simp only [if_neg hmax] at h
  refine breaks_lifts ⟨[]⟩ _ _ fun hj => ?_
  set D : X → DTable K (SparseVec Cell × Nat × Nat) := fun x =>
    okOr ⟨[]⟩ ((p x).data.join pos (fun v q => (v, q))) with hD'
  have hD : ∀ x ∈ xs, (p x).data.join pos (fun v q => (v, q)) = .ok (D x) := by
    intro x hx
    have : x ∈ (xs.zip st.masks).map Prod.fst := by rwa [List.map_fst_zip (by omega)]
    obtain ⟨z, hz, rfl⟩ := List.mem_map.mp this
    exact hj z hz
  simp only [List.length_map]
  split at h
  · rename_i x hx
    exact breaks_batches S p pos dep dataPos xs hxs D hD st.grow.queue.length 0 st.grow.queue st.masks hms x hx
      _ (fun x mask => recvAs none Msg.asQuestions >>= fun q =>
            lift (q.joinM (p x).data (dispatchHost (.host (p x).idx) mask (p x).sparse)) >>= fun a =>
            sendTo none (.answers a) >>= fun _ => kh x mask)
  rename_i r hr
  obtain ⟨l1, c1⟩ := leads_batches (idle := idle) S p pos dep dataPos xs hxs D hD st.grow.queue.length 0 st.grow.queue
    st.masks r.2 hms r.1 hr
    (fun ss => lift (updateQueue S.cfg S.kind reach ss st.grow) >>= fun g =>
      guestRedispatch (guestIn S) g dataPos st.weights >>= kg)
    (fun x m => recvAs none Msg.asQuestions >>= fun q =>
      lift (q.joinM (p x).data (dispatchHost (.host (p x).idx) m (p x).sparse)) >>= fun a =>
      sendTo none (.answers a) >>= fun _ => kh x m)
  refine Breaks.of_leads c1 ?_
  refine breaks_lift fun g hg => ?_
  simp only [hg] at h
  split at h
  · rename_i x hx
    exact breaks_redispatch S p xs hxs g r.2 l1 dataPos st.weights x hx kg kh
  · cases h

end Network
end Verif
