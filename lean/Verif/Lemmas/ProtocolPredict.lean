import Verif.Lemmas.ProtocolBoost

/-!
# Prediction over the network
-/

set_option autoImplicit false

namespace Verif
namespace Network

open DTree Spec
open Histogram (getAt)
open Binning (Cell SparseVec)

variable {K : Type} [DecidableEq K] {α R X L : Type}

theorem hostWalks_map (tree : List Node) (fuel : Nat) (todo : DTable K PState) (q : X → PredHost K)
    (xs : List X) (as : List (DTable K PState)) (h : hostWalks tree fuel todo (xs.map q) = .ok as) :
    as = xs.map (fun x => okOr todo (todo.joinM (q x).rows
        (traverseHost tree (q x).mask (.host (q x).idx) fuel))) ∧
      ∀ x ∈ xs, todo.joinM (q x).rows (traverseHost tree (q x).mask (.host (q x).idx) fuel)
        = .ok (okOr todo (todo.joinM (q x).rows (traverseHost tree (q x).mask (.host (q x).idx) fuel))) := by
  induction xs generalizing as with
  | nil =>
    simp only [List.map_nil, hostWalks, Except.ok.injEq] at h
    exact ⟨by simp [← h], fun x hx => by simp at hx⟩
  | cons x xs ih =>
    simp only [List.map_cons, hostWalks, bind, Except.bind] at h
    split at h
    · cases h
    rename_i t ht
    split at h
    · cases h
    rename_i ts hts
    simp only [pure, Except.pure, Except.ok.injEq] at h
    subst h
    obtain ⟨e1, e2⟩ := ih ts hts
    refine ⟨by rw [List.map_cons, ← e1, ht]; rfl, fun y hy => ?_⟩
    rcases List.mem_cons.mp hy with rfl | hy
    · simp [ht, okOr]
    · exact e2 y hy

theorem leads_predictLoop {idle : R} (tree : List Node) (mask : Dict Nat Rat)
    (rows : DTable K (SparseVec Rat)) (q : X → PredHost K) (xs : List X) (fuel r : Nat)
    (todo : DTable K PState) (result : Option (DTable K Rat)) (w : DTable K Rat)
    (h : predictLoop tree mask rows (xs.map q) fuel r todo result = .ok w)
    (n : Nat) (hn : n = xs.length) (kg : DTable K Rat → Prog K α R) (kh : X → Prog K α R) :
    Leads (lock idle (guestPredictLoop n tree mask rows fuel r todo result >>= kg)
        (xs.map fun x => hostPredictLoop (.host (q x).idx) tree (q x).mask (q x).rows fuel r >>= fun _ => kh x))
      (lock idle (kg w) (xs.map kh)) := by
  induction r generalizing todo result with
  | zero => simp [predictLoop] at h
  | succ r ih =>
    simp only [predictLoop, bind, Except.bind] at h
    split at h
    · cases h
    rename_i moved h1
    split at h
    · cases h
    rename_i leaf h2
    split at h
    · cases h
    rename_i leafW h3
    split at h
    · cases h
    rename_i res h4
    split at h
    · cases h
    rename_i todo' h5
    have hh : (xs.map fun x => hostPredictLoop (α := α) (.host (q x).idx) tree (q x).mask (q x).rows fuel (r + 1)
          >>= fun _ => kh x)
        = xs.map fun x => recvAs none Msg.asFinish >>= fun tag =>
          (if tag then pure () else recvAs none Msg.asWalking >>= fun todo =>
            lift (todo.joinM (q x).rows (traverseHost tree (q x).mask (.host (q x).idx) fuel)) >>= fun t =>
            sendTo none (.walked t) >>= fun _ =>
            hostPredictLoop (.host (q x).idx) tree (q x).mask (q x).rows fuel r) >>= fun _ => kh x := by
      refine List.map_congr_left fun x _ => ?_
      simp only [hostPredictLoop, bind_bind]
    rw [hh]
    by_cases hc : todo'.count = 0
    · simp only [hc, if_true, pure, Except.pure, Except.ok.injEq] at h
      subst h
      have hg : (guestPredictLoop (α := α) n tree mask rows fuel (r + 1) todo result >>= kg)
          = sendAll (.finish true) (List.range n) >>= fun _ => kg res := by
        simp only [guestPredictLoop, bind_bind, h1, h2, h3, h4, h5, lift_ok, hc, if_true, pure_bind']
      rw [hg]
      have c1 := leads_sendAll (idle := idle) xs (.finish true) true Msg.asFinish rfl (kg res)
        (fun x tag => (if tag then (pure () : Prog K α Unit) else recvAs none Msg.asWalking >>= fun todo =>
            lift (todo.joinM (q x).rows (traverseHost tree (q x).mask (.host (q x).idx) fuel)) >>= fun t =>
            sendTo none (.walked t) >>= fun _ =>
            hostPredictLoop (.host (q x).idx) tree (q x).mask (q x).rows fuel r) >>= fun _ => kh x) n hn
      exact c1
    · simp only [if_neg hc] at h
      split at h
      · cases h
      rename_i as h6
      split at h
      · cases h
      rename_i todo'' h7
      obtain ⟨e1, e2⟩ := hostWalks_map tree fuel todo' q xs as h6
      have hg : (guestPredictLoop (α := α) n tree mask rows fuel (r + 1) todo result >>= kg)
          = sendAll (.finish false) (List.range n) >>= fun _ =>
            sendAll (.walking todo') (List.range n) >>= fun _ =>
            recvAll Msg.asWalked (List.range n) >>= fun as => lift (mergeWalks todo' as) >>= fun todo =>
            guestPredictLoop n tree mask rows fuel r todo (some res) >>= kg := by
        simp only [guestPredictLoop, bind_bind, h1, h2, h3, h4, h5, lift_ok, if_neg hc]
      rw [hg]
      have c1 := leads_sendAll (idle := idle) xs (.finish false) false Msg.asFinish rfl
        (sendAll (.walking todo') (List.range n) >>= fun _ =>
            recvAll Msg.asWalked (List.range n) >>= fun as => lift (mergeWalks todo' as) >>= fun todo =>
            guestPredictLoop n tree mask rows fuel r todo (some res) >>= kg)
        (fun x tag => (if tag then (pure () : Prog K α Unit) else recvAs none Msg.asWalking >>= fun todo =>
            lift (todo.joinM (q x).rows (traverseHost tree (q x).mask (.host (q x).idx) fuel)) >>= fun t =>
            sendTo none (.walked t) >>= fun _ =>
            hostPredictLoop (.host (q x).idx) tree (q x).mask (q x).rows fuel r) >>= fun _ => kh x) n hn
      refine Leads.trans c1 ?_
      simp only [Bool.false_eq_true, if_false, bind_bind]
      have c2 := leads_sendAll (idle := idle) xs (.walking todo') todo' Msg.asWalking rfl
        (recvAll Msg.asWalked (List.range n) >>= fun as => lift (mergeWalks todo' as) >>= fun todo =>
            guestPredictLoop n tree mask rows fuel r todo (some res) >>= kg)
        (fun x todo =>
            lift (todo.joinM (q x).rows (traverseHost tree (q x).mask (.host (q x).idx) fuel)) >>= fun t =>
            sendTo (α := α) none (.walked t) >>= fun _ =>
            hostPredictLoop (.host (q x).idx) tree (q x).mask (q x).rows fuel r >>= fun _ => kh x) n hn
      refine Leads.trans c2 ?_
      have hm : (xs.map fun x =>
            lift (todo'.joinM (q x).rows (traverseHost tree (q x).mask (.host (q x).idx) fuel)) >>= fun t =>
            sendTo (α := α) none (.walked t) >>= fun _ =>
            hostPredictLoop (.host (q x).idx) tree (q x).mask (q x).rows fuel r >>= fun _ => kh x)
          = xs.map fun x => sendTo (α := α) none (.walked (okOr todo' (todo'.joinM (q x).rows
              (traverseHost tree (q x).mask (.host (q x).idx) fuel)))) >>= fun _ =>
            hostPredictLoop (.host (q x).idx) tree (q x).mask (q x).rows fuel r >>= fun _ => kh x := by
        refine List.map_congr_left fun x hx => ?_
        rw [e2 x hx, lift_ok]
        rfl
      rw [hm]
      have c3 := leads_recvAll (idle := idle) xs (fun x => Msg.walked (α := α) (okOr todo' (todo'.joinM (q x).rows
              (traverseHost tree (q x).mask (.host (q x).idx) fuel)))) _ Msg.asWalked (fun x _ => rfl)
        (fun as => lift (mergeWalks todo' as) >>= fun todo =>
            guestPredictLoop n tree mask rows fuel r todo (some res) >>= kg)
        (fun x => hostPredictLoop (.host (q x).idx) tree (q x).mask (q x).rows fuel r >>= fun _ => kh x) n hn
      refine Leads.trans c3 ?_
      rw [← e1, h7, lift_ok]
      exact ih todo'' (some res) h

theorem leads_predictTree {idle : R} (tree : List Node) (mask : Dict Nat Rat)
    (rows : DTable K (SparseVec Rat)) (q : X → PredHost K) (xs : List X) (fuel : Nat) (w : DTable K Rat)
    (h : predictTree tree mask rows (xs.map q) fuel = .ok w)
    (n : Nat) (hn : n = xs.length) (kg : DTable K Rat → Prog K α R) (kh : X → Prog K α R) :
    Leads (lock idle (guestPredictTree n tree mask rows fuel >>= kg)
        (xs.map fun x => hostPredictLoop (.host (q x).idx) tree (q x).mask (q x).rows fuel fuel >>= fun _ => kh x))
      (lock idle (kg w) (xs.map kh)) := by
  simp only [predictTree, bind, Except.bind] at h
  split at h
  · cases h
  rename_i todo h1
  have hg : (guestPredictTree (α := α) n tree mask rows fuel >>= kg)
      = guestPredictLoop n tree mask rows fuel fuel todo none >>= kg := by
    simp only [guestPredictTree, h1, lift_ok]
  rw [hg]
  exact leads_predictLoop tree mask rows q xs fuel fuel todo none w h n hn kg kh

omit [DecidableEq K] in
theorem predHosts_eq (hosts : List (Party K)) (masks : List (Dict Nat Rat))
    (ts : List (DTable K (List Rat))) (v : DTable K (List Rat) → DTable K (SparseVec Rat))
    (hm : masks.length = hosts.length) (ht : ts.length = hosts.length) :
    predHosts hosts masks (ts.map v)
      = (hosts.zipIdx.zip ts).map fun z => ⟨z.1.1.idx, masks.getD z.1.2 [], v z.2⟩ := by
  suffices h : ∀ (pre : List (Dict Nat Rat)) (ms : List (Dict Nat Rat)) (hosts : List (Party K))
      (ts : List (DTable K (List Rat))), ms.length = hosts.length → ts.length = hosts.length →
      predHosts hosts ms (ts.map v)
        = ((hosts.zipIdx pre.length).zip ts).map fun z => ⟨z.1.1.idx, (pre ++ ms).getD z.1.2 [], v z.2⟩ from
    h [] masks hosts ts hm ht
  clear hm ht
  intro pre ms hosts
  induction hosts generalizing pre ms with
  | nil => intro ts _ _; simp [predHosts]
  | cons H hosts ih =>
    intro ts hm ht
    obtain ⟨m, ms, rfl⟩ : ∃ m ms', ms = m :: ms' := by
      cases ms with
      | nil => simp at hm
      | cons m ms => exact ⟨m, ms, rfl⟩
    obtain ⟨t, ts, rfl⟩ : ∃ t ts', ts = t :: ts' := by
      cases ts with
      | nil => simp at ht
      | cons t ts => exact ⟨t, ts, rfl⟩
    have := ih (pre ++ [m]) ms ts (by simpa using hm) (by simpa using ht)
    simp only [List.map_cons, predHosts, List.zipIdx_cons, List.zip_cons_cons]
    rw [this]
    simp [List.getD]

theorem getAt_map {β γ : Type} (f : β → γ) (l : List β) (i : Nat) (a : β) (h : getAt l i = .ok a) :
    getAt (l.map f) i = .ok (f a) ∧ a ∈ l := by
  simp only [getAt] at h ⊢
  cases hi : l[i]? with
  | none => simp [hi] at h
  | some b =>
    simp only [hi, Except.ok.injEq] at h
    subst h
    simp [hi, List.mem_of_getElem? hi]

theorem leads_predictRound {idle : R} (hosts : List (Party K)) (rate : Rate) (dim : Nat)
    (trees : List Saved) (rows : DTable K (SparseVec Rat)) (ts : List (DTable K (List Rat)))
    (v : DTable K (List Rat) → DTable K (SparseVec Rat)) (ht : ts.length = hosts.length)
    (hm : MasksOk hosts.length trees) (fuel i r t : Nat) (sc out : DTable K (List Rat))
    (h : predictRound hosts rate dim trees rows (ts.map v) fuel i r t sc = .ok out)
    (kg : DTable K (List Rat) → Prog K α R)
    (kh : (Party K × Nat) × DTable K (List Rat) → Prog K α R) :
    Leads (lock idle (guestPredictRound hosts.length rate dim (trees.map fun P => (P.nodes, P.guestMask)) rows
          fuel i r t sc >>= kg)
        ((hosts.zipIdx.zip ts).map fun z => hostPredictRound z.1.1.idx dim (hpart z.1.2 trees) (v z.2)
          fuel i r t >>= fun _ => kh z))
      (lock idle (kg out) ((hosts.zipIdx.zip ts).map kh)) := by
  induction r generalizing t sc with
  | zero =>
    simp only [predictRound, Except.ok.injEq] at h
    subst h
    exact Leads.refl _
  | succ r ih =>
    simp only [predictRound, bind, Except.bind] at h
    split at h
    · cases h
    rename_i P hP
    split at h
    · cases h
    rename_i sc1 h1
    simp only [predictAdd, bind, Except.bind] at h1
    split at h1
    · cases h1
    rename_i w hw
    obtain ⟨p1, p2⟩ := getAt_map (fun P : Saved => (P.nodes, P.guestMask)) trees _ P hP
    have e1 : (load (K := K) P).hostMasks = P.hostMasks := rfl
    rw [e1, predHosts_eq hosts P.hostMasks ts v (hm P p2) ht] at hw
    have hlen : hosts.length = (hosts.zipIdx.zip ts).length := by simp [ht]
    have c1 := leads_predictTree (idle := idle) _ _ _ _ _ _ w hw hosts.length hlen
      (fun w => lift (updateF rate t sc (some w)) >>= fun sc =>
        guestPredictRound hosts.length rate dim (trees.map fun P => (P.nodes, P.guestMask)) rows
          fuel i r (t + 1) sc >>= kg)
      (fun z => hostPredictRound z.1.1.idx dim (hpart z.1.2 trees) (v z.2) fuel i r (t + 1) >>= fun _ => kh z)
    have hg : (guestPredictRound (α := α) hosts.length rate dim (trees.map fun P => (P.nodes, P.guestMask)) rows
          fuel i (r + 1) t sc >>= kg)
        = guestPredictTree hosts.length (P.nodes.map loadNode) P.guestMask rows fuel >>= fun w =>
          lift (updateF rate t sc (some w)) >>= fun sc =>
          guestPredictRound hosts.length rate dim (trees.map fun P => (P.nodes, P.guestMask)) rows
          fuel i r (t + 1) sc >>= kg := by
      simp only [guestPredictRound, bind_bind, p1, lift_ok]
    have hh : ((hosts.zipIdx.zip ts).map fun z => hostPredictRound (α := α) z.1.1.idx dim (hpart z.1.2 trees) (v z.2)
          fuel i (r + 1) t >>= fun _ => kh z)
        = (hosts.zipIdx.zip ts).map fun z => hostPredictLoop (.host z.1.1.idx) (P.nodes.map loadNode)
            (P.hostMasks.getD z.1.2 []) (v z.2) fuel fuel >>= fun _ =>
            hostPredictRound z.1.1.idx dim (hpart z.1.2 trees) (v z.2) fuel i r (t + 1) >>= fun _ => kh z := by
      refine List.map_congr_left fun z _ => ?_
      have p3 := (getAt_map (hostTree z.1.2) trees _ P hP).1
      simp only [hostPredictRound, bind_bind]
      rw [show hpart z.1.2 trees = trees.map (hostTree z.1.2) from rfl, p3, lift_ok]
      rfl
    rw [hg, hh]
    refine Leads.trans c1 ?_
    rw [h1, lift_ok]
    exact ih (t + 1) sc1 h

theorem leads_predictRounds {idle : R} (hosts : List (Party K)) (rate : Rate) (dim : Nat)
    (trees : List Saved) (rows : DTable K (SparseVec Rat)) (ts : List (DTable K (List Rat)))
    (v : DTable K (List Rat) → DTable K (SparseVec Rat)) (ht : ts.length = hosts.length)
    (hm : MasksOk hosts.length trees) (fuel r i : Nat) (sc out : DTable K (List Rat))
    (h : predictRounds hosts rate dim trees rows (ts.map v) fuel r i sc = .ok out)
    (kg : DTable K (List Rat) → Prog K α R)
    (kh : (Party K × Nat) × DTable K (List Rat) → Prog K α R) :
    Leads (lock idle (guestPredictRounds hosts.length rate dim (trees.map fun P => (P.nodes, P.guestMask)) rows
          fuel r i sc >>= kg)
        ((hosts.zipIdx.zip ts).map fun z => hostPredictRounds z.1.1.idx dim (hpart z.1.2 trees) (v z.2)
          fuel r i >>= fun _ => kh z))
      (lock idle (kg out) ((hosts.zipIdx.zip ts).map kh)) := by
  induction r generalizing i sc with
  | zero =>
    simp only [predictRounds, Except.ok.injEq] at h
    subst h
    exact Leads.refl _
  | succ r ih =>
    simp only [predictRounds, bind, Except.bind] at h
    split at h
    · cases h
    rename_i sc1 h1
    simp only [guestPredictRounds, hostPredictRounds, bind_bind]
    exact Leads.trans (leads_predictRound hosts rate dim trees rows ts v ht hm fuel i dim 0 sc sc1 h1 _ _)
      (ih (i + 1) sc1 h)

theorem alignAll_map (d : DTable K (SparseVec Rat)) (ts : List (DTable K (List Rat)))
    (hs : List (DTable K (SparseVec Rat))) (h : alignAll ts = .ok hs) :
    hs = ts.map (fun t => okOr d (alignRows t)) ∧ ∀ t ∈ ts, alignRows t = .ok (okOr d (alignRows t)) := by
  induction ts generalizing hs with
  | nil =>
    simp only [alignAll, Except.ok.injEq] at h
    exact ⟨by simp [← h], fun x hx => by simp at hx⟩
  | cons x xs ih =>
    simp only [alignAll, bind, Except.bind] at h
    split at h
    · cases h
    rename_i t ht
    split at h
    · cases h
    rename_i ts hts
    simp only [pure, Except.pure, Except.ok.injEq] at h
    subst h
    obtain ⟨e1, e2⟩ := ih ts hts
    refine ⟨by rw [List.map_cons, ← e1, ht]; rfl, fun y hy => ?_⟩
    rcases List.mem_cons.mp hy with rfl | hy
    · simp [ht, okOr]
    · exact e2 y hy

theorem leads_predict {idle : R} (hosts : List (Party K)) (rate : Rate) (dim : Nat) (init : List Rat)
    (trees : List Saved) (guest : DTable K (List Rat)) (ts : List (DTable K (List Rat)))
    (ht : ts.length = hosts.length) (hm : MasksOk hosts.length trees) (fuel : Nat)
    (out : DTable K (List Rat))
    (h : predictScores hosts rate dim init trees guest ts fuel = .ok out)
    (kg : DTable K (List Rat) → Prog K α R)
    (kh : (Party K × Nat) × DTable K (List Rat) → Prog K α R) :
    Leads (lock idle (guestPredict hosts.length rate dim init (trees.map fun P => (P.nodes, P.guestMask)) guest
          fuel >>= kg)
        ((hosts.zipIdx.zip ts).map fun z => hostPredict z.1.1.idx dim (hpart z.1.2 trees) z.2
          fuel >>= fun _ => kh z))
      (lock idle (kg out) ((hosts.zipIdx.zip ts).map kh)) := by
  simp only [predictScores, bind, Except.bind] at h
  split at h
  · cases h
  rename_i g h1
  split at h
  · cases h
  rename_i hs h2
  split at h
  · cases h
  rename_i sc h3
  obtain ⟨e1, e2⟩ := alignAll_map g ts hs h2
  subst e1
  by_cases hd : dim = 0
  · simp [hd] at h
  · simp only [if_neg hd] at h
    have c1 := leads_predictRounds (idle := idle) hosts rate dim trees g ts _ ht hm fuel _ 0 sc out h kg kh
    have hg : (guestPredict (α := α) hosts.length rate dim init (trees.map fun P => (P.nodes, P.guestMask)) guest
          fuel >>= kg)
        = guestPredictRounds hosts.length rate dim (trees.map fun P => (P.nodes, P.guestMask)) g fuel
          (trees.length / dim) 0 sc >>= kg := by
      simp only [guestPredict, h1, h3, lift_ok, if_neg hd, List.length_map]
    have hh : ((hosts.zipIdx.zip ts).map fun z => hostPredict (α := α) z.1.1.idx dim (hpart z.1.2 trees) z.2
          fuel >>= fun _ => kh z)
        = (hosts.zipIdx.zip ts).map fun z => hostPredictRounds z.1.1.idx dim (hpart z.1.2 trees)
          (okOr g (alignRows z.2)) fuel (trees.length / dim) 0 >>= fun _ => kh z := by
      refine List.map_congr_left fun z hz => ?_
      have e3 := e2 z.2 (List.of_mem_zip hz).2
      simp only [hostPredict, bind_bind]
      have e4 : (lift (alignRows z.2) : Prog K α _) = lift (.ok (okOr g (alignRows z.2))) := by rw [← e3]
      rw [e4, lift_ok, if_neg hd]
      simp only [hpart, List.length_map]
    rw [hg, hh]
    exact c1

end Network
end Verif
